import Mathlib.Tactic.Linarith
import Mathlib.Tactic.Ring
import Mathlib.Tactic.FieldSimp
import Mathlib.Tactic.Positivity
import Verif.ALM.SingularTest

/-!
# C142: convergence of the bisection

The position of a point on the path is measured by a function `pos`; the singular point is at the position `σ`.
-/

namespace GsSA.ALM

open GsSA

set_option linter.unusedSectionVars false

variable {K V Mat Fac : Type} [Field K] [LinearOrder K] [IsStrictOrderedRing K] [AddCommGroup V] [Module K V]
variable {e : Env K V Mat Fac} {o : Opts K} {M : Method K V Mat Fac}

/-- The tangent at `U` can be factorised and used for solving, and the vector which decides on stability is `d`. -/
def Shows (e : Env K V Mat Fac) (o : Opts K) (U : V) (d : List K) : Prop :=
  ∃ m f, (∀ n, e.jacobian n U 0 = some m) ∧ (∀ n, e.factorize n m = some f) ∧
    (∀ n x, ∃ y, e.solve n f x = some y) ∧
    ((o.bifMethod = .determinant ∧ e.vecD f = d) ∨
      (o.bifMethod = .eigenvalue ∧ ∀ n, e.eigs n m (-100) = some d))

/-- The tangent at `U` cannot be factorised. -/
def Unfactorable (e : Env K V Mat Fac) (U : V) : Prop :=
  ∃ m, (∀ n, e.jacobian n U 0 = some m) ∧ ∀ n, e.factorize n m = none

/-- The bisection has a path to follow: `P` holds on it, `k` is the number of negative pivots or eigenvalues in front
of the singular point, steps in front of it advance by at least `a` and at most `b` times the length, and fail only if
the singular point is within `b` times the length. -/
structure Bracket (e : Env K V Mat Fac) (o : Opts K) (M : Method K V Mat Fac) (I : St K V Mat Fac → Prop)
    (P : V → K → Prop) (pos : V → K → K) (spec : V → K → List K) (σ a b ℓ κ : K) (k : ℕ) : Prop where
  frame : Framed I
  move : ∀ s U L, I { s with U := U, L := L } = I s
  length : ∀ s l, I { s with len := l } = I s
  fixed : ∀ s c, I { s with adaptive := c } = I s
  kept : ∀ s t st, I s → P s.U s.L → pos s.U s.L < σ → s.adaptive = false → 0 < s.len → s.len ≤ ℓ →
    step e o M s = (t, .ok st) → I t
  success : ∀ s t, I s → P s.U s.L → pos s.U s.L < σ → s.adaptive = false → 0 < s.len → s.len ≤ ℓ →
    step e o M s = (t, .ok .success) →
      P t.U t.L ∧ pos s.U s.L + a * s.len ≤ pos t.U t.L ∧ pos t.U t.L ≤ pos s.U s.L + b * s.len
  failure : ∀ s t st, I s → P s.U s.L → pos s.U s.L < σ → s.adaptive = false → 0 < s.len → s.len ≤ ℓ →
    step e o M s = (t, .ok st) → st ≠ .success → σ ≤ pos s.U s.L + b * s.len
  shows : ∀ U L, P U L → pos U L ≠ σ → Shows e o U (spec U L)
  exact : ∀ U L, P U L → pos U L = σ → Shows e o U (spec U L) ∨ Unfactorable e U
  before : ∀ U L, P U L → pos U L < σ → countNegatives (spec U L) = k
  after : ∀ U L, P U L → σ < pos U L → countNegatives (spec U L) ≠ k
  indicator : ∀ U L, P U L → ∃ x, minCoeff (spec U L) = some x ∧ |x| ≤ κ * |pos U L - σ|

/-! ## Evaluations -/

theorem stability_stored {U : V} {d : List K} {m : Mat} {f : Fac} {x : K} (h1 : ∀ n, e.factorize n m = some f)
    (h2 : (o.bifMethod = .determinant ∧ e.vecD f = d) ∨
      (o.bifMethod = .eigenvalue ∧ ∀ n, e.eigs n m (-100) = some d)) (hx : minCoeff d = some x)
    {s : St K V Mat Fac} (hj : s.jac = m) (hf : s.fac = some f) :
    ∃ t, computeStabilityRaw e o U false (-100) s = (t, .ok ()) ∧ t.negatives = countNegatives d ∧ t.indicator = x ∧
      t.jac = m ∧ t.fac = some f := by
  subst hj
  rcases h2 with ⟨hb, hd⟩ | ⟨hb, hd⟩
  · refine ⟨{ s with
      fac := some f, log := .factor true :: s.log, stabVec := d, negatives := countNegatives d, indicator := x,
      stability := stabilityOf x }, ?_, rfl, rfl, rfl, rfl⟩
    simp only [computeStabilityRaw, Bool.false_eq_true, if_false, Act.bind_apply, Act.pure_apply, stabilityVector, hb,
      Act.get_apply, factorizeMatrix, h1, Act.modify_apply, emit, Option.map_some, Option.getD_some, hd, hx]
  · refine ⟨{ s with
      log := .eig true :: s.log, stabVec := d, negatives := countNegatives d, indicator := x, stability := stabilityOf x }, ?_, rfl, rfl, rfl, hf⟩
    simp only [computeStabilityRaw, Bool.false_eq_true, if_false, Act.bind_apply, Act.pure_apply, stabilityVector, hb,
      Act.get_apply, Act.modify_apply, emit, hd, hx]

theorem stability_fresh {U : V} {d : List K} {m : Mat} {f : Fac} {x : K} (h0 : ∀ n, e.jacobian n U 0 = some m)
    (h1 : ∀ n, e.factorize n m = some f)
    (h2 : (o.bifMethod = .determinant ∧ e.vecD f = d) ∨
      (o.bifMethod = .eigenvalue ∧ ∀ n, e.eigs n m (-100) = some d)) (hx : minCoeff d = some x)
    (s : St K V Mat Fac) :
    ∃ t, computeStabilityRaw e o U true (-100) s = (t, .ok ()) ∧ t.negatives = countNegatives d ∧ t.indicator = x ∧
      t.jac = m ∧ t.fac = some f := by
  have hr : reassemble e U s = ({ s with
      jac := m, fac := some f, log := .factor true :: .factor true :: .jacobian true :: s.log }, .ok ()) := by
    simp only [reassemble, computeJacobianAt, factorizeMatrix, Act.bind_apply, Act.get_apply, h0, h1, emit,
      Act.modify_apply, Act.pure_apply]
  obtain ⟨t, ht, h3⟩ := stability_stored (U := U) h1 h2 hx (s := { s with
      jac := m, fac := some f, log := .factor true :: .factor true :: .jacobian true :: s.log }) rfl rfl
  refine ⟨t, ?_, h3⟩
  rw [← ht]
  unfold computeStabilityRaw
  simp only [if_true, Bool.false_eq_true, if_false]
  rw [Act.bind_ok hr, Act.bind_ok (Act.pure_apply _ _)]

theorem stability_fails {U : V} (h : Unfactorable e U) (s : St K V Mat Fac) :
    ∃ t, computeStabilityRaw e o U true (-100) s = (t, .error .solver) := by
  obtain ⟨m, h0, h1⟩ := h
  refine ⟨{ s with fac := none, log := .factor false :: .jacobian true :: s.log }, ?_⟩
  simp only [computeStabilityRaw, if_true, reassemble, computeJacobianAt, factorizeMatrix, Act.bind_apply,
    Act.get_apply, h0, h1, emit, Act.modify_apply, Act.throw_apply]

theorem objective_run {x : V} {j : Bool} {s t : St K V Mat Fac}
    (h : computeStabilityRaw e o x j (-100) s = (t, .ok ())) : objective e o x j s = (t, .ok t.negatives) := by
  unfold objective
  rw [Act.bind_ok h, Act.bind_ok (Act.get_apply _), Act.pure_apply]

theorem termination_run {x : V} {j : Bool} {s t : St K V Mat Fac}
    (h : computeStabilityRaw e o x j (-100) s = (t, .ok ())) : termination e o x j s = (t, .ok t.indicator) := by
  unfold termination
  rw [Act.bind_ok h, Act.bind_ok (Act.get_apply _), Act.pure_apply]

/-- Vectors obtained from the starting vector by at least one step of the inverse power method. -/
inductive PowerMode (e : Env K V Mat Fac) (f : Fac) : V → Prop
  | first {n : ℕ} {y : V} (h : e.solve n f (normalized e.geo e.ones) = some y) : PowerMode e f (normalized e.geo y)
  | next {n : ℕ} {x y : V} (hx : PowerMode e f x) (h : e.solve n f x = some y) : PowerMode e f (normalized e.geo y)

theorem power_runs {m : Mat} {f : Fac} (h1 : ∀ n, e.factorize n m = some f)
    (h2 : ∀ n x, ∃ y, e.solve n f x = some y) (n : ℕ) :
    ∀ (x : V) {s : St K V Mat Fac}, s.jac = m → PowerMode e f s.v ∨ (s.v = normalized e.geo e.ones ∧ n ≠ 0) →
      ∃ t, bisectionPower e o true n x s = (t, .ok true) ∧ PowerMode e f t.v := by
  induction n with
  | zero => intro x s hs hv; exact ⟨s, rfl, hv.resolve_right fun h => h.2 rfl⟩
  | succ n ih =>
    intro x s hs hv
    obtain ⟨y, hy⟩ := h2 (s.log.length + 1) s.v
    have hsolve : (solveSystem e s.v).run { s with fac := some f, log := .factor true :: s.log } =
        ({ s with fac := some f, log := .solve true :: .factor true :: s.log }, .ok y) := by
      simp only [solveSystem, Act.bind_apply, Act.get_apply, Option.bind_some, List.length_cons, hy, emit,
        Act.modify_apply, Act.pure_apply]
    have hfac : (factorizeMatrix e s.jac).run s = ({ s with fac := some f, log := .factor true :: s.log }, .ok ()) := by
      simp only [factorizeMatrix, Act.bind_apply, Act.get_apply, hs, h1, emit, Act.modify_apply]
    unfold bisectionPower
    rw [Act.bind_ok (Act.get_apply _), Act.bind_ok hfac, Act.bind_ok hsolve, Act.bind_ok (Act.modify_apply _ _),
      Act.bind_ok (Act.get_apply _)]
    have hP : PowerMode e f (normalized e.geo y) := by
      rcases hv with hv | ⟨hv, -⟩
      · exact .next hv hy
      · rw [hv] at hy
        exact .first hy
    split
    · exact ⟨_, rfl, hP⟩
    · exact ih _ hs (Or.inl hP)

/-! ## The loop -/

variable {I : St K V Mat Fac → Prop} {P : V → K → Prop} {pos : V → K → K} {spec : V → K → List K} {σ a b ℓ κ : K} {k : ℕ}

/-- What the loop achieves. -/
def Found (e : Env K V Mat Fac) (o : Opts K) (P : V → K → Prop) (pos : V → K → K) (spec : V → K → List K)
    (σ w : K) (t : St K V Mat Fac) (r : Except Err Bool) : Prop :=
  P t.U t.L ∧ ((r = .error .solver ∧ pos t.U t.L = σ) ∨
    (r = .ok true ∧ Shows e o t.U (spec t.U t.L) ∧ (∀ n, e.jacobian n t.U 0 = some t.jac) ∧
      ∃ x, minCoeff (spec t.U t.L) = some x ∧ |x| < w))

theorem below_ratio_iff {x r tol : K} (hr : r ≠ 0) : below (ratio |x| |r|) tol = true ↔ |x| < tol * |r| := by
  have h := abs_pos.2 hr
  simp only [ratio, h.ne', if_false, below, decide_eq_true_eq, div_lt_iff₀ h]

theorem bisection_found (hM : IsMethod e o M) (h : Bracket e o M I P pos spec σ a b ℓ κ k) (ha : 0 < a) (hb : 0 ≤ b)
    (hκ : 0 ≤ κ) {ref tol ℓ₀ : K} (href : ref ≠ 0) (h0 : ℓ₀ ≤ ℓ) (hp0 : 0 < ℓ₀) {m i : ℕ} (hm : 2 * b ≤ m * a)
    (htol : κ * (2 * b * (ℓ₀ / 2 ^ i)) < tol * |ref|) (rem : ℕ) :
    ∀ {s : St K V Mat Fac} {U : V} {L : K} (j c : ℕ), I s → s.adaptive = false → s.len = ℓ₀ / 2 ^ j → P U L →
      pos U L < σ → σ - pos U L ≤ (2 * b - c * a) * s.len → m * i + 1 ≤ rem + m * j + c → j ≤ i →
      (j = i → c = 0) →
      ∃ t r, bisectionLoop e o M ref tol rem U L k s = (t, r) ∧ Found e o P pos spec σ (tol * |ref|) t r := by
  have hw : 0 < tol * |ref| := lt_of_le_of_lt (by positivity) htol
  have hcount : ∀ {U : V} {L l : K} {c : ℕ}, 0 < l → pos U L < σ → σ - pos U L ≤ (2 * b - c * a) * l → c < m := by
    intro U L l c hl hp hd
    have h1 : 0 < (2 * b - c * a) * l := lt_of_lt_of_le (sub_pos.2 hp) hd
    have h2 : 0 < 2 * b - c * a := (pos_iff_pos_of_mul_pos h1).2 hl
    have h3 : (c : K) * a < m * a := by linarith
    exact_mod_cast lt_of_mul_lt_mul_right h3 ha.le
  induction rem with
  | zero =>
    intro s U L j c hI had hlen hP hp hd hn hj hc
    have hl : 0 < s.len := by rw [hlen]; positivity
    have h1 := hcount hl hp hd
    rcases hj.eq_or_lt with rfl | hlt
    · have := hc rfl
      omega
    · have : m * j + m ≤ m * i := by
        calc m * j + m = m * (j + 1) := by ring
          _ ≤ m * i := Nat.mul_le_mul_left _ hlt
      omega
  | succ rem ih =>
    intro s U L j c hI had hlen hP hp hd hn hj hc
    have hl : 0 < s.len := by rw [hlen]; positivity
    have hll : s.len ≤ ℓ := by
      rw [hlen]
      exact (div_le_self hp0.le (one_le_pow₀ one_le_two)).trans h0
    have hcm := hcount hl hp hd
    have hd2 : σ - pos U L ≤ 2 * b * s.len := hd.trans (by
      have : 0 ≤ (c : K) * a * s.len := by positivity
      linarith)
    have hI0 : I { s with U := U, L := L } := by rw [h.move]; exact hI
    rw [bisectionLoop, Act.bind_ok (Act.modify_apply _ _)]
    rcases hs : step e o M { s with U := U, L := L } with ⟨s1, r1⟩
    obtain ⟨st, rfl, ha1, hl1, hst⟩ := step_constant hM (by exact had) hs
    have hl1' : s1.len = s.len := hl1
    have hI1 : I s1 := h.kept _ _ _ hI0 hP hp had hl hll hs
    rw [Act.bind_ok hs, Act.bind_ok (Act.get_apply _)]
    -- where the step ends
    have hP1 : P s1.U s1.L ∧ |pos s1.U s1.L - σ| ≤ 2 * b * s.len ∧
        ((st = .success ∧ pos s1.U s1.L < σ ∧ σ - pos s1.U s1.L ≤ (2 * b - (c + 1 : ℕ) * a) * s.len) ∨
          (st ≠ .success ∧ s1.U = U ∧ s1.L = L ∧ σ - pos U L ≤ b * s.len) ∨
          (st = .success ∧ σ ≤ pos s1.U s1.L ∧ σ - pos U L ≤ b * s.len)) := by
      have hbl : 0 ≤ b * s.len := by positivity
      have hal : 0 < a * s.len := by positivity
      by_cases hsu : st = .success
      · subst hsu
        obtain ⟨q1, q2, q3⟩ := h.success _ _ hI0 hP hp had hl hll hs
        simp only at q2 q3
        refine ⟨q1, ?_, ?_⟩
        · rw [abs_le]
          constructor <;> linarith
        · rcases lt_or_ge (pos s1.U s1.L) σ with hlt | hge
          · refine Or.inl ⟨rfl, hlt, ?_⟩
            push_cast
            linarith
          · exact Or.inr (Or.inr ⟨rfl, hge, by linarith⟩)
      · have q := h.failure _ _ _ hI0 hP hp had hl hll hs hsu
        simp only at q
        obtain ⟨u1, u2⟩ := hst.resolve_left hsu
        have u1' : s1.U = U := u1
        have u2' : s1.L = L := u2
        refine ⟨by rw [u1', u2']; exact hP, ?_, Or.inr (Or.inl ⟨hsu, u1', u2', by linarith⟩)⟩
        rw [u1', u2', abs_le]
        constructor <;> linarith
    obtain ⟨hP1, hnear, hcase⟩ := hP1
    obtain ⟨x, hx, hxκ⟩ := h.indicator _ _ hP1
    have hlp : lengthsPoint s1 = ((s.len, false), s1.U, s1.L) := by
      simp [lengthsPoint, lengths, point, ha1, hl1']
    by_cases hun : pos s1.U s1.L = σ ∧ Unfactorable e s1.U
    · obtain ⟨s2, h2⟩ := stability_fails (o := o) hun.2 s1
      have hobj : objective e o s1.U true s1 = (s2, .error .solver) := by
        unfold objective
        rw [Act.bind_error h2]
      have e2 := (framed_lengthsPoint.objective s1.U true).run hobj
      rw [hlp] at e2
      simp only [lengthsPoint, lengths, point, Prod.mk.injEq] at e2
      refine ⟨s2, _, Act.bind_error hobj, ?_, Or.inl ⟨rfl, ?_⟩⟩
      · rw [e2.2.1, e2.2.2]; exact hP1
      · rw [e2.2.1, e2.2.2]; exact hun.1
    have hsh : Shows e o s1.U (spec s1.U s1.L) := by
      by_cases hne : pos s1.U s1.L = σ
      · exact (h.exact _ _ hP1 hne).resolve_right fun hu => hun ⟨hne, hu⟩
      · exact h.shows _ _ hP1 hne
    obtain ⟨mat, f, m0, m1, m2, m3⟩ := hsh
    obtain ⟨s2, h2, n2, i2, j2, f2⟩ := stability_fresh m0 m1 m3 hx s1
    have e2 := (framed_lengthsPoint.objective s1.U true).run (objective_run h2)
    rw [hlp] at e2
    simp only [lengthsPoint, lengths, point, Prod.mk.injEq] at e2
    obtain ⟨⟨l2, a2⟩, u2, v2⟩ := e2
    have hI2 : I s2 := by
      have := (h.frame.computeStabilityRaw s1.U true (-100)).run h2
      rw [this]; exact hI1
    rw [Act.bind_ok (objective_run h2), n2]
    -- the length
    obtain ⟨s3, g3, l3, a3, u3, v3, j3, f3, hI3⟩ : ∃ s3, (if k = countNegatives (spec s1.U s1.L) ∧ st = .success then pure ()
        else Act.modify fun s : St K V Mat Fac => { s with len := s.len / 2 }) s2 = (s3, .ok ()) ∧
        s3.len = (if k = countNegatives (spec s1.U s1.L) ∧ st = .success then s.len else s.len / 2) ∧
        s3.adaptive = false ∧ s3.U = s1.U ∧ s3.L = s1.L ∧ s3.jac = mat ∧ s3.fac = some f ∧ I s3 := by
      split
      · exact ⟨s2, rfl, l2, a2, u2, v2, j2, f2, hI2⟩
      · refine ⟨_, rfl, ?_, a2, u2, v2, j2, f2, ?_⟩
        · simp only [l2]
        · rw [h.length]; exact hI2
    rw [Act.bind_ok g3, Act.bind_ok (Act.get_apply _)]
    obtain ⟨s4, h4, n4, i4, j4, f4⟩ := stability_stored (U := s3.U) m1 m3 hx j3 f3
    have e4 := (framed_lengthsPoint.termination s3.U false).run (termination_run h4)
    simp only [lengthsPoint, lengths, point, Prod.mk.injEq] at e4
    obtain ⟨⟨l4, a4⟩, u4, v4⟩ := e4
    have hI4 : I s4 := by
      have := (h.frame.computeStabilityRaw s3.U false (-100)).run h4
      rw [this]; exact hI3
    rw [Act.bind_ok (termination_run h4), i4]
    by_cases hbel : below (ratio |x| |ref|) tol = true
    · rw [if_pos hbel]
      refine ⟨s4, _, rfl, ?_, Or.inr ⟨rfl, ?_, ?_, x, ?_, (below_ratio_iff href).1 hbel⟩⟩ <;> rw [u4, u3]
      · rw [v4, v3]; exact hP1
      · rw [v4, v3]; exact ⟨mat, f, m0, m1, m2, m3⟩
      · rw [j4]; exact m0
      · rw [v4, v3]; exact hx
    rw [if_neg hbel]
    have hnw : ¬|x| < tol * |ref| := fun hh => hbel ((below_ratio_iff href).2 hh)
    have hji : j < i := by
      refine lt_of_le_of_ne hj ?_
      rintro rfl
      refine hnw (lt_of_le_of_lt (hxκ.trans ?_) htol)
      rw [← hlen]
      exact mul_le_mul_of_nonneg_left hnear hκ
    have hneσ : pos s1.U s1.L ≠ σ := by
      intro hh
      refine hnw (lt_of_le_of_lt hxκ ?_)
      rw [hh, sub_self, abs_zero, mul_zero]
      exact hw
    have halve : (¬(k = countNegatives (spec s1.U s1.L) ∧ st = .success)) → σ - pos U L ≤ b * s.len →
        ∃ t r, (if k = countNegatives (spec s1.U s1.L) ∧ st = .success then
            bisectionLoop e o M ref tol rem s3.U s3.L (countNegatives (spec s1.U s1.L))
          else bisectionLoop e o M ref tol rem U L k) s4 = (t, r) ∧
          Found e o P pos spec σ (tol * |ref|) t r := by
      intro hno hbs
      rw [if_neg hno]
      rw [if_neg hno] at l3
      have hl4 : s4.len = s.len / 2 := l4.trans l3
      refine ih (j + 1) 0 hI4 (a4.trans a3) ?_ hP hp ?_ ?_ hji (fun _ => rfl)
      · rw [hl4, hlen, pow_succ, div_div]
      · rw [hl4]
        push_cast
        linarith
      · rw [Nat.mul_succ]
        omega
    rcases hcase with ⟨hsu, hlt, hdd⟩ | ⟨hsu, -, -, hdd⟩ | ⟨hsu, hge, hdd⟩
    · have hyes : k = countNegatives (spec s1.U s1.L) ∧ st = .success := ⟨(h.before _ _ hP1 hlt).symm, hsu⟩
      rw [if_pos hyes] at l3 ⊢
      rw [← hyes.1, u3, v3]
      refine ih j (c + 1) hI4 (a4.trans a3) (l4.trans (l3.trans hlen)) hP1 hlt ?_ (by omega) hj (fun hh => by omega)
      rw [l4, l3]
      exact hdd
    · exact halve (fun hh => hsu hh.2) hdd
    · exact halve (fun hh => h.after _ _ hP1 (lt_of_le_of_ne hge (Ne.symm hneσ)) hh.1.symm) hdd

/-- **C142**: bisection finds the singular point. Started in front of it, it returns `true` at a point whose indicator
is below the tolerance times the one at the start; or it ends exactly in the singular point, where the factorisation
fails. If the steps advance by at least `a` and at most `b` times the length and `2 b ≤ m a`, it needs at most `m` steps
for halving the length, until the length times `2 b κ` is below that tolerance. The stored vector comes from the inverse
power method with the tangent at that point. -/
theorem C142_bisection (hM : IsMethod e o M) (h : Bracket e o M I P pos spec σ a b ℓ κ k) (ha : 0 < a) (hb : 0 ≤ b)
    {s : St K V Mat Fac} {U : V} {L tol x₀ : K} (hI : I s) (hP : P U L) (hp : pos U L < σ)
    (hd : σ - pos U L ≤ 2 * b * s.len) (hl : 0 < s.len) (hl' : s.len ≤ ℓ) (hx : minCoeff (spec U L) = some x₀)
    (hx0 : x₀ ≠ 0) {m i : ℕ} (hm : 2 * b ≤ m * a) (htol : κ * (2 * b * (s.len / 2 ^ i)) < tol * |x₀|)
    (hmax : m * i + 2 ≤ o.maxIt) :
    ∃ t r, bisectionSolve e o M U L tol s = (t, r) ∧ P t.U t.L ∧
      ((r = .error .solver ∧ pos t.U t.L = σ) ∨
        (r = .ok true ∧ t.len = s.len ∧ t.adaptive = s.adaptive ∧
          (∃ x, minCoeff (spec t.U t.L) = some x ∧ |x| < tol * |x₀|) ∧
          ∃ m f, (∀ n, e.jacobian n t.U 0 = some m) ∧ (∀ n, e.factorize n m = some f) ∧ PowerMode e f t.v)) := by
  have hκ : 0 ≤ κ := by
    obtain ⟨x, h1, h2⟩ := h.indicator _ _ hP
    have h3 : 0 < |pos U L - σ| := abs_pos.2 (sub_ne_zero.2 hp.ne)
    by_contra hneg
    have := mul_neg_of_neg_of_pos (not_le.1 hneg) h3
    linarith [abs_nonneg x]
  obtain ⟨mat, f, m0, m1, m2, m3⟩ := h.shows _ _ hP hp.ne
  unfold bisectionSolve
  rw [Act.bind_ok (Act.modify_apply _ _), Act.bind_ok (Act.get_apply _)]
  simp only
  rw [Act.bind_ok (Act.modify_apply _ _)]
  obtain ⟨s1, h1, n1, i1, j1, f1⟩ := stability_fresh m0 m1 m3 hx { s with U := U, L := L, adaptive := false }
  have k1 := (framed_lengthsPoint.termination U true).run (termination_run h1)
  simp only [lengthsPoint, lengths, point, Prod.mk.injEq] at k1
  have hI1 : I s1 := by
    have := (h.frame.computeStabilityRaw U true (-100)).run h1
    rw [this]
    have e1 := h.fixed { s with U := U, L := L } false
    simp only at e1
    rw [e1, h.move]
    exact hI
  rw [Act.bind_ok (termination_run h1), i1]
  obtain ⟨s2, h2, n2, i2, j2, f2⟩ := stability_stored (U := U) m1 m3 hx j1 f1
  have k2 := (framed_lengthsPoint.objective U false).run (objective_run h2)
  simp only [lengthsPoint, lengths, point, Prod.mk.injEq] at k2
  have hI2 : I s2 := by
    have := (h.frame.computeStabilityRaw U false (-100)).run h2
    rw [this]; exact hI1
  rw [Act.bind_ok (objective_run h2), n2, h.before _ _ hP hp]
  have hlen2 : s2.len = s.len := k2.1.1.trans k1.1.1
  obtain ⟨t, r, hr, hPt, hf⟩ := bisection_found hM h ha hb hκ hx0 hl' hl hm htol (o.maxIt - 1) (s := s2) (U := U)
    (L := L) 0 0 hI2 (k2.1.2.trans k1.1.2) (by rw [hlen2]; simp) hP hp (by rw [hlen2]; push_cast; linarith)
    (by omega) (Nat.zero_le _) (fun _ => rfl)
  rcases hf with ⟨rfl, hpos⟩ | ⟨rfl, ⟨mat', f', p0, p1, p2, p3⟩, hj, x, hx', hlt⟩
  · exact ⟨t, _, Act.bind_error hr, hPt, Or.inl ⟨rfl, hpos⟩⟩
  · rw [Act.bind_ok hr, Act.bind_ok (Act.modify_apply _ _)]
    have hjm : t.jac = mat' := by
      have := (hj 0).symm.trans (p0 0)
      exact Option.some.inj this
    obtain ⟨u, hu, hv⟩ := power_runs (o := o) p1 p2 5 0
      (s := { t with len := s.len, adaptive := s.adaptive, v := normalized e.geo e.ones }) hjm
      (Or.inr ⟨rfl, by norm_num⟩)
    have k3 := (framed_lengthsPoint.bisectionPower (fun _ _ => rfl) _ _ _).run hu
    simp only [lengthsPoint, lengths, point, Prod.mk.injEq] at k3
    refine ⟨u, _, hu, ?_, Or.inr ⟨rfl, k3.1.1, k3.1.2, ⟨x, ?_, hlt⟩, mat', f', ?_, p1, hv⟩⟩
    · rw [k3.2.1, k3.2.2]; exact hPt
    · rw [k3.2.1, k3.2.2]; exact hx'
    · rw [k3.2.1]; exact p0

end GsSA.ALM
