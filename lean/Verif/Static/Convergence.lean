import Verif.Static.NewtonProps
import Mathlib.Algebra.Order.Archimedean.Basic
import Mathlib.Tactic.Module

/-!
# Convergence of `gsStaticNewton` on nonlinear problems (C118)
-/

namespace GsSA.Static.Newton

open GsSA GsSA.ALM

set_option linter.unusedSectionVars false

variable {K V Mat : Type} [Field K] [LinearOrder K] [IsStrictOrderedRing K] [AddCommGroup V] [Module K V]

/-- A norm. -/
structure IsNorm (norm : V → K) : Prop extends NormLaws norm where
  add : ∀ x y, norm (x + y) ≤ norm x + norm y
  smul : ∀ (c : K) x, norm (c • x) = |c| * norm x

theorem IsNorm.sub {norm : V → K} (h : IsNorm norm) (x y : V) : norm (x - y) ≤ norm x + norm y := by
  have h1 := h.add x ((-1 : K) • y)
  rw [h.smul, abs_neg, abs_one, one_mul, neg_one_smul, ← sub_eq_add_neg] at h1
  exact h1

theorem IsNorm.comm {norm : V → K} (h : IsNorm norm) (x y : V) : norm (x - y) = norm (y - x) := by
  have h1 := h.smul (-1) (x - y)
  rwa [abs_neg, abs_one, one_mul, neg_one_smul, neg_sub, eq_comm] at h1

/-- The problem has a solution `u`; at distance at most `d` from it the Jacobian can be factorised and
solved with, its inverse is bounded by `b`, and it approximates the residual to second order with constant
`g`. -/
structure Near (e : NEnv K V Mat) (L : K) (r : V → V) (J : V → V →ₗ[K] V) (u : V) (d b g : K) : Prop where
  sol : r u = 0
  res : ∀ n x, e.residual n L x = some (r x)
  jac : ∀ n x dx, e.norm (x - u) ≤ d → ∃ m, e.jacobian n x dx = some m ∧ (∀ j, e.factorize j m = true) ∧
    ∀ j f, ∃ y, e.solve j m f = some y ∧ J x y = f
  inv : ∀ x, e.norm (x - u) ≤ d → ∀ y, e.norm y ≤ b * e.norm (J x y)
  quad : ∀ x, e.norm (x - u) ≤ d → e.norm (r x + J x (x - u)) ≤ g * e.norm (x - u) ^ 2
  pos : 0 ≤ b

section

variable {e : NEnv K V Mat} {L : K} {r : V → V} {J : V → V →ₗ[K] V} {u : V} {d b g : K}

/-- The error after a relaxed Newton correction. -/
theorem Near.contract (h : Near e L r J u d b g) (hN : IsNorm e.norm) (w : K) {x y : V}
    (hx : e.norm (x - u) ≤ d) (hy : J x y = r x) :
    e.norm (x + w • y - u) ≤ |1 - w| * e.norm (x - u) + |w| * (b * g * e.norm (x - u) ^ 2) := by
  have e1 : x + w • y - u = (1 - w) • (x - u) + w • (y + (x - u)) := by module
  rw [e1]
  refine (hN.add _ _).trans ?_
  rw [hN.smul, hN.smul]
  refine add_le_add le_rfl (mul_le_mul_of_nonneg_left ?_ (abs_nonneg w))
  refine (h.inv x hx _).trans ?_
  rw [map_add, hy, mul_assoc]
  exact mul_le_mul_of_nonneg_left (h.quad x hx) h.pos

/-- The error is bounded by the residual. -/
theorem Near.posterior (h : Near e L r J u d b g) (hN : IsNorm e.norm) {x : V} {q : K}
    (hx : e.norm (x - u) ≤ d) (hg : b * g * e.norm (x - u) ≤ q) :
    (1 - q) * e.norm (x - u) ≤ b * e.norm (r x) := by
  have h1 := h.inv x hx (x - u)
  have h2 : e.norm (J x (x - u)) ≤ g * e.norm (x - u) ^ 2 + e.norm (r x) := by
    have := hN.sub (r x + J x (x - u)) (r x)
    rw [add_sub_cancel_left] at this
    exact this.trans (add_le_add (h.quad x hx) le_rfl)
  have h3 := mul_le_mul_of_nonneg_left h2 h.pos
  have h4 := mul_le_mul_of_nonneg_right hg (hN.nonneg (x - u))
  nlinarith

theorem near_iteration {o : Opts K} {s : NSt K V} (h : Near e s.L r J u d b g)
    (hx : e.norm (s.U + s.upd - u) ≤ d) :
    ∃ t, iteration e o s = (t, .ok ()) ∧ J (s.U + s.upd) t.du = s.R ∧ t.U = s.U ∧ t.L = s.L ∧
      t.upd = s.upd + o.relax • t.du ∧ t.R = r (t.U + t.upd) ∧ t.residual = e.norm t.R ∧
      t.residualIni = s.residualIni ∧ t.numIt = s.numIt := by
  obtain ⟨m, h1, h2, h3⟩ := h.jac s.log.length (s.U + s.upd) s.du hx
  obtain ⟨x, h4, h5⟩ := h3 (s.log.length + 1 + 1) s.R
  refine ⟨{ s with
    du := x, DU := some (s.upd + o.relax • x), R := r (s.U + (s.upd + o.relax • x))
    residual := e.norm (r (s.U + (s.upd + o.relax • x)))
    residualOld := e.norm (r (s.U + (s.upd + o.relax • x)))
    log := .residual true :: .solve true :: .factor true :: .jacobian true :: s.log }, ?_, h5, rfl, rfl,
    rfl, rfl, rfl, rfl, rfl⟩
  unfold iteration
  rw [Act.bind_ok (Act.get_apply s), Act.bind_ok (computeJacobian_run h1),
    Act.bind_ok (factorizeMatrix_run (h2 _)), Act.bind_ok (solveSystem_run (x := x) (by simpa using h4)),
    Act.bind_ok (Act.modify_apply _ _), Act.bind_ok (Act.get_apply _),
    Act.bind_ok (computeResidual_run (R := r (s.U + (s.upd + o.relax • x))) (by
      exact h.res _ _))]
  simp only [Act.modify_apply]
  rfl

/-- The errors of the iterates are bounded by `E`. -/
structure Bounds (w d b g : K) (E : ℕ → K) : Prop where
  next : ∀ k, |1 - w| * E k + |w| * (b * g * E k ^ 2) ≤ E (k + 1)
  le : ∀ k, E k ≤ d

/-- In iteration `k` both tests are passed. -/
structure Passes (o : Opts K) (E : ℕ → K) (l dist ini : K) (k : ℕ) : Prop where
  step : E k + E (k + 1) < o.theTolU * (dist - E (k + 1))
  away : E (k + 1) < dist
  res : l * E (k + 1) < o.theTolF * ini

theorem quotLt_of {x y z c : K} (hx : 0 ≤ x) (hz : 0 < z) (hzy : z ≤ y) (h : x < c * z) :
    quotLt x y c = true := by
  have hy : 0 < y := hz.trans_le hzy
  have hc : 0 < c := by
    by_contra hc
    have := mul_nonneg (sub_nonneg.2 (not_lt.1 hc)) hz.le
    linarith
  rw [quotLt, if_neg hy.ne', decide_eq_true_iff, div_lt_iff₀ hy]
  exact h.trans_le (mul_le_mul_of_nonneg_left hzy hc.le)

/-- One iteration, and the test after it. -/
theorem near_step {o : Opts K} (hN : IsNorm e.norm) (h : Near e L r J u d b g) (hg : 0 ≤ g)
    {E : ℕ → K} (hE : Bounds o.relax d b g E) {s : NSt K V} (hL : s.L = L)
    (hR : s.R = r (s.U + s.upd)) (hx : e.norm (s.U + s.upd - u) ≤ E s.numIt) :
    ∃ t, iteration e o s = (t, .ok ()) ∧ t.U = s.U ∧ t.L = L ∧ t.R = r (t.U + t.upd) ∧
      t.residualIni = s.residualIni ∧ t.numIt = s.numIt ∧
      e.norm (t.U + t.upd - u) ≤ E (s.numIt + 1) ∧
      ∀ l, (∀ x, e.norm (x - u) ≤ d → e.norm (r x) ≤ l * e.norm (x - u)) → 0 ≤ l → 0 < o.relax →
        0 < s.residualIni → Passes o E l (e.norm (u - s.U)) s.residualIni s.numIt →
        converged e o t = true := by
  obtain ⟨t, h1, h2, h3, h4, h5, h6, h7, h8, h9⟩ :=
    near_iteration (o := o) (hL ▸ h) (hx.trans (hE.le _))
  have hx' : e.norm (t.U + t.upd - u) ≤ E (s.numIt + 1) := by
    rw [h3, h5, ← add_assoc]
    refine (h.contract hN o.relax (hx.trans (hE.le _)) (h2.trans hR)).trans (le_trans ?_ (hE.next _))
    have h0 := hN.nonneg (s.U + s.upd - u)
    refine add_le_add (mul_le_mul_of_nonneg_left hx (abs_nonneg _))
      (mul_le_mul_of_nonneg_left (mul_le_mul_of_nonneg_left ?_ (mul_nonneg h.pos hg)) (abs_nonneg _))
    exact pow_le_pow_left₀ h0 hx 2
  refine ⟨t, h1, h3, h4.trans hL, h6, h8, h9, hx', fun l hl hl0 hw hi hp => ?_⟩
  rw [converged, Bool.and_eq_true]
  constructor
  · refine quotLt_of (mul_nonneg hw.le (hN.nonneg _)) (sub_pos.2 hp.away) ?_ (lt_of_le_of_lt ?_ hp.step)
    · have k1 := hN.sub t.upd (t.U + t.upd - u)
      have k2 : t.upd - (t.U + t.upd - u) = u - s.U := by rw [h3]; abel
      rw [k2] at k1
      linarith
    · have k1 := hN.smul o.relax t.du
      rw [abs_of_pos hw] at k1
      rw [← k1]
      have k2 : o.relax • t.du = (t.U + t.upd - u) - (s.U + s.upd - u) := by rw [h3, h5]; abel
      rw [k2]
      exact (hN.sub _ _).trans (by linarith)
  · refine quotLt_of (z := s.residualIni) (by rw [h7]; exact hN.nonneg _) hi h8.ge ?_
    rw [h7, h6]
    refine lt_of_le_of_lt (hl _ (hx'.trans (hE.le _))) (lt_of_le_of_lt ?_ hp.res)
    exact mul_le_mul_of_nonneg_left hx' hl0

/-- The loop: errors stay below the bounds, nothing fails, and it stops at the latest where both tests are
passed. -/
theorem near_loop {o : Opts K} (hN : IsNorm e.norm) (h : Near e L r J u d b g) (hg : 0 ≤ g)
    {E : ℕ → K} (hE : Bounds o.relax d b g E) {n : ℕ} {s : NSt K V} (hL : s.L = L)
    (hn : s.numIt + (n + 1) = o.maxIt) (hR : s.R = r (s.U + s.upd))
    (hx : e.norm (s.U + s.upd - u) ≤ E s.numIt) :
    (s.numIt ≤ (loop e o (n + 1) s).1.numIt ∧ (loop e o (n + 1) s).1.numIt < o.maxIt ∧
      e.norm ((loop e o (n + 1) s).1.U - u) ≤ E ((loop e o (n + 1) s).1.numIt + 1)) ∧
    ((loop e o (n + 1) s).2 = .ok () ∨ (loop e o (n + 1) s).2 = .error .notConverged) ∧
    (∀ l N, (∀ x, e.norm (x - u) ≤ d → e.norm (r x) ≤ l * e.norm (x - u)) → 0 ≤ l → 0 < o.relax →
      0 < s.residualIni → s.numIt ≤ N → N < o.maxIt →
      Passes o E l (e.norm (u - s.U)) s.residualIni N →
      (loop e o (n + 1) s).2 = .ok () ∧ (loop e o (n + 1) s).1.numIt ≤ N) := by
  induction n generalizing s with
  | zero =>
    obtain ⟨t, h1, h2, h3, h4, h5, h6, h7, h8⟩ := near_step hN h hg hE hL hR hx
    unfold loop
    rw [Act.bind_ok h1, Act.bind_ok (Act.get_apply _)]
    by_cases hc : converged e o t = true
    · rw [if_pos hc]
      refine ⟨⟨?_, ?_, ?_⟩, .inl rfl, fun l N _ _ _ _ hN' _ _ => ⟨rfl, ?_⟩⟩
      · simp [accept, h6]
      · simp only [accept, Act.modify_apply, h6]; omega
      · simpa [accept, h6] using h7
      · simpa [accept, h6] using hN'
    · rw [if_neg hc, if_pos (by omega)]
      refine ⟨⟨?_, ?_, ?_⟩, .inr (by simp [accept, emit, Act.bind_apply]), fun l N hl hl0 hw hi hN' hm hp => ?_⟩
      · simp [accept, emit, Act.bind_apply, h6]
      · simp only [accept, emit, Act.bind_apply, Act.modify_apply, Act.throw_apply, h6]; omega
      · simpa [accept, emit, Act.bind_apply, h6] using h7
      · have : N = s.numIt := by omega
        exact absurd (h8 l hl hl0 hw hi (this ▸ hp)) hc
  | succ n ih =>
    obtain ⟨t, h1, h2, h3, h4, h5, h6, h7, h8⟩ := near_step hN h hg hE hL hR hx
    unfold loop
    rw [Act.bind_ok h1, Act.bind_ok (Act.get_apply _)]
    by_cases hc : converged e o t = true
    · rw [if_pos hc]
      refine ⟨⟨?_, ?_, ?_⟩, .inl rfl, fun l N _ _ _ _ hN' _ _ => ⟨rfl, ?_⟩⟩
      · simp [accept, h6]
      · simp only [accept, Act.modify_apply, h6]; omega
      · simpa [accept, h6] using h7
      · simpa [accept, h6] using hN'
    · rw [if_neg hc, if_neg (by omega), Act.bind_ok (Act.modify_apply _ _)]
      obtain ⟨⟨a1, a2, a3⟩, a4, a5⟩ := ih (s := { t with numIt := t.numIt + 1 }) h3
        (by simp only; omega) h4 (by
          show e.norm (t.U + t.upd - u) ≤ E (t.numIt + 1)
          rw [h6]
          exact h7)
      refine ⟨⟨?_, a2, a3⟩, a4, fun l N hl hl0 hw hi hN' hm hp => ?_⟩
      · have a1' : t.numIt + 1 ≤ _ := a1
        omega
      · have hne : N ≠ s.numIt := fun hN'' => hc (h8 l hl hl0 hw hi (hN'' ▸ hp))
        refine a5 l N hl hl0 hw (by simpa [h5] using hi) (by simp only; omega) hm ?_
        simpa [h2, h5] using hp

/-! ## C118 -/

/-- The point from which the iterations start: with a head start the update given to `setUpdate` counts. -/
def startPoint (s : NSt K V) : V := s.U + if s.headstart then s.upd else 0

/-- The residual measure at the start, `m_residualIni`. -/
def iniMeasure (e : NEnv K V Mat) (r : V → V) (s : NSt K V) : K :=
  if e.norm (r s.U) = 0 then 1 else e.norm (r s.U)

theorem near_raw {o : Opts K} {s : NSt K V} {x : V} (h : Near e s.L r J u d b g) (hd : s.DU = some x) :
    ∃ t, solveNonlinearRaw e o s = loop e o o.maxIt t ∧ t.U = s.U ∧ t.L = s.L ∧ t.numIt = 0 ∧
      t.U + t.upd = startPoint s ∧ t.R = r (t.U + t.upd) ∧ t.residualIni = iniMeasure e r s := by
  have hstart : ∃ t, start e s = (t, .ok ()) := by
    rcases h' : start e s with ⟨t, r⟩
    cases r with
    | ok _ => exact ⟨t, rfl⟩
    | error x =>
      cases hh : s.headstart <;>
        simp [start, computeResidual, Act.bind_apply, h.res, emit, hh] at h'
  obtain ⟨t, ht⟩ := hstart
  have hs := start_ok ht hd
  have hb : base s = s.U := by simp [base, hd]
  have hU : ({ t with numIt := 0 } : NSt K V).U = s.U := hs.hU.trans hb
  refine ⟨_, ?_, hU, hs.hL, rfl, ?_, ?_, ?_⟩
  · unfold solveNonlinearRaw
    have hl : linearStart e s = (s, .ok ()) := by simp [linearStart, Act.bind_apply, hd]
    rw [Act.bind_ok hl, Act.bind_ok ht, Act.bind_ok (Act.modify_apply _ _)]
  · show t.U + ({ t with numIt := 0 } : NSt K V).upd = _
    rw [hs.upd x hd, show t.U = s.U from hU, startPoint, NSt.upd, hd]
    rfl
  · obtain ⟨k, hk⟩ := hs.res
    rw [h.res, ← hs.hU, Option.some.injEq] at hk
    exact hk.symm
  · obtain ⟨k, R, hk, hi⟩ := hs.ini
    rw [h.res, hb, Option.some.injEq] at hk
    rw [hi, ← hk]
    rfl

/-- **C118**, general form: if the errors of the start point and of relaxed Newton corrections are bounded
by a sequence `E`, then the solver ends with `Success` or `NotConverged`, the error of `solution()` after
`k + 1` iterations is at most `E (k + 1)`, and the status is `Success` if there is an iteration within
`maxIt` at which the bounds pass both tests. -/
theorem C118_bounds {o : Opts K} {s : NSt K V} {x : V} (hN : IsNorm e.norm)
    (h : Near e s.L r J u d b g) (hg : 0 ≤ g) {E : ℕ → K} (hE : Bounds o.relax d b g E)
    (hd : s.DU = some x) (hm : o.maxIt ≠ 0) (h0 : e.norm (startPoint s - u) ≤ E 0) :
    let q := solveNonlinear e o s
    (q.1 = .success ∨ q.1 = .notConverged) ∧ q.2.numIt < o.maxIt ∧
      e.norm (q.2.U - u) ≤ E (q.2.numIt + 1) ∧
      ∀ l N, (∀ x, e.norm (x - u) ≤ d → e.norm (r x) ≤ l * e.norm (x - u)) → 0 ≤ l → 0 < o.relax →
        N < o.maxIt → Passes o E l (e.norm (u - s.U)) (iniMeasure e r s) N →
        q.1 = .success ∧ q.2.numIt ≤ N := by
  intro q
  obtain ⟨t, a1, a2, a3, a4, a5, a6, a7⟩ := near_raw (o := o) h hd
  obtain ⟨n, hn⟩ := Nat.exists_eq_succ_of_ne_zero hm
  obtain ⟨⟨-, c2, c3⟩, c4, c5⟩ := near_loop (s := t) (n := n) hN h hg hE a3 (by omega) a6
    (by rw [a4, a5]; exact h0)
  have hini : 0 < t.residualIni := by
    rw [a7, iniMeasure]
    split
    · exact one_pos
    · rename_i hne
      exact lt_of_le_of_ne (hN.nonneg _) (Ne.symm hne)
  have hq : q = caught (loop e o (n + 1)) t := by
    show caught _ s = _
    unfold caught
    rw [a1, hn]
  rcases hl : loop e o (n + 1) t with ⟨v, res⟩
  rw [hl] at c2 c3 c4 c5
  have hq2 : q.2.U = v.U ∧ q.2.numIt = v.numIt ∧ (res = .ok () → q.1 = .success) ∧
      (res = .error .notConverged → q.1 = .notConverged) := by
    rw [hq, caught, hl]
    rcases res with y | y <;> refine ⟨rfl, rfl, fun hy => ?_, fun hy => ?_⟩ <;> simp_all [statusOf]
  obtain ⟨b1, b2, b3, b4⟩ := hq2
  refine ⟨c4.imp b3 b4, by rw [b2]; exact c2, by rw [b1, b2]; exact c3, fun l N hl' hl0 hw hm' hp => ?_⟩
  obtain ⟨k1, k2⟩ := c5 l N hl' hl0 hw hini (by omega) hm' (by rw [a2, a7]; exact hp)
  exact ⟨b3 k1, by rw [b2]; exact k2⟩

/-- **C118**: quadratic convergence. Without relaxation and from a start point with
`q = b g |start - u| < 1`, the error of `solution()` after `k + 1` iterations is at most
`q ^ (2 ^ (k + 1) - 1) |start - u|`. -/
theorem C118_quadratic {o : Opts K} {s : NSt K V} {x : V} (hN : IsNorm e.norm)
    (h : Near e s.L r J u d b g) (hg : 0 ≤ g) (ho : o.relax = 1) (hd : s.DU = some x) (hm : o.maxIt ≠ 0)
    (h0 : e.norm (startPoint s - u) ≤ d) (hq : b * g * e.norm (startPoint s - u) ≤ 1) :
    let p := solveNonlinear e o s
    (p.1 = .success ∨ p.1 = .notConverged) ∧
      e.norm (p.2.U - u) ≤ (b * g * e.norm (startPoint s - u)) ^ (2 ^ (p.2.numIt + 1) - 1) *
        e.norm (startPoint s - u) := by
  have hq0 : 0 ≤ b * g * e.norm (startPoint s - u) :=
    mul_nonneg (mul_nonneg h.pos hg) (hN.nonneg _)
  have hE : Bounds o.relax d b g fun k => (b * g * e.norm (startPoint s - u)) ^ (2 ^ k - 1) *
      e.norm (startPoint s - u) := by
    refine ⟨fun k => le_of_eq ?_, fun k => (mul_le_of_le_one_left (hN.nonneg _)
      (pow_le_one₀ hq0 hq)).trans h0⟩
    have h1 : 2 ^ (k + 1) - 1 = 2 * (2 ^ k - 1) + 1 := by
      have := Nat.one_le_two_pow (n := k)
      rw [pow_succ]; omega
    rw [ho, sub_self, abs_zero, zero_mul, zero_add, abs_one, one_mul, h1]
    ring
  obtain ⟨h1, -, h2, -⟩ := C118_bounds hN h hg hE hd hm (by simp)
  exact ⟨h1, h2⟩

/-- Bounds with relaxation. -/
theorem relaxed_bounds {w E₀ : K} (hb : 0 ≤ b) (hg : 0 ≤ g) (h0 : 0 ≤ E₀) (hd : E₀ ≤ d)
    (hq : |1 - w| + |w| * (b * g * E₀) ≤ 1) :
    Bounds w d b g fun k => (|1 - w| + |w| * (b * g * E₀)) ^ k * E₀ := by
  have hbg : 0 ≤ b * g * E₀ := mul_nonneg (mul_nonneg hb hg) h0
  have hk : 0 ≤ |1 - w| + |w| * (b * g * E₀) :=
    add_nonneg (abs_nonneg _) (mul_nonneg (abs_nonneg _) hbg)
  refine ⟨fun k => ?_, fun k => (mul_le_of_le_one_left h0 (pow_le_one₀ hk hq)).trans hd⟩
  set c := |1 - w| + |w| * (b * g * E₀) with hc
  have h1 : (c ^ k) * (c ^ k) ≤ c ^ k := mul_le_of_le_one_left (pow_nonneg hk k) (pow_le_one₀ hk hq)
  have h2 : |w| * (b * g * (c ^ k * E₀) ^ 2) ≤ |w| * (b * g * E₀) * (c ^ k * E₀) := by
    have : |w| * (b * g * (c ^ k * E₀) ^ 2) = |w| * (b * g * E₀) * E₀ * (c ^ k * c ^ k) := by ring
    have k1 := mul_le_mul_of_nonneg_left h1 (mul_nonneg (mul_nonneg (abs_nonneg w) hbg) h0)
    rw [this]
    linarith
  calc |1 - w| * (c ^ k * E₀) + |w| * (b * g * (c ^ k * E₀) ^ 2)
      ≤ |1 - w| * (c ^ k * E₀) + |w| * (b * g * E₀) * (c ^ k * E₀) := by linarith
    _ = c ^ (k + 1) * E₀ := by rw [pow_succ, hc]; ring

/-- **C118**: with relaxation `w` the error is reduced by `|1 - w| + |w| q` in each iteration. -/
theorem C118_relaxed {o : Opts K} {s : NSt K V} {x : V} (hN : IsNorm e.norm)
    (h : Near e s.L r J u d b g) (hg : 0 ≤ g) (hd : s.DU = some x) (hm : o.maxIt ≠ 0)
    (h0 : e.norm (startPoint s - u) ≤ d)
    (hq : |1 - o.relax| + |o.relax| * (b * g * e.norm (startPoint s - u)) ≤ 1) :
    let p := solveNonlinear e o s
    (p.1 = .success ∨ p.1 = .notConverged) ∧
      e.norm (p.2.U - u) ≤ (|1 - o.relax| + |o.relax| * (b * g * e.norm (startPoint s - u))) ^
        (p.2.numIt + 1) * e.norm (startPoint s - u) := by
  obtain ⟨h1, -, h2, -⟩ := C118_bounds hN h hg (relaxed_bounds h.pos hg (hN.nonneg _) h0 hq) hd hm
    (by simp)
  exact ⟨h1, h2⟩

/-- **C118**: `Success`. With positive tolerances, a start point in the region of contraction, a
displacement set which is not the solution, and enough iterations allowed, the status is `Success`. -/
theorem C118_success [Archimedean K] {s : NSt K V} {x : V} (hN : IsNorm e.norm)
    (h : Near e s.L r J u d b g) (hg : 0 ≤ g) (hd : s.DU = some x) {w tF tU l : K} (hw : 0 < w)
    (h0 : e.norm (startPoint s - u) ≤ d) (hF : 0 < tF) (hU : 0 < tU) (hne : s.U ≠ u)
    (hl : ∀ x, e.norm (x - u) ≤ d → e.norm (r x) ≤ l * e.norm (x - u)) (hl0 : 0 ≤ l)
    (hq : |1 - w| + |w| * (b * g * e.norm (startPoint s - u)) < 1) :
    ∃ N, ∀ o : Opts K, o.relax = w → o.theTolF = tF → o.theTolU = tU → N < o.maxIt →
      (solveNonlinear e o s).1 = .success ∧ (solveNonlinear e o s).2.numIt ≤ N := by
  set E₀ := e.norm (startPoint s - u) with hE₀
  have hE0 : 0 ≤ E₀ := hN.nonneg _
  set c := |1 - w| + |w| * (b * g * E₀) with hc
  have hc0 : 0 ≤ c := add_nonneg (abs_nonneg _)
    (mul_nonneg (abs_nonneg _) (mul_nonneg (mul_nonneg h.pos hg) hE0))
  have hdist : 0 < e.norm (u - s.U) := lt_of_le_of_ne (hN.nonneg _) fun h' =>
    hne (sub_eq_zero.1 ((hN.zero _).1 h'.symm)).symm
  have hini : 0 < iniMeasure e r s := by
    rw [iniMeasure]
    split
    · exact one_pos
    · rename_i hn
      exact lt_of_le_of_ne (hN.nonneg _) (Ne.symm hn)
  set D := e.norm (u - s.U) with hD
  set I := iniMeasure e r s with hI
  obtain ⟨ε, hε, e1, e2, e3⟩ : ∃ ε : K, 0 < ε ∧ (2 + tU) * ε ≤ tU * D ∧ ε ≤ D ∧ (l + 1) * ε ≤ tF * I := by
    have p1 : 0 < 2 + tU := by linarith
    have p2 : 0 < l + 1 := by linarith
    refine ⟨min (min (tU * D / (2 + tU)) D) (tF * I / (l + 1)), ?_, ?_, ?_, ?_⟩
    · exact lt_min (lt_min (div_pos (mul_pos hU hdist) p1) hdist) (div_pos (mul_pos hF hini) p2)
    · have := (min_le_left (min (tU * D / (2 + tU)) D) (tF * I / (l + 1))).trans (min_le_left _ _)
      rw [le_div_iff₀ p1] at this
      linarith
    · exact (min_le_left _ _).trans (min_le_right _ _)
    · have := min_le_right (min (tU * D / (2 + tU)) D) (tF * I / (l + 1))
      rw [le_div_iff₀ p2] at this
      linarith
  obtain ⟨N, hNp⟩ := exists_pow_lt_of_lt_one (div_pos hε (show 0 < E₀ + 1 by linarith)) hq
  have hEN : c ^ N * E₀ < ε := by
    rw [lt_div_iff₀ (by linarith)] at hNp
    have := pow_nonneg hc0 N
    linarith
  have hEN1 : c ^ (N + 1) * E₀ ≤ c ^ N * E₀ := by
    rw [pow_succ]
    exact mul_le_mul_of_nonneg_right (mul_le_of_le_one_right (pow_nonneg hc0 N) hq.le) hE0
  have hEN0 : 0 ≤ c ^ (N + 1) * E₀ := mul_nonneg (pow_nonneg hc0 _) hE0
  refine ⟨N, fun o ho hoF hoU hm => ?_⟩
  have hB : Bounds o.relax d b g fun k => c ^ k * E₀ := by
    rw [ho]; exact relaxed_bounds h.pos hg hE0 h0 hq.le
  obtain ⟨-, -, -, key⟩ := C118_bounds hN h hg hB hd (by omega) (by simp [hE₀])
  refine key l N hl hl0 (by rw [ho]; exact hw) hm ⟨?_, ?_, ?_⟩
  · rw [hoU]
    have := mul_le_mul_of_nonneg_left (hEN1.trans hEN.le) hU.le
    show c ^ N * E₀ + c ^ (N + 1) * E₀ < tU * (D - c ^ (N + 1) * E₀)
    nlinarith
  · show c ^ (N + 1) * E₀ < D
    linarith
  · rw [hoF]
    show l * (c ^ (N + 1) * E₀) < tF * I
    have := mul_le_mul_of_nonneg_left (hEN1.trans hEN.le) hl0
    nlinarith

/-- **C118**: after `Success`, the error is bounded by the tolerance. -/
theorem C118_error {o : Opts K} {s : NSt K V} {x : V} (hN : IsNorm e.norm)
    (h : Near e s.L r J u d b g) (hg : 0 ≤ g) (hd : s.DU = some x) (hm : o.maxIt ≠ 0)
    (h0 : e.norm (startPoint s - u) ≤ d)
    (hq : |1 - o.relax| + |o.relax| * (b * g * e.norm (startPoint s - u)) ≤ 1)
    (hs : (solveNonlinear e o s).1 = .success) :
    (1 - b * g * e.norm (startPoint s - u)) * e.norm ((solveNonlinear e o s).2.U - u) ≤
      b * (o.theTolF * iniMeasure e r s) := by
  obtain ⟨-, h1⟩ := C118_relaxed hN h hg hd hm h0 hq
  have hk : 0 ≤ |1 - o.relax| + |o.relax| * (b * g * e.norm (startPoint s - u)) :=
    add_nonneg (abs_nonneg _) (mul_nonneg (abs_nonneg _)
      (mul_nonneg (mul_nonneg h.pos hg) (hN.nonneg _)))
  have h2 := h1.trans (mul_le_of_le_one_left (hN.nonneg _) (pow_le_one₀ hk hq))
  refine (h.posterior hN (h2.trans h0)
    (mul_le_mul_of_nonneg_left h2 (mul_nonneg h.pos hg))).trans ?_
  refine mul_le_mul_of_nonneg_left ?_ h.pos
  obtain ⟨R₀, R, k₀, k, y, a1, a2, a3, -⟩ := C46_success hm hs
  have hb : base s = s.U := by simp [base, hd]
  rw [h.res, Option.some.injEq] at a1 a2
  rw [← a1, ← a2, hb] at a3
  have hini : 0 < iniMeasure e r s := by
    rw [iniMeasure]
    split
    · exact one_pos
    · rename_i hn
      exact lt_of_le_of_ne (hN.nonneg _) (Ne.symm hn)
  change quotLt _ (iniMeasure e r s) _ = true at a3
  rw [quotLt, if_neg hini.ne', decide_eq_true_iff, div_lt_iff₀ hini] at a3
  exact a3.le

/-- **C118**, violated: a solver whose displacement is the solution already, without a head start, reports
`NotConverged` for every `maxIt` and all tolerances. -/
theorem C118_violated_equilibrium {o : Opts K} {s : NSt K V} {x : V} (hN : IsNorm e.norm)
    (h : Near e s.L r J u d b g) (hg : 0 ≤ g) (hd : s.DU = some x) (hm : o.maxIt ≠ 0) (hd0 : 0 ≤ d)
    (hw : 0 ≤ o.relax) (hw2 : o.relax ≤ 2) (hh : s.headstart = false) (hU : s.U = u) :
    (solveNonlinear e o s).1 = .notConverged := by
  have hz : e.norm (startPoint s - u) = 0 := by
    rw [hN.zero]; simp [startPoint, hh, hU]
  obtain ⟨h1, h2⟩ := C118_relaxed (o := o) hN h hg hd hm (by rw [hz]; exact hd0)
    (by rw [hz, mul_zero, mul_zero, add_zero, abs_le]; constructor <;> linarith)
  rcases h1 with h1 | h1
  · rw [hz, mul_zero] at h2
    have h3 := sub_eq_zero.1 ((hN.zero _).1 (le_antisymm h2 (hN.nonneg _)))
    obtain ⟨R₀, R, k₀, k, y, -, -, -, a4, a5, a6, -⟩ := C46_success hm h1
    have hb : base s = s.U := by simp [base, hd]
    rw [h3, hb, hU] at a6
    have hy : y = 0 := by simpa using a6
    rw [hy, (hN.zero 0).2 rfl, quotLt, if_pos rfl, decide_eq_true_iff] at a4
    exact absurd a4 (not_lt.2 (mul_nonneg hw (hN.nonneg _)))
  · exact h1

/-- **C118**, without an update vector (`setUpdate` with an empty vector): the run is the one from displacement
0 with the linear solution as head start, so the theorems above apply with that start. -/
theorem C118_linearStart {o : Opts K} {s : NSt K V} {x : V} (hd : s.DU = none)
    (hf : e.factorize s.log.length e.linear = true)
    (hx : e.solve (s.log.length + 1) e.linear e.force = some x) :
    solveNonlinear e o s = solveNonlinear e o { s with
      du := x, DU := some x, U := 0, headstart := true
      log := .solve true :: .factor true :: s.log } := by
  simp [solveNonlinear, caught, solveNonlinearRaw, linearStart, solveLinearRaw, factorizeMatrix,
    solveSystem, Act.bind_apply, hd, hf, hx, emit]

end

/-! ## Example: `2 u + u³ = 3` -/

theorem Demo.isNorm (load c : ℚ) (bad : ℕ → Bool) : IsNorm (Demo.nenv load c bad).norm where
  toNormLaws := Demo.norm_laws load c bad
  add := abs_add_le
  smul c x := by simp [Demo.nenv, abs_mul]

/-- The hypotheses hold at distance 1/2 from the solution 1. -/
theorem Demo.near : Near (Demo.nenv 3 1 fun _ => false) 1 (fun x => 3 - 2 * x - x ^ 3)
    (fun x => (2 + 3 * x ^ 2) • LinearMap.id) 1 (1 / 2) (1 / 2) 4 where
  sol := by norm_num
  res n x := by simp [Demo.nenv]
  jac n x dx hx := by
    have h : (2 + 3 * x ^ 2 : ℚ) ≠ 0 := by positivity
    refine ⟨2 + 3 * x ^ 2, by simp [Demo.nenv], fun j => by simp [Demo.nenv, h], fun j f =>
      ⟨f / (2 + 3 * x ^ 2), rfl, ?_⟩⟩
    simp only [LinearMap.smul_apply, LinearMap.id_apply, smul_eq_mul]
    field_simp
  inv x hx y := by
    simp only [Demo.nenv, LinearMap.smul_apply, LinearMap.id_apply, smul_eq_mul, abs_mul]
    rw [abs_of_pos (show (0 : ℚ) < 2 + 3 * x ^ 2 by positivity)]
    nlinarith [abs_nonneg y, mul_nonneg (sq_nonneg x) (abs_nonneg y)]
  quad x hx := by
    simp only [Demo.nenv] at hx ⊢
    have h1 := abs_le.1 hx
    have e1 : 3 - 2 * x - x ^ 3 + ((2 + 3 * x ^ 2) • LinearMap.id (R := ℚ) (M := ℚ)) (x - 1) =
        (x - 1) ^ 2 * (2 * x + 1) := by
      simp only [LinearMap.smul_apply, LinearMap.id_apply, smul_eq_mul]
      ring
    rw [e1, abs_mul, abs_of_nonneg (sq_nonneg _), abs_of_nonneg (show 0 ≤ 2 * x + 1 by linarith),
      sq_abs, mul_comm]
    exact mul_le_mul_of_nonneg_right (by linarith) (sq_nonneg _)
  pos := by norm_num

/-- From the head start 3/4: error at most `(1/2) ^ (2 ^ k - 1) / 4` after `k` iterations. -/
example (o : Opts ℚ) (ho : o.relax = 1) (hm : o.maxIt ≠ 0) :
    let p := solveNonlinear (Demo.nenv 3 1 fun _ => false) o (setUpdate (Demo.fresh 1) (some (3 / 4)))
    (p.1 = .success ∨ p.1 = .notConverged) ∧
      |p.2.U - 1| ≤ (1 / 2) ^ (2 ^ (p.2.numIt + 1) - 1) * (1 / 4) := by
  have hE : |startPoint (setUpdate (Demo.fresh 1) (some (3 / 4))) - 1| = 1 / 4 := by decide +kernel
  have h := C118_quadratic (o := o) (s := setUpdate (Demo.fresh 1) (some (3 / 4)))
    (Demo.isNorm 3 1 fun _ => false) Demo.near (by norm_num) ho (x := 3 / 4) rfl hm
    (by show |startPoint (setUpdate (Demo.fresh 1) (some (3 / 4))) - 1| ≤ _; rw [hE]; norm_num)
    (by show _ * |startPoint (setUpdate (Demo.fresh 1) (some (3 / 4))) - 1| ≤ _; rw [hE]; norm_num)
  change _ ∧ _ ≤ (_ * |startPoint (setUpdate (Demo.fresh 1) (some (3 / 4))) - 1|) ^ _ *
    |startPoint (setUpdate (Demo.fresh 1) (some (3 / 4))) - 1| at h
  rw [hE] at h
  norm_num at h ⊢
  exact h

/-- With any positive tolerances and relaxation 1/2 it succeeds if enough iterations are allowed. -/
example (tF tU : ℚ) (hF : 0 < tF) (hU : 0 < tU) :
    ∃ N, ∀ o : Opts ℚ, o.relax = 1 / 2 → o.theTolF = tF → o.theTolU = tU → N < o.maxIt →
      (solveNonlinear (Demo.nenv 3 1 fun _ => false) o
        (setUpdate (Demo.fresh 1) (some (3 / 4)))).1 = .success := by
  have hE : |startPoint (setUpdate (Demo.fresh 1) (some (3 / 4))) - 1| = 1 / 4 := by decide +kernel
  obtain ⟨N, h⟩ := C118_success (s := setUpdate (Demo.fresh 1) (some (3 / 4)))
    (Demo.isNorm 3 1 fun _ => false) Demo.near (by norm_num) (x := 3 / 4) rfl
    (w := 1 / 2) (tF := tF) (tU := tU) (l := 7) (by norm_num)
    (by show |startPoint (setUpdate (Demo.fresh 1) (some (3 / 4))) - 1| ≤ _; rw [hE]; norm_num)
    hF hU (by decide +kernel)
    (fun x hx => by
      simp only [Demo.nenv] at hx ⊢
      have h1 := abs_le.1 hx
      have e1 : 3 - 2 * x - x ^ 3 = -((x ^ 2 + x + 3) * (x - 1)) := by ring
      rw [e1, abs_neg, abs_mul, abs_of_pos (show 0 < x ^ 2 + x + 3 by nlinarith)]
      exact mul_le_mul_of_nonneg_right (by nlinarith) (abs_nonneg _))
    (by norm_num)
    (by
      show _ + _ * (_ * |startPoint (setUpdate (Demo.fresh 1) (some (3 / 4))) - 1|) < _
      rw [hE]; norm_num [abs_of_pos])
  exact ⟨N, fun o h1 h2 h3 h4 => (h o h1 h2 h3 h4).1⟩

/-- After `Success` with relaxation 1: half the error is at most `tolF` times 3/2. -/
example (o : Opts ℚ) (ho : o.relax = 1) (hm : o.maxIt ≠ 0)
    (hs : (solveNonlinear (Demo.nenv 3 1 fun _ => false) o
      (setUpdate (Demo.fresh 1) (some (3 / 4)))).1 = .success) :
    1 / 2 * |(solveNonlinear (Demo.nenv 3 1 fun _ => false) o
      (setUpdate (Demo.fresh 1) (some (3 / 4)))).2.U - 1| ≤ 1 / 2 * (o.theTolF * 3) := by
  have hE : |startPoint (setUpdate (Demo.fresh 1) (some (3 / 4))) - 1| = 1 / 4 := by decide +kernel
  have hI : iniMeasure (Demo.nenv 3 1 fun _ => false) (fun x => 3 - 2 * x - x ^ 3)
      (setUpdate (Demo.fresh 1) (some (3 / 4))) = 3 := by decide +kernel
  have h := C118_error (o := o) (s := setUpdate (Demo.fresh 1) (some (3 / 4)))
    (Demo.isNorm 3 1 fun _ => false) Demo.near (by norm_num) (x := 3 / 4) rfl hm
    (by show |startPoint (setUpdate (Demo.fresh 1) (some (3 / 4))) - 1| ≤ _; rw [hE]; norm_num)
    (by
      show _ + _ * (_ * |startPoint (setUpdate (Demo.fresh 1) (some (3 / 4))) - 1|) ≤ _
      rw [hE, ho]; norm_num) hs
  rw [hI] at h
  change (1 - _ * |startPoint (setUpdate (Demo.fresh 1) (some (3 / 4))) - 1|) * _ ≤ _ at h
  rw [hE] at h
  norm_num at h ⊢
  exact h

/-- Displacement 1 solves `2 u + u³ = 3`: never `Success`. -/
example (o : Opts ℚ) (ho : o.relax = 1) (hm : o.maxIt ≠ 0) :
    (solveNonlinear (Demo.nenv 3 1 fun _ => false) o (setDisplacement (Demo.fresh 1) 1)).1
      = .notConverged :=
  C118_violated_equilibrium (s := setDisplacement (Demo.fresh 1) 1) (Demo.isNorm 3 1 fun _ => false)
    Demo.near (by norm_num) (x := 0) rfl hm (by norm_num) (by rw [ho]; norm_num) (by rw [ho]; norm_num)
    rfl rfl

/-- The linear start `2 u = 3`, `u = 3/2`, is at distance 1/2: contraction is not guaranteed by the
bounds of `Demo.near`, and yet it converges. -/
example :
    let s := setUpdate (Demo.fresh 1) none
    solveNonlinear (Demo.nenv 3 1 fun _ => false) (Demo.nopts 25) s =
      solveNonlinear (Demo.nenv 3 1 fun _ => false) (Demo.nopts 25) { s with
        du := 3 / 2, DU := some (3 / 2), U := 0, headstart := true
        log := .solve true :: .factor true :: s.log } :=
  C118_linearStart rfl (by decide +kernel) (by decide +kernel)

end GsSA.Static.Newton
