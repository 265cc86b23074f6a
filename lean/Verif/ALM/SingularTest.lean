import Verif.ALM.SingularProps
import Verif.ALM.GuessProps

/-!
# The test of a singular point (C116), and more about C76-C78

`isBifurcation` is an inverse power method that starts from the vector of ones.
-/

namespace GsSA.ALM

open GsSA

set_option linter.unusedSectionVars false

variable {K V Mat Fac : Type} [Field K] [LinearOrder K] [AddCommGroup V] [Module K V]
variable {e : Env K V Mat Fac} {o : Opts K} {M : Method K V Mat Fac}

/-! ## The power method -/

/-- `Powers e f n x y`: from `x`, `n` solves with the factorisation `f`, each followed by a
normalisation, lead to `y`. -/
inductive Powers (e : Env K V Mat Fac) (f : Fac) : ℕ → V → V → Prop
  | zero (x : V) : Powers e f 0 x x
  | succ {n k : ℕ} {x y z : V} : e.solve k f x = some y → Powers e f n (normalized e.geo y) z →
      Powers e f (n + 1) x z

theorem solveSystem_ok {b x : V} {s t : St K V Mat Fac} (h : solveSystem e b s = (t, .ok x)) :
    ∃ f, s.fac = some f ∧ e.solve s.log.length f b = some x ∧ t = { s with log := t.log } := by
  have ht := solveSystem_frame h
  unfold solveSystem at h
  rw [Act.bind_ok (Act.get_apply s)] at h
  cases hr : s.fac.bind fun f => e.solve s.log.length f b with
  | none => simp [hr, Act.bind_apply, emit] at h
  | some y =>
    simp only [hr, Act.bind_apply, emit, Act.modify_apply, Act.pure_apply, Prod.mk.injEq,
      Except.ok.injEq] at h
    obtain ⟨f, hf, hy⟩ := Option.bind_eq_some_iff.1 hr
    exact ⟨f, hf, by rw [hy, h.2], ht⟩

theorem factorizeMatrix_some {m : Mat} {s t : St K V Mat Fac}
    (h : factorizeMatrix e m s = (t, .ok ())) :
    ∃ n f, e.factorize n m = some f ∧ t = { s with fac := some f, log := t.log } := by
  unfold factorizeMatrix at h
  rw [Act.bind_ok (Act.get_apply s)] at h
  cases hf : e.factorize s.log.length m with
  | none => simp [hf, Act.bind_apply, emit] at h
  | some f =>
    simp only [hf, Act.bind_apply, emit, Act.modify_apply, Prod.mk.injEq, and_true] at h
    exact ⟨_, f, hf, by rw [← h]⟩

theorem powerSteps_ok {f : Fac} (n : ℕ) {s t : St K V Mat Fac} (hf : s.fac = some f)
    (h : powerSteps e n s = (t, .ok ())) :
    Powers e f n s.v t.v ∧ t = { s with v := t.v, log := t.log } := by
  induction n generalizing s with
  | zero =>
    simp only [powerSteps, Act.pure_apply, Prod.mk.injEq, and_true] at h
    subst h
    exact ⟨.zero _, rfl⟩
  | succ n ih =>
    rw [powerSteps, Act.bind_ok (Act.get_apply _)] at h
    obtain ⟨s1, x, h1, h⟩ := Act.bind_ok_inv h
    rw [Act.bind_ok (Act.modify_apply _ _)] at h
    obtain ⟨f', hf', hx, e1⟩ := solveSystem_ok h1
    obtain rfl : f' = f := by rw [hf] at hf'; exact (Option.some.inj hf').symm
    obtain ⟨hp, ht⟩ := ih (s := { s1 with v := normalized e.geo x }) (by rw [e1]; exact hf) h
    refine ⟨.succ hx hp, ?_⟩
    rw [ht]
    simp only
    rw [e1]

/-- **C116**: what `isBifurcation(jacobian)` decides. With the tangent at the current solution (if
`jacobian`) or the one assembled last (if not), the vector of ones is normalised, `SingularPointTestIt`
times a system is solved with it and the result normalised, and the answer is whether its product
with the load vector is smaller than the tolerance in absolute value. The point, the load factor and
the increments are not touched. -/
theorem C116_test {s t : St K V Mat Fac} {j b : Bool}
    (h : testSingularPoint e o j s = (t, .ok b)) :
    (∃ n f, e.factorize n t.jac = some f ∧
      Powers e f o.spTestIt (normalized e.geo e.ones) t.v) ∧
    (b = true ↔ |e.geo.dot t.v e.forcing| < o.spTestTol) ∧
    (if j then ∃ n, e.jacobian n s.U s.dU = some t.jac else t.jac = s.jac) ∧
    t = { s with v := t.v, jac := t.jac, fac := t.fac, log := t.log } := by
  unfold testSingularPoint at h
  rw [Act.bind_ok (Act.get_apply _)] at h
  obtain ⟨s1, ⟨⟩, h1, h⟩ := Act.bind_ok_inv h
  have k1 : (if j then ∃ n, e.jacobian n s.U s.dU = some s1.jac else s1.jac = s.jac) ∧
      s1 = { s with jac := s1.jac, fac := s1.fac, log := s1.log } := by
    cases j with
    | true =>
      simp only [if_true] at h1 ⊢
      obtain ⟨hj, e1⟩ := refactorize_ok h1
      exact ⟨⟨_, hj⟩, e1⟩
    | false =>
      simp only [Bool.false_eq_true, if_false, Act.pure_apply, Prod.mk.injEq, and_true] at h1 ⊢
      subst h1
      exact ⟨rfl, rfl⟩
  obtain ⟨k1, e1⟩ := k1
  rw [Act.bind_ok (Act.modify_apply _ _), Act.bind_ok (Act.get_apply _)] at h
  obtain ⟨s2, ⟨⟩, h2, h⟩ := Act.bind_ok_inv h
  obtain ⟨n, f, hf, e2⟩ := factorizeMatrix_some h2
  obtain ⟨s3, ⟨⟩, h3, h⟩ := Act.bind_ok_inv h
  obtain ⟨hp, e3⟩ := powerSteps_ok (f := f) _ (by rw [e2]) h3
  rw [Act.bind_ok (Act.get_apply _)] at h
  simp only [Act.pure_apply, Prod.mk.injEq, Except.ok.injEq] at h
  obtain ⟨rfl, rfl⟩ := h
  have hj : s3.jac = s1.jac := by rw [e3, e2]
  have hv : s2.v = normalized e.geo e.ones := by rw [e2]
  rw [hv] at hp
  refine ⟨⟨n, f, by rw [hj]; exact hf, hp⟩, by simp, by rw [hj]; exact k1, ?_⟩
  have hfac : s3.fac = some f := by rw [e3, e2]
  rw [hj, hfac]
  conv_lhs => rw [e3, e2, e1]

open Demo in
example :
    let r := testSingularPoint fold { foldOpts 5 with spTestIt := 3, spTestTol := 2 } true near
    r.2 = .ok true ∧ r.1.v = 1 ∧ r.1.jac = 38 / 100 ∧
    (testSingularPoint fold { foldOpts 5 with spTestIt := 3, spTestTol := 1 / 2 } false near).2 =
      .ok false := by
  decide +kernel

/-! ## What the verdict depends on -/

theorem Powers.keeps {f : Fac} {P : V → Prop}
    (hP : ∀ k x y, P x → e.solve k f x = some y → P (normalized e.geo y)) {n : ℕ} {x z : V}
    (h : Powers e f n x z) (hx : P x) : P z := by
  induction h with
  | zero _ => exact hx
  | succ hs _ ih => exact ih (hP _ _ _ hx hs)

section

variable [IsStrictOrderedRing K]

theorem normalized_scaled (g : Geo K V) (x : V) : ∃ c : K, normalized g x = c • x := by
  unfold normalized
  split
  · exact ⟨_, rfl⟩
  · exact ⟨1, by simp⟩

theorem normalized_unit {g : Geo K V} (hg : g.Laws) {x : V}
    (h : 0 < g.dot (normalized g x) (normalized g x)) :
    g.dot (normalized g x) (normalized g x) = 1 := by
  by_cases hx : 0 < g.dot x x
  · rw [← hg.norm_sq, normalized_norm hg hx, one_pow]
  · unfold normalized at h
    rw [if_neg hx] at h
    exact absurd h hx

/-- **C116**: the vector found has length 1, so a tolerance larger than the length of the load
vector makes every point a bifurcation point. -/
theorem C116_unit (hg : e.geo.Laws) {s t : St K V Mat Fac} {j b : Bool}
    (h : testSingularPoint e o j s = (t, .ok b)) (hv : 0 < e.geo.dot t.v t.v) :
    e.geo.norm t.v = 1 ∧ |e.geo.dot t.v e.forcing| ≤ e.geo.norm e.forcing ∧
      (e.geo.norm e.forcing < o.spTestTol → b = true) := by
  obtain ⟨⟨n, f, -, hp⟩, hb, -⟩ := C116_test h
  obtain ⟨y, hy⟩ := hp.keeps (P := fun z => ∃ y, z = normalized e.geo y)
    (fun _ _ y _ _ => ⟨y, rfl⟩) ⟨_, rfl⟩
  have h1 : e.geo.dot t.v t.v = 1 := by
    rw [hy] at hv ⊢
    exact normalized_unit hg hv
  have hn : e.geo.norm t.v = 1 := hg.sqrt_eq zero_le_one (by rw [h1]; ring)
  have hc : e.geo.dot t.v e.forcing ^ 2 ≤ e.geo.dot e.forcing e.forcing := by
    have := hg.nonneg (e.forcing - e.geo.dot t.v e.forcing • t.v)
    rw [hg.sub_left, hg.sub_right, hg.sub_right, hg.smul_left, hg.smul_left, hg.smul_right,
      hg.smul_right, h1, hg.comm e.forcing t.v] at this
    nlinarith
  have ha : |e.geo.dot t.v e.forcing| ≤ e.geo.norm e.forcing := by
    refine abs_le_of_sq_le_sq ?_ (hg.norm_nonneg _)
    rw [hg.norm_sq]
    exact hc
  exact ⟨hn, ha, fun hF => hb.2 (ha.trans_lt hF)⟩

/-- The factorisation of the tangent `m` solves systems with the linear map `A`. -/
def SolvesWith (e : Env K V Mat Fac) (m : Mat) (A : V →ₗ[K] V) : Prop :=
  ∀ n f, e.factorize n m = some f → ∀ k b x, e.solve k f b = some x → A x = b

/-- **C116**: if tangent and starting vector have a symmetry `S`, the vector found has it too,
whatever the number of iterations. So it is orthogonal to every antisymmetric mode, however small
the eigenvalue of that mode is. -/
theorem C116_symmetric {s t : St K V Mat Fac} {j b : Bool}
    (h : testSingularPoint e o j s = (t, .ok b)) {A S : V →ₗ[K] V} (hA : SolvesWith e t.jac A)
    (hinj : Function.Injective A) (hS : ∀ x, S (A x) = A (S x)) (h1 : S e.ones = e.ones) :
    S t.v = t.v ∧ ((∀ x y, e.geo.dot (S x) y = e.geo.dot x (S y)) →
      (∀ x y, e.geo.dot x (-y) = -e.geo.dot x y) →
      ∀ φ, S φ = -φ → e.geo.dot t.v φ = 0) := by
  obtain ⟨⟨n, f, hf, hp⟩, -⟩ := C116_test h
  have hv : S t.v = t.v := by
    refine hp.keeps (P := fun z => S z = z) (fun k x y hx hy => ?_) ?_
    · obtain ⟨c, hc⟩ := normalized_scaled e.geo y
      have : S y = y := hinj (by rw [← hS, hA n f hf k x y hy, hx])
      rw [hc, map_smul, this]
    · obtain ⟨c, hc⟩ := normalized_scaled e.geo e.ones
      rw [hc, map_smul, h1]
  refine ⟨hv, fun hsym hneg φ hφ => ?_⟩
  have : e.geo.dot t.v φ = -e.geo.dot t.v φ := by
    conv_lhs => rw [← hv, hsym, hφ, hneg]
  linarith

/-- **C116** violated: the verdict need not say anything about the smallest eigenvalue. If the vector
of ones is an eigenvector of the tangent, the answer is whether its direction is orthogonal to the
load, whatever the other eigenvalues and their modes are and however many iterations are made. -/
theorem C116_violated_ones (hg : e.geo.Laws) {s t : St K V Mat Fac} {j b : Bool}
    (h : testSingularPoint e o j s = (t, .ok b)) {A : V →ₗ[K] V} (hA : SolvesWith e t.jac A)
    (hinj : Function.Injective A) {μ : K} (hμ : μ ≠ 0) (h1 : A e.ones = μ • e.ones)
    (hpos : 0 < e.geo.dot e.ones e.ones) :
    (b = true ↔ |e.geo.dot e.ones e.forcing| < o.spTestTol * e.geo.norm e.ones) := by
  obtain ⟨⟨n, f, hf, hp⟩, hb, -⟩ := C116_test h
  have hn : 0 < e.geo.norm e.ones := hg.sqrt_pos hpos
  have hu : ∀ c : K, c ≠ 0 → ∃ d : K, normalized e.geo (c • e.ones) = d • e.ones ∧
      |d| = 1 / e.geo.norm e.ones := by
    intro c hc
    have hd : e.geo.dot (c • e.ones) (c • e.ones) = (c * e.geo.norm e.ones) ^ 2 := by
      rw [hg.smul_left, hg.smul_right, mul_pow, hg.norm_sq]
      ring
    have hc' : 0 < e.geo.dot (c • e.ones) (c • e.ones) := by
      rw [hd]
      positivity
    have hnc : e.geo.norm (c • e.ones) = |c| * e.geo.norm e.ones := by
      change e.geo.sqrt _ = _
      rw [hg.sqrt_abs hd, abs_mul, abs_of_pos hn]
    refine ⟨1 / (|c| * e.geo.norm e.ones) * c, ?_, ?_⟩
    · unfold normalized
      rw [if_pos hc', hnc, smul_smul]
    · have : 0 < |c| := abs_pos.2 hc
      rw [abs_mul, abs_of_pos (by positivity)]
      field_simp
  obtain ⟨d, hd, hd'⟩ : ∃ d : K, t.v = d • e.ones ∧ |d| = 1 / e.geo.norm e.ones := by
    refine hp.keeps (P := fun z => ∃ d : K, z = d • e.ones ∧ |d| = 1 / e.geo.norm e.ones)
      (fun k x y hx hy => ?_) ?_
    · obtain ⟨d, rfl, hd⟩ := hx
      have : y = (d / μ) • e.ones := hinj (by
        rw [hA n f hf k _ y hy, map_smul, h1, smul_smul, div_mul_cancel₀ _ hμ])
      rw [this]
      refine hu _ (div_ne_zero ?_ hμ)
      rintro rfl
      rw [abs_zero] at hd
      exact absurd hd.symm (by positivity)
    · obtain ⟨d, hd⟩ := hu 1 one_ne_zero
      rw [one_smul] at hd
      exact ⟨d, hd⟩
  rw [hb, hd, hg.smul_left, abs_mul, hd', one_div, inv_mul_lt_iff₀ hn, mul_comm]

end

/-! ## One pass of the extended system -/

/-- **C76**: one pass of the loop adds the three corrections to the increments, and makes the
component of the mode along its old direction 1; so the mode that the convergence test looks at has
at least length 1. -/
theorem C76_pass [IsStrictOrderedRing K] (hg : e.geo.Laws) {s t : St K V Mat Fac}
    (h : extendedBody e s = (t, .ok ())) (hw : 0 < e.geo.dot (s.v + s.DV) (s.v + s.DV)) :
    t.DU = s.DU + t.dU ∧ t.DL = s.DL + t.dL ∧ t.DV = s.DV + t.dV ∧ t.v = s.v ∧
    ∃ vt vb, t.dV = t.dL • vt + vb ∧
      (e.geo.dot (s.v + s.DV) vt ≠ 0 →
        e.geo.dot (s.v + s.DV) (t.v + t.DV) = e.geo.norm (s.v + s.DV) ∧
        1 ≤ e.geo.norm (t.v + t.DV)) := by
  unfold extendedBody at h
  obtain ⟨s1, ⟨⟩, h1, h⟩ := Act.bind_ok_inv h
  obtain ⟨vt, vb, hd, hv, hD, hn⟩ := C76_normalised hg h1 hw
  have hk : s1.DU = s.DU ∧ s1.DL = s.DL := by
    have hf : Framed (fun s : St K V Mat Fac => (s.DU, s.DL)) := by constructor <;> intros <;> rfl
    have := (hf.extendedIteration (e := e) (fun _ _ => rfl) (fun _ _ _ _ => rfl)).run h1
    simpa using this
  rw [Act.bind_ok (Act.modify_apply _ _), Act.bind_ok (Act.get_apply _)] at h
  obtain ⟨s2, ⟨⟩, h2, h⟩ := Act.bind_ok_inv h
  obtain ⟨-, e2⟩ := refactorize_ok h2
  rw [Act.bind_ok (Act.modify_apply _ _), Act.bind_ok (Act.get_apply _)] at h
  obtain ⟨s3, r, h3, h⟩ := Act.bind_ok_inv h
  obtain ⟨-, e3⟩ := evalResidual_ok h3
  rw [Act.bind_ok (Act.modify_apply _ _)] at h
  have ht : t.DU = s1.DU + s1.dU ∧ t.DL = s1.DL + s1.dL ∧ t.DV = s1.DV + s1.dV ∧ t.v = s1.v ∧
      t.dU = s1.dU ∧ t.dL = s1.dL ∧ t.dV = s1.dV := by
    unfold computeResidualNorms at h
    simp only [Act.modify_apply, Prod.mk.injEq, and_true] at h
    rw [e3, e2] at h
    rw [← h]
    split <;> exact ⟨rfl, rfl, rfl, rfl, rfl, rfl, rfl⟩
  obtain ⟨tU, tL, tV, tv, dU, dL, dV⟩ := ht
  refine ⟨by rw [tU, dU, hk.1], by rw [tL, dL, hk.2], by rw [tV, dV, hD], tv.trans hv, vt, vb,
    by rw [dV, dL]; exact hd, fun h0 => ?_⟩
  rw [tv, tV, ← add_assoc]
  exact hn h0

open Demo in
/-- `C76_pass` at the point close to the limit point. -/
example :
    let t := (extendedBody fold { near with v := 1 / 2 }).1
    (extendedBody fold { near with v := 1 / 2 }).2 = .ok () ∧ t.v + t.DV = 1 ∧ t.DU = t.dU ∧
      t.DU ≠ 0 := by
  decide +kernel

/-! ## After the extended system -/

/-- **C77**: without test and bisection, where the computation of a singular point ends. If the
extended system converged, or `SingularPointFailure` is 1, and a switch is asked for, then `1 / tau`
away from the point it found; otherwise at that point. The load factor is the one it found. -/
theorem C77_switch [IsStrictOrderedRing K] (hg : e.geo.Laws) (hB : o.spTolB = 0)
    {s u : St K V Mat Fac} {U : V} {L : K} {sw j b : Bool}
    (h : extendedSolve e o U L o.spTolE { s with U := U, L := L } = (u, .ok b))
    (hv : 0 < e.geo.dot u.v u.v) (ht : 0 < o.tau) :
    ∃ t, computeSingularPoint e o M U L sw j false s = (t, .ok s.status) ∧ t.L = u.L ∧
      t.U = if sw = true ∧ (b = true ∨ o.spFail = 1)
        then u.U + (1 / (o.tau * e.geo.norm u.v)) • u.v else u.U := by
  have hraw : ∃ t, computeSingularPointRaw e o M U L sw j false s = (t, .ok ()) ∧ t.L = u.L ∧
      t.U = if sw = true ∧ (b = true ∨ o.spFail = 1)
        then u.U + (1 / (o.tau * e.geo.norm u.v)) • u.v else u.U := by
    unfold computeSingularPointRaw
    simp only [Bool.false_eq_true, if_false]
    rw [Act.bind_ok (Act.pure_apply _ _), Act.bind_ok (Act.modify_apply _ _), if_pos rfl]
    unfold solveSingularPoint
    rw [Act.bind_ok (Act.get_apply _), if_neg (by simp [hB]), Act.bind_ok (Act.pure_apply _ _),
      Act.bind_ok (Act.get_apply _), Act.bind_ok h]
    by_cases hc : sw = true ∧ (b = true ∨ o.spFail = 1)
    · rw [if_pos hc, if_pos (by simpa using hc)]
      rcases hr : switchBranch e o u with ⟨t, r⟩
      obtain rfl : r = .ok () := by
        have := hr
        simp only [switchBranch, Act.modify_apply, Prod.mk.injEq] at this
        exact this.2.symm
      obtain ⟨h1, -, h2, -⟩ := C77_distance hg hv ht hr
      exact ⟨{ t with stability := t.stabilityPrev }, Act.bind_ok hr, h2, h1⟩
    · rw [if_neg hc, if_neg (by simpa using hc)]
      exact ⟨{ u with stability := u.stabilityPrev }, rfl, rfl, rfl⟩
  obtain ⟨t, h1, h2⟩ := hraw
  exact ⟨t, C43_violated_stale hB h1, h2⟩

open Demo in
/-- `C77_switch` near the limit point: the extended system converges, the vector is 1 and `tau` is
1000. -/
example :
    let u := extendedSolve fold (foldOpts 10) (9 / 10) 1 (1 / 10) near
    let f (sw : Bool) := computeSingularPoint fold (foldOpts 10) (riks fold) (9 / 10) 1 sw false false near
    u.2 = .ok true ∧ u.1.v = 1 ∧ (f true).2 = .ok .success ∧ (f true).1.U = u.1.U + 1 / 1000 ∧
      (f true).1.L = u.1.L ∧ (f false).1.U = u.1.U := by
  decide +kernel

/-- **C116**: `computeSingularPoint(U, L)` tests the current solution, not the point it is given. If
the test says that it is a limit point, then all that is done is that the given point becomes the
solution. -/
theorem C116_point {s u : St K V Mat Fac} {U : V} {L : K} {sw j : Bool}
    (h : testSingularPoint e o j s = (u, .ok false)) :
    computeSingularPoint e o M U L sw j true s = ({ u with U := U, L := L }, .ok s.status) ∧
      u.status = s.status := by
  have hu : u.status = s.status := by rw [(C116_test h).2.2.2]
  have : computeSingularPointRaw e o M U L sw j true s = ({ u with U := U, L := L }, .ok ()) := by
    unfold computeSingularPointRaw
    simp only [if_true]
    rw [Act.bind_ok h, Act.bind_ok (Act.modify_apply _ _), if_neg (by simp), Act.pure_apply]
  refine ⟨?_, hu⟩
  unfold computeSingularPoint
  rw [caught_ok this]
  simp [hu]

open Demo in
example :
    let o := { foldOpts 5 with spTestIt := 3, spTestTol := 1 / 2 }
    (testSingularPoint fold o false near).2 = .ok false ∧
    (computeSingularPoint fold o (loadControl fold) 7 8 true false true near).1.U = 7 := by
  decide +kernel

/-! ## The points which the bisection accepts -/

/-- The stability computation finds `k` negative pivots or eigenvalues for the tangent at `x`. -/
def Counted (e : Env K V Mat Fac) (o : Opts K) (x : V) (k : ℕ) : Prop :=
  ∃ n s t, e.jacobian n x 0 = some s.jac ∧ computeStability e o false (-100) s = (t, .ok .success) ∧
    t.negatives = k

theorem computeStability_of_raw {x : V} {s t : St K V Mat Fac}
    (h : computeStabilityRaw e o x false (-100) s = (t, .ok ())) :
    computeStability e o false (-100) s = ({ t with status := .success }, .ok .success) := by
  have : computeStabilityRaw e o s.U false (-100) s = (t, .ok ()) := h
  unfold computeStability
  exact caught_ok this

theorem computeStabilityRaw_counted {x : V} {s t : St K V Mat Fac}
    (h : computeStabilityRaw e o x true (-100) s = (t, .ok ())) : Counted e o x t.negatives := by
  unfold computeStabilityRaw at h
  obtain ⟨s1, ⟨⟩, h1, h⟩ := Act.bind_ok_inv h
  simp only [if_true] at h1
  obtain ⟨hj, -⟩ := refactorize_ok (e := e) (U := x) (dU := 0) h1
  refine ⟨_, s1, _, hj, computeStability_of_raw (x := x) (t := t) ?_, rfl⟩
  unfold computeStabilityRaw
  rw [if_neg (by simp), Act.bind_ok (Act.pure_apply _ _)]
  exact h

theorem stabilityVector_jac {shift : K} : Keeps (fun s : St K V Mat Fac => s.jac)
    (stabilityVector e o shift) := by
  unfold stabilityVector
  refine Keeps.bind Keeps.get fun s => ?_
  cases o.bifMethod with
  | determinant =>
    refine Keeps.bind ?_ fun _ => Keeps.modify fun _ => rfl
    intro s'
    obtain ⟨b, h⟩ := factorizeMatrix_frame (e := e) s.jac s'
    rw [h]
  | eigenvalue =>
    cases e.eigs s.log.length s.jac shift with
    | some l => exact Keeps.bind (Keeps.modify fun _ => rfl) fun _ => Keeps.modify fun _ => rfl
    | none => exact Keeps.bind (Keeps.modify fun _ => rfl) fun _ => Keeps.throw _
  | nothing => exact Keeps.modify fun _ => rfl
  | other => exact Keeps.ret _

theorem computeStabilityRaw_jac {x : V} {s t : St K V Mat Fac} {shift : K}
    (h : computeStabilityRaw e o x true shift s = (t, .ok ())) :
    ∃ n, e.jacobian n x 0 = some t.jac := by
  unfold computeStabilityRaw at h
  obtain ⟨s1, ⟨⟩, h1, h⟩ := Act.bind_ok_inv h
  simp only [if_true] at h1
  obtain ⟨hj, -⟩ := refactorize_ok (e := e) (U := x) (dU := 0) h1
  obtain ⟨s2, ⟨⟩, h2, h⟩ := Act.bind_ok_inv h
  rw [Act.bind_ok (Act.get_apply _)] at h
  have k := stabilityVector_jac.run h2
  cases hm : minCoeff s2.stabVec with
  | none => simp [hm] at h
  | some m =>
    simp only [hm, Act.modify_apply, Prod.mk.injEq, and_true] at h
    rw [← h]
    exact ⟨_, by rw [k]; exact hj⟩

theorem objective_ok {x : V} {j : Bool} {s t : St K V Mat Fac} {k : ℕ}
    (h : objective e o x j s = (t, .ok k)) :
    computeStabilityRaw e o x j (-100) s = (t, .ok ()) ∧ k = t.negatives := by
  unfold objective at h
  obtain ⟨s1, ⟨⟩, h1, h⟩ := Act.bind_ok_inv h
  rw [Act.bind_ok (Act.get_apply _)] at h
  simp only [Act.pure_apply, Prod.mk.injEq, Except.ok.injEq] at h
  obtain ⟨rfl, rfl⟩ := h
  exact ⟨h1, rfl⟩

/-- Points reached from `p` by successful steps, with the arc length `len` halved any number of
times, that all have `k` negative pivots or eigenvalues. -/
inductive Same (e : Env K V Mat Fac) (o : Opts K) (M : Method K V Mat Fac) (len : K) (k : ℕ)
    (p : V × K) : V × K → Prop
  | here : Counted e o p.1 k → Same e o M len k p p
  | more {s t : St K V Mat Fac} (i : ℕ) : Same e o M len k p (s.U, s.L) → s.adaptive = false →
      s.len = len / 2 ^ i → step e o M s = (t, .ok .success) → Counted e o t.U k →
      Same e o M len k p (t.U, t.L)

/-- `q` is such a point, or one successful step away from one. -/
def Beyond (e : Env K V Mat Fac) (o : Opts K) (M : Method K V Mat Fac) (len : K) (k : ℕ)
    (p q : V × K) : Prop :=
  Same e o M len k p q ∨ ∃ (s t : St K V Mat Fac) (i : ℕ), Same e o M len k p (s.U, s.L) ∧
    s.adaptive = false ∧ s.len = len / 2 ^ i ∧ step e o M s = (t, .ok .success) ∧ q = (t.U, t.L)

theorem bisectionLoop_same (hM : IsMethod e o M) {len : K} {p : V × K} {ref tol : K} {fa : ℕ}
    (rem : ℕ) : ∀ {s t : St K V Mat Fac} {Uold : V} {Lold : K} {r : Except Err Bool} (i : ℕ),
      s.adaptive = false → s.len = len / 2 ^ i → Same e o M len fa p (Uold, Lold) →
      Beyond e o M len fa p (s.U, s.L) → bisectionLoop e o M ref tol rem Uold Lold fa s = (t, r) →
      Beyond e o M len fa p (t.U, t.L) := by
  induction rem with
  | zero =>
    intro s t Uold Lold r i ha hl h1 h2 h
    simp only [bisectionLoop, Act.pure_apply, Prod.mk.injEq] at h
    rw [← h.1]
    exact h2
  | succ rem ih =>
    intro s t Uold Lold r i ha hl h1 h2 h
    rw [bisectionLoop, Act.bind_ok (Act.modify_apply _ _)] at h
    rcases hs : step e o M { s with U := Uold, L := Lold } with ⟨s1, r1⟩
    obtain ⟨st, rfl, ha1, hl1, hc⟩ := step_constant hM (by exact ha) hs
    rw [Act.bind_ok hs, Act.bind_ok (Act.get_apply _)] at h
    have p1 : Beyond e o M len fa p (s1.U, s1.L) := by
      rcases hc with rfl | ⟨hU, hL⟩
      · exact Or.inr ⟨{ s with U := Uold, L := Lold }, s1, i, h1, ha, hl, hs, rfl⟩
      · rw [hU, hL]
        exact Or.inl h1
    have hl1' : s1.len = len / 2 ^ i := hl1.trans hl
    have hlp : lengthsPoint s1 = ((len / 2 ^ i, false), s1.U, s1.L) := by
      simp [lengthsPoint, lengths, point, ha1, hl1']
    rcases Act.bind_cases h with ⟨s2, fb, g2, h⟩ | ⟨x, g2, rfl⟩
    swap
    · have := (framed_lengthsPoint.objective s1.U true).run g2
      rw [hlp] at this
      simp only [lengthsPoint, lengths, point, Prod.mk.injEq] at this
      rw [this.2.1, this.2.2]
      exact p1
    have e2 := (framed_lengthsPoint.objective s1.U true).run g2
    rw [hlp] at e2
    simp only [lengthsPoint, lengths, point, Prod.mk.injEq] at e2
    obtain ⟨⟨l2, a2⟩, u2, v2⟩ := e2
    have hfb : Counted e o s1.U fb := by
      obtain ⟨g, rfl⟩ := objective_ok g2
      exact computeStabilityRaw_counted g
    obtain ⟨s3, i', g3, l3, a3, u3, v3⟩ : ∃ s3 i', (if fa = fb ∧ st = .success then pure ()
        else Act.modify fun s : St K V Mat Fac => { s with len := s.len / 2 }) s2 = (s3, .ok ()) ∧
        s3.len = len / 2 ^ i' ∧ s3.adaptive = false ∧ s3.U = s1.U ∧ s3.L = s1.L := by
      split
      · exact ⟨s2, i, rfl, l2, a2, u2, v2⟩
      · refine ⟨_, i + 1, rfl, ?_, a2, u2, v2⟩
        simp only
        rw [l2, pow_succ, div_div]
    rw [Act.bind_ok g3, Act.bind_ok (Act.get_apply _)] at h
    rcases Act.bind_cases h with ⟨s4, term, g4, h⟩ | ⟨x, g4, rfl⟩
    swap
    · have := (framed_point.termination s3.U false).run g4
      simp only [point, Prod.mk.injEq] at this
      rw [this.1, this.2, u3, v3]
      exact p1
    have e4 := (framed_lengthsPoint.termination s3.U false).run g4
    simp only [lengthsPoint, lengths, point, Prod.mk.injEq] at e4
    obtain ⟨⟨l4, a4⟩, u4, v4⟩ := e4
    have p4 : Beyond e o M len fa p (s4.U, s4.L) := by
      rw [u4, v4, u3, v3]
      exact p1
    by_cases hb : below (ratio |term| |ref|) tol = true
    · rw [if_pos hb] at h
      simp only [Act.pure_apply, Prod.mk.injEq] at h
      rw [← h.1]
      exact p4
    · rw [if_neg hb] at h
      by_cases hc : fa = fb ∧ st = .success
      · rw [if_pos hc, ← hc.1] at h
        refine ih i' (a4.trans a3) (l4.trans l3) ?_ p4 h
        rw [u3, v3]
        rw [← hc.1] at hfb
        rw [hc.2] at hs
        exact .more (s := { s with U := Uold, L := Lold }) i h1 ha hl hs hfb
      · rw [if_neg hc] at h
        exact ih i' (a4.trans a3) (l4.trans l3) h1 p4 h

/-- **C78**: whatever fails during the bisection, it never steps over a change of stability. All the
points it steps from have the same number of negative pivots or eigenvalues as the point given; only
the last step can have another number. -/
theorem C78_counts (hM : IsMethod e o M) {s t : St K V Mat Fac} {U : V} {L tol : K}
    {r : Except Err Bool} (h : bisectionSolve e o M U L tol s = (t, r)) :
    (t.U = U ∧ t.L = L) ∨ ∃ k, Beyond e o M s.len k (U, L) (t.U, t.L) := by
  have hk : ∀ {α : Type} {m : Act (St K V Mat Fac) α} {s t : St K V Mat Fac} {q : Except Err α},
      Keeps point m → m s = (t, q) → t.U = s.U ∧ t.L = s.L := by
    intro α m s t q hm hr
    have := hm.run hr
    simpa [point] using this
  unfold bisectionSolve at h
  rw [Act.bind_ok (Act.modify_apply _ _), Act.bind_ok (Act.get_apply _)] at h
  simp only at h
  rw [Act.bind_ok (Act.modify_apply _ _)] at h
  rcases Act.bind_cases h with ⟨s1, ref, h1, h⟩ | ⟨x, h1, rfl⟩
  swap
  · exact Or.inl (hk (framed_point.termination U true) h1)
  have k1 := (framed_lengthsPoint.termination U true).run h1
  simp only [lengthsPoint, lengths, point, Prod.mk.injEq] at k1
  have j1 : ∃ n, e.jacobian n U 0 = some s1.jac := by
    unfold termination at h1
    obtain ⟨s1', ⟨⟩, g1, h1⟩ := Act.bind_ok_inv h1
    rw [Act.bind_ok (Act.get_apply _)] at h1
    simp only [Act.pure_apply, Prod.mk.injEq] at h1
    rw [← h1.1]
    exact computeStabilityRaw_jac g1
  rcases Act.bind_cases h with ⟨s2, fa, h2, h⟩ | ⟨x, h2, rfl⟩
  swap
  · obtain ⟨a, b⟩ := hk (framed_point.objective U false) h2
    exact Or.inl ⟨a.trans k1.2.1, b.trans k1.2.2⟩
  have k2 := (framed_lengthsPoint.objective U false).run h2
  simp only [lengthsPoint, lengths, point, Prod.mk.injEq] at k2
  have hc : Counted e o U fa := by
    obtain ⟨g, rfl⟩ := objective_ok h2
    obtain ⟨n, hn⟩ := j1
    exact ⟨n, s1, _, hn, computeStability_of_raw g, rfl⟩
  have hloop : ∀ {s3 : St K V Mat Fac} {q : Except Err Bool},
      bisectionLoop e o M ref tol (o.maxIt - 1) U L fa s2 = (s3, q) →
      Beyond e o M s.len fa (U, L) (s3.U, s3.L) := by
    intro s3 q h3
    refine bisectionLoop_same hM (o.maxIt - 1) 0 (k2.1.2.trans k1.1.2) ?_ (.here hc) ?_ h3
    · rw [k2.1.1, k1.1.1]
      simp
    · rw [k2.2.1, k2.2.2, k1.2.1, k1.2.2]
      exact Or.inl (.here hc)
  rcases Act.bind_cases h with ⟨s3, c, h3, h⟩ | ⟨x, h3, rfl⟩
  swap
  · exact Or.inr ⟨fa, hloop h3⟩
  rw [Act.bind_ok (Act.modify_apply _ _)] at h
  obtain ⟨u, v⟩ := hk (framed_point.bisectionPower (fun _ _ => rfl) _ _ _) h
  rw [u, v]
  have := hloop h3
  exact Or.inr ⟨fa, this⟩

open Demo in
/-- `C78_counts`: the bisection steps towards the limit point, and the numbers of negative
eigenvalues on the two sides of it. -/
example :
    let o := { foldOpts 3 with tolF := 1 / 5, tolU := 1 / 5 }
    let r := bisectionSolve fold o (loadControl fold) (1 / 2) (11 / 12) (1 / 2)
      { near with U := 1 / 2, L := 11 / 12, len := 1 / 4 }
    r.1.L = 7 / 6 ∧ (computeStability fold o true (-100) { near with U := 1 / 2 }).1.negatives = 0 ∧
      (computeStability fold o true (-100) { near with U := 3 / 2 }).1.negatives = 1 := by
  decide +kernel

end GsSA.ALM
