import Mathlib.Analysis.InnerProductSpace.Basic
import Mathlib.Analysis.Complex.Basic
import Mathlib.Analysis.Normed.Operator.Mul
import Verif.ALM.ExtendedSmooth
import Verif.ALM.SingularDemo

/-!
# C141: the extended system converges to limit points and to bifurcations by loss of symmetry
-/

namespace GsSA.ALM

open GsSA

set_option linter.unusedSectionVars false

variable {V Mat Fac : Type} [NormedAddCommGroup V] [InnerProductSpace ℝ V]
variable {e : Env ℝ V Mat Fac} {o : Opts ℝ}

/-- **C141**: smooth structures. Around every singular point at which the extended system is regular, the errors are
multiplied with `c * error + d * 1e-8` in every iteration, for some constants `c` and `d`. From a start with error `E`
such that this is at most 1/2, the extended system converges, or the linear solver fails. -/
theorem C141_smooth [FiniteDimensional ℝ V] {G : V → V} (hG : ContDiff ℝ 3 G) (he : SmoothCallbacks e G)
    {S : Submodule ℝ V} {Us φ : V} {Ls : ℝ} (hload : e.forcing ∈ S) (hforce : ∀ x, x - Us ∈ S → G x ∈ S)
    (hbal : G Us = Ls • e.forcing) (hker : fderiv ℝ G Us φ = 0) (hunit : ‖φ‖ = 1)
    (hreg : ExtendedRegular (fderiv ℝ G Us) (fderiv ℝ (fderiv ℝ G) Us) S e.forcing φ) :
    ∃ c d k : ℝ, 0 ≤ c ∧ 0 ≤ d ∧ 0 ≤ k ∧ ∀ (o : Opts ℝ) (U : V) (L E tol : ℝ) (s : St ℝ V Mat Fac) (n : ℕ),
      ‖U - Us‖ + |L - Ls| + ‖s.v - φ‖ ≤ E → E ≤ 1 / 2 → c * E + d / 10 ^ 8 ≤ 1 / 2 → U - Us ∈ S → 0 < n →
      n ≤ o.maxIt → k * newtonBound c (d / 10 ^ 8) E n < tol →
      ∃ t res, extendedSolve e o U L tol s = (t, res) ∧
        ((res = .error .solver ∧ ∃ x, ‖x - Us‖ ≤ 1 ∧ SolverFails e x) ∨
          (res = .ok true ∧ t.numIt < n ∧ t.v = s.v ∧ t.U - Us ∈ S ∧
            ‖t.U - Us‖ + |t.L - Ls| + ‖s.v + t.DV - φ‖ ≤ newtonBound c (d / 10 ^ 8) E (t.numIt + 1))) := by
  obtain ⟨m, κ, h⟩ := exists_singularPt hG he hload hforce hbal hker hunit hreg
  have pm := h.posm
  have pκ := h.posκ
  set D := fderiv ℝ (fderiv ℝ G) Us with hD
  refine ⟨2 * m * (4 * κ + 2 * ‖D‖ + 2), 8 * m * κ, 2 * κ + 2 * ‖D‖ + ‖fderiv ℝ G Us‖, by positivity, by positivity,
    by positivity, fun o U L E tol s n hE hE2 hq hS h0 hn htol => ?_⟩
  exact C141_extended_converges h hE hE2 (by linarith) (by linarith) hS h0 hn htol

/-- **C141**: `computeSingularPoint` without bisection, test and switch of branches. -/
theorem C141_singularPoint {G : V → V} {J : V → V →L[ℝ] V} {S : Submodule ℝ V} {Us : V} {Ls : ℝ} {φ : V}
    {D : V →L[ℝ] V →L[ℝ] V} {ρ m κ : ℝ} (h : SingularPt e G J S Us Ls φ D ρ m κ) (M : Method ℝ V Mat Fac) (j : Bool)
    (hB : o.spTolB = 0) {U : V} {L E : ℝ} {s : St ℝ V Mat Fac}
    (hE : ‖U - Us‖ + |L - Ls| + ‖s.v - φ‖ ≤ E) (hE2 : E ≤ 1 / 2) (hρ : E + 2 / 10 ^ 8 ≤ ρ)
    (hq : 4 * m * ((4 * κ + 2 * ‖D‖ + 2) * E + 4 * κ / 10 ^ 8) ≤ 1) (hS : U - Us ∈ S) {n : ℕ} (h0 : 0 < n)
    (hn : n ≤ o.maxIt) (htol : (2 * κ + 2 * ‖D‖ + ‖J Us‖) * extendedBound D m κ E n < o.spTolE) :
    ∃ t st, computeSingularPoint e o M U L false j false s = (t, .ok st) ∧
      ((st = .solverError ∧ ∃ x, ‖x - Us‖ ≤ ρ ∧ SolverFails e x) ∨
        ∃ k < n, ‖t.U - Us‖ + |t.L - Ls| ≤ extendedBound D m κ E (k + 1)) := by
  obtain ⟨t, res, h1, h2⟩ := C141_extended_converges (o := o) (tol := o.spTolE) (s := { s with U := U, L := L }) h hE hE2 hρ
    hq hS h0 hn htol
  rcases h2 with ⟨rfl, hF⟩ | ⟨rfl, h3, -, -, h4⟩
  · refine ⟨{ t with status := .solverError }, .solverError, ?_, Or.inl ⟨rfl, hF⟩⟩
    have hraw : (computeSingularPointRaw e o M U L false j false).run s = (t, .error .solver) := by
      simp only [computeSingularPointRaw, Bool.false_eq_true, if_false, Act.bind_apply, Act.pure_apply,
        Act.modify_apply, solveSingularPoint, Act.get_apply, hB, ne_eq, not_true_eq_false, if_true, h1, Bool.false_and]
    change (caught _ id).run s = _
    simp only [caught, hraw, statusOf]
  · refine ⟨{ t with stability := t.stabilityPrev }, t.status, ?_, Or.inr ⟨t.numIt, h3, ?_⟩⟩
    · have hraw : (computeSingularPointRaw e o M U L false j false).run s =
          ({ t with stability := t.stabilityPrev }, .ok ()) := by
        simp only [computeSingularPointRaw, Bool.false_eq_true, if_false, Act.bind_apply, Act.pure_apply,
          Act.modify_apply, solveSingularPoint, Act.get_apply, hB, ne_eq, not_true_eq_false, if_true, h1,
          Bool.false_and]
      change (caught _ id).run s = _
      simp only [caught, hraw, id]
    · have := norm_nonneg (s.v + t.DV - φ)
      simp only
      linarith

/-- **C141**: without a symmetry, the linear systems of the extended system become singular at bifurcation points:
if the load is orthogonal to the kernel of the tangent, the extended system is not regular. -/
theorem C141_bifurcation_singular [FiniteDimensional ℝ V] {J : V →L[ℝ] V} {D : V →L[ℝ] V →L[ℝ] V} {f φ : V}
    (hsym : ∀ x y, inner ℝ (J x) y = inner ℝ x (J y)) (hφ : ‖φ‖ = 1) (hJ : J φ = 0)
    (hker : ∀ x, J x = 0 → ∃ c : ℝ, x = c • φ) (hf : inner ℝ φ f = (0 : ℝ)) :
    ∃ (a : V) (l : ℝ) (b : V), (a ≠ 0 ∨ l ≠ 0 ∨ b ≠ 0) ∧ J a = l • f ∧ J b + D φ a = 0 ∧ inner ℝ φ b = (0 : ℝ) := by
  have h := not_regular_bifurcation (D := D) hsym hφ hJ hker hf
  unfold ExtendedRegular at h
  push Not at h
  obtain ⟨a, -, l, b, h1, h2, h3, h4⟩ := h
  refine ⟨a, l, b, ?_, h1, h2, h3⟩
  by_contra hc
  push Not at hc
  exact h4 hc.1 hc.2.1 hc.2.2

/-! ## Examples -/

/-- A structure with exact linear algebra; a matrix is the point where it was assembled. -/
noncomputable def smoothEnv (G : V → V) (f : V) : Env ℝ V V V where
  geo := realGeo V
  forcing := f
  numDof := 1
  ones := f
  residual _ x l := some (G x - l • f)
  jacobian _ x _ := some x
  factorize _ x := by
    classical exact if Function.Injective (fderiv ℝ G x) then some x else none
  solve _ x b := by
    classical exact if h : ∃ y, fderiv ℝ G x y = b then some h.choose else none
  mul x y := fderiv ℝ G x y
  vecD _ := []
  eigs _ _ _ := none

theorem smoothEnv_callbacks (G : V → V) (f : V) : SmoothCallbacks (smoothEnv G f) G where
  dot _ _ := rfl
  norm x := by
    simp only [Geo.norm, smoothEnv, realGeo, real_inner_self_eq_norm_sq]
    exact Real.sqrt_sq (norm_nonneg x)
  residual _ _ _ := rfl
  tangent _ x _ := ⟨x, rfl, fun _ => rfl⟩
  regular n x dx m i g hm hg := by
    simp only [smoothEnv, Option.some.injEq] at hm hg
    subst hm
    by_contra hc
    simp [hc] at hg
  solves n x dx m i g j b y hm hg hy := by
    simp only [smoothEnv, Option.some.injEq] at hm hg hy
    subst hm
    have hgx : x = g := by
      by_cases hi : Function.Injective (fderiv ℝ G x)
      · simpa [hi] using hg
      · simp [hi] at hg
    subst hgx
    by_cases he : ∃ y, fderiv ℝ G x y = b
    · rw [dif_pos he, Option.some.injEq] at hy
      rw [← hy]
      exact he.choose_spec
    · simp [he] at hy

namespace RealDemo

/-! One degree of freedom with the internal force `u - u³ / 3`: limit point at `u = 1` with load 2/3. -/

/-- Internal force. -/
noncomputable def snap (u : ℝ) : ℝ := u - u ^ 3 / 3

/-- Tangent. -/
noncomputable def snapJ (u : ℝ) : ℝ →L[ℝ] ℝ := (1 - u ^ 2) • ContinuousLinearMap.id ℝ ℝ

/-- Derivative of the tangent at the limit point. -/
noncomputable def snapD : ℝ →L[ℝ] ℝ →L[ℝ] ℝ := (-2 : ℝ) • ContinuousLinearMap.mul ℝ ℝ

theorem snapJ_apply (u a : ℝ) : snapJ u a = (1 - u ^ 2) * a := by simp [snapJ]

theorem snapD_apply (a b : ℝ) : snapD a b = -2 * (a * b) := by simp [snapD]

theorem snapD_norm : ‖snapD‖ = 2 := by
  refine le_antisymm ?_ ?_
  · refine ContinuousLinearMap.opNorm_le_bound _ (by norm_num) fun a => ?_
    refine ContinuousLinearMap.opNorm_le_bound _ (by positivity) fun b => ?_
    rw [snapD_apply, norm_mul, norm_mul]
    norm_num [mul_assoc]
  · have h := snapD.le_opNorm₂ 1 1
    rw [snapD_apply] at h
    norm_num at h
    exact h

/-- The problem. -/
noncomputable def snapEnv : Env ℝ ℝ ℝ ℝ where
  geo := realGeo ℝ
  forcing := 1
  numDof := 1
  ones := 1
  residual _ u l := some (snap u - l • 1)
  jacobian _ u _ := some (1 - u ^ 2)
  factorize _ m := if m = 0 then none else some m
  solve _ f b := some (b / f)
  mul m u := m * u
  vecD f := [f]
  eigs _ m _ := some [m]

theorem snap_limitPoint : SingularPt snapEnv snap snapJ ⊤ 1 (2 / 3) 1 snapD 1 1 2 where
  dot _ _ := rfl
  norm x := by
    simp only [Geo.norm, snapEnv, realGeo, real_inner_self_eq_norm_sq]
    exact Real.sqrt_sq (norm_nonneg x)
  residual _ _ _ _ := rfl
  tangent _ x _ _ := ⟨1 - x ^ 2, rfl, fun y => (snapJ_apply x y).symm⟩
  solves n x dx m i f j b y _ hm hf hy := by
    refine ⟨?_, fun _ _ => trivial⟩
    simp only [snapEnv, Option.some.injEq] at hm hf hy
    subst hm
    by_cases h0 : 1 - x ^ 2 = 0
    · simp [h0] at hf
    · rw [if_neg h0, Option.some.injEq] at hf
      rw [snapJ_apply, ← hy, ← hf, mul_div_cancel₀ _ h0]
  balance := by simp [snap, snapEnv]; norm_num
  kernel := by simp [snapJ_apply]
  unit := by simp
  load := trivial
  force _ _ _ := trivial
  quad x hx := by
    rw [Real.norm_eq_abs] at hx ⊢
    rw [snapJ_apply, Real.norm_eq_abs]
    have e1 : snap x - snap 1 - (1 - x ^ 2) * (x - 1) = (x - 1) ^ 2 * (1 + 2 / 3 * (x - 1)) := by
      unfold snap; ring
    have h1 := abs_le.1 hx
    rw [e1, abs_mul, abs_of_nonneg (sq_nonneg _), sq_abs, mul_comm]
    refine mul_le_mul_of_nonneg_right ?_ (sq_nonneg _)
    rw [abs_le]
    constructor <;> linarith
  second x x' _ _ := by
    have e1 : snapJ x' - snapJ x - snapD (x' - x) =
        (-(x' - x) * (2 * (x - 1) + (x' - x))) • ContinuousLinearMap.id ℝ ℝ := by
      ext
      simp [snapJ, snapD]
      ring
    rw [e1, norm_smul, ContinuousLinearMap.norm_id, mul_one, norm_mul, norm_neg, mul_comm]
    refine mul_le_mul_of_nonneg_right ?_ (norm_nonneg _)
    refine (norm_add_le _ _).trans ?_
    rw [norm_mul]
    have h2 : ‖(2 : ℝ)‖ = 2 := by norm_num
    rw [h2]
    have := norm_nonneg (x' - x)
    linarith
  symm a b := by rw [snapD_apply, snapD_apply, mul_comm a b]
  regular a _ l b := by
    have hJ : ∀ y, snapJ 1 y = 0 := fun y => by simp [snapJ_apply]
    have hi : inner ℝ (1 : ℝ) b = b := by simp
    rw [hJ, hJ, snapD_apply, hi, zero_add, zero_sub, norm_neg]
    simp only [snapEnv, smul_eq_mul, mul_one, one_mul, Real.norm_eq_abs, abs_mul, abs_neg, abs_two]
    have := abs_nonneg a
    linarith
  posρ := one_pos
  posm := zero_le_one
  posκ := zero_le_two

/-- From 1.005 and 0.665 with the vector 1.001 at most five iterations are needed for the tolerance 1/300. -/
example (s : St ℝ ℝ ℝ ℝ) (hv : s.v = 1001 / 1000) :
    ∃ t res, extendedSolve snapEnv linOpts (201 / 200) (665 / 1000) (1 / 300) s = (t, res) ∧
      ((res = .error .solver ∧ ∃ x, ‖x - 1‖ ≤ 1 ∧ SolverFails snapEnv x) ∨
        (res = .ok true ∧ t.numIt < 5 ∧ |t.U - 1| + |t.L - 2 / 3| ≤ 1 / 200)) := by
  have hq : 4 * 1 * ((4 * 2 + 2 * ‖snapD‖ + 2) * (1 / 100 : ℝ) + 4 * 2 / 10 ^ 8) ≤ 1 := by
    rw [snapD_norm]
    norm_num
  have hb := fun k => (C141_extended_rate (m := 1) (κ := 2) zero_le_one zero_le_two (by norm_num) hq k).1
  have hJ : snapJ 1 = 0 := by
    ext
    simp [snapJ]
  obtain ⟨t, res, h1, h2⟩ := C141_extended_converges (o := linOpts) (tol := 1 / 300) (n := 5) (s := s)
    (U := 201 / 200) (L := 665 / 1000) (E := 1 / 100) snap_limitPoint
    (by rw [hv]; norm_num [abs_of_pos, abs_of_neg]) (by norm_num) (by norm_num) hq trivial (by norm_num) (by norm_num [linOpts]) (by
      rw [hJ, snapD_norm, norm_zero]
      have := hb 5
      norm_num at this ⊢
      linarith)
  refine ⟨t, res, h1, h2.imp_right ?_⟩
  rintro ⟨h3, h4, -, -, h5⟩
  refine ⟨h3, h4, ?_⟩
  have h6 := hb (t.numIt + 1)
  have h7 : (1 : ℝ) / 100 / 2 ^ (t.numIt + 1) ≤ 1 / 200 := by
    have : (1 : ℝ) ≤ 2 ^ t.numIt := one_le_pow₀ (by norm_num)
    rw [pow_succ (2 : ℝ), div_div, div_le_div_iff₀ (by positivity) (by norm_num)]
    linarith
  have h8 := norm_nonneg (s.v + t.DV - 1)
  rw [Real.norm_eq_abs] at h5
  linarith

/-! A structure with two degrees of freedom, written as the complex number `u + i w`, with the internal forces
`u - w² / 2` and `(1 - u) w + w³`, loaded in the direction of `u`. The symmetric displacements are those with `w = 0`.
At `u = 1` it loses the symmetry. -/

/-- Internal forces. -/
noncomputable def fork (z : ℂ) : ℂ := (z.re - z.im ^ 2 / 2) • (1 : ℂ) + ((1 - z.re) * z.im + z.im ^ 3) • Complex.I

/-- Tangent. -/
noncomputable def forkJ (z : ℂ) : ℂ →L[ℝ] ℂ :=
  (Complex.reCLM - z.im • Complex.imCLM).smulRight 1 +
    ((1 - z.re + 3 * z.im ^ 2) • Complex.imCLM - z.im • Complex.reCLM).smulRight Complex.I

theorem forkJ_apply (z a : ℂ) : forkJ z a =
    (a.re - z.im * a.im) • (1 : ℂ) + ((1 - z.re + 3 * z.im ^ 2) * a.im - z.im * a.re) • Complex.I := by
  simp [forkJ]

theorem hasFDerivAt_fork (z : ℂ) : HasFDerivAt fork (forkJ z) z := by
  have hr : HasFDerivAt (fun z : ℂ => z.re) Complex.reCLM z := Complex.reCLM.hasFDerivAt
  have hi : HasFDerivAt (fun z : ℂ => z.im) Complex.imCLM z := Complex.imCLM.hasFDerivAt
  have h1 := ((hr.sub ((hi.pow 2).mul_const (1 / 2))).smul_const (1 : ℂ)).add
    ((((hr.const_sub 1).mul hi).add (hi.pow 3)).smul_const Complex.I)
  refine (h1.congr_fderiv ?_).congr_of_eventuallyEq (Filter.Eventually.of_forall fun x => ?_)
  · refine ContinuousLinearMap.ext fun a => ?_
    rw [forkJ_apply]
    apply Complex.ext <;> simp <;> ring
  · apply Complex.ext <;> simp [fork] <;> ring

theorem contDiff_fork : ContDiff ℝ 3 fork := by
  have hr : ContDiff ℝ 3 fun z : ℂ => z.re := Complex.reCLM.contDiff
  have hi : ContDiff ℝ 3 fun z : ℂ => z.im := Complex.imCLM.contDiff
  unfold fork
  exact ((hr.sub ((hi.pow 2).div_const 2)).smul contDiff_const).add
    ((((contDiff_const.sub hr).mul hi).add (hi.pow 3)).smul contDiff_const)

theorem fderiv_fork : fderiv ℝ fork = forkJ := funext fun z => (hasFDerivAt_fork z).fderiv

theorem fork_second : fderiv ℝ (fderiv ℝ fork) 1 Complex.I 1 = -Complex.I := by
  have h1 : DifferentiableAt ℝ (fderiv ℝ fork) 1 :=
    (contDiff_fork.fderiv_right (m := 2) (by norm_num)).differentiable (by norm_num) 1
  have h2 := h1.hasFDerivAt.clm_apply (hasFDerivAt_const (1 : ℂ) (1 : ℂ))
  have h3 : HasFDerivAt (fun z : ℂ => fderiv ℝ fork z 1) (-(Complex.imCLM.smulRight Complex.I)) 1 := by
    have h4 : HasFDerivAt (fun z : ℂ => (1 : ℂ) - z.im • Complex.I) (-(Complex.imCLM.smulRight Complex.I)) 1 := by
      have hi : HasFDerivAt (fun z : ℂ => z.im) Complex.imCLM (1 : ℂ) := Complex.imCLM.hasFDerivAt
      exact (hi.smul_const Complex.I).const_sub 1
    refine h4.congr_of_eventuallyEq (Filter.Eventually.of_forall fun z => ?_)
    simp only [fderiv_fork, forkJ_apply]
    apply Complex.ext <;> simp
  have h5 := congrArg (fun T : ℂ →L[ℝ] ℂ => T Complex.I) (h2.unique h3)
  simpa using h5

/-- The real numbers. -/
noncomputable def realLine : Submodule ℝ ℂ := LinearMap.ker Complex.imLm

theorem mem_realLine (z : ℂ) : z ∈ realLine ↔ z.im = 0 := by simp [realLine]

theorem fork_regular :
    ExtendedRegular (fderiv ℝ fork 1) (fderiv ℝ (fderiv ℝ fork) 1) realLine 1 Complex.I := by
  refine regular_bifurcation (u := 1) ?_ (by simp) ?_ ?_ ?_ ?_ ?_ ?_
  · intro x y
    rw [fderiv_fork, forkJ_apply, forkJ_apply]
    simp [Complex.inner]
  · rw [fderiv_fork, forkJ_apply]
    simp
  · intro x hx
    rw [fderiv_fork, forkJ_apply] at hx
    have := congrArg Complex.re hx
    simp at this
    refine ⟨x.im, ?_⟩
    apply Complex.ext <;> simp [this]
  · rw [mem_realLine]
    simp
  · rw [mem_realLine]
    simp
  · rw [fderiv_fork, forkJ_apply]
    simp
  · rw [fork_second]
    simp

/-- The bifurcation point is found from symmetric displacements. -/
example : ∃ c d k : ℝ, 0 ≤ c ∧ 0 ≤ d ∧ 0 ≤ k ∧ ∀ (o : Opts ℝ) (U : ℂ) (L E tol : ℝ) (s : St ℝ ℂ ℂ ℂ) (n : ℕ),
    ‖U - 1‖ + |L - 1| + ‖s.v - Complex.I‖ ≤ E → E ≤ 1 / 2 → c * E + d / 10 ^ 8 ≤ 1 / 2 → U - 1 ∈ realLine → 0 < n →
    n ≤ o.maxIt → k * newtonBound c (d / 10 ^ 8) E n < tol →
    ∃ t res, extendedSolve (smoothEnv fork 1) o U L tol s = (t, res) ∧
      ((res = .error .solver ∧ ∃ x, ‖x - 1‖ ≤ 1 ∧ SolverFails (smoothEnv fork 1) x) ∨
        (res = .ok true ∧ t.numIt < n ∧ t.v = s.v ∧ t.U - 1 ∈ realLine ∧
          ‖t.U - 1‖ + |t.L - 1| + ‖s.v + t.DV - Complex.I‖ ≤ newtonBound c (d / 10 ^ 8) E (t.numIt + 1))) := by
  refine C141_smooth contDiff_fork (smoothEnv_callbacks fork 1) ?_ ?_ ?_ ?_ (by simp) fork_regular
  · rw [mem_realLine]
    simp [smoothEnv]
  · intro x hx
    rw [mem_realLine] at hx ⊢
    simp at hx
    simp [fork, hx]
  · simp [fork, smoothEnv]
  · rw [fderiv_fork, forkJ_apply]
    simp

/-- Among all displacements the extended system is singular there. -/
example : ∃ (a : ℂ) (l : ℝ) (b : ℂ), (a ≠ 0 ∨ l ≠ 0 ∨ b ≠ 0) ∧ forkJ 1 a = l • (1 : ℂ) ∧
    forkJ 1 b + fderiv ℝ (fderiv ℝ fork) 1 Complex.I a = 0 ∧ inner ℝ Complex.I b = (0 : ℝ) := by
  refine C141_bifurcation_singular ?_ (by simp) ?_ ?_ ?_
  · intro x y
    rw [forkJ_apply, forkJ_apply]
    simp [Complex.inner]
  · rw [forkJ_apply]
    simp
  · intro x hx
    rw [forkJ_apply] at hx
    have := congrArg Complex.re hx
    simp at this
    refine ⟨x.im, ?_⟩
    apply Complex.ext <;> simp [this]
  · simp [Complex.inner]

end RealDemo

namespace Demo

/-- The same structure with rational numbers. A matrix is `(a, b, c)` with the rows `(a, b)` and `(b, c)`. -/
def forkEnv : Env ℚ (ℚ × ℚ) (ℚ × ℚ × ℚ) (ℚ × ℚ × ℚ) where
  geo := geo2
  forcing := (1, 0)
  numDof := 2
  ones := (1, 1)
  residual _ u l := some (u.1 - u.2 ^ 2 / 2 - l, (1 - u.1) * u.2 + u.2 ^ 3)
  jacobian _ u _ := some (1, -u.2, 1 - u.1 + 3 * u.2 ^ 2)
  factorize _ m := if m.1 * m.2.2 - m.2.1 ^ 2 = 0 then none else some m
  solve _ m x := some ((m.2.2 * x.1 - m.2.1 * x.2) / (m.1 * m.2.2 - m.2.1 ^ 2),
    (m.1 * x.2 - m.2.1 * x.1) / (m.1 * m.2.2 - m.2.1 ^ 2))
  mul m x := (m.1 * x.1 + m.2.1 * x.2, m.2.1 * x.1 + m.2.2 * x.2)
  vecD _ := []
  eigs _ _ _ := none

/-- A state of the structure. -/
def forkStart (v : ℚ × ℚ) : St ℚ (ℚ × ℚ) (ℚ × ℚ × ℚ) (ℚ × ℚ × ℚ) where
  U := 0
  L := 0
  DU := 0
  DL := 0
  dU := 0
  dL := 0
  Ubar := 0
  Ut := 0
  Uprev := 0
  Lprev := 0
  DUold := 0
  DLold := 0
  guess := none
  Lguess := 0
  resVec := 0
  jac := (1, 0, 1)
  fac := none
  len := 1
  lenPrev := 1
  lenOri := 1
  adaptive := false
  phi := 1
  numIt := 0
  residueF := none
  residueU := none
  basisF := 0
  basisU := 0
  converged := false
  stabVec := []
  negatives := 0
  indicator := 0
  stability := 0
  stabilityPrev := 0
  status := .notStarted
  initialized := true
  v := v
  DV := 0
  dV := 0
  residueKTPhi := 0
  log := []

/-- **C141** violated: the tangent is factorised at every new point. If an iteration finds the singular point exactly,
as here from 0.9 with the vector of the kernel, the factorisation fails, the search ends with the status of a failed
linear solver, and the point stays where it was. -/
theorem C141_violated_exact :
    let r := extendedSolve forkEnv (opts 10 3) (9 / 10, 0) (9 / 10) (1 / 1000) (forkStart (0, 1))
    r.2 = .error .solver ∧ r.1.U = (9 / 10, 0) ∧ r.1.U + r.1.DU = (1, 0) ∧ r.1.L + r.1.DL = 1 ∧
      forkEnv.residual 0 (1, 0) 1 = some 0 := by
  decide +kernel

/-- With another vector the search succeeds. -/
example :
    let r := extendedSolve forkEnv (opts 10 3) (9 / 10, 0) (9 / 10) (1 / 1000) (forkStart (0, 101 / 100))
    r.2 = .ok true ∧ |r.1.U.1 - 1| < 1 / 1000 ∧ r.1.U.2 = 0 := by
  decide +kernel

end Demo

end GsSA.ALM
