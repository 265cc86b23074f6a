import Mathlib.Analysis.Calculus.ContDiff.Operations
import Mathlib.Analysis.Calculus.MeanValue
import Mathlib.Analysis.Calculus.ContDiff.FiniteDimension
import Mathlib.Analysis.Calculus.FDeriv.Symmetric
import Mathlib.Analysis.InnerProductSpace.Calculus
import Mathlib.Analysis.InnerProductSpace.Projection.Submodule
import Verif.ALM.ExtendedLoop

/-!
# Singular points of smooth structures (C141)
-/

namespace GsSA.ALM

open GsSA Set

set_option linter.unusedSectionVars false

variable {V Mat Fac : Type} [NormedAddCommGroup V] [InnerProductSpace ℝ V] [FiniteDimensional ℝ V]
variable {e : Env ℝ V Mat Fac}

/-- The tangents keep a space which contains the internal forces. -/
theorem fderiv_mem {G : V → V} (hG : Differentiable ℝ G) {S : Submodule ℝ V} {Us : V}
    (hS : ∀ x, x - Us ∈ S → G x ∈ S) {x a : V} (hx : x - Us ∈ S) (ha : a ∈ S) : fderiv ℝ G x a ∈ S := by
  have hc : Sᗮᗮ = S := S.orthogonal_orthogonal
  rw [← hc, Submodule.mem_orthogonal]
  intro u hu
  have h1 : HasDerivAt (fun t : ℝ => G (x + t • a)) (fderiv ℝ G x a) 0 := by
    have h2 : HasDerivAt (fun t : ℝ => x + t • a) a 0 := by
      simpa using ((hasDerivAt_id (0 : ℝ)).smul_const a).const_add x
    have h3 : HasFDerivAt G (fderiv ℝ G x) (x + (0 : ℝ) • a) := by
      simpa using (hG x).hasFDerivAt
    exact h3.comp_hasDerivAt (0 : ℝ) h2
  have h4 : HasDerivAt (fun t : ℝ => inner ℝ u (G (x + t • a))) (inner ℝ u (fderiv ℝ G x a)) 0 := by
    simpa using (hasDerivAt_const (0 : ℝ) u).inner ℝ h1
  have h5 : (fun t : ℝ => inner ℝ u (G (x + t • a))) = fun _ => (0 : ℝ) := by
    funext t
    have h6 : G (x + t • a) ∈ S := by
      refine hS _ ?_
      have e1 : x + t • a - Us = (x - Us) + t • a := by abel
      rw [e1]
      exact S.add_mem hx (S.smul_mem t ha)
    rw [real_inner_comm]
    exact (Submodule.mem_orthogonal _ _).1 hu _ h6
  rw [h5] at h4
  exact h4.unique (hasDerivAt_const (0 : ℝ) (0 : ℝ))

/-- The linear system of the extended system has no solution but zero. -/
def ExtendedRegular (J : V →L[ℝ] V) (D : V →L[ℝ] V →L[ℝ] V) (S : Submodule ℝ V) (f φ : V) : Prop :=
  ∀ a ∈ S, ∀ (l : ℝ) b, J a = l • f → J b + D φ a = 0 → inner ℝ φ b = (0 : ℝ) → a = 0 ∧ l = 0 ∧ b = 0

/-- The inverse is bounded. -/
theorem ExtendedRegular.bound {J : V →L[ℝ] V} {D : V →L[ℝ] V →L[ℝ] V} {S : Submodule ℝ V} {f φ : V}
    (h : ExtendedRegular J D S f φ) : ∃ m, 0 ≤ m ∧ ∀ a ∈ S, ∀ (l : ℝ) b,
      ‖a‖ + |l| + ‖b‖ ≤ m * (‖J a - l • f‖ + ‖J b + D φ a‖ + |inner ℝ φ b|) := by
  let T : (S × ℝ × V) →ₗ[ℝ] (V × V × ℝ) :=
    { toFun := fun z => (J z.1 - z.2.1 • f, J z.2.2 + D φ z.1, inner ℝ φ z.2.2)
      map_add' := fun z z' => by
        simp only [Prod.fst_add, Prod.snd_add, Submodule.coe_add, map_add, inner_add_right, Prod.mk_add_mk,
          Prod.mk.injEq, and_true]
        exact ⟨by module, by abel⟩
      map_smul' := fun c z => by
        simp only [Prod.smul_fst, Prod.smul_snd, Submodule.coe_smul, map_smul, inner_smul_right, smul_eq_mul,
          RingHom.id_apply, Prod.smul_mk, Prod.mk.injEq, and_true]
        exact ⟨by module, by module⟩ }
  have hker : LinearMap.ker T = ⊥ := by
    rw [LinearMap.ker_eq_bot']
    rintro ⟨⟨a, ha⟩, l, b⟩ hz
    simp only [T, LinearMap.coe_mk, AddHom.coe_mk, Prod.mk_eq_zero] at hz
    obtain ⟨h1, h2, h3⟩ := h a ha l b (sub_eq_zero.1 hz.1) hz.2.1 hz.2.2
    subst h1 h2 h3
    rfl
  obtain ⟨k, hk, hT⟩ := T.exists_antilipschitzWith hker
  refine ⟨3 * k, by positivity, fun a ha l b => ?_⟩
  have h1 := hT.le_mul_dist (⟨a, ha⟩, l, b) 0
  rw [map_zero, dist_zero_right, dist_zero_right] at h1
  simp only [T, LinearMap.coe_mk, AddHom.coe_mk] at h1
  have h2 : ‖((⟨a, ha⟩, l, b) : S × ℝ × V)‖ = max ‖a‖ (max |l| ‖b‖) := rfl
  have h3 : ‖((J a - l • f, J b + D φ a, inner ℝ φ b) : V × V × ℝ)‖ =
      max ‖J a - l • f‖ (max ‖J b + D φ a‖ |inner ℝ φ b|) := rfl
  rw [h2, h3] at h1
  have p1 := norm_nonneg (J a - l • f)
  have p2 := norm_nonneg (J b + D φ a)
  have p3 := abs_nonneg (inner ℝ φ b)
  have h4 : max ‖J a - l • f‖ (max ‖J b + D φ a‖ |inner ℝ φ b|) ≤
      ‖J a - l • f‖ + ‖J b + D φ a‖ + |inner ℝ φ b| :=
    max_le (by linarith) (max_le (by linarith) (by linarith))
  have h5 := h1.trans (mul_le_mul_of_nonneg_left h4 (NNReal.coe_nonneg k))
  have h6 := (le_max_left ‖a‖ (max |l| ‖b‖)).trans h5
  have h7 := ((le_max_left |l| ‖b‖).trans (le_max_right ‖a‖ (max |l| ‖b‖))).trans h5
  have h8 := ((le_max_right |l| ‖b‖).trans (le_max_right ‖a‖ (max |l| ‖b‖))).trans h5
  linarith

/-- The callbacks and the linear solver of a structure with smooth internal forces. Only regular tangents are
factorised. -/
structure SmoothCallbacks (e : Env ℝ V Mat Fac) (G : V → V) : Prop where
  dot : ∀ x y, e.geo.dot x y = inner ℝ x y
  norm : ∀ x, e.geo.norm x = ‖x‖
  residual : ∀ n x l, e.residual n x l = some (G x - l • e.forcing)
  tangent : ∀ n x dx, ∃ m, e.jacobian n x dx = some m ∧ ∀ y, e.mul m y = fderiv ℝ G x y
  regular : ∀ n x dx m i f, e.jacobian n x dx = some m → e.factorize i m = some f →
    Function.Injective (fderiv ℝ G x)
  solves : ∀ n x dx m i f j b y, e.jacobian n x dx = some m → e.factorize i m = some f →
    e.solve j f b = some y → fderiv ℝ G x y = b

/-- Continuously differentiable functions are Lipschitz continuous on balls. -/
theorem lipschitz_ball {F : Type} [NormedAddCommGroup F] [NormedSpace ℝ F] {g : V → F} (hg : ContDiff ℝ 1 g) (x₀ : V) :
    ∃ κ, 0 ≤ κ ∧ ∀ x ∈ Metric.closedBall x₀ (1 : ℝ), ∀ y ∈ Metric.closedBall x₀ (1 : ℝ),
      ‖g y - g x‖ ≤ κ * ‖y - x‖ := by
  have : ProperSpace V := FiniteDimensional.proper ℝ V
  obtain ⟨κ, hκ⟩ := (isCompact_closedBall x₀ (1 : ℝ)).exists_bound_of_continuousOn (f := fderiv ℝ g)
    (hg.continuous_fderiv (by norm_num)).continuousOn
  refine ⟨max κ 0, le_max_right _ _, fun x hx y hy => ?_⟩
  exact (convex_closedBall x₀ 1).norm_image_sub_le_of_norm_fderiv_le
    (fun z _ => hg.differentiable (by norm_num) z) (fun z hz => (hκ z hz).trans (le_max_left _ _)) hx hy

/-- Singular points of smooth structures at which the extended system is regular have the constants asked for in
`SingularPt`. -/
theorem exists_singularPt {G : V → V} (hG : ContDiff ℝ 3 G) (he : SmoothCallbacks e G) {S : Submodule ℝ V} {Us φ : V}
    {Ls : ℝ} (hload : e.forcing ∈ S) (hforce : ∀ x, x - Us ∈ S → G x ∈ S) (hbal : G Us = Ls • e.forcing)
    (hker : fderiv ℝ G Us φ = 0) (hunit : ‖φ‖ = 1)
    (hreg : ExtendedRegular (fderiv ℝ G Us) (fderiv ℝ (fderiv ℝ G) Us) S e.forcing φ) :
    ∃ m κ, SingularPt e G (fderiv ℝ G) S Us Ls φ (fderiv ℝ (fderiv ℝ G) Us) 1 m κ := by
  obtain ⟨m, hm, hmr⟩ := hreg.bound
  have hG1 : ContDiff ℝ 2 (fderiv ℝ G) := hG.fderiv_right (m := 2) (by norm_num)
  have hG2 : ContDiff ℝ 1 (fderiv ℝ (fderiv ℝ G)) := hG1.fderiv_right (m := 1) (by norm_num)
  have dG : Differentiable ℝ G := hG.differentiable (by norm_num)
  have dJ : Differentiable ℝ (fderiv ℝ G) := hG1.differentiable (by norm_num)
  obtain ⟨κ₁, h01, hκ₁⟩ := lipschitz_ball (hG1.of_le (by norm_num)) Us
  obtain ⟨κ₂, h02, hκ₂⟩ := lipschitz_ball hG2 Us
  set κ := max κ₁ κ₂ with hκ
  have h0 : 0 ≤ κ := h01.trans (le_max_left _ _)
  have hk1 : κ₁ ≤ κ := le_max_left _ _
  have hk2 : κ₂ ≤ κ := le_max_right _ _
  have mem : ∀ x, ‖x - Us‖ ≤ 1 → x ∈ Metric.closedBall Us (1 : ℝ) := fun x hx => by
    rwa [Metric.mem_closedBall, dist_eq_norm]
  have memU : Us ∈ Metric.closedBall Us (1 : ℝ) := Metric.mem_closedBall_self zero_le_one
  have lipJ : ∀ x ∈ Metric.closedBall Us (1 : ℝ), ∀ y ∈ Metric.closedBall Us (1 : ℝ),
      ‖fderiv ℝ G y - fderiv ℝ G x‖ ≤ κ * ‖y - x‖ := fun x hx y hy =>
    (hκ₁ x hx y hy).trans (mul_le_mul_of_nonneg_right hk1 (norm_nonneg _))
  have lipD : ∀ x ∈ Metric.closedBall Us (1 : ℝ), ∀ y ∈ Metric.closedBall Us (1 : ℝ),
      ‖fderiv ℝ (fderiv ℝ G) y - fderiv ℝ (fderiv ℝ G) x‖ ≤ κ * ‖y - x‖ := fun x hx y hy =>
    (hκ₂ x hx y hy).trans (mul_le_mul_of_nonneg_right hk2 (norm_nonneg _))
  refine ⟨m, κ, he.dot, he.norm, fun n x l _ => he.residual n x l, fun n x dx _ => he.tangent n x dx, ?_, hbal, hker,
    hunit, hload, fun x hx _ => hforce x hx, ?_, ?_, ?_, hmr, one_pos, hm, h0⟩
  · intro n x dx A i f j b y _ hA hf hy
    refine ⟨he.solves n x dx A i f j b y hA hf hy, fun hx hb => ?_⟩
    have hinj := he.regular n x dx A i f hA hf
    let R : S →ₗ[ℝ] S := ((fderiv ℝ G x : V →ₗ[ℝ] V)).restrict fun a ha => fderiv_mem dG hforce hx ha
    have hR : Function.Injective R := by
      intro u v huv
      have := congrArg Subtype.val huv
      exact Subtype.ext (hinj this)
    obtain ⟨z, hz⟩ := LinearMap.surjective_of_injective hR ⟨b, hb⟩
    have hz' : fderiv ℝ G x z = b := congrArg Subtype.val hz
    have : y = z := hinj ((he.solves n x dx A i f j b y hA hf hy).trans hz'.symm)
    rw [this]
    exact z.2
  · intro x hx
    have hxm := mem x hx
    have h1 := ((convex_closedBall Us 1).inter (convex_closedBall x ‖x - Us‖)).norm_image_sub_le_of_norm_fderiv_le'
      (f := G) (φ := fderiv ℝ G x) (C := κ * ‖x - Us‖) (fun z _ => dG z)
      (fun z hz => by
        refine (lipJ x hxm z hz.1).trans (mul_le_mul_of_nonneg_left ?_ h0)
        have := hz.2
        rwa [Metric.mem_closedBall, dist_eq_norm] at this)
      (x := Us) (y := x) ⟨memU, by rw [Metric.mem_closedBall, dist_eq_norm, norm_sub_rev]⟩
      ⟨hxm, Metric.mem_closedBall_self (norm_nonneg _)⟩
    rwa [pow_two, ← mul_assoc]
  · intro x x' hx hx'
    have hxm := mem x hx
    have hxm' := mem x' hx'
    refine ((convex_closedBall Us 1).inter (convex_closedBall x ‖x' - x‖)).norm_image_sub_le_of_norm_fderiv_le'
      (f := fderiv ℝ G) (φ := fderiv ℝ (fderiv ℝ G) Us) (C := κ * (‖x - Us‖ + ‖x' - x‖)) (fun z _ => dJ z)
      (fun z hz => ?_) ⟨hxm, Metric.mem_closedBall_self (norm_nonneg _)⟩
      ⟨hxm', by rw [Metric.mem_closedBall, dist_eq_norm]⟩
    refine (lipD Us memU z hz.1).trans (mul_le_mul_of_nonneg_left ?_ h0)
    have h2 := hz.2
    rw [Metric.mem_closedBall, dist_eq_norm] at h2
    have e1 : z - Us = (x - Us) + (z - x) := by abel
    rw [e1]
    exact (norm_add_le _ _).trans (by linarith)
  · intro a b
    exact (hG.contDiffAt.isSymmSndFDerivAt (by rw [minSmoothness_of_isRCLikeNormedField]; norm_num)).eq a b

/-! ## Which points are regular -/

/-- Quadratic limit points: the load is not orthogonal to the kernel. -/
theorem regular_limit {J : V →L[ℝ] V} {D : V →L[ℝ] V →L[ℝ] V} {f φ : V}
    (hsym : ∀ x y, inner ℝ (J x) y = inner ℝ x (J y)) (hφ : ‖φ‖ = 1) (hJ : J φ = 0)
    (hker : ∀ x, J x = 0 → ∃ c : ℝ, x = c • φ) (hf : inner ℝ φ f ≠ (0 : ℝ)) (hD : inner ℝ φ (D φ φ) ≠ (0 : ℝ)) :
    ExtendedRegular J D ⊤ f φ := by
  intro a _ l b h1 h2 h3
  have hl : l = 0 := by
    have h4 : inner ℝ φ (J a) = (0 : ℝ) := by rw [← hsym, hJ, inner_zero_left]
    rw [h1, inner_smul_right] at h4
    exact (mul_eq_zero.1 h4).resolve_right hf
  subst hl
  obtain ⟨c, rfl⟩ := hker a (by rw [h1, zero_smul])
  have hc : c = 0 := by
    have h4 : inner ℝ φ (J b + D φ (c • φ)) = (0 : ℝ) := by rw [h2, inner_zero_right]
    rw [inner_add_right, ← hsym, hJ, inner_zero_left, zero_add, map_smul, inner_smul_right] at h4
    exact (mul_eq_zero.1 h4).resolve_right hD
  subst hc
  rw [zero_smul, map_zero, add_zero] at h2
  obtain ⟨d, rfl⟩ := hker b h2
  rw [inner_smul_right, real_inner_self_eq_norm_sq, hφ, one_pow, mul_one] at h3
  subst h3
  simp

/-- Bifurcations by loss of symmetry: the tangent is regular on the space `S` of the symmetric displacements, and the
derivative of the critical eigenvalue along the path of symmetric equilibria, with direction `u`, does not vanish. -/
theorem regular_bifurcation {J : V →L[ℝ] V} {D : V →L[ℝ] V →L[ℝ] V} {S : Submodule ℝ V} {f φ u : V}
    (hsym : ∀ x y, inner ℝ (J x) y = inner ℝ x (J y)) (hφ : ‖φ‖ = 1) (hJ : J φ = 0)
    (hker : ∀ x, J x = 0 → ∃ c : ℝ, x = c • φ) (hS : φ ∉ S) (hu : u ∈ S) (hf : J u = f)
    (hD : inner ℝ φ (D φ u) ≠ (0 : ℝ)) : ExtendedRegular J D S f φ := by
  intro a ha l b h1 h2 h3
  have haS : a = l • u := by
    obtain ⟨c, hc⟩ := hker (a - l • u) (by rw [map_sub, map_smul, h1, hf, sub_self])
    have hm : c • φ ∈ S := by
      rw [← hc]
      exact S.sub_mem ha (S.smul_mem l hu)
    have hc0 : c = 0 := by
      by_contra hne
      exact hS ((S.smul_mem_iff hne).1 hm)
    rw [hc0, zero_smul] at hc
    exact sub_eq_zero.1 hc
  have hl : l = 0 := by
    have h4 : inner ℝ φ (J b + D φ a) = (0 : ℝ) := by rw [h2, inner_zero_right]
    rw [haS, inner_add_right, ← hsym, hJ, inner_zero_left, zero_add, map_smul, inner_smul_right] at h4
    exact (mul_eq_zero.1 h4).resolve_right hD
  subst hl
  rw [zero_smul] at haS
  subst haS
  rw [map_zero, add_zero] at h2
  obtain ⟨d, rfl⟩ := hker b h2
  rw [inner_smul_right, real_inner_self_eq_norm_sq, hφ, one_pow, mul_one] at h3
  subst h3
  simp

/-- Without symmetry no bifurcation point is regular: if the load is orthogonal to the kernel, the linear system of
the extended system is singular. -/
theorem not_regular_bifurcation {J : V →L[ℝ] V} {D : V →L[ℝ] V →L[ℝ] V} {f φ : V}
    (hsym : ∀ x y, inner ℝ (J x) y = inner ℝ x (J y)) (hφ : ‖φ‖ = 1) (hJ : J φ = 0)
    (hker : ∀ x, J x = 0 → ∃ c : ℝ, x = c • φ) (hf : inner ℝ φ f = (0 : ℝ)) : ¬ExtendedRegular J D ⊤ f φ := by
  intro h
  have hrange : ∀ y, inner ℝ φ y = (0 : ℝ) → ∃ x, J x = y := by
    intro y hy
    have h1 : y ∈ (LinearMap.range (J : V →ₗ[ℝ] V))ᗮᗮ := by
      rw [Submodule.mem_orthogonal]
      intro z hz
      have hz' : J z = 0 := by
        have := (Submodule.mem_orthogonal _ _).1 hz (J (J z)) ⟨J z, rfl⟩
        rw [hsym] at this
        exact inner_self_eq_zero.1 this
      obtain ⟨c, rfl⟩ := hker z hz'
      rw [inner_smul_left, hy, mul_zero]
    rw [Submodule.orthogonal_orthogonal] at h1
    exact h1
  obtain ⟨u, hu⟩ := hrange f hf
  have key : ∃ α l : ℝ, (α ≠ 0 ∨ l ≠ 0) ∧ inner ℝ φ (D φ (α • φ + l • u)) = (0 : ℝ) := by
    by_cases h0 : inner ℝ φ (D φ φ) = (0 : ℝ)
    · exact ⟨1, 0, Or.inl one_ne_zero, by simp [h0]⟩
    · refine ⟨-inner ℝ φ (D φ u), inner ℝ φ (D φ φ), Or.inr h0, ?_⟩
      rw [map_add, map_smul, map_smul, inner_add_right, inner_smul_right, inner_smul_right]
      ring
  obtain ⟨α, l, hne, hz⟩ := key
  obtain ⟨b, hb⟩ := hrange (-(D φ (α • φ + l • u))) (by rw [inner_neg_right, hz, neg_zero])
  obtain ⟨h1, h2, -⟩ := h (α • φ + l • u) trivial l (b - (inner ℝ φ b : ℝ) • φ)
    (by rw [map_add, map_smul, map_smul, hJ, hu, smul_zero, zero_add])
    (by rw [map_sub, map_smul, hJ, smul_zero, sub_zero, hb, neg_add_cancel])
    (by rw [inner_sub_right, inner_smul_right, real_inner_self_eq_norm_sq, hφ]; ring)
  subst h2
  rw [zero_smul, add_zero] at h1
  have hφ0 : φ ≠ 0 := by
    rintro rfl
    simp at hφ
  exact (hne.resolve_right (by simp)) ((smul_eq_zero.1 h1).resolve_right hφ0)

end GsSA.ALM
