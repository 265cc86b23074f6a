import Mathlib.Analysis.Calculus.ContDiff.Operations
import Mathlib.Analysis.Calculus.MeanValue
import Mathlib.Analysis.Calculus.ContDiff.FiniteDimension
import Mathlib.Analysis.Normed.Ring.Units
import Mathlib.Topology.MetricSpace.Thickening
import Verif.ALM.LoadPath

/-!
# Load control on smooth structures (C134)
-/

namespace GsSA.ALM

open GsSA Set

set_option linter.unusedSectionVars false

variable {V Mat Fac : Type} [NormedAddCommGroup V] [NormedSpace ℝ V] [FiniteDimensional ℝ V]
variable {e : Env ℝ V Mat Fac}

/-- Regular paths of equilibria of twice continuously differentiable internal forces have the constants asked
for in `EqPath`. -/
theorem exists_path {f : V → V} (hf : ContDiff ℝ 2 f) {w : ℝ → V} {a b : ℝ} (hw : ContinuousOn w (Icc a b))
    (hbal : ∀ l ∈ Icc a b, f (w l) = l • e.forcing) (hreg : ∀ l ∈ Icc a b, IsUnit (fderiv ℝ f (w l)))
    (hgeo : ∀ x, e.geo.norm x = ‖x‖) (hres : ∀ n x l, e.residual n x l = some (f x - l • e.forcing))
    (hsolve : ∀ x, IsUnit (fderiv ℝ f x) → Solvable e (fun x => (fderiv ℝ f x : V →ₗ[ℝ] V)) x) :
    ∃ ρ β γ μ Λ, EqPath e f (fun x => (fderiv ℝ f x : V →ₗ[ℝ] V)) w a b ρ β γ μ Λ := by
  have : CompleteSpace V := FiniteDimensional.complete ℝ V
  have : ProperSpace V := FiniteDimensional.proper ℝ V
  have hG1 : ContDiff ℝ 1 (fderiv ℝ f) := hf.fderiv_right (m := 1) (by norm_num)
  have dF : ∀ x, HasFDerivAt f (fderiv ℝ f x) x := fun x =>
    ((hf.differentiable (by norm_num)) x).hasFDerivAt
  have dG : ∀ x, HasFDerivAt (fderiv ℝ f) (fderiv ℝ (fderiv ℝ f) x) x := fun x =>
    ((hG1.differentiable (by norm_num)) x).hasFDerivAt
  set T₀ : Set V := w '' Icc a b with hT₀
  have hT₀c : IsCompact T₀ := isCompact_Icc.image_of_continuousOn hw
  set O : Set V := {x | IsUnit (fderiv ℝ f x)} with hO
  have hOo : IsOpen O := Units.isOpen.preimage hG1.continuous
  have hsub : T₀ ⊆ O := by
    rintro _ ⟨l, hl, rfl⟩
    exact hreg l hl
  obtain ⟨ρ, hρ, hρO⟩ := hT₀c.exists_cthickening_subset_open hOo hsub
  set T := Metric.cthickening ρ T₀ with hT
  have hTc : IsCompact T := hT₀c.cthickening
  have mem : ∀ l ∈ Icc a b, ∀ x, ‖x - w l‖ ≤ ρ → x ∈ T := fun l hl x hx =>
    Metric.mem_cthickening_of_dist_le x (w l) ρ T₀ ⟨l, hl, rfl⟩ (by rwa [dist_eq_norm])
  have hinvc : ContinuousOn (fun x => Ring.inverse (fderiv ℝ f x)) T := fun x hx => by
    obtain ⟨u, hu⟩ := hρO hx
    have h1 := NormedRing.inverse_continuousAt u
    rw [hu] at h1
    exact (h1.comp hG1.continuous.continuousAt).continuousWithinAt
  obtain ⟨β₀, hβ₀⟩ := hTc.exists_bound_of_continuousOn hinvc
  obtain ⟨μ₀, hμ₀⟩ := hTc.exists_bound_of_continuousOn hG1.continuous.continuousOn
  obtain ⟨γ₀, hγ₀⟩ := hTc.exists_bound_of_continuousOn (hG1.continuous_fderiv (by norm_num)).continuousOn
  set β := max β₀ 1
  set μ := max μ₀ 1
  set γ := max γ₀ 0
  have hβ : 0 < β := one_pos.trans_le (le_max_right _ _)
  have hμ : 0 < μ := one_pos.trans_le (le_max_right _ _)
  have hγ : 0 ≤ γ := le_max_right _ _
  have inv : ∀ x ∈ T, ∀ y, ‖y‖ ≤ β * ‖fderiv ℝ f x y‖ := fun x hx y => by
    have h1 : Ring.inverse (fderiv ℝ f x) * fderiv ℝ f x = 1 := Ring.inverse_mul_cancel _ (hρO hx)
    have h2 : Ring.inverse (fderiv ℝ f x) (fderiv ℝ f x y) = y := by
      have := congrArg (fun A : V →L[ℝ] V => A y) h1
      simpa using this
    have h3 := (Ring.inverse (fderiv ℝ f x)).le_of_opNorm_le ((hβ₀ x hx).trans (le_max_left _ 1)) (fderiv ℝ f x y)
    rwa [h2] at h3
  have lipG : ∀ l ∈ Icc a b, ∀ x, ‖x - w l‖ ≤ ρ → ∀ x', ‖x' - w l‖ ≤ ρ →
      ‖fderiv ℝ f x' - fderiv ℝ f x‖ ≤ γ * ‖x' - x‖ := by
    intro l hl x hx x' hx'
    refine (convex_closedBall (w l) ρ).norm_image_sub_le_of_norm_hasFDerivWithin_le
      (fun z _ => (dG z).hasFDerivWithinAt) (fun z hz => ?_) ?_ ?_
    · rw [Metric.mem_closedBall, dist_eq_norm] at hz
      exact (hγ₀ z (mem l hl z hz)).trans (le_max_left _ _)
    · rwa [Metric.mem_closedBall, dist_eq_norm]
    · rwa [Metric.mem_closedBall, dist_eq_norm]
  have quad : ∀ l ∈ Icc a b, ∀ x, ‖x - w l‖ ≤ ρ → ∀ x', ‖x' - w l‖ ≤ ρ →
      ‖f x' - f x - fderiv ℝ f x (x' - x)‖ ≤ γ * ‖x' - x‖ ^ 2 := by
    intro l hl x hx x' hx'
    have h1 := ((convex_closedBall (w l) ρ).inter (convex_closedBall x ‖x' - x‖)).norm_image_sub_le_of_norm_hasFDerivWithin_le
      (f := fun z => f z - fderiv ℝ f x z) (f' := fun z => fderiv ℝ f z - fderiv ℝ f x) (C := γ * ‖x' - x‖)
      (fun z _ => ((dF z).sub (fderiv ℝ f x).hasFDerivAt).hasFDerivWithinAt)
      (fun z hz => by
        obtain ⟨hz1, hz2⟩ := hz
        rw [Metric.mem_closedBall, dist_eq_norm] at hz1 hz2
        exact (lipG l hl x hx z hz1).trans (mul_le_mul_of_nonneg_left hz2 hγ))
      (x := x) (y := x') ⟨by rwa [Metric.mem_closedBall, dist_eq_norm], Metric.mem_closedBall_self (norm_nonneg _)⟩
      ⟨by rwa [Metric.mem_closedBall, dist_eq_norm], by rw [Metric.mem_closedBall, dist_eq_norm]⟩
    refine (le_of_eq ?_).trans (h1.trans (le_of_eq (by ring)))
    congr 1
    rw [map_sub]
    abel
  -- the speed of the path
  have huc := isCompact_Icc.uniformContinuousOn_of_continuous hw
  rw [Metric.uniformContinuousOn_iff] at huc
  obtain ⟨η, hη, hclose⟩ := huc (min ρ (1 / (2 * β * γ + 1))) (lt_min hρ (by positivity))
  obtain ⟨D, hD⟩ := hT₀c.isBounded.exists_norm_le
  have hD' : ∀ l ∈ Icc a b, ‖w l‖ ≤ max D 0 := fun l hl => (hD _ ⟨l, hl, rfl⟩).trans (le_max_left _ _)
  set φ := ‖e.forcing‖ with hφ
  refine ⟨ρ, β, γ, μ, max (2 * β * φ) (2 * max D 0 / η), hgeo, hres, hbal, fun l hl x hx => hsolve x (hρO (mem l hl x hx)),
    fun l hl x hx y => inv x (mem l hl x hx) y, fun l hl x hx y => ?_, quad, ?_, hρ, hβ, hγ, hμ, ?_⟩
  · exact (fderiv ℝ f x).le_of_opNorm_le ((hμ₀ x (mem l hl x hx)).trans (le_max_left _ 1)) y
  · intro l hl l' hl'
    by_cases hc : dist l' l < η
    · have h1 := hclose l' hl' l hl hc
      rw [dist_eq_norm] at h1
      have h2 : ‖w l' - w l‖ ≤ ρ := (h1.trans_le (min_le_left _ _)).le
      have h3 : ‖w l' - w l‖ < 1 / (2 * β * γ + 1) := h1.trans_le (min_le_right _ _)
      have h0 : ‖w l - w l‖ ≤ ρ := by simpa using hρ.le
      have h4 := quad l hl (w l) h0 (w l') h2
      have h5 := inv (w l) (mem l hl _ h0) (w l' - w l)
      have h6 : ‖fderiv ℝ f (w l) (w l' - w l)‖ ≤ φ * |l' - l| + γ * ‖w l' - w l‖ ^ 2 := by
        have e1 : fderiv ℝ f (w l) (w l' - w l) =
            (f (w l') - f (w l)) - (f (w l') - f (w l) - fderiv ℝ f (w l) (w l' - w l)) := by abel
        rw [e1]
        refine (norm_sub_le _ _).trans (add_le_add ?_ h4)
        rw [hbal l hl, hbal l' hl', ← sub_smul, norm_smul, Real.norm_eq_abs, mul_comm]
      rw [lt_div_iff₀ (by positivity)] at h3
      have h7 : ‖w l' - w l‖ ≤ 2 * β * φ * |l' - l| := by
        have k1 := mul_le_mul_of_nonneg_left h6 hβ.le
        have k2 := norm_nonneg (w l' - w l)
        have k3 : 2 * (β * γ * ‖w l' - w l‖) ≤ 1 := by nlinarith
        have k4 := mul_le_mul_of_nonneg_right k3 k2
        nlinarith
      exact h7.trans (mul_le_mul_of_nonneg_right (le_max_left _ _) (abs_nonneg _))
    · rw [not_lt, Real.dist_eq] at hc
      have h1 : ‖w l' - w l‖ ≤ 2 * max D 0 := (norm_sub_le _ _).trans (by linarith [hD' l hl, hD' l' hl'])
      have h2 : 2 * max D 0 ≤ 2 * max D 0 / η * |l' - l| := by
        rw [div_mul_eq_mul_div, le_div_iff₀ hη]
        exact mul_le_mul_of_nonneg_left hc (by positivity)
      exact h1.trans (h2.trans (mul_le_mul_of_nonneg_right (le_max_right _ _) (abs_nonneg _)))
  · exact le_max_of_le_left (by positivity)

/-- **C134** for twice continuously differentiable internal forces: along a path of equilibria on which the
tangent is regular, all steps of load control of a short enough length succeed, each in one iteration, and stay
within `C len ^ 4` of the path. -/
theorem C134_loadControl_smooth {f : V → V} (hf : ContDiff ℝ 2 f) {w : ℝ → V} {a b : ℝ} (hw : ContinuousOn w (Icc a b))
    (hbal : ∀ l ∈ Icc a b, f (w l) = l • e.forcing) (hreg : ∀ l ∈ Icc a b, IsUnit (fderiv ℝ f (w l)))
    (hgeo : ∀ x, e.geo.norm x = ‖x‖) (hres : ∀ n x l, e.residual n x l = some (f x - l • e.forcing))
    (hsolve : ∀ x, IsUnit (fderiv ℝ f x) → Solvable e (fun x => (fderiv ℝ f x : V →ₗ[ℝ] V)) x)
    (ha : 0 ≤ a) (hF : e.forcing ≠ 0) {tF tU : ℝ} (hF' : 0 < tF) (hU' : 0 < tU) :
    ∃ C h₀, 0 ≤ C ∧ 0 < h₀ ∧ ∀ (o : Opts ℝ) (s : St ℝ V Mat Fac), o.quasi = false → 2 ≤ o.maxIt → o.tolF = tF →
      o.tolU = tU → s.initialized = true → s.guess = none → s.adaptive = false → 0 < s.len → s.len ≤ h₀ →
      a ≤ s.L → s.U = w s.L → ∀ n : ℕ, s.L + n * s.len ≤ b →
      let at' := fun k => (fun s => (ALM.step e o (loadControl e) s).1)^[k] s
      (∀ k < n, (ALM.step e o (loadControl e) (at' k)).2 = .ok .success ∧ (at' (k + 1)).numIt = 1) ∧
      ∀ k ≤ n, (at' k).L = s.L + k * s.len ∧ ‖(at' k).U - w (at' k).L‖ ≤ C * s.len ^ 4 := by
  obtain ⟨ρ, β, γ, μ, Λ, h⟩ := exists_path hf hw hbal hreg hgeo hres hsolve
  obtain ⟨C, h₀, hC, hh, key⟩ := C134_loadControl_path h ha hF hF' hU'
  refine ⟨C, h₀, hC, hh, ?_⟩
  intro o s hq hmax h1 h2 hi hgu had hl0 hl1 hsa hs n hn
  exact key o s hq hmax h1 h2 hi hgu had hl0 hl1 hsa (by rw [hs, sub_self, norm_zero]; positivity) n hn

end GsSA.ALM
