import Mathlib.Analysis.InnerProductSpace.Basic
import Verif.ALM.BisectionConverge

/-!
# C143: the inverse power method near a singular point

One step turns every vector with a component in the direction of the mode into the mode, up to an error proportional to
the distance to the singular point.
-/

namespace GsSA.ALM

open GsSA

set_option linter.unusedSectionVars false

variable {V Mat Fac : Type} [NormedAddCommGroup V] [InnerProductSpace ℝ V]

/-- One step of the inverse power method with a matrix that maps `φ` to a small vector and is bounded from below on
the vectors orthogonal to `φ`. -/
theorem power_direction {A : V →L[ℝ] V} (hsym : ∀ a b, inner ℝ (A a) b = inner ℝ a (A b)) {φ : V} (hφ : ‖φ‖ = 1)
    {η μ α : ℝ} (hμ : 0 < μ) (hη : ‖A φ‖ ≤ η) (hA : ∀ y, inner ℝ φ y = (0 : ℝ) → μ * ‖y‖ ≤ ‖A y‖) {x v : V}
    (hx : A x = v) (hv : ‖v‖ ≤ 1) (hα : 0 < α) (hvα : α ≤ |inner ℝ φ v|) :
    0 < ‖x‖ ∧ ∃ s : ℝ, |s| = 1 ∧ ‖(1 / ‖x‖) • x - s • φ‖ ≤ 2 * (η * (1 / α + 1) / μ) := by
  have h1 : inner ℝ φ v = inner ℝ (A φ) x := by rw [← hx, hsym]
  have h2 : α ≤ η * ‖x‖ := by
    refine hvα.trans ?_
    rw [h1]
    exact (abs_real_inner_le_norm _ _).trans (mul_le_mul_of_nonneg_right hη (norm_nonneg _))
  have hη0 : 0 ≤ η := (norm_nonneg _).trans hη
  have hx0 : 0 < ‖x‖ := by
    rcases (norm_nonneg x).eq_or_lt with h | h
    · rw [← h, mul_zero] at h2
      linarith
    · exact h
  refine ⟨hx0, ?_⟩
  set ξ : ℝ := inner ℝ φ x with hξ
  set y := x - ξ • φ with hy
  have hφφ : inner ℝ φ φ = (1 : ℝ) := by rw [real_inner_self_eq_norm_sq, hφ]; norm_num
  have hyφ : inner ℝ φ y = (0 : ℝ) := by
    rw [hy, inner_sub_right, inner_smul_right, hφφ, ← hξ]
    ring
  have hξx : |ξ| ≤ ‖x‖ := by
    have := abs_real_inner_le_norm φ x
    rwa [hφ, one_mul] at this
  have hAy : A y = v - ξ • A φ := by rw [hy, map_sub, map_smul, hx]
  have h3 : μ * ‖y‖ ≤ 1 + η * ‖x‖ := by
    refine (hA y hyφ).trans ?_
    rw [hAy]
    refine (norm_sub_le _ _).trans (add_le_add hv ?_)
    rw [norm_smul, Real.norm_eq_abs, mul_comm]
    exact mul_le_mul hη hξx (abs_nonneg _) hη0
  have h4 : (1 : ℝ) ≤ η / α * ‖x‖ := by
    rw [div_mul_eq_mul_div, le_div_iff₀ hα]
    linarith
  have h5 : ‖y‖ / ‖x‖ ≤ η * (1 / α + 1) / μ := by
    rw [div_le_div_iff₀ hx0 hμ]
    calc ‖y‖ * μ ≤ 1 + η * ‖x‖ := by linarith
      _ ≤ η / α * ‖x‖ + η * ‖x‖ := by linarith
      _ = η * (1 / α + 1) * ‖x‖ := by ring
  have h6 : ‖x‖ ≤ |ξ| + ‖y‖ := by
    have e1 : x = ξ • φ + y := by rw [hy]; abel
    calc ‖x‖ = ‖ξ • φ + y‖ := by rw [← e1]
      _ ≤ ‖ξ • φ‖ + ‖y‖ := norm_add_le _ _
      _ = |ξ| + ‖y‖ := by rw [norm_smul, Real.norm_eq_abs, hφ, mul_one]
  have key : ∀ s : ℝ, s * |ξ| = ξ → |s| = 1 → ‖(1 / ‖x‖) • x - s • φ‖ ≤ 2 * (η * (1 / α + 1) / μ) := by
    intro s hs hs1
    have e1 : (1 / ‖x‖) • x - s • φ = (1 / ‖x‖) • y + (s * (|ξ| / ‖x‖ - 1)) • φ := by
      have e2 : (1 / ‖x‖) * ξ - s = s * (|ξ| / ‖x‖ - 1) := by
        rw [← hs]
        field_simp
        rw [hs]
      rw [← e2, hy]
      module
    rw [e1]
    refine (norm_add_le _ _).trans ?_
    rw [norm_smul, norm_smul, hφ, mul_one, Real.norm_eq_abs, Real.norm_eq_abs, abs_mul, hs1, one_mul,
      abs_of_pos (by positivity : (0 : ℝ) < 1 / ‖x‖)]
    have h7 : |ξ| / ‖x‖ ≤ 1 := (div_le_one hx0).2 hξx
    have h8 : 1 ≤ |ξ| / ‖x‖ + ‖y‖ / ‖x‖ := by
      rw [← add_div, one_le_div hx0]
      exact h6
    rw [abs_of_nonpos (by linarith), one_div_mul_eq_div]
    linarith
  rcases le_or_gt 0 ξ with h | h
  · exact ⟨1, by simp, key 1 (by rw [abs_of_nonneg h, one_mul]) (by simp)⟩
  · exact ⟨-1, by simp, key (-1) (by rw [abs_of_neg h]; ring) (by simp)⟩

variable {e : Env ℝ V Mat Fac}

theorem normalized_eq (hdot : ∀ x y, e.geo.dot x y = inner ℝ x y) (hnorm : ∀ x, e.geo.norm x = ‖x‖) {x : V}
    (hx : 0 < ‖x‖) : normalized e.geo x = (1 / ‖x‖) • x := by
  unfold normalized
  rw [hdot, real_inner_self_eq_norm_sq, if_pos (by positivity), hnorm]

/-- Every vector that the inverse power method reaches is the mode up to its sign and an error proportional to `η`. -/
theorem PowerMode.near (hdot : ∀ x y, e.geo.dot x y = inner ℝ x y) (hnorm : ∀ x, e.geo.norm x = ‖x‖)
    {A : V →L[ℝ] V} {f : Fac} (hsol : ∀ n b y, e.solve n f b = some y → A y = b)
    (hsym : ∀ a b, inner ℝ (A a) b = inner ℝ a (A b)) {φ : V} (hφ : ‖φ‖ = 1)
    {η μ α : ℝ} (hμ : 0 < μ) (hη : ‖A φ‖ ≤ η) (hA : ∀ y, inner ℝ φ y = (0 : ℝ) → μ * ‖y‖ ≤ ‖A y‖) (hα : 0 < α)
    (hα2 : α ≤ 1 / 2) (hones : α * ‖e.ones‖ ≤ |inner ℝ φ e.ones|) (h0 : 0 < ‖e.ones‖)
    (hsmall : 2 * (η * (1 / α + 1) / μ) ≤ 1 / 2) {v : V} (hv : PowerMode e f v) :
    ‖v‖ = 1 ∧ ∃ s : ℝ, |s| = 1 ∧ ‖v - s • φ‖ ≤ 2 * (η * (1 / α + 1) / μ) := by
  have unit : ∀ {x : V}, 0 < ‖x‖ → ‖(1 / ‖x‖) • x‖ = 1 := by
    intro x hx
    rw [norm_smul, Real.norm_eq_abs, abs_of_pos (by positivity)]
    field_simp
  have hφφ : inner ℝ φ φ = (1 : ℝ) := by rw [real_inner_self_eq_norm_sq, hφ]; norm_num
  induction hv with
  | first h =>
    rw [normalized_eq hdot hnorm h0] at h
    have hi : α ≤ |inner ℝ φ ((1 / ‖e.ones‖) • e.ones)| := by
      rw [inner_smul_right, abs_mul, abs_of_pos (by positivity), one_div_mul_eq_div, le_div_iff₀ h0]
      exact hones
    obtain ⟨h1, h2⟩ := power_direction hsym hφ hμ hη hA (hsol _ _ _ h) (unit h0).le hα hi
    rw [normalized_eq hdot hnorm h1]
    exact ⟨unit h1, h2⟩
  | next hx h ih =>
    rename_i n x y
    obtain ⟨i1, s, i2, i3⟩ := ih
    have hi : α ≤ |inner ℝ φ x| := by
      have e1 : inner ℝ φ x = s + inner ℝ φ (x - s • φ) := by
        rw [inner_sub_right, inner_smul_right, hφφ]
        ring
      have e2 : |inner ℝ φ (x - s • φ)| ≤ 1 / 2 := by
        have := abs_real_inner_le_norm φ (x - s • φ)
        rw [hφ, one_mul] at this
        exact this.trans (i3.trans hsmall)
      rw [e1]
      have e3 := abs_sub_abs_le_abs_sub s (-inner ℝ φ (x - s • φ))
      rw [abs_neg, sub_neg_eq_add, i2] at e3
      linarith
    obtain ⟨h1, h2⟩ := power_direction hsym hφ hμ hη hA (hsol _ _ _ h) i1.le hα hi
    rw [normalized_eq hdot hnorm h1]
    exact ⟨unit h1, h2⟩

end GsSA.ALM
