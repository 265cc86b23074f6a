import Mathlib.Analysis.SpecialFunctions.Trigonometric.DerivHyp
import Mathlib.Analysis.SpecialFunctions.Trigonometric.Bounds
import Mathlib.Analysis.Complex.ExponentialBounds
import Mathlib.Topology.Order.IntermediateValue
import Verif.Oracle.ReferenceProps

/-!
# C148: the frequencies of clamped beams and cantilevers
-/

namespace GsSA.Oracle

/-- A mode of a beam clamped at both ends. -/
structure ClampedMode (EI m len omega : ℝ) (w : ℝ → ℝ) : Prop where
  smooth : ContDiff ℝ 4 w
  motion : ∀ x, EI * dd (dd w) x = m * omega ^ 2 * w x
  left : w 0 = 0 ∧ deriv w 0 = 0
  right : w len = 0 ∧ deriv w len = 0
  moves : ∃ x, w x ≠ 0

/-- A mode of a beam clamped at the left end, with no moment and no shear force at the right one. -/
structure CantileverMode (EI m len omega : ℝ) (w : ℝ → ℝ) : Prop where
  smooth : ContDiff ℝ 4 w
  motion : ∀ x, EI * dd (dd w) x = m * omega ^ 2 * w x
  left : w 0 = 0 ∧ deriv w 0 = 0
  right : dd w len = 0 ∧ deriv (dd w) len = 0
  moves : ∃ x, w x ≠ 0

noncomputable def comb (k a b c d x : ℝ) : ℝ :=
  a * Real.cosh (k * x) + b * Real.sinh (k * x) + c * Real.cos (k * x) + d * Real.sin (k * x)

theorem deriv_comb (k a b c d : ℝ) : deriv (comb k a b c d) = comb k (k * b) (k * a) (k * d) (-(k * c)) := by
  funext x
  have hx := (hasDerivAt_id' x).const_mul k
  have h := (((hx.cosh.const_mul a).add (hx.sinh.const_mul b)).add (hx.cos.const_mul c)).add (hx.sin.const_mul d)
  refine h.deriv.trans ?_
  simp only [comb]
  ring

theorem comb_smooth (k a b c d : ℝ) : ContDiff ℝ 4 (comb k a b c d) := by
  unfold comb
  have h : ContDiff ℝ 4 fun x : ℝ => k * x := by fun_prop
  exact (((contDiff_const.mul h.cosh).add (contDiff_const.mul h.sinh)).add (contDiff_const.mul h.cos)).add
    (contDiff_const.mul h.sin)

theorem comb_motion {EI m len k : ℝ} (hEI : 0 < EI) (hm : 0 < m) (hl : 0 < len) (a b c d x : ℝ) :
    EI * dd (dd (comb (k / len) a b c d)) x =
      m * ((k / len) ^ 2 * (EI / m) ^ (0.5 : ℝ)) ^ 2 * comb (k / len) a b c d x := by
  rw [half_power, mul_pow, Real.sq_sqrt (by positivity)]
  simp only [dd, deriv_comb, comb]
  field_simp

theorem comb_moves {k a b c d : ℝ} (hk : k ≠ 0) (h : a - c ≠ 0) : ∃ x, comb k a b c d x ≠ 0 := by
  by_contra hn
  have hz : comb k a b c d = fun _ => 0 := funext fun x => not_not.1 fun hx => hn ⟨x, hx⟩
  have h2 : dd (comb k a b c d) 0 = 0 := by
    rw [hz]
    simp [dd]
  simp only [dd, deriv_comb, comb, mul_zero, Real.cosh_zero, Real.sinh_zero, Real.cos_zero, Real.sin_zero] at h2
  have h3 : k * k * (a - c) = 0 := by linarith
  rcases mul_eq_zero.1 h3 with h4 | h4
  · exact hk (mul_self_eq_zero.1 h4)
  · exact h h4

/-- A root of `cos k cosh k = 1` gives a mode of the clamped beam. -/
theorem clamped_mode {EI m len k : ℝ} (hEI : 0 < EI) (hm : 0 < m) (hl : 0 < len) (hk : 0 < k)
    (h : Real.cos k * Real.cosh k = 1) :
    ∃ w, ClampedMode EI m len ((k / len) ^ 2 * (EI / m) ^ (0.5 : ℝ)) w := by
  have hkl : k / len * len = k := div_mul_cancel₀ _ hl.ne'
  refine ⟨comb (k / len) (Real.sinh k - Real.sin k) (-(Real.cosh k - Real.cos k)) (-(Real.sinh k - Real.sin k))
    (Real.cosh k - Real.cos k), comb_smooth _ _ _ _ _, fun x => comb_motion hEI hm hl _ _ _ _ x, ⟨?_, ?_⟩, ⟨?_, ?_⟩,
    comb_moves (by positivity) ?_⟩
  · simp [comb]
  · rw [deriv_comb]
    simp [comb]
    ring
  · simp only [comb, hkl]
    ring
  · rw [deriv_comb]
    simp only [comb, hkl]
    have h1 := Real.cosh_sq k
    have h2 := Real.sin_sq_add_cos_sq k
    linear_combination k / len * (2 * h - h1 - h2)
  · have h1 := Real.self_lt_sinh_iff.2 hk
    have h2 := Real.sin_lt hk
    intro h3
    linarith

/-- A root of `cos k cosh k = -1` gives a mode of the cantilever. -/
theorem cantilever_mode {EI m len k : ℝ} (hEI : 0 < EI) (hm : 0 < m) (hl : 0 < len) (hk : 0 < k) (hk3 : k ≤ 3)
    (h : Real.cos k * Real.cosh k = -1) :
    ∃ w, CantileverMode EI m len ((k / len) ^ 2 * (EI / m) ^ (0.5 : ℝ)) w := by
  have hkl : k / len * len = k := div_mul_cancel₀ _ hl.ne'
  refine ⟨comb (k / len) (Real.sinh k + Real.sin k) (-(Real.cosh k + Real.cos k)) (-(Real.sinh k + Real.sin k))
    (Real.cosh k + Real.cos k), comb_smooth _ _ _ _ _, fun x => comb_motion hEI hm hl _ _ _ _ x, ⟨?_, ?_⟩, ⟨?_, ?_⟩,
    comb_moves (by positivity) ?_⟩
  · simp [comb]
  · rw [deriv_comb]
    simp [comb]
    ring
  · simp only [dd, deriv_comb, comb, hkl]
    ring
  · simp only [dd, deriv_comb, comb, hkl]
    have h1 := Real.cosh_sq k
    have h2 := Real.sin_sq_add_cos_sq k
    linear_combination (k / len) ^ 3 * (-2 * h - h1 - h2)
  · have h1 := Real.self_lt_sinh_iff.2 hk
    have h2 := Real.sin_pos_of_pos_of_lt_pi hk (by linarith [Real.pi_gt_three])
    intro h3
    linarith

/-! ### The numbers -/

theorem continuous_char (s : ℝ) : Continuous fun k => Real.cos k * Real.cosh k - s :=
  (Real.continuous_cos.mul Real.continuous_cosh).sub continuous_const

theorem exp_pow_bounds (n : ℕ) : (2.7182818283 : ℝ) ^ n ≤ Real.exp n ∧ Real.exp n ≤ 2.7182818286 ^ n := by
  have a := Real.exp_one_gt_d9
  have b := Real.exp_one_lt_d9
  rw [← Real.exp_one_pow]
  exact ⟨pow_le_pow_left₀ (by norm_num) a.le n, pow_le_pow_left₀ (Real.exp_pos 1).le b.le n⟩

theorem clamped_root : ∃ k : ℝ, 4.73003 ≤ k ∧ k ≤ 4.73005 ∧ Real.cos k * Real.cosh k = 1 := by
  have p1 := Real.pi_gt_d20
  have p2 := Real.pi_lt_d20
  obtain ⟨e1, e2⟩ := exp_pow_bounds 4
  have cosE : ∀ k : ℝ, Real.cos k = Real.sin (k - 3 * Real.pi / 2) := by
    intro k
    rw [show k - 3 * Real.pi / 2 = k + Real.pi / 2 - 2 * Real.pi by ring, Real.sin_sub_two_pi, Real.sin_add_pi_div_two]
  have lo : Real.cos 4.73003 * Real.cosh 4.73003 - 1 ≤ 0 := by
    have h1 : Real.cos 4.73003 ≤ 0.0176411 := by
      rw [cosE]
      have : 0 < 4.73003 - 3 * Real.pi / 2 := by norm_num at *; linarith
      have := Real.sin_lt this
      norm_num at *
      linarith
    have h0 : 0 ≤ Real.cos 4.73003 := by
      rw [cosE]
      refine Real.sin_nonneg_of_nonneg_of_le_pi ?_ ?_ <;> norm_num at * <;> linarith
    have h2 : Real.exp 0.73003 ≤ 2.07515 := by
      have := Real.exp_bound' (x := 0.73003) (by norm_num) (by norm_num) (n := 8) (by norm_num)
      refine this.trans ?_
      norm_num [Finset.sum_range_succ, Nat.factorial]
    have h3 : Real.exp 4.73003 ≤ 113.301 := by
      rw [show (4.73003 : ℝ) = (4 : ℕ) + 0.73003 by norm_num, Real.exp_add]
      refine (mul_le_mul e2 h2 (Real.exp_pos _).le (by norm_num)).trans ?_
      norm_num
    have h4 : Real.exp (-4.73003) ≤ 0.01 := by
      rw [Real.exp_neg, inv_le_comm₀ (Real.exp_pos _) (by norm_num)]
      have : (100 : ℝ) ≤ Real.exp 4.73003 := by
        rw [show (4.73003 : ℝ) = (4 : ℕ) + 0.73003 by norm_num, Real.exp_add]
        have h5 : (2 : ℝ) ≤ Real.exp 0.73003 := by
          have := Real.sum_le_exp_of_nonneg (x := 0.73003) (by norm_num) 5
          refine le_trans ?_ this
          norm_num [Finset.sum_range_succ, Nat.factorial]
        refine le_trans ?_ (mul_le_mul e1 h5 (by norm_num) (Real.exp_pos _).le)
        norm_num
      norm_num at *
      linarith
    have h6 : Real.cosh 4.73003 ≤ 56.6555 := by
      rw [Real.cosh_eq]
      norm_num at *
      linarith
    have := mul_le_mul h1 h6 (Real.cosh_pos _).le (by norm_num)
    norm_num at *
    linarith
  have hi : 0 ≤ Real.cos 4.73005 * Real.cosh 4.73005 - 1 := by
    have h1 : 0.0176595 ≤ Real.cos 4.73005 := by
      rw [cosE]
      have a : 0 < 4.73005 - 3 * Real.pi / 2 := by norm_num at *; linarith
      have b : 4.73005 - 3 * Real.pi / 2 ≤ 0.01767 := by norm_num at *; linarith
      have c := Real.sin_gt_sub_cube a
      have d := pow_le_pow_left₀ a.le b 3
      norm_num at *
      linarith
    have h2 : 2.075142 ≤ Real.exp 0.73005 := by
      have := Real.sum_le_exp_of_nonneg (x := 0.73005) (by norm_num) 9
      refine le_trans ?_ this
      norm_num [Finset.sum_range_succ, Nat.factorial]
    have h3 : 113.298 ≤ Real.exp 4.73005 := by
      rw [show (4.73005 : ℝ) = (4 : ℕ) + 0.73005 by norm_num, Real.exp_add]
      refine le_trans ?_ (mul_le_mul e1 h2 (by norm_num) (Real.exp_pos _).le)
      norm_num
    have h6 : 56.649 ≤ Real.cosh 4.73005 := by
      rw [Real.cosh_eq]
      have := Real.exp_pos (-4.73005)
      norm_num at *
      linarith
    have := mul_le_mul h1 h6 (by norm_num) (by norm_num at *; linarith)
    norm_num at *
    linarith
  obtain ⟨k, hk, h⟩ := intermediate_value_Icc (by norm_num) (continuous_char 1).continuousOn ⟨lo, hi⟩
  exact ⟨k, hk.1, hk.2, sub_eq_zero.1 h⟩

/-- **C148**: the frequency printed for the clamped beam is that of a mode up to a relative error of 10⁻⁵. -/
theorem C148_clamped {EI m len : ℝ} (hEI : 0 < EI) (hm : 0 < m) (hl : 0 < len) :
    ∃ omega w, |modalClamped len EI m - omega| ≤ 1e-5 * omega ∧ ClampedMode EI m len omega w := by
  obtain ⟨k, h1, h2, h3⟩ := clamped_root
  obtain ⟨w, hw⟩ := clamped_mode hEI hm hl (by norm_num at h1; linarith) h3
  refine ⟨_, w, ?_, hw⟩
  have hp : 0 ≤ (EI / m) ^ (0.5 : ℝ) / len ^ 2 := by positivity
  have e : modalClamped len EI m - (k / len) ^ 2 * (EI / m) ^ (0.5 : ℝ) =
      (EI / m) ^ (0.5 : ℝ) / len ^ 2 * (4.73004 ^ 2 - k ^ 2) := by
    rw [modalClamped]
    field_simp
  have hk : |4.73004 ^ 2 - k ^ 2| ≤ 1e-5 * k ^ 2 := by
    rw [abs_le]
    norm_num at *
    constructor <;> nlinarith
  rw [e, abs_mul, abs_of_nonneg hp]
  refine (mul_le_mul_of_nonneg_left hk hp).trans (le_of_eq ?_)
  field_simp

theorem cantilever_root : ∃ k : ℝ, 1.871 ≤ k ∧ k ≤ 1.88 ∧ Real.cos k * Real.cosh k = -1 := by
  have p1 := Real.pi_gt_d20
  have p2 := Real.pi_lt_d20
  obtain ⟨e1, e2⟩ := exp_pow_bounds 1
  have cosE : ∀ k : ℝ, Real.cos k = -Real.sin (k - Real.pi / 2) := by
    intro k
    rw [Real.sin_sub_pi_div_two, neg_neg]
  have hi : Real.cos 1.88 * Real.cosh 1.88 - -1 ≤ 0 := by
    have h1 : Real.cos 1.88 ≤ -0.3017 := by
      rw [cosE]
      have a : 0.3092 ≤ 1.88 - Real.pi / 2 := by norm_num at *; linarith
      have b : 1.88 - Real.pi / 2 ≤ 0.30921 := by norm_num at *; linarith
      have c := Real.sin_gt_sub_cube (by norm_num at *; linarith : 0 < 1.88 - Real.pi / 2)
      have d := pow_le_pow_left₀ (by norm_num at *; linarith : 0 ≤ 1.88 - Real.pi / 2) b 3
      norm_num at *
      linarith
    have h2 : 2.41 ≤ Real.exp 0.88 := by
      have := Real.sum_le_exp_of_nonneg (x := 0.88) (by norm_num) 8
      refine le_trans ?_ this
      norm_num [Finset.sum_range_succ, Nat.factorial]
    have h3 : 6.55 ≤ Real.exp 1.88 := by
      rw [show (1.88 : ℝ) = (1 : ℕ) + 0.88 by norm_num, Real.exp_add]
      refine le_trans ?_ (mul_le_mul e1 h2 (by norm_num) (Real.exp_pos _).le)
      norm_num
    have h5 : Real.exp 1.88 ≤ 6.56 := by
      rw [show (1.88 : ℝ) = (1 : ℕ) + 0.88 by norm_num, Real.exp_add]
      have h4 : Real.exp 0.88 ≤ 2.411 := by
        have := Real.exp_bound' (x := 0.88) (by norm_num) (by norm_num) (n := 8) (by norm_num)
        refine this.trans ?_
        norm_num [Finset.sum_range_succ, Nat.factorial]
      refine (mul_le_mul e2 h4 (Real.exp_pos _).le (by norm_num)).trans ?_
      norm_num
    have h6 : 3.35 ≤ Real.cosh 1.88 := by
      have h7 : 0.15 ≤ Real.exp (-1.88) := by
        rw [Real.exp_neg, le_inv_comm₀ (by norm_num) (Real.exp_pos _)]
        refine h5.trans ?_
        norm_num
      rw [Real.cosh_eq]
      norm_num at *
      linarith
    norm_num at *
    nlinarith
  have lo : 0 ≤ Real.cos 1.871 * Real.cosh 1.871 - -1 := by
    have h1 : -0.3003 ≤ Real.cos 1.871 := by
      rw [cosE]
      have a : 0 < 1.871 - Real.pi / 2 := by norm_num at *; linarith
      have := Real.sin_lt a
      norm_num at *
      linarith
    have h2 : Real.exp 0.871 ≤ 2.3894 := by
      have := Real.exp_bound' (x := 0.871) (by norm_num) (by norm_num) (n := 9) (by norm_num)
      refine this.trans ?_
      norm_num [Finset.sum_range_succ, Nat.factorial]
    have h3 : Real.exp 1.871 ≤ 6.4951 := by
      rw [show (1.871 : ℝ) = (1 : ℕ) + 0.871 by norm_num, Real.exp_add]
      refine (mul_le_mul e2 h2 (Real.exp_pos _).le (by norm_num)).trans ?_
      norm_num
    have h6 : Real.cosh 1.871 ≤ 3.33 := by
      have h7 : Real.exp (-1.871) ≤ 0.16 := by
        rw [Real.exp_neg, inv_le_comm₀ (Real.exp_pos _) (by norm_num)]
        have h4 : 2.36 ≤ Real.exp 0.871 := by
          have := Real.sum_le_exp_of_nonneg (x := 0.871) (by norm_num) 7
          refine le_trans ?_ this
          norm_num [Finset.sum_range_succ, Nat.factorial]
        rw [show (1.871 : ℝ) = (1 : ℕ) + 0.871 by norm_num, Real.exp_add]
        refine le_trans ?_ (mul_le_mul e1 h4 (by norm_num) (Real.exp_pos _).le)
        norm_num
      rw [Real.cosh_eq]
      norm_num at *
      linarith
    have h8 := Real.cosh_pos 1.871
    norm_num at *
    nlinarith
  obtain ⟨k, hk, h⟩ := intermediate_value_Icc' (by norm_num) (continuous_char (-1)).continuousOn ⟨hi, lo⟩
  exact ⟨k, hk.1, hk.2, by linarith [show Real.cos k * Real.cosh k - -1 = 0 from h]⟩

/-- **C148**: the formula for the cantilever, with the right area, is the frequency of a mode up to one percent. -/
theorem C148_cantilever {EI m len : ℝ} (hEI : 0 < EI) (hm : 0 < m) (hl : 0 < len) :
    ∃ omega w, |3.52 * (1 / len) ^ 2 * (EI / m) ^ (0.5 : ℝ) - omega| ≤ 0.01 * omega ∧ CantileverMode EI m len omega w := by
  obtain ⟨k, h1, h2, h3⟩ := cantilever_root
  obtain ⟨w, hw⟩ := cantilever_mode hEI hm hl (by norm_num at h1; linarith) (by norm_num at h2; linarith) h3
  refine ⟨_, w, ?_, hw⟩
  have hp : 0 ≤ (EI / m) ^ (0.5 : ℝ) / len ^ 2 := by positivity
  have e : 3.52 * (1 / len) ^ 2 * (EI / m) ^ (0.5 : ℝ) - (k / len) ^ 2 * (EI / m) ^ (0.5 : ℝ) =
      (EI / m) ^ (0.5 : ℝ) / len ^ 2 * (3.52 - k ^ 2) := by
    field_simp
  have hk : |3.52 - k ^ 2| ≤ 0.01 * k ^ 2 := by
    rw [abs_le]
    norm_num at *
    constructor <;> nlinarith
  rw [e, abs_mul, abs_of_nonneg hp]
  refine (mul_le_mul_of_nonneg_left hk hp).trans (le_of_eq ?_)
  field_simp

/-- The program: modulus, density, width and thickness 1, length 10. -/
example : ∃ omega w, |modalClamped 10 (modalEI 1 1 1) 1 - omega| ≤ 1e-5 * omega ∧
    ClampedMode (modalEI 1 1 1) 1 10 omega w :=
  C148_clamped (by norm_num [modalEI]) one_pos (by norm_num)

/-- The section of the cantilever in the program. -/
example : (0 : ℝ) < modalEI 210e9 0.5 0.5 ∧ (0 : ℝ) < 7800 * (0.5 * 0.5) := by
  norm_num [modalEI]

end GsSA.Oracle
