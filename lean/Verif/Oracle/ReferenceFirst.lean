import Mathlib.Analysis.Calculus.MeanValue
import Mathlib.Analysis.Calculus.Deriv.MeanValue
import Verif.Oracle.ReferenceBeams

/-!
# C148: no beam has a lower frequency
-/

namespace GsSA.Oracle

theorem const_of_hasDerivAt {f : ℝ → ℝ} (h : ∀ x, HasDerivAt f 0 x) (x : ℝ) : f x = f 0 :=
  is_const_of_deriv_eq_zero (fun x => (h x).differentiableAt) (fun x => (h x).deriv) x 0

/-- A vibration of a beam is a combination of four functions. -/
theorem vibration_comb {k : ℝ} (hk : 0 < k) {w : ℝ → ℝ} (hs : ContDiff ℝ 4 w)
    (h : ∀ x, dd (dd w) x = k ^ 4 * w x) : ∃ a b c d, w = comb k a b c d := by
  have d1 : ∀ x, HasDerivAt w (deriv w x) x := fun x => (hs.differentiable (by norm_num) x).hasDerivAt
  have s1 : ContDiff ℝ 3 (deriv w) := hs.iterate_deriv' 3 1
  have s2 : ContDiff ℝ 2 (dd w) := hs.iterate_deriv' 2 2
  have s3 : ContDiff ℝ 1 (deriv (dd w)) := hs.iterate_deriv' 1 3
  have d2 : ∀ x, HasDerivAt (deriv w) (dd w x) x := fun x => (s1.differentiable (by norm_num) x).hasDerivAt
  have d3 : ∀ x, HasDerivAt (dd w) (deriv (dd w) x) x := fun x => (s2.differentiable (by norm_num) x).hasDerivAt
  have d4 : ∀ x, HasDerivAt (deriv (dd w)) (k ^ 4 * w x) x := fun x => by
    rw [← h x]
    exact (s3.differentiable (by norm_num) x).hasDerivAt
  have lin : ∀ x, HasDerivAt (fun x : ℝ => k * x) (k * 1) x := fun x => (hasDerivAt_id' x).const_mul k
  have p1 := const_of_hasDerivAt (f := fun x => (deriv (dd w) x + k ^ 2 * deriv w x - k * (dd w x + k ^ 2 * w x)) *
    Real.exp (k * x)) fun x => by
      refine ((((d4 x).add ((d2 x).const_mul (k ^ 2))).sub (((d3 x).add ((d1 x).const_mul (k ^ 2))).const_mul k)).mul
        (lin x).exp).congr_deriv ?_
      simp only [Pi.add_apply, Pi.sub_apply]
      ring
  have p2 := const_of_hasDerivAt (f := fun x => (deriv (dd w) x + k ^ 2 * deriv w x + k * (dd w x + k ^ 2 * w x)) *
    Real.exp (-(k * x))) fun x => by
      refine ((((d4 x).add ((d2 x).const_mul (k ^ 2))).add (((d3 x).add ((d1 x).const_mul (k ^ 2))).const_mul k)).mul
        (lin x).neg.exp).congr_deriv ?_
      simp only [Pi.add_apply, Pi.neg_apply]
      ring
  have q1 := const_of_hasDerivAt (f := fun x => k * (dd w x - k ^ 2 * w x) * Real.cos (k * x) -
    (deriv (dd w) x - k ^ 2 * deriv w x) * Real.sin (k * x)) fun x => by
      refine (((((d3 x).sub ((d1 x).const_mul (k ^ 2))).const_mul k).mul (lin x).cos).sub
        (((d4 x).sub ((d2 x).const_mul (k ^ 2))).mul (lin x).sin)).congr_deriv ?_
      simp only [Pi.sub_apply]
      ring
  have q2 := const_of_hasDerivAt (f := fun x => k * (dd w x - k ^ 2 * w x) * Real.sin (k * x) +
    (deriv (dd w) x - k ^ 2 * deriv w x) * Real.cos (k * x)) fun x => by
      refine (((((d3 x).sub ((d1 x).const_mul (k ^ 2))).const_mul k).mul (lin x).sin).add
        (((d4 x).sub ((d2 x).const_mul (k ^ 2))).mul (lin x).cos)).congr_deriv ?_
      simp only [Pi.sub_apply]
      ring
  simp only [mul_zero, Real.exp_zero, neg_zero, Real.cos_zero, Real.sin_zero, mul_one, sub_zero, zero_add] at p1 p2 q1 q2
  obtain ⟨P, hP⟩ : ∃ P, deriv (dd w) 0 + k ^ 2 * deriv w 0 - k * (dd w 0 + k ^ 2 * w 0) = P := ⟨_, rfl⟩
  obtain ⟨Q, hQ⟩ : ∃ P, deriv (dd w) 0 + k ^ 2 * deriv w 0 + k * (dd w 0 + k ^ 2 * w 0) = P := ⟨_, rfl⟩
  obtain ⟨R, hR⟩ : ∃ P, k * (dd w 0 - k ^ 2 * w 0) = P := ⟨_, rfl⟩
  obtain ⟨T, hT⟩ : ∃ P, deriv (dd w) 0 - k ^ 2 * deriv w 0 = P := ⟨_, rfl⟩
  simp only [hP] at p1
  simp only [hQ] at p2
  simp only [hR] at q1
  simp only [hT] at q2
  refine ⟨(Q - P) / (4 * k ^ 3), (Q + P) / (4 * k ^ 3), -(R / (2 * k ^ 3)), -(T / (2 * k ^ 3)), ?_⟩
  funext x
  have e1 := p1 x
  have e2 := p2 x
  have e3 := q1 x
  have e4 := q2 x
  have he : Real.exp (k * x) * Real.exp (-(k * x)) = 1 := by rw [← Real.exp_add]; simp
  have ht := Real.sin_sq_add_cos_sq (k * x)
  have hu : 2 * k * (dd w x + k ^ 2 * w x) = Q * Real.exp (k * x) - P * Real.exp (-(k * x)) := by
    linear_combination Real.exp (k * x) * e2 - Real.exp (-(k * x)) * e1 - 2 * k * (dd w x + k ^ 2 * w x) * he
  have hv : k * (dd w x - k ^ 2 * w x) = R * Real.cos (k * x) + T * Real.sin (k * x) := by
    linear_combination Real.cos (k * x) * e3 + Real.sin (k * x) * e4 - k * (dd w x - k ^ 2 * w x) * ht
  have hc := Real.cosh_eq (k * x)
  have hsh := Real.sinh_eq (k * x)
  rw [comb, hc, hsh]
  have h3 : 4 * k ^ 3 ≠ 0 := by positivity
  refine mul_left_cancel₀ h3 ?_
  have e5 : 4 * k ^ 3 * w x = Q * Real.exp (k * x) - P * Real.exp (-(k * x)) -
      2 * (R * Real.cos (k * x) + T * Real.sin (k * x)) := by
    linear_combination hu - 2 * hv
  rw [e5]
  field_simp
  ring

theorem frequency_number {EI m omega : ℝ} (hEI : 0 < EI) (hm : 0 < m) (ho : 0 < omega) {len : ℝ} (hl : 0 < len) :
    ∃ k, 0 < k ∧ omega = (k / len) ^ 2 * (EI / m) ^ (0.5 : ℝ) ∧ m * omega ^ 2 = EI * (k / len) ^ 4 := by
  have hs : 0 < Real.sqrt (EI / m) := Real.sqrt_pos.2 (by positivity)
  have hk : 0 < Real.sqrt (omega / Real.sqrt (EI / m)) := Real.sqrt_pos.2 (by positivity)
  refine ⟨Real.sqrt (omega / Real.sqrt (EI / m)) * len, by positivity, ?_, ?_⟩
  · rw [half_power, mul_div_cancel_right₀ _ hl.ne', Real.sq_sqrt (by positivity), div_mul_cancel₀ _ hs.ne']
  · rw [mul_div_cancel_right₀ _ hl.ne', show ∀ a : ℝ, a ^ 4 = (a ^ 2) ^ 2 by intro a; ring, Real.sq_sqrt (by positivity),
      div_pow, Real.sq_sqrt (by positivity)]
    field_simp

theorem mode_comb {EI m omega : ℝ} (hEI : 0 < EI) (hm : 0 < m) (ho : 0 < omega) {len : ℝ} (hl : 0 < len) {w : ℝ → ℝ}
    (hs : ContDiff ℝ 4 w) (h : ∀ x, EI * dd (dd w) x = m * omega ^ 2 * w x) :
    ∃ k, 0 < k ∧ omega = (k / len) ^ 2 * (EI / m) ^ (0.5 : ℝ) ∧ ∃ a b c d, w = comb (k / len) a b c d := by
  obtain ⟨k, h1, h2, h3⟩ := frequency_number hEI hm ho hl
  refine ⟨k, h1, h2, vibration_comb (by positivity) hs fun x => ?_⟩
  have := h x
  rw [h3, mul_assoc] at this
  exact mul_left_cancel₀ hEI.ne' this

theorem frequency_le {EI m len k k' : ℝ} (hl : 0 < len) (hk : 0 < k) (h : k ≤ k') :
    (k / len) ^ 2 * (EI / m) ^ (0.5 : ℝ) ≤ (k' / len) ^ 2 * (EI / m) ^ (0.5 : ℝ) := by
  rw [half_power]
  have : k / len ≤ k' / len := by gcongr
  gcongr

theorem clamped_only {EI m len omega : ℝ} (hEI : 0 < EI) (hm : 0 < m) (hl : 0 < len) (ho : 0 < omega) {w : ℝ → ℝ}
    (h : ClampedMode EI m len omega w) :
    ∃ k, 0 < k ∧ omega = (k / len) ^ 2 * (EI / m) ^ (0.5 : ℝ) ∧ Real.cos k * Real.cosh k = 1 := by
  obtain ⟨k, hk, e, a, b, c, d, rfl⟩ := mode_comb hEI hm ho hl h.smooth h.motion
  refine ⟨k, hk, e, ?_⟩
  have hkl : k / len * len = k := div_mul_cancel₀ _ hl.ne'
  have hne : k / len ≠ 0 := by positivity
  have h1 := h.left.1
  have h2 := h.left.2
  have h3 := h.right.1
  have h4 := h.right.2
  rw [deriv_comb] at h2 h4
  simp only [comb, hkl, mul_zero, Real.cosh_zero, Real.sinh_zero, Real.cos_zero, Real.sin_zero] at h1 h2 h3 h4
  have hc : c = -a := by linarith
  have hd : d = -b := by
    have : k / len * (b + d) = 0 := by linarith
    have := (mul_eq_zero.1 this).resolve_left hne
    linarith
  subst hc hd
  have h5 : a * (Real.cosh k - Real.cos k) + b * (Real.sinh k - Real.sin k) = 0 := by linarith
  have h6 : a * (Real.sinh k + Real.sin k) + b * (Real.cosh k - Real.cos k) = 0 := by
    have : k / len * (a * (Real.sinh k + Real.sin k) + b * (Real.cosh k - Real.cos k)) = 0 := by linarith
    exact (mul_eq_zero.1 this).resolve_left hne
  have g1 := Real.cosh_sq k
  have g2 := Real.sin_sq_add_cos_sq k
  have ha : a * (2 - 2 * (Real.cos k * Real.cosh k)) = 0 := by
    linear_combination (Real.cosh k - Real.cos k) * h5 - (Real.sinh k - Real.sin k) * h6 - a * (g1 + g2)
  have hb : b * (2 - 2 * (Real.cos k * Real.cosh k)) = 0 := by
    linear_combination (Real.cosh k - Real.cos k) * h6 - (Real.sinh k + Real.sin k) * h5 - b * (g1 + g2)
  by_contra hn
  have hz : 2 - 2 * (Real.cos k * Real.cosh k) ≠ 0 := fun h0 => hn (by linarith)
  have ha0 := (mul_eq_zero.1 ha).resolve_right hz
  have hb0 := (mul_eq_zero.1 hb).resolve_right hz
  obtain ⟨x, hx⟩ := h.moves
  exact hx (by simp [comb, ha0, hb0])

theorem cantilever_only {EI m len omega : ℝ} (hEI : 0 < EI) (hm : 0 < m) (hl : 0 < len) (ho : 0 < omega) {w : ℝ → ℝ}
    (h : CantileverMode EI m len omega w) :
    ∃ k, 0 < k ∧ omega = (k / len) ^ 2 * (EI / m) ^ (0.5 : ℝ) ∧ Real.cos k * Real.cosh k = -1 := by
  obtain ⟨k, hk, e, a, b, c, d, rfl⟩ := mode_comb hEI hm ho hl h.smooth h.motion
  refine ⟨k, hk, e, ?_⟩
  have hkl : k / len * len = k := div_mul_cancel₀ _ hl.ne'
  have hne : k / len ≠ 0 := by positivity
  have h1 := h.left.1
  have h2 := h.left.2
  have h3 := h.right.1
  have h4 := h.right.2
  simp only [dd, deriv_comb] at h2 h3 h4
  simp only [comb, hkl, mul_zero, Real.cosh_zero, Real.sinh_zero, Real.cos_zero, Real.sin_zero] at h1 h2 h3 h4
  have hc : c = -a := by linarith
  have hd : d = -b := by
    have : k / len * (b + d) = 0 := by linarith
    have := (mul_eq_zero.1 this).resolve_left hne
    linarith
  subst hc hd
  have h5 : a * (Real.cosh k + Real.cos k) + b * (Real.sinh k + Real.sin k) = 0 := by
    have : (k / len * (k / len)) * (a * (Real.cosh k + Real.cos k) + b * (Real.sinh k + Real.sin k)) = 0 := by linarith
    exact (mul_eq_zero.1 this).resolve_left (mul_ne_zero hne hne)
  have h6 : a * (Real.sinh k - Real.sin k) + b * (Real.cosh k + Real.cos k) = 0 := by
    have : (k / len * (k / len * (k / len))) * (a * (Real.sinh k - Real.sin k) + b * (Real.cosh k + Real.cos k)) = 0 := by
      linarith
    exact (mul_eq_zero.1 this).resolve_left (mul_ne_zero hne (mul_ne_zero hne hne))
  have g1 := Real.cosh_sq k
  have g2 := Real.sin_sq_add_cos_sq k
  have ha : a * (2 + 2 * (Real.cos k * Real.cosh k)) = 0 := by
    linear_combination (Real.cosh k + Real.cos k) * h5 - (Real.sinh k + Real.sin k) * h6 - a * (g1 + g2)
  have hb : b * (2 + 2 * (Real.cos k * Real.cosh k)) = 0 := by
    linear_combination (Real.cosh k + Real.cos k) * h6 - (Real.sinh k - Real.sin k) * h5 - b * (g1 + g2)
  by_contra hn
  have hz : 2 + 2 * (Real.cos k * Real.cosh k) ≠ 0 := fun h0 => hn (by linarith)
  have ha0 := (mul_eq_zero.1 ha).resolve_right hz
  have hb0 := (mul_eq_zero.1 hb).resolve_right hz
  obtain ⟨x, hx⟩ := h.moves
  exact hx (by simp [comb, ha0, hb0])

/-! ### The first roots -/

theorem sinh_lt_mul_cosh {x : ℝ} (hx : 0 < x) : Real.sinh x < x * Real.cosh x := by
  obtain ⟨y, hy, e⟩ := exists_hasDerivAt_eq_slope Real.sinh Real.cosh hx Real.continuous_sinh.continuousOn
    fun y _ => Real.hasDerivAt_sinh y
  rw [Real.sinh_zero, sub_zero, sub_zero, eq_div_iff hx.ne'] at e
  rw [← e, mul_comm]
  have : Real.cosh y < Real.cosh x := by
    rw [Real.cosh_lt_cosh, abs_of_pos hy.1, abs_of_pos hx]
    exact hy.2
  exact mul_lt_mul_of_pos_left this hx

theorem char_anti : StrictAntiOn (fun k => Real.cos k * Real.cosh k) (Set.Icc 0 Real.pi) := by
  refine strictAntiOn_of_deriv_neg (convex_Icc _ _) (Real.continuous_cos.mul Real.continuous_cosh).continuousOn ?_
  intro x hx
  rw [interior_Icc] at hx
  have hd : deriv (fun k => Real.cos k * Real.cosh k) x = -Real.sin x * Real.cosh x + Real.cos x * Real.sinh x :=
    ((Real.hasDerivAt_cos x).mul (Real.hasDerivAt_cosh x)).deriv
  rw [hd]
  have h1 := Real.sin_pos_of_pos_of_lt_pi hx.1 hx.2
  have h2 := Real.cosh_pos x
  have h3 := Real.sinh_pos_iff.2 hx.1
  rcases lt_or_ge x (Real.pi / 2) with hc | hc
  · have c0 := Real.cos_pos_of_mem_Ioo ⟨by linarith [hx.1, Real.pi_pos], hc⟩
    have t := Real.lt_tan hx.1 hc
    rw [Real.tan_eq_sin_div_cos, lt_div_iff₀ c0] at t
    have a := mul_lt_mul_of_pos_left (sinh_lt_mul_cosh hx.1) c0
    have b := mul_lt_mul_of_pos_right t h2
    linarith
  · have c0 := Real.cos_nonpos_of_pi_div_two_le_of_le hc (by linarith [hx.2, Real.pi_pos])
    have a := mul_nonneg (neg_nonneg.2 c0) h3.le
    have b := mul_pos h1 h2
    linarith

theorem clamped_first {k k' : ℝ} (h1 : 4.73003 ≤ k) (h2 : k ≤ 4.73005) (h : Real.cos k * Real.cosh k = 1) (hk : 0 < k')
    (h' : Real.cos k' * Real.cosh k' = 1) : k ≤ k' := by
  by_contra hlt
  rw [not_le] at hlt
  have p1 := Real.pi_gt_d20
  have p2 := Real.pi_lt_d20
  have hpi : 3 * Real.pi / 2 < k ∧ k < 2 * Real.pi := by
    norm_num at *
    constructor <;> linarith
  rcases le_or_gt k' Real.pi with c | c
  · have := char_anti ⟨le_rfl, Real.pi_pos.le⟩ ⟨hk.le, c⟩ hk
    simp [h'] at this
  · have hcos : ∀ x, Real.cos x = Real.cos (2 * Real.pi - x) := fun x => by
      rw [Real.cos_two_pi_sub]
    rcases le_or_gt k' (3 * Real.pi / 2) with c2 | c2
    · have : Real.cos k' ≤ 0 := by
        rw [hcos]
        exact Real.cos_nonpos_of_pi_div_two_le_of_le (by linarith) (by linarith)
      have := mul_nonneg (neg_nonneg.2 this) (Real.cosh_pos k').le
      linarith
    · have a : Real.cos k' < Real.cos k := by
        rw [hcos k', hcos k]
        exact Real.cos_lt_cos_of_nonneg_of_le_pi (by linarith) (by linarith) (by linarith)
      have b : Real.cosh k' < Real.cosh k := by
        rw [Real.cosh_lt_cosh, abs_of_pos hk, abs_of_pos (by linarith)]
        exact hlt
      have c0 : 0 ≤ Real.cos k' := by
        rw [hcos]
        exact Real.cos_nonneg_of_neg_pi_div_two_le_of_le (by linarith) (by linarith)
      have := mul_lt_mul'' a b c0 (Real.cosh_pos k').le
      linarith

theorem cantilever_first {k k' : ℝ} (h0 : 0 < k) (h2 : k ≤ 3) (h : Real.cos k * Real.cosh k = -1) (hk : 0 < k')
    (h' : Real.cos k' * Real.cosh k' = -1) : k ≤ k' := by
  by_contra hlt
  rw [not_le] at hlt
  have hp := Real.pi_gt_three
  have := char_anti ⟨hk.le, by linarith⟩ ⟨h0.le, by linarith⟩ hlt
  simp [h, h'] at this

/-- **C148**: the frequency printed for the clamped beam is the lowest one up to a relative error of 10⁻⁵. -/
theorem C148_first_clamped {EI m len : ℝ} (hEI : 0 < EI) (hm : 0 < m) (hl : 0 < len) :
    ∃ omega, |modalClamped len EI m - omega| ≤ 1e-5 * omega ∧
      IsLeast {o | 0 < o ∧ ∃ w, ClampedMode EI m len o w} omega := by
  obtain ⟨k, h1, h2, h3⟩ := clamped_root
  have hk : 0 < k := by norm_num at h1; linarith
  obtain ⟨w, hw⟩ := clamped_mode hEI hm hl hk h3
  refine ⟨_, ?_, ⟨by positivity, w, hw⟩, ?_⟩
  · have hp : 0 ≤ (EI / m) ^ (0.5 : ℝ) / len ^ 2 := by positivity
    have e : modalClamped len EI m - (k / len) ^ 2 * (EI / m) ^ (0.5 : ℝ) =
        (EI / m) ^ (0.5 : ℝ) / len ^ 2 * (4.73004 ^ 2 - k ^ 2) := by
      rw [modalClamped]
      field_simp
    have hk : |4.73004 ^ 2 - k ^ 2| ≤ 1e-5 * k ^ 2 := by
      rw [abs_le]
      norm_num at *
      constructor <;> nlinarith
    rw [e, abs_mul, abs_of_nonneg hp]
    refine (mul_le_mul_of_nonneg_left hk hp).trans (le_of_eq ?_)
    field_simp
  · rintro o ⟨ho, v, hv⟩
    obtain ⟨k', g1, rfl, g2⟩ := clamped_only hEI hm hl ho hv
    exact frequency_le hl hk (clamped_first h1 h2 h3 g1 g2)

/-- **C148**: the formula for the cantilever, with the right area, is the lowest frequency up to one percent. -/
theorem C148_first_cantilever {EI m len : ℝ} (hEI : 0 < EI) (hm : 0 < m) (hl : 0 < len) :
    ∃ omega, |3.52 * (1 / len) ^ 2 * (EI / m) ^ (0.5 : ℝ) - omega| ≤ 0.01 * omega ∧
      IsLeast {o | 0 < o ∧ ∃ w, CantileverMode EI m len o w} omega := by
  obtain ⟨k, h1, h2, h3⟩ := cantilever_root
  have hk : 0 < k := by norm_num at h1; linarith
  have hk3 : k ≤ 3 := by norm_num at h2; linarith
  obtain ⟨w, hw⟩ := cantilever_mode hEI hm hl hk hk3 h3
  refine ⟨_, ?_, ⟨by positivity, w, hw⟩, ?_⟩
  · have hp : 0 ≤ (EI / m) ^ (0.5 : ℝ) / len ^ 2 := by positivity
    have e : 3.52 * (1 / len) ^ 2 * (EI / m) ^ (0.5 : ℝ) - (k / len) ^ 2 * (EI / m) ^ (0.5 : ℝ) =
        (EI / m) ^ (0.5 : ℝ) / len ^ 2 * (3.52 - k ^ 2) := by
      field_simp
    have hk : |3.52 - k ^ 2| ≤ 0.01 * k ^ 2 := by
      rw [abs_le]
      norm_num at *
      constructor <;> nlinarith
    rw [e, abs_mul, abs_of_nonneg hp]
    refine (mul_le_mul_of_nonneg_left hk hp).trans (le_of_eq ?_)
    field_simp
  · rintro o ⟨ho, v, hv⟩
    obtain ⟨k', g1, rfl, g2⟩ := cantilever_only hEI hm hl ho hv
    exact frequency_le hl hk (cantilever_first hk hk3 h3 g1 g2)

/-- **C148**: the positive frequencies of the pinned beam are those of the sines of `C148_pinned` and no others. -/
theorem C148_all_pinned {EI m len omega : ℝ} (hEI : 0 < EI) (hm : 0 < m) (hl : 0 < len) (ho : 0 < omega) {w : ℝ → ℝ}
    (h : BeamMode EI m len omega w) (hw : ∃ x, w x ≠ 0) :
    ∃ n : ℕ, 0 < n ∧ omega = (n * Real.pi / len) ^ 2 * (EI / m) ^ (0.5 : ℝ) ∧
      ∃ c, w = fun x => c * Real.sin (n * Real.pi / len * x) := by
  obtain ⟨k, hk, e, a, b, c, d, rfl⟩ := mode_comb hEI hm ho hl h.smooth h.motion
  have hkl : k / len * len = k := div_mul_cancel₀ _ hl.ne'
  have hne : k / len ≠ 0 := by positivity
  have h1 := h.left.1
  have h2 := h.left.2
  have h3 := h.right.1
  have h4 := h.right.2
  simp only [dd, deriv_comb] at h2 h4
  simp only [comb, hkl, mul_zero, Real.cosh_zero, Real.sinh_zero, Real.cos_zero, Real.sin_zero] at h1 h2 h3 h4
  have h5 : a - c = 0 := by
    have : (k / len * (k / len)) * (a - c) = 0 := by linarith
    exact (mul_eq_zero.1 this).resolve_left (mul_ne_zero hne hne)
  have ha : a = 0 := by linarith
  have hc : c = 0 := by linarith
  subst ha hc
  have h6 : b * Real.sinh k - d * Real.sin k = 0 := by
    have : (k / len * (k / len)) * (b * Real.sinh k - d * Real.sin k) = 0 := by linarith
    exact (mul_eq_zero.1 this).resolve_left (mul_ne_zero hne hne)
  have hb : b = 0 := by
    have : b * Real.sinh k = 0 := by linarith
    exact (mul_eq_zero.1 this).resolve_right (Real.sinh_pos_iff.2 hk).ne'
  subst hb
  have hd : d ≠ 0 := by
    rintro rfl
    obtain ⟨x, hx⟩ := hw
    exact hx (by simp [comb])
  have hsin : Real.sin k = 0 := by
    have : d * Real.sin k = 0 := by linarith
    exact (mul_eq_zero.1 this).resolve_left hd
  obtain ⟨n, hn⟩ := Real.sin_eq_zero_iff.1 hsin
  have hn0 : 0 < n := by
    by_contra hc
    have : (n : ℝ) ≤ 0 := by exact_mod_cast not_lt.1 hc
    nlinarith [Real.pi_pos]
  obtain ⟨j, rfl⟩ := Int.eq_ofNat_of_zero_le hn0.le
  have hkj : k = j * Real.pi := by
    rw [← hn]
    simp
  refine ⟨j, by exact_mod_cast hn0, by rw [e, hkj], d, ?_⟩
  funext x
  simp [comb, hkj]

/-- The beams of the program. -/
example : ∃ omega, |modalClamped 10 (modalEI 1 1 1) 1 - omega| ≤ 1e-5 * omega ∧
    IsLeast {o | 0 < o ∧ ∃ w, ClampedMode (modalEI 1 1 1) 1 10 o w} omega :=
  C148_first_clamped (by norm_num [modalEI]) one_pos (by norm_num)

example : ∃ omega, |3.52 * (1 / 10) ^ 2 * (modalEI 1 1 1 / 1) ^ (0.5 : ℝ) - omega| ≤ 0.01 * omega ∧
    IsLeast {o | 0 < o ∧ ∃ w, CantileverMode (modalEI 1 1 1) 1 10 o w} omega :=
  C148_first_cantilever (by norm_num [modalEI]) one_pos (by norm_num)

/-- `C148_all_pinned`: the first mode of the pinned beam. -/
example : ∃ omega, BeamMode (modalEI 1 1 1) 1 10 omega (fun x => Real.sin ((1 : ℕ) * Real.pi / 10 * x)) ∧
    ∃ x, Real.sin ((1 : ℕ) * Real.pi / 10 * x) ≠ 0 := by
  obtain ⟨p, omega, -, -, h⟩ := C148_pinned (EI := modalEI 1 1 1) (m := 1) (len := 10) (n := 1) (by norm_num [modalEI])
    one_pos (by norm_num) (by norm_num)
  refine ⟨omega, h, 5, ?_⟩
  rw [show ((1 : ℕ) : ℝ) * Real.pi / 10 * 5 = Real.pi / 2 by push_cast; ring, Real.sin_pi_div_two]
  exact one_ne_zero

end GsSA.Oracle
