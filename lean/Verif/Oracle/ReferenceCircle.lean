import Mathlib.Analysis.Calculus.SmoothSeries
import Mathlib.Analysis.SpecialFunctions.Exponential
import Mathlib.Analysis.SpecificLimits.Normed
import Verif.Oracle.ReferencePlate

/-!
# C148: the clamped circle
-/

namespace GsSA.Oracle

/-- A term of the function `∑ sᵏ / (k! (k+m)!)`: `phi 0 (-x²/4)` is the Bessel function `J₀ x`, `phi 0 (x²/4)` the modified one. -/
noncomputable def phiTerm (m k : ℕ) (s : ℝ) : ℝ := s ^ k / (k.factorial * (k + m).factorial)

/-- The sum. -/
noncomputable def phi (m : ℕ) (s : ℝ) : ℝ := ∑' k, phiTerm m k s

theorem phiTerm_abs_le (m k : ℕ) {s R : ℝ} (h : |s| ≤ R) : |phiTerm m k s| ≤ R ^ k / k.factorial := by
  have hR : 0 ≤ R := (abs_nonneg s).trans h
  have h1 : (1 : ℝ) ≤ (k + m).factorial := by exact_mod_cast Nat.one_le_iff_ne_zero.2 (Nat.factorial_ne_zero _)
  have h0 : (0 : ℝ) < k.factorial := by exact_mod_cast Nat.factorial_pos k
  rw [phiTerm, abs_div, abs_pow, abs_of_pos (a := (k.factorial * (k + m).factorial : ℝ)) (by positivity)]
  apply div_le_div₀ (by positivity) (pow_le_pow_left₀ (abs_nonneg s) h k) h0
  nlinarith

theorem summable_phiTerm (m : ℕ) (s : ℝ) : Summable fun k => phiTerm m k s :=
  Summable.of_norm_bounded (Real.summable_pow_div_factorial |s|) fun k => phiTerm_abs_le m k le_rfl

theorem hasDerivAt_phiTerm (m k : ℕ) (s : ℝ) : HasDerivAt (phiTerm m (k + 1)) (phiTerm (m + 1) k s) s := by
  have h := (hasDerivAt_pow (k + 1) s).div_const ((k + 1).factorial * (k + 1 + m).factorial : ℝ)
  refine h.congr_deriv ?_
  rw [phiTerm, Nat.factorial_succ k, show k + 1 + m = k + (m + 1) by omega]
  have h0 : (k.factorial : ℝ) ≠ 0 := by exact_mod_cast Nat.factorial_ne_zero k
  have h1 : ((k + (m + 1)).factorial : ℝ) ≠ 0 := by exact_mod_cast Nat.factorial_ne_zero _
  push_cast
  field_simp

theorem phi_succ (m : ℕ) (s : ℝ) : phi m s = 1 / m.factorial + ∑' k, phiTerm m (k + 1) s := by
  rw [phi, (summable_phiTerm m s).tsum_eq_zero_add]
  simp [phiTerm]

theorem hasDerivAt_phi (m : ℕ) (s : ℝ) : HasDerivAt (phi m) (phi (m + 1) s) s := by
  have h : HasDerivAt (fun s => ∑' k, phiTerm m (k + 1) s) (∑' k, phiTerm (m + 1) k s) s := by
    refine hasDerivAt_tsum_of_isPreconnected (t := Metric.ball 0 (|s| + 1)) (y₀ := s)
      (Real.summable_pow_div_factorial (|s| + 1)) Metric.isOpen_ball (convex_ball 0 _).isPreconnected
      (fun k y _ => hasDerivAt_phiTerm m k y) (fun k y hy => phiTerm_abs_le (m + 1) k ?_) ?_ ?_ ?_
    · rw [mem_ball_zero_iff, Real.norm_eq_abs] at hy
      exact hy.le
    · rw [mem_ball_zero_iff, Real.norm_eq_abs]
      linarith
    · exact (summable_nat_add_iff 1).2 (summable_phiTerm m s)
    · rw [mem_ball_zero_iff, Real.norm_eq_abs]
      linarith
  have e : phi m = fun s => 1 / (m.factorial : ℝ) + ∑' k, phiTerm m (k + 1) s := funext (phi_succ m)
  rw [e]
  exact h.const_add _

theorem deriv_phi (m : ℕ) : deriv (phi m) = phi (m + 1) := funext fun s => (hasDerivAt_phi m s).deriv

theorem contDiff_phi (n m : ℕ) : ContDiff ℝ n (phi m) := by
  induction n generalizing m with
  | zero => exact contDiff_zero.2 (continuous_iff_continuousAt.2 fun s => (hasDerivAt_phi m s).continuousAt)
  | succ n ih =>
    push_cast
    rw [contDiff_succ_iff_deriv]
    refine ⟨fun s => (hasDerivAt_phi m s).differentiableAt, by simp, ?_⟩
    rw [deriv_phi]
    exact ih (m + 1)

/-- Bessel's equation. -/
theorem phi_bessel (s : ℝ) : s * phi 2 s + phi 1 s = phi 0 s := by
  rw [phi_succ 1, phi_succ 0, phi, ← tsum_mul_left]
  have h : ∀ k, phiTerm 0 (k + 1) s = s * phiTerm 2 k s + phiTerm 1 (k + 1) s := by
    intro k
    simp only [phiTerm]
    rw [show k + 1 + 1 = k + 2 by omega, show k + 1 + 0 = k + 1 by omega, Nat.factorial_succ (k + 1), Nat.factorial_succ k]
    have h0 : (k.factorial : ℝ) ≠ 0 := by exact_mod_cast Nat.factorial_ne_zero k
    push_cast
    field_simp
    ring
  rw [tsum_congr h, ((summable_phiTerm 2 s).mul_left s).tsum_add ((summable_nat_add_iff 1).2 (summable_phiTerm 1 s))]
  simp
  ring

/-! ### Vibrations with circular symmetry -/

/-- `phi` of the distance to the middle. -/
noncomputable def ring0 (m : ℕ) (c : ℝ) (x y : ℝ) : ℝ := phi m (c * (x ^ 2 + y ^ 2))

theorem smooth_ring0 (n m : ℕ) (c : ℝ) : Smooth n (ring0 m c) :=
  ContDiff.comp (contDiff_phi n m) (by fun_prop : ContDiff ℝ n fun z : ℝ × ℝ => c * (z.1 ^ 2 + z.2 ^ 2))

theorem hasDerivAt_ring0_x (m : ℕ) (c x y : ℝ) :
    HasDerivAt (fun x => ring0 m c x y) (ring0 (m + 1) c x y * (2 * c * x)) x := by
  have l : HasDerivAt (fun x : ℝ => c * (x ^ 2 + y ^ 2)) (2 * c * x) x := by
    refine (((hasDerivAt_pow 2 x).add_const (y ^ 2)).const_mul c).congr_deriv ?_
    norm_num
    ring
  exact (hasDerivAt_phi m _).comp x l

theorem ring0_comm (m : ℕ) (c x y : ℝ) : ring0 m c x y = ring0 m c y x := by
  rw [ring0, ring0, add_comm]

theorem hasDerivAt_ring0_y (m : ℕ) (c x y : ℝ) :
    HasDerivAt (fun y => ring0 m c x y) (ring0 (m + 1) c x y * (2 * c * y)) y := by
  have h := hasDerivAt_ring0_x m c y x
  simp only [ring0_comm _ c _ x] at h
  exact h

theorem dd_ring0_x (c x y : ℝ) :
    px (px (ring0 0 c)) x y = ring0 2 c x y * (2 * c * x) * (2 * c * x) + ring0 1 c x y * (2 * c) := by
  have e : px (ring0 0 c) = fun x y => ring0 1 c x y * (2 * c * x) := by
    funext x y
    exact (hasDerivAt_ring0_x 0 c x y).deriv
  rw [e]
  exact ((hasDerivAt_ring0_x 1 c x y).mul ((hasDerivAt_id' x).const_mul (2 * c))).deriv.trans (by ring)

theorem dd_ring0_y (c x y : ℝ) :
    py (py (ring0 0 c)) x y = ring0 2 c x y * (2 * c * y) * (2 * c * y) + ring0 1 c x y * (2 * c) := by
  have e : py (ring0 0 c) = fun x y => ring0 1 c x y * (2 * c * y) := by
    funext x y
    exact (hasDerivAt_ring0_y 0 c x y).deriv
  rw [e]
  exact ((hasDerivAt_ring0_y 1 c x y).mul ((hasDerivAt_id' y).const_mul (2 * c))).deriv.trans (by ring)

theorem laplace_ring0 (c x y : ℝ) : px (px (ring0 0 c)) x y + py (py (ring0 0 c)) x y = 4 * c * ring0 0 c x y := by
  rw [dd_ring0_x, dd_ring0_y]
  have h := phi_bessel (c * (x ^ 2 + y ^ 2))
  simp only [ring0]
  rw [← h]
  ring

/-- The vibrations are combinations of two of these. -/
noncomputable def disc (g a b : ℝ) (x y : ℝ) : ℝ := a * ring0 0 (-g) x y + b * ring0 0 g x y

theorem smooth_disc (n : ℕ) (g a b : ℝ) : Smooth n (disc g a b) :=
  (contDiff_const.mul (smooth_ring0 n 0 (-g))).add (contDiff_const.mul (smooth_ring0 n 0 g))

theorem dd_comb {f h : ℝ → ℝ} (hf : ContDiff ℝ 2 f) (hh : ContDiff ℝ 2 h) (a b : ℝ) (x : ℝ) :
    dd (fun x => a * f x + b * h x) x = a * dd f x + b * dd h x := by
  rw [dd_lin (f := fun x => a * f x) (contDiff_const.mul hf) hh b x]
  have := dd_lin (f := fun _ => 0) contDiff_const hf a x
  simp only [zero_add] at this
  rw [this]
  simp [dd]

theorem laplace_disc (g a b x y : ℝ) :
    px (px (disc g a b)) x y + 1 * py (py (disc g a b)) x y = disc g (-(4 * g) * a) (4 * g * b) x y := by
  have h1 : px (px (disc g a b)) x y = a * px (px (ring0 0 (-g))) x y + b * px (px (ring0 0 g)) x y :=
    dd_comb (slice_x (smooth_ring0 2 0 (-g)) y) (slice_x (smooth_ring0 2 0 g) y) a b x
  have h2 : py (py (disc g a b)) x y = a * py (py (ring0 0 (-g))) x y + b * py (py (ring0 0 g)) x y :=
    dd_comb (slice_y (smooth_ring0 2 0 (-g)) x) (slice_y (smooth_ring0 2 0 g) x) a b y
  have e1 := laplace_ring0 (-g) x y
  have e2 := laplace_ring0 g x y
  rw [h1, h2, disc]
  linear_combination a * e1 + b * e2

theorem bilaplace {w : ℝ → ℝ → ℝ} (h : Smooth 4 w) (x y : ℝ) :
    px (px (px (px w))) x y + 2 * py (py (px (px w))) x y + py (py (py (py w))) x y =
      px (px fun x y => px (px w) x y + 1 * py (py w) x y) x y +
        1 * py (py fun x y => px (px w) x y + 1 * py (py w) x y) x y := by
  have hxx : Smooth 2 (px (px w)) := smooth_px (smooth_px h)
  have hyy : Smooth 2 (py (py w)) := smooth_py (smooth_py h)
  have e1 : px (px fun x y => px (px w) x y + 1 * py (py w) x y) x y =
      px (px (px (px w))) x y + 1 * px (px (py (py w))) x y := dd_lin (slice_x hxx y) (slice_x hyy y) 1 x
  have e2 : py (py fun x y => px (px w) x y + 1 * py (py w) x y) x y =
      py (py (px (px w))) x y + 1 * py (py (py (py w))) x y := dd_lin (slice_y hxx x) (slice_y hyy x) 1 y
  rw [e1, e2, mixed h]
  ring

theorem bilaplace_disc (g a b x y : ℝ) :
    px (px (px (px (disc g a b)))) x y + 2 * py (py (px (px (disc g a b)))) x y + py (py (py (py (disc g a b)))) x y =
      16 * g ^ 2 * disc g a b x y := by
  rw [bilaplace (smooth_disc 4 g a b)]
  have e : (fun x y => px (px (disc g a b)) x y + 1 * py (py (disc g a b)) x y) = disc g (-(4 * g) * a) (4 * g * b) :=
    funext fun x => funext fun y => laplace_disc g a b x y
  rw [e, laplace_disc, disc, disc]
  ring

/-! ### The first frequency -/

theorem phiTerm_tail (m k : ℕ) {s : ℝ} (h : |s| ≤ 3) :
    |phiTerm m (k + 14) s| ≤ 3 ^ 14 / ((14).factorial * (14).factorial) * (1 / 2) ^ k := by
  have a : |phiTerm m (k + 14) s| ≤ 3 ^ (k + 14) / ((k + 14).factorial * (k + 14).factorial) := by
    have h1 : (((k + 14).factorial : ℕ) : ℝ) ≤ (k + 14 + m).factorial := by
      exact_mod_cast Nat.factorial_le (by omega)
    have h0 : (0 : ℝ) < (k + 14).factorial := by exact_mod_cast Nat.factorial_pos _
    rw [phiTerm, abs_div, abs_pow, abs_of_pos (a := ((k + 14).factorial * (k + 14 + m).factorial : ℝ)) (by positivity)]
    exact div_le_div₀ (by positivity) (pow_le_pow_left₀ (abs_nonneg s) h _) (by positivity)
      (mul_le_mul_of_nonneg_left h1 h0.le)
  refine a.trans ?_
  clear a
  induction k with
  | zero => simp
  | succ k ih =>
    have h0 : (0 : ℝ) < (k + 14).factorial := by exact_mod_cast Nat.factorial_pos _
    have e : (3 : ℝ) ^ (k + 1 + 14) / ((k + 1 + 14).factorial * (k + 1 + 14).factorial) =
        3 ^ (k + 14) / ((k + 14).factorial * (k + 14).factorial) * (3 / (((k : ℝ) + 15) * (k + 15))) := by
      rw [show k + 1 + 14 = (k + 14) + 1 by omega, Nat.factorial_succ, pow_succ]
      push_cast
      field_simp
      ring
    have hq : 3 / (((k : ℝ) + 15) * (k + 15)) ≤ 1 / 2 := by
      have hk : (0 : ℝ) ≤ k := Nat.cast_nonneg k
      rw [div_le_div_iff₀ (by positivity) (by norm_num)]
      nlinarith
    rw [e, pow_succ (1 / 2 : ℝ) k, ← mul_assoc]
    exact mul_le_mul ih hq (by positivity) (by positivity)

theorem phi_near (m : ℕ) {s : ℝ} (h : |s| ≤ 3) : |phi m s - ∑ k ∈ Finset.range 14, phiTerm m k s| ≤ 1e-13 := by
  rw [phi, ← (summable_phiTerm m s).sum_add_tsum_nat_add 14, add_sub_cancel_left]
  refine (tsum_of_norm_bounded (f := fun k => phiTerm m (k + 14) s)
    (hasSum_geometric_two.mul_left (3 ^ 14 / ((14).factorial * (14).factorial) : ℝ)) fun k => phiTerm_tail m k h).trans ?_
  norm_num [Nat.factorial]

theorem phi_value (m : ℕ) {s p : ℝ} (h : |s| ≤ 3) (hp : |∑ k ∈ Finset.range 14, phiTerm m k s - p| ≤ 1e-13) :
    |phi m s - p| ≤ 2e-13 := by
  have := abs_add_le (phi m s - ∑ k ∈ Finset.range 14, phiTerm m k s) (∑ k ∈ Finset.range 14, phiTerm m k s - p)
  rw [sub_add_sub_cancel] at this
  have := phi_near m h
  norm_num at *
  linarith

/-- The frequencies with circular symmetry are the zeros of this function (`g` is a quarter of the square of the number
`gamma`). -/
noncomputable def circleChar (g : ℝ) : ℝ := phi 0 g * phi 1 (-g) + phi 0 (-g) * phi 1 g

theorem char_near {p q r t P Q R T : ℝ} (h1 : |p - P| ≤ 2e-13) (h2 : |q - Q| ≤ 2e-13) (h3 : |r - R| ≤ 2e-13)
    (h4 : |t - T| ≤ 2e-13) (hP : |P| ≤ 6) (hQ : |Q| ≤ 6) (hR : |R| ≤ 6) (hT : |T| ≤ 6) :
    |p * q + r * t - (P * Q + R * T)| ≤ 1e-11 := by
  have key : ∀ {p q P Q : ℝ}, |p - P| ≤ 2e-13 → |q - Q| ≤ 2e-13 → |P| ≤ 6 → |Q| ≤ 6 → |p * q - P * Q| ≤ 5e-12 := by
    intro p q P Q h1 h2 hP hQ
    have e : p * q - P * Q = (p - P) * (q - Q) + P * (q - Q) + (p - P) * Q := by ring
    rw [e]
    refine (abs_add_three _ _ _).trans ?_
    rw [abs_mul, abs_mul, abs_mul]
    have a := mul_le_mul h1 h2 (abs_nonneg _) (by norm_num)
    have b := mul_le_mul hP h2 (abs_nonneg _) (by norm_num)
    have c := mul_le_mul h1 hQ (abs_nonneg _) (by norm_num)
    norm_num at *
    linarith
  have a := key h1 h2 hP hQ
  have b := key h3 h4 hR hT
  have e : p * q + r * t - (P * Q + R * T) = (p * q - P * Q) + (r * t - R * T) := by ring
  rw [e]
  refine (abs_add_le _ _).trans ?_
  norm_num at *
  linarith

theorem char_lo : 0 ≤ circleChar 2.553956556 := by
  have a : |phi 0 (2.553956556) - (5.7293450671951)| ≤ 2e-13 := phi_value 0 (by norm_num [abs_le]) (by
    norm_num [Finset.sum_range_succ, phiTerm, Nat.factorial, abs_le])
  have b : |phi 1 (-2.553956556) - (0.1644825345753)| ≤ 2e-13 := phi_value 1 (by norm_num [abs_le]) (by
    norm_num [Finset.sum_range_succ, phiTerm, Nat.factorial, abs_le])
  have c : |phi 0 (-2.553956556) - (-0.3191975840530)| ≤ 2e-13 := phi_value 0 (by norm_num [abs_le]) (by
    norm_num [Finset.sum_range_succ, phiTerm, Nat.factorial, abs_le])
  have d : |phi 1 (2.553956556) - (2.9523318567841)| ≤ 2e-13 := phi_value 1 (by norm_num [abs_le]) (by
    norm_num [Finset.sum_range_succ, phiTerm, Nat.factorial, abs_le])
  have e := char_near a b c d (by norm_num [abs_le]) (by norm_num [abs_le]) (by norm_num [abs_le]) (by norm_num [abs_le])
  rw [circleChar]
  rw [abs_le] at e
  norm_num at e ⊢
  linarith

theorem char_hi : circleChar 2.553956558 ≤ 0 := by
  have a : |phi 0 (2.553956558) - (5.7293450730998)| ≤ 2e-13 := phi_value 0 (by norm_num [abs_le]) (by
    norm_num [Finset.sum_range_succ, phiTerm, Nat.factorial, abs_le])
  have b : |phi 1 (-2.553956558) - (0.1644825341965)| ≤ 2e-13 := phi_value 1 (by norm_num [abs_le]) (by
    norm_num [Finset.sum_range_succ, phiTerm, Nat.factorial, abs_le])
  have c : |phi 0 (-2.553956558) - (-0.3191975843820)| ≤ 2e-13 := phi_value 0 (by norm_num [abs_le]) (by
    norm_num [Finset.sum_range_succ, phiTerm, Nat.factorial, abs_le])
  have d : |phi 1 (2.553956558) - (2.9523318589588)| ≤ 2e-13 := phi_value 1 (by norm_num [abs_le]) (by
    norm_num [Finset.sum_range_succ, phiTerm, Nat.factorial, abs_le])
  have e := char_near a b c d (by norm_num [abs_le]) (by norm_num [abs_le]) (by norm_num [abs_le]) (by norm_num [abs_le])
  rw [circleChar]
  rw [abs_le] at e
  norm_num at e ⊢
  linarith

theorem circle_root : ∃ g : ℝ, 2.553956556 ≤ g ∧ g ≤ 2.553956558 ∧ circleChar g = 0 := by
  have c : ∀ m, Continuous (phi m) := fun m => (contDiff_phi 0 m).continuous
  have hc : Continuous circleChar :=
    ((c 0).mul ((c 1).comp continuous_neg)).add (((c 0).comp continuous_neg).mul (c 1))
  obtain ⟨g, hg, h⟩ := intermediate_value_Icc' (by norm_num : (2.553956556 : ℝ) ≤ 2.553956558) hc.continuousOn
    ⟨char_hi, char_lo⟩
  exact ⟨g, hg.1, hg.2, h⟩

/-- A vibration with the frequency `omega` of a clamped circular plate of radius 1 with bending stiffness `D` and mass per
area `m`. -/
structure CircleMode (D m omega : ℝ) (w : ℝ → ℝ → ℝ) : Prop where
  smooth : ContDiff ℝ 4 fun z : ℝ × ℝ => w z.1 z.2
  motion : ∀ x y, D * (dd (dd fun x => w x y) x + 2 * dd (fun y => dd (fun x => w x y) x) y + dd (dd fun y => w x y) y) =
    m * omega ^ 2 * w x y
  edge : ∀ x y, x ^ 2 + y ^ 2 = 1 → w x y = 0 ∧ x * deriv (fun x => w x y) x + y * deriv (fun y => w x y) y = 0
  moves : w 0 0 ≠ 0

theorem circle_mode {D m g : ℝ} (hD : 0 < D) (hm : 0 < m) (h : circleChar g = 0) (hlt : phi 0 (-g) < phi 0 g) :
    CircleMode D m (4 * g * Real.sqrt (D / m)) (disc g (phi 0 g) (-phi 0 (-g))) := by
  refine ⟨smooth_disc 4 g _ _, fun x y => ?_, fun x y hxy => ⟨?_, ?_⟩, ?_⟩
  · have e := bilaplace_disc g (phi 0 g) (-phi 0 (-g)) x y
    have e' : D * (16 * g ^ 2 * disc g (phi 0 g) (-phi 0 (-g)) x y) =
        m * (4 * g * Real.sqrt (D / m)) ^ 2 * disc g (phi 0 g) (-phi 0 (-g)) x y := by
      rw [mul_pow, Real.sq_sqrt (by positivity)]
      field_simp
      ring
    rw [← e', ← e]
    rfl
  · simp only [disc, ring0, hxy, mul_one]
    ring
  · have d1 : deriv (fun x => disc g (phi 0 g) (-phi 0 (-g)) x y) x = _ :=
      (((hasDerivAt_ring0_x 0 (-g) x y).const_mul (phi 0 g)).add
        ((hasDerivAt_ring0_x 0 g x y).const_mul (-phi 0 (-g)))).deriv
    have d2 : deriv (fun y => disc g (phi 0 g) (-phi 0 (-g)) x y) y = _ :=
      (((hasDerivAt_ring0_y 0 (-g) x y).const_mul (phi 0 g)).add
        ((hasDerivAt_ring0_y 0 g x y).const_mul (-phi 0 (-g)))).deriv
    rw [d1, d2]
    simp only [ring0, hxy, mul_one, zero_add]
    rw [circleChar] at h
    linear_combination (-2 * g * (x ^ 2 + y ^ 2)) * h
  · have e : phi 0 0 = 1 := by
      rw [phi_succ]
      simp [phiTerm]
    simp only [disc, ring0]
    norm_num [e]
    linarith

/-- **C148**: the frequency printed for the clamped circle is that of a mode up to a relative error of 10⁻⁹. -/
theorem C148_circle {D m : ℝ} (hD : 0 < D) (hm : 0 < m) :
    ∃ omega w, |modalCircle D m - omega| ≤ 1e-9 * omega ∧ CircleMode D m omega w := by
  obtain ⟨g, h1, h2, h3⟩ := circle_root
  have hg : 0 < g := by norm_num at h1; linarith
  have hlt : phi 0 (-g) < phi 0 g := by
    refine Summable.tsum_lt_tsum (i := 1) (fun k => ?_) ?_ (summable_phiTerm 0 (-g)) (summable_phiTerm 0 g)
    · have : (-g) ^ k ≤ g ^ k := by
        rw [neg_pow]
        have h1 : (-1 : ℝ) ^ k ≤ 1 := by
          rcases neg_one_pow_eq_or ℝ k with h | h <;> simp [h]
        have := mul_le_mul_of_nonneg_right h1 (pow_nonneg hg.le k)
        linarith
      exact div_le_div_of_nonneg_right this (by positivity)
    · simp only [phiTerm]
      norm_num
      linarith
  refine ⟨_, _, ?_, circle_mode hD hm h3 hlt⟩
  have e : modalCircle D m = 3.1962206158252 ^ 2 * Real.sqrt (D / m) := by
    rw [modalCircle, half_power, mul_div_assoc, Real.sqrt_mul (by norm_num),
      show (3.1962206158252 : ℝ) ^ 4 = (3.1962206158252 ^ 2) ^ 2 by norm_num, Real.sqrt_sq (by norm_num)]
  have hs := Real.sqrt_nonneg (D / m)
  rw [e, ← sub_mul, abs_mul, abs_of_nonneg hs, ← mul_assoc]
  refine mul_le_mul_of_nonneg_right ?_ hs
  rw [abs_le]
  norm_num at *
  constructor <;> linarith

/-- The plate of the program: modulus 1, thickness 0.01, Poisson ratio 0.3, density 1. -/
example : ∃ omega w, |modalCircle (plateD 1 0.01 0.3) (1 * 0.01) - omega| ≤ 1e-9 * omega ∧
    CircleMode (plateD 1 0.01 0.3) (1 * 0.01) omega w :=
  C148_circle (by norm_num [plateD]) (by norm_num)

end GsSA.Oracle
