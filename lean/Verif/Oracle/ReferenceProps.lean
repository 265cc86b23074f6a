import Mathlib.Analysis.SpecialFunctions.Trigonometric.Deriv
import Mathlib.Analysis.Calculus.ContDiff.Basic
import Mathlib.Analysis.Calculus.MeanValue
import Mathlib.Analysis.Real.Pi.Bounds
import Verif.Oracle.Reference

/-!
# C148: the reference solutions in the programs
-/

namespace GsSA.Oracle

/-! ### Uniaxial tension -/

theorem uat_deriv {material : ℕ} (hm : material = 1 ∨ material = 3 ∨ material = 4) {l : ℝ} (hl : 0 < l) :
    HasDerivAt (fun x => iso (moduli material) x ((1 / x) ^ (0.5 : ℝ)) ((1 / x) ^ (0.5 : ℝ))) (uatSan material false l / l) l := by
  obtain ⟨h1, h3, h4⟩ := C144_incompressible hl
  rcases hm with rfl | rfl | rfl
  · have := h1 mu
    simp only [uatSan, moduli, and_self, if_true]
    rw [show mu * (l ^ 2 - 1 / l) = sanNH mu l by rw [sanNH]; ring]
    exact this
  · have := h3 (1 - 1 / (ratio + 1)) (1 / (ratio + 1)) mu
    simp only [uatSan, moduli]
    norm_num at this ⊢
    exact this
  · have := h4 mu1 1.3 mu2 5 mu3 (-2) (by norm_num) (by norm_num) (by norm_num)
    simp only [uatSan, moduli]
    norm_num at this ⊢
    exact this

theorem cross_sq {l : ℝ} (hl : 0 < l) : 0 < (1 / l) ^ (0.5 : ℝ) ∧ (1 / l) ^ (0.5 : ℝ) * (1 / l) ^ (0.5 : ℝ) = 1 / l := by
  obtain ⟨h1, h2⟩ := cross_volume hl one_pos
  refine ⟨h1, ?_⟩
  field_simp
  linarith

/-- **C148**: with the stretches across the tension in `lambdas(0)` and `lambdas(2)`, the printed stress is the formula
for the stress at the stretch along the tension, for a load in equilibrium with the energy of the plate. -/
theorem C148_stress {material : ℕ} (hm : material = 1 ∨ material = 3 ∨ material = 4) {l L : ℝ} (hl : 0 < l)
    (hL : HasDerivAt (fun x => 1e-3 * iso (moduli material) x ((1 / x) ^ (0.5 : ℝ)) ((1 / x) ^ (0.5 : ℝ))) L l)
    {lambdas : ℕ → ℝ} (h0 : lambdas 0 = (1 / l) ^ (0.5 : ℝ)) (h2 : lambdas 2 = (1 / l) ^ (0.5 : ℝ)) :
    (uatRow material false L lambdas).1 = uatSan material false l := by
  have e := hL.unique ((uat_deriv hm hl).const_mul _)
  obtain ⟨h1, h3⟩ := cross_sq hl
  simp only [uatRow, h0, h2, e]
  rw [div_div _ ((1 / l) ^ (0.5 : ℝ)), h3]
  field_simp

theorem rpow_order {x a : ℝ} (hx : 0 < x) (ha : a ≠ 0) :
    (1 < x → 0 < a * (x ^ a - (1 / x) ^ (0.5 * a))) ∧ (x < 1 → a * (x ^ a - (1 / x) ^ (0.5 * a)) < 0) := by
  have e : (1 / x) ^ (0.5 * a) = x ^ (-(0.5 * a)) := by
    rw [Real.rpow_neg hx.le, one_div, Real.inv_rpow hx.le]
  rw [e]
  rcases lt_or_gt_of_ne ha with hn | hp
  · constructor
    · intro h
      have := Real.rpow_lt_rpow_of_exponent_lt h (show a < -(0.5 * a) by norm_num; linarith)
      exact mul_pos_of_neg_of_neg hn (by linarith)
    · intro h
      have := Real.rpow_lt_rpow_of_exponent_gt hx h (show a < -(0.5 * a) by norm_num; linarith)
      exact mul_neg_of_neg_of_pos hn (by linarith)
  · constructor
    · intro h
      have := Real.rpow_lt_rpow_of_exponent_lt h (show -(0.5 * a) < a by norm_num; linarith)
      exact mul_pos hp (by linarith)
    · intro h
      have := Real.rpow_lt_rpow_of_exponent_gt hx h (show -(0.5 * a) < a by norm_num; linarith)
      exact mul_neg_of_pos_of_neg hp (by linarith)

/-- Tension for a stretch, compression for a shortening. -/
theorem uatSan_sign {material : ℕ} (hm : material = 1 ∨ material = 3 ∨ material = 4) {x : ℝ} (hx : 0 < x) :
    (1 < x → 0 < uatSan material false x) ∧ (x < 1 → uatSan material false x < 0) := by
  have mupos : 0 < mu := by norm_num [mu]
  rcases hm with rfl | rfl | rfl
  · simp only [uatSan, and_self, if_true]
    rw [show mu * (x ^ 2 - 1 / x) = mu * ((x ^ 2 + x + 1) / x) * (x - 1) by field_simp; ring]
    have : 0 < mu * ((x ^ 2 + x + 1) / x) := by positivity
    exact ⟨fun h => mul_pos this (by linarith), fun h => mul_neg_of_pos_of_neg this (by linarith)⟩
  · have e : uatSan 3 false x = mu * (x ^ 2 + x + 1) * (7 * x + 1) / (8 * x ^ 2) * (x - 1) := by
      norm_num [uatSan, sanMR, ratio]
      field_simp
      ring
    rw [e]
    have : 0 < mu * (x ^ 2 + x + 1) * (7 * x + 1) / (8 * x ^ 2) := by positivity
    exact ⟨fun h => mul_pos this (by linarith), fun h => mul_neg_of_pos_of_neg this (by linarith)⟩
  · have e : uatSan 4 false x = mu1 / 1.3 * (1.3 * (x ^ (1.3 : ℝ) - (1 / x) ^ (0.5 * 1.3 : ℝ))) +
        mu2 / 5 * (5 * (x ^ (5 : ℝ) - (1 / x) ^ (0.5 * 5 : ℝ))) +
        mu3 / -2 * (-2 * (x ^ (-2 : ℝ) - (1 / x) ^ (0.5 * -2 : ℝ))) := by
      norm_num [uatSan, sanOG]
      ring
    obtain ⟨a1, b1⟩ := rpow_order hx (show (1.3 : ℝ) ≠ 0 by norm_num)
    obtain ⟨a2, b2⟩ := rpow_order hx (show (5 : ℝ) ≠ 0 by norm_num)
    obtain ⟨a3, b3⟩ := rpow_order hx (show (-2 : ℝ) ≠ 0 by norm_num)
    have m1 : 0 < mu1 / 1.3 := by norm_num [mu1, mu]
    have m2 : 0 < mu2 / 5 := by norm_num [mu2, mu]
    have m3 : 0 < mu3 / -2 := by norm_num [mu3, mu]
    rw [e]
    constructor
    · intro h
      have := mul_pos m1 (a1 h)
      have := mul_pos m2 (a2 h)
      have := mul_pos m3 (a3 h)
      linarith
    · intro h
      have := mul_neg_of_pos_of_neg m1 (b1 h)
      have := mul_neg_of_pos_of_neg m2 (b2 h)
      have := mul_neg_of_pos_of_neg m3 (b3 h)
      linarith

/-- **C148**, violated: the program takes the same entry `lambdas(0)` as a stretch across the tension in `S` and as the
stretch along it in `San`. Whichever it is, the two printed stresses differ for every deformed plate. -/
theorem C148_violated_stress {material : ℕ} (hm : material = 1 ∨ material = 3 ∨ material = 4) {l L : ℝ} (hl : 0 < l)
    (h1 : l ≠ 1)
    (hL : HasDerivAt (fun x => 1e-3 * iso (moduli material) x ((1 / x) ^ (0.5 : ℝ)) ((1 / x) ^ (0.5 : ℝ))) L l)
    {lambdas : ℕ → ℝ} (h0 : lambdas 0 = (1 / l) ^ (0.5 : ℝ) ∨ lambdas 0 = l) (h2 : lambdas 2 = (1 / l) ^ (0.5 : ℝ)) :
    (uatRow material false L lambdas).1 ≠ (uatRow material false L lambdas).2 := by
  obtain ⟨c0, c1⟩ := cross_sq hl
  obtain ⟨s1, s2⟩ := uatSan_sign hm hl
  rcases h0 with h0 | h0
  · rw [C148_stress hm hl hL h0 h2]
    obtain ⟨t1, t2⟩ := uatSan_sign hm c0
    simp only [uatRow, h0]
    rcases lt_or_gt_of_ne h1 with h | h
    · have a := s2 h
      have b := t1 (by
        have : 1 < 1 / l := by rw [lt_div_iff₀ hl]; linarith
        exact Real.one_lt_rpow this (by norm_num))
      exact ne_of_lt (a.trans b)
    · have a := s1 h
      have b := t2 (by
        have : 1 / l < 1 := by rw [div_lt_iff₀ hl]; linarith
        exact Real.rpow_lt_one (by positivity) this (by norm_num))
      exact ne_of_gt (b.trans a)
  · have e := hL.unique ((uat_deriv hm hl).const_mul _)
    simp only [uatRow, h0, h2, e]
    have hs : uatSan material false l ≠ 0 := by
      rcases lt_or_gt_of_ne h1 with h | h
      · exact (s2 h).ne
      · exact (s1 h).ne'
    intro he
    have hc : l * l * (1 / l) ^ (0.5 : ℝ) = 1 := by
      have e2 : ∀ S c : ℝ, c ≠ 0 → 1e-3 * (S / l) / 1e-3 / l / c = S / (l * l * c) := by
        intro S c hc
        field_simp
      rw [e2 _ _ c0.ne', div_eq_iff (by positivity)] at he
      have := mul_left_cancel₀ hs ((mul_one _).trans he)
      linarith
    have h4 : l ^ 4 * (1 / l) = 1 := by
      rw [← c1]
      linear_combination (l * l * (1 / l) ^ (0.5 : ℝ) + 1) * hc
    have h5 : l ^ 3 = 1 := by
      have : l ^ 4 * (1 / l) = l ^ 3 := by field_simp
      rw [← this, h4]
    have h6 : (l - 1) * (l ^ 2 + l + 1) = 0 := by linear_combination h5
    rcases mul_eq_zero.1 h6 with h7 | h7
    · exact h1 (by linarith)
    · have : 0 < l ^ 2 + l + 1 := by positivity
      linarith

/-- The load in `C148_stress` for the stretch 2. -/
example : ∃ L, HasDerivAt (fun x => 1e-3 * iso (moduli 4) x ((1 / x) ^ (0.5 : ℝ)) ((1 / x) ^ (0.5 : ℝ))) L 2 :=
  ⟨_, (uat_deriv (Or.inr (Or.inr rfl)) two_pos).const_mul _⟩

/-! ### The manufactured solution of the beam -/

/-- Second derivative. -/
noncomputable def dd (f : ℝ → ℝ) : ℝ → ℝ := deriv (deriv f)

/-- Motion `w` (time, place) of a beam of von Kármán without displacement along its axis, under forces along and
across; `m` is the mass per length. -/
structure VonKarman (EA EI m : ℝ) (w fx fz : ℝ → ℝ → ℝ) : Prop where
  smooth : ∀ t, ContDiff ℝ 4 (w t)
  smoothTime : ∀ x, ContDiff ℝ 2 fun t => w t x
  along : ∀ t x, -deriv (fun y => EA / 2 * deriv (w t) y ^ 2) x = fx t x
  across : ∀ t x, m * dd (fun t => w t x) t + EI * dd (dd (w t)) x -
    deriv (fun y => EA / 2 * deriv (w t) y ^ 2 * deriv (w t) y) x = fz t x

def quartic (a b c d e x : ℝ) : ℝ := a + b * x + c * x ^ 2 + d * x ^ 3 + e * x ^ 4

theorem hasDerivAt_quartic (a b c d e x : ℝ) :
    HasDerivAt (quartic a b c d e) (quartic b (2 * c) (3 * d) (4 * e) 0 x) x := by
  have h := (((((hasDerivAt_id' x).const_mul b).const_add a).add ((hasDerivAt_pow 2 x).const_mul c)).add
    ((hasDerivAt_pow 3 x).const_mul d)).add ((hasDerivAt_pow 4 x).const_mul e)
  refine h.congr_deriv ?_
  simp only [quartic]
  push_cast
  ring

theorem deriv_quartic (a b c d e : ℝ) : deriv (quartic a b c d e) = quartic b (2 * c) (3 * d) (4 * e) 0 :=
  funext fun x => (hasDerivAt_quartic a b c d e x).deriv

theorem beamW_quartic (load EI len omega t : ℝ) :
    beamW load EI len omega t = quartic 0 (load * Real.cos (omega * Real.pi * t) / (24 * EI) * len ^ 3) 0
      (load * Real.cos (omega * Real.pi * t) / (24 * EI) * (-2 * len)) (load * Real.cos (omega * Real.pi * t) / (24 * EI)) := by
  funext x
  simp only [beamW, quartic]
  ring

theorem dd_wave (K c : ℝ) : dd (fun t => K * Real.cos (c * t)) = fun t => -(c ^ 2) * (K * Real.cos (c * t)) := by
  have h1 : deriv (fun t => K * Real.cos (c * t)) = fun t => K * (-Real.sin (c * t) * c) := by
    funext t
    have h := (((hasDerivAt_id' t).const_mul c).cos).const_mul K
    rw [h.deriv, mul_one]
  rw [dd, h1]
  funext t
  have h := ((((hasDerivAt_id' t).const_mul c).sin).neg.mul_const c).const_mul K
  have h2 := h.deriv
  refine h2.trans ?_
  ring

theorem beam_across {load EI : ℝ} (hEI : EI ≠ 0) (len omega t x : ℝ) :
    dd (dd (beamW load EI len omega t)) x = load * Real.cos (omega * Real.pi * t) / EI := by
  rw [beamW_quartic]
  simp only [dd, deriv_quartic, quartic]
  field_simp
  ring

/-- **C148**: the manufactured solution of the nonlinear beam solves the equations of the beam of von Kármán with the
traction and the pressure of the program, for all stiffnesses, masses, loads, lengths and frequencies; it is zero with
zero moment at both ends, starts with the initial values of the program, and is back at its start at the end of the
simulation after a whole number of periods. -/
theorem C148_beam {load EI len omega : ℝ} (hEI : EI ≠ 0) (EA m : ℝ) :
    VonKarman EA EI m (beamW load EI len omega) (beamTraction EA load EI len omega) (beamPressure EA m load EI len omega) ∧
    (∀ t, beamW load EI len omega t 0 = 0 ∧ beamW load EI len omega t len = 0 ∧
      dd (beamW load EI len omega t) 0 = 0 ∧ dd (beamW load EI len omega t) len = 0) ∧
    (∀ x, deriv (fun t => beamW load EI len omega t x) 0 = 0 ∧
      dd (fun t => beamW load EI len omega t x) 0 = beamAcc load EI len omega 0 x) ∧
    (omega ≠ 0 → ∀ (n : ℕ) x, beamW load EI len omega (beamEnd omega n) x = beamW load EI len omega 0 x) := by
  have wave : ∀ x, (fun t => beamW load EI len omega t x) = fun t =>
      load * x / (24 * EI) * (len ^ 3 - 2 * len * x ^ 2 + x ^ 3) * Real.cos (omega * Real.pi * t) := fun x => rfl
  refine ⟨⟨fun t => ?_, fun x => ?_, fun t x => ?_, fun t x => ?_⟩, fun t => ?_, fun x => ?_, fun ho n x => ?_⟩
  · unfold beamW
    fun_prop
  · unfold beamW
    fun_prop
  · obtain ⟨k, hk⟩ : ∃ k, load * Real.cos (omega * Real.pi * t) / (24 * EI) = k := ⟨_, rfl⟩
    have e : beamTraction EA load EI len omega t x =
        12 * EA * k ^ 2 * (len ^ 3 - 6 * len * x ^ 2 + 4 * x ^ 3) * x * (len - x) := by
      rw [← hk, beamTraction]
      field_simp
      ring
    rw [e, beamW_quartic, hk]
    simp only [deriv_quartic]
    have h := ((hasDerivAt_quartic (k * len ^ 3) (2 * 0) (3 * (k * (-2 * len))) (4 * k) 0 x).pow 2).const_mul (EA / 2)
    refine (congrArg Neg.neg h.deriv).trans ?_
    simp only [quartic]
    push_cast
    ring
  · obtain ⟨k, hk⟩ : ∃ k, load * Real.cos (omega * Real.pi * t) / (24 * EI) = k := ⟨_, rfl⟩
    have e : beamPressure EA m load EI len omega t x =
        18 * EA * k ^ 3 * x * (len - x) * (len - 2 * x) ^ 2 * (len ^ 2 + 2 * len * x - 2 * x ^ 2) ^ 2 -
          k * m * Real.pi ^ 2 * omega ^ 2 * (len ^ 3 * x - 2 * len * x ^ 3 + x ^ 4) + 24 * EI * k := by
      rw [← hk, beamPressure]
      field_simp
      ring
    have e2 : load * Real.cos (omega * Real.pi * t) / EI = 24 * k := by
      rw [← hk]
      field_simp
    have e3 : load * x / (24 * EI) * (len ^ 3 - 2 * len * x ^ 2 + x ^ 3) * Real.cos (omega * Real.pi * t) =
        k * x * (len ^ 3 - 2 * len * x ^ 2 + x ^ 3) := by
      rw [← hk]
      ring
    rw [beam_across hEI, wave x, dd_wave, e, e2, beamW_quartic, hk]
    simp only [deriv_quartic, e3]
    have h0 := hasDerivAt_quartic (k * len ^ 3) (2 * 0) (3 * (k * (-2 * len))) (4 * k) 0 x
    have h := ((h0.pow 2).const_mul (EA / 2)).mul h0
    refine (congrArg (fun z => _ - z) h.deriv).trans ?_
    simp only [quartic, Pi.pow_apply]
    push_cast
    ring
  · refine ⟨?_, ?_, ?_, ?_⟩
    · simp [beamW]
    · simp only [beamW]
      ring
    · rw [beamW_quartic]
      simp [dd, deriv_quartic, quartic]
    · rw [beamW_quartic]
      simp only [dd, deriv_quartic, quartic]
      ring
  · constructor
    · rw [wave x]
      have h := (((hasDerivAt_id' (0 : ℝ)).const_mul (omega * Real.pi)).cos).const_mul
        (load * x / (24 * EI) * (len ^ 3 - 2 * len * x ^ 2 + x ^ 3))
      rw [h.deriv]
      simp
    · rw [wave x, dd_wave]
      simp only [beamAcc]
      ring
  · have e : omega * Real.pi * beamEnd omega n = n * (2 * Real.pi) := by
      rw [beamEnd]
      field_simp
    simp only [beamW, e, Real.cos_nat_mul_two_pi, mul_zero, Real.cos_zero]

/-- **C148**, violated: it does not solve them for another bending stiffness, and the one of the program is eight times
that of a plate of the thickness given to the assembler. -/
theorem C148_violated_beam {load EI EI' len omega : ℝ} (hl : load ≠ 0) (hEI : EI ≠ 0) (hne : EI' ≠ EI) (EA m : ℝ) :
    ¬ VonKarman EA EI' m (beamW load EI len omega) (beamTraction EA load EI len omega)
      (beamPressure EA m load EI len omega) := by
  intro h
  have a := h.across 0 0
  have b := (C148_beam (load := load) (len := len) (omega := omega) hEI EA m).1.across 0 0
  have c : EI' * (load / EI) = EI * (load / EI) := by
    have e : dd (dd (beamW load EI len omega 0)) 0 = load / EI := by
      rw [beam_across hEI]
      simp
    rw [e] at a b
    linarith
  exact hne (mul_right_cancel₀ (div_ne_zero hl hEI) c)

theorem C148_violated_stiffness {E width thickness : ℝ} (hE : 0 < E) (hw : 0 < width) (ht : 0 < thickness) :
    beamEI E width thickness = 8 * modalEI E width thickness ∧ modalEI E width thickness ≠ beamEI E width thickness ∧
      beamEI E width thickness ≠ 0 := by
  have e : beamEI E width thickness = 8 * modalEI E width thickness := by
    norm_num [beamEI, modalEI]
    ring
  have : 0 < modalEI E width thickness := by
    rw [modalEI]
    positivity
  refine ⟨e, ?_, ?_⟩
  · rw [e]
    linarith
  · rw [e]
    linarith

/-- The program: modulus, width and thickness 1, length 10, load 0.001. -/
example : ¬ VonKarman (beamEA 1 1 1) (modalEI 1 1 1) 1 (beamW 1e-3 (beamEI 1 1 1) 10 1)
    (beamTraction (beamEA 1 1 1) 1e-3 (beamEI 1 1 1) 10 1) (beamPressure (beamEA 1 1 1) 1 1e-3 (beamEI 1 1 1) 10 1) :=
  have h := C148_violated_stiffness one_pos one_pos one_pos
  C148_violated_beam (by norm_num) h.2.2 h.2.1 _ _

/-! ### Frequencies -/

/-- A mode of a beam pinned at both ends. -/
structure BeamMode (EI m len omega : ℝ) (w : ℝ → ℝ) : Prop where
  smooth : ContDiff ℝ 4 w
  motion : ∀ x, EI * dd (dd w) x = m * omega ^ 2 * w x
  left : w 0 = 0 ∧ dd w 0 = 0
  right : w len = 0 ∧ dd w len = 0

/-- A mode of a square plate with side 1 pinned at its sides. -/
structure PlateMode (D m omega : ℝ) (w : ℝ → ℝ → ℝ) : Prop where
  smooth : ContDiff ℝ 4 fun z : ℝ × ℝ => w z.1 z.2
  motion : ∀ x y, D * (dd (dd fun x => w x y) x + 2 * dd (fun y => dd (fun x => w x y) x) y + dd (dd fun y => w x y) y) =
    m * omega ^ 2 * w x y
  sides : ∀ z, w 0 z = 0 ∧ w 1 z = 0 ∧ w z 0 = 0 ∧ w z 1 = 0 ∧ dd (fun x => w x z) 0 = 0 ∧ dd (fun x => w x z) 1 = 0 ∧
    dd (fun y => w z y) 0 = 0 ∧ dd (fun y => w z y) 1 = 0

theorem dd_sin (K c : ℝ) : dd (fun x => K * Real.sin (c * x)) = fun x => -(c ^ 2) * K * Real.sin (c * x) := by
  have h1 : deriv (fun x => K * Real.sin (c * x)) = fun x => K * (Real.cos (c * x) * c) := by
    funext x
    have h := (((hasDerivAt_id' x).const_mul c).sin).const_mul K
    rw [h.deriv, mul_one]
  rw [dd, h1]
  funext x
  have h := ((((hasDerivAt_id' x).const_mul c).cos).mul_const c).const_mul K
  refine h.deriv.trans ?_
  ring

theorem half_power (a : ℝ) : a ^ (0.5 : ℝ) = Real.sqrt a := by
  rw [Real.sqrt_eq_rpow]
  norm_num

theorem pi_close : |(3.1415926535 : ℝ) ^ 2 - Real.pi ^ 2| ≤ 1e-10 * Real.pi ^ 2 := by
  have a := Real.pi_gt_d20
  have b := Real.pi_lt_d20
  rw [abs_le]
  constructor
  · norm_num at *
    nlinarith
  · norm_num at *
    nlinarith

/-- **C148**: all entries of the list for the pinned beam but the first are frequencies of the beam up to the digits of
π, with the modes `sin (n π x / l)`. -/
theorem C148_pinned {EI m len : ℝ} (hEI : 0 < EI) (hm : 0 < m) (hl : 0 < len) {n : ℕ} (hn : n < 10) :
    ∃ p omega, (modalPinned len EI m)[n]? = some p ∧ |p - omega| ≤ 1e-10 * omega ∧
      BeamMode EI m len omega fun x => Real.sin (n * Real.pi / len * x) := by
  refine ⟨(n * 3.1415926535 / len) ^ 2 * (EI / m) ^ (0.5 : ℝ), (n * Real.pi / len) ^ 2 * (EI / m) ^ (0.5 : ℝ), ?_, ?_, ?_⟩
  · simp [modalPinned, hn]
  · have e : (n * 3.1415926535 / len) ^ 2 * (EI / m) ^ (0.5 : ℝ) - (n * Real.pi / len) ^ 2 * (EI / m) ^ (0.5 : ℝ) =
        (n / len) ^ 2 * (EI / m) ^ (0.5 : ℝ) * ((3.1415926535 : ℝ) ^ 2 - Real.pi ^ 2) := by ring
    have hp : 0 ≤ (n / len) ^ 2 * (EI / m) ^ (0.5 : ℝ) := by positivity
    rw [e, abs_mul, abs_of_nonneg hp]
    refine (mul_le_mul_of_nonneg_left pi_close hp).trans (le_of_eq ?_)
    ring
  · have e1 : (fun x => Real.sin (n * Real.pi / len * x)) = fun x => 1 * Real.sin (n * Real.pi / len * x) := by
      funext x
      rw [one_mul]
    have hs : Real.sin (n * Real.pi / len * len) = 0 := by
      rw [div_mul_cancel₀ _ hl.ne', Real.sin_nat_mul_pi]
    refine ⟨by fun_prop, fun x => ?_, ⟨by simp, ?_⟩, ⟨hs, ?_⟩⟩
    · rw [e1, dd_sin, dd_sin, half_power, mul_pow, Real.sq_sqrt (by positivity)]
      field_simp
    · rw [e1, dd_sin]
      simp
    · rw [e1, dd_sin]
      simp only [hs, mul_zero]

/-- The program: modulus, width and thickness 1, length 10, second entry. -/
example : ∃ p omega, (modalPinned 10 (modalEI 1 1 1) 1)[1]? = some p ∧ |p - omega| ≤ 1e-10 * omega ∧
    BeamMode (modalEI 1 1 1) 1 10 omega fun x => Real.sin ((1 : ℕ) * Real.pi / 10 * x) :=
  C148_pinned (by norm_num [modalEI]) one_pos (by norm_num) (by norm_num)

theorem affine_zero {g : ℝ → ℝ} (hg : ContDiff ℝ 2 g) (h : ∀ x, dd g x = 0) {len : ℝ} (hl : len ≠ 0) (h0 : g 0 = 0)
    (h1 : g len = 0) : ∀ x, g x = 0 := by
  have hd : Differentiable ℝ (deriv g) := (hg.iterate_deriv' 1 1).differentiable (by norm_num)
  have hc : ∀ x, deriv g x = deriv g 0 := fun x => is_const_of_deriv_eq_zero hd h x 0
  have hdg : Differentiable ℝ g := hg.differentiable (by norm_num)
  have hk : ∀ x, g x - deriv g 0 * x = 0 := by
    intro x
    have hD : ∀ y, HasDerivAt (fun z => g z - deriv g 0 * z) 0 y := by
      intro y
      refine ((hdg y).hasDerivAt.sub ((hasDerivAt_id' y).const_mul (deriv g 0))).congr_deriv ?_
      rw [hc y, mul_one, sub_self]
    have := is_const_of_deriv_eq_zero (fun y => (hD y).differentiableAt) (fun y => (hD y).deriv) x 0
    simpa [h0] using this
  have hz : deriv g 0 = 0 := by
    have := hk len
    rw [h1, zero_sub, neg_eq_zero] at this
    exact (mul_eq_zero.1 this).resolve_right hl
  intro x
  have := hk x
  rw [hz] at this
  linarith

/-- **C148**, violated: the frequency printed as the first one of the pinned beam, the first entry of the list, is 0, and
0 is no frequency: a motion with it is at rest. -/
theorem C148_violated_pinned {EI m len : ℝ} (hEI : 0 < EI) (hl : 0 < len) :
    (modalPinned len EI m)[0]? = some 0 ∧ ∀ w, BeamMode EI m len 0 w → ∀ x, w x = 0 := by
  constructor
  · simp [modalPinned]
  · intro w h
    have h2 : ContDiff ℝ 2 (dd w) := h.smooth.iterate_deriv' 2 2
    have hz : ∀ x, dd (dd w) x = 0 := by
      intro x
      have := h.motion x
      rw [zero_pow two_ne_zero, mul_zero, zero_mul] at this
      exact (mul_eq_zero.1 this).resolve_left hEI.ne'
    have hk := affine_zero h2 hz hl.ne' h.left.2 h.right.2
    exact affine_zero (h.smooth.of_le (by norm_num)) hk hl.ne' h.left.1 h.right.1

/-- **C148**, violated: the frequency printed for the cantilever is half the value of its formula for the section of the
beam, whose area was changed. -/
theorem C148_violated_cantilever (len : ℝ) :
    modalCantilever len = 1 / 2 * (3.52 * (1 / len) ^ 2 * (modalEI 210e9 0.5 0.5 / (7800 * (0.5 * 0.5))) ^ (0.5 : ℝ)) := by
  have h0 : 0 ≤ modalEI 210e9 0.5 0.5 / (7800 * (1 * 1)) := by
    rw [modalEI]
    positivity
  have e : modalEI 210e9 0.5 0.5 / (7800 * (0.5 * 0.5)) = 2 ^ 2 * (modalEI 210e9 0.5 0.5 / (7800 * (1 * 1))) := by ring
  simp only [modalCantilever]
  rw [e, half_power, half_power, Real.sqrt_mul (by norm_num), Real.sqrt_sq (by norm_num)]
  ring

theorem plate_mode {D m : ℝ} (hD : 0 < D) (hm : 0 < m) (i j : ℕ) :
    PlateMode D m (((i : ℝ) ^ 2 + (j : ℝ) ^ 2) * Real.pi ^ 2 * Real.sqrt (D / m))
      fun x y => Real.sin (i * Real.pi * x) * Real.sin (j * Real.pi * y) := by
  have ex : ∀ y, (fun x => Real.sin (i * Real.pi * x) * Real.sin (j * Real.pi * y)) =
      fun x => Real.sin (j * Real.pi * y) * Real.sin (i * Real.pi * x) := fun y => funext fun x => mul_comm _ _
  have hx : ∀ y, dd (fun x => Real.sin (i * Real.pi * x) * Real.sin (j * Real.pi * y)) =
      fun x => -((i * Real.pi) ^ 2) * Real.sin (j * Real.pi * y) * Real.sin (i * Real.pi * x) := by
    intro y
    rw [ex, dd_sin]
  have hy : ∀ x, dd (fun y => Real.sin (i * Real.pi * x) * Real.sin (j * Real.pi * y)) =
      fun y => -((j * Real.pi) ^ 2) * Real.sin (i * Real.pi * x) * Real.sin (j * Real.pi * y) := fun x => dd_sin _ _
  refine ⟨by fun_prop, fun x y => ?_, fun z => ?_⟩
  · have hxy : (fun y => dd (fun x => Real.sin (i * Real.pi * x) * Real.sin (j * Real.pi * y)) x) =
        fun y => (-((i * Real.pi) ^ 2) * Real.sin (i * Real.pi * x)) * Real.sin (j * Real.pi * y) := by
      funext y
      rw [hx]
      ring
    rw [hxy, hx, hy, dd_sin, dd_sin, dd_sin]
    rw [mul_pow _ (Real.sqrt _), Real.sq_sqrt (by positivity)]
    field_simp
    ring
  · rw [hx, hy]
    simp

/-- **C148**: the frequency printed for the pinned plate, the first of the sorted list, is up to the digits of π that of
the mode `sin (π x) sin (π y)`; all entries are frequencies in this sense. -/
theorem C148_plate {D m : ℝ} (hD : 0 < D) (hm : 0 < m) {sorted : List ℝ} (hs : sorted.Perm (modalPlate D m))
    (hle : sorted.Pairwise (· ≤ ·)) :
    (∃ p, sorted[0]? = some p ∧ |p - 2 * Real.pi ^ 2 * Real.sqrt (D / m)| ≤ 1e-10 * (2 * Real.pi ^ 2 * Real.sqrt (D / m))) ∧
    ∀ p ∈ sorted, ∃ i j : ℕ, 1 ≤ i ∧ 1 ≤ j ∧
      |p - ((i : ℝ) ^ 2 + (j : ℝ) ^ 2) * Real.pi ^ 2 * Real.sqrt (D / m)| ≤
        1e-10 * (((i : ℝ) ^ 2 + (j : ℝ) ^ 2) * Real.pi ^ 2 * Real.sqrt (D / m)) ∧
      PlateMode D m (((i : ℝ) ^ 2 + (j : ℝ) ^ 2) * Real.pi ^ 2 * Real.sqrt (D / m))
        fun x y => Real.sin (i * Real.pi * x) * Real.sin (j * Real.pi * y) := by
  have close : ∀ a : ℝ, 0 ≤ a → |a * 3.1415926535 ^ 2 * Real.sqrt (D / m) - a * Real.pi ^ 2 * Real.sqrt (D / m)| ≤
      1e-10 * (a * Real.pi ^ 2 * Real.sqrt (D / m)) := by
    intro a ha
    have hp : 0 ≤ a * Real.sqrt (D / m) := by positivity
    rw [show a * 3.1415926535 ^ 2 * Real.sqrt (D / m) - a * Real.pi ^ 2 * Real.sqrt (D / m) =
      a * Real.sqrt (D / m) * ((3.1415926535 : ℝ) ^ 2 - Real.pi ^ 2) by ring, abs_mul, abs_of_nonneg hp]
    refine (mul_le_mul_of_nonneg_left pi_close hp).trans (le_of_eq ?_)
    ring
  have mem : ∀ p, p ∈ sorted ↔ ∃ i < 9, ∃ j < 9,
      (((i : ℕ) : ℝ) + 1) ^ 2 * 3.1415926535 ^ 2 * Real.sqrt (D / m) +
        (((j : ℕ) : ℝ) + 1) ^ 2 * 3.1415926535 ^ 2 * Real.sqrt (D / m) = p := by
    intro p
    rw [hs.mem_iff]
    simp only [modalPlate, List.mem_flatMap, List.mem_map, List.mem_range, add_mul]
  constructor
  · have h1 : (2 : ℝ) * 3.1415926535 ^ 2 * Real.sqrt (D / m) ∈ sorted := by
      rw [mem]
      refine ⟨0, by norm_num, 0, by norm_num, ?_⟩
      push_cast
      ring
    cases sorted with
    | nil => exact absurd h1 List.not_mem_nil
    | cons p l =>
      refine ⟨p, rfl, ?_⟩
      have hp : p = 2 * 3.1415926535 ^ 2 * Real.sqrt (D / m) := by
        apply le_antisymm
        · rcases List.mem_cons.1 h1 with h | h
          · exact h.ge
          · exact List.rel_of_pairwise_cons hle h
        · obtain ⟨i, -, j, -, rfl⟩ := (mem p).1 List.mem_cons_self
          have hq : 0 ≤ (3.1415926535 : ℝ) ^ 2 * Real.sqrt (D / m) := by positivity
          have hi : (1 : ℝ) ≤ ((i : ℝ) + 1) ^ 2 := one_le_pow₀ (by linarith [Nat.cast_nonneg (α := ℝ) i])
          have hj : (1 : ℝ) ≤ ((j : ℝ) + 1) ^ 2 := one_le_pow₀ (by linarith [Nat.cast_nonneg (α := ℝ) j])
          have := mul_le_mul_of_nonneg_right hi hq
          have := mul_le_mul_of_nonneg_right hj hq
          linarith
      rw [hp]
      exact close 2 (by norm_num)
  · intro p hp
    obtain ⟨i, -, j, -, rfl⟩ := (mem p).1 hp
    refine ⟨i + 1, j + 1, by omega, by omega, ?_, ?_⟩
    · rw [← add_mul, ← add_mul]
      push_cast
      exact close _ (by positivity)
    · exact plate_mode hD hm (i + 1) (j + 1)

/-- The program: modulus and density 1, thickness 0.01, Poisson ratio 0.3. -/
example : 0 < plateD 1 0.01 0.3 ∧ (0 : ℝ) < 1 * 0.01 := by
  norm_num [plateD]

/-- A sorted list exists. -/
example (D m : ℝ) : ∃ sorted : List ℝ, sorted.Perm (modalPlate D m) ∧ sorted.Pairwise (· ≤ ·) :=
  ⟨(modalPlate D m).mergeSort (· ≤ ·), List.mergeSort_perm _ _, by
    have := List.pairwise_mergeSort (le := fun a b : ℝ => decide (a ≤ b)) (by simpa using fun a b c => le_trans)
      (by simpa using le_total) (modalPlate D m)
    simpa using this⟩

end GsSA.Oracle
