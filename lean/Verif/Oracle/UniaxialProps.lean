import Verif.Oracle.Uniaxial

/-!
# C144: the reference solution of the unit test of the static solvers

The strain energies are stated here, independently of the formulas of the test.
-/

namespace GsSA.Oracle

/-- Strain energy of an incompressible Ogden material with the moduli and exponents `m`, by the principal stretches.
The neo-Hookean material has the pair `(μ, 2)`, the Mooney-Rivlin material `(c₁ μ, 2)` and `(-c₂ μ, -2)`. -/
noncomputable def iso (m : List (ℝ × ℝ)) (a b c : ℝ) : ℝ :=
  (m.map fun p => p.1 / p.2 * (a ^ p.2 + b ^ p.2 + c ^ p.2 - 3)).sum

/-- Strain energy of a compressible Ogden material: the one of the isochoric stretches and a volumetric part. -/
noncomputable def energy (m : List (ℝ × ℝ)) (K a b c : ℝ) : ℝ :=
  iso m (a / (a * b * c) ^ (1 / 3 : ℝ)) (b / (a * b * c) ^ (1 / 3 : ℝ)) (c / (a * b * c) ^ (1 / 3 : ℝ)) +
    K / 4 * ((a * b * c) ^ 2 - 1 - 2 * Real.log (a * b * c))

/-- The neo-Hookean material. -/
def neoHooke (μ : ℝ) : List (ℝ × ℝ) := [(μ, 2)]

/-- The Mooney-Rivlin material. -/
def mooneyRivlin (c1 c2 μ : ℝ) : List (ℝ × ℝ) := [(c1 * μ, 2), (-(c2 * μ), -2)]

/-! ## Derivatives of the energy -/

/-- `f` is positive and its logarithmic derivative at `a` is `r / a`. -/
def LogDeriv (f : ℝ → ℝ) (r a : ℝ) : Prop := 0 < f a ∧ HasDerivAt f (f a * r / a) a

theorem LogDeriv.rpow {f : ℝ → ℝ} {r a : ℝ} (h : LogDeriv f r a) (α : ℝ) : LogDeriv (fun x => f x ^ α) (α * r) a := by
  refine ⟨Real.rpow_pos_of_pos h.1 _, ?_⟩
  have h1 := h.2.rpow_const (p := α) (Or.inl h.1.ne')
  refine h1.congr_deriv (Eq.symm ?_)
  rw [Real.rpow_sub_one h.1.ne']
  have := h.1.ne'
  field_simp

theorem LogDeriv.div {f g : ℝ → ℝ} {r s a : ℝ} (hf : LogDeriv f r a) (hg : LogDeriv g s a) :
    LogDeriv (fun x => f x / g x) (r - s) a := by
  refine ⟨div_pos hf.1 hg.1, ?_⟩
  have h1 := hf.2.div hg.2 hg.1.ne'
  refine h1.congr_deriv (Eq.symm ?_)
  have := hg.1.ne'
  by_cases ha : a = 0
  · subst ha
    simp
  field_simp

theorem LogDeriv.const {c a : ℝ} (hc : 0 < c) : LogDeriv (fun _ => c) 0 a := by
  refine ⟨hc, ?_⟩
  simpa using hasDerivAt_const a c

theorem LogDeriv.volume {a b c : ℝ} (ha : 0 < a) (hb : 0 < b) (hc : 0 < c) : LogDeriv (fun x => x * b * c) 1 a := by
  refine ⟨by positivity, ?_⟩
  have h1 := ((hasDerivAt_id a).mul_const b).mul_const c
  refine h1.congr_deriv (Eq.symm ?_)
  field_simp

/-- `λ₁ ∂W/∂λ₁`. -/
noncomputable def traction (m : List (ℝ × ℝ)) (K a b c : ℝ) : ℝ :=
  (m.map fun p => p.1 * (2 * (a / (a * b * c) ^ (1 / 3 : ℝ)) ^ p.2 - (b / (a * b * c) ^ (1 / 3 : ℝ)) ^ p.2 -
    (c / (a * b * c) ^ (1 / 3 : ℝ)) ^ p.2) / 3).sum + K / 2 * ((a * b * c) ^ 2 - 1)

theorem hasDerivAt_energy {m : List (ℝ × ℝ)} (hm : ∀ p ∈ m, p.2 ≠ 0) (K : ℝ) {a b c : ℝ} (ha : 0 < a) (hb : 0 < b)
    (hc : 0 < c) : HasDerivAt (fun x => energy m K x b c) (traction m K a b c / a) a := by
  have hv := LogDeriv.volume ha hb hc
  have hg := hv.rpow (1 / 3)
  have hx : LogDeriv (fun x => x) 1 a := ⟨ha, by simpa [ha.ne'] using hasDerivAt_id' a⟩
  have h1 := hx.div hg
  have h2 := (LogDeriv.const (a := a) hb).div hg
  have h3 := (LogDeriv.const (a := a) hc).div hg
  have hl := hv.2.log hv.1.ne'
  have hvol := (((hv.2.pow 2).sub_const 1).sub (hl.const_mul 2)).const_mul (K / 4)
  have hiso : HasDerivAt (fun x => iso m (x / (x * b * c) ^ (1 / 3 : ℝ)) (b / (x * b * c) ^ (1 / 3 : ℝ))
      (c / (x * b * c) ^ (1 / 3 : ℝ))) ((m.map fun p => p.1 * (2 * (a / (a * b * c) ^ (1 / 3 : ℝ)) ^ p.2 -
        (b / (a * b * c) ^ (1 / 3 : ℝ)) ^ p.2 - (c / (a * b * c) ^ (1 / 3 : ℝ)) ^ p.2) / 3).sum / a) a := by
    clear hvol hl
    unfold iso
    induction m with
    | nil => simpa using hasDerivAt_const a (0 : ℝ)
    | cons p m ih =>
      have ih := ih fun q hq => hm q (List.mem_cons_of_mem _ hq)
      have hp := hm p List.mem_cons_self
      simp only [List.map_cons, List.sum_cons]
      have h4 := ((((h1.rpow p.2).2.add (h2.rpow p.2).2).add (h3.rpow p.2).2).sub_const 3).const_mul (p.1 / p.2)
      have h5 := h4.add ih
      refine h5.congr_deriv (Eq.symm ?_)
      have := ha.ne'
      field_simp
      ring
  have h6 := hiso.add hvol
  refine h6.congr_deriv (Eq.symm ?_)
  unfold traction
  have h7 : a * b * c ≠ 0 := by positivity
  have := ha.ne'
  have := hb.ne'
  have := hc.ne'
  rw [add_div]
  congr 1
  field_simp
  push_cast
  ring

theorem energy_swap (m : List (ℝ × ℝ)) (K a b c : ℝ) : energy m K a b c = energy m K b a c := by
  unfold energy iso
  rw [mul_comm a b]
  congr 2
  refine List.map_congr_left fun p _ => ?_
  ring

/-! ## Uniaxial tension -/

/-- The stretch across the tension, if the volume is `J`. -/
theorem cross_volume {l J : ℝ} (hl : 0 < l) (hJ : 0 < J) :
    0 < (J / l) ^ (0.5 : ℝ) ∧ l * (J / l) ^ (0.5 : ℝ) * (J / l) ^ (0.5 : ℝ) = J := by
  have h0 : 0 < J / l := by positivity
  refine ⟨Real.rpow_pos_of_pos h0 _, ?_⟩
  rw [mul_assoc, ← Real.rpow_add h0]
  norm_num
  field_simp

/-- The traction at the sides is free if this vanishes. -/
noncomputable def lateral (m : List (ℝ × ℝ)) (K l J : ℝ) : ℝ :=
  (m.map fun p => p.1 * (((J / l) ^ (0.5 : ℝ) / J ^ (1 / 3 : ℝ)) ^ p.2 - (l / J ^ (1 / 3 : ℝ)) ^ p.2) / 3).sum +
    K / 2 * (J ^ 2 - 1)

/-- The Cauchy stress in uniaxial tension. -/
noncomputable def cauchy (m : List (ℝ × ℝ)) (K l J : ℝ) : ℝ :=
  ((m.map fun p => p.1 * (2 * ((l / J ^ (1 / 3 : ℝ)) ^ p.2 - ((J / l) ^ (0.5 : ℝ) / J ^ (1 / 3 : ℝ)) ^ p.2)) / 3).sum +
    K / 2 * (J ^ 2 - 1)) / J

theorem tension {m : List (ℝ × ℝ)} (hm : ∀ p ∈ m, p.2 ≠ 0) (K : ℝ) {l J : ℝ} (hl : 0 < l) (hJ : 0 < J) :
    HasDerivAt (fun x => energy m K x ((J / l) ^ (0.5 : ℝ)) ((J / l) ^ (0.5 : ℝ))) (J / l * cauchy m K l J) l ∧
      HasDerivAt (fun x => energy m K l x ((J / l) ^ (0.5 : ℝ))) (lateral m K l J / (J / l) ^ (0.5 : ℝ))
        ((J / l) ^ (0.5 : ℝ)) := by
  obtain ⟨h1, h2⟩ := cross_volume hl hJ
  constructor
  · have h3 := hasDerivAt_energy hm K hl h1 h1
    refine h3.congr_deriv (Eq.symm ?_)
    unfold traction cauchy
    rw [h2]
    have e1 : ∀ p : ℝ × ℝ, p.1 * (2 * (l / J ^ (1 / 3 : ℝ)) ^ p.2 - ((J / l) ^ (0.5 : ℝ) / J ^ (1 / 3 : ℝ)) ^ p.2 -
        ((J / l) ^ (0.5 : ℝ) / J ^ (1 / 3 : ℝ)) ^ p.2) / 3 =
        p.1 * (2 * ((l / J ^ (1 / 3 : ℝ)) ^ p.2 - ((J / l) ^ (0.5 : ℝ) / J ^ (1 / 3 : ℝ)) ^ p.2)) / 3 := fun p => by ring
    simp only [e1]
    generalize (m.map fun p => p.1 * (2 * ((l / J ^ (1 / 3 : ℝ)) ^ p.2 -
      ((J / l) ^ (0.5 : ℝ) / J ^ (1 / 3 : ℝ)) ^ p.2)) / 3).sum = S
    field_simp
  · have h3 := hasDerivAt_energy hm K h1 hl h1
    have e2 : (fun x => energy m K l x ((J / l) ^ (0.5 : ℝ))) = fun x => energy m K x l ((J / l) ^ (0.5 : ℝ)) :=
      funext fun x => energy_swap _ _ _ _ _
    rw [e2]
    convert h3 using 2
    unfold traction lateral
    rw [mul_comm _ l, h2]
    congr 2
    refine List.map_congr_left fun p _ => ?_
    ring

/-- **C144**: the stress formulas of the test for compressible materials are the Cauchy stresses `λ / J ∂W/∂λ₁` of the
neo-Hookean, the Mooney-Rivlin and the Ogden material, for all moduli, stretches and volumes. -/
theorem C144_compressible {l J : ℝ} (hl : 0 < l) (hJ : 0 < J) (K : ℝ) :
    (∀ μ, HasDerivAt (fun x => energy (neoHooke μ) K x ((J / l) ^ (0.5 : ℝ)) ((J / l) ^ (0.5 : ℝ)))
      (J / l * sanNHC μ K l J) l) ∧
    (∀ c1 c2 μ, HasDerivAt (fun x => energy (mooneyRivlin c1 c2 μ) K x ((J / l) ^ (0.5 : ℝ)) ((J / l) ^ (0.5 : ℝ)))
      (J / l * sanMRC c1 c2 μ K l J) l) ∧
    ∀ m1 a1 m2 a2 m3 a3, a1 ≠ 0 → a2 ≠ 0 → a3 ≠ 0 →
      HasDerivAt (fun x => energy [(m1, a1), (m2, a2), (m3, a3)] K x ((J / l) ^ (0.5 : ℝ)) ((J / l) ^ (0.5 : ℝ)))
        (J / l * sanOGC m1 a1 m2 a2 m3 a3 K l J) l := by
  have hA : (l / J ^ (1 / 3 : ℝ)) ^ (2 : ℝ) = l ^ 2 / J ^ (2 / 3 : ℝ) := by
    rw [Real.div_rpow hl.le (by positivity), ← Real.rpow_mul hJ.le, Real.rpow_two]
    norm_num
  have hB : ((J / l) ^ (0.5 : ℝ) / J ^ (1 / 3 : ℝ)) ^ (2 : ℝ) = J / l / J ^ (2 / 3 : ℝ) := by
    rw [Real.div_rpow (by positivity) (by positivity), ← Real.rpow_mul hJ.le, ← Real.rpow_mul (by positivity)]
    norm_num
  have hp1 : 0 < J ^ (1 / 3 : ℝ) := by positivity
  have e2 : J ^ (2 / 3 : ℝ) = (J ^ (1 / 3 : ℝ)) ^ 2 := by
    rw [← Real.rpow_natCast, ← Real.rpow_mul hJ.le]
    norm_num
  have e4 : J ^ (4 / 3 : ℝ) = (J ^ (1 / 3 : ℝ)) ^ 4 := by
    rw [← Real.rpow_natCast, ← Real.rpow_mul hJ.le]
    norm_num
  have e3 : J = (J ^ (1 / 3 : ℝ)) ^ 3 := by
    rw [← Real.rpow_natCast, ← Real.rpow_mul hJ.le]
    norm_num
  have hA' : (l / J ^ (1 / 3 : ℝ)) ^ (-2 : ℝ) = J ^ (2 / 3 : ℝ) / l ^ 2 := by
    rw [Real.rpow_neg (by positivity), hA, inv_div]
  have hB' : ((J / l) ^ (0.5 : ℝ) / J ^ (1 / 3 : ℝ)) ^ (-2 : ℝ) = l * J ^ (2 / 3 : ℝ) / J := by
    rw [Real.rpow_neg (by positivity), hB]
    field_simp
  refine ⟨fun μ => ?_, fun c1 c2 μ => ?_, fun m1 a1 m2 a2 m3 a3 h1 h2 h3 => ?_⟩
  · have h := (tension (m := neoHooke μ) (by simp [neoHooke]) K hl hJ).1
    convert h using 2
    simp only [sanNHC, cauchy, neoHooke, List.map_cons, List.map_nil, List.sum_cons, List.sum_nil, hA, hB]
    rw [e2]
    field_simp
    ring
  · have h := (tension (m := mooneyRivlin c1 c2 μ) (by simp [mooneyRivlin]) K hl hJ).1
    convert h using 2
    simp only [sanMRC, cauchy, mooneyRivlin, List.map_cons, List.map_nil, List.sum_cons, List.sum_nil, hA, hB, hA', hB']
    rw [e2, e4]
    set q := J ^ (1 / 3 : ℝ) with hq
    clear_value q
    subst e3
    field_simp
    ring
  · have h := (tension (m := [(m1, a1), (m2, a2), (m3, a3)]) (by simp [h1, h2, h3]) K hl hJ).1
    convert h using 2
    simp only [sanOGC, termOGC, cauchy, List.map_cons, List.map_nil, List.sum_cons, List.sum_nil]
    field_simp
    ring

/-- **C144**: the stress formulas for incompressible materials are the Cauchy stresses `λ dW/dλ` along the incompressible
uniaxial stretches. -/
theorem C144_incompressible {l : ℝ} (hl : 0 < l) :
    (∀ μ, HasDerivAt (fun x => iso (neoHooke μ) x ((1 / x) ^ (0.5 : ℝ)) ((1 / x) ^ (0.5 : ℝ))) (sanNH μ l / l) l) ∧
    (∀ c1 c2 μ, HasDerivAt (fun x => iso (mooneyRivlin c1 c2 μ) x ((1 / x) ^ (0.5 : ℝ)) ((1 / x) ^ (0.5 : ℝ)))
      (sanMR c1 c2 μ l / l) l) ∧
    ∀ m1 a1 m2 a2 m3 a3, a1 ≠ 0 → a2 ≠ 0 → a3 ≠ 0 →
      HasDerivAt (fun x => iso [(m1, a1), (m2, a2), (m3, a3)] x ((1 / x) ^ (0.5 : ℝ)) ((1 / x) ^ (0.5 : ℝ)))
        (sanOG m1 a1 m2 a2 m3 a3 l / l) l := by
  have hx : LogDeriv (fun x => x) 1 l := ⟨hl, by simpa [hl.ne'] using hasDerivAt_id' l⟩
  have hc := ((LogDeriv.const (a := l) one_pos).div hx).rpow 0.5
  have key : ∀ m : List (ℝ × ℝ), (∀ p ∈ m, p.2 ≠ 0) →
      HasDerivAt (fun x => iso m x ((1 / x) ^ (0.5 : ℝ)) ((1 / x) ^ (0.5 : ℝ)))
        ((m.map fun p => p.1 * (l ^ p.2 - (1 / l) ^ (0.5 * p.2))).sum / l) l := by
    intro m hm
    unfold iso
    induction m with
    | nil => simpa using hasDerivAt_const l (0 : ℝ)
    | cons p m ih =>
      have ih := ih fun q hq => hm q (List.mem_cons_of_mem _ hq)
      have hp := hm p List.mem_cons_self
      simp only [List.map_cons, List.sum_cons]
      have h4 := ((((hx.rpow p.2).2.add (hc.rpow p.2).2).add (hc.rpow p.2).2).sub_const 3).const_mul (p.1 / p.2)
      have h5 := h4.add ih
      refine h5.congr_deriv (Eq.symm ?_)
      have e1 : ((1 / l) ^ (0.5 : ℝ)) ^ p.2 = (1 / l) ^ (0.5 * p.2) := by
        rw [← Real.rpow_mul (by positivity)]
      simp only [e1]
      have := hl.ne'
      field_simp
      ring
  have h1 : (1 / l) ^ (0.5 * 2 : ℝ) = 1 / l := by norm_num
  have h2 : (1 / l) ^ (0.5 * -2 : ℝ) = l := by
    rw [show (0.5 * -2 : ℝ) = -1 by norm_num, Real.rpow_neg (by positivity), Real.rpow_one, one_div, inv_inv]
  refine ⟨fun μ => ?_, fun c1 c2 μ => ?_, fun m1 a1 m2 a2 m3 a3 h1 h2 h3 => ?_⟩
  · have h := key (neoHooke μ) (by simp [neoHooke])
    convert h using 2
    simp only [sanNH, neoHooke, List.map_cons, List.map_nil, List.sum_cons, List.sum_nil, h1, Real.rpow_two]
    ring
  · have h := key (mooneyRivlin c1 c2 μ) (by simp [mooneyRivlin])
    convert h using 2
    have h3 : l ^ (-2 : ℝ) = 1 / l ^ 2 := by
      rw [Real.rpow_neg hl.le, Real.rpow_two, one_div]
    simp only [sanMR, mooneyRivlin, List.map_cons, List.map_nil, List.sum_cons, List.sum_nil, h1, h2, h3, Real.rpow_two]
    field_simp
    ring
  · have h := key [(m1, a1), (m2, a2), (m3, a3)] (by simp [h1, h2, h3])
    convert h using 2
    simp only [sanOG, List.map_cons, List.map_nil, List.sum_cons, List.sum_nil]
    ring

/-! ## The volumes -/

/-- The materials of the test by their number. -/
noncomputable def moduli : ℕ → List (ℝ × ℝ)
  | 1 => neoHooke mu
  | 3 => mooneyRivlin (1 - 1 / (ratio + 1)) (1 / (ratio + 1)) mu
  | _ => [(mu1, 1.3), (mu2, 5), (mu3, -2)]

theorem lateral_at {z : ℝ} (hz : 0 < z) (m : List (ℝ × ℝ)) (K : ℝ) :
    lateral m K 2 (8 * z ^ 60) = (m.map fun p => p.1 * (z ^ (10 * p.2) - z ^ (-20 * p.2)) / 3).sum +
      K / 2 * (64 * z ^ 120 - 1) := by
  have h8 : (8 : ℝ) ^ (1 / 3 : ℝ) = 2 := by
    rw [show (8 : ℝ) = 2 ^ (3 : ℝ) by norm_num, ← Real.rpow_mul (by norm_num)]
    norm_num
  have e1 : (8 * z ^ 60) ^ (1 / 3 : ℝ) = 2 * z ^ (20 : ℝ) := by
    rw [Real.mul_rpow (by norm_num) (by positivity), h8, ← Real.rpow_natCast, ← Real.rpow_mul hz.le]
    norm_num
  have e2 : (8 * z ^ 60 / 2) ^ (0.5 : ℝ) = 2 * z ^ (30 : ℝ) := by
    have : 8 * z ^ 60 / 2 = (2 * z ^ 30) ^ (2 : ℝ) := by
      rw [Real.rpow_two]
      ring
    rw [this, ← Real.rpow_mul (by positivity)]
    norm_num
  have e3 : 2 * z ^ (30 : ℝ) / (2 * z ^ (20 : ℝ)) = z ^ (10 : ℝ) := by
    rw [mul_div_mul_left _ _ two_ne_zero, ← Real.rpow_sub hz]
    norm_num
  have e4 : 2 / (2 * z ^ (20 : ℝ)) = z ^ (-20 : ℝ) := by
    rw [Real.rpow_neg hz.le]
    field_simp
  unfold lateral
  rw [e1, e2, e3, e4]
  congr 1
  · congr 1
    refine List.map_congr_left fun p _ => ?_
    rw [← Real.rpow_mul hz.le, ← Real.rpow_mul hz.le]
  · ring

/-- A root from a change of sign. -/
theorem exists_root {f : ℝ → ℝ} (hf : ContinuousOn f (Set.Ioi 0)) {a b v ε : ℝ} (ha : 0 < a) (hab : a ≤ b) (h1 : f a ≤ 0)
    (h2 : 0 ≤ f b) (h3 : v - ε ≤ 8 * a ^ 60) (h4 : 8 * b ^ 60 ≤ v + ε) :
    ∃ z, 0 < z ∧ f z = 0 ∧ |8 * z ^ 60 - v| ≤ ε := by
  obtain ⟨z, hz, hfz⟩ := intermediate_value_Icc hab (hf.mono fun x hx => lt_of_lt_of_le ha hx.1) ⟨h1, h2⟩
  refine ⟨z, lt_of_lt_of_le ha hz.1, hfz, ?_⟩
  have p1 := pow_le_pow_left₀ ha.le hz.1 60
  have p2 := pow_le_pow_left₀ (ha.le.trans hz.1) hz.2 60
  rw [abs_le]
  constructor <;> linarith

/-- **C144**: the volumes of the test are right. With them, up to `2e-10`, the sides of the compressible square stretched to
the double length are free of traction. -/
theorem C144_volume {material : ℕ} (hm : material = 1 ∨ material = 3 ∨ material = 4) :
    ∃ J, 0 < J ∧ |J - volume material| ≤ 2e-10 ∧
      HasDerivAt (fun x => energy (moduli material) (bulk mu 0.45) 2 x ((J / 2) ^ (0.5 : ℝ))) 0 ((J / 2) ^ (0.5 : ℝ)) := by
  have hp : ∀ p ∈ moduli material, p.2 ≠ 0 := by
    rcases hm with rfl | rfl | rfl <;> simp [moduli, neoHooke, mooneyRivlin]
    norm_num
  suffices h : ∃ z, 0 < z ∧ lateral (moduli material) (bulk mu 0.45) 2 (8 * z ^ 60) = 0 ∧
      |8 * z ^ 60 - volume material| ≤ 2e-10 by
    obtain ⟨z, h1, h2, h3⟩ := h
    have hJ : 0 < 8 * z ^ 60 := by positivity
    refine ⟨8 * z ^ 60, hJ, h3, ?_⟩
    have h4 := (tension hp (bulk mu 0.45) two_pos hJ).2
    rw [h2, zero_div] at h4
    exact h4
  have hK : bulk mu 0.45 = 14500000 := by
    unfold bulk mu
    norm_num
  rw [hK]
  rcases hm with rfl | rfl | rfl
  · have e : ∀ z : ℝ, 0 < z → lateral (moduli 1) 14500000 2 (8 * z ^ 60) =
        500000 * (z ^ 20 - 1 / z ^ 40) + 7250000 * (64 * z ^ 120 - 1) := by
      intro z hz
      rw [lateral_at hz]
      simp only [moduli, neoHooke, mu, List.map_cons, List.map_nil, List.sum_cons, List.sum_nil]
      rw [show (10 * 2 : ℝ) = (20 : ℕ) by norm_num, show (-20 * 2 : ℝ) = -(40 : ℕ) by norm_num, Real.rpow_neg hz.le,
        Real.rpow_natCast, Real.rpow_natCast]
      ring
    have key := exists_root (a := 9675538038315 / 10 ^ 13) (b := 9675538038316 / 10 ^ 13)
      (f := fun z => 500000 * (z ^ 20 - 1 / z ^ 40) + 7250000 * (64 * z ^ 120 - 1)) (v := volume 1) (ε := 2e-10) ?_
      (by norm_num) (by norm_num) (by norm_num) (by norm_num) (by norm_num [volume]) (by norm_num [volume])
    · obtain ⟨z, h1, h2, h3⟩ := key
      exact ⟨z, h1, (e z h1).trans h2, h3⟩
    · exact ContinuousOn.add (by fun_prop (disch := intro x hx; have := Set.mem_Ioi.1 hx; positivity)) (by fun_prop)
  · have e : ∀ z : ℝ, 0 < z → lateral (moduli 3) 14500000 2 (8 * z ^ 60) =
        437500 * (z ^ 20 - 1 / z ^ 40) + 62500 * (z ^ 40 - 1 / z ^ 20) + 7250000 * (64 * z ^ 120 - 1) := by
      intro z hz
      rw [lateral_at hz]
      have hr : 1 / (ratio + 1) = 1 / 8 := by
        unfold ratio
        norm_num
      simp only [moduli, mooneyRivlin, hr, mu, List.map_cons, List.map_nil, List.sum_cons, List.sum_nil]
      rw [show (10 * 2 : ℝ) = (20 : ℕ) by norm_num, show (-20 * 2 : ℝ) = -(40 : ℕ) by norm_num, show (10 * -2 : ℝ) = -(20 : ℕ) by norm_num,
        show (-20 * -2 : ℝ) = (40 : ℕ) by norm_num, Real.rpow_neg hz.le, Real.rpow_neg hz.le,
        Real.rpow_natCast, Real.rpow_natCast]
      ring
    have key := exists_root (a := 9674705607292 / 10 ^ 13) (b := 9674705607293 / 10 ^ 13)
      (f := fun z => 437500 * (z ^ 20 - 1 / z ^ 40) + 62500 * (z ^ 40 - 1 / z ^ 20) + 7250000 * (64 * z ^ 120 - 1))
      (v := volume 3) (ε := 2e-10) ?_
      (by norm_num) (by norm_num) (by norm_num) (by norm_num) (by norm_num [volume]) (by norm_num [volume])
    · obtain ⟨z, h1, h2, h3⟩ := key
      exact ⟨z, h1, (e z h1).trans h2, h3⟩
    · exact ContinuousOn.add (by fun_prop (disch := intro x hx; have := Set.mem_Ioi.1 hx; positivity)) (by fun_prop)
  · have e : ∀ z : ℝ, 0 < z → lateral (moduli 4) 14500000 2 (8 * z ^ 60) =
        mu1 / 3 * (z ^ 13 - 1 / z ^ 26) + mu2 / 3 * (z ^ 50 - 1 / z ^ 100) - mu3 / 3 * (z ^ 40 - 1 / z ^ 20) +
          7250000 * (64 * z ^ 120 - 1) := by
      intro z hz
      rw [lateral_at hz]
      simp only [moduli, List.map_cons, List.map_nil, List.sum_cons, List.sum_nil]
      rw [show (10 * 1.3 : ℝ) = (13 : ℕ) by norm_num, show (-20 * 1.3 : ℝ) = -(26 : ℕ) by norm_num,
        show (10 * 5 : ℝ) = (50 : ℕ) by norm_num, show (-20 * 5 : ℝ) = -(100 : ℕ) by norm_num, show (10 * -2 : ℝ) = -(20 : ℕ) by norm_num,
        show (-20 * -2 : ℝ) = (40 : ℕ) by norm_num]
      simp only [Real.rpow_neg hz.le, Real.rpow_natCast]
      ring
    have key := exists_root (a := 9673066201965 / 10 ^ 13) (b := 9673066201966 / 10 ^ 13)
      (f := fun z => mu1 / 3 * (z ^ 13 - 1 / z ^ 26) + mu2 / 3 * (z ^ 50 - 1 / z ^ 100) - mu3 / 3 * (z ^ 40 - 1 / z ^ 20) +
          7250000 * (64 * z ^ 120 - 1)) (v := volume 4) (ε := 2e-10) ?_
      (by norm_num) (by norm_num) (by norm_num [mu1, mu2, mu3, mu]) (by norm_num [mu1, mu2, mu3, mu]) (by norm_num [volume]) (by norm_num [volume])
    · obtain ⟨z, h1, h2, h3⟩ := key
      exact ⟨z, h1, (e z h1).trans h2, h3⟩
    · exact ContinuousOn.add (by fun_prop (disch := intro x hx; have := Set.mem_Ioi.1 hx; positivity)) (by fun_prop)

/-- **C144**: the moduli of the Ogden material belong to the shear modulus of the others. -/
theorem C144_shear : mu1 * 1.3 + mu2 * 5 + mu3 * (-2) = 2 * mu := by
  unfold mu1 mu2 mu3 mu
  norm_num

/-- **C144**: the pair `UAT_analytical` returns is the stretch across the tension and the Cauchy stress of the material with
this number, for the stretch 2 and the volume of the test. -/
theorem C144_reference {material : ℕ} (hm : material = 1 ∨ material = 3 ∨ material = 4) {L S : ℝ} :
    (analytical material false = some (L, S) → L = (1 / 2) ^ (0.5 : ℝ) ∧
      HasDerivAt (fun x => iso (moduli material) x ((1 / x) ^ (0.5 : ℝ)) ((1 / x) ^ (0.5 : ℝ))) (S / 2) 2) ∧
    (analytical material true = some (L, S) → L = (volume material / 2) ^ (0.5 : ℝ) ∧
      HasDerivAt (fun x => energy (moduli material) (bulk mu 0.45) x L L) (volume material / 2 * S) 2) := by
  have h2 : (2.0 : ℝ) = 2 := by norm_num
  have h1 : (1.0 : ℝ) = 1 := by norm_num
  have h5 : (5.0 : ℝ) = 5 := by norm_num
  obtain ⟨i1, i3, i4⟩ := C144_incompressible (l := 2) two_pos
  have hv : 0 < volume material := by
    rcases hm with rfl | rfl | rfl <;> norm_num [volume]
  obtain ⟨c1, c3, c4⟩ := C144_compressible (l := 2) two_pos hv (bulk mu 0.45)
  constructor
  · intro h
    rcases hm with rfl | rfl | rfl <;> simp only [analytical, h1, h2, h5, Option.some.injEq, Prod.mk.injEq] at h <;>
      obtain ⟨rfl, rfl⟩ := h
    · exact ⟨rfl, i1 mu⟩
    · exact ⟨rfl, i3 _ _ mu⟩
    · exact ⟨rfl, i4 _ _ _ _ _ _ (by norm_num) (by norm_num) (by norm_num)⟩
  · intro h
    rcases hm with rfl | rfl | rfl <;> simp only [analytical, h1, h2, h5, if_true, Option.some.injEq, Prod.mk.injEq] at h <;>
      obtain ⟨rfl, rfl⟩ := h
    · exact ⟨rfl, c1 mu⟩
    · exact ⟨rfl, c3 _ _ mu⟩
    · exact ⟨rfl, c4 _ _ _ _ _ _ (by norm_num) (by norm_num) (by norm_num)⟩

/-- `C144_reference`: the test has a reference for the six cases. -/
example : ∀ material ∈ [1, 3, 4], ∀ c, (analytical material c).isSome = true := by
  intro m hm c
  simp only [List.mem_cons, List.not_mem_nil, or_false] at hm
  rcases hm with rfl | rfl | rfl <;> cases c <;> rfl

/-! ## What the test checks -/

/-- **C144**: a result that passes the test has the stretch of the exact solution up to a relative error of `1e-7`, or
`1.1e-7` for compressible materials, and the solver has reported success. -/
theorem C144_passes_incompressible {material : ℕ} (hm : material = 1 ∨ material = 3 ∨ material = 4) {success : Bool}
    {num : ℝ × ℝ} (h : checks material false success num = some [true, true]) :
    success = true ∧ |num.1 - (1 / 2) ^ (0.5 : ℝ)| ≤ 1e-7 * (1 / 2) ^ (0.5 : ℝ) := by
  have key : ∃ S, analytical material false = some ((1 / 2) ^ (0.5 : ℝ), S) := by
    rcases hm with rfl | rfl | rfl
    · exact ⟨_, by simp only [analytical, show (2.0 : ℝ) = 2 by norm_num]; rfl⟩
    · exact ⟨_, by simp only [analytical, show (2.0 : ℝ) = 2 by norm_num]; rfl⟩
    · exact ⟨_, by simp only [analytical, show (2.0 : ℝ) = 2 by norm_num]; rfl⟩
  obtain ⟨S, hS⟩ := key
  have hpos : (0 : ℝ) < (1 / 2) ^ (0.5 : ℝ) := by positivity
  simp only [checks, hS, Option.map_some, Option.some.injEq, List.cons.injEq, decide_eq_true_eq, and_true, sub_zero] at h
  refine ⟨h.1, ?_⟩
  have h2 := h.2
  rw [abs_div, abs_abs, abs_of_pos hpos, div_le_iff₀ hpos] at h2
  exact h2

/-- **C144**: the same for compressible materials, with the exact volume: the sides of a square with the stretches `2` and
`(J / 2) ^ 0.5` are free of traction, and the result is close to this stretch. -/
theorem C144_passes_compressible {material : ℕ} (hm : material = 1 ∨ material = 3 ∨ material = 4) {success : Bool}
    {num : ℝ × ℝ} (h : checks material true success num = some [true, true]) :
    success = true ∧ ∃ J, 0 < J ∧
      HasDerivAt (fun x => energy (moduli material) (bulk mu 0.45) 2 x ((J / 2) ^ (0.5 : ℝ))) 0 ((J / 2) ^ (0.5 : ℝ)) ∧
      |num.1 - (J / 2) ^ (0.5 : ℝ)| ≤ 1.1e-7 * (J / 2) ^ (0.5 : ℝ) := by
  have key : ∃ S, analytical material true = some ((volume material / 2) ^ (0.5 : ℝ), S) := by
    rcases hm with rfl | rfl | rfl
    · exact ⟨_, by simp only [analytical, show (2.0 : ℝ) = 2 by norm_num]; rfl⟩
    · exact ⟨_, by simp only [analytical, show (2.0 : ℝ) = 2 by norm_num]; rfl⟩
    · exact ⟨_, by simp only [analytical, show (2.0 : ℝ) = 2 by norm_num]; rfl⟩
  have hv : 1 ≤ volume material := by
    rcases hm with rfl | rfl | rfl <;> norm_num [volume]
  obtain ⟨S, hS⟩ := key
  obtain ⟨J, hJ, h3, h4⟩ := C144_volume hm
  simp only [checks, hS, Option.map_some, Option.some.injEq, List.cons.injEq, decide_eq_true_eq, and_true, sub_zero] at h
  refine ⟨h.1, J, hJ, h4, ?_⟩
  have h2 := h.2
  have q : ∀ x : ℝ, 0 ≤ x → x ^ (0.5 : ℝ) = Real.sqrt x := fun x _ => by rw [Real.sqrt_eq_rpow]; norm_num
  rw [q _ (by positivity)] at h2 ⊢
  have hb := Real.sqrt_pos.2 (show 0 < volume material / 2 by positivity)
  have ha := Real.sqrt_pos.2 (show 0 < J / 2 by positivity)
  have hb2 := Real.mul_self_sqrt (show 0 ≤ volume material / 2 by positivity)
  have ha2 := Real.mul_self_sqrt (show 0 ≤ J / 2 by positivity)
  set a := Real.sqrt (J / 2)
  set b := Real.sqrt (volume material / 2)
  rw [abs_div, abs_abs, abs_of_pos hb, div_le_iff₀ hb] at h2
  have hb7 : 0.7 ≤ b := by nlinarith
  have hab : |a - b| * (a + b) ≤ 1e-10 := by
    rw [← abs_of_pos (add_pos ha hb), ← abs_mul, show (a - b) * (a + b) = (J - volume material) / 2 by linarith, abs_div]
    norm_num at h3 ⊢
    linarith
  have hab' : |a - b| ≤ 1.5e-10 := by
    have := mul_le_mul_of_nonneg_left (show 0.7 ≤ a + b by linarith) (abs_nonneg (a - b))
    norm_num at *
    linarith
  have tri : |num.1 - a| ≤ |num.1 - b| + |a - b| := by
    rw [abs_sub_comm a b]
    exact abs_sub_le _ _ _
  have hab2 := abs_le.1 hab'
  norm_num at *
  linarith

/-- **C144** violated: the stress, computed from the forces at the boundary, is never compared with its reference. Any
stress passes. -/
theorem C144_violated_stress (material : ℕ) (compressible success : Bool) (L S S' : ℝ) :
    checks material compressible success (L, S) = checks material compressible success (L, S') := rfl

/-- Something passes: the reference solution itself. -/
example : checks 1 false true ((1 / 2) ^ (0.5 : ℝ), 0) = some [true, true] := by
  have hpos : (0 : ℝ) < (1 / 2) ^ (0.5 : ℝ) := by positivity
  simp only [checks, analytical, show (2.0 : ℝ) = 2 by norm_num, Option.map_some, sub_self, abs_zero, zero_div,
    Option.some.injEq, List.cons.injEq, decide_eq_true_eq, and_true, true_and]
  norm_num

/-- The hypotheses of `C144_compressible` for the numbers of the test. -/
example : HasDerivAt (fun x => energy (neoHooke mu) (bulk mu 0.45) x ((volume 1 / 2) ^ (0.5 : ℝ)) ((volume 1 / 2) ^ (0.5 : ℝ)))
    (volume 1 / 2 * sanNHC mu (bulk mu 0.45) 2 (volume 1)) 2 :=
  (C144_compressible two_pos (by norm_num [volume]) _).1 _

end GsSA.Oracle
