import Mathlib.Analysis.SpecialFunctions.Integrals.Basic
import Verif.Oracle.ReferenceProps

/-!
# C148: the stiffnesses are integrals over the thickness
-/

namespace GsSA.Oracle

theorem second_moment (c t : ℝ) : ∫ z in -(t / 2)..t / 2, c * z ^ 2 = c * t ^ 3 / 12 := by
  rw [intervalIntegral.integral_const_mul, integral_pow]
  norm_num
  ring

/-- **C148**: `EA` is the force of a unit stretch on the cross section, `EI` of the modal analysis the moment of a unit
curvature (the stress is `E * z` at the distance `z` from the middle), `D` the moment per width of a unit curvature where
the other direction cannot bend. -/
theorem C148_stiffness (E width thickness nu : ℝ) :
    beamEA E width thickness = ∫ _ in (0 : ℝ)..width, ∫ _ in -(thickness / 2)..thickness / 2, E ∧
    modalEI E width thickness = ∫ _ in (0 : ℝ)..width, ∫ z in -(thickness / 2)..thickness / 2, E * z * z ∧
    plateD E thickness nu = ∫ z in -(thickness / 2)..thickness / 2, E / (1 - nu ^ 2) * z * z := by
  refine ⟨?_, ?_, ?_⟩
  · simp only [intervalIntegral.integral_const, smul_eq_mul, beamEA]
    ring
  · simp only [mul_assoc, ← pow_two, second_moment, intervalIntegral.integral_const, smul_eq_mul]
    rw [modalEI]
    norm_num
    ring
  · simp only [mul_assoc, ← pow_two, second_moment]
    rw [plateD, div_mul_eq_mul_div, div_div, mul_comm 12]

/-- The values of the programs. -/
example : modalEI 1 1 1 = 1 / 12 ∧ beamEA 1 1 1 = 1 ∧ plateD 1 0.01 0.3 = 1e-6 / (12 * 0.91) := by
  norm_num [modalEI, beamEA, plateD]

end GsSA.Oracle
