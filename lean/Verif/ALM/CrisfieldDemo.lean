import Verif.ALM.CrisfieldMore
import Verif.ALM.RealDemo

/-!
# Examples over the real numbers for `CrisfieldMore`
-/

namespace GsSA.ALM.RealDemo

open GsSA

/-- Before the iteration: the increment `(1, 1)` on the sphere of radius 5/3, and a residual of -2. -/
noncomputable def turning : St ℝ ℝ ℝ ℝ :=
  { linStart with DU := 1, DL := 1, dL := 3 / 2, Ut := 1, resVec := -2, fac := some 1 }

theorem turning_run : ∃ u, crIteration lin { linOpts with relax := 1 } turning = (u, .ok ()) ∧
    u.dL = -36 / 25 ∧ u.DU = 39 / 25 ∧ u.DL = -11 / 25 := by
  have q : Real.sqrt 196 = 14 := by
    rw [show (196:ℝ) = 14^2 by norm_num]; exact Real.sqrt_sq (by norm_num)
  norm_num [crIteration, computeUbar, solveSystem, Act.bind_apply, turning, linStart, lin_solve, emit,
    lin_dot, lin_forcing, computeLambdas, crQuad, Quad.disc, disc, Quad.alpha2, Quad.alpha3, loadWeight,
    lambdaDOT, chooseDOT, linOpts, lin_sqrt, q, q81]
  rw [if_neg (by simp)]
  norm_num [lastRoots]

theorem turning_relaxed : ∃ t, crIteration lin { linOpts with relax := 1 / 2 } turning = (t, .ok ()) ∧
    lastRoots t.log = some .real := by
  have q : Real.sqrt 196 = 14 := by
    rw [show (196:ℝ) = 14^2 by norm_num]; exact Real.sqrt_sq (by norm_num)
  norm_num [crIteration, computeUbar, solveSystem, Act.bind_apply, turning, linStart, lin_solve, emit,
    lin_dot, lin_forcing, computeLambdas, crQuad, Quad.disc, disc, Quad.alpha2, Quad.alpha3, loadWeight,
    lambdaDOT, chooseDOT, linOpts, lin_sqrt, q, q81]
  rw [if_neg (by simp)]
  norm_num [lastRoots]

/-- `C36_relax_length`: half of the correction ends inside the sphere. -/
example : ∃ t, crIteration lin { linOpts with relax := 1 / 2 } turning = (t, .ok ()) ∧
    crDistance lin t t.DU t.DL ^ 2 = (5 / 3) ^ 2 - 1 / 4 * (4 : ℝ) := by
  obtain ⟨t, h, hk⟩ := turning_relaxed
  obtain ⟨u, hu, h1, h2, h3⟩ := turning_run
  have q25' : Real.sqrt (25 / 9) = 5 / 3 := by
    rw [show (25 / 9 : ℝ) = (5 / 3) ^ 2 by norm_num]; exact Real.sqrt_sq (by norm_num)
  refine ⟨t, h, ?_⟩
  have hl : turning.len = 5 / 3 := rfl
  rw [C36_relax_length lin_laws h hu (by norm_num [h1, turning, abs_of_neg]) (by simp [hk]) ?_ ?_, hl,
    crDistance_eq, lin_laws.sqrt_sq _ (crForm_nonneg lin_laws _ _ _)]
  · norm_num [crForm, lin_dot, turning, linStart, lin_forcing, loadWeight, h2, h3]
  · rw [hl, crDistance]
    norm_num [crForm, lin_dot, turning, linStart, lin_forcing, loadWeight, lin_sqrt, q25, q9]
  · rw [hl, crDistance, h2, h3]
    norm_num [crForm, lin_dot, turning, linStart, lin_forcing, loadWeight, lin_sqrt, q25, q9]

/-- `C75_first`: the stiffness is 1. -/
example : ∃ p, beginStep lin (riks lin) linStart = (p, .ok ()) ∧ p.DU = p.DL ∧
    lin.geo.norm p.DU = 5 / 3 := by
  have h : ∃ p, beginStep lin (riks lin) linStart = (p, .ok ()) ∧ p.Ut = 1 := by
    simp [beginStep, Act.bind_apply, riks, linStart, usesGuess, rkPredictor, lin_dot,
      assembleFactorize, computeJacobianAt, emit, factorizeMatrix, computeUt, solveSystem,
      unitTangent, nearby, zeroIncrements, scaleByLength, lin_norm,
      lin_forcing, lin_jacobian, lin_factorize, lin_solve]
  obtain ⟨p, h, hUt⟩ := h
  obtain ⟨h1, -, h2⟩ := C75_first (o := linOpts) lin_laws rfl rfl rfl (by norm_num [linStart])
    (Or.inl h)
  refine ⟨p, h, by simpa [hUt] using h1, ?_⟩
  exact (h2 (by simp [hUt, lin_norm])).2

end GsSA.ALM.RealDemo
