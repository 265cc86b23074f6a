import Mathlib.Analysis.SpecialFunctions.Pow.Deriv
import Mathlib.Analysis.SpecialFunctions.Pow.NNReal
import Mathlib.Analysis.SpecialFunctions.Log.Deriv
import Mathlib.Topology.Order.IntermediateValue

/-!
# Model of the reference solution of the unit test of the static solvers

`unittests/gsStaticSolver_test.cpp` 301-416: a square is stretched to twice its length; the principal stretch across
the tension and the stress are given by formulas. Real numbers instead of floating point numbers. `math::pow` is the
power of real numbers; integer exponents are written as such.
-/

namespace GsSA.Oracle

/-- `unittests/gsStaticSolver_test.cpp` 360, 374, 388: bulk modulus. -/
noncomputable def bulk (mu nu : ℝ) : ℝ := 2 * mu * (1 + nu) / (3 - 6 * nu)

/-- `unittests/gsStaticSolver_test.cpp` 367: stress, incompressible neo-Hookean material. -/
noncomputable def sanNH (mu l : ℝ) : ℝ := mu * (l * l - 1 / l)

/-- `unittests/gsStaticSolver_test.cpp` 362: stress, compressible neo-Hookean material. -/
noncomputable def sanNHC (mu K l J : ℝ) : ℝ :=
  l * (0.5 * mu * (-(2 * (l ^ 2 + 2 * J / l)) / (3 * J ^ (2 / 3 : ℝ) * l) + 2 * l / J ^ (2 / 3 : ℝ)) +
    0.25 * K * (2 * J ^ 2 / l - 2 / l)) / J

/-- `unittests/gsStaticSolver_test.cpp` 383: stress, incompressible Mooney-Rivlin material. -/
noncomputable def sanMR (c1 c2 mu l : ℝ) : ℝ :=
  -mu * (c2 * l * l + c2 / l + c1) / l + l * (c1 * l * mu + 2 * c2 * mu)

/-- `unittests/gsStaticSolver_test.cpp` 376: stress, compressible Mooney-Rivlin material. -/
noncomputable def sanMRC (c1 c2 mu K l J : ℝ) : ℝ :=
  l * (0.5 * c1 * mu * (-(2 * (l ^ 2 + 2 * J / l)) / (3 * J ^ (2 / 3 : ℝ) * l) + 2 * l / J ^ (2 / 3 : ℝ)) +
    0.5 * c2 * mu * (-(4 * (2 * l * J + J ^ 2 / l ^ 2)) / (3 * J ^ (4 / 3 : ℝ) * l) + 4 / J ^ (1 / 3 : ℝ)) +
    0.25 * K * (2 * J ^ 2 / l - 2 / l)) / J

/-- `unittests/gsStaticSolver_test.cpp` 395: stress, incompressible Ogden material. -/
noncomputable def sanOG (mu1 a1 mu2 a2 mu3 a3 l : ℝ) : ℝ :=
  -mu1 * (1 / l) ^ (0.5 * a1) - mu2 * (1 / l) ^ (0.5 * a2) - mu3 * (1 / l) ^ (0.5 * a3) + mu1 * l ^ a1 + mu2 * l ^ a2 +
    mu3 * l ^ a3

/-- One term of the stress of the compressible Ogden material. -/
noncomputable def termOGC (mu a l J : ℝ) : ℝ :=
  mu * (2 * (l / J ^ (1 / 3 : ℝ)) ^ a * a / (3 * l) - 2 * ((J / l) ^ (0.5 : ℝ) / J ^ (1 / 3 : ℝ)) ^ a * a / (3 * l)) / a

/-- `unittests/gsStaticSolver_test.cpp` 390: stress, compressible Ogden material. -/
noncomputable def sanOGC (mu1 a1 mu2 a2 mu3 a3 K l J : ℝ) : ℝ :=
  1 / J * (l * (termOGC mu1 a1 l J + termOGC mu2 a2 l J + termOGC mu3 a3 l J + 0.25 * K * (2 * J ^ 2 / l - 2 / l)))

/-- `unittests/gsStaticSolver_test.cpp` 337-355: the parameters. -/
noncomputable def mu : ℝ := 1.5e6
noncomputable def mu1 : ℝ := 6.3e5 / 4.225e5 * mu
noncomputable def mu2 : ℝ := 0.012e5 / 4.225e5 * mu
noncomputable def mu3 : ℝ := -0.1e5 / 4.225e5 * mu
noncomputable def ratio : ℝ := 7.0

/-- `unittests/gsStaticSolver_test.cpp` 361, 375, 389: the volume for the stretch 2, by number of the material. -/
noncomputable def volume : ℕ → ℝ
  | 1 => 1.105598565
  | 3 => 1.099905842
  | _ => 1.088778638

/-- `unittests/gsStaticSolver_test.cpp` 335-405 `UAT_analytical`: stretch across the tension and stress; `none` is the
error "Material not treated". -/
noncomputable def analytical (material : ℕ) (compressible : Bool) : Option (ℝ × ℝ) :=
  let nu : ℝ := if compressible then 0.45 else 0.5
  let l : ℝ := 2.0
  let c2 : ℝ := 1.0 / (ratio + 1)
  let c1 : ℝ := 1.0 - c2
  let K := bulk mu nu
  let J := volume material
  match material, compressible with
  | 1, true => some ((J / l) ^ (0.5 : ℝ), sanNHC mu K l J)
  | 1, false => some ((1 / l) ^ (0.5 : ℝ), sanNH mu l)
  | 3, true => some ((J / l) ^ (0.5 : ℝ), sanMRC c1 c2 mu K l J)
  | 3, false => some ((1 / l) ^ (0.5 : ℝ), sanMR c1 c2 mu l)
  | 4, true => some ((J / l) ^ (0.5 : ℝ), sanOGC mu1 1.3 mu2 5.0 mu3 (-2.0) K l J)
  | 4, false => some ((1 / l) ^ (0.5 : ℝ), sanOG mu1 1.3 mu2 5.0 mu3 (-2.0) l)
  | _, _ => none

/-- `unittests/gsStaticSolver_test.cpp` 407-416 `UAT_CHECK` and 301: the checks made for the result of a solver: its
status, the stretch and the stress it gives. `CHECK_CLOSE` accepts differences up to the tolerance. -/
noncomputable def checks (material : ℕ) (compressible : Bool) (success : Bool) (num : ℝ × ℝ) : Option (List Bool) := by
  classical exact (analytical material compressible).map fun ana =>
    [success, decide (|(|num.1 - ana.1|) / ana.1 - 0| ≤ 1e-7)]

end GsSA.Oracle
