import Mathlib.Analysis.SpecialFunctions.Trigonometric.Basic
import Verif.Oracle.UniaxialProps

/-!
# Model of the reference solutions in the programs

The stresses of `benchmarks/benchmark_UniaxialTension.cpp`, the manufactured solution of
`examples/example_DynamicBeamNL.cpp` and the frequencies of `examples/gsThinShell_Modal.cpp`. Real numbers instead of
floating point numbers; `sprintf` with `%e`, which keeps seven digits, is left out.
-/

namespace GsSA.Oracle

/-- `San`, `benchmark_UniaxialTension.cpp` 351-371; the constants are those of the unit test (88, 101, 157-162), the
formulas of the cases 3 and 4 too. -/
noncomputable def uatSan (material : ℕ) (compressible : Bool) (l : ℝ) : ℝ :=
  let c2 := 1.0 / (ratio + 1)
  let c1 := 1.0 - c2
  if material = 1 ∧ compressible = false then mu * (l ^ 2 - 1 / l)
  else if material = 3 ∧ compressible = false then sanMR c1 c2 mu l
  else if material = 4 ∧ compressible = false then sanOG mu1 1.3 mu2 5.0 mu3 (-2.0) l
  else 0

/-- `S` and `San` of a step, `benchmark_UniaxialTension.cpp` 349-371: load and principal stretches given. -/
noncomputable def uatRow (material : ℕ) (compressible : Bool) (L : ℝ) (lambdas : ℕ → ℝ) : ℝ × ℝ :=
  (L / 1e-3 / lambdas 0 / lambdas 2, uatSan material compressible (lambdas 0))

/-- `EI`, `example_DynamicBeamNL.cpp` 58. -/
noncomputable def beamEI (E width thickness : ℝ) : ℝ := 1.0 / 12.0 * (width * (thickness * 2) ^ 3) * E

/-- `EA`, `example_DynamicBeamNL.cpp` 57. -/
noncomputable def beamEA (E width thickness : ℝ) : ℝ := E * (thickness * width)

/-- `w_an` and `uiniz`, `example_DynamicBeamNL.cpp` 146 and 330. -/
noncomputable def beamW (load EI len omega time x : ℝ) : ℝ :=
  load * x / (24 * EI) * (len ^ 3 - 2 * len * x ^ 2 + x ^ 3) * Real.cos (omega * Real.pi * time)

/-- `ainiz`, `example_DynamicBeamNL.cpp` 156, at the time 0. -/
noncomputable def beamAcc (load EI len omega time x : ℝ) : ℝ :=
  -load * x / (24 * EI) * (len ^ 3 - 2 * len * x ^ 2 + x ^ 3) * (omega * Real.pi) ^ 2 *
    Real.cos (omega * Real.pi * time)

/-- `traction`, `example_DynamicBeamNL.cpp` 264. -/
noncomputable def beamTraction (EA load EI len omega time x : ℝ) : ℝ :=
  EA * load ^ 2 * Real.cos (omega * Real.pi * time) ^ 2 * (len ^ 3 - 6 * len * x ^ 2 + 4 * x ^ 3) * x * (len - x) /
    (48 * EI ^ 2)

/-- `pressure`, `example_DynamicBeamNL.cpp` 269-270; `m` is `Density*Area`. -/
noncomputable def beamPressure (EA m load EI len omega time x : ℝ) : ℝ :=
  -load * (-(1 / 32) * EA * load ^ 2 * x * (len - x) * (len - 2 * x) ^ 2 * (len ^ 2 + 2 * len * x - 2 * x ^ 2) ^ 2 *
      Real.cos (omega * Real.pi * time) ^ 2 +
    EI ^ 2 * (m * len ^ 3 * Real.pi ^ 2 * omega ^ 2 * x - 2 * m * len * Real.pi ^ 2 * omega ^ 2 * x ^ 3 +
      m * Real.pi ^ 2 * omega ^ 2 * x ^ 4 - 24 * EI)) * Real.cos (omega * Real.pi * time) / (24 * EI ^ 3)

/-- `tend`, `example_DynamicBeamNL.cpp` 97. -/
noncomputable def beamEnd (omega periods : ℝ) : ℝ := 2 * 1 / omega * periods

/-- `EI` of a beam, `gsThinShell_Modal.cpp` 124. -/
noncomputable def modalEI (E width thickness : ℝ) : ℝ := 1.0 / 12.0 * (width * thickness ^ 3) * E

/-- `omegas` of a pinned beam, `gsThinShell_Modal.cpp` 235-236; `m` is `Density*Area`. -/
noncomputable def modalPinned (len EI m : ℝ) : List ℝ :=
  (List.range 10).map fun n : ℕ => (n * 3.1415926535 / len) ^ 2 * (EI / m) ^ (0.5 : ℝ)

/-- `omegas[0]` of a clamped beam, `gsThinShell_Modal.cpp` 258. -/
noncomputable def modalClamped (len EI m : ℝ) : ℝ := (4.73004 / len) ^ 2 * (EI / m) ^ (0.5 : ℝ)

/-- `omegas[0]` of a cantilever, `gsThinShell_Modal.cpp` 113-124 and 278: width, thickness, modulus and density are
changed for this case, `Area` is still the product of 61. -/
noncomputable def modalCantilever (len : ℝ) : ℝ :=
  let Area : ℝ := 1 * 1
  let width : ℝ := 0.5
  let thickness : ℝ := 0.5
  3.52 * (1 / len) ^ 2 * (modalEI 210e9 width thickness / (7800 * Area)) ^ (0.5 : ℝ)

/-- `D`, `gsThinShell_Modal.cpp` 329. -/
noncomputable def plateD (E thickness nu : ℝ) : ℝ := E * thickness ^ 3 / (12 * (1 - nu ^ 2))

/-- `omegas` of a pinned square before `std::sort`, `gsThinShell_Modal.cpp` 331-333; `m` is `Density*thickness`. -/
noncomputable def modalPlate (D m : ℝ) : List ℝ :=
  (List.range 9).flatMap fun i : ℕ => (List.range 9).map fun j : ℕ =>
    (((i : ℝ) + 1) ^ 2 + ((j : ℝ) + 1) ^ 2) * 3.1415926535 ^ 2 * Real.sqrt (D / m)

/-- `omegas[0]` of the clamped circle, `gsThinShell_Modal.cpp` 439-444, the only one that is printed; `m` is `Density*thickness`. -/
noncomputable def modalCircle (D m : ℝ) : ℝ := (3.1962206158252 ^ 4 * D / m) ^ (0.5 : ℝ)

end GsSA.Oracle
