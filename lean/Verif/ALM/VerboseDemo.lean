import Verif.ALM.VerboseTable
import Verif.ALM.RealDemo

/-!
# C132: examples and counterexamples

The problem of `Verif.ALM.Demo` with internal force `2 u - u³`: stable for `u² < 2/3`.
-/

namespace GsSA.ALM.VerboseDemo

open GsSA.ALM.Demo

/-- The softening problem. -/
def soft : Env ℚ ℚ ℚ ℚ := env (-1) fine fine

/-- The same with an eigenvalue solver that fails. -/
def noEigs : Env ℚ ℚ ℚ ℚ := { soft with eigs := fun _ _ _ => none }

/-- Options: the stability from the determinant. -/
def det : Opts ℚ := { opts 6 10 with bifMethod := .determinant }

/-- Options: the stability from the eigenvalues. -/
def eig : Opts ℚ := { opts 5 10 with bifMethod := .eigenvalue }

/-- A solver that was put onto the unstable point `(-1, -1)` with `setSolution`; its stability was last computed at a
stable point. -/
def moved : St ℚ ℚ ℚ ℚ :=
  { start (1 / 10) false with U := -1, L := -1, stability := -1, status := .success }

/-- A solver near the limit point. -/
def near : St ℚ ℚ ℚ ℚ := { start (1 / 10) false with U := 4 / 5, L := 1, v := 1, status := .success }

theorem soft_steady : Steady soft := by constructor <;> intros <;> rfl

theorem noEigs_steady : Steady noEigs := by constructor <;> intros <;> rfl

theorem soft_computes : Computes soft det := by
  intro m h
  obtain ⟨f, hf⟩ := Option.isSome_iff_exists.1 h
  show (((soft.factorize 0 m).map soft.vecD).bind _).isSome
  rw [hf]
  rfl

/-- `C132_off` and `C132_step`: the step succeeds. -/
example : (step soft det (Kind.loadControl.method soft det) moved).2 = .ok .success ∧
    (stepV true soft det .loadControl (moved, [])).2 = .ok .success ∧
    (stepV true soft det .loadControl (moved, [])).1.1.U = (step soft det (Kind.loadControl.method soft det) moved).1.U ∧
    (stepV true soft det .loadControl (moved, [])).1.1.U ≠ -1 := by decide +kernel

example := C132_off soft det .loadControl moved []

example := C132_step soft_steady .loadControl moved []
  (by decide +kernel : (step soft det (Kind.loadControl.method soft det) moved).2 = .ok .success)

/-- `C132_steps`: two steps. -/
example : (runSteps (stepV true soft det .loadControl) 2 (moved, [])).1 = [.ok .success, .ok .success] := by
  decide +kernel

example := C132_steps (o := det) soft_steady .loadControl 2 moved []

/-- `C132_stability`. -/
example := C132_stability soft_steady soft_computes .loadControl (by decide) moved []
  (by decide +kernel : (step soft det (Kind.loadControl.method soft det) moved).2 = .ok .success)

/-- `C132_violated_previous`. -/
example := C132_violated_previous soft_steady soft_computes .loadControl moved []
  (by decide +kernel : (step soft det (Kind.loadControl.method soft det) moved).2 = .ok .success)

/-- **C132** violated: the same step reports a change of the stability, or not. -/
theorem C132_violated_change :
    (step soft det (Kind.loadControl.method soft det) moved).2 = .ok .success ∧
      stabilityChange (step soft det (Kind.loadControl.method soft det) moved).1 = true ∧
      (stepV true soft det .loadControl (moved, [])).2 = .ok .success ∧
      stabilityChange (stepV true soft det .loadControl (moved, [])).1.1 = false := by decide +kernel

/-- `C132_singular`: the limit point is found. -/
example : (computeSingularPoint soft det (Kind.loadControl.method soft det) (4 / 5) 1 false false false near).2 =
      .ok .success ∧
    |(computeSingularPoint soft det (Kind.loadControl.method soft det) (4 / 5) 1 false false false near).1.U ^ 2 - 2 / 3| <
      1 / 1000 := by decide +kernel

example := C132_singular soft_steady soft_computes (by decide : det.bifMethod ≠ .other) .loadControl near [] (4 / 5) 1
  false false false
  (by decide +kernel :
    (computeSingularPoint soft det (Kind.loadControl.method soft det) (4 / 5) 1 false false false near).2 = .ok .success)

/-- **C132** violated: after `computeSingularPoint` the indicator is that of the singular point with `Verbose`, and
without it is the one from before. -/
theorem C132_violated_indicator :
    (computeSingularPoint soft det (Kind.loadControl.method soft det) (4 / 5) 1 false false false near).1.indicator = 0 ∧
      (computeSingularPointV true soft det .loadControl (4 / 5) 1 false false false (near, [])).1.1.indicator < 0 := by
  decide +kernel

/-- **C132** violated: where the eigenvalues cannot be computed, the extended system is solved without `Verbose` and
fails with it. `C132_singular` needs `Computes`. -/
theorem C132_violated_extended :
    (computeSingularPoint noEigs eig (Kind.loadControl.method noEigs eig) (4 / 5) 1 false false false near).2 =
        .ok .success ∧
      (computeSingularPointV true noEigs eig .loadControl (4 / 5) 1 false false false (near, [])).2 =
        .ok .solverError ∧
      (computeSingularPointV true noEigs eig .loadControl (4 / 5) 1 false false false (near, [])).1.1.U = 4 / 5 := by
  decide +kernel

/-- `C132_table`: three iterations, four rows and the names. -/
example : (stepV true soft det .loadControl (moved, [])).1.1.numIt = 3 ∧
    (stepV true soft det .loadControl (moved, [])).1.2.length = 5 ∧
    (stepV true soft det .loadControl (moved, [])).1.2.head? = some (.header Kind.loadControl.columns) := by
  decide +kernel

example := C132_table (e := soft) (o := det) .loadControl moved [] rfl

/-- `C132_table`: four rows if the load cannot be reached in four iterations. -/
example : (stepV true soft { det with maxIt := 4 } .loadControl ({ moved with len := -1 }, [])).2 = .ok .notConverged ∧
    (stepV true soft { det with maxIt := 4 } .loadControl ({ moved with len := -1 }, [])).1.2.length = 5 := by
  decide +kernel

/-- `C132_columns`. -/
example : (Kind.crisfield.row soft moved).length = 15 := (C132_columns soft .crisfield moved).1

/-- `C132_violated_squares` for Crisfield's method. -/
example : ∃ a b c : ℝ, shown .crisfield (Kind.crisfield.row RealDemo.lin RealDemo.linStart) "ds²" = some (.num a) ∧
    shown .crisfield (Kind.crisfield.row RealDemo.lin RealDemo.linStart) "|dU|²" = some (.num b) ∧
    shown .crisfield (Kind.crisfield.row RealDemo.lin RealDemo.linStart) "dL²" = some (.num c) ∧ a ^ 2 = b + c ∧ 0 ≤ a :=
  C132_violated_squares RealDemo.lin_laws .crisfield _ (by decide)

/-- `C132_violated_extended_table`: two lines and a part of one, and the point moved. -/
example : (extendedSolveV true soft det (4 / 5) 1 (1 / 1000) (near, [])).2 = .ok true ∧
    (extendedSolveV true soft det (4 / 5) 1 (1 / 1000) (near, [])).1.1.U ≠ 4 / 5 ∧
    (extendedSolveV true soft det (4 / 5) 1 (1 / 1000) (near, [])).1.2.length = 3 := by decide +kernel

example := C132_violated_extended_table (e := soft) (o := det) near [] (4 / 5) 1 (1 / 1000)

end GsSA.ALM.VerboseDemo
