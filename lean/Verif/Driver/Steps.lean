import Mathlib.Algebra.Order.Field.Basic
import Mathlib.Algebra.BigOperators.Group.List.Basic
import Verif.Base.Status
import Verif.Data.Sched

/-!
# Model of `_initiation` and `_correction`

`src/gsALMSolvers/gsAPALM.hpp` 934-1165: what a process does with one job. The arc-length solver
`m_ALM` is an arbitrary state machine.
-/

namespace GsSA.APALM

open GsSA

/-- The part of the arc-length solver used by a job: `gsALMBase::setLength`, `setSolution`,
`setPrevious`, `step`, `solutionU/solutionL`, `distance`. `A` is the state of the solver object.
`dist a x y` is `distance(x - y)` measured with the current state. `singular a old` stands for lines
983-996 with `m_singularPoint` (stability computation, bifurcation test, singular point): it tells
whether a bifurcation was found. -/
structure Solver (A K S : Type*) where
  setLength : A → K → A
  setSolution : A → S → A
  setPrevious : A → S → A
  step : A → Status × A
  sol : A → S
  dist : A → S → S → K
  singular : A → S → Bool × A
  switchBranch : A → A

variable {A K S : Type*} [Field K]

/-- The statuses after which both functions halve the step, `gsAPALM.hpp` 973 and 1072. -/
def Status.halves (st : Status) : Bool := st == .notConverged || st == .assemblyError

/-! ## `_initiation` -/

/-- Loop variables of `_initiation`. -/
structure IState (A K : Type*) where
  alm : A
  dL : K

/-- Loop of `_initiation`, `gsAPALM.hpp` 965-981. `none` if not finished within `fuel` steps. -/
def initLoop (M : Solver A K S) (start : S) : ℕ → IState A K → Option (IState A K)
  | 0, _ => none
  | fuel + 1, s =>
    let (st, a) := M.step s.alm
    if Status.halves st then
      initLoop M start fuel
        { alm := M.setSolution (M.setLength a (s.dL / 2)) start
          dL := s.dL / 2 }
    else if st = .success then some ⟨a, s.dL⟩
    else initLoop M start fuel ⟨a, s.dL⟩

/-- Result of `_initiation`: `distance`, `solutions`, `bifurcation`, and the solver. -/
structure Initiated (A K S : Type*) where
  distance : K
  sols : List S
  bifurcation : Bool
  alm : A

/-- `_initiation`, `gsAPALM.hpp` 934-1010. -/
def initiation (M : Solver A K S) (fuel : ℕ) (a : A) (dL : K) (start prev : S) :
    Option (Initiated A K S) :=
  (initLoop M start fuel
    ⟨M.setPrevious (M.setSolution (M.setLength a dL) start) prev, dL⟩).map fun s =>
      let b := M.singular s.alm start
      if b.1 then
        ⟨M.dist b.2 (M.sol b.2) start, [M.sol b.2, M.sol (M.switchBranch b.2)], true,
          M.switchBranch b.2⟩
      else ⟨M.dist b.2 (M.sol b.2) start, [M.sol b.2], false, b.2⟩

/-! ## `_correction` -/

/-- Loop variables of `_correction`. `sols`, `ds` are the entries of `stepSolutions`, `distances`
written so far (entry `k` is written by iteration `k < Nintervals`, and both vectors are kept at
sizes `Nintervals` and `Nintervals+1`, so no access is out of range). -/
structure CState (A K S : Type*) where
  alm : A
  k : ℕ
  n : ℕ
  dL : K
  rem : K
  bisected : Bool
  old : S
  sols : List S
  ds : List K

/-- Body of the loop, `gsAPALM.hpp` 1066-1118. -/
def corrBody (M : Solver A K S) (dL0 : K) (s : CState A K S) : CState A K S :=
  let (st, a) := M.step s.alm
  if Status.halves st then
    { s with
      alm := M.setSolution (M.setLength a (s.dL / 2)) s.old
      dL := s.dL / 2
      rem := s.rem + s.dL / 2
      bisected := true }
  else
    let dL := if s.bisected then s.rem else dL0
    { alm := M.setLength a dL
      k := s.k + 1
      n := if s.bisected then s.n + 1 else s.n
      dL := dL
      rem := 0
      bisected := false
      old := M.sol a
      sols := s.sols ++ [M.sol a]
      ds := s.ds ++ [M.dist a (M.sol a) s.old] }

/-- The loop of `_correction`, `gsAPALM.hpp` 1066-1118. -/
def corrLoop (M : Solver A K S) (dL0 : K) : ℕ → CState A K S → Option (CState A K S)
  | 0, _ => none
  | fuel + 1, s => if s.k = s.n then some s else corrLoop M dL0 fuel (corrBody M dL0 s)

/-- Start of the loop, `gsAPALM.hpp` 1026-1063. -/
def corrStart (M : Solver A K S) (nIntervals : ℕ) (a : A) (Dt : K) (start prev : S) :
    CState A K S where
  alm := M.setPrevious (M.setSolution (M.setLength a (Dt / nIntervals)) start) prev
  k := 0
  n := nIntervals
  dL := Dt / nIntervals
  rem := 0
  bisected := false
  old := start
  sols := []
  ds := []

/-- `gsAPALM.hpp` 1126-1136: distances to the reference. `stepSolutions.back()` of an empty vector is
undefined behaviour. (The two `GISMO_ASSERT`s on size and direction of the reference and the output
callbacks are not modelled.) -/
def corrFinish (M : Solver A K S) (start ref : S) (s : CState A K S) : Except Fail (Corr K S) :=
  match s.sols.getLast? with
  | none => .error .ub
  | some last => .ok
      { ds := s.ds ++ [M.dist s.alm ref (M.sol s.alm)]
        sols := s.sols
        upper := M.dist s.alm ref start
        lower := M.dist s.alm last start }

/-- `_correction`, `gsAPALM.hpp` 1013-1165. -/
def correction (M : Solver A K S) (nIntervals fuel : ℕ) (a : A) (Dt : K) (start prev ref : S) :
    Option (Except Fail (Corr K S)) :=
  (corrLoop M (Dt / nIntervals) fuel (corrStart M nIntervals a Dt start prev)).map
    (corrFinish M start ref)

end GsSA.APALM
