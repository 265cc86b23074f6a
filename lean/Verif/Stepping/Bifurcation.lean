import Verif.Stepping.ALM
import Verif.ALM.SingularTest
import Verif.ALM.ConfigProps

/-!
# Load stepping with branch switching (C124)

The loops of `Verif.Stepping.Loop` with the option `SingularPoint`: after every step that is not repeated the
stability is computed, and if it changed then a singular point is computed and the branch is switched.
`examples/gsThinShell_ArcLength.cpp` 1061-1241, `examples/snapping_*.cpp`, `solvers/quasistatic_shell_XML.cpp`
285-387, `benchmarks/benchmark_{Beam,Wrinkling,TensionWrinkling}.cpp`. Files and plots are not modelled.
-/

namespace GsSA.Stepping.Bif

open GsSA GsSA.ALM GsSA.Stepping

set_option linter.unusedSectionVars false

variable {K V Mat Fac : Type} [Field K] [LinearOrder K] [AddCommGroup V] [Module K V]

/-! ### The programs -/

/-- The differences between the programs. -/
structure Prog (V K : Type) where
  /-- The condition for repeating the step, by `converged()` and the status returned by `step()`. -/
  failed : Bool → Status → Bool
  /-- Does the loop remember that the length was halved? -/
  marks : Bool
  /-- Does the loop return to the first length? -/
  resets : Bool
  /-- The argument of `computeStability`. -/
  jac : Bool
  /-- Is `switchBranch()` called after the singular point was computed? -/
  switches : Bool
  /-- The length on the new branch, by the first length. -/
  len2 : K → K
  /-- Is this length the one to which the loop returns? -/
  first : Bool
  /-- The loop ends at displacements with this property. -/
  limit : V → Bool

/-- `gsThinShell_ArcLength.cpp` 1071-1241, `benchmark_TensionWrinkling.cpp` 441-559. -/
def thinShell (quasi : Bool) (dL : K) : Prog V K :=
  ⟨badStatus, true, true, quasi, true, fun _ => dL, true, fun _ => false⟩

/-- `snapping_element.cpp` 334-416 and `snapping_element_shell.cpp` 350-427, where `over` is `eps > Emax`. -/
def snappingElement (quasi : Bool) (dL : K) (over : V → Bool) : Prog V K :=
  { (thinShell quasi dL : Prog V K) with limit := over }

/-- `snapping_example.cpp` 424-510, `snapping_example3D.cpp` 434-520, `snapping_element3D.cpp` 357-441. -/
def snappingExample (quasi : Bool) (dL : K) (over : V → Bool) : Prog V K :=
  { (thinShell quasi dL : Prog V K) with failed := notConverged, limit := over }

/-- `quasistatic_shell_XML.cpp` 290-387: the branch is not switched. `length2` is the option `Length2`, if given. -/
def quasistatic (length2 : Option K) : Prog V K :=
  ⟨notConverged, false, true, false, false, fun d => length2.getD d, true, fun _ => false⟩

/-- `quasistatic_shell_multipatch_XML.cpp` 415-511. -/
def multipatch (length2 : Option K) : Prog V K := { quasistatic length2 with switches := true }

/-- `benchmark_Beam.cpp` 328-375: the length is not restored. -/
def beam (quasi : Bool) (dL : K) : Prog V K :=
  ⟨notConverged, false, false, quasi, true, fun _ => dL, false, fun _ => false⟩

/-- What a program writes after a step that it does not repeat. Ghosts: `spotted`, whether the stability had
changed; `found`, the indicator after the step, if it could be computed; `tries`, the number of attempts
repeated before. -/
structure Row (V K : Type) where
  U : V
  L : K
  indicator : K
  spotted : Bool
  found : Option K
  tries : ℕ
deriving DecidableEq

/-- The variables of the loop. -/
structure BSt (K V Mat Fac : Type) where
  obj : St K V Mat Fac
  dL : K
  dL0 : K
  bisected : Bool
  Uold : V
  Lold : K
  rows : List (Row V K)
  tries : ℕ

/-- `gsThinShell_ArcLength.cpp` 1062-1070: the solver is new, `setIndicator(0)`. -/
def start (obj : St K V Mat Fac) : BSt K V Mat Fac where
  obj := { obj with U := 0, L := 0, indicator := 0 }
  dL := obj.len
  dL0 := obj.len
  bisected := false
  Uold := 0
  Lold := 0
  rows := []
  tries := 0

/-- 1079-1088: the step is repeated with half of the length. -/
def onFail (p : Prog V K) (st : BSt K V Mat Fac) (t : St K V Mat Fac) : BSt K V Mat Fac :=
  { st with
    obj := (setSolution st.Uold st.Lold (setLength (st.dL / 2) t).1).1
    dL := st.dL / 2
    bisected := st.bisected || p.marks
    tries := st.tries + 1 }

/-- 1111-1116: what is done at `(U, L)` if the stability has changed; the results of the calls are not looked
at. The length is set after it. -/
def treat (e : Env K V Mat Fac) (o : Opts K) (M : Method K V Mat Fac) (p : Prog V K) (U : V) (L : K)
    (t : St K V Mat Fac) : St K V Mat Fac :=
  let u := (computeSingularPoint e o M U L false false true t).1
  if p.switches then (switchBranch e o u).1 else u

/-- 1107-1123 and 1224-1240: the step is not repeated. -/
def onSuccess (e : Env K V Mat Fac) (o : Opts K) (M : Method K V Mat Fac) (p : Prog V K) (st : BSt K V Mat Fac)
    (t : St K V Mat Fac) : BSt K V Mat Fac :=
  let c := computeStability e o p.jac (-100) t
  let spotted := stabilityChange c.1
  let u := if spotted then (setLength (p.len2 st.dL0) (treat e o M p st.Uold st.Lold c.1)).1 else c.1
  let dL := if spotted then p.len2 st.dL0 else st.dL
  let dL0 := if spotted && p.first then p.len2 st.dL0 else st.dL0
  let restore := p.resets && !st.bisected
  { obj := if restore then (setLength dL0 u).1 else u
    dL := if restore then dL0 else dL
    dL0 := dL0
    bisected := false
    Uold := u.U
    Lold := u.L
    rows := st.rows ++ [⟨u.U, u.L, u.indicator, spotted,
      if c.2 matches .ok .success then some c.1.indicator else none, st.tries⟩]
    tries := 0 }

/-- Does the loop go on? `while (eps <= Emax && …)`. -/
def goesOn (p : Prog V K) (st : BSt K V Mat Fac) : Bool := st.rows.getLast?.all fun r => !p.limit r.U

/-- The step from the state is repeated. -/
def fails (e : Env K V Mat Fac) (o : Opts K) (M : Method K V Mat Fac) (p : Prog V K) (t : St K V Mat Fac) : Bool :=
  let r := (alm e o M).step t
  p.failed r.1.converged r.2

/-- The loop with `n` rows to write and at most `fuel` calls of `step()`; `none` if these are not enough. -/
def loop (e : Env K V Mat Fac) (o : Opts K) (M : Method K V Mat Fac) (p : Prog V K) :
    ℕ → ℕ → BSt K V Mat Fac → Option (BSt K V Mat Fac)
  | _, 0, st => some st
  | 0, _ + 1, st => if goesOn p st then none else some st
  | fuel + 1, n + 1, st =>
    if goesOn p st then
      let t := ((alm e o M).step st.obj).1
      if fails e o M p st.obj then loop e o M p fuel (n + 1) (onFail p st t)
      else loop e o M p fuel n (onSuccess e o M p st t)
    else some st

end GsSA.Stepping.Bif
