import Mathlib.Algebra.Order.Floor.Semiring
import Mathlib.Algebra.Order.Archimedean.Basic
import Mathlib.Algebra.Order.Field.Power
import Mathlib.Algebra.Field.Rat
import Mathlib.Algebra.Order.Ring.Rat
import Mathlib.Data.List.Chain
import Mathlib.Data.Rat.Floor
import Mathlib.Tactic.Ring
import Mathlib.Tactic.Linarith
import Mathlib.Tactic.FieldSimp
import Mathlib.Tactic.Positivity
import Verif.ALM.Base

/-!
# Stepping loops with target values

`benchmarks/benchmark_cylinder_DC.cpp` (371-576), `benchmarks/benchmark_Pillow.cpp` (293-465),
`examples/example_ShearWrinkling.cpp` (379-463) and the loop with load control of
`examples/example_PinchedMembrane_DWR.cpp` (435-464). A solve may succeed or fail in any way, depending on the
number of solves before.
-/

namespace GsSA.Stepping

set_option linter.unusedSectionVars false

variable {K V : Type} [Field K] [LinearOrder K]

/-- A row of the output: the parameter (`D` or the load factor), the displacements, and (ghost) whether the
solver had succeeded. -/
structure Row (K V : Type) where
  D : K
  U : V
  ok : Bool
deriving DecidableEq

/-! ## `benchmark_cylinder_DC.cpp` -/

/-- The variables; `front` and `rest` are the queue `Dcheckpoints`, which is not empty in the loop. -/
structure CylSt (K V : Type) where
  D : K
  dL : K
  U : V
  front : K
  rest : List K
  out : List (Row K V)

/-- Lines 371-381. -/
def cylStart [Zero V] (dL0 front : K) (rest : List K) : CylSt K V :=
  ⟨min dL0 front, min dL0 front, 0, front, rest, []⟩

/-- One pass of the loop, lines 392-576, after a solve that ended with success or not (`ok`) and with the
displacements `U` of `solution()`. `close` is `gsClose` with tolerance `1e-8`. The result is the list of rows
if the loop ends. -/
def cylPass (close : K → K → Bool) (dL0 : K) (ok : Bool) (U : V) (s : CylSt K V) :
    CylSt K V ⊕ List (Row K V) :=
  if ok = false ∧ 1 / 8 < s.dL / dL0 then .inl { s with dL := s.dL / 2, D := s.D - s.dL / 2 }
  else
    let out := s.out ++ [⟨s.D, U, ok⟩]
    if close s.D s.front = true then
      match s.rest with
      | [] => .inr out
      | c :: cs => .inl ⟨s.D + min dL0 (c - s.D), min dL0 (c - s.D), U, c, cs, out⟩
    else .inl ⟨s.D + min dL0 (s.front - s.D), min dL0 (s.front - s.D), U, s.front, s.rest, out⟩

/-- The loop with at most `fuel` solves. The solver gets the number of solves before, the prescribed
displacement and the start vector. -/
def cylLoop (close : K → K → Bool) (solve : ℕ → K → V → Bool × V) (dL0 : K) :
    ℕ → ℕ → CylSt K V → Option (List (Row K V))
  | 0, _, _ => none
  | fuel + 1, n, s =>
    match cylPass close dL0 (solve n s.D s.U).1 (solve n s.D s.U).2 s with
    | .inr out => some out
    | .inl t => cylLoop close solve dL0 fuel (n + 1) t

/-! ## `benchmark_Pillow.cpp` -/

/-- The variables; the solver is initialised before each solve, so that the displacements do not matter. -/
structure PilSt (K : Type) where
  load : K
  dload : K
  bisected : ℕ
  out : List K
deriving DecidableEq

/-- Why the loop ended. -/
inductive PilEnd
  | finished
  | tooMany
  | nearOne
  | assertion
deriving DecidableEq, Repr

/-- One pass, lines 378-465. With `debug` the assertion in line 387 is active. -/
def pilPass (debug : Bool) (d0 : K) (ok : Bool) (s : PilSt K) : PilSt K ⊕ PilEnd :=
  if ok then
    let d := if 1 - s.load < d0 ∧ 1 / 10 ^ 10 < 1 - s.load then 1 - s.load else d0
    .inl { s with load := s.load + d, dload := d, out := s.out ++ [s.load] }
  else if 20 < s.bisected then .inr .tooMany
  else if debug = true ∧ s.load = 0 then .inr .assertion
  else if |s.load - s.dload - 1| < 1 / 1000 then .inr .nearOne
  else .inl { s with
    load := s.load - s.dload + s.dload / 2, dload := s.dload / 2, bisected := s.bisected + 1 }

/-- The loop, lines 339-465, with at most `fuel` solves; the result has the reason and the load factors of the
rows written. -/
def pilLoop (debug : Bool) (solve : ℕ → K → Bool) (d0 : K) : ℕ → ℕ → PilSt K → Option (PilEnd × List K)
  | fuel, n, s =>
    if s.load ≤ 1 then
      match fuel with
      | 0 => none
      | fuel + 1 =>
        match pilPass debug d0 (solve n s.load) s with
        | .inr r => some (r, s.out)
        | .inl t => pilLoop debug solve d0 fuel (n + 1) t
    else some (.finished, s.out)

/-- Lines 293-297. -/
def pilStart (d0 : K) : PilSt K := ⟨0, d0, 0, []⟩

/-! ## `example_ShearWrinkling.cpp` -/

/-- The variables. -/
structure ShearSt (K : Type) where
  D : K
  dL : K
  Dold : K
  k : ℕ
  targets : List K
  out : List K
deriving DecidableEq

/-- How a run ends. -/
inductive ShearEnd
  | finished
  | assertion
  | ub
deriving DecidableEq, Repr

/-- One pass, lines 402-461. `front()` of an empty vector is undefined. With `debug` the assertion in line 405
is active. `|D - target| / D < 1e-8`: for `D = 0` the quotient is NaN or infinite. -/
def shearPass (debug : Bool) (dL0 : K) (ok : Bool) (s : ShearSt K) : ShearSt K ⊕ ShearEnd :=
  if ok then
    match s.targets with
    | [] => .inr .ub
    | c :: cs =>
      let ts := if s.D ≠ 0 ∧ |s.D - c| / s.D < 1 / 10 ^ 8 then cs else c :: cs
      match ts with
      | [] => .inr .ub
      | f :: _ =>
        let d := if f - s.D < dL0 then f - s.D else dL0
        .inl { D := s.D + d, dL := d, Dold := s.D, k := s.k + 1, targets := ts, out := s.out ++ [s.D] }
  else if debug = true ∧ ¬1 / 10 ^ 6 < s.dL / 2 / dL0 then .inr .assertion
  else .inl { s with dL := s.dL / 2, D := s.Dold + s.dL / 2 }

/-- The loop, lines 395-463; `back()` of an empty vector is undefined. -/
def shearLoop (debug : Bool) (solve : ℕ → K → Bool) (dL0 : K) (step : ℕ) :
    ℕ → ℕ → ShearSt K → Option (ShearEnd × List K)
  | fuel, n, s =>
    match s.targets.getLast? with
    | none => some (.ub, s.out)
    | some b =>
      if s.D - s.dL < b ∧ s.k ≤ step then
        match fuel with
        | 0 => none
        | fuel + 1 =>
          match shearPass debug dL0 (solve n s.D) s with
          | .inr r => some (r, s.out)
          | .inl t => shearLoop debug solve dL0 step fuel (n + 1) t
      else some (.finished, s.out)

/-- Lines 383-390. -/
def shearStart (dL0 : K) (targets : List K) : ShearSt K := ⟨dL0, dL0, 0, 0, targets, []⟩

/-! ## `example_PinchedMembrane_DWR.cpp`, load control -/

/-- The variables; `L` is that of the program, equal to `Lold`. -/
structure PinSt (K : Type) where
  L : K
  dL : K
  dL0 : K
  out : List K
deriving DecidableEq

/-- One pass, lines 441-464. After a step that converges `solutionL()` is the load of the start plus the length
(`C39`). -/
def pinPass (ok : Bool) (s : PinSt K) : PinSt K :=
  if ok then
    let L := s.L + s.dL
    let d := min (1 - L) s.dL0
    let d := if 1 - L < d then 1 - L else d
    ⟨L, d, d, s.out ++ [L]⟩
  else { s with dL := s.dL / 2 }

/-- The loop with at most `fuel` steps. -/
def pinLoop (solve : ℕ → K → K → Bool) : ℕ → ℕ → PinSt K → Option (PinSt K)
  | fuel, n, s =>
    if s.L < 1 ∧ 1 / 10 ^ 14 < |s.L - 1| then
      match fuel with
      | 0 => none
      | fuel + 1 => pinLoop solve fuel (n + 1) (pinPass (solve n s.L s.dL) s)
    else some s

/-- Lines 435-440: from the last point of the arc-length method below the load 1. -/
def pinStart (L : K) : PinSt K := ⟨L, 1 - L, 1 - L, []⟩

end GsSA.Stepping
