import Verif.Driver.Serial
import Verif.Driver.Finalize
import Verif.Driver.StepsProps
import Verif.Tools.Output

/-!
# Output of the programs for the parallel method

The hooks `parallelStepOutput` and `parallelIntervalOutput` (`src/gsALMSolvers/gsAPALM.h` 131-148, called in
`gsAPALM.hpp` 1113 and 1157) and the files written by `benchmarks/benchmark_{Roof,Beam,Elasticity_Beam,Frustrum}_APALM.cpp`
and `examples/snapping_example_shell_APALM.cpp`. Not modelled: the assembly, the ParaView files except for their
names, the wall-clock times in `times.txt`, the text on the console.
-/

namespace GsSA.APALM

open GsSA MPI Tools

/-! ### The hooks -/

section Hooks

variable {A K S : Type*} [Field K]

/-- `_correction` with what is passed to the hooks: `time`, the entries of `stepTimes` written so far, and the
calls of `parallelStepOutput` (solution, time, step). -/
structure OState (A K S : Type*) where
  c : CState A K S
  time : K
  times : List K
  calls : List (S × K × ℕ)

/-- Body of the loop with output, `gsAPALM.hpp` 1066-1118. -/
def outBody (M : Solver A K S) (dL0 : K) (s : OState A K S) : OState A K S :=
  if Status.halves (M.step s.c.alm).1 then { s with c := corrBody M dL0 s.c }
  else
    let a := (M.step s.c.alm).2
    let time := s.time + M.dist a (M.sol a) s.c.old
    { c := corrBody M dL0 s.c
      time := time
      times := s.times ++ [time]
      calls := s.calls ++ [(M.sol a, time, s.c.k)] }

/-- The loop, `gsAPALM.hpp` 1066-1118. -/
def outLoop (M : Solver A K S) (dL0 : K) : ℕ → OState A K S → Option (OState A K S)
  | 0, _ => none
  | fuel + 1, s => if s.c.k = s.c.n then some s else outLoop M dL0 fuel (outBody M dL0 s)

/-- `std::swap(a.at(k), b.at(k+1))`, `gsAPALM.hpp` 1153-1154 and 1162-1163; `at` throws. -/
def swapAt {α : Type*} (k : ℕ) (p : List α × List α) : Except Fail (List α × List α) :=
  match p.1[k]?, p.2[k + 1]? with
  | some x, some y => .ok (p.1.set k y, p.2.set (k + 1) x)
  | _, _ => .error .exc

/-- The loops `gsAPALM.hpp` 1151-1155 and 1160-1164 for one of the two pairs of vectors; the argument lists the
values of `k`. -/
def swaps {α : Type*} : List ℕ → List α × List α → Except Fail (List α × List α)
  | [], p => .ok p
  | k :: ks, p =>
    match swapAt k p with
    | .error e => .error e
    | .ok p' => swaps ks p'

/-- The arguments of `parallelIntervalOutput`. -/
structure IntervalOut (K S : Type*) where
  sols : List S
  times : List K
  level : ℕ
  id : ℕ

/-- `gsAPALM.hpp` 1138-1149: the vector for the export before the swaps; `x` is a default constructed element. -/
def exportOf {α : Type*} (front back x : α) (n : ℕ) : List α := front :: (List.replicate n x ++ [back])

/-- `gsAPALM.hpp` 1138-1164 for one vector: what is passed to the hook, and the vector afterwards. -/
def exported {α : Type*} (front back x : α) (n : ℕ) (v : List α) : Except Fail (List α × List α) :=
  match swaps (List.range n) (v, exportOf front back x n) with
  | .error e => .error e
  | .ok (v₁, e₁) =>
    match swaps (List.range n) (v₁, e₁) with
    | .error e => .error e
    | .ok (v₂, _) => .ok (e₁, v₂)

/-- `gsAPALM.hpp` 1126-1164: distances to the reference, then the export. -/
def outFinish (M : Solver A K S) (x : S) (t : K × K) (level id : ℕ) (start ref : S) (s : OState A K S) :
    Except Fail (Corr K S × List (S × K × ℕ) × IntervalOut K S) :=
  match corrFinish M start ref s.c with
  | .error e => .error e
  | .ok c =>
    match exported start ref x s.c.n c.sols with
    | .error e => .error e
    | .ok (es, sols) =>
      match exported t.1 t.2 0 s.c.n s.times with
      | .error e => .error e
      | .ok (et, _) => .ok ({ c with sols := sols }, s.calls, ⟨es, et, level, id⟩)

/-- `_correction`, `gsAPALM.hpp` 1013-1165, with its output: the result, the calls of `parallelStepOutput` and the
call of `parallelIntervalOutput`. `t` is `dataInterval`, `x` a default constructed solution. -/
def correctionOut (M : Solver A K S) (x : S) (nIntervals fuel : ℕ) (a : A) (r : Popped K S) (t : K × K)
    (level : ℕ) (ref : S) : Option (Except Fail (Corr K S × List (S × K × ℕ) × IntervalOut K S)) :=
  (outLoop M (r.dt / nIntervals) fuel ⟨corrStart M nIntervals a r.dt r.start r.prev, t.1, [], []⟩).map
    (outFinish M x t level r.id r.start ref)

end Hooks

/-! ### The tables -/

section Tables

variable {K S : Type}

/-- A table of one of the programs: headers, number of coordinates of a point, its displacement, and the other
numbers of a row, given solution, time and level. -/
structure Sheet (K S : Type) where
  ph : List Text
  oh : List Text
  dim : ℕ
  points : ℕ
  disp : S → ℕ → ℕ → K
  other : S → K → ℕ → List K

/-- The quantities a row is made of: displacement, `U.norm()`, `lambda`, and the conversion of numbers to `real_t`. -/
structure Quantities (K S : Type) where
  disp : S → ℕ → ℕ → K
  norm : S → K
  lam : S → K
  nat : ℕ → K

/-- Roof 60-89, Beam 66-93, Elasticity_Beam 65-91 and the tables of their main functions; one reference point. -/
def shellSheet (q : Quantities K S) : Sheet K S where
  ph := ["u_x".toList, "u_y".toList, "u_z".toList]
  oh := ["U-norm".toList, "lambda".toList, "time".toList, "level".toList]
  dim := 3
  points := 1
  disp := q.disp
  other s t l := [q.norm s, q.lam s, t, q.nat l]

/-- Frustrum 69-97, 524-560: no norm and no time. -/
def frustrumSheet (q : Quantities K S) : Sheet K S where
  ph := ["u_x".toList, "u_y".toList, "u_z".toList]
  oh := ["lambda".toList, "level".toList]
  dim := 3
  points := 1
  disp := q.disp
  other s _ l := [q.lam s, q.nat l]

/-- Snapping 91-117, 565-599: two coordinates, strain and stress; `eps` divides the displacement in direction 1 by the
height, `sig` the load by the area. -/
def snappingSheet [Field K] (q : Quantities K S) (height area : K) : Sheet K S where
  ph := ["u_x".toList, "u_y".toList]
  oh := ["U-norm".toList, "Eps".toList, "Sigma".toList, "Lambda".toList, "time".toList, "level".toList]
  dim := 2
  points := 1
  disp := q.disp
  other s t l := [q.norm s, q.disp s 1 0 / height, q.lam s / area, q.lam s, t, q.nat l]

/-- The records of a table for rows of solution, time and level; none without reference points. -/
def Sheet.records (h : Sheet K S) (rows : List (S × K × ℕ)) : List (Mat K × List K) :=
  if h.points = 0 then [] else
    rows.map fun r => (⟨h.dim, h.points, h.disp r.1⟩, h.other r.1 r.2.1 r.2.2)

/-- `data.init(...)` and `data.add(...)` for each row; the file holds `old` before. -/
def Sheet.write (h : Sheet K S) (fmt : ℤ → K → Text) (old : Text) (rows : List (S × K × ℕ)) : Except Fail Out :=
  ((Out.new h.points old).init h.ph h.oh).adds fmt (h.records rows)

/-- The rows of the file of an interval: Roof 75-91 and the like; `level` is the same in all rows. -/
def intervalRows (o : IntervalOut K S) : List (S × K × ℕ) :=
  (o.sols.zip o.times).map fun p => (p.1, p.2, o.level)

/-- The rows of the table of branch `b`: Beam 445-472 and the like, from `getFlatSolutions(b)`, `getFlatTimes(b)`,
`getFlatLevels(b)`. `m_solutions[b]` is not checked. Roof, Frustrum and Snapping use the default `b = 0` only. -/
def branchRows [Field K] [LinearOrder K] (v : Views K S) (b : ℕ) : Except Fail (List (S × K × ℕ)) :=
  match v.flats[b]? with
  | none => .error .ub
  | some l => .ok (l.map fun p => (p.sol, p.time, p.level))

end Tables

/-! ### The files -/

/-- Names of files to contents. -/
abbrev Files := Text → Option Text

/-- `m_dirname + "/interval_" + std::to_string(ID) + ".csv"`; Roof 64, Beam 68, Elasticity_Beam 67, Frustrum 71,
Snapping 95. -/
def intervalName (dir : Text) (id : ℕ) : Text := dir ++ "/interval_".toList ++ (Nat.repr id).toList ++ ".csv".toList

/-- `dirname + "/data_branch" + std::to_string(b) + ".csv"`, Beam 450 (521, 593 with other prefixes), Elasticity_Beam 432, 503. -/
def branchName (pre : Text) (b : ℕ) : Text := pre ++ (Nat.repr b).toList ++ ".csv".toList

/-- `dirname + "/" + "data_branch" + std::to_string(b) + util::to_string(k)`, Beam 476 (547, 619), Elasticity_Beam 458,
529: the ParaView file of point `k` of branch `b`. -/
def frameName (pre : Text) (b k : ℕ) : Text := pre ++ (Nat.repr b).toList ++ (Nat.repr k).toList

/-- Files written one after the other. -/
def writeFiles : List (Text × Text) → Files → Files
  | [], f => f
  | (n, c) :: l, f => writeFiles l (Function.update f n (some c))

/-- A server which also lists the jobs handed out. -/
def logged {D J R : Type*} (sv : Server D J R) : Server (D × List J) J R where
  empty x := sv.empty x.1
  pop x :=
    match sv.pop x.1 with
    | .error e => .error e
    | .ok (j, d) => .ok (j, (d, x.2 ++ [j]))
  submit x r :=
    match sv.submit x.1 r with
    | .error e => .error e
    | .ok d => .ok (d, x.2)

/-! ### Options -/

/-- The multipliers set by Beam (423-424) and Elasticity_Beam (410-411), given the arc length `dL` after and `dLb`
before bifurcation. -/
structure Multipliers (K : Type*) where
  branchMult : K
  bifMult : K

/-- Beam 185-188, 423-424. -/
def beamMultipliers {K : Type*} [Field K] [DecidableEq K] (dL dLb : K) : Multipliers K :=
  let d := if dL = 0 then dLb else dL
  ⟨d / dLb, 5 / 100⟩

/-- Elasticity_Beam 184-187, 410-411. -/
def elasticityMultipliers {K : Type*} [Field K] [DecidableEq K] (dL dLb : K) : Multipliers K :=
  let d := if dL = 0 then dLb else dL
  ⟨d / dLb, 5 / 100 * dLb / d⟩

/-- The thickness of the roof in thousandths, Roof 208-221. -/
def roofThickness (testCase : ℤ) : Except Fail ℕ :=
  if testCase = 1 then .ok 6350
  else if testCase = 2 then .ok 12700
  else if testCase = 3 then .ok 16750
  else .error .exc

/-- Roof 123. -/
def roofDefault : ℤ := 0

end GsSA.APALM
