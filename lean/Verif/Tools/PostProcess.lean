import Mathlib.Algebra.Order.Field.Basic
import Mathlib.Data.List.Range
import Mathlib.Data.List.Flatten
import Mathlib.Logic.Function.Basic
import Verif.Tools.Domains

/-!
# Model of the programs for post-processing

`examples/ShellPostProcess.cpp` 78-189 (which solutions are read, which files they go to) and
`examples/PlotIsolines.cpp` 66-104 (the points of the isolines, the tables and the files).

File names are lists of characters. The folder is a predicate: which files `exists` (22-34) can open. Contents of files
are abstract; a later file with the same name replaces an earlier one.
-/

namespace GsSA.Tools

set_option linter.unusedSectionVars false

/-! ### ShellPostProcess -/

/-- A file name. -/
abbrev FileName := List Char

/-- `solname + std::to_string(k) + ".xml"`, 100 and 108. -/
def solFile (sol : FileName) (k : ℕ) : FileName := sol ++ (Nat.repr k).toList ++ ".xml".toList

/-- `solname + ".xml"`, 91-93. -/
def baseFile (sol : FileName) : FileName := sol ++ ".xml".toList

/-- The loop 99-110, at most `fuel` turns; `none` if it has not ended by then. -/
def scanFiles (has : FileName → Bool) (sol : FileName) : ℕ → ℕ → Option (List FileName)
  | 0, _ => none
  | fuel + 1, k =>
    if has (solFile sol k) then (scanFiles has sol fuel (k + 1)).map (solFile sol k :: ·) else some []

/-- `filenames`, 78-110. -/
def foundFiles (has : FileName → Bool) (sol : FileName) (fuel : ℕ) : Option (List FileName) :=
  (scanFiles has sol fuel 0).map fun l => (if has (baseFile sol) then [baseFile sol] else []) ++ l

/-- `output + util::to_string(k) + ".csv"`, 140. -/
def tableFile (out : FileName) (k : ℕ) : FileName := out ++ (Nat.repr k).toList ++ ".csv".toList

/-- The file which `gsWriteParaview` (132) writes for patch `p`: its name, the number of the patch, `.vts`. -/
def vtsFile (out : FileName) (k p : ℕ) : FileName :=
  out ++ (Nat.repr k).toList ++ (Nat.repr p).toList ++ ".vts".toList

/-- What is written to a file: the name of the solution it comes from, with the patch for a `.vts` file. -/
inductive Written where
  | table (from' : FileName)
  | patch (from' : FileName) (p : ℕ)
deriving DecidableEq

/-- The files written in turn `k` of 122-182, for a geometry of `patches` patches. -/
def writesOf (paraview write : Bool) (out : FileName) (patches : ℕ) (x : FileName × ℕ) : List (FileName × Written) :=
  (if paraview then (List.range patches).map fun p => (vtsFile out x.2 p, Written.patch x.1 p) else []) ++
    if write then [(tableFile out x.2, Written.table x.1)] else []

/-- All files written, 120-182. -/
def postWrites (paraview write : Bool) (out : FileName) (patches : ℕ) (files : List FileName) :
    List (FileName × Written) :=
  files.zipIdx.flatMap (writesOf paraview write out patches)

/-- The parts of the collection with their times, 133-134: `output + util::to_string(k) + "0" + ".vts"`. -/
def postParts (out : FileName) (files : List FileName) : List (FileName × ℕ) :=
  files.zipIdx.map fun x => (out ++ (Nat.repr x.2).toList ++ "0".toList ++ ".vts".toList, x.2)

/-- The folder after files were written one after the other. -/
def afterWrites {N C : Type} [DecidableEq N] : List (N × C) → (N → Option C) → N → Option C
  | [], d => d
  | (n, c) :: l, d => afterWrites l (Function.update d n (some c))

/-! ### PlotIsolines -/

section Isolines

variable {K : Type} [Field K] [LinearOrder K]

/-- A patch: `parameterRange()` in both directions and the map. -/
structure IsoPatch (K : Type) where
  range : Fin 2 → K × K
  map : (Fin 2 → K) → List K

/-- Column `i` of `coords`, 83-87 and 95-99. -/
def isoPoint (r : Fin 2 → K × K) (dir : Fin 2) (u : K) (N i : ℕ) : Fin 2 → K := fun j =>
  if j = dir then u * ((r dir).2 - (r dir).1) + (r dir).1
  else linSpaced N 0 1 i * ((r j).2 - (r j).1) + (r j).1

/-- Row `i` of `result`: the patches side by side (79-92), or one patch (94-102). -/
def isoRow (mp : List (IsoPatch K)) (dir : Fin 2) (u : K) (N i : ℕ) : List K :=
  mp.flatMap fun s => s.map (isoPoint s.range dir u N i)

/-- The table of one line, 66-104. `patch` is the option, −1 being `none`. -/
def isoTable (mp : List (IsoPatch K)) (patch : Option ℕ) (dir : Fin 2) (u : K) (N : ℕ) : Option (List (List K)) :=
  match patch with
  | none => some ((List.range N).map (isoRow mp dir u N))
  | some p => match mp[p]? with
    | none => none
    | some s => some ((List.range N).map fun i => s.map (isoPoint s.range dir u N i))

/-- The files, 75-104. A name is made of the millionths of `u`, which `std::to_string` writes, and the direction (103).
`none`: undefined behaviour, the direction is neither 0 nor 1 or there is no such patch. -/
def isoFiles (micro : K → ℤ) (mp : List (IsoPatch K)) (patch : Option ℕ) (N : ℕ) :
    List (K × ℕ) → Option (List ((ℤ × ℕ) × List (List K)))
  | [] => some []
  | (u, dir) :: l =>
    if h : dir < 2 then
      match isoTable mp patch ⟨dir, h⟩ u N, isoFiles micro mp patch N l with
      | some t, some r => some (((micro u, dir), t) :: r)
      | _, _ => none
    else none

end Isolines

end GsSA.Tools
