import Mathlib.Algebra.Order.Field.Basic
import Verif.Tools.Output

/-!
# Tables of the steps in the benchmarks and examples

`initStepOutput`, `writeStepOutput`, `initSectionOutput`, `writeSectionOutput` of the benchmarks and of two examples.
Where the programs have the same text, the line numbers are those of `examples/gsThinShell_ArcLength.cpp`. A file is the
list of its characters. Numbers are written by an arbitrary function `fmt` of the precision of the stream. The points are
given by two parameters, as in all programs. `abs` is the absolute value.
-/

namespace GsSA.Tools

open GsSA

variable {K : Type}

/-- Texts with commas between them. -/
def joined : List Text → Text
  | [] => []
  | [x] => x
  | x :: y :: l => x ++ ',' :: joined (y :: l)

/-- The fields of a line when commas separate them: one more than there are commas. -/
def split (t : Text) : List Text := fieldsOf (t ++ [','])

/-- The programs with these tables. `frustrum` is `benchmark_FrustrumALM.cpp`. -/
inductive StepProg
  | arcLength | tension | cylinder | beam | roof | frustrum | frustrumDC | shear | wrinkling | material | wrinklingDWR
  | roofDWR
deriving DecidableEq

/-- What differs in the tables: the names before those of the points, the coordinates, the names after them; is there
a comma at the end of each row; the precision of the numbers. -/
structure Layout where
  front : List Text
  coords : List Text
  back : List Text
  trailing : Bool
  precision : ℤ

/-- `gsThinShell_ArcLength.cpp` 1547-1630, and the same text in `benchmark_TensionWrinkling.cpp` 671-754,
`benchmark_Cylinder.cpp` 430-513, `benchmark_Beam.cpp` 472-555, `benchmark_Roof.cpp` 541-624,
`benchmark_FrustrumALM.cpp` 537-620, `benchmark_FrustrumDC.cpp` 511-594. -/
def commonLayout : Layout :=
  ⟨["Deformation norm".toList], ["x".toList, "y".toList, "z".toList], ["Lambda".toList, "Indicator".toList], true, 6⟩

/-- The tables of the programs: `example_ShearWrinkling.cpp` 572-654, `benchmark_Wrinkling.cpp` 1092-1140,
`benchmark_MaterialTest.cpp` 639-688, `benchmark_Wrinkling_DWR.cpp` 1020-1109, `benchmark_Roof_DWR.cpp` 769-864. -/
def layout : StepProg → Layout
  | .shear => { commonLayout with trailing := false }
  | .wrinkling => { commonLayout with coords := ["x".toList, "y".toList] }
  | .material => { commonLayout with coords := ["x".toList, "y".toList], precision := 12 }
  | .wrinklingDWR => { commonLayout with back := commonLayout.back ++ ["NumDofs".toList, "Error".toList] }
  | .roofDWR =>
    { commonLayout with
      front := commonLayout.front ++ ["DU norm".toList, "DU old norm".toList]
      back := commonLayout.back ++ ["NumDofs".toList, "Error".toList] }
  | _ => commonLayout

/-- The names of the columns of the points, 1553-1558. -/
def stepNames (points : ℕ) (coords : List Text) : List Text :=
  (List.range points).flatMap fun k => coords.map fun x => "point ".toList ++ (Nat.repr k).toList ++ " - ".toList ++ x

/-- `initStepOutput`, 1547-1566: the file afterwards. -/
def Layout.header (l : Layout) (points : ℕ) : Text :=
  cells l.front ++ cells (stepNames points l.coords) ++ joined l.back ++ ['\n']

/-- A deformation: the number of coordinates, and coordinate `i` on a patch at two parameters. -/
structure Shape (K : Type) where
  dim : ℕ
  value : ℕ → K → K → ℕ → K

/-- `eval_into(P,tmp); out.col(p) = tmp;` 1578-1579, where `out` has `rows` rows; without assertions the first ones are
copied. -/
def Shape.column (asserts : Bool) (rows : ℕ) (d : Shape K) (patch : ℕ) (p : K × K) : Except Fail (List K) :=
  if d.dim = rows ∨ (asserts = false ∧ rows ≤ d.dim) then .ok ((List.range rows).map (d.value patch p.1 p.2))
  else .error (if asserts then .assert else .ub)

/-- The loop 1575-1580; `patch` is `patches(0,p)` in `benchmark_Wrinkling.cpp` 1122 and 0 elsewhere. -/
def Shape.columns (asserts : Bool) (rows : ℕ) (d : Shape K) (patch : ℕ → ℕ) : ℕ → List (K × K) →
    Except Fail (List (List K))
  | _, [] => .ok []
  | k, p :: l =>
    match d.column asserts rows (patch k) p with
    | .error e => .error e
    | .ok c =>
      match d.columns asserts rows patch (k + 1) l with
      | .error e => .error e
      | .ok cs => .ok (c :: cs)

section

variable [Field K] [LinearOrder K]

/-- `1.0*k/(n-1)`, 1607 and 1694. For `n = 1` it is not a number in the code. -/
def sample (n k : ℕ) : K := k / ((n : K) - 1)

/-- The parameters on the section through `p`, 1604-1607: `Q.at(1-extreme) = points(1-extreme,p)`,
`Q.at(extreme) = t`. -/
def onSection (extreme : ℤ) (p : K × K) (t : K) : K × K := if extreme = 0 then (t, p.2) else (p.1, t)

/-- `out2.col(p)`, 1601-1611. -/
def Shape.sectionZ (d : Shape K) (extreme : ℤ) (kmax : ℕ) (p : K × K) : List K :=
  (List.range kmax).map fun k =>
    d.value 0 (onSection extreme p (sample kmax k)).1 (onSection extreme p (sample kmax k)).2 2

/-- `std::max(abs(c.maxCoeff()),abs(c.minCoeff()))`, 1619; undefined for an empty vector. -/
def extremeOf : List K → Option K
  | [] => none
  | x :: l => some (max |l.foldl max x| |l.foldl min x|)

/-- Replace the third number of each column by the extreme, 1615-1620. -/
def withExtremes (d : Shape K) (extreme : ℤ) (kmax : ℕ) : List (K × K) → List (List K) → Except Fail (List (List K))
  | p :: l, c :: cs =>
    match extremeOf (d.sectionZ extreme kmax p) with
    | none => .error .ub
    | some e =>
      match withExtremes d extreme kmax l cs with
      | .error f => .error f
      | .ok r => .ok ((c.take 2 ++ [e]) :: r)
  | _, _ => .ok []

/-- The numbers of the points in a row, 1571-1627; `GISMO_ERROR` for another `extreme`. -/
def pointValues (asserts : Bool) (rows : ℕ) (d : Shape K) (patch : ℕ → ℕ) (pts : List (K × K)) (extreme : ℤ)
    (kmax : ℕ) : Except Fail (List (List K)) :=
  match d.columns asserts rows patch 0 pts with
  | .error e => .error e
  | .ok cs =>
    if extreme = -1 then .ok cs
    else if extreme = 0 ∨ extreme = 1 then withExtremes d extreme kmax pts cs
    else .error .exc

/-- The other numbers of a row. The number of degrees of freedom is an integer in the code. -/
structure StepVals (K : Type) where
  norm : K
  duNorm : K
  duOldNorm : K
  lam : K
  indicator : K
  nDoFs : K
  error : K

/-- The numbers before the points: `benchmark_Roof_DWR.cpp` 813-815 and 844-846, 1587 and 1614 elsewhere. -/
def frontValues (p : StepProg) (v : StepVals K) : List K :=
  if p = .roofDWR then [v.norm, v.duNorm, v.duOldNorm] else [v.norm]

/-- The numbers after the points: `benchmark_Wrinkling_DWR.cpp` 1070-1073 and 1099-1102, `benchmark_Roof_DWR.cpp`
823-826 and 854-857, 1595-1596 and 1622-1623 elsewhere. -/
def backValues (p : StepProg) (v : StepVals K) : List K :=
  if p = .roofDWR ∨ p = .wrinklingDWR then [v.lam, v.indicator, v.nDoFs, v.error] else [v.lam, v.indicator]

/-- The row appended by `writeStepOutput`. -/
def rowText (p : StepProg) (fmt : ℤ → K → Text) (v : StepVals K) (cs : List (List K)) : Text :=
  cells ((frontValues p v).map (fmt (layout p).precision)) ++ cells (cs.flatten.map (fmt (layout p).precision)) ++
    joined ((backValues p v).map (fmt (layout p).precision)) ++ (if (layout p).trailing then [','] else []) ++ ['\n']

/-- The argument `extreme` in the programs: 1229, `benchmark_TensionWrinkling.cpp` 548, `benchmark_Cylinder.cpp` 405,
`benchmark_Beam.cpp` 381, `benchmark_Roof.cpp` 503, `benchmark_FrustrumALM.cpp` 447, `benchmark_FrustrumDC.cpp` 416,
`example_ShearWrinkling.cpp` 437, `benchmark_Wrinkling_DWR.cpp` 637, 692, 919; the default in `benchmark_Roof_DWR.cpp`
720; there is no such argument in `benchmark_Wrinkling.cpp` and `benchmark_MaterialTest.cpp`. -/
def extremeArg : StepProg → ℤ
  | .wrinkling | .material | .roofDWR => -1
  | _ => 1

/-- The argument `kmax`. -/
def kmaxArg : ℕ := 201

/-- The number of rows of `out`. -/
def outRows (p : StepProg) : ℕ := if p = .wrinkling ∨ p = .material then 2 else 3

/-- The rows of the steps. -/
def stepRows (asserts : Bool) (p : StepProg) (fmt : ℤ → K → Text) (patch : ℕ → ℕ) (pts : List (K × K)) :
    List (Shape K × StepVals K) → Except Fail Text
  | [] => .ok []
  | (d, v) :: l =>
    match pointValues asserts (outRows p) d patch pts (extremeArg p) kmaxArg with
    | .error e => .error e
    | .ok cs =>
      match stepRows asserts p fmt patch pts l with
      | .error e => .error e
      | .ok t => .ok (rowText p fmt v cs ++ t)

/-- The file after the steps, if it held `old` before: with `--write` the header is written first. -/
def stepTable (asserts write : Bool) (p : StepProg) (fmt : ℤ → K → Text) (patch : ℕ → ℕ) (pts : List (K × K))
    (steps : List (Shape K × StepVals K)) (old : Text) : Except Fail Text :=
  if write then
    match stepRows asserts p fmt patch pts steps with
    | .error e => .error e
    | .ok t => .ok ((layout p).header pts.length ++ t)
  else .ok old

/-! ### Cross sections -/

/-- Files by their names. -/
abbrev Files := Text → Text

/-- `wn2`, `wn3`, `wn4`, 1637-1648 and 1673-1684, for the letter `X`, `Y` or `Z`. -/
def sectionName (dir : Text) (undeformed : Bool) (c : Char) : Text :=
  dir ++ "/pointdata".toList ++ [c] ++ (if undeformed then ['0'] else []) ++ ".txt".toList

/-- The coordinates and the letters of their files. -/
def sectionLetters : List (ℕ × Char) := [(0, 'X'), (1, 'Y'), (2, 'Z')]

/-- `initSectionOutput`, 1632-1660: three files are emptied. -/
def initSection (dir : Text) (undeformed : Bool) (fs : Files) : Files :=
  sectionLetters.foldl (fun fs c => Function.update fs (sectionName dir undeformed c.2) []) fs

/-- `P`, 1665-1668 and 1694. -/
def crossPoint (coordinate : ℕ) (val t : K) : K × K := if coordinate = 0 then (val, t) else (t, val)

/-- The line for coordinate `i`, 1692-1716; `str` is `std::to_string`. -/
def sectionLine (str : K → Text) (mp : Shape K) (coordinate : ℕ) (val : K) (n i : ℕ) : Text :=
  joined ((List.range n).map fun k =>
    str (mp.value 0 (crossPoint coordinate val (sample n k)).1 (crossPoint coordinate val (sample n k)).2 i)) ++ ['\n']

/-- `writeSectionOutput`, 1663-1720, in a build with assertions: three files get one more line. -/
def writeSection (str : K → Text) (mp : Shape K) (dir : Text) (coordinate : ℕ) (val : K) (n : ℕ) (undeformed : Bool)
    (fs : Files) : Except Fail Files :=
  if 2 ≤ coordinate then .error .assert
  else if n ≠ 0 ∧ mp.dim ≠ 3 then .error .assert
  else .ok (sectionLetters.foldl (fun fs c => Function.update fs (sectionName dir undeformed c.2)
    (fs (sectionName dir undeformed c.2) ++ sectionLine str mp coordinate val n c.1)) fs)

/-- The steps, 1231-1232. -/
def sectionSteps (str : K → Text) (dir : Text) (coordinate : ℕ) (val : K) (n : ℕ) :
    List (Shape K) → Files → Except Fail Files
  | [], fs => .ok fs
  | d :: l, fs =>
    match writeSection str d dir coordinate val n false fs with
    | .error e => .error e
    | .ok gs => sectionSteps str dir coordinate val n l gs

/-- 836-841 and 1231-1232: the files after the steps; `coordinate = none` is -1. -/
def sectionRun (crosssection : Bool) (str : K → Text) (dir : Text) (coordinate : Option ℕ) (val : K) (mp : Shape K)
    (steps : List (Shape K)) (fs : Files) : Except Fail Files :=
  match crosssection, coordinate with
  | true, some c =>
    match writeSection str mp dir c val 201 true (initSection dir true (initSection dir false fs)) with
    | .error e => .error e
    | .ok gs => sectionSteps str dir c val 201 steps gs
  | _, _ => .ok fs

end

end GsSA.Tools
