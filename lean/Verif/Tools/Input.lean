import Mathlib.Algebra.Order.Field.Basic
import Verif.Tools.Output

/-!
# Input and tables of the solver programs

The eight programs of `solvers/`: what they read from the input file and hand to the assembler and the solver, and the
table `data.csv` they write. Line numbers are those of `static_shell_XML.cpp` unless another file is named; the other
programs have the same text. An object of the file has the type the program expects. Not modelled: the geometry, the
boundary conditions, the unstructured splines.
-/

namespace GsSA.Tools

open GsSA

variable {K M O F : Type}

/-! ### Matrices -/

/-- `m.col(k)`; an assertion of Eigen, without it undefined. -/
def Mat.col? (m : Mat K) (k : ℕ) : Option (List K) :=
  if k < m.cols then some ((List.range m.rows).map fun i => m.entry i k) else none

/-- `m.at(k)`: the `k`-th number in memory, column by column; not checked. -/
def Mat.at? (m : Mat K) (k : ℕ) : Option K :=
  if k < m.rows * m.cols then some (m.entry (k % m.rows) (k / m.rows)) else none

/-- A matrix constructed without arguments. -/
def Mat.empty [Zero K] : Mat K := ⟨0, 0, fun _ _ => 0⟩

/-! ### The input file -/

/-- The objects of the input file, by their IDs: 30, 31, 32 the point loads, 50, 51, 52 the reference points, 10 a
material, 11 a list of materials, 22 the pressure, 90-95 options. `anyContainer`: is there a list of materials with any
ID? -/
structure InFile (K M F O : Type) where
  points : Option (Mat K)
  loads : Option (Mat K)
  patches : Option (Mat ℤ)
  refPoints : Option (Mat K)
  refPatches : Option (Mat ℤ)
  refValues : Option (Mat K)
  material : Option M
  container : Option (List M)
  anyContainer : Bool
  pressure : Option F
  options : ℕ → Option O

/-- A point load: where, what, and on which patch. -/
structure Load (K : Type) where
  point : List K
  load : List K
  patch : ℤ
deriving DecidableEq

/-- Body of the loop 167-168. -/
def oneLoad (p l : Mat K) (i : Mat ℤ) (k : ℕ) : Except Fail (Load K) :=
  match p.col? k, l.col? k, i.at? k with
  | some x, some y, some z => .ok ⟨x, y, z⟩
  | _, _, _ => .error .ub

/-- The loop 167-168, for the given values of `k`. -/
def loadLoop (p l : Mat K) (i : Mat ℤ) : List ℕ → Except Fail (List (Load K))
  | [] => .ok []
  | k :: ks =>
    match oneLoad p l i k with
    | .error e => .error e
    | .ok x =>
      match loadLoop p l i ks with
      | .error e => .error e
      | .ok xs => .ok (x :: xs)

/-- `static_shell_XML.cpp` 154-168. -/
def InFile.pointLoads [Zero K] (f : InFile K M F O) : Except Fail (List (Load K)) :=
  let p := f.points.getD .empty
  let i := if f.points.isNone ∨ f.loads.isNone ∨ f.patches.isNone then ⟨1, p.cols, fun _ _ => 0⟩
    else f.patches.getD .empty
  loadLoop p (f.loads.getD .empty) i (List.range p.cols)

/-- `static_shell_XML.cpp` 171-186: reference points and their patches. The values (181-185) are not used. -/
def InFile.references [Zero K] (f : InFile K M F O) : Except Fail (Mat K × Mat ℤ) :=
  let p := f.refPoints.getD .empty
  let i := f.refPatches.getD .empty
  if i.cols = p.cols then .ok (p, i) else .error .ensure

/-- What the program says about the reference points. -/
inductive Coordinates
  | parametric
  | physical
  | absent
deriving DecidableEq

/-- `static_shell_XML.cpp` 188-196. `refPars` is not used. -/
def announced (p : Mat K) : Coordinates :=
  if p.rows = 2 then .parametric else if p.rows = 3 then .physical else .absent

/-- `static_shell_XML.cpp` 120-132: the materials of the patches. A missing object is an error of the file. -/
def InFile.materials (f : InFile K M F O) (nPatches : ℕ) : Except Fail (List M) :=
  if f.anyContainer then
    match f.container with
    | some l => .ok l
    | none => .error .exc
  else
    match f.material with
    | some m => .ok (List.replicate nPatches m)
    | none => .error .exc

/-! ### What the assembler and the solver get -/

/-- The programs. -/
inductive Prog
  | static | staticMulti | quasistatic | quasistaticMulti | modal | modalMulti | buckling | bucklingMulti
deriving DecidableEq

/-- What is handed on: loads, pressure, options of the assembler, and options of the solvers (for the static programs
dynamic relaxation, then Newton). `none`: the defaults remain. -/
structure Setup (K F O : Type) where
  loads : List (Load K)
  pressure : Option F
  assembler : Option O
  solver : List (Option O)

/-- The IDs of the options of the solvers: `static_shell_XML.cpp` 199-202, `static_shell_multipatch_XML.cpp` 229-232,
`quasistatic_shell_XML.cpp` 203, `quasistatic_shell_multipatch_XML.cpp` 226, `modal_shell_XML.cpp` 203,
`modal_shell_multipatch_XML.cpp` 206, `buckling_shell_XML.cpp` 182, `buckling_shell_multipatch_XML.cpp` 254. -/
def solverIds : Prog → List ℕ
  | .static | .staticMulti => [90, 91]
  | .quasistatic | .quasistaticMulti => [93]
  | .modal | .modalMulti => [95]
  | .buckling | .bucklingMulti => [94]

/-- The IDs the programs print when they read these options: the same lines, but `buckling_shell_XML.cpp` 181. -/
def printedIds : Prog → List ℕ
  | .buckling => [91]
  | p => solverIds p

/-- Are the options with ID 92 passed to the assembler? They are read by all programs, but `quasistatic_shell_XML.cpp`
has no call of `setOptions` of the assembler. -/
def passesAssemblerOptions : Prog → Bool
  | .quasistatic => false
  | _ => true

/-- Are point loads and pressure passed to the assembler? `modal_shell_multipatch_XML.cpp` reads the first and does not
read the second. -/
def passesLoads : Prog → Bool
  | .modalMulti => false
  | _ => true

/-- What the program hands on. -/
def InFile.setup [Zero K] (f : InFile K M F O) (p : Prog) : Except Fail (Setup K F O) :=
  match f.pointLoads with
  | .error e => .error e
  | .ok l =>
    match f.references with
    | .error e => .error e
    | .ok _ => .ok
      { loads := if passesLoads p then l else []
        pressure := if passesLoads p then f.pressure else none
        assembler := if passesAssemblerOptions p then f.options 92 else none
        solver := (solverIds p).map f.options }

/-! ### The tables -/

/-- A deformation or a geometry with three coordinates, patch by patch. -/
structure Surface (K : Type) where
  patches : ℕ
  value : ℕ → K → K → K × K × K

/-- `patch(i).eval(u)`: the number of the patch and the size of `u` are assertions. -/
def Surface.eval (d : Surface K) (i : ℤ) (u : List K) : Except Fail (List K) :=
  if 0 ≤ i ∧ i < d.patches then
    match u with
    | [x, y] => .ok [(d.value i.toNat x y).1, (d.value i.toNat x y).2.1, (d.value i.toNat x y).2.2]
    | _ => .error .assert
  else .error .assert

/-- `result.col(k) = deformation.patch(refPatches.at(k)).eval(refPoints.col(k))`, `static_shell_XML.cpp` 328-329, for
the given values of `k`. -/
def probes (d : Surface K) (p : Mat K) (i : Mat ℤ) : List ℕ → Except Fail (List (List K))
  | [] => .ok []
  | k :: ks =>
    match p.col? k, i.at? k with
    | some u, some j =>
      match d.eval j u with
      | .error e => .error e
      | .ok x =>
        match probes d p i ks with
        | .error e => .error e
        | .ok xs => .ok (x :: xs)
    | _, _ => .error .ub

/-- `result`, `static_shell_XML.cpp` 327-329. -/
def probe [Zero K] (d : Surface K) (p : Mat K) (i : Mat ℤ) : Except Fail (Mat K) :=
  match probes d p i (List.range p.cols) with
  | .error e => .error e
  | .ok l => .ok ⟨3, p.cols, fun r c => ((l[c]?.getD [])[r]?).getD 0⟩

/-- `pointheaders`. -/
def xyz : List Text := ["x".toList, "y".toList, "z".toList]

/-- `static_shell_XML.cpp` 267-270, 325-330: the table, whatever the file held before; `d` is the deformation. -/
def InFile.staticTable [Zero K] (f : InFile K M F O) (fmt : ℤ → K → Text) (old : Text) (write : Bool) (d : Surface K) :
    Except Fail Text :=
  match f.references with
  | .error e => .error e
  | .ok (p, i) =>
    let o := (Out.new p.cols old).init xyz []
    if write then
      match probe d p i with
      | .error e => .error e
      | .ok m => (o.add fmt m []).map Out.file
    else .ok o.file

/-- `static_shell_multipatch_XML.cpp` 350-353: the lines that add a row are comments (446-449). -/
def InFile.staticMultiTable [Zero K] (f : InFile K M F O) (old : Text) : Except Fail Text :=
  match f.references with
  | .error e => .error e
  | .ok (p, _) => .ok ((Out.new p.cols old).init xyz []).file

/-- The rows of `quasistatic_shell_XML.cpp` 364-378, one for each accepted step. -/
def quasiRows [Zero K] (fmt : ℤ → K → Text) (p : Mat K) (i : Mat ℤ) : List (Surface K × K) → Out → Except Fail Out
  | [], o => .ok o
  | (d, lam) :: l, o =>
    match probe d p i with
    | .error e => .error e
    | .ok m =>
      match o.add fmt m [lam] with
      | .error e => .error e
      | .ok o' => quasiRows fmt p i l o'

/-- `quasistatic_shell_XML.cpp` 256-259, 364-378; the steps with deformation and load factor. -/
def InFile.quasiTable [Zero K] (f : InFile K M F O) (fmt : ℤ → K → Text) (old : Text) (write : Bool)
    (steps : List (Surface K × K)) : Except Fail Text :=
  match f.references with
  | .error e => .error e
  | .ok (p, i) =>
    (quasiRows fmt p i (if write then steps else []) ((Out.new p.cols old).init xyz ["L".toList])).map Out.file

/-- A step of `quasistatic_shell_multipatch_XML.cpp` as `writeStepOutput` sees it: `solutionU().norm()`,
`solutionL()`, `indicator()`. -/
structure StepRow (K : Type) where
  norm : K
  lam : K
  indicator : K

/-- The loop of `writeStepOutput`, `quasistatic_shell_multipatch_XML.cpp` 551-556, for the given values of `p`. `P` and
the columns of `out` have two rows: `P<<points.col(p)` asserts two coordinates, without assertions more are
written behind `P`, and `out.col(p) = tmp` asserts two coordinates of the value, which has three; without assertions the
first two are copied. -/
def stepPoints (asserts : Bool) (d : Surface K) (p : Mat K) (i : Mat ℤ) : List ℕ → Except Fail (List K)
  | [] => .ok []
  | k :: ks =>
    match p.col? k with
    | none => .error .ub
    | some u =>
      if u.length ≠ 2 then .error (if asserts then .assert else .ub)
      else
        match d.eval (i.entry 0 k) u with
        | .error e => .error (if asserts then e else .ub)
        | .ok x =>
          if asserts then .error .assert
          else
            match stepPoints asserts d p i ks with
            | .error e => .error e
            | .ok xs => .ok (x.take 2 ++ xs)

/-- `writeStepOutput`, `quasistatic_shell_multipatch_XML.cpp` 545-572: the row appended. -/
def stepLine (asserts : Bool) (fmt : ℤ → K → Text) (d : Surface K) (p : Mat K) (i : Mat ℤ) (r : StepRow K) :
    Except Fail Text :=
  match stepPoints asserts d p i (List.range p.cols) with
  | .error e => .error e
  | .ok l => .ok (cells ((r.norm :: (l ++ [r.lam, r.indicator])).map (fmt 6)) ++ ['\n'])

/-- The rows one after the other. -/
def stepLines (asserts : Bool) (fmt : ℤ → K → Text) (d : Surface K) (p : Mat K) (i : Mat ℤ) :
    List (StepRow K) → Except Fail Text
  | [] => .ok []
  | r :: l =>
    match stepLine asserts fmt d p i r with
    | .error e => .error e
    | .ok x =>
      match stepLines asserts fmt d p i l with
      | .error e => .error e
      | .ok xs => .ok (x ++ xs)

/-- `quasistatic_shell_multipatch_XML.cpp` 386-389, 408, 501-502: the surface which is written is `deformation`, which
is the geometry (408) and is not assigned later. -/
def InFile.quasiMultiTable [Zero K] (f : InFile K M F O) (asserts : Bool) (fmt : ℤ → K → Text) (old : Text)
    (write : Bool) (geometry : Surface K) (steps : List (StepRow K)) : Except Fail Text :=
  match f.references with
  | .error e => .error e
  | .ok (p, i) =>
    match stepLines asserts fmt geometry p i (if write then steps else []) with
    | .error e => .error e
    | .ok t => .ok (((Out.new p.cols old).init xyz ["".toList]).file ++ t)

/-! ### The perturbation -/

/-- Option `P` of the four static and quasi-static programs, `static_shell_XML.cpp` 106-111; `rnd p i` is the number
`setRandom` gives for control point `i` of patch `p`. -/
def perturb [Mul K] [Zero K] [DecidableEq K] (P : K) (rnd : ℕ → ℕ → K) (mp : List (List (K × K × K))) :
    List (List (K × K × K)) :=
  if P ≠ 0 then mp.mapIdx fun p c => c.mapIdx fun i x => (x.1, x.2.1, rnd p i * P) else mp

/-! ### The checks of `buckling_shell_multipatch_XML.cpp` -/

/-- `GISMO_ENSURE`. -/
def ensure (b : Bool) : Except Fail Unit := if b then .ok () else .error .ensure

/-- `buckling_shell_multipatch_XML.cpp` 107. -/
def exactC1Check (degree smoothness : ℤ) : Bool := decide (smoothness ≥ 1 ∨ smoothness ≤ degree - 2)

/-- `buckling_shell_multipatch_XML.cpp` 104-109; `with3`: is the check of line 107 made? -/
def bucklingChecks (with3 : Bool) (method degree smoothness : ℤ) : Except Fail Unit := do
  ensure (decide (degree > smoothness))
  ensure (decide (smoothness ≥ 0))
  ensure (!(with3 && decide (method = 3)) || exactC1Check degree smoothness)
  ensure (!decide (method = 2 ∨ method = 3) || decide (degree > 2))

end GsSA.Tools
