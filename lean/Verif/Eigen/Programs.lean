import Verif.ALM.Base
import Verif.Eigen.Base

/-!
# Model of the programs for modes of vibration and buckling

`solvers/modal_shell_XML.cpp`, `solvers/modal_shell_multipatch_XML.cpp`, `solvers/buckling_shell_XML.cpp`,
`solvers/buckling_shell_multipatch_XML.cpp`, `examples/gsThinShell_Modal.cpp` and
`examples/gsElasticity_Modal.cpp`, from the assembly on. Reading the input and the names of the files are left
out. A program ends with an exception (`GISMO_ENSURE`: `other`), with undefined behaviour or with what it
printed, plotted and wrote.
-/

namespace GsSA.Eigen

open GsSA
open GsSA.ALM (Err minCoeff)

/-- The control points of a patch: the rows of its coefficients. -/
abbrev Coefs (K : Type) := List (K × K × K)

section

variable (K V : Type) [Field K] [AddCommGroup V] [Module K V]

/-- What the programs work with. `stiffness`, `mass` and `rhs` are assembled; `jacobian` is the function with
this name (its result and the matrix it leaves); `cg` is `CGDiagonal` with `info() == Success`; `patches` are
the patches of the geometry and `displacement` the control points for a vector of unknowns, patch by patch. -/
structure PEnv where
  lib : Lib K V
  stiffness : V →ₗ[K] V
  mass : V →ₗ[K] V
  rhs : V
  jacobian : V → Bool × (V →ₗ[K] V)
  cg : (V →ₗ[K] V) → V → V × Bool
  patches : List (Coefs K)
  displacement : V → List (Coefs K)

end

/-- The files of eigenvalues. `millionths`: by `std::to_string`, which writes six decimals. `digits`: by a
stream with 12 significant digits. A value that is not finite is `none`. -/
inductive EigFile (K : Type) where
  | millionths (l : List (Option ℤ))
  | digits (l : List (Option K))
deriving DecidableEq

/-- What a program leaves: the values printed, the fields plotted, the file of eigenvalues, and what `main`
returns. -/
structure Run (K : Type) where
  printed : List (Option K)
  fields : List (List (Coefs K))
  file : Option (EigFile K)
  exit : ℤ
deriving DecidableEq

/-- The switches of the command line. `micro` is the number of millionths that `std::to_string` writes, `sig12` the
rounding to 12 digits. -/
structure Switches (K : Type) where
  plot : Bool
  write : Bool
  micro : K → ℤ
  sig12 : K → K

variable {K V : Type} [Field K] [LinearOrder K] [AddCommGroup V] [Module K V]

/-- `GISMO_ENSURE(status == gsStatus::Success, …)`: `modal_shell_XML.cpp` 250, `buckling_shell_XML.cpp` 245,
`gsThinShell_Modal.cpp` 529, `gsElasticity_Modal.cpp` 213. -/
def ensured : ESt K V × Except Err Status → Except Err (ESt K V)
  | (s, .ok .success) => .ok s
  | (_, .ok _) => .error .other
  | (_, .error x) => .error x

/-- The loop over ten eigenvalues, `modal_shell_XML.cpp` 255-258, `buckling_shell_XML.cpp` 250-253,
`gsThinShell_Modal.cpp` 537-540. `values.at(k)` beyond the end of the matrix is undefined. -/
def firstTen (l : List (Option K)) : Except Err (List (Option K)) :=
  if l.length < 10 then .error .ub else .ok (l.take 10)

/-- The loop over the modes to plot; a column that is not there is undefined. -/
def plotAll (f : V → Except Err (List (Coefs K))) (n : ℕ) (v : List V) : Except Err (List (List (Coefs K))) :=
  if v.length < n then .error .ub else (v.take n).mapM f

def addPt (a b : K × K × K) : K × K × K := (a.1 + b.1, a.2.1 + b.2.1, a.2.2 + b.2.2)
def subPt (a b : K × K × K) : K × K × K := (a.1 - b.1, a.2.1 - b.2.1, a.2.2 - b.2.2)
def divPt (c : K) (a : K × K × K) : K × K × K := (a.1 / c, a.2.1 / c, a.2.2 / c)

/-- `constructSolution`: the deformed geometry. -/
def PEnv.deformed (P : PEnv K V) (v : V) : List (Coefs K) :=
  List.zipWith (List.zipWith addPt) P.patches (P.displacement v)

/-- `coefs() -= mp.patch(k).coefs()`. -/
def minus (a b : Coefs K) : Coefs K := List.zipWith subPt a b

/-- `maxCoeff` of Eigen; not defined for an empty vector. -/
def maxCoeff : List K → Option K
  | [] => none
  | x :: xs => some (xs.foldl max x)

/-- `maxAmpl`, `buckling_shell_XML.cpp` 274, `gsThinShell_Modal.cpp` 566, `gsElasticity_Modal.cpp` 244;
`none` for a patch without control points. -/
def maxAmpl (c : Coefs K) : Option K :=
  match maxCoeff (c.map fun p => p.2.2), minCoeff (c.map fun p => p.2.2) with
  | some hi, some lo => some (max |hi| |lo|)
  | _, _ => none

/-- `buckling_shell_XML.cpp` 273-278, `gsThinShell_Modal.cpp` 566-571. -/
def unitZ (c : Coefs K) : Except Err (Coefs K) :=
  match maxAmpl c with
  | none => .error .ub
  | some m => .ok (if m ≠ 0 then c.map (divPt m) else c)

/-- The field of `modal_shell_XML.cpp` 271-276. -/
def modalField (P : PEnv K V) (v : V) : Except Err (List (Coefs K)) :=
  .ok (List.zipWith minus (P.deformed v) P.patches)

/-- The field of `buckling_shell_XML.cpp` 266-278 and of `gsThinShell_Modal.cpp` 557-571: only the first patch. -/
def firstPatchField (P : PEnv K V) (v : V) : Except Err (List (Coefs K)) :=
  match P.deformed v, P.patches with
  | a :: l, b :: _ => (unitZ (minus a b)).map fun c => c :: l
  | _, _ => .error .ub

/-- The field of `gsElasticity_Modal.cpp` 238-248. -/
def solidField (P : PEnv K V) (v : V) : Except Err (List (Coefs K)) :=
  match P.displacement v with
  | a :: l => (unitZ a).map fun c => c :: l
  | _ => .error .ub

/-- The field of `modal_shell_multipatch_XML.cpp` 313-331 and `buckling_shell_multipatch_XML.cpp` 443-461. -/
def mappedField (P : PEnv K V) (v : V) : Except Err (List (Coefs K)) :=
  .ok (P.displacement (normalize P.lib v))

/-- `if (plot)`. -/
def plotted (sw : Switches K) (field : V → Except Err (List (Coefs K))) (n : ℕ) (v : List V) :
    Except Err (List (List (Coefs K))) :=
  if sw.plot then plotAll field n v else .ok []

/-- The end of all programs, after `ensured`. -/
def output (sw : Switches K) (field : V → Except Err (List (Coefs K))) (n : ℕ) (file : List (Option K) → Option (EigFile K))
    (exit : ℤ) (s : ESt K V) : Except Err (Run K) := do
  let printed ← firstTen s.values
  let fields ← plotted sw field n s.vectors
  .ok ⟨printed, fields, if sw.write then file s.values else none, exit⟩

/-- `writeToCSVfile`, `modal_shell_XML.cpp` 25-44. -/
def toStringFile (sw : Switches K) (l : List (Option K)) : Option (EigFile K) :=
  some (.millionths (l.map (Option.map sw.micro)))

/-- `modal_shell_multipatch_XML.cpp` 344-352, `buckling_shell_multipatch_XML.cpp` 471-479. -/
def streamFile (sw : Switches K) (l : List (Option K)) : Option (EigFile K) :=
  some (.digits (l.map (Option.map sw.sig12)))

/-- `modal_shell_XML.cpp` 233-296. -/
def modalXML (P : PEnv K V) (o : Opts K) (nmodes : ℤ) (sw : Switches K) : Except Err (Run K) := do
  let s ← ensured (computeSparse P.lib nmodes (modal o P.stiffness P.mass))
  output sw (modalField P) nmodes.toNat (toStringFile sw) 0 s

/-- `modal_shell_multipatch_XML.cpp` 274-353. -/
def modalMultiXML (P : PEnv K V) (o : Opts K) (nmodes : ℤ) (sw : Switches K) : Except Err (Run K) := do
  let s ← ensured (computeSparse P.lib nmodes (modal o P.stiffness P.mass))
  output sw (mappedField P) nmodes.toNat (streamFile sw) 0 s

/-- `buckling_shell_XML.cpp` 228-238 and `buckling_shell_multipatch_XML.cpp` 398-413: the linear solution, whose
convergence is not looked at, and the Jacobian there. -/
def jacobianAt (P : PEnv K V) : Except Err (V →ₗ[K] V) :=
  match P.jacobian (P.cg P.stiffness P.rhs).1 with
  | (true, N) => .ok N
  | (false, _) => .error .other

/-- `buckling_shell_XML.cpp` 212-295. The switch `write` is not used. -/
def bucklingXML (P : PEnv K V) (o : Opts K) (nmodes : ℤ) (sw : Switches K) : Except Err (Run K) := do
  let N ← jacobianAt P
  let s ← ensured (computeSparse P.lib nmodes (bucklingOf o P.stiffness N))
  output sw (firstPatchField P) nmodes.toNat (fun _ => none) 0 s

/-- `buckling_shell_multipatch_XML.cpp` 377-480; line 414 subtracts the linear matrix. -/
def bucklingMultiXML (P : PEnv K V) (o : Opts K) (nmodes : ℤ) (sw : Switches K) : Except Err (Run K) := do
  let N ← jacobianAt P
  let s ← ensured (computeSparse P.lib nmodes (bucklingOf o P.stiffness (N - P.stiffness)))
  output sw (mappedField P) nmodes.toNat (streamFile sw) 0 s

/-- The options of the examples, `gsThinShell_Modal.cpp` 516-521, `gsElasticity_Modal.cpp` 200-205; the
tolerance is the default one (`gsEigenProblemBase.h` 83). -/
def exampleOpts (shift : K) : Opts K := ⟨2, 0, 4, 2, 1 / 10 ^ 10, shift⟩

/-- `gsThinShell_Modal.cpp` 523-529, `gsElasticity_Modal.cpp` 207-213. -/
def exampleSolve (P : PEnv K V) (sparse : Bool) (shift : K) : Except Err (ESt K V) :=
  let s := modal (exampleOpts shift) P.stiffness P.mass
  ensured (if sparse then computeSparse P.lib 10 s else ((compute P.lib s).1, .ok (compute P.lib s).2))

/-- `gsThinShell_Modal.cpp` 510-598. -/
def thinShellModal (P : PEnv K V) (sparse first : Bool) (shift : K) (sw : Switches K) : Except Err (Run K) := do
  let s ← exampleSolve P sparse shift
  output sw (firstPatchField P) (if first then 1 else s.vectors.length) (toStringFile sw) 0 s

/-- `gsElasticity_Modal.cpp` 194-262: `main` returns 1; the switch `write` is not used. -/
def elasticityModal (P : PEnv K V) (sparse first : Bool) (shift : K) (sw : Switches K) : Except Err (Run K) := do
  let s ← exampleSolve P sparse shift
  output sw (solidField P) (if first then 1 else s.vectors.length) (fun _ => none) 1 s

end GsSA.Eigen
