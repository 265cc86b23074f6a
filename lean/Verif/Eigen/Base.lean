import Mathlib.Algebra.Module.LinearMap.End
import Mathlib.Algebra.Order.Field.Basic
import Verif.Static.Base

/-!
# Model of the eigenvalue solvers

`src/gsEigenSolvers/gsEigenProblemBase.h`, `.hpp`, `gsBucklingSolver.h` and `gsModalSolver.h`. Matrices are
linear maps of a `K`-module `V`. The dense solver of Eigen, the solvers of Spectra, the sparse solver and
the inverse are arbitrary functions; what is assumed about them is said in the theorems. Output to the
terminal is left out. The module is taken with gsSpectra enabled.
-/

namespace GsSA.Eigen

open GsSA
open GsSA.ALM (Err)

/-- `gsEigen::ComputationInfo`, what `m_eigSolver.info()` would return. -/
inductive DenseInfo where
  | success
  | numericalIssue
  | noConvergence
  deriving DecidableEq, Repr

/-- `Spectra::CompInfo`; `unknown` stands for any other value (`gsEigenProblemBase.hpp` 143-147). -/
inductive SparseInfo where
  | successful
  | notConverging
  | numericalIssue
  | notComputed
  | unknown
  deriving DecidableEq, Repr

/-- `Spectra::GEigsMode` as selected by the option `solver` (`gsEigenProblemBase.hpp` 60-69). -/
inductive Mode where
  | cholesky
  | regularInverse
  | shiftInvert
  | buckling
  | cayley
  deriving DecidableEq, Repr

/-- `gsEigenProblemBase::defaultOptions`, `gsEigenProblemBase.h` 52-86, without `verbose`. -/
structure Opts (K : Type) where
  solver : ℤ
  selectionRule : ℤ
  sortRule : ℤ
  ncvFac : ℤ
  tolerance : K
  shift : K

section

variable (K V : Type) [Field K] [AddCommGroup V] [Module K V]

/-- What an eigenvalue solver of a library computed. -/
structure Pairs (I : Type) where
  info : I
  values : List K
  vectors : List V

/-- The libraries. `dense` is `GeneralizedSelfAdjointEigenSolver::compute` and `none` means that it throws.
`sparse mode A B number ncv selection tol sort` and `shifted` (with the shift as last argument) are the
constructor, `init` and `compute` of `gsSpectraGenSymSolver` and `gsSpectraGenSymShiftSolver`. `inverse` is
`toDense().inverse()`, `dot` and `norm` those of vectors, `ones` the vector of ones. -/
structure Lib where
  dense : (V →ₗ[K] V) → (V →ₗ[K] V) → Option (Pairs K V DenseInfo)
  sparse : Mode → (V →ₗ[K] V) → (V →ₗ[K] V) → ℤ → ℤ → ℤ → K → ℤ → Option (Pairs K V SparseInfo)
  shifted : Mode → (V →ₗ[K] V) → (V →ₗ[K] V) → ℤ → ℤ → ℤ → K → ℤ → K → Option (Pairs K V SparseInfo)
  inverse : (V →ₗ[K] V) → (V →ₗ[K] V)
  solve : (V →ₗ[K] V) → V → V
  dot : V → V → K
  norm : V → K
  ones : V

/-- The members of `gsEigenProblemBase` (`gsEigenProblemBase.h` 131-145). `values` may hold an entry that is
not a finite number: `none`. -/
structure ESt where
  a : V →ₗ[K] V
  b : V →ₗ[K] V
  opts : Opts K
  values : List (Option K)
  vectors : List V
  status : Status

end

variable {K V : Type} [Field K] [LinearOrder K] [AddCommGroup V] [Module K V]

/-- The object after the constructor, `gsEigenProblemBase.h` 41-45, with the matrices of the descendant. -/
def ESt.init (o : Opts K) (A B : V →ₗ[K] V) : ESt K V :=
  { a := A, b := B, opts := o, values := [], vectors := [], status := .notStarted }

/-- Constructor of `gsModalSolver`, `gsModalSolver.h` 46-51. -/
def modal (o : Opts K) (stiffness mass : V →ₗ[K] V) : ESt K V := ESt.init o stiffness mass

/-- The matrix of the shifted problem, `gsEigenProblemBase.hpp` 30-34 and 104-108. -/
def shiftedA (s : ESt K V) : V →ₗ[K] V :=
  if s.opts.shift ≠ 0 then s.a - s.opts.shift • s.b else s.a

/-- Keep the pairs of the library, with `sh` added to the values. -/
def ESt.store (s : ESt K V) (sh : K) (l : List K) (v : List V) : ESt K V :=
  { s with values := l.map fun x => some (x + sh), vectors := v, status := .success }

/-- `gsEigenProblemBase::compute`, `gsEigenProblemBase.hpp` 20-50. The `info()` of the solver is not used. -/
def compute (e : Lib K V) (s : ESt K V) : ESt K V × Status :=
  if s.status = .assemblyError then (s, s.status)
  else match e.dense (shiftedA s) s.b with
    | some r => (s.store s.opts.shift r.values r.vectors, .success)
    | none => ({ s with status := .solverError }, .solverError)

/-- The status for the `info()` of Spectra, `gsEigenProblemBase.hpp` 117-147 and 182-212. -/
def sparseStatus : SparseInfo → Status
  | .successful => .success
  | .notConverging => .notConverged
  | .numericalIssue => .solverError
  | .notComputed => .solverError
  | .unknown => .otherError

/-- The part after the computation, `gsEigenProblemBase.hpp` 117-148 (with `sh` the shift) and 182-213
(without). An exception of Spectra is not caught. -/
def finish (s : ESt K V) (sh : K) : Option (Pairs K V SparseInfo) → ESt K V × Except Err Status
  | none => (s, .error .other)
  | some r =>
    if r.info = .successful then (s.store sh r.values r.vectors, .ok .success)
    else ({ s with status := sparseStatus r.info }, .ok (sparseStatus r.info))

/-- `gsEigenProblemBase.hpp` 60-69. -/
def modeOf (i : ℤ) : Option Mode :=
  if i = 0 then some .cholesky
  else if i = 1 then some .regularInverse
  else if i = 2 then some .shiftInvert
  else if i = 3 then some .buckling
  else if i = 4 then some .cayley
  else none

/-- `computeSparse_impl`, `gsEigenProblemBase.hpp` 84-149 and 152-214. -/
def sparseImpl (e : Lib K V) (m : Mode) (number : ℤ) (s : ESt K V) : ESt K V × Except Err Status :=
  let o := s.opts
  match m with
  | .cholesky | .regularInverse =>
    finish s o.shift
      (e.sparse m (shiftedA s) s.b number (o.ncvFac * number) o.selectionRule o.tolerance o.sortRule)
  | .shiftInvert | .buckling | .cayley =>
    finish s 0
      (e.shifted m s.a s.b number (o.ncvFac * number) o.selectionRule o.tolerance o.sortRule o.shift)

/-- `gsEigenProblemBase::computeSparse`, `gsEigenProblemBase.hpp` 53-82. `gsBucklingSolver::computeSparse`
(`gsBucklingSolver.h` 116-122) adds a warning only. -/
def computeSparse (e : Lib K V) (number : ℤ) (s : ESt K V) : ESt K V × Except Err Status :=
  if s.status = .assemblyError then (s, .ok s.status)
  else match modeOf s.opts.solver with
    | some m => sparseImpl e m number s
    | none => ({ s with status := .notStarted }, .ok .notStarted)

/-- `normalize()` of Eigen: nothing happens to the zero vector. -/
def normalize (e : Lib K V) (v : V) : V := if 0 < e.dot v v then (e.norm v)⁻¹ • v else v

/-- The loop of `computePower`, `gsEigenProblemBase.hpp` 235-252, with `n` the iterations that are left. -/
def powerLoop (e : Lib K V) (D : V →ₗ[K] V) (tol : K) : ℕ → V → V → Status → V × Status
  | 0, v, _, st => (v, st)
  | n + 1, v, old, st =>
    let v' := normalize e (D v)
    if e.norm (v' - old) < tol then (v', .success)
    else powerLoop e D tol n v' v' (if n = 0 then .notConverged else st)

/-- `v.v / v.Dv`, `gsEigenProblemBase.hpp` 255; infinite or NaN if the denominator is 0. -/
def quotient (e : Lib K V) (D : V →ₗ[K] V) (v : V) : Option K :=
  if e.dot v (D v) = 0 then none else some (e.dot v v / e.dot v (D v))

/-- `gsEigenProblemBase::computePower`, `gsEigenProblemBase.hpp` 218-259. -/
def computePower (e : Lib K V) (s : ESt K V) : ESt K V × Status :=
  if s.status = .assemblyError then (s, s.status)
  else
    let D := e.inverse s.a ∘ₗ s.b
    let r := powerLoop e D s.opts.tolerance 100 e.ones 0 s.status
    ({ s with values := [quotient e D r.1], vectors := [r.1], status := r.2 }, r.2)

/-- `mode`, `gsEigenProblemBase.h` 105 and `gsEigenProblemBase.hpp` 261-267; `none` is an access out of
range. -/
def mode (s : ESt K V) (k : ℕ) : Option (Option K × V) :=
  match s.values[k]?, s.vectors[k]? with
  | some x, some v => some (x, v)
  | _, _ => none

/-- A call of the user. -/
inductive Op where
  | compute
  | computeSparse (number : ℤ)
  | computePower
  deriving DecidableEq, Repr

/-- Perform a call. -/
def Op.run (e : Lib K V) : Op → ESt K V → ESt K V × Except Err Status
  | .compute, s => ((Eigen.compute e s).1, .ok (Eigen.compute e s).2)
  | .computeSparse n, s => Eigen.computeSparse e n s
  | .computePower, s => ((Eigen.computePower e s).1, .ok (Eigen.computePower e s).2)

/-- Perform calls one after the other; the user catches exceptions. -/
def runs (e : Lib K V) : List Op → ESt K V → ESt K V
  | [], s => s
  | o :: l, s => runs e l (o.run e s).1

/-- What the Jacobian callback of the buckling solver does: it raises an exception, or it returns a flag and
leaves a matrix in its argument, `none` if it has not touched the empty matrix it was given. -/
inductive CbReply (K V : Type) [Field K] [AddCommGroup V] [Module K V] where
  | throws
  | returns (flag : Bool) (m : Option (V →ₗ[K] V))

/-- Constructors of `gsBucklingSolver` with callbacks (`gsBucklingSolver.h` 50-91), including
`initializeMatrix` (127-149). `nonlinear x dx` is `m_dnonlinear`; the first constructor passes a function
that ignores the second argument (57-60). After an exception `m_B` may hold anything; it is never
used again (`C67_sticky`) and is taken to be 0. `m_B -= m_A` with an empty `m_B` is undefined behaviour. -/
def buckling (e : Lib K V) (o : Opts K) (linear : V →ₗ[K] V) (rhs : V)
    (nonlinear : V → V → CbReply K V) (scaling : K) : Except Err (ESt K V) :=
  match nonlinear (e.solve linear (scaling • rhs)) 0 with
  | .throws => .ok { ESt.init o linear 0 with status := .assemblyError }
  | .returns _ (some m) => .ok (ESt.init o linear (m - linear))
  | .returns _ none => .error .ub

/-- Constructor of `gsBucklingSolver` with matrices, `gsBucklingSolver.h` 100-105. -/
def bucklingOf (o : Opts K) (linear nonlinear : V →ₗ[K] V) : ESt K V :=
  ESt.init o linear (nonlinear - linear)

end GsSA.Eigen
