import Verif.ALM.Base
import Verif.Static.DR
import Verif.Static.Newton

/-!
# Model of the options and of the stability indicator of `gsStaticBase`

`src/gsStaticSolvers/gsStaticBase.h`. The options of the static solvers are kept in a list, `m_options`, and
copied to members by `getOptions`. Only the options used by the indicator are in the state here; those of the
solvers are `Opts` and `DROpts`.
-/

namespace GsSA.Static

open GsSA GsSA.ALM

/-- Outcome of Spectra or of Eigen's `SelfAdjointEigenSolver`: an exception, not converged, or eigenvalues. -/
inductive EigOut (K : Type) where
  | threw
  | failed
  | values (l : List K)

/-- The linear algebra library. The first argument counts the calls. `factorize` is
`info() == Success` after `compute`, `vecD` is `vectorD()` of `SimplicialLDLT`. `eigs` gets the shift. -/
structure SEnv (K Mat : Type) where
  factorize : ℕ → Mat → Bool
  vecD : Mat → List K
  eigs : ℕ → Mat → K → EigOut K

/-- `m_stabilityMethod`, and whether `m_solver` is a `SimplicialLDLT` (option `Solver`). -/
structure StabOpts where
  method : ℤ
  ldlt : Bool
deriving DecidableEq

/-- Members of `gsStaticBase` (`gsStaticBase.h` 236-276) used by the indicator. `list` is `m_options`;
`active` are `m_stabilityMethod` and `m_solver`, `none` before `getOptions`. `ind` is `m_indicator`, `none` if
it has not been written. `calls` is a ghost. -/
structure SSt (K : Type) where
  list : StabOpts
  active : Option StabOpts
  vec : List K
  ind : Option K
  calls : ℕ
deriving DecidableEq

variable {K Mat : Type} [Field K] [LinearOrder K]

namespace Stab

/-- The kinds of static solvers. -/
inductive Solver where
  | newton
  | dr
  | opt
  | composite

/-- Options and members after construction: `defaultOptions` (`gsStaticBase.h` 66-75,
`gsStaticNewton.hpp` 19-25). The members are not written. `vec` is an empty vector. -/
def fresh (k : Solver) : SSt K where
  list := { method := 1, ldlt := match k with | .newton => false | _ => true }
  active := none
  vec := []
  ind := none
  calls := 0

/-- `setOptions`, `gsStaticBase.h` 89, with the keys that are given; `gsStaticComposite.hpp` 76-80 ignores the
call. -/
def setOptions (k : Solver) (method : Option ℤ) (ldlt : Option Bool) (s : SSt K) : SSt K :=
  match k with
  | .composite => s
  | _ => { s with list := { method := method.getD s.list.method, ldlt := ldlt.getD s.list.ldlt } }

/-- `getOptions`, `gsStaticBase.h` 78-86. That of `gsStaticComposite` (`gsStaticComposite.hpp` 66-74) reads
`verbose` only. -/
def getOptions (k : Solver) (s : SSt K) : SSt K :=
  match k with
  | .composite => s
  | _ => { s with active := some s.list }

/-- Record a call of the library. -/
def count : Act (SSt K) Unit := Act.modify fun s => { s with calls := s.calls + 1 }

/-- `_computeStabilityDet`, `gsStaticBase.h` 162-180. -/
def computeDet (e : SEnv K Mat) (ldlt : Bool) (A : Mat) : Act (SSt K) Bool := do
  let s ← Act.get
  count
  if e.factorize s.calls A then do
    (if ldlt then Act.modify fun s => { s with vec := e.vecD A } else pure ())
    pure true
  else pure false

/-- `m_indicator = m_stabilityVec.colwise().minCoeff()[0]`; not defined for an empty vector. -/
def takeMin : Act (SSt K) Unit := do
  let s ← Act.get
  match minCoeff s.vec with
  | none => Act.throw .ub
  | some m => Act.modify fun s => { s with ind := some m }

/-- `_computeStabilityEig`, `gsStaticBase.h` 183-217. -/
def computeEig (e : SEnv K Mat) (A : Mat) (shift : K) : Act (SSt K) Bool := do
  let s ← Act.get
  count
  match e.eigs s.calls A shift with
  | .threw => Act.throw .other
  | .failed => pure false
  | .values l => do
    Act.modify fun s => { s with vec := l }
    takeMin
    pure true

/-- `_computeStability`, `gsStaticBase.h` 220-233. Before `getOptions` the method and the pointer to the
solver are not set. -/
def computeStability (e : SEnv K Mat) (A : Mat) (shift : K) : Act (SSt K) Bool := do
  let s ← Act.get
  match s.active with
  | none => Act.throw .ub
  | some o => do
    let success ← (if o.method = 0 then computeDet e o.ldlt A
      else if o.method = 1 then computeEig e A shift
      else pure false)
    (if success then takeMin else pure ())
    pure success

/-- `indicator`, `gsStaticBase.h` 147-151; `gsStaticOpt.h` 222-226 throws. Reading `m_indicator` before it is
written is not defined. -/
def indicator (k : Solver) (e : SEnv K Mat) (A : Mat) (shift : K) : Act (SSt K) K :=
  match k with
  | .opt => Act.throw .other
  | _ => do
    let _ ← computeStability e A shift
    let s ← Act.get
    match s.ind with
    | none => Act.throw .ub
    | some x => pure x

/-- `stabilityVec`, `gsStaticBase.h` 154-158, `gsStaticOpt.h` 228-232. -/
def stabilityVec (k : Solver) (e : SEnv K Mat) (A : Mat) (shift : K) : Act (SSt K) (List K) :=
  match k with
  | .opt => Act.throw .other
  | _ => do
    let _ ← computeStability e A shift
    let s ← Act.get
    pure s.vec

end Stab

/-! ## Options of the solvers -/

/-- `m_options` and the members set from it by `getOptions`; `none` before the first call. -/
structure Cfg (O : Type) where
  list : O
  active : Option O

namespace Cfg

variable {O : Type}

/-- `setOptions`, `gsStaticBase.h` 89. -/
def setOptions (f : O → O) (c : Cfg O) : Cfg O := { c with list := f c.list }

/-- `getOptions`. -/
def getOptions (c : Cfg O) : Cfg O := { c with active := some c.list }

end Cfg

variable {V ι : Type} [AddCommGroup V] [Module K V] [Fintype ι]

/-- `gsStaticNewton::solve` (`gsStaticNewton.h` 148-154): `_solveLinear` and `_solveNonlinear` call
`getOptions` first (`gsStaticNewton.hpp` 103, 144). -/
def newtonSolve (e : NEnv K V Mat) (c : Cfg (Opts K)) (s : NSt K V) : Cfg (Opts K) × Status × NSt K V :=
  (c.getOptions, Newton.solve e c.list s)

/-- `m(m_U, m_nonlinear)` in `gsStaticNewton::indicator()` and `stabilityVec()`. `m_nonlinear` is empty (`none`)
for the constructors of `gsStaticNewton.h` 48-58 and 129-143: calling it throws `std::bad_function_call`. The
failure of the assembly makes `GISMO_ENSURE` throw. -/
def newtonMatrix {σ : Type} (nonlinear : Option (V → Option Mat)) (U : V) : Act σ Mat :=
  match nonlinear with
  | none => Act.throw .other
  | some f =>
    match f U with
    | none => Act.throw .other
    | some m => pure m

/-- `gsStaticNewton::indicator()`, `gsStaticNewton.h` 191-196; the default of the shift is that of
`gsStaticBase.h` 147. -/
def newtonIndicator (e : SEnv K Mat) (nonlinear : Option (V → Option Mat)) (n : NSt K V) : Act (SSt K) K := do
  let m ← newtonMatrix nonlinear n.U
  Stab.indicator .newton e m (-(1 / 100))

/-- `gsStaticNewton::stabilityVec()`, `gsStaticNewton.h` 199-204. -/
def newtonStabilityVec (e : SEnv K Mat) (nonlinear : Option (V → Option Mat)) (n : NSt K V) :
    Act (SSt K) (List K) := do
  let m ← newtonMatrix nonlinear n.U
  Stab.stabilityVec .newton e m (-(1 / 100))

/-- `gsStaticDR::initialize`, `gsStaticDR.hpp` 147-154. -/
def drInitialize (e : DREnv K ι) (c : Cfg (DROpts K)) (s : DRSt K ι) : Cfg (DROpts K) × DRSt K ι :=
  (c.getOptions, DR.initializeSolver e c.list s)

/-- `gsStaticDR::solve`, `gsStaticDR.hpp` 71-95: the options are not read again. -/
def drSolve (e : DREnv K ι) (c : Cfg (DROpts K)) (s : DRSt K ι) : DRSt K ι × Except Err Status :=
  match c.active with
  | none => (s, .error .ub)
  | some o => DR.solve e o s

end GsSA.Static
