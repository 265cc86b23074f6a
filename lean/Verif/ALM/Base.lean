import Mathlib.Algebra.Order.Field.Basic
import Mathlib.Algebra.Module.Defs
import Verif.Base.Status

/-!
# Model of `gsALMBase`: one arc-length step

`src/gsALMSolvers/gsALMBase.h` and `gsALMBase.hpp`. The scalar type is an ordered field `K`, the
vectors are a `K`-module `V` with an inner product and a square root (`Geo`), matrices and
factorisations are opaque types `Mat` and `Fac`.

Exceptions are modelled with the state at the moment of the `throw`: an action maps a state to the
new state *and* an outcome, so that what a failed call leaves behind can be stated.

The calls of user callbacks and of the linear solver are recorded in a ghost field `log` (newest
first). A callback receives the number of recorded events besides its arguments, so callbacks with
an internal state, or which fail at arbitrary moments, are covered.
-/

namespace GsSA.ALM

open GsSA

/-- Inner product and square root, from which Eigen's `dot` and `norm` are made. -/
structure Geo (K V : Type) where
  dot : V → V → K
  sqrt : K → K

/-- Eigen `norm()`. -/
def Geo.norm {K V : Type} (g : Geo K V) (x : V) : K := g.sqrt (g.dot x x)

/-- What ends an action early: `throw 1`, `throw 2`, `throw 3`, any other exception, and undefined
behaviour (which no handler catches). -/
inductive Err
  | notConverged
  | assembly
  | solver
  | other
  | ub
  deriving DecidableEq, Repr

/-- Which of the three branches of `gsALMCrisfield::computeLambdas` was taken
(`gsALMCrisfield.hpp` 328-363). -/
inductive RootKind
  | real
  | modified
  | scaled
  deriving DecidableEq, Repr

/-- Ghost record of a call of a callback or of the linear solver. The flag tells if it succeeded. -/
inductive Event
  | residual (ok : Bool)
  | jacobian (ok : Bool)
  | factor (ok : Bool)
  | solve (ok : Bool)
  | eig (ok : Bool)
  | limit
  | failedAssert
  | roots (k : RootKind)
  deriving DecidableEq, Repr

/-- The error which an event raises. -/
def Event.err : Event → Option Err
  | .residual false => some .assembly
  | .jacobian false => some .assembly
  | .factor false => some .solver
  | .solve false => some .solver
  | .limit => some .notConverged
  | .failedAssert => some .other
  | _ => none

/-- `gsALMBase.h` `struct bifmethod`; `other` is any other integer. -/
inductive BifMethod
  | nothing
  | determinant
  | eigenvalue
  | other
  deriving DecidableEq, Repr

/-- `gsALMCrisfield.h` `struct angmethod`. -/
inductive AngMethod
  | step
  | iteration
  | predictor
  deriving DecidableEq, Repr

/-- The options read by `getOptions` (`gsALMBase.hpp` 57-93, `gsALMCrisfield.hpp` 31-38) which no
computation changes afterwards. A negative `MaxIter` behaves as 0. -/
structure Opts (K : Type) where
  maxIt : ℕ
  tol : K
  tolF : K
  tolU : K
  tau : K
  desiredIt : ℤ
  quasi : Bool
  quasiInterval : ℤ
  bifMethod : BifMethod
  relax : K
  spFail : ℤ
  spTestTol : K
  spTestIt : ℕ
  spTolE : K
  spTolB : K
  phiUser : Bool
  angle : AngMethod

/-- The user callbacks, the loading, and the linear algebra library. The first argument of the
callbacks is the number of events so far. `none` is failure: a callback that returns `false`, a
factorisation with `info() != Success`, a solve that throws, an eigenvalue computation that does not
converge. `ones` is `gsVector::Ones(m_numDof)`, `vecD` is `SimplicialLDLT::vectorD`. -/
structure Env (K V Mat Fac : Type) where
  geo : Geo K V
  forcing : V
  numDof : ℕ
  ones : V
  residual : ℕ → V → K → Option V
  jacobian : ℕ → V → V → Option Mat
  factorize : ℕ → Mat → Option Fac
  solve : ℕ → Fac → V → Option V
  mul : Mat → V → V
  vecD : Fac → List K
  eigs : ℕ → Mat → K → Option (List K)

/-- The members of `gsALMBase` (`gsALMBase.h` 395-560) and of its descendants. `guess` is
`m_Uguess`, `none` if it has no rows. `fac` is the state of `m_solver`. Residual measures which are
quotients with denominator zero (infinite or NaN in C++) are `none`. Not modelled: `m_note`,
`m_verbose`, `m_residueL` (written, never read), `m_detKT`. -/
structure St (K V Mat Fac : Type) where
  U : V
  L : K
  DU : V
  DL : K
  dU : V
  dL : K
  Ubar : V
  Ut : V
  Uprev : V
  Lprev : K
  DUold : V
  DLold : K
  guess : Option V
  Lguess : K
  resVec : V
  jac : Mat
  fac : Option Fac
  len : K
  lenPrev : K
  lenOri : K
  adaptive : Bool
  phi : K
  numIt : ℕ
  residueF : Option K
  residueU : Option K
  basisF : K
  basisU : K
  converged : Bool
  stabVec : List K
  negatives : ℕ
  indicator : K
  stability : ℤ
  stabilityPrev : ℤ
  status : Status
  initialized : Bool
  v : V
  DV : V
  dV : V
  residueKTPhi : K
  log : List Event

/-- An action on the solver object: it changes the members and returns, or throws. -/
structure Act (σ α : Type) where
  /-- The effect on a state. -/
  run : σ → σ × Except Err α

namespace Act

variable {σ α β : Type}

instance : CoeFun (Act σ α) fun _ => σ → σ × Except Err α := ⟨run⟩

/-- Return a value. -/
def ret (a : α) : Act σ α := ⟨fun s => (s, .ok a)⟩

/-- Sequential composition; an exception skips the rest and keeps the state. -/
def andThen (m : Act σ α) (f : α → Act σ β) : Act σ β where
  run s :=
    match m s with
    | (t, .ok a) => f a t
    | (t, .error e) => (t, .error e)

instance : Monad (Act σ) where
  pure := ret
  bind := andThen

/-- Read the state. -/
def get : Act σ σ := ⟨fun s => (s, .ok s)⟩

/-- Assign members. -/
def modify (f : σ → σ) : Act σ Unit := ⟨fun s => (f s, .ok ())⟩

/-- `throw`. -/
def throw (e : Err) : Act σ α := ⟨fun s => (s, .error e)⟩

end Act

variable {K V Mat Fac : Type} [Field K] [LinearOrder K] [AddCommGroup V] [Module K V]

/-- Record an event. -/
def emit (e : Event) : Act (St K V Mat Fac) Unit := Act.modify fun s => { s with log := e :: s.log }

/-! ## Lengths -/

/-- The factor computed by `computeLength`, `gsALMBase.hpp` 106-117: the quotient of two integers,
truncated, and only then converted and clamped. `num` is positive. -/
def lengthFactor (desired : ℤ) (num : ℕ) : K :=
  let fac : K := ((desired.tdiv num : ℤ) : K)
  if fac < 1 / 2 then 1 / 2 else if 2 < fac then 2 else fac

/-- `gsALMBase.hpp` 106-117. Integer division by zero is undefined behaviour. -/
def computeLength (o : Opts K) : Act (St K V Mat Fac) Unit := do
  let s ← Act.get
  if s.numIt = 0 then Act.throw .ub
  else Act.modify fun s =>
    { s with lenPrev := s.len, len := s.len * lengthFactor o.desiredIt s.numIt }

/-- `gsALMBase.hpp` 120-124. -/
def reduceLength (fac : K) : Act (St K V Mat Fac) K := do
  Act.modify fun s => { s with len := s.len * fac }
  let s ← Act.get
  pure s.len

/-- `gsALMBase.hpp` 127-133. -/
def resetLength (o : Opts K) : Act (St K V Mat Fac) K := do
  Act.modify fun s => { s with len := s.lenOri, lenPrev := s.lenOri }
  let s ← Act.get
  (if s.adaptive then computeLength o else pure ())
  let s ← Act.get
  pure s.len

/-- `gsALMBase.h` 117-121 `setLength(length)`. -/
def setLength (l : K) : Act (St K V Mat Fac) Unit :=
  Act.modify fun s => { s with len := l, lenPrev := l, lenOri := l }

/-- `gsALMBase.h` 185-191 `setPrevious`. -/
def setPrevious (U : V) (L : K) : Act (St K V Mat Fac) Unit :=
  Act.modify fun s => { s with Uprev := U, Lprev := L, DUold := s.U - U, DLold := s.L - L }

/-- `gsALMBase.h` 194 `setSolution`. -/
def setSolution (U : V) (L : K) : Act (St K V Mat Fac) Unit :=
  Act.modify fun s => { s with U := U, L := L }

/-- `gsALMBase.h` 184 `setInitialGuess`, for a vector with at least one row. -/
def setInitialGuess (U : V) (L : K) : Act (St K V Mat Fac) Unit :=
  Act.modify fun s => { s with guess := some U, Lguess := L }

/-- `gsALMBase.h` 181 `resetStep`. -/
def resetStep : Act (St K V Mat Fac) Unit :=
  Act.modify fun s => { s with DUold := 0, DLold := 0 }

/-! ## Residuals and linear systems -/

/-- `gsALMBase.hpp` 136-143 `computeResidual(U, L)`. -/
def evalResidual (e : Env K V Mat Fac) (U : V) (L : K) : Act (St K V Mat Fac) V := do
  let s ← Act.get
  match e.residual s.log.length U L with
  | some r => emit (.residual true); pure r
  | none => emit (.residual false); Act.throw .assembly

/-- `gsALMBase.hpp` 145-149 `computeResidual()`. -/
def computeResidual (e : Env K V Mat Fac) : Act (St K V Mat Fac) Unit := do
  let s ← Act.get
  let r ← evalResidual e (s.U + s.DU) (s.L + s.DL)
  Act.modify fun s => { s with resVec := r }

/-- A quotient of norms; `none` if the denominator vanishes (the C++ value is then infinite or NaN
and compares false with `<`). -/
def ratio (a b : K) : Option K := if b = 0 then none else some (a / b)

/-- `r < tol` for a residual measure. -/
def below (r : Option K) (tol : K) : Bool :=
  match r with
  | some x => decide (x < tol)
  | none => false

/-- `gsALMBase.hpp` 151-183 `computeResidualNorms`, without `m_residueL`, which is never read. -/
def computeResidualNorms (e : Env K V Mat Fac) : Act (St K V Mat Fac) Unit :=
  Act.modify fun s =>
    if s.numIt = 0 then
      let bF := e.geo.norm ((s.L + s.DL) • e.forcing)
      { s with
        basisF := bF
        basisU := e.geo.norm s.DU
        residueF := ratio (e.geo.norm s.resVec) bF
        residueU := ratio (e.geo.norm s.dU) (e.geo.norm s.DU) }
    else
      { s with
        residueF := ratio (e.geo.norm s.resVec) s.basisF
        residueU := ratio (e.geo.norm s.dU) s.basisU }

/-- `gsALMBase.hpp` 186-198 `factorizeMatrix`. -/
def factorizeMatrix (e : Env K V Mat Fac) (m : Mat) : Act (St K V Mat Fac) Unit := do
  let s ← Act.get
  match e.factorize s.log.length m with
  | some f =>
    Act.modify fun s => { s with fac := some f }
    emit (.factor true)
  | none =>
    Act.modify fun s => { s with fac := none }
    emit (.factor false)
    Act.throw .solver

/-- `gsALMBase.hpp` 201-211 `solveSystem`. Solving without a factorisation is treated as a solve
that throws. -/
def solveSystem (e : Env K V Mat Fac) (b : V) : Act (St K V Mat Fac) V := do
  let s ← Act.get
  match s.fac.bind fun f => e.solve s.log.length f b with
  | some x => emit (.solve true); pure x
  | none => emit (.solve false); Act.throw .solver

/-- `gsALMBase.hpp` 214-230 `computeJacobian(U, dU)`. -/
def computeJacobianAt (e : Env K V Mat Fac) (U dU : V) : Act (St K V Mat Fac) Mat := do
  let s ← Act.get
  match e.jacobian s.log.length U dU with
  | some m =>
    emit (.jacobian true)
    factorizeMatrix e m
    pure m
  | none => emit (.jacobian false); Act.throw .assembly

/-- `gsALMBase.hpp` 240-247 `computeJacobian()`, followed by the assignment of `m_jacMat` and the
second factorisation which every caller performs. -/
def assembleFactorize (e : Env K V Mat Fac) : Act (St K V Mat Fac) Unit := do
  let s ← Act.get
  let m ← computeJacobianAt e (s.U + s.DU) s.dU
  Act.modify fun s => { s with jac := m }
  factorizeMatrix e m

/-- `gsALMBase.hpp` 249-253 `computeUbar`. -/
def computeUbar (e : Env K V Mat Fac) : Act (St K V Mat Fac) Unit := do
  let s ← Act.get
  let x ← solveSystem e (-s.resVec)
  Act.modify fun s => { s with Ubar := x }

/-- `gsALMBase.hpp` 255-259 `computeUt`. -/
def computeUt (e : Env K V Mat Fac) : Act (St K V Mat Fac) Unit := do
  let x ← solveSystem e e.forcing
  Act.modify fun s => { s with Ut := x }

/-! ## Stability -/

/-- `gsALMHelper.h` 29-42 `countNegatives`. -/
def countNegatives (l : List K) : ℕ := l.countP fun x => decide (x < 0)

/-- Eigen `minCoeff`; `none` for an empty vector, on which it is not defined. -/
def minCoeff : List K → Option K
  | [] => none
  | x :: xs => some (xs.foldl min x)

/-- `gsALMBase.hpp` 618-621 `stability()`, as a function of the indicator. -/
def stabilityOf (indicator : K) : ℤ := if indicator < 0 then 1 else -1

/-- `gsALMBase.hpp` 551-555: the Jacobian at `x`, factorised twice. -/
def reassemble (e : Env K V Mat Fac) (x : V) : Act (St K V Mat Fac) Unit := do
  let m ← computeJacobianAt e x 0
  Act.modify fun s => { s with jac := m }
  factorizeMatrix e m

/-- `gsALMBase.hpp` 558-610: the vector whose signs decide on stability. -/
def stabilityVector (e : Env K V Mat Fac) (o : Opts K) (shift : K) : Act (St K V Mat Fac) Unit := do
  let s ← Act.get
  match o.bifMethod with
  | .determinant =>
    factorizeMatrix e s.jac
    Act.modify fun s => { s with stabVec := (s.fac.map e.vecD).getD [] }
  | .eigenvalue =>
    match e.eigs s.log.length s.jac shift with
    | some l =>
      emit (.eig true)
      Act.modify fun s => { s with stabVec := l }
    | none => emit (.eig false); Act.throw .solver
  | .nothing => Act.modify fun s => { s with stabVec := List.replicate e.numDof 0 }
  | .other => pure ()

/-- `gsALMBase.hpp` 547-615 `_computeStability(x, jacobian, shift)`. The branch with the solver cast
in the determinant method always succeeds because `getOptions` (75-79) replaces the method
otherwise. -/
def computeStabilityRaw (e : Env K V Mat Fac) (o : Opts K) (x : V) (jacobian : Bool) (shift : K) :
    Act (St K V Mat Fac) Unit := do
  (if jacobian then reassemble e x else pure ())
  stabilityVector e o shift
  let s ← Act.get
  match minCoeff s.stabVec with
  | none => Act.throw .other
  | some m =>
    Act.modify fun s =>
      { s with negatives := countNegatives s.stabVec, indicator := m, stability := stabilityOf m }

/-- The `catch` blocks of `gsALMBase.hpp` 335-350, 456-470 and 528-542. -/
def statusOf : Err → Status
  | .notConverged => .notConverged
  | .assembly => .assemblyError
  | .solver => .solverError
  | .other => .otherError
  | .ub => .otherError

/-- `try { m } catch …`, with the handlers of 335-350; undefined behaviour is not an exception. -/
def caught (m : Act (St K V Mat Fac) Unit) (success : St K V Mat Fac → St K V Mat Fac) :
    Act (St K V Mat Fac) Status where
  run s :=
    match m s with
    | (t, .ok ()) => (success t, .ok (success t).status)
    | (t, .error .ub) => (t, .error .ub)
    | (t, .error err) => ({ t with status := statusOf err }, .ok (statusOf err))

/-- `gsALMBase.hpp` 521-544 `computeStability(jacobian, shift)`. -/
def computeStability (e : Env K V Mat Fac) (o : Opts K) (jacobian : Bool) (shift : K) :
    Act (St K V Mat Fac) Status where
  run s :=
    caught (computeStabilityRaw e o s.U jacobian shift) (fun t => { t with status := .success }) s

/-- `gsALMBase.hpp` 624-627 `stabilityChange`. -/
def stabilityChange (s : St K V Mat Fac) : Bool := decide (s.stability * s.stabilityPrev < 0)

/-- `gsALMBase.h` 172 `isStable`: the integer converted to `bool`. -/
def isStable (s : St K V Mat Fac) : Bool := decide (s.stability ≠ 0)

/-! ## The step -/

/-- The functions which a descendant of `gsALMBase` supplies (`gsALMBase.h` 371-390). -/
structure Method (K V Mat Fac : Type) where
  initiateStep : Act (St K V Mat Fac) Unit
  predictor : Act (St K V Mat Fac) Unit
  predictorGuess : Act (St K V Mat Fac) Unit
  quasiPredictor : Act (St K V Mat Fac) Unit
  quasiIteration : Act (St K V Mat Fac) Unit
  iteration : Act (St K V Mat Fac) Unit
  iterationFinish : Act (St K V Mat Fac) Unit

/-- `gsALMBase.hpp` 385-387: is the tangent recomputed in this iteration? -/
def refreshes (o : Opts K) (numIt : ℕ) : Bool :=
  !o.quasi || (decide (0 < o.quasiInterval) && (numIt : ℤ) % o.quasiInterval == 0)

/-- `gsALMBase.hpp` 398: the convergence test. -/
def meets (o : Opts K) (s : St K V Mat Fac) : Bool :=
  below s.residueF o.tolF && below s.residueU o.tolU

/-- `gsALMBase.hpp` 385-396: one iteration, up to the convergence test. -/
def iterationBody (e : Env K V Mat Fac) (o : Opts K) (M : Method K V Mat Fac) :
    Act (St K V Mat Fac) Unit := do
  let s ← Act.get
  (if refreshes o s.numIt then M.quasiIteration else pure ())
  M.iteration
  let _ ← computeStability e o false (-100)
  computeResidual e
  computeResidualNorms e

/-- `gsALMBase.hpp` 400-407: the point is accepted and the length for the next step chosen. -/
def finishStep (o : Opts K) (M : Method K V Mat Fac) : Act (St K V Mat Fac) Unit := do
  M.iterationFinish
  let s ← Act.get
  if s.adaptive then computeLength o
  else Act.modify fun s => { s with lenPrev := s.len }

/-- `gsALMBase.hpp` 383-415: the iterations, `rem` of which are left. -/
def iterate (e : Env K V Mat Fac) (o : Opts K) (M : Method K V Mat Fac) :
    ℕ → Act (St K V Mat Fac) Unit
  | 0 => pure ()
  | rem + 1 => do
    iterationBody e o M
    let s ← Act.get
    if meets o s then finishStep o M
    else if s.numIt = o.maxIt - 1 then
      emit .limit
      Act.throw .notConverged
    else
      Act.modify fun s => { s with numIt := s.numIt + 1 }
      iterate e o M rem

/-- `gsALMBase.hpp` 366: is there a guess to start from? -/
def usesGuess (e : Env K V Mat Fac) (s : St K V Mat Fac) : Bool :=
  match s.guess with
  | some g => decide (e.geo.norm (g - s.U) ≠ 0) && decide (s.Lguess - s.L ≠ 0)
  | none => false

/-- `gsALMBase.hpp` 357, 362-369: assertion, initialisation, predictor. -/
def beginStep (e : Env K V Mat Fac) (M : Method K V Mat Fac) : Act (St K V Mat Fac) Unit := do
  let s ← Act.get
  (if s.initialized = false then emit .failedAssert >>= fun _ => Act.throw .other else pure ())
  Act.modify fun s => { s with converged := false, numIt := 0 }
  M.initiateStep
  let s ← Act.get
  (if usesGuess e s then M.predictorGuess else M.predictor)

/-- `gsALMBase.hpp` 354-416 `_step`. -/
def stepRaw (e : Env K V Mat Fac) (o : Opts K) (M : Method K V Mat Fac) :
    Act (St K V Mat Fac) Unit := do
  beginStep e M
  computeResidual e
  computeResidualNorms e
  (if o.quasi then M.quasiPredictor else pure ())
  Act.modify fun s => { s with stabilityPrev := s.stability, numIt := 1 }
  iterate e o M (o.maxIt - 1)

/-- `gsALMBase.hpp` 328-351 `step`. -/
def step (e : Env K V Mat Fac) (o : Opts K) (M : Method K V Mat Fac) :
    Act (St K V Mat Fac) Status :=
  caught (stepRaw e o M) fun t => { t with status := .success }

end GsSA.ALM
