import Verif.Static.Base

/-!
# Model of `gsStaticNewton`

`src/gsStaticSolvers/gsStaticNewton.h`, `gsStaticNewton.hpp`. Vectors are elements of a `K`-module `V`
with a norm, matrices are an opaque type `Mat`. The number of degrees of freedom is positive, and all
vectors have this size except possibly the one given to `setUpdate`.
-/

namespace GsSA.Static

open GsSA GsSA.ALM

/-- What the constructors receive (`gsStaticNewton.h` 48-143), and the linear algebra library. The first
argument of the functions is the number of events so far, so that they may fail at arbitrary moments.
`residual` gets the load `m_L`; with the constructors that take a `Residual_t` it is ignored. `none` is
failure: a callback that returns `false`, a solve that throws. `factorize` is `info() == Success`. -/
structure NEnv (K V Mat : Type) where
  norm : V → K
  linear : Mat
  force : V
  residual : ℕ → K → V → Option V
  jacobian : ℕ → V → V → Option Mat
  factorize : ℕ → Mat → Bool
  solve : ℕ → Mat → V → Option V

/-- The members of `gsStaticBase` (`gsStaticBase.h` 236-276) used by `gsStaticNewton`. `DU` is `m_DeltaU`,
`none` if it has no rows. `nl` is `m_NL`. Not modelled: `m_start` (written, never read), `m_DeltaL`,
`m_deltaL`, the stability members. -/
structure NSt (K V : Type) where
  U : V
  DU : Option V
  du : V
  R : V
  L : K
  headstart : Bool
  numIt : ℕ
  residual : K
  residualIni : K
  residualOld : K
  status : Status
  nl : Bool
  log : List Event

variable {K V Mat : Type} [Field K] [LinearOrder K] [AddCommGroup V] [Module K V]

namespace Newton

/-- Record an event. -/
def emit (e : Event) : Act (NSt K V) Unit := Act.modify fun s => { s with log := e :: s.log }

/-- `m_DeltaU` with a size. -/
def _root_.GsSA.Static.NSt.upd (s : NSt K V) : V := s.DU.getD 0

/-- `_computeResidual`, `gsStaticNewton.hpp` 195-202. -/
def computeResidual (e : NEnv K V Mat) (U : V) : Act (NSt K V) V := do
  let s ← Act.get
  match e.residual s.log.length s.L U with
  | none => do emit (.residual false); Act.throw .assembly
  | some R => do emit (.residual true); pure R

/-- `_computeJacobian`, `gsStaticNewton.hpp` 204-212. -/
def computeJacobian (e : NEnv K V Mat) (U du : V) : Act (NSt K V) Mat := do
  let s ← Act.get
  match e.jacobian s.log.length U du with
  | none => do emit (.jacobian false); Act.throw .assembly
  | some m => do emit (.jacobian true); pure m

/-- `_factorizeMatrix`, `gsStaticNewton.hpp` 214-227. -/
def factorizeMatrix (e : NEnv K V Mat) (m : Mat) : Act (NSt K V) Unit := do
  let s ← Act.get
  if e.factorize s.log.length m then emit (.factor true)
  else do emit (.factor false); Act.throw .solver

/-- `_solveSystem`, `gsStaticNewton.hpp` 229-240, with the matrix factorised last. -/
def solveSystem (e : NEnv K V Mat) (m : Mat) (F : V) : Act (NSt K V) V := do
  let s ← Act.get
  match e.solve s.log.length m F with
  | none => do emit (.solve false); Act.throw .solver
  | some x => do emit (.solve true); pure x

/-- `_solveLinear`, `gsStaticNewton.hpp` 100-112. -/
def solveLinearRaw (e : NEnv K V Mat) : Act (NSt K V) V := do
  factorizeMatrix e e.linear
  let x ← solveSystem e e.linear e.force
  Act.modify fun s => { s with U := x }
  pure x

/-- `_start`, `gsStaticNewton.hpp` 273-316. -/
def start (e : NEnv K V Mat) : Act (NSt K V) Unit := do
  let s ← Act.get
  (if s.headstart then do
    let R ← computeResidual e (s.U + s.upd)
    Act.modify fun s => { s with
      R := R, residual := nz (e.norm R), residualOld := nz (e.norm R) }
    let R₀ ← computeResidual e s.U
    Act.modify fun s => { s with residualIni := nz (e.norm R₀), headstart := false }
  else do
    Act.modify fun s => { s with DU := some 0 }
    let R ← computeResidual e s.U
    Act.modify fun s => { s with
      R := R, residual := nz (e.norm R), residualIni := nz (e.norm R)
      residualOld := nz (e.norm R) })
  Act.modify fun s => { s with du := 0 }

/-- `gsStaticNewton.hpp` 148-153: without an update the linear solution is used. -/
def linearStart (e : NEnv K V Mat) : Act (NSt K V) Unit := do
  let s ← Act.get
  match s.DU with
  | some _ => pure ()
  | none => do
    let x ← solveLinearRaw e
    Act.modify fun s => { s with du := x, DU := some x, U := 0, headstart := true }

/-- Body of the loop up to the convergence test, `gsStaticNewton.hpp` 162-179. -/
def iteration (e : NEnv K V Mat) (o : Opts K) : Act (NSt K V) Unit := do
  let s ← Act.get
  let m ← computeJacobian e (s.U + s.upd) s.du
  factorizeMatrix e m
  let x ← solveSystem e m s.R
  Act.modify fun s => { s with du := x, DU := some (s.upd + o.relax • x) }
  let s ← Act.get
  let R ← computeResidual e (s.U + s.upd)
  Act.modify fun s => { s with R := R, residual := e.norm R, residualOld := e.norm R }

/-- The convergence test, `gsStaticNewton.hpp` 181. -/
def converged (e : NEnv K V Mat) (o : Opts K) (s : NSt K V) : Bool :=
  quotLt (o.relax * e.norm s.du) (e.norm s.upd) o.theTolU &&
    quotLt s.residual s.residualIni o.theTolF

/-- `m_U += m_DeltaU`, `gsStaticNewton.hpp` 183, 188. -/
def accept : Act (NSt K V) Unit := Act.modify fun s => { s with U := s.U + s.upd }

/-- The loop, `gsStaticNewton.hpp` 160-191, with `n` iterations left. -/
def loop (e : NEnv K V Mat) (o : Opts K) : ℕ → Act (NSt K V) Unit
  | 0 => pure ()
  | n + 1 => do
    iteration e o
    let s ← Act.get
    if converged e o s then accept
    else if s.numIt + 1 = o.maxIt then do
      accept
      emit .limit
      Act.throw .notConverged
    else do
      Act.modify fun s => { s with numIt := s.numIt + 1 }
      loop e o n

/-- `_solveNonlinear`, `gsStaticNewton.hpp` 141-193. -/
def solveNonlinearRaw (e : NEnv K V Mat) (o : Opts K) : Act (NSt K V) Unit := do
  linearStart e
  start e
  Act.modify fun s => { s with numIt := 0 }
  loop e o o.maxIt

/-- `try { m; m_status = Success; } catch …`, `gsStaticNewton.hpp` 76-97, 116-137. No action of this
model has undefined behaviour. -/
def caught {α : Type} (m : Act (NSt K V) α) (s : NSt K V) : Status × NSt K V :=
  match m s with
  | (t, .ok _) => (.success, { t with status := .success })
  | (t, .error x) => (statusOf x, { t with status := statusOf x })

/-- `solveLinear`, `gsStaticNewton.hpp` 74-98. -/
def solveLinear (e : NEnv K V Mat) (s : NSt K V) : Status × NSt K V := caught (solveLinearRaw e) s

/-- `solveNonlinear`, `gsStaticNewton.hpp` 114-138. -/
def solveNonlinear (e : NEnv K V Mat) (o : Opts K) (s : NSt K V) : Status × NSt K V :=
  caught (solveNonlinearRaw e o) s

/-- `solve`, `gsStaticNewton.h` 148-154. -/
def solve (e : NEnv K V Mat) (o : Opts K) (s : NSt K V) : Status × NSt K V :=
  if s.nl then solveNonlinear e o s else solveLinear e s

/-! ## Setters and constructors -/

/-- `setDisplacement`, `gsStaticBase.h` 102-106. -/
def setDisplacement (s : NSt K V) (U : V) : NSt K V := { s with U := U }

/-- `setLoad`, `gsStaticBase.h` 109. -/
def setLoad (s : NSt K V) (L : K) : NSt K V := { s with L := L }

/-- `setSolution`, `gsStaticBase.h` 112-116. -/
def setSolution (s : NSt K V) (U : V) (L : K) : NSt K V := setLoad (setDisplacement s U) L

/-- `setUpdate`, `gsStaticBase.h` 117-121. -/
def setUpdate (s : NSt K V) (x : Option V) : NSt K V := { s with headstart := true, DU := x }

/-- `reset`, `gsStaticNewton.hpp` 242-248 and `gsStaticBase.h` 136-144. -/
def reset (s : NSt K V) : NSt K V :=
  { s with U := 0, DU := some 0, du := 0, R := 0, L := 0, headstart := false }

/-- `initialize`, `gsStaticBase.h` 54-58. -/
def initializeSolver (s : NSt K V) : NSt K V := reset s

/-- `_init`, `gsStaticNewton.hpp` 250-271. `nl`: are Jacobian and residual given? -/
def init (nl : Bool) (s : NSt K V) : NSt K V :=
  { reset s with nl := nl, residual := 0, residualIni := 0, residualOld := 0, status := .notStarted }

/-- Constructor without callbacks, `gsStaticNewton.h` 48-58. `s` has the uninitialised members. -/
def ctorLinear (s : NSt K V) : NSt K V := init false s

/-- Constructors with a `Residual_t`, `gsStaticNewton.h` 68-87, 129-143. -/
def ctor (s : NSt K V) : NSt K V := init true s

/-- Constructor with an `ALResidual_t`, `gsStaticNewton.h` 97-121. -/
def ctorAL (s : NSt K V) : NSt K V := init true { s with L := 1 }

end Newton

end GsSA.Static
