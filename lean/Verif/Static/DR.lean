import Mathlib.Algebra.BigOperators.Group.Finset.Basic
import Mathlib.Algebra.Module.Pi
import Mathlib.Data.Fintype.Defs
import Verif.Static.Base

/-!
# Model of `gsStaticDR` (dynamic relaxation)

`src/gsStaticSolvers/gsStaticDR.h`, `gsStaticDR.hpp`. Vectors are functions on a finite index type. All
vectors have the right size, except `m_damp` before `initialize`.
-/

namespace GsSA.Static

open GsSA GsSA.ALM

/-- Options, `gsStaticDR.hpp` 18-37. -/
structure DROpts (K : Type) where
  base : Opts K
  damping : K
  alpha : K
  tolE : K
  resetIt : ℤ

/-- What the constructors receive (`gsStaticDR.h` 45-81), and the square root in Eigen's `norm`. The
residual callback gets the number of calls so far and the load factor; `none` means that it returned
`false`. -/
structure DREnv (K ι : Type) where
  mass : ι → K
  forcing : ι → K
  residual : ℕ → K → (ι → K) → Option (ι → K)
  sqrt : K → K

/-- The members of `gsStaticDR`. `ready`: has `initialize` been called? Before that `m_damp` is empty and the
options have not been read. `log` and `peaks` (iterations in which `_peak` was called) are ghosts. The time
step `m_dt` is 1. -/
structure DRSt (K ι : Type) where
  U : ι → K
  DU : ι → K
  du : ι → K
  R : ι → K
  v : ι → K
  massInv : ι → K
  damp : ι → K
  L : K
  headstart : Bool
  numIt : ℕ
  residual : K
  residualIni : K
  residualOld : K
  Ek : K
  EkPrev : K
  Ek0 : K
  Eks : List K
  status : Status
  ready : Bool
  log : List Event
  peaks : List ℕ

variable {K ι : Type} [Field K] [LinearOrder K] [Fintype ι]

namespace DR

/-- Record an event. -/
def emit (e : Event) : Act (DRSt K ι) Unit := Act.modify fun s => { s with log := e :: s.log }

/-- Eigen `norm()`. -/
def norm (e : DREnv K ι) (x : ι → K) : K := e.sqrt (∑ i, x i * x i)

/-- `m_v.transpose() * m_mass.cwiseProduct(m_v)`, `gsStaticDR.hpp` 201, 266. -/
def energy (e : DREnv K ι) (v : ι → K) : K := ∑ i, v i * (e.mass i * v i)

/-- `_computeResidual`, `gsStaticDR.hpp` 176-183. -/
def computeResidual (e : DREnv K ι) (U : ι → K) : Act (DRSt K ι) (ι → K) := do
  let s ← Act.get
  match e.residual s.log.length s.L U with
  | none => do emit (.residual false); Act.throw .assembly
  | some R => do emit (.residual true); pure R

/-- `_start`, `gsStaticDR.hpp` 216-267. -/
def start (e : DREnv K ι) : Act (DRSt K ι) Unit := do
  Act.modify fun s => { s with v := 0 }
  let s ← Act.get
  (if s.headstart then do
    let R ← computeResidual e (s.U + s.DU)
    Act.modify fun s => { s with
      R := R, residual := nz (norm e e.forcing), residualOld := nz (norm e e.forcing) }
    let R₀ ← computeResidual e s.U
    Act.modify fun s => { s with residualIni := nz (norm e R₀), headstart := false }
  else do
    Act.modify fun s => { s with DU := 0 }
    let R ← computeResidual e s.U
    Act.modify fun s => { s with
      R := R, residual := nz (norm e e.forcing), residualIni := nz (norm e e.forcing)
      residualOld := nz (norm e e.forcing) })
  Act.modify fun s => { s with du := fun i => 1 / 2 * (s.massInv i * s.R i) }
  Act.modify fun s => { s with v := s.du, DU := s.DU + s.du, Ek := energy e s.du }

/-- `_iteration`, `gsStaticDR.hpp` 185-202. -/
def iteration (e : DREnv K ι) : Act (DRSt K ι) Unit := do
  Act.modify fun s => { s with EkPrev := s.Ek }
  let s ← Act.get
  let r ← computeResidual e (s.U + s.DU)
  Act.modify fun s => { s with R := fun i => r i - s.damp i * s.v i }
  Act.modify fun s => { s with residual := norm e s.R }
  Act.modify fun s => { s with
    residualIni := if s.residualIni = 0 then s.residual else s.residualIni
    v := fun i => s.v i + s.massInv i * s.R i }
  Act.modify fun s => { s with du := s.v, DU := s.DU + s.v, Ek := energy e s.v }

/-- `_peak`, `gsStaticDR.hpp` 204-214. -/
def peak (e : DREnv K ι) : Act (DRSt K ι) Unit := do
  let s ← Act.get
  let r ← computeResidual e (s.U + s.DU)
  Act.modify fun s => { s with R := fun i => r i - s.damp i * s.v i, peaks := s.peaks ++ [s.numIt] }
  Act.modify fun s => { s with du := fun i => -(3 / 2) * s.v i + 1 / 2 * (s.massInv i * s.R i) }
  Act.modify fun s => { s with DU := s.DU + s.du, v := 0, Ek := 0 }

/-- The test of `gsStaticDR.hpp` 114. -/
def resets (o : DROpts K) (r : ℤ) (s : DRSt K ι) : Bool :=
  (decide (o.damping = 0) && decide (s.Ek < s.EkPrev)) || decide (r = o.resetIt)

/-- The convergence test, `gsStaticDR.hpp` 127. -/
def converged (e : DREnv K ι) (o : DROpts K) (s : DRSt K ι) : Bool :=
  quotLt s.residual s.residualIni o.base.theTolF && quotLt s.Ek s.Ek0 o.tolE &&
    quotLt (norm e s.du) (norm e s.DU) o.base.theTolU

/-- Body of the loop up to the convergence test, `gsStaticDR.hpp` 113-125. -/
def body (e : DREnv K ι) (o : DROpts K) (r : ℤ) : Act (DRSt K ι) ℤ := do
  iteration e
  let s ← Act.get
  (if resets o r s then peak e else pure ())
  Act.modify fun s => { s with Eks := s.Eks ++ [s.Ek], residualOld := s.residual }
  pure (if resets o r s then 0 else r)

/-- `m_U += m_DeltaU`. -/
def accept : Act (DRSt K ι) Unit := Act.modify fun s => { s with U := s.U + s.DU }

/-- The loop, `gsStaticDR.hpp` 111-142, with `n` iterations left until the counter reaches `maxIt`, or, with
`maxIt = 0`, until the counter overflows, which is undefined behaviour. `r` is `resetIt`. -/
def loop (e : DREnv K ι) (o : DROpts K) : ℕ → ℤ → Act (DRSt K ι) Unit
  | 0, _ => if o.base.maxIt = 0 then Act.throw .ub else pure ()
  | n + 1, r => do
    let r' ← body e o r
    let s ← Act.get
    if converged e o s then accept
    else if s.numIt + 1 = o.base.maxIt then do
      accept
      emit .limit
      Act.throw .notConverged
    else do
      Act.modify fun s => { s with numIt := s.numIt + 1 }
      loop e o n (r' + 1)

/-- Number of values of a 32 bit `index_t` from 1 to its maximum. -/
def intMax : ℕ := 2 ^ 31 - 1

/-- `_solve`, `gsStaticDR.hpp` 97-145. Without `initialize` the options are not set and `m_damp` has no
entries. -/
def solveRaw (e : DREnv K ι) (o : DROpts K) : Act (DRSt K ι) Unit := do
  let s ← Act.get
  if s.ready then do
    Act.modify fun s => { s with Eks := [], peaks := [] }
    start e
    Act.modify fun s => { s with Ek0 := s.Ek, Eks := [s.Ek], numIt := 1 }
    loop e o (if o.base.maxIt = 0 then intMax else o.base.maxIt - 1) 0
  else Act.throw .ub

/-- `solve`, `gsStaticDR.hpp` 71-95. The handlers are commented out. -/
def solve (e : DREnv K ι) (o : DROpts K) : Act (DRSt K ι) Status := do
  solveRaw e o
  Act.modify fun s => { s with status := .success }
  let s ← Act.get
  pure s.status

/-! ## Setters and constructors -/

/-- `setLoad`, `gsStaticBase.h` 109. -/
def setLoad (s : DRSt K ι) (L : K) : DRSt K ι := { s with L := L }

/-- `setDisplacement`, `gsStaticBase.h` 102-106. -/
def setDisplacement (s : DRSt K ι) (U : ι → K) : DRSt K ι := { s with U := U }

/-- `setUpdate`, `gsStaticBase.h` 117-121. -/
def setUpdate (s : DRSt K ι) (x : ι → K) : DRSt K ι := { s with headstart := true, DU := x }

/-- `reset`, `gsStaticDR.hpp` 156-166, `gsStaticBase.h` 136-144. -/
def reset (e : DREnv K ι) (s : DRSt K ι) : DRSt K ι :=
  { s with
    massInv := fun i => (e.mass i)⁻¹
    Ek := 0, Ek0 := 0, U := 0, DU := 0, du := 0, R := 0, L := 0, headstart := false, v := 0
    status := .notStarted }

/-- `initialize`, `gsStaticDR.hpp` 147-154. -/
def initializeSolver (e : DREnv K ι) (o : DROpts K) (s : DRSt K ι) : DRSt K ι :=
  { reset e s with
    massInv := fun i => (e.mass i)⁻¹ * (1 / o.alpha)
    damp := fun i => o.damping * e.mass i
    ready := true }

/-- Constructor with a `Residual_t`, `gsStaticDR.h` 45-57, `_init` (`gsStaticDR.hpp` 168-174). `s` has the
uninitialised members. -/
def ctor (e : DREnv K ι) (s : DRSt K ι) : DRSt K ι := { reset e s with ready := false }

/-- Constructor with an `ALResidual_t`, `gsStaticDR.h` 66-81. -/
def ctorAL (e : DREnv K ι) (s : DRSt K ι) : DRSt K ι := ctor e { s with L := 1 }

end DR

end GsSA.Static
