import Verif.ALM.Base

/-!
# Model of the singular point methods of `gsALMBase`

`src/gsALMSolvers/gsALMBase.hpp` 418-856: test of a singular point, bisection, extended system and
branch switching. Output is not modelled, nor are `m_basisResidualKTPhi` (written, never read),
`m_deltaVt` and `m_deltaVbar` (written and read in one iteration only).
-/

namespace GsSA.ALM

open GsSA

variable {K V Mat Fac : Type} [Field K] [LinearOrder K] [AddCommGroup V] [Module K V]

/-- Eigen `normalize()`: a zero vector stays as it is. -/
def normalized (g : Geo K V) (x : V) : V := if 0 < g.dot x x then (1 / g.norm x) • x else x

/-- `gsALMBase.hpp` 491-495: `n` steps of the inverse power method. -/
def powerSteps (e : Env K V Mat Fac) : ℕ → Act (St K V Mat Fac) Unit
  | 0 => pure ()
  | n + 1 => do
    let s ← Act.get
    let x ← solveSystem e s.v
    Act.modify fun s => { s with v := normalized e.geo x }
    powerSteps e n

/-- `gsALMBase.hpp` 475-511 `_testSingularPoint`, and 513-518 `isBifurcation`. -/
def testSingularPoint (e : Env K V Mat Fac) (o : Opts K) (jacobian : Bool) :
    Act (St K V Mat Fac) Bool := do
  let s ← Act.get
  (if jacobian then do
      let m ← computeJacobianAt e s.U s.dU
      Act.modify fun s => { s with jac := m }
      factorizeMatrix e m
    else pure ())
  Act.modify fun s => { s with v := normalized e.geo e.ones }
  let s ← Act.get
  factorizeMatrix e s.jac
  powerSteps e o.spTestIt
  let s ← Act.get
  pure (decide (|e.geo.dot s.v e.forcing| < o.spTestTol))

/-- `m_jacMat = computeJacobian(U, dU); factorizeMatrix(m_jacMat)`. -/
def refactorize (e : Env K V Mat Fac) (U dU : V) : Act (St K V Mat Fac) Unit := do
  let m ← computeJacobianAt e U dU
  Act.modify fun s => { s with jac := m }
  factorizeMatrix e m

/-- The step of the finite difference, `gsALMBase.hpp` 716. -/
def fdStep : K := 1 / 10 ^ 8

/-- `gsALMBase.hpp` 705-735 `_extendedSystemIteration`. -/
def extendedIteration (e : Env K V Mat Fac) : Act (St K V Mat Fac) Unit := do
  let s ← Act.get
  let r ← evalResidual e (s.U + s.DU) (s.L + s.DL)
  Act.modify fun s => { s with resVec := r }
  refactorize e (s.U + s.DU) s.dU
  let ut ← solveSystem e e.forcing
  Act.modify fun s => { s with Ut := ut }
  let ub ← solveSystem e (-r)
  Act.modify fun s => { s with Ubar := ub }
  let je ← computeJacobianAt e (s.U + s.DU + (fdStep : K) • (s.v + s.DV)) 0
  let s ← Act.get
  let w := s.v + s.DV
  let h1 := (1 / fdStep : K) • e.mul je ut - (1 / fdStep : K) • e.forcing
  let h2 := e.mul s.jac w + (1 / fdStep : K) • (e.mul je ub + r)
  factorizeMatrix e s.jac
  let vt ← solveSystem e (-h1)
  let vb ← solveSystem e (-h2)
  Act.modify fun s =>
    let n := (1 / e.geo.norm w) • w
    let x := -(e.geo.dot n vb + e.geo.norm w - 1) / e.geo.dot n vt
    { s with dL := x, dU := x • ut + ub, dV := x • vt + vb }

/-- `gsALMBase.hpp` 654-666: one pass of the loop up to the test. -/
def extendedBody (e : Env K V Mat Fac) : Act (St K V Mat Fac) Unit := do
  extendedIteration e
  Act.modify fun s => { s with DU := s.DU + s.dU, DL := s.DL + s.dL, DV := s.DV + s.dV }
  let s ← Act.get
  refactorize e (s.U + s.DU) s.dU
  Act.modify fun s => { s with residueKTPhi := e.geo.norm (e.mul s.jac (s.v + s.DV)) }
  let s ← Act.get
  let r ← evalResidual e (s.U + s.DU) (s.L + s.DL)
  Act.modify fun s => { s with resVec := r }
  computeResidualNorms e

/-- `m_U += m_DeltaU; m_L += m_DeltaL`. -/
def addIncrements : Act (St K V Mat Fac) Unit :=
  Act.modify fun s => { s with U := s.U + s.DU, L := s.L + s.DL }

/-- All increments are set to zero, `gsALMBase.hpp` 642-648 and 689-695. -/
def clearIncrements : Act (St K V Mat Fac) Unit :=
  Act.modify fun s => { s with DV := 0, DU := 0, DL := 0, dV := 0, dU := 0, dL := 0 }

/-- The loop of `_extendedSystemSolve`, `gsALMBase.hpp` 652-701; `rem` passes are left. -/
def extendedLoop (e : Env K V Mat Fac) (o : Opts K) (tol : K) : ℕ → Act (St K V Mat Fac) Bool
  | 0 => pure true
  | rem + 1 => do
    extendedBody e
    let s ← Act.get
    if s.residueKTPhi < tol then
      addIncrements
      pure true
    else if s.numIt = o.maxIt - 1 then
      (if o.spFail = 1 then addIncrements else clearIncrements)
      pure false
    else
      Act.modify fun s => { s with numIt := s.numIt + 1 }
      extendedLoop e o tol rem

/-- `gsALMBase.hpp` 631-702 `_extendedSystemSolve(U, L, tol)`. -/
def extendedSolve (e : Env K V Mat Fac) (o : Opts K) (U : V) (L tol : K) :
    Act (St K V Mat Fac) Bool := do
  Act.modify fun s => { s with U := U, L := L }
  let s ← Act.get
  refactorize e U s.dU
  clearIncrements
  Act.modify fun s => { s with numIt := 0 }
  extendedLoop e o tol o.maxIt

/-- `gsALMBase.hpp` 738-743 `_bisectionObjectiveFunction`; the shift is the default -100. -/
def objective (e : Env K V Mat Fac) (o : Opts K) (x : V) (jacobian : Bool) :
    Act (St K V Mat Fac) ℕ := do
  computeStabilityRaw e o x jacobian (-100)
  let s ← Act.get
  pure s.negatives

/-- `gsALMBase.hpp` 746-751 `_bisectionTerminationFunction`. -/
def termination (e : Env K V Mat Fac) (o : Opts K) (x : V) (jacobian : Bool) :
    Act (St K V Mat Fac) K := do
  computeStabilityRaw e o x jacobian (-100)
  let s ← Act.get
  pure s.indicator

/-- The loop of `_bisectionSolve`, `gsALMBase.hpp` 779-817; `rem` passes are left. `fa` belongs to
the point `(Uold, Lold)`. Returns whether the termination criterion was met. -/
def bisectionLoop (e : Env K V Mat Fac) (o : Opts K) (M : Method K V Mat Fac) (ref tol : K) :
    ℕ → V → K → ℕ → Act (St K V Mat Fac) Bool
  | 0, _, _, _ => pure false
  | rem + 1, Uold, Lold, fa => do
    Act.modify fun s => { s with U := Uold, L := Lold }
    let st ← step e o M
    let s ← Act.get
    let fb ← objective e o s.U true
    (if fa = fb ∧ st = .success then pure ()
      else Act.modify fun s => { s with len := s.len / 2 })
    let s ← Act.get
    let term ← termination e o s.U false
    if below (ratio |term| |ref|) tol then pure true
    else if fa = fb ∧ st = .success then bisectionLoop e o M ref tol rem s.U s.L fb
    else bisectionLoop e o M ref tol rem Uold Lold fa

/-- `gsALMBase.hpp` 826-838: `n` of the five steps of the inverse power method are left. -/
def bisectionPower (e : Env K V Mat Fac) (o : Opts K) (converged : Bool) :
    ℕ → V → Act (St K V Mat Fac) Bool
  | 0, _ => pure converged
  | n + 1, Vold => do
    let s ← Act.get
    factorizeMatrix e s.jac
    let x ← solveSystem e s.v
    Act.modify fun s => { s with v := normalized e.geo x }
    let s ← Act.get
    if e.geo.norm (s.v - Vold) < o.tol then pure true
    else bisectionPower e o converged n s.v

/-- `gsALMBase.hpp` 754-840 `_bisectionSolve(U, L, tol)`. -/
def bisectionSolve (e : Env K V Mat Fac) (o : Opts K) (M : Method K V Mat Fac) (U : V) (L tol : K) :
    Act (St K V Mat Fac) Bool := do
  Act.modify fun s => { s with U := U, L := L }
  let s ← Act.get
  let len := s.len
  let adaptive := s.adaptive
  Act.modify fun s => { s with adaptive := false }
  let ref ← termination e o U true
  let fa ← objective e o U false
  let converged ← bisectionLoop e o M ref tol (o.maxIt - 1) U L fa
  Act.modify fun s => { s with len := len, adaptive := adaptive, v := normalized e.geo e.ones }
  bisectionPower e o converged 5 0

/-- `gsALMBase.hpp` 843-856 `switchBranch`. -/
def switchBranch (e : Env K V Mat Fac) (o : Opts K) : Act (St K V Mat Fac) Unit :=
  Act.modify fun s =>
    let v := normalized e.geo s.v
    let DU := (e.geo.norm v / o.tau) • v
    { s with v := v, DU := DU, U := s.U + DU, DLold := 0, DUold := 0 }

/-- `gsALMBase.hpp` 429-445: what is done with a point that passed the test. -/
def solveSingularPoint (e : Env K V Mat Fac) (o : Opts K) (M : Method K V Mat Fac)
    (switch : Bool) : Act (St K V Mat Fac) Unit := do
  let s ← Act.get
  (if o.spTolB ≠ 0 then do
      let _ ← bisectionSolve e o M s.U s.L o.spTolB
      pure ()
    else pure ())
  let s ← Act.get
  let converged ← extendedSolve e o s.U s.L o.spTolE
  (if switch && (converged || decide (o.spFail = 1)) then switchBranch e o else pure ())
  Act.modify fun s => { s with stability := s.stabilityPrev }

/-- `gsALMBase.hpp` 422-446 `_computeSingularPoint`. -/
def computeSingularPointRaw (e : Env K V Mat Fac) (o : Opts K) (M : Method K V Mat Fac) (U : V)
    (L : K) (switch jacobian testPoint : Bool) : Act (St K V Mat Fac) Unit := do
  let test ← (if testPoint then testSingularPoint e o jacobian else pure true)
  Act.modify fun s => { s with U := U, L := L }
  if test then solveSingularPoint e o M switch else pure ()

/-- `gsALMBase.hpp` 450-472 `computeSingularPoint`: without exception the status is not set. -/
def computeSingularPoint (e : Env K V Mat Fac) (o : Opts K) (M : Method K V Mat Fac) (U : V)
    (L : K) (switch jacobian testPoint : Bool) : Act (St K V Mat Fac) Status :=
  caught (computeSingularPointRaw e o M U L switch jacobian testPoint) id

end GsSA.ALM
