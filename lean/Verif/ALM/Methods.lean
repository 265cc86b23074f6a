import Verif.ALM.Base

/-!
# The four arc-length methods

`gsALMLoadControl.hpp`, `gsALMCrisfield.hpp`, `gsALMRiks.hpp`, `gsALMConsistentCrisfield.hpp`.
Divisions follow the field convention `x / 0 = 0`; theorems that use a quotient assume its
denominator to be nonzero.
-/

namespace GsSA.ALM

variable {K V Mat Fac : Type} [Field K] [LinearOrder K] [AddCommGroup V] [Module K V]

/-! ## Shared parts -/

/-- `quasiNewtonIteration` of Riks, Crisfield and consistent Crisfield
(`gsALMCrisfield.hpp` 66-72, `gsALMRiks.hpp` 47-53, `gsALMConsistentCrisfield.hpp` 66-72). -/
def quasiIterationUt (e : Env K V Mat Fac) : Act (St K V Mat Fac) Unit := do
  assembleFactorize e
  computeUt e

/-- `quasiNewtonPredictor` of the same methods (`gsALMCrisfield.hpp` 56-64, `gsALMRiks.hpp` 37-45,
`gsALMConsistentCrisfield.hpp` 55-63). -/
def quasiPredictorUt (e : Env K V Mat Fac) : Act (St K V Mat Fac) Unit := do
  assembleFactorize e
  computeUt e
  computeUbar e

/-- `m_U += m_DeltaU` etc., the common part of `iterationFinish`. -/
def acceptStep : Act (St K V Mat Fac) Unit :=
  Act.modify fun s =>
    { s with converged := true, Uprev := s.U, Lprev := s.L, U := s.U + s.DU, L := s.L + s.DL }

/-- `m_DeltaU = m_deltaU = 0; m_DeltaL = m_deltaL = 0`. -/
def zeroIncrements : Act (St K V Mat Fac) Unit :=
  Act.modify fun s => { s with DU := 0, dU := 0, DL := 0, dL := 0 }

/-! ## Load control -/

/-- `gsALMLoadControl.hpp` 51-58. -/
def lcIteration (e : Env K V Mat Fac) : Act (St K V Mat Fac) Unit := do
  computeUbar e
  Act.modify fun s => { s with dU := s.Ubar, DU := s.DU + s.Ubar }

/-- `gsALMLoadControl.hpp` 72-83 (with `dl = m_arcLength`) and 86-97 (with `dl = m_Lguess - m_L`). -/
def lcPredict (e : Env K V Mat Fac) (dl : St K V Mat Fac → K) : Act (St K V Mat Fac) Unit := do
  assembleFactorize e
  Act.modify fun s => { s with DL := dl s, dL := dl s }
  computeUt e
  Act.modify fun s => { s with DU := s.dL • s.Ut }

/-- `gsALMLoadControl`. -/
def loadControl (e : Env K V Mat Fac) : Method K V Mat Fac where
  initiateStep := zeroIncrements
  predictor := lcPredict e fun s => s.len
  predictorGuess := lcPredict e fun s => s.Lguess - s.L
  quasiPredictor := do
    assembleFactorize e
    computeUbar e
  quasiIteration := assembleFactorize e
  iteration := lcIteration e
  iterationFinish := acceptStep

/-! ## Crisfield -/

/-- `gsALMHelper.h` 22-26. -/
def sgn (x : K) : K := (if 0 < x then 1 else 0) - (if x < 0 then 1 else 0)

/-- `A0` in `gsALMCrisfield.hpp`: `phi² F·F`. -/
def loadWeight (e : Env K V Mat Fac) (phi : K) : K := phi ^ 2 * e.geo.dot e.forcing e.forcing

/-- `gsALMCrisfield.h` 79-83 `distance`. -/
def crDistance (e : Env K V Mat Fac) (s : St K V Mat Fac) (DU : V) (DL : K) : K :=
  e.geo.sqrt (e.geo.dot DU DU + loadWeight e s.phi * DL ^ 2)

/-- The coefficients of `computeLambdasSimple`, `gsALMCrisfield.hpp` 213-231. -/
structure Quad (K : Type) where
  a0 : K
  b0 : K
  b1 : K
  c0 : K
  c1 : K
  c2 : K

/-- `gsALMCrisfield.hpp` 215-222. -/
def crQuad (e : Env K V Mat Fac) (s : St K V Mat Fac) : Quad K :=
  let A0 := loadWeight e s.phi
  { a0 := e.geo.dot s.Ut s.Ut + A0
    b0 := 2 * (e.geo.dot s.Ut s.DU + s.DL * A0)
    b1 := 2 * e.geo.dot s.Ubar s.Ut
    c0 := e.geo.dot s.DU s.DU + s.DL * s.DL * A0 - s.len ^ 2
    c1 := 2 * e.geo.dot s.DU s.Ubar
    c2 := e.geo.dot s.Ubar s.Ubar }

/-- Discriminant of `α1 x² + α2 x + α3`. -/
def disc (α1 α2 α3 : K) : K := α2 ^ 2 - 4 * α1 * α3

/-- The three coefficients of the quadratic in the load update for a given `eta`,
`gsALMCrisfield.hpp` 225-227 and 236-238. -/
def Quad.alpha2 (q : Quad K) (eta : K) : K := q.b0 + eta * q.b1

@[inherit_doc Quad.alpha2]
def Quad.alpha3 (q : Quad K) (eta : K) : K := q.c0 + eta * q.c1 + eta * eta * q.c2

/-- `gsALMCrisfield.hpp` 229: the discriminant as a function of `eta`. -/
def Quad.disc (q : Quad K) (eta : K) : K := ALM.disc q.a0 (q.alpha2 eta) (q.alpha3 eta)

/-- `gsALMCrisfield.hpp` 251-306 `computeLambdasModified`: the new `eta` and the discriminant of the
quadratic for `eta`. `eta` keeps its value 1 if no branch applies. -/
def Quad.modified (q : Quad K) (sqrt : K → K) : K × K :=
  let α1 := q.b1 * q.b1 - 4 * q.a0 * q.c2
  let α2 := 2 * q.b0 * q.b1 - 4 * q.a0 * q.c1
  let α3 := q.b0 * q.b0 - 4 * q.a0 * q.c0
  let d := ALM.disc α1 α2 α3
  if 0 ≤ d then
    let r1 := (-α2 + sqrt d) / (2 * α1)
    let r2 := (-α2 - sqrt d) / (2 * α1)
    let eta1 := min r1 r2
    let eta2 := max r1 r2
    let xi := (5 / 100 : K) * |eta2 - eta1|
    let eta :=
      if eta2 < 1 then eta2 - xi
      else if 1 < eta2 ∧ -α2 / α1 < 1 then eta2 + xi
      else if eta1 < 1 ∧ 1 < -α2 / α1 then eta1 - xi
      else if 1 < eta1 then eta1 + xi
      else 1
    (eta, d)
  else (1, d)

/-- `gsALMCrisfield.hpp` 401-427 `computeLambdaDOT`: choice between the two load updates. -/
def chooseDOT (e : Env K V Mat Fac) (s : St K V Mat Fac) (x1 x2 : K) : K :=
  let w := e.geo.dot s.DUold s.Ut + s.phi ^ 2 * s.DLold
  if x2 * w < x1 * w then x1 else if x1 * w < x2 * w then x2 else x1

/-- `computeLambdaDOT` as an action, with `eta` a parameter. -/
def lambdaDOT (e : Env K V Mat Fac) (eta x1 x2 : K) : Act (St K V Mat Fac) Unit :=
  Act.modify fun s =>
    let x := chooseDOT e s x1 x2
    { s with dL := x, dU := eta • s.Ubar + x • s.Ut }

/-- `gsALMCrisfield.hpp` 308-325 `computeLambdasComplex`. -/
def lambdasComplex (e : Env K V Mat Fac) : Act (St K V Mat Fac) Unit :=
  Act.modify fun s =>
    let A0 := loadWeight e s.phi
    let DUcr := s.DU + s.Ubar
    let Fint := e.mul s.jac (s.U + s.DU)
    let Lcr := e.geo.dot Fint e.forcing / e.geo.dot e.forcing e.forcing
    let DLcr := Lcr - s.L
    let lenCr := e.geo.sqrt (e.geo.dot DUcr DUcr + A0 * DLcr ^ 2)
    let mu := s.len / lenCr
    { s with dL := mu * DLcr - s.DL, dU := mu • DUcr - s.DU }

/-- `gsALMCrisfield.hpp` 328-363 `computeLambdas`. Returns the final `m_eta`. -/
def computeLambdas (e : Env K V Mat Fac) : Act (St K V Mat Fac) K := do
  let s ← Act.get
  let q := crQuad e s
  if 0 ≤ q.disc 1 then
    let r := e.geo.sqrt (q.disc 1)
    lambdaDOT e 1 ((-q.alpha2 1 + r) / (2 * q.a0)) ((-q.alpha2 1 - r) / (2 * q.a0))
    emit (.roots .real)
    pure 1
  else
    let (eta, d) := q.modified e.geo.sqrt
    if 0 ≤ d ∧ 5 / 100 < eta then
      let x := (-q.alpha2 eta) / (2 * q.a0)
      lambdaDOT e eta x x
      emit (.roots .modified)
      pure eta
    else
      lambdasComplex e
      emit (.roots .scaled)
      pure 1

/-- `gsALMCrisfield.hpp` 74-100 `iteration`. -/
def crIteration (e : Env K V Mat Fac) (o : Opts K) : Act (St K V Mat Fac) Unit := do
  computeUbar e
  let s0 ← Act.get
  let lamold := s0.dL
  let eta ← computeLambdas e
  Act.modify fun s =>
    if lamold * s.dL < 0 ∧ |s.dL| ≤ |lamold| ∧ o.relax ≠ 1 then
      { s with dU := o.relax • (s.dL • s.Ut + eta • s.Ubar), dL := o.relax * s.dL }
    else s
  Act.modify fun s => { s with DU := s.DU + s.dU, DL := s.DL + s.dL }
  Act.modify fun s => if o.angle = .iteration then { s with DUold := s.DU, DLold := s.DL } else s

/-- `gsALMCrisfield.hpp` 384-398 `computeLambdaMU`. -/
def lambdaMU (e : Env K V Mat Fac) : Act (St K V Mat Fac) Unit :=
  Act.modify fun s =>
    let A0 := loadWeight e s.phi
    let dir := sgn (e.geo.dot s.DUold s.Ut + A0 * s.DLold)
    let denum := e.geo.sqrt (e.geo.dot s.Ut s.Ut + A0)
    let mu := if denum = 0 then s.len else s.len / denum
    { s with dL := dir * mu, dU := (dir * mu) • s.Ut }

/-- The default scaling, `gsALMCrisfield.hpp` 124-125 and 175-176. -/
def tangentPhi (e : Env K V Mat Fac) (o : Opts K) (s : St K V Mat Fac) : K :=
  if o.phiUser then s.phi
  else e.geo.sqrt (e.geo.dot s.Ut s.Ut / e.geo.dot e.forcing e.forcing)

/-- `gsALMCrisfield.hpp` 118-128: no information about a previous step. -/
def firstPredictor (e : Env K V Mat Fac) (o : Opts K) : Act (St K V Mat Fac) Unit :=
  Act.modify fun s =>
    let x := s.len / e.geo.sqrt (2 * e.geo.dot s.Ut s.Ut)
    { s with dL := x, dU := s.Ubar + x • s.Ut, phi := tangentPhi e o s }

/-- `gsALMCrisfield.hpp` 147-153. -/
def laterPredictor (e : Env K V Mat Fac) (o : Opts K) : Act (St K V Mat Fac) Unit := do
  Act.modify fun s =>
    { s with phi := if o.phiUser then s.phi else
        e.geo.sqrt (e.geo.dot s.U s.U / (s.L ^ 2 * e.geo.dot e.forcing e.forcing)) }
  lambdaMU e

/-- `gsALMCrisfield.hpp` 111-164 `predictor`. -/
def crPredictor (e : Env K V Mat Fac) (o : Opts K) : Act (St K V Mat Fac) Unit := do
  assembleFactorize e
  computeUt e
  let s ← Act.get
  (if e.geo.dot s.DUold s.DUold = 0 ∧ s.DLold * s.DLold = 0 then firstPredictor e o
    else laterPredictor e o)
  Act.modify fun s => { s with DU := s.DU + s.dU, DL := s.DL + s.dL }
  Act.modify fun s =>
    if o.angle = .iteration ∨ o.angle = .predictor then { s with DUold := s.DU, DLold := s.DL }
    else s

/-- `gsALMCrisfield.hpp` 167-191 `predictorGuess`. -/
def crPredictorGuess (e : Env K V Mat Fac) (o : Opts K) : Act (St K V Mat Fac) Unit := do
  assembleFactorize e
  computeUt e
  Act.modify fun s => { s with phi := tangentPhi e o s }
  Act.modify fun s =>
    { s with DUold := -(s.guess.getD 0 - s.U), DLold := -(s.Lguess - s.L) }
  lambdaMU e
  Act.modify fun s => { s with DU := s.dU, DL := s.dL, guess := none }

/-- `gsALMCrisfield`. -/
def crisfield (e : Env K V Mat Fac) (o : Opts K) : Method K V Mat Fac where
  initiateStep := Act.modify fun s => { s with DU := 0, Ubar := 0, Ut := 0, DL := 0, dL := 0 }
  predictor := crPredictor e o
  predictorGuess := crPredictorGuess e o
  quasiPredictor := quasiPredictorUt e
  quasiIteration := quasiIterationUt e
  iteration := crIteration e o
  iterationFinish := do
    acceptStep
    Act.modify fun s => if o.angle = .step then { s with DUold := s.DU, DLold := s.DL } else s

/-! ## Riks -/

/-- `gsALMRiks.h` 81-84 `distance`. -/
def rkDistance (e : Env K V Mat Fac) (s : St K V Mat Fac) (DU : V) (DL : K) : K :=
  e.geo.sqrt (s.phi * e.geo.norm DU ^ 2 + (1 - s.phi) * DL ^ 2)

/-- `gsALMRiks.hpp` 69-84 `iteration`. -/
def rkIteration (e : Env K V Mat Fac) : Act (St K V Mat Fac) Unit := do
  computeUbar e
  Act.modify fun s =>
    let r := s.phi * e.geo.dot (s.U + s.DU - s.U) (s.U + s.DU - s.U)
      + (1 - s.phi) * (s.L + s.DL - s.L) ^ 2 - s.len * s.len
    let x := -(r + 2 * s.phi * e.geo.dot s.DU s.Ubar) /
      (2 * (1 - s.phi) * s.DL + 2 * s.phi * e.geo.dot s.DU s.Ut)
    { s with dL := x, dU := s.Ubar + x • s.Ut }
  Act.modify fun s => { s with DU := s.DU + s.dU, DL := s.DL + s.dL }

/-- Do two points coincide up to the fixed tolerance of `gsALMRiks.hpp` 110-112 and
`gsALMConsistentCrisfield.hpp` 109-111? -/
def nearby (e : Env K V Mat Fac) (U U' : V) (L L' : K) : Bool :=
  decide (e.geo.norm (U - U') < 1 / 10 ^ 10) && decide ((L - L') * (L - L') < 1 / 10 ^ 10)

/-- `gsALMRiks.hpp` 117-119: the normalised tangent. -/
def unitTangent (e : Env K V Mat Fac) : Act (St K V Mat Fac) Unit := do
  computeUt e
  Act.modify fun s =>
    let n := e.geo.sqrt (e.geo.dot s.Ut s.Ut + s.DL * 1)
    { s with dU := (1 / n) • s.Ut, dL := 1 / n }

/-- `gsALMRiks.hpp` 123-124, 158-159: the previous increment (or the one to the guess) divided by
the previous length. -/
def secant (U U' : V) (L L' : K) : Act (St K V Mat Fac) Unit :=
  Act.modify fun s =>
    { s with dL := 1 / s.lenPrev * (L - L'), dU := (1 / s.lenPrev) • (U - U') }

/-- `gsALMRiks.hpp` 128-129. -/
def scaleByLength : Act (St K V Mat Fac) Unit :=
  Act.modify fun s => { s with dL := s.dL * s.len, dU := s.len • s.dU }

/-- `gsALMRiks.hpp` 98-134 `predictor`. -/
def rkPredictor (e : Env K V Mat Fac) : Act (St K V Mat Fac) Unit := do
  assembleFactorize e
  Act.modify fun s =>
    { s with phi := if e.numDof = 1 then 99999999999 / 100000000000 else 1 / (e.numDof : K) }
  let s ← Act.get
  (if nearby e s.U s.Uprev s.L s.Lprev then unitTangent e
    else secant s.U s.Uprev s.L s.Lprev)
  scaleByLength
  Act.modify fun s => { s with DU := s.DU + s.dU, DL := s.DL + s.dL }

/-- `gsALMRiks.hpp` 137-170 `predictorGuess`. -/
def rkPredictorGuess (e : Env K V Mat Fac) : Act (St K V Mat Fac) Unit := do
  assembleFactorize e
  computeUt e
  let s ← Act.get
  (if nearby e (s.guess.getD 0) s.U s.Lguess s.L then unitTangent e
    else secant (s.guess.getD 0) s.U s.Lguess s.L)
  scaleByLength
  Act.modify fun s => { s with DU := s.dU, DL := s.dL, guess := none }

/-- `gsALMRiks`. -/
def riks (e : Env K V Mat Fac) : Method K V Mat Fac where
  initiateStep := zeroIncrements
  predictor := rkPredictor e
  predictorGuess := rkPredictorGuess e
  quasiPredictor := quasiPredictorUt e
  quasiIteration := quasiIterationUt e
  iteration := rkIteration e
  iterationFinish := acceptStep

/-! ## Consistent Crisfield -/

/-- `gsALMConsistentCrisfield.hpp` 75-87 `iteration`. -/
def ccIteration (e : Env K V Mat Fac) : Act (St K V Mat Fac) Unit := do
  computeUbar e
  Act.modify fun s =>
    let FF := e.geo.dot e.forcing e.forcing
    let cres := e.geo.dot s.DU s.DU + s.phi * s.phi * s.DL * s.DL * FF - s.len * s.len
    let num := cres + e.geo.dot ((2 : K) • s.DU) s.Ubar
    let denum := e.geo.dot ((2 : K) • s.DU) s.Ut + s.phi * s.phi * 2 * s.DL * FF
    let x := -num / denum
    { s with dL := x, dU := x • s.Ut + s.Ubar }
  Act.modify fun s => { s with DU := s.DU + s.dU, DL := s.DL + s.dL }

/-- `gsALMConsistentCrisfield.hpp` 102-138 (`predictor`) and 141-178 (`predictorGuess`): towards
`(U, L)` seen from `(U', L')`. Neither clears the guess. -/
def ccPredict (e : Env K V Mat Fac) (o : Opts K)
    (target : St K V Mat Fac → (V × K) × (V × K)) : Act (St K V Mat Fac) Unit := do
  assembleFactorize e
  let s ← Act.get
  let p := target s
  (if nearby e p.1.1 p.2.1 p.1.2 p.2.2 then unitTangent e
    else secant p.1.1 p.2.1 p.1.2 p.2.2)
  Act.modify fun s => { s with phi := tangentPhi e o s }
  scaleByLength
  Act.modify fun s => { s with DU := s.DU + s.dU, DL := s.DL + s.dL }

/-- `gsALMConsistentCrisfield`. -/
def consistentCrisfield (e : Env K V Mat Fac) (o : Opts K) : Method K V Mat Fac where
  initiateStep := zeroIncrements
  predictor := ccPredict e o fun s => ((s.U, s.L), (s.Uprev, s.Lprev))
  predictorGuess := ccPredict e o fun s => ((s.guess.getD 0, s.Lguess), (s.U, s.L))
  quasiPredictor := quasiPredictorUt e
  quasiIteration := quasiIterationUt e
  iteration := ccIteration e
  iterationFinish := do
    acceptStep
    Act.modify fun s => { s with DUold := s.DU, DLold := s.DL }

end GsSA.ALM
