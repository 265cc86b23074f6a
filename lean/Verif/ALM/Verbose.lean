import Verif.ALM.Config
import Verif.ALM.Singular

/-!
# The option `Verbose` of `gsALMBase`

`gsALMBase.hpp` 354-416, 475-511, 631-702, 754-840 and 858-910, and the functions `initOutput` and `stepOutput` of
the four methods. With `Verbose` a step prints a table of its iterations; before every line the stability is computed
once more. The model of a step without output is in `Verif.ALM.Base`; here a state is accompanied by the lines
printed so far.

Not modelled: the text of `m_note`, the format of numbers, the lines with the roots of Crisfield's method
(`gsALMCrisfield.hpp` 268, 351, 359), and the lines that are printed with and without `Verbose`.
-/

namespace GsSA.ALM

open GsSA

variable {K V Mat Fac : Type} [Field K] [LinearOrder K] [AddCommGroup V] [Module K V]

/-- A column of a printed line. `meas` is a quotient (`none` if the denominator vanishes), `counted` a number followed
by another one in parentheses, `note` the contents of `m_note`. -/
inductive Cell (K : Type)
  | nat (n : ℕ)
  | num (x : K)
  | meas (x : Option K)
  | counted (x : K) (n : ℕ)
  | note
  deriving DecidableEq

/-- A printed line, or a part of one. -/
inductive Line (K : Type)
  | header (names : List String)
  | row (cells : List (Cell K))
  /-- `gsALMBase.hpp` 780: iteration and length. -/
  | bisection (k : ℕ) (len : K)
  /-- `gsALMBase.hpp` 808: relative error and value. -/
  | finished (err : Option K) (term : K)
  /-- `gsALMBase.hpp` 503 and 508. -/
  | singular (bifurcation : Bool)
  deriving DecidableEq

/-- A solver and what it has printed, oldest line first. -/
abbrev Printing (K V Mat Fac : Type) := St K V Mat Fac × List (Line K)

/-- Do something without printing. -/
def quiet {σ ρ α : Type} (m : Act σ α) : Act (σ × List ρ) α :=
  ⟨fun p => (((m p.1).1, p.2), (m p.1).2)⟩

/-- Print a line. -/
def printLine {σ ρ : Type} (f : σ → ρ) : Act (σ × List ρ) Unit :=
  Act.modify fun p => (p.1, p.2 ++ [f p.1])

/-- `initOutput`: `gsALMLoadControl.hpp` 114-131, `gsALMRiks.hpp` 219-240, `gsALMConsistentCrisfield.hpp` 195-218,
`gsALMCrisfield.hpp` 478-499. -/
def Kind.columns : Kind → List String
  | .loadControl => ["It.", "Res. F", "|dU|/|Du|", "|U|", "L", "|DU|", "DL", "|dU|", "dL", "Dmin", "m_note"]
  | .crisfield => ["It.", "Res. F", "|dU|/|Du|", "dL/DL", "|U|", "L", "|DU|", "DL", "|dU|", "dL", "ds²", "|dU|²", "dL²",
      "Dmin", "note"]
  | _ => ["It.", "Res. F", "|dU|/|Du|", "dL/DL", "|U|", "L", "|DU|", "DL", "|dU|", "dL", "ds²", "|dU|²", "dL²", "Dmin",
      "m_note"]

/-- `m_residueL`, `gsALMBase.hpp` 163 and 170, computed from the members it was computed from. -/
def residueL (s : St K V Mat Fac) : Option K := if s.numIt = 0 then some s.DL else ratio s.dL s.DL

/-- The columns from `|U|` to `dL`, which all kinds print. -/
def sizes (e : Env K V Mat Fac) (s : St K V Mat Fac) : List (Cell K) :=
  [.num (e.geo.norm (s.U + s.DU)), .num (s.L + s.DL), .num (e.geo.norm s.DU), .num s.DL, .num (e.geo.norm s.dU),
    .num s.dL]

/-- The line of `stepOutput`: `gsALMLoadControl.hpp` 138-150, `gsALMRiks.hpp` 247-263,
`gsALMConsistentCrisfield.hpp` 226-242, `gsALMCrisfield.hpp` 512-530. -/
def Kind.row (e : Env K V Mat Fac) (s : St K V Mat Fac) : Kind → List (Cell K)
  | .loadControl => [.nat s.numIt, .meas s.residueF, .meas s.residueU] ++ sizes e s ++ [.num s.indicator, .note]
  | .crisfield => [.nat s.numIt, .meas s.residueF, .meas s.residueU, .meas (residueL s)] ++ sizes e s ++
      [.num (crDistance e s s.DU s.DL), .num (e.geo.norm s.DU ^ 2), .num (loadWeight e s.phi * s.DL ^ 2),
        .counted s.indicator s.negatives, .note]
  | _ => [.nat s.numIt, .meas s.residueF, .meas s.residueU, .meas (residueL s)] ++ sizes e s ++
      [.num (s.phi * e.geo.norm s.DU ^ 2 + (1 - s.phi) * s.DL ^ 2), .num (s.phi * e.geo.norm s.DU ^ 2),
        .num ((1 - s.phi) * s.DL ^ 2), .num s.indicator, .note]

/-- `stepOutput`: the stability is computed, then the line is printed. -/
def stepOutput (e : Env K V Mat Fac) (o : Opts K) (k : Kind) : Act (Printing K V Mat Fac) Unit := do
  let _ ← quiet (computeStability e o false (-100))
  printLine fun s => .row (k.row e s)

/-- `gsALMBase.hpp` 356. -/
def assertInitialized : Act (St K V Mat Fac) Unit := do
  let s ← Act.get
  if s.initialized = false then emit .failedAssert >>= fun _ => Act.throw .other else pure ()

/-- `gsALMBase.hpp` 361-368: initialisation and predictor. -/
def predictStep (e : Env K V Mat Fac) (M : Method K V Mat Fac) : Act (St K V Mat Fac) Unit := do
  Act.modify fun s => { s with converged := false, numIt := 0 }
  M.initiateStep
  let s ← Act.get
  (if usesGuess e s then M.predictorGuess else M.predictor)

/-- The iterations, `gsALMBase.hpp` 381-415, with output. -/
def iterateV (v : Bool) (e : Env K V Mat Fac) (o : Opts K) (k : Kind) : ℕ → Act (Printing K V Mat Fac) Unit
  | 0 => pure ()
  | rem + 1 => do
    quiet (iterationBody e o (k.method e o))
    (if v then stepOutput e o k else pure ())
    let s ← quiet Act.get
    if meets o s then quiet (finishStep o (k.method e o))
    else if s.numIt = o.maxIt - 1 then quiet (emit .limit >>= fun _ => Act.throw .notConverged)
    else
      quiet (Act.modify fun s => { s with numIt := s.numIt + 1 })
      iterateV v e o k rem

/-- `gsALMBase.hpp` 354-416 `_step`, with output. -/
def stepRawV (v : Bool) (e : Env K V Mat Fac) (o : Opts K) (k : Kind) : Act (Printing K V Mat Fac) Unit := do
  quiet assertInitialized
  (if v then printLine fun _ => .header k.columns else pure ())
  quiet (predictStep e (k.method e o))
  quiet (computeResidual e)
  quiet (computeResidualNorms e)
  (if v then stepOutput e o k else pure ())
  quiet (if o.quasi then (k.method e o).quasiPredictor else pure ())
  quiet (Act.modify fun s => { s with stabilityPrev := s.stability, numIt := 1 })
  iterateV v e o k (o.maxIt - 1)

/-- The handlers, as in `caught`. -/
def caughtV (m : Act (Printing K V Mat Fac) Unit) (success : St K V Mat Fac → St K V Mat Fac) :
    Act (Printing K V Mat Fac) Status where
  run p :=
    match m p with
    | (q, .ok ()) => ((success q.1, q.2), .ok (success q.1).status)
    | (q, .error .ub) => (q, .error .ub)
    | (q, .error err) => (({ q.1 with status := statusOf err }, q.2), .ok (statusOf err))

/-- `gsALMBase.hpp` 328-351 `step`, with output. -/
def stepV (v : Bool) (e : Env K V Mat Fac) (o : Opts K) (k : Kind) : Act (Printing K V Mat Fac) Status :=
  caughtV (stepRawV v e o k) fun t => { t with status := .success }

/-! ## Singular points -/

/-- `gsALMBase.hpp` 866-882 `_initOutputExtended`. -/
def extendedColumns : List String :=
  ["It.", "Res. F", "|dU|/|Du|", "dL/DL", "K_T * φ", "|U|", "|φ|", "L", "|DU|", "|Dφ|", "DL", "|dU|", "|dφ|", "dL", "Dmin",
    "note"]

/-- `gsALMBase.hpp` 890-904: the line of `_stepOutputExtended` up to the column before `Dmin`. -/
def extendedRow (e : Env K V Mat Fac) (s : St K V Mat Fac) : List (Cell K) :=
  [.nat s.numIt, .meas s.residueF, .meas s.residueU, .meas (residueL s), .num s.residueKTPhi, .num (e.geo.norm s.U),
    .num (e.geo.norm s.v), .num s.L, .num (e.geo.norm s.DU), .num (e.geo.norm s.DV), .num s.DL, .num (e.geo.norm s.dU),
    .num (e.geo.norm s.dV), .num s.dL]

/-- `gsALMBase.hpp` 887-910 `_stepOutputExtended`. The column `Dmin` is computed when the others are printed already,
and outside of any handler. -/
def extendedOutput (e : Env K V Mat Fac) (o : Opts K) : Act (Printing K V Mat Fac) Unit := do
  printLine fun s => .row (extendedRow e s)
  let s ← quiet Act.get
  let x ← quiet (termination e o s.U false)
  printLine fun _ => .row [.num x, .note]

/-- The loop of `_extendedSystemSolve`, `gsALMBase.hpp` 652-701, with output. -/
def extendedLoopV (v : Bool) (e : Env K V Mat Fac) (o : Opts K) (tol : K) : ℕ → Act (Printing K V Mat Fac) Bool
  | 0 => pure true
  | rem + 1 => do
    quiet (extendedBody e)
    (if v then extendedOutput e o else pure ())
    let s ← quiet Act.get
    if s.residueKTPhi < tol then quiet (addIncrements >>= fun _ => pure true)
    else if s.numIt = o.maxIt - 1 then
      quiet ((if o.spFail = 1 then addIncrements else clearIncrements) >>= fun _ => pure false)
    else
      quiet (Act.modify fun s => { s with numIt := s.numIt + 1 })
      extendedLoopV v e o tol rem

/-- `gsALMBase.hpp` 631-651: what is done before the loop. -/
def extendedStart (e : Env K V Mat Fac) (U : V) (L : K) : Act (St K V Mat Fac) Unit := do
  Act.modify fun s => { s with U := U, L := L }
  let s ← Act.get
  refactorize e U s.dU
  clearIncrements
  Act.modify fun s => { s with numIt := 0 }

/-- `gsALMBase.hpp` 631-702 `_extendedSystemSolve`, with output. -/
def extendedSolveV (v : Bool) (e : Env K V Mat Fac) (o : Opts K) (U : V) (L tol : K) :
    Act (Printing K V Mat Fac) Bool := do
  quiet (extendedStart e U L)
  (if v then printLine fun _ => .header extendedColumns else pure ())
  extendedLoopV v e o tol o.maxIt

/-- The loop of `_bisectionSolve`, `gsALMBase.hpp` 779-817, with output. -/
def bisectionLoopV (v : Bool) (e : Env K V Mat Fac) (o : Opts K) (k : Kind) (ref tol : K) :
    ℕ → V → K → ℕ → Act (Printing K V Mat Fac) Bool
  | 0, _, _, _ => pure false
  | rem + 1, Uold, Lold, fa => do
    (if v then printLine fun s => .bisection (o.maxIt - (rem + 1)) s.len else pure ())
    quiet (Act.modify fun s => { s with U := Uold, L := Lold })
    let st ← stepV v e o k
    let s ← quiet Act.get
    let fb ← quiet (objective e o s.U true)
    quiet (if fa = fb ∧ st = .success then pure () else Act.modify fun s => { s with len := s.len / 2 })
    let s ← quiet Act.get
    let term ← quiet (termination e o s.U false)
    (if v then printLine fun _ => .finished (ratio |term| |ref|) term else pure ())
    if below (ratio |term| |ref|) tol then pure true
    else if fa = fb ∧ st = .success then bisectionLoopV v e o k ref tol rem s.U s.L fb
    else bisectionLoopV v e o k ref tol rem Uold Lold fa

/-- `gsALMBase.hpp` 754-840 `_bisectionSolve`, with output. -/
def bisectionSolveV (v : Bool) (e : Env K V Mat Fac) (o : Opts K) (k : Kind) (U : V) (L tol : K) :
    Act (Printing K V Mat Fac) Bool := do
  quiet (Act.modify fun s => { s with U := U, L := L })
  let s ← quiet Act.get
  quiet (Act.modify fun s => { s with adaptive := false })
  let ref ← quiet (termination e o U true)
  let fa ← quiet (objective e o U false)
  let converged ← bisectionLoopV v e o k ref tol (o.maxIt - 1) U L fa
  quiet (Act.modify fun t => { t with len := s.len, adaptive := s.adaptive, v := normalized e.geo e.ones })
  quiet (bisectionPower e o converged 5 0)

/-- `gsALMBase.hpp` 429-445, with output. -/
def solveSingularPointV (v : Bool) (e : Env K V Mat Fac) (o : Opts K) (k : Kind) (switch : Bool) :
    Act (Printing K V Mat Fac) Unit := do
  let s ← quiet Act.get
  (if o.spTolB ≠ 0 then do
      let _ ← bisectionSolveV v e o k s.U s.L o.spTolB
      pure ()
    else pure ())
  let s ← quiet Act.get
  let converged ← extendedSolveV v e o s.U s.L o.spTolE
  quiet (if switch && (converged || decide (o.spFail = 1)) then switchBranch e o else pure ())
  quiet (Act.modify fun s => { s with stability := s.stabilityPrev })

/-- `gsALMBase.hpp` 475-511 `_testSingularPoint`, with output. -/
def testSingularPointV (v : Bool) (e : Env K V Mat Fac) (o : Opts K) (jacobian : Bool) :
    Act (Printing K V Mat Fac) Bool := do
  let b ← quiet (testSingularPoint e o jacobian)
  (if v then printLine fun _ => .singular b else pure ())
  pure b

/-- `gsALMBase.hpp` 422-446 `_computeSingularPoint`, with output. -/
def computeSingularPointRawV (v : Bool) (e : Env K V Mat Fac) (o : Opts K) (k : Kind) (U : V) (L : K)
    (switch jacobian testPoint : Bool) : Act (Printing K V Mat Fac) Unit := do
  let test ← (if testPoint then testSingularPointV v e o jacobian else pure true)
  quiet (Act.modify fun s => { s with U := U, L := L })
  if test then solveSingularPointV v e o k switch else pure ()

/-- `gsALMBase.hpp` 450-472 `computeSingularPoint`, with output. -/
def computeSingularPointV (v : Bool) (e : Env K V Mat Fac) (o : Opts K) (k : Kind) (U : V) (L : K)
    (switch jacobian testPoint : Bool) : Act (Printing K V Mat Fac) Status :=
  caughtV (computeSingularPointRawV v e o k U L switch jacobian testPoint) id

end GsSA.ALM
