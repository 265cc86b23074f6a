import Verif.ALM.Verbose
import Verif.Static.DR
import Verif.Static.Newton

/-!
# The option `verbose` of the static solvers

`gsStaticNewton.hpp` 42-71, 100-112, 141-193 and `gsStaticDR.hpp` 39-69, 97-145. A solver prints a table of its
iterations. The solvers without output are modelled in `Verif.Static.Newton` and `Verif.Static.DR`; here a state is
accompanied by the lines printed so far, oldest first. The numbers on a line are real numbers: their format is not
modelled, and a quotient is a pair of numbers, since its denominator may be zero. `verbose` is `m_verbose`, an
`index_t`, which is not bounded here.

Not modelled: what is printed whatever `verbose` is (the messages on failures, the empty line at the end of
`gsStaticDR::_solve`) and `gsDebug`.
-/

namespace GsSA.Static

open GsSA GsSA.ALM

/-- A column of a printed line: a counter, a number, a quotient, or the logarithm (base 10) of a quotient. -/
inductive Column (K : Type)
  | count (n : ℕ)
  | num (x : K)
  | quot (x y : K)
  | log (x y : K)
  deriving DecidableEq

/-- What is printed. `matrix` and `vector` have a line with their name before them. -/
inductive Print (K V Mat : Type)
  | header (names : List String)
  | row (cells : List (Column K))
  | matrix (m : Mat)
  | vector (x : V)
  deriving DecidableEq

/-! ## `gsStaticNewton` -/

namespace Newton

variable {K V Mat : Type} [Field K] [LinearOrder K] [AddCommGroup V] [Module K V]

/-- A solver and what it has printed. -/
abbrev Printer (K V Mat : Type) := NSt K V × List (Print K V Mat)

/-- `initOutput`, `gsStaticNewton.hpp` 42-55. -/
def columns : List String :=
  ["It.", "|R|", "|R|/|R0|", "|DU|", "|dU|", "|dU|/|DU|", "|dU|/|U+DU|", "log(Ri/R0):", "log(Ri+1/R0)"]

/-- `stepOutput`, `gsStaticNewton.hpp` 57-71. -/
def cells (e : NEnv K V Mat) (o : Opts K) (s : NSt K V) : List (Column K) :=
  [.count s.numIt, .num s.residual, .quot s.residual s.residualIni, .num (e.norm s.upd), .num (o.relax * e.norm s.du),
    .quot (o.relax * e.norm s.du) (e.norm s.upd), .quot (o.relax * e.norm s.du) (e.norm (s.U + s.upd)),
    .log s.residualOld s.residualIni, .log s.residual s.residualIni]

/-- `gsStaticNewton.hpp` 104-108 and 163-167: the system that is solved next. -/
def showSystem (verbose : ℤ) (m : Mat) (b : V) : Act (Printer K V Mat) Unit :=
  if verbose = 2 then do
    printLine fun _ => .matrix m
    printLine fun _ => .vector b
  else pure ()

/-- `_solveLinear`, `gsStaticNewton.hpp` 100-112, with output. -/
def solveLinearRawV (verbose : ℤ) (e : NEnv K V Mat) : Act (Printer K V Mat) V := do
  showSystem verbose e.linear e.force
  quiet (factorizeMatrix e e.linear)
  let x ← quiet (solveSystem e e.linear e.force)
  quiet (Act.modify fun s => { s with U := x })
  pure x

/-- `gsStaticNewton.hpp` 148-153, with output. -/
def linearStartV (verbose : ℤ) (e : NEnv K V Mat) : Act (Printer K V Mat) Unit := do
  let s ← quiet Act.get
  match s.DU with
  | some _ => pure ()
  | none => do
    let x ← solveLinearRawV verbose e
    quiet (Act.modify fun s => { s with du := x, DU := some x, U := 0, headstart := true })

/-- Body of the loop up to the convergence test, `gsStaticNewton.hpp` 162-179, with output. The line is printed before
`m_residualOld` gets its new value. -/
def iterationV (verbose : ℤ) (e : NEnv K V Mat) (o : Opts K) : Act (Printer K V Mat) Unit := do
  let s ← quiet Act.get
  let m ← quiet (computeJacobian e (s.U + s.upd) s.du)
  showSystem verbose m s.R
  quiet (factorizeMatrix e m)
  let x ← quiet (solveSystem e m s.R)
  quiet (Act.modify fun s => { s with du := x, DU := some (s.upd + o.relax • x) })
  let s ← quiet Act.get
  let R ← quiet (computeResidual e (s.U + s.upd))
  quiet (Act.modify fun s => { s with R := R, residual := e.norm R })
  (if verbose > 0 then printLine fun s => .row (cells e o s) else pure ())
  quiet (Act.modify fun s => { s with residualOld := s.residual })

/-- The loop, `gsStaticNewton.hpp` 160-191, with output. -/
def loopV (verbose : ℤ) (e : NEnv K V Mat) (o : Opts K) : ℕ → Act (Printer K V Mat) Unit
  | 0 => pure ()
  | n + 1 => do
    iterationV verbose e o
    let s ← quiet Act.get
    if converged e o s then quiet accept
    else if s.numIt + 1 = o.maxIt then quiet (do accept; emit .limit; Act.throw .notConverged)
    else do
      quiet (Act.modify fun s => { s with numIt := s.numIt + 1 })
      loopV verbose e o n

/-- `_solveNonlinear`, `gsStaticNewton.hpp` 141-193, with output. -/
def solveNonlinearRawV (verbose : ℤ) (e : NEnv K V Mat) (o : Opts K) : Act (Printer K V Mat) Unit := do
  linearStartV verbose e
  quiet (start e)
  (if verbose > 0 then printLine fun _ => .header columns else pure ())
  quiet (Act.modify fun s => { s with numIt := 0 })
  loopV verbose e o o.maxIt

/-- The handlers, as in `caught`. -/
def caughtV {α : Type} (m : Act (Printer K V Mat) α) (p : Printer K V Mat) : Status × Printer K V Mat :=
  match m p with
  | (q, .ok _) => (.success, ({ q.1 with status := .success }, q.2))
  | (q, .error x) => (statusOf x, ({ q.1 with status := statusOf x }, q.2))

/-- `solveLinear`, `gsStaticNewton.hpp` 74-98, with output. -/
def solveLinearV (verbose : ℤ) (e : NEnv K V Mat) (p : Printer K V Mat) : Status × Printer K V Mat :=
  caughtV (solveLinearRawV verbose e) p

/-- `solveNonlinear`, `gsStaticNewton.hpp` 114-138, with output. -/
def solveNonlinearV (verbose : ℤ) (e : NEnv K V Mat) (o : Opts K) (p : Printer K V Mat) : Status × Printer K V Mat :=
  caughtV (solveNonlinearRawV verbose e o) p

/-- `solve`, `gsStaticNewton.h` 148-154, with output. -/
def solveV (verbose : ℤ) (e : NEnv K V Mat) (o : Opts K) (p : Printer K V Mat) : Status × Printer K V Mat :=
  if p.1.nl then solveNonlinearV verbose e o p else solveLinearV verbose e p

end Newton

/-! ## `gsStaticDR` -/

namespace DR

variable {K ι : Type} [Field K] [LinearOrder K] [Fintype ι]

/-- A solver and what it has printed. -/
abbrev Printer (K ι : Type) := DRSt K ι × List (Print K (ι → K) Unit)

/-- `initOutput`, `gsStaticDR.hpp` 39-53. -/
def columns : List String :=
  ["It.", "|R|", "|R|/|R0|", " Ek", " Ek/Ek0", "|dU|", "|dU|/|DU|", "|dU|/|U+DU|", "|dV|"]

/-- `stepOutput`, `gsStaticDR.hpp` 55-69. -/
def cells (e : DREnv K ι) (k : ℕ) (s : DRSt K ι) : List (Column K) :=
  [.count k, .num s.residual, .quot s.residual s.residualIni, .num s.Ek, .quot s.Ek s.Ek0, .num (norm e s.du),
    .quot (norm e s.du) (norm e s.DU), .quot (norm e s.du) (norm e (s.U + s.DU)), .num (norm e s.v)]

/-- `gsStaticDR.hpp` 120-121: is there a line for iteration `k`? -/
def shows (verbose : ℤ) (k : ℕ) : Bool :=
  decide (verbose ≠ 0) && (decide (Int.tmod k verbose = 0) || decide (verbose = -1))

/-- Body of the loop up to the convergence test, `gsStaticDR.hpp` 113-125, with output. -/
def bodyV (verbose : ℤ) (e : DREnv K ι) (o : DROpts K) (r : ℤ) : Act (Printer K ι) ℤ := do
  quiet (iteration e)
  let s ← quiet Act.get
  quiet (if resets o r s then peak e else pure ())
  let t ← quiet Act.get
  (if shows verbose t.numIt then printLine fun s => .row (cells e s.numIt s) else pure ())
  quiet (Act.modify fun s => { s with Eks := s.Eks ++ [s.Ek], residualOld := s.residual })
  pure (if resets o r s then 0 else r)

/-- The loop, `gsStaticDR.hpp` 111-142, with output. -/
def loopV (verbose : ℤ) (e : DREnv K ι) (o : DROpts K) : ℕ → ℤ → Act (Printer K ι) Unit
  | 0, _ => if o.base.maxIt = 0 then Act.throw .ub else pure ()
  | n + 1, r => do
    let r' ← bodyV verbose e o r
    let s ← quiet Act.get
    if converged e o s then quiet accept
    else if s.numIt + 1 = o.base.maxIt then quiet (do accept; emit .limit; Act.throw .notConverged)
    else do
      quiet (Act.modify fun s => { s with numIt := s.numIt + 1 })
      loopV verbose e o n (r' + 1)

/-- `_solve`, `gsStaticDR.hpp` 97-145, with output. The header is printed before `_start`. -/
def solveRawV (verbose : ℤ) (e : DREnv K ι) (o : DROpts K) : Act (Printer K ι) Unit := do
  let s ← quiet Act.get
  if s.ready then do
    quiet (Act.modify fun s => { s with Eks := [], peaks := [] })
    (if verbose ≠ 0 then printLine fun _ => .header columns else pure ())
    quiet (start e)
    quiet (Act.modify fun s => { s with Ek0 := s.Ek, Eks := [s.Ek], numIt := 1 })
    (if verbose ≠ 0 then printLine fun s => .row (cells e 0 s) else pure ())
    loopV verbose e o (if o.base.maxIt = 0 then intMax else o.base.maxIt - 1) 0
  else Act.throw .ub

/-- `solve`, `gsStaticDR.hpp` 71-95, with output. -/
def solveV (verbose : ℤ) (e : DREnv K ι) (o : DROpts K) : Act (Printer K ι) Status := do
  solveRawV verbose e o
  quiet (Act.modify fun s => { s with status := .success })
  let s ← quiet Act.get
  pure s.status

end DR

end GsSA.Static
