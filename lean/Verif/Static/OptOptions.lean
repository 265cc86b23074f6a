import Mathlib.Algebra.Field.Defs
import Mathlib.Order.Defs.LinearOrder

/-!
# The options of `gsStaticOpt`
-/

namespace GsSA.Static.OptOptions

variable {K : Type}

/-- A value in a `gsOptionList`. -/
inductive Val (K : Type) where
  | int (i : ℤ)
  | real (x : K)
  | other
  deriving DecidableEq

/-- `gsOptionList`: the labels that were added, with their values. -/
abbrev OptList (K : Type) := String → Option (Val K)

/-- `setInt`: the label must have been added as an integer, otherwise an exception is thrown (`none`). -/
def setInt (l : OptList K) (k : String) (i : ℤ) : Option (OptList K) :=
  match l k with
  | some (.int _) => some fun k' => if k' = k then some (.int i) else l k'
  | _ => none

/-- `setReal`. -/
def setReal (l : OptList K) (k : String) (x : K) : Option (OptList K) :=
  match l k with
  | some (.real _) => some fun k' => if k' = k then some (.real x) else l k'
  | _ => none

/-- The options of `gsStaticBase`, `gsStaticBase.h` 65-74, which are used here. -/
structure Base (K : Type) where
  tol : K
  tolF : K
  tolU : K
  maxIt : ℤ
  verbose : ℤ

/-- The members set by `gsStaticBase::getOptions`, `gsStaticBase.h` 77-86. -/
structure Members (K : Type) where
  tolF : K
  tolU : K
  maxIterations : ℤ
  verbose : ℤ

/-- `gsStaticBase::getOptions`, `gsStaticBase.h` 79-82. -/
def Base.get [Field K] [DecidableEq K] (o : Base K) : Members K where
  tolF := if o.tolF ≠ -1 then o.tolF else o.tol
  tolU := if o.tolU ≠ -1 then o.tolU else o.tol
  maxIterations := o.maxIt
  verbose := o.verbose

/-- The class of `m_optimizer`. -/
inductive Optimizer where
  | gradientDescent
  | hlbfgs
  | optim
  | ipopt
  | unknown
  deriving DecidableEq

/-- The optional modules, `gsStaticOpt.hpp` 16-26. -/
structure Modules where
  hlbfgs : Bool
  optim : Bool
  ipopt : Bool

/-- `gsStaticOpt::getOptions`, `gsStaticOpt.hpp` 55-89: the members and the options of the optimizer; `none` is an
exception. -/
def getOptions [Field K] [DecidableEq K] (mods : Modules) (c : Optimizer) (o : Base K) (l : OptList K) :
    Option (Members K × OptList K) := do
  let m := o.get
  let l ← setInt l "MaxIterations" m.maxIterations
  let l ← setInt l "Verbose" m.verbose
  if c = .gradientDescent then
    let l ← setReal l "MinGradientLength" m.tolF
    let l ← setReal l "MinStepLength" m.tolU
    return (m, l)
  else if mods.hlbfgs && c = .hlbfgs then
    let l ← setReal l "MinGradLen" m.tolF
    let l ← setReal l "MinStepLen" m.tolU
    return (m, l)
  else if mods.optim && c = .optim then
    let l ← setReal l "RelObjFnChangeTol" m.tolF
    let l ← setReal l "RelSolChangeTol" m.tolU
    return (m, l)
  else if mods.ipopt && c = .ipopt then
    let l ← setReal l "MinGradientLength" m.tolF
    let l ← setReal l "MinStepLength" m.tolU
    return (m, l)
  else
    none

end GsSA.Static.OptOptions
