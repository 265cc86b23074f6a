import Mathlib.Data.Int.Notation
import Mathlib.Data.Nat.Notation
import Mathlib.Tactic.TypeStar

/-!
# The options of `gsDynamicXBraid`
-/

namespace GsSA.Dynamic.XBraidOptions

variable {K : Type}

/-- `m_options`, `gsDynamicXBraid.h` 60-87, without `extraVerbose`, which is not read here. -/
structure Options (K : Type) where
  cFactor : ℤ
  access : ℤ
  maxIter : ℤ
  maxLevel : ℤ
  minCLevel : ℤ
  norm : ℤ
  numFMG : ℤ
  numFMGVcyc : ℤ
  numMaxRef : ℤ
  numRelax : ℤ
  numStorage : ℤ
  print : ℤ
  absTol : K
  relTol : K
  fmg : Bool
  incrMaxLevels : Bool
  periodic : Bool
  refine : Bool
  sequential : Bool
  skip : Bool
  spatial : Bool
  tol : Bool
deriving DecidableEq

/-- `defaultOptions`, `gsDynamicXBraid.h` 60-87; the tolerances are parameters (`1e-6` and `1e-3`). -/
def defaults (absTol relTol : K) : Options K where
  cFactor := 2
  access := 1
  maxIter := 100
  maxLevel := 30
  minCLevel := 2
  norm := 2
  numFMG := 1
  numFMGVcyc := 1
  numMaxRef := 1
  numRelax := 1
  numStorage := -1
  print := 2
  absTol := absTol
  relTol := relTol
  fmg := false
  incrMaxLevels := false
  periodic := false
  refine := false
  sequential := false
  skip := true
  spatial := false
  tol := false

/-- The settings of the XBraid core. `tol` has one value, with `absolute` telling how it is used: `SetAbsTol` and
`SetRelTol` overwrite both. The functions without an argument can only switch on. -/
structure Core (K : Type) where
  cFactor : ℤ
  access : ℤ
  maxIter : ℤ
  maxLevels : ℤ
  minCoarse : ℤ
  norm : ℤ
  nFMG : ℤ
  nFMGVcyc : ℤ
  maxRefinements : ℤ
  nRelax : ℤ
  storage : ℤ
  print : ℤ
  fmg : Bool
  incrMaxLevels : Bool
  periodic : Bool
  refine : Bool
  seqSoln : Bool
  skip : Bool
  spatial : Bool
  absolute : Bool
  tol : K
deriving DecidableEq

/-- `initialize`, `gsDynamicXBraid.h` 89-114. -/
def init (o : Options K) (c : Core K) : Core K :=
  let c := { c with cFactor := o.cFactor }
  let c := { c with maxIter := o.maxIter }
  let c := { c with maxLevels := o.maxLevel }
  let c := { c with maxRefinements := o.numMaxRef }
  let c := { c with minCoarse := o.minCLevel }
  let c := { c with nFMG := o.numFMG }
  let c := { c with nFMGVcyc := o.numFMGVcyc }
  let c := { c with nRelax := o.numRelax }
  let c := { c with access := o.access }
  let c := { c with print := o.print }
  let c := { c with storage := o.numStorage }
  let c := { c with norm := o.norm }
  let c := if o.fmg then { c with fmg := true } else c
  let c := if o.incrMaxLevels then { c with incrMaxLevels := true } else c
  let c := if o.periodic then { c with periodic := true } else { c with periodic := false }
  let c := if o.refine then { c with refine := true } else { c with refine := false }
  let c := if o.sequential then { c with seqSoln := true } else { c with seqSoln := false }
  let c := if o.skip then { c with skip := true } else { c with skip := false }
  let c := if o.spatial then { c with spatial := true } else c
  if o.tol then { c with absolute := true, tol := o.absTol } else { c with absolute := false, tol := o.relTol }

/-- The objects of `gsDynamicXBraid` in memory: a pointer is a number, `none` memory that was not allocated. -/
abbrev Memory (V : Type*) := ℕ → Option V

/-- `Coarsen`, `gsDynamicXBraid.h` 233-240: a new object at a free address `p` with the contents of `*fu`. -/
def coarsen {V : Type*} (h : Memory V) (fu p : ℕ) : Memory V := fun q => if q = p then h fu else h q

/-- `Refine`, `gsDynamicXBraid.h` 243-250. -/
def refineSpace {V : Type*} (h : Memory V) (cu p : ℕ) : Memory V := fun q => if q = p then h cu else h q

end GsSA.Dynamic.XBraidOptions
