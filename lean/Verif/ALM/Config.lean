import Verif.ALM.Methods

/-!
# Life cycle of the arc-length objects

Constructors, options, `setLength` and `initialize` (`gsALMBase.h` 50-155, `gsALMBase.hpp` 22-103 and the
corresponding parts of the four descendants). The option list is modelled as a record with one field for
every option that the classes define; the type checks of `gsOptionList` are not modelled.
-/

namespace GsSA.ALM

/-- The four descendants of `gsALMBase`. -/
inductive Kind
  | loadControl
  | riks
  | consistent
  | crisfield
  deriving DecidableEq, Repr

/-- The option list, `gsALMBase.hpp` 23-54. `Scaling` and `AngleMethod` (`gsALMCrisfield.hpp` 26-27,
`gsALMConsistentCrisfield.hpp` 26) are not read by the kinds that do not define them. -/
structure Options (K : Type) where
  maxIter : ℤ
  tol : K
  tolF : K
  tolU : K
  perturbation : K
  length : K
  adaptiveLength : Bool
  adaptiveIterations : ℤ
  quasi : Bool
  quasiIterations : ℤ
  bifurcationMethod : BifMethod
  spFailure : ℤ
  spTestTol : K
  spTestIt : ℤ
  spTolE : K
  spTolB : K
  solver : String
  relaxation : K
  scaling : K
  angleMethod : AngMethod
  deriving DecidableEq

/-- A list of options with which the user calls `setOptions`: some of the options. -/
structure Given (K : Type) where
  maxIter : Option ℤ := none
  tol : Option K := none
  tolF : Option K := none
  tolU : Option K := none
  perturbation : Option K := none
  length : Option K := none
  adaptiveLength : Option Bool := none
  adaptiveIterations : Option ℤ := none
  quasi : Option Bool := none
  quasiIterations : Option ℤ := none
  bifurcationMethod : Option BifMethod := none
  spFailure : Option ℤ := none
  spTestTol : Option K := none
  spTestIt : Option ℤ := none
  spTolE : Option K := none
  spTolB : Option K := none
  solver : Option String := none
  relaxation : Option K := none
  scaling : Option K := none
  angleMethod : Option AngMethod := none

variable {K V Mat Fac : Type} [Field K] [LinearOrder K] [AddCommGroup V] [Module K V]

/-- `gsALMBase.hpp` 23-54, `gsALMCrisfield.hpp` 23-28. -/
def defaultOptions : Options K where
  maxIter := 100
  tol := 1 / 10 ^ 6
  tolF := 1 / 10 ^ 3
  tolU := 1 / 10 ^ 6
  perturbation := 10 ^ 3
  length := 1 / 10 ^ 2
  adaptiveLength := false
  adaptiveIterations := 10
  quasi := false
  quasiIterations := -1
  bifurcationMethod := .eigenvalue
  spFailure := 1
  spTestTol := 1 / 10 ^ 6
  spTestIt := 5
  spTolE := 1 / 10 ^ 10
  spTolB := 0
  solver := "SimplicialLDLT"
  relaxation := 1
  scaling := -1
  angleMethod := .step

/-- `m_options.update(options, addIfUnknown)`: options that are given replace the stored ones. -/
def Options.update (o : Options K) (g : Given K) : Options K where
  maxIter := g.maxIter.getD o.maxIter
  tol := g.tol.getD o.tol
  tolF := g.tolF.getD o.tolF
  tolU := g.tolU.getD o.tolU
  perturbation := g.perturbation.getD o.perturbation
  length := g.length.getD o.length
  adaptiveLength := g.adaptiveLength.getD o.adaptiveLength
  adaptiveIterations := g.adaptiveIterations.getD o.adaptiveIterations
  quasi := g.quasi.getD o.quasi
  quasiIterations := g.quasiIterations.getD o.quasiIterations
  bifurcationMethod := g.bifurcationMethod.getD o.bifurcationMethod
  spFailure := g.spFailure.getD o.spFailure
  spTestTol := g.spTestTol.getD o.spTestTol
  spTestIt := g.spTestIt.getD o.spTestIt
  spTolE := g.spTolE.getD o.spTolE
  spTolB := g.spTolB.getD o.spTolB
  solver := g.solver.getD o.solver
  relaxation := g.relaxation.getD o.relaxation
  scaling := g.scaling.getD o.scaling
  angleMethod := g.angleMethod.getD o.angleMethod

/-- The solver object: the option list, the members that only options determine, the other members. -/
structure Obj (K V Mat Fac : Type) where
  options : Options K
  o : Opts K
  st : St K V Mat Fac

/-- `gsALMBase.hpp` 75-79: without LDLT, `Determinant` is replaced by `Eigenvalue`. -/
def effectiveMethod (o : Options K) : BifMethod :=
  if o.solver ≠ "SimplicialLDLT" ∧ o.bifurcationMethod = .determinant then .eigenvalue else o.bifurcationMethod

/-- `getOptions`: `gsALMBase.hpp` 57-93, `gsALMCrisfield.hpp` 31-38, `gsALMConsistentCrisfield.hpp` 30-35. A
new `m_solver` has no factorisation. -/
def getOptions (k : Kind) (b : Obj K V Mat Fac) : Obj K V Mat Fac :=
  let p := b.options
  let scaled := k = .crisfield ∨ k = .consistent
  { b with
    o :=
      { maxIt := p.maxIter.toNat
        tol := p.tol
        tolF := p.tolF
        tolU := p.tolU
        tau := p.perturbation
        desiredIt := p.adaptiveIterations
        quasi := p.quasi
        quasiInterval := p.quasiIterations
        bifMethod := effectiveMethod p
        relax := p.relaxation
        spFail := p.spFailure
        spTestTol := p.spTestTol
        spTestIt := p.spTestIt.toNat
        spTolE := p.spTolE
        spTolB := p.spTolB
        phiUser := if scaled then decide (p.scaling ≠ -1) else b.o.phiUser
        angle := if k = .crisfield then p.angleMethod else b.o.angle }
    st :=
      { b.st with
        adaptive := p.adaptiveLength
        fac := none
        len := p.length
        lenPrev := p.length
        lenOri := p.length
        phi := if scaled then p.scaling else b.st.phi } }

/-- `gsALMBase.h` 203 `setOptions`. -/
def setOptions (k : Kind) (g : Given K) (b : Obj K V Mat Fac) : Obj K V Mat Fac :=
  getOptions k { b with options := b.options.update g }

/-- `gsALMBase.h` 209 `applyOptions`. -/
def applyOptions (k : Kind) (b : Obj K V Mat Fac) : Obj K V Mat Fac := getOptions k b

/-- `gsALMBase.h` 206 `options_into(gsOptionList options)`: the argument is passed by value; the list of the
caller after the call. -/
def optionsInto (_ : Obj K V Mat Fac) (mine : Options K) : Options K := mine

/-- `gsALMBase.h` 117-121 `setLength(length)`. -/
def Obj.setLength (l : K) (b : Obj K V Mat Fac) : Obj K V Mat Fac :=
  { b with options := { b.options with length := l }, st := (ALM.setLength l b.st).1 }

/-- `gsALMBase.h` 132-137 `setLength(length, adaptive, iterations)`; with 10 iterations the version without
that argument (124-129), with `adaptive = true` the one without the flag (139-144). -/
def Obj.setAdaptive (l : K) (adaptive : Bool) (iterations : ℤ) (b : Obj K V Mat Fac) : Obj K V Mat Fac :=
  let c := b.setLength l
  { c with o := { c.o with desiredIt := iterations }, st := { c.st with adaptive := adaptive } }

/-- `initMethods`: `gsALMLoadControl.hpp` 39-44, `gsALMRiks.hpp` 23-31, `gsALMConsistentCrisfield.hpp` 39-47,
`gsALMCrisfield.hpp` 41-49. -/
def initMethods (k : Kind) (s : St K V Mat Fac) : St K V Mat Fac :=
  let s := { s with DU := 0, U := 0, DL := 0, L := 0 }
  match k with
  | .loadControl => s
  | .riks => { s with Uprev := 0, Lprev := 0 }
  | .consistent => { s with Uprev := 0, Lprev := 0 }
  | .crisfield => { s with DUold := 0, DLold := 0 }

/-- The object before the constructor runs: vectors and matrices are empty (a vector without rows is the zero
vector, see `computeJacobian()`, `gsALMBase.hpp` 240-247), the numbers of the members are those of `g`. -/
def raw (g : St K V Mat Fac) : St K V Mat Fac :=
  { g with
    U := 0, DU := 0, dU := 0, Ubar := 0, Ut := 0, Uprev := 0, DUold := 0, guess := none, resVec := 0, fac := none
    stabVec := [], v := 0, DV := 0, dV := 0, log := [] }

/-- The constructors, `gsALMBase.h` 50-93 with those of the descendants (`gsALMCrisfield.h` 58-81). The one
with a `dJacobian_t` does not set the status. `g` and `m` are the indeterminate members. -/
def construct (k : Kind) (withStep : Bool) (g : St K V Mat Fac) (m : Opts K) : Obj K V Mat Fac :=
  let s := raw g
  let s := { s with numIt := 0, converged := false, basisF := 0, basisU := 0 }
  let s := if withStep then s else { s with status := .notStarted }
  let b := getOptions k { options := defaultOptions, o := m, st := s }
  { b with st := initMethods k b.st }

/-- `gsALMBase.h` 109-114 `initialize(stability)` and `gsALMBase.hpp` 96-103 `init`. -/
def initializeObj (e : Env K V Mat Fac) (o : Opts K) (k : Kind) (stability : Bool) : Act (St K V Mat Fac) Unit := do
  Act.modify fun s => initMethods k { s with initialized := true }
  (if stability then do
    let s ← Act.get
    computeStabilityRaw e o s.U true (-100)
    Act.modify fun s => { s with stability := stabilityOf s.indicator }
  else pure ())

/-- The functions of the descendant. -/
def Kind.method (e : Env K V Mat Fac) (o : Opts K) : Kind → Method K V Mat Fac
  | .loadControl => ALM.loadControl e
  | .riks => ALM.riks e
  | .consistent => consistentCrisfield e o
  | .crisfield => ALM.crisfield e o

end GsSA.ALM
