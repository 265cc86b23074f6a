import Mathlib.Algebra.Module.LinearMap.End
import Verif.Static.Base

/-!
# Model of the time integrators

`src/gsDynamicSolvers/gsDynamicBase.h` and the `_step_impl` of the descendants. Vectors are elements of a
`K`-module `V`, matrices are linear maps. The members `m_U`, `m_V`, `m_A` are passed by reference to
`_step`, so an exception leaves them as they are at that moment; this is what `Act` records.

Floating point numbers are replaced by a field: a division by zero which gives NaN or infinity in C++
matters only where `quotLt` is used; the theorems on the Bathe and Wilson methods exclude it by their
hypotheses. The test for NaN and infinity is an arbitrary predicate on the norm.
-/

namespace GsSA.Dynamic

open GsSA GsSA.Static
open GsSA.ALM (Act Err)

/-- What a callback does: it returns `true` and a value, it returns `false`, or it raises an exception
(`GISMO_ERROR`, `gsDynamicBase.h` 75, 95, 115; or an empty `std::function`). -/
inductive Reply (α : Type) where
  | value (a : α)
  | refused
  | missing

/-- A call of a callback, with its arguments. -/
inductive Call (K V : Type) where
  | mass (t : K)
  | damping (x : V) (t : K)
  | jacobian (x : V) (t : K)
  | force (t : K)
  | residual (x : V) (t : K)
  deriving DecidableEq

/-- The options (`gsDynamicBase.hpp` 19-34, `gsDynamicNewmark.hpp` 19-25, `gsDynamicWilson.hpp` 19-26,
`gsDynamicBathe.hpp` 19-26). -/
structure Opts (K : Type) where
  maxIter : ℤ
  tolF : K
  tolU : K
  quasi : Bool
  quasiIt : ℤ
  alpha : K
  delta : K
  gamma : K

section

variable (K V : Type) [Field K] [AddCommGroup V] [Module K V]

/-- The callbacks as the constructors store them (`gsDynamicBase.h` 59-171) and the linear algebra
library. The first argument of most functions is the number of calls so far, so that they may fail, or be
inaccurate, at arbitrary moments. `constMass` is `m_mass != nullptr`. `norm2` is the norm of a vector made
of two parts. `nonfinite x` is `isinf(x) || isnan(x)`. `solve` is `gsSparseSolver::compute` and `solve`,
whose `info()` is not looked at. `gmres n a b c d x y` solves the system with blocks `a b c d`. -/
structure Env where
  norm : V → K
  norm2 : V → V → K
  nonfinite : K → Bool
  constMass : Bool
  mass : ℕ → K → Reply (V →ₗ[K] V)
  damping : ℕ → V → K → Reply (V →ₗ[K] V)
  jacobian : ℕ → V → K → Reply (V →ₗ[K] V)
  force : ℕ → K → Reply V
  residual : ℕ → V → K → Reply V
  inverse : (V →ₗ[K] V) → (V →ₗ[K] V)
  solve : ℕ → (V →ₗ[K] V) → V → V
  gmres : ℕ → (V →ₗ[K] V) → (V →ₗ[K] V) → (V →ₗ[K] V) → (V →ₗ[K] V) → V → V → V × V

/-- The members of `gsDynamicBase` (`gsDynamicBase.h` 339-425) that are used: `m_U`, `m_V`, `m_A`, `m_time`,
`m_status`, `m_massInv` (`none` if it has no rows), `m_numIterations`. `log` records the calls of the
callbacks, newest first, with a flag for success. -/
structure DSt where
  u : V
  v : V
  a : V
  time : K
  status : Status
  massInv : Option (V →ₗ[K] V)
  numIt : ℤ
  log : List (Call K V × Bool)

end

variable {K V : Type} [Field K] [LinearOrder K] [AddCommGroup V] [Module K V]

/-- The object after `_init`, `gsDynamicBase.h` 176-184; `setU`, `setV`, `setA` (245-247) give the vectors. -/
def DSt.init (u v a : V) : DSt K V :=
  { u := u, v := v, a := a, time := 0, status := .notStarted, massInv := none, numIt := -1, log := [] }

/-- Call a callback; `false` leads to `throw 2` (`gsDynamicBase.h` 285-332). -/
def call {α : Type} (c : Call K V) (f : ℕ → Reply α) : Act (DSt K V) α := do
  let s ← Act.get
  match f s.log.length with
  | .value a => do
    Act.modify fun s => { s with log := (c, true) :: s.log }
    pure a
  | .refused => do
    Act.modify fun s => { s with log := (c, false) :: s.log }
    Act.throw .assembly
  | .missing => do
    Act.modify fun s => { s with log := (c, false) :: s.log }
    Act.throw .other

/-- `_computeForce`, `gsDynamicBase.h` 285-289. -/
def computeForce (e : Env K V) (t : K) : Act (DSt K V) V := call (.force t) fun n => e.force n t

/-- `_computeResidual`, `gsDynamicBase.h` 292-296. -/
def computeResidual (e : Env K V) (x : V) (t : K) : Act (DSt K V) V :=
  call (.residual x t) fun n => e.residual n x t

/-- `_computeMass`, `gsDynamicBase.h` 299-303. -/
def computeMass (e : Env K V) (t : K) : Act (DSt K V) (V →ₗ[K] V) := call (.mass t) fun n => e.mass n t

/-- `_computeDamping`, `gsDynamicBase.h` 321-325. -/
def computeDamping (e : Env K V) (x : V) (t : K) : Act (DSt K V) (V →ₗ[K] V) :=
  call (.damping x t) fun n => e.damping n x t

/-- `_computeJacobian`, `gsDynamicBase.h` 328-332. -/
def computeJacobian (e : Env K V) (x : V) (t : K) : Act (DSt K V) (V →ₗ[K] V) :=
  call (.jacobian x t) fun n => e.jacobian n x t

/-- `_computeMassInverse`, `gsDynamicBase.h` 306-318: the inverse is kept in `m_massInv` and used again if
the mass does not depend on time. -/
def computeMassInverse (e : Env K V) (M : V →ₗ[K] V) : Act (DSt K V) (V →ₗ[K] V) := do
  let s ← Act.get
  match e.constMass, s.massInv with
  | true, some X => pure X
  | _, _ => do
    Act.modify fun s => { s with massInv := some (e.inverse M) }
    pure (e.inverse M)

/-- `compute` and `solve` of the sparse solver. -/
def linSolve (e : Env K V) (m : V →ₗ[K] V) (b : V) : Act (DSt K V) V := do
  let s ← Act.get
  pure (e.solve s.log.length m b)

/-- `gsGMRes::solve`. -/
def gmresSolve (e : Env K V) (a b c d : V →ₗ[K] V) (x y : V) : Act (DSt K V) (V × V) := do
  let s ← Act.get
  pure (e.gmres s.log.length a b c d x y)

/-- Assign `U` and `V`. -/
def setUV (u v : V) : Act (DSt K V) Unit := Act.modify fun s => { s with u := u, v := v }

/-- Assign `U`, `V` and `A`. -/
def setUVA (u v a : V) : Act (DSt K V) Unit := Act.modify fun s => { s with u := u, v := v, a := a }

/-- `if (isinf(x) || isnan(x)) return NotConverged; else return Success;` -/
def finiteStatus (e : Env K V) (x : K) : Status :=
  if e.nonfinite x then .notConverged else .success

/-- The condition `!Quasi || numIterations==0 || numIterations % QuasiIterations == 0`
(`gsDynamicNewmark.hpp` 115 and others). The remainder by zero is undefined. -/
def refresh (o : Opts K) (it : ℕ) : Act (DSt K V) Bool :=
  if o.quasi = false then pure true
  else if it = 0 then pure true
  else if o.quasiIt = 0 then Act.throw .ub
  else pure (decide ((it : ℤ) % o.quasiIt = 0))

/-- The first lines of an iteration (`gsDynamicNewmark.hpp` 115-120, `gsDynamicBathe.hpp` 133-138,
`gsDynamicImplicitEuler.hpp` 126-131): damping and stiffness at the current displacement, if `b`. -/
def renew (e : Env K V) (t : K) (b : Bool) (C S : V →ₗ[K] V) :
    Act (DSt K V) ((V →ₗ[K] V) × (V →ₗ[K] V)) :=
  if b then do
    let s ← Act.get
    let C ← computeDamping e s.u t
    let S ← computeJacobian e s.u t
    pure (C, S)
  else pure (C, S)

/-- `(y != 0) ? x/y : x`, `gsDynamicNewmark.hpp` 134, `gsDynamicImplicitEuler.hpp` 146. -/
def updNorm (x y : K) : K := if y ≠ 0 then x / y else x

/-- Run a step on copies of `U`, `V`, `A`, as for the first stage in `gsDynamicBathe.hpp` 40-46. -/
def onCopy {α : Type} (m : Act (DSt K V) α) : Act (DSt K V) (α × V × V × V) where
  run s :=
    match m s with
    | (t, .ok x) => ({ t with u := s.u, v := s.v, a := s.a }, .ok (x, t.u, t.v, t.a))
    | (t, .error x) => ({ t with u := s.u, v := s.v, a := s.a }, .error x)

/-- The pre-step callback (`none` if empty) lets the step go ahead, `gsDynamicBase.h` 200. -/
def accepts (cb : Option (ℕ → K → K → Bool)) (n : ℕ) (t dt : K) : Bool :=
  match cb with
  | none => true
  | some g => g n t dt

/-- `step(T dt)`, `gsDynamicBase.h` 198-210, with the integrator `f` and the callback `cb`
(`m_preStepCallback`). -/
def step (cb : Option (ℕ → K → K → Bool)) (f : K → K → Act (DSt K V) Status) (dt : K) :
    Act (DSt K V) Status := do
  let s ← Act.get
  if accepts cb s.log.length s.time dt then do
    let r ← f s.time dt
    Act.modify fun s => { s with time := s.time + dt, status := r }
    pure r
  else do
    Act.modify fun s => { s with status := .otherError }
    pure .otherError

/-- `step(t,dt,U,V,A) const`, `gsDynamicBase.h` 217-220: works on vectors of the caller. -/
def stepConst (f : K → K → Act (DSt K V) Status) (t dt : K) (u v a : V) :
    Act (DSt K V) (Status × V × V × V) where
  run s :=
    match f t dt { s with u := u, v := v, a := a } with
    | (s', .ok r) => ({ s' with u := s.u, v := s.v, a := s.a }, .ok (r, s'.u, s'.v, s'.a))
    | (s', .error x) => ({ s' with u := s.u, v := s.v, a := s.a }, .error x)

/-- Calls of `step` one after the other, each with an exception handler around it as in a driver that goes
on; `none` stands for an exception. -/
def steps (cb : Option (ℕ → K → K → Bool)) (f : K → K → Act (DSt K V) Status) :
    List K → DSt K V → DSt K V × List (Option Status)
  | [], s => (s, [])
  | dt :: l, s =>
    let r := step cb f dt s
    let q := steps cb f l r.1
    (q.1, (match r.2 with | .ok x => some x | .error _ => none) :: q.2)

end GsSA.Dynamic
