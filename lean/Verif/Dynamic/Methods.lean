import Verif.Dynamic.Base

/-!
# The `_step_impl` of the six integrators

Each exists in a linear and a nonlinear version (template parameter `_NL`). Local copies `Uold`, `Vold`,
`Aold` are the values at entry.
-/

namespace GsSA.Dynamic

open GsSA GsSA.Static
open GsSA.ALM (Act Err)

variable {K V : Type} [Field K] [LinearOrder K] [AddCommGroup V] [Module K V]

/-! ## Explicit Euler -/

/-- Linear, `gsDynamicExplicitEuler.hpp` 50-87. -/
def explicitEulerL (e : Env K V) (t dt : K) : Act (DSt K V) Status := do
  let s ← Act.get
  let M ← computeMass e t
  let Minv ← computeMassInverse e M
  let F ← computeForce e t
  let C ← computeDamping e s.u t
  let Kt ← computeJacobian e s.u t
  let u := s.u + dt • s.v
  let v := s.v + dt • Minv (F - Kt s.u - C s.v)
  setUV u v
  pure (finiteStatus e (e.norm2 u v))

/-- Nonlinear, `gsDynamicExplicitEuler.hpp` 90-125. -/
def explicitEulerN (e : Env K V) (t dt : K) : Act (DSt K V) Status := do
  let s ← Act.get
  let M ← computeMass e t
  let Minv ← computeMassInverse e M
  let C ← computeDamping e s.u t
  let R ← computeResidual e s.u t
  let u := s.u + dt • s.v
  let v := s.v + dt • Minv (-R - C s.v)
  setUV u v
  pure (finiteStatus e (e.norm2 u v))

/-! ## Runge-Kutta -/

/-- Linear, `gsDynamicRK4.hpp` 18-88. A slope `k` is a pair (top rows, bottom rows). -/
def rk4L (e : Env K V) (t dt : K) : Act (DSt K V) Status := do
  let s ← Act.get
  let M ← computeMass e t
  let Minv ← computeMassInverse e M
  let C ← computeDamping e s.u t
  let Kt ← computeJacobian e s.u t
  let F ← computeForce e t
  let k1 := (s.v, Minv (F - Kt s.u - C s.v))
  let u2 := s.u + (dt / 2) • k1.1
  let v2 := s.v + (dt / 2) • k1.2
  let F ← computeForce e (t + dt / 2)
  let k2 := (v2, Minv (F - Kt u2 - C v2))
  let u3 := s.u + (dt / 2) • k2.1
  let v3 := s.v + (dt / 2) • k2.2
  let F ← computeForce e (t + dt / 2)
  let k3 := (v3, Minv (F - Kt u3 - C v3))
  let u4 := s.u + dt • k3.1
  let v4 := s.v + dt • k3.2
  let F ← computeForce e (t + dt)
  let k4 := (v4, Minv (F - Kt u4 - C v4))
  let u := s.u + (1 / 6 * dt) • (k1.1 + (2 : K) • k2.1 + (2 : K) • k3.1 + k4.1)
  let v := s.v + (1 / 6 * dt) • (k1.2 + (2 : K) • k2.2 + (2 : K) • k3.2 + k4.2)
  setUV u v
  pure (finiteStatus e (e.norm2 u v))

/-- Nonlinear, `gsDynamicRK4.hpp` 91-157. -/
def rk4N (e : Env K V) (t dt : K) : Act (DSt K V) Status := do
  let s ← Act.get
  let M ← computeMass e t
  let Minv ← computeMassInverse e M
  let C ← computeDamping e s.u t
  let _ ← computeJacobian e s.u t
  let R ← computeResidual e s.u t
  let k1 := (s.v, Minv (R - C s.v))
  let u2 := s.u + (dt / 2) • k1.1
  let v2 := s.v + (dt / 2) • k1.2
  let R ← computeResidual e u2 (t + dt / 2)
  let k2 := (v2, Minv (R - C v2))
  let u3 := s.u + (dt / 2) • k2.1
  let v3 := s.v + (dt / 2) • k2.2
  let R ← computeResidual e u3 (t + dt / 2)
  let k3 := (v3, Minv (R - C v3))
  let u4 := s.u + dt • k3.1
  let v4 := s.v + dt • k3.2
  let R ← computeResidual e u4 (t + dt)
  let k4 := (v4, Minv (R - C v4))
  let u := s.u + (1 / 6 * dt) • (k1.1 + (2 : K) • k2.1 + (2 : K) • k3.1 + k4.1)
  let v := s.v + (1 / 6 * dt) • (k1.2 + (2 : K) • k2.2 + (2 : K) • k3.2 + k4.2)
  setUV u v
  pure (finiteStatus e (e.norm2 u v))

/-! ## Implicit Euler -/

/-- Linear, `gsDynamicImplicitEuler.hpp` 23-77. -/
def implicitEulerL (e : Env K V) (t dt : K) : Act (DSt K V) Status := do
  let s ← Act.get
  let M ← computeMass e (t + dt)
  let F ← computeForce e (t + dt)
  let C ← computeDamping e s.u (t + dt)
  let Kt ← computeJacobian e s.u t
  let x ← gmresSolve e LinearMap.id (-(dt • LinearMap.id)) (dt • Kt) (M + dt • C) s.u (dt • F + M s.v)
  setUV x.1 x.2
  pure .success

/-- The loop of the nonlinear version, `gsDynamicImplicitEuler.hpp` 123-163, with `n` iterations left and
`it` done. `(u0, v0)` is the state at entry; `sol` equals `(U, V)` at the start of each iteration. -/
def implicitEulerLoop (e : Env K V) (o : Opts K) (t dt : K) (u0 v0 : V) (M : V →ₗ[K] V) (res0 : K) :
    ℕ → ℕ → (V →ₗ[K] V) → (V →ₗ[K] V) → V → Act (DSt K V) Status
  | 0, _, _, _, _ => pure .notConverged
  | n + 1, it, C, Kt, R => do
    let b ← refresh o it
    let CK ← renew e (t + dt) b C Kt
    let s ← Act.get
    let r1 := s.u - u0 - dt • s.v
    let r2 := M (s.v - v0) + dt • CK.1 s.v + dt • (-R)
    let d ← gmresSolve e LinearMap.id (-(dt • LinearMap.id)) (dt • CK.2) (M + dt • CK.1) (-r1) (-r2)
    let u := s.u + d.1
    let v := s.v + d.2
    let updateNorm := updNorm (e.norm2 d.1 d.2) (e.norm2 u v)
    setUV u v
    let R ← computeResidual e u t
    if updateNorm < o.tolU ∧ e.norm2 r1 r2 / res0 < o.tolF then pure .success
    else implicitEulerLoop e o t dt u0 v0 M res0 n (it + 1) CK.1 CK.2 R

/-- Nonlinear, `gsDynamicImplicitEuler.hpp` 80-164. The stiffness of the first iteration is computed in the
loop; before, it has no value (here 0). -/
def implicitEulerN (e : Env K V) (o : Opts K) (t dt : K) : Act (DSt K V) Status := do
  let s ← Act.get
  let M ← computeMass e (t + dt)
  let C ← computeDamping e s.u (t + dt)
  let R ← computeResidual e s.u (t + dt)
  let res := e.norm2 (-(dt • s.v)) (dt • C s.v + dt • (-R))
  implicitEulerLoop e o t dt s.u s.v M (nz res) o.maxIter.toNat 0 C 0 R

/-! ## Newmark -/

/-- Linear, `gsDynamicNewmark.hpp` 28-74. -/
def newmarkL (e : Env K V) (o : Opts K) (t dt : K) : Act (DSt K V) Status := do
  let s ← Act.get
  let M ← computeMass e (t + dt)
  let F ← computeForce e (t + dt)
  let u := s.u + dt • s.v + ((1 / 2 - o.alpha) * dt * dt) • s.a
  let v := s.v + ((1 - o.delta) * dt) • s.a
  setUV u v
  let C ← computeDamping e u (t + dt)
  let Kt ← computeJacobian e u (t + dt)
  let a ← linSolve e (M + (o.delta * dt) • C + (dt * dt * o.alpha) • Kt) (F - Kt u - C v)
  setUVA (u + (o.alpha * dt * dt) • a) (v + (o.delta * dt) • a) a
  pure (finiteStatus e (e.norm (u + (o.alpha * dt * dt) • a)))

/-- The loop of the nonlinear version, `gsDynamicNewmark.hpp` 113-149. -/
def newmarkLoop (e : Env K V) (o : Opts K) (t dt : K) (M : V →ₗ[K] V) (res0 : K) :
    ℕ → ℕ → (V →ₗ[K] V) → (V →ₗ[K] V) → V → Act (DSt K V) Status
  | 0, _, _, _, _ => pure .notConverged
  | n + 1, it, C, Kt, rhs => do
    let b ← refresh o it
    let CK ← renew e (t + dt) b C Kt
    let dA ← linSolve e (M + (o.delta * dt) • CK.1 + (dt * dt * o.alpha) • CK.2) rhs
    Act.modify fun s => { s with
      a := s.a + dA, v := s.v + (o.delta * dt) • dA, u := s.u + (o.alpha * dt * dt) • dA }
    let s ← Act.get
    let updateNorm := updNorm (e.norm dA) (e.norm s.a)
    let R ← computeResidual e s.u (t + dt)
    let rhs := R - CK.1 s.v - M s.a
    if updateNorm < o.tolU ∧ e.norm rhs / res0 < o.tolF then pure .success
    else newmarkLoop e o t dt M res0 n (it + 1) CK.1 CK.2 rhs

/-- Nonlinear, `gsDynamicNewmark.hpp` 77-150. -/
def newmarkN (e : Env K V) (o : Opts K) (t dt : K) : Act (DSt K V) Status := do
  let s ← Act.get
  let u := s.u + dt • s.v + ((1 / 2 - o.alpha) * dt * dt) • s.a + (o.alpha * dt * dt) • (0 : V)
  let v := s.v + ((1 - o.delta) * dt) • s.a + (o.delta * dt) • (0 : V)
  setUVA u v 0
  let M ← computeMass e (t + dt)
  let C ← computeDamping e u (t + dt)
  let R ← computeResidual e u (t + dt)
  let rhs := R - C v - M 0
  newmarkLoop e o t dt M (nz (e.norm rhs)) o.maxIter.toNat 0 C 0 rhs

/-- `gsDynamicNewmark::_step`, `gsDynamicNewmark.hpp` 152-160. -/
def newmark (nl : Bool) (e : Env K V) (o : Opts K) (t dt : K) : Act (DSt K V) Status :=
  if nl then newmarkN e o t dt else newmarkL e o t dt

/-! ## Wilson -/

/-- Linear, `gsDynamicWilson.hpp` 29-55. -/
def wilsonL (e : Env K V) (o : Opts K) (t dt : K) : Act (DSt K V) Status := do
  let x ← onCopy (newmark false e o t (o.gamma * dt))
  Act.modify fun s =>
    let a := (1 - 1 / o.gamma) • s.a + (1 / o.gamma) • x.2.2.2
    { s with a := a, v := s.v + (o.delta * dt) • a, u := s.u + (o.alpha * dt * dt) • a }
  pure .success

/-- Nonlinear, `gsDynamicWilson.hpp` 58-84. -/
def wilsonN (e : Env K V) (o : Opts K) (t dt : K) : Act (DSt K V) Status := do
  let x ← onCopy (newmark true e o t (o.gamma * dt))
  Act.modify fun s =>
    let a := (1 - 1 / o.gamma) • s.a + (1 / o.gamma) • x.2.2.2
    { s with
      a := a
      u := s.u + dt • s.v + ((1 / 2 - o.alpha) * dt * dt) • s.a + (o.alpha * dt * dt) • a
      v := s.v + ((1 - o.delta) * dt) • s.a + (o.delta * dt) • a }
  pure .success

/-! ## Bathe -/

/-- `c1`, `gsDynamicBathe.hpp` 58, 89. -/
def c1 (o : Opts K) (dt : K) : K := (1 - o.gamma) / (o.gamma * dt)

/-- `c2`, `gsDynamicBathe.hpp` 59, 90. -/
def c2 (o : Opts K) (dt : K) : K := (-1) / ((1 - o.gamma) * o.gamma * dt)

/-- `c3`, `gsDynamicBathe.hpp` 60, 91. -/
def c3 (o : Opts K) (dt : K) : K := (2 - o.gamma) / ((1 - o.gamma) * dt)

/-- Linear, `gsDynamicBathe.hpp` 29-79. -/
def batheL (e : Env K V) (o : Opts K) (t dt : K) : Act (DSt K V) Status := do
  let s ← Act.get
  let x ← onCopy (newmark false e o t (o.gamma * dt))
  let us := x.2.1
  let vs := x.2.2.1
  let M ← computeMass e (t + dt)
  let F ← computeForce e (t + dt)
  let C ← computeDamping e s.u (t + dt)
  let Kt ← computeJacobian e s.u (t + dt)
  let c₁ := c1 o dt
  let c₂ := c2 o dt
  let c₃ := c3 o dt
  let u ← linSolve e (Kt + (c₃ * c₃) • M + c₃ • C)
    (F - M (c₁ • s.v + c₂ • vs + (c₁ * c₃) • s.u + (c₃ * c₂) • us) - C (c₂ • us + c₁ • s.u))
  let v := c₁ • s.u + c₂ • us + c₃ • u
  let a := c₁ • s.v + c₂ • vs + c₃ • v
  setUVA u v a
  pure (finiteStatus e (e.norm u))

/-- The right hand side of the second stage, `gsDynamicBathe.hpp` 122, 157. -/
def batheRhs (o : Opts K) (dt : K) (M C : V →ₗ[K] V) (u0 v0 us vs R u : V) : V :=
  R - M (c1 o dt • v0 + c2 o dt • vs + (c1 o dt * c3 o dt) • u0 + (c3 o dt * c2 o dt) • us
      + (c3 o dt * c3 o dt) • u) - C (c1 o dt • u0 + c2 o dt • us + c3 o dt • u)

/-- The loop of the nonlinear version, `gsDynamicBathe.hpp` 131-174. The quotient in line 159 is not
guarded. -/
def batheLoop (e : Env K V) (o : Opts K) (t dt : K) (M : V →ₗ[K] V) (u0 v0 us vs : V) (res0 : K) :
    ℕ → ℕ → (V →ₗ[K] V) → (V →ₗ[K] V) → V → Act (DSt K V) Status
  | 0, _, _, _, _ => do
    Act.modify fun s =>
      let v := c1 o dt • u0 + c2 o dt • us + c3 o dt • s.u
      { s with v := v, a := c1 o dt • v0 + c2 o dt • vs + c3 o dt • v }
    pure .notConverged
  | n + 1, it, C, Kt, rhs => do
    let b ← refresh o it
    let CK ← renew e (t + dt) b C Kt
    let dU ← linSolve e (CK.2 + (c3 o dt * c3 o dt) • M + c3 o dt • CK.1) rhs
    Act.modify fun s => { s with u := s.u + dU }
    let s ← Act.get
    let R ← computeResidual e s.u (t + dt)
    let rhs := batheRhs o dt M CK.1 u0 v0 us vs R s.u
    if quotLt (e.norm dU) (e.norm s.u) o.tolU = true ∧ e.norm rhs / res0 < o.tolF then do
      Act.modify fun s =>
        let v := c1 o dt • u0 + c2 o dt • us + c3 o dt • s.u
        { s with v := v, a := c1 o dt • v0 + c2 o dt • vs + c3 o dt • v }
      pure .success
    else batheLoop e o t dt M u0 v0 us vs res0 n (it + 1) CK.1 CK.2 rhs

/-- Nonlinear, `gsDynamicBathe.hpp` 82-175. -/
def batheN (e : Env K V) (o : Opts K) (t dt : K) : Act (DSt K V) Status := do
  let s ← Act.get
  let x ← onCopy (newmark true e o t (o.gamma * dt))
  let us := x.2.1
  let vs := x.2.2.1
  let M ← computeMass e (t + dt)
  let C ← computeDamping e s.u (t + dt)
  let R ← computeResidual e s.u (t + dt)
  setUVA us vs x.2.2.2
  let rhs := batheRhs o dt M C s.u s.v us vs R us
  batheLoop e o t dt M s.u s.v us vs (nz (e.norm rhs)) o.maxIter.toNat 0 C 0 rhs

/-! ## All of them -/

/-- The classes. -/
inductive Method
  | explicitEuler
  | rk4
  | implicitEuler
  | newmark
  | wilson
  | bathe
  deriving DecidableEq, Repr

/-- The virtual function `_step`. -/
def integrate (m : Method) (nl : Bool) (e : Env K V) (o : Opts K) (t dt : K) : Act (DSt K V) Status :=
  match m, nl with
  | .explicitEuler, false => explicitEulerL e t dt
  | .explicitEuler, true => explicitEulerN e t dt
  | .rk4, false => rk4L e t dt
  | .rk4, true => rk4N e t dt
  | .implicitEuler, false => implicitEulerL e t dt
  | .implicitEuler, true => implicitEulerN e o t dt
  | .newmark, b => newmark b e o t dt
  | .wilson, false => wilsonL e o t dt
  | .wilson, true => wilsonN e o t dt
  | .bathe, false => batheL e o t dt
  | .bathe, true => batheN e o t dt

end GsSA.Dynamic
