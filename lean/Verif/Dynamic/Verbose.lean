import Verif.Dynamic.Methods
import Verif.Static.Verbose

/-!
# The switch `Verbose` of the time integrators

`_initOutput`, `_stepOutput` and `_stageOutput` of the six classes and the places where they are called. The integrators
without output are modelled in `Verif.Dynamic.Methods`; here a state is accompanied by the lines printed so far, oldest
first. The format of the numbers is not modelled. Left out are the message on too many iterations, which is printed
whatever the switch is, and `gsDebugVar`.
-/

namespace GsSA.Dynamic

open GsSA GsSA.Static
open GsSA.ALM (Act Err quiet printLine)

/-- A printed line. -/
inductive Line (K : Type)
  | stage (n : ℕ)
  | header (names : List String)
  | row (cells : List (Column K))
  deriving DecidableEq

section

variable (K V : Type) [Field K] [AddCommGroup V] [Module K V]

/-- An integrator and what it has printed. -/
abbrev Printer := DSt K V × List (Line K)

/-- What an iteration leaves for the next one: the vectors, the last correction, the right hand side (for implicit Euler
in two parts, with the residual `R` for the next one), damping and stiffness. -/
structure Pass where
  u : V
  v : V
  a : V
  d : V
  d' : V
  rhs : V
  rhs' : V
  R : V
  C : V →ₗ[K] V
  S : V →ₗ[K] V

end

variable {K V : Type} [Field K] [LinearOrder K] [AddCommGroup V] [Module K V]

/-- Print a line if the switch is on. -/
def say (verbose : Bool) (l : Line K) : Act (Printer K V) Unit :=
  if verbose then printLine fun _ => l else pure ()

/-- `_initOutput` of explicit Euler (`gsDynamicExplicitEuler.hpp` 138-147). -/
def columnsR : Line K := .header ["It.", "|R|"]

/-- `_initOutput` of the other methods (`gsDynamicImplicitEuler.hpp` 177-186, `gsDynamicNewmark.hpp` 164-173,
`gsDynamicBathe.hpp` 198-207). -/
def columnsRU : Line K := .header ["It.", "|R|/|R0|", "|dU|/|U0|"]

/-- Run a step on copies, with output (`gsDynamicBathe.hpp` 40-46, `gsDynamicWilson.hpp` 41-46). -/
def onCopyV {α : Type} (m : Act (Printer K V) α) : Act (Printer K V) (α × V × V × V) where
  run p :=
    match m p with
    | ((t, out), .ok x) => (({ t with u := p.1.u, v := p.1.v, a := p.1.a }, out), .ok (x, t.u, t.v, t.a))
    | ((t, out), .error x) => (({ t with u := p.1.u, v := p.1.v, a := p.1.a }, out), .error x)

/-! ## Explicit Euler -/

/-- Linear, `gsDynamicExplicitEuler.hpp` 50-87, with output. -/
def explicitEulerLV (verbose : Bool) (e : Env K V) (t dt : K) : Act (Printer K V) Status := do
  let s ← quiet Act.get
  let M ← quiet (computeMass e t)
  let Minv ← quiet (computeMassInverse e M)
  let F ← quiet (computeForce e t)
  let C ← quiet (computeDamping e s.u t)
  let Kt ← quiet (computeJacobian e s.u t)
  say verbose columnsR
  let u := s.u + dt • s.v
  let v := s.v + dt • Minv (F - Kt s.u - C s.v)
  say verbose (.row [.count 0, .num (e.norm2 u v)])
  quiet (setUV u v)
  pure (finiteStatus e (e.norm2 u v))

/-- Nonlinear, `gsDynamicExplicitEuler.hpp` 90-125, with output. -/
def explicitEulerNV (verbose : Bool) (e : Env K V) (t dt : K) : Act (Printer K V) Status := do
  let s ← quiet Act.get
  let M ← quiet (computeMass e t)
  let Minv ← quiet (computeMassInverse e M)
  let C ← quiet (computeDamping e s.u t)
  let R ← quiet (computeResidual e s.u t)
  say verbose columnsR
  let u := s.u + dt • s.v
  let v := s.v + dt • Minv (-R - C s.v)
  say verbose (.row [.count 0, .num (e.norm2 u v)])
  quiet (setUV u v)
  pure (finiteStatus e (e.norm2 u v))

/-! ## Implicit Euler -/

/-- Linear, `gsDynamicImplicitEuler.hpp` 23-77, with output: `sol` is the state at entry. -/
def implicitEulerLV (verbose : Bool) (e : Env K V) (t dt : K) : Act (Printer K V) Status := do
  let s ← quiet Act.get
  let M ← quiet (computeMass e (t + dt))
  let F ← quiet (computeForce e (t + dt))
  let C ← quiet (computeDamping e s.u (t + dt))
  let Kt ← quiet (computeJacobian e s.u t)
  let x ← quiet (gmresSolve e LinearMap.id (-(dt • LinearMap.id)) (dt • Kt) (M + dt • C) s.u (dt • F + M s.v))
  quiet (setUV x.1 x.2)
  say verbose columnsRU
  say verbose (.row [.count 0, .num (e.norm2 s.u s.v), .num 0])
  pure .success

/-- An iteration up to its output, `gsDynamicImplicitEuler.hpp` 125-152. -/
def implicitEulerPass (e : Env K V) (o : Opts K) (t dt : K) (u0 v0 : V) (M : V →ₗ[K] V) (it : ℕ) (C Kt : V →ₗ[K] V)
    (R : V) : Act (DSt K V) (Pass K V) := do
  let b ← refresh o it
  let CK ← renew e (t + dt) b C Kt
  let s ← Act.get
  let r1 := s.u - u0 - dt • s.v
  let r2 := M (s.v - v0) + dt • CK.1 s.v + dt • (-R)
  let d ← gmresSolve e LinearMap.id (-(dt • LinearMap.id)) (dt • CK.2) (M + dt • CK.1) (-r1) (-r2)
  setUV (s.u + d.1) (s.v + d.2)
  let R ← computeResidual e (s.u + d.1) t
  pure ⟨s.u + d.1, s.v + d.2, s.a, d.1, d.2, r1, r2, R, CK.1, CK.2⟩

/-- The loop of the nonlinear version, `gsDynamicImplicitEuler.hpp` 123-163, with output. -/
def implicitEulerLoopV (verbose : Bool) (e : Env K V) (o : Opts K) (t dt : K) (u0 v0 : V) (M : V →ₗ[K] V) (res0 : K) :
    ℕ → ℕ → (V →ₗ[K] V) → (V →ₗ[K] V) → V → Act (Printer K V) Status
  | 0, _, _, _, _ => pure .notConverged
  | n + 1, it, C, Kt, R => do
    let x ← quiet (implicitEulerPass e o t dt u0 v0 M it C Kt R)
    say verbose (.row [.count it, .num (e.norm2 x.rhs x.rhs' / res0),
      .num (updNorm (e.norm2 x.d x.d') (e.norm2 x.u x.v))])
    if updNorm (e.norm2 x.d x.d') (e.norm2 x.u x.v) < o.tolU ∧ e.norm2 x.rhs x.rhs' / res0 < o.tolF then pure .success
    else implicitEulerLoopV verbose e o t dt u0 v0 M res0 n (it + 1) x.C x.S x.R

/-- Nonlinear, `gsDynamicImplicitEuler.hpp` 80-164, with output. -/
def implicitEulerNV (verbose : Bool) (e : Env K V) (o : Opts K) (t dt : K) : Act (Printer K V) Status := do
  let s ← quiet Act.get
  let M ← quiet (computeMass e (t + dt))
  let C ← quiet (computeDamping e s.u (t + dt))
  let R ← quiet (computeResidual e s.u (t + dt))
  let res := e.norm2 (-(dt • s.v)) (dt • C s.v + dt • (-R))
  say verbose columnsRU
  implicitEulerLoopV verbose e o t dt s.u s.v M (nz res) o.maxIter.toNat 0 C 0 R

/-! ## Newmark -/

/-- Linear, `gsDynamicNewmark.hpp` 28-74, with output. -/
def newmarkLV (verbose : Bool) (e : Env K V) (o : Opts K) (t dt : K) : Act (Printer K V) Status := do
  let s ← quiet Act.get
  let M ← quiet (computeMass e (t + dt))
  let F ← quiet (computeForce e (t + dt))
  let u := s.u + dt • s.v + ((1 / 2 - o.alpha) * dt * dt) • s.a
  let v := s.v + ((1 - o.delta) * dt) • s.a
  quiet (setUV u v)
  let C ← quiet (computeDamping e u (t + dt))
  let Kt ← quiet (computeJacobian e u (t + dt))
  say verbose columnsRU
  let a ← quiet (linSolve e (M + (o.delta * dt) • C + (dt * dt * o.alpha) • Kt) (F - Kt u - C v))
  let u := u + (o.alpha * dt * dt) • a
  let v := v + (o.delta * dt) • a
  quiet (setUVA u v a)
  say verbose (.row [.count 0, .num (e.norm (F - Kt u - M a - C v)), .num (e.norm u)])
  pure (finiteStatus e (e.norm u))

/-- An iteration up to its output, `gsDynamicNewmark.hpp` 115-138. -/
def newmarkPass (e : Env K V) (o : Opts K) (t dt : K) (M : V →ₗ[K] V) (it : ℕ) (C Kt : V →ₗ[K] V) (rhs : V) :
    Act (DSt K V) (Pass K V) := do
  let b ← refresh o it
  let CK ← renew e (t + dt) b C Kt
  let dA ← linSolve e (M + (o.delta * dt) • CK.1 + (dt * dt * o.alpha) • CK.2) rhs
  Act.modify fun s => { s with
    a := s.a + dA, v := s.v + (o.delta * dt) • dA, u := s.u + (o.alpha * dt * dt) • dA }
  let s ← Act.get
  let R ← computeResidual e s.u (t + dt)
  pure ⟨s.u, s.v, s.a, dA, 0, R - CK.1 s.v - M s.a, 0, R, CK.1, CK.2⟩

/-- The loop of the nonlinear version, `gsDynamicNewmark.hpp` 113-149, with output. -/
def newmarkLoopV (verbose : Bool) (e : Env K V) (o : Opts K) (t dt : K) (M : V →ₗ[K] V) (res0 : K) :
    ℕ → ℕ → (V →ₗ[K] V) → (V →ₗ[K] V) → V → Act (Printer K V) Status
  | 0, _, _, _, _ => pure .notConverged
  | n + 1, it, C, Kt, rhs => do
    let x ← quiet (newmarkPass e o t dt M it C Kt rhs)
    say verbose (.row [.count it, .num (e.norm x.rhs / res0), .num (updNorm (e.norm x.d) (e.norm x.a))])
    if updNorm (e.norm x.d) (e.norm x.a) < o.tolU ∧ e.norm x.rhs / res0 < o.tolF then pure .success
    else newmarkLoopV verbose e o t dt M res0 n (it + 1) x.C x.S x.rhs

/-- Nonlinear, `gsDynamicNewmark.hpp` 77-150, with output. -/
def newmarkNV (verbose : Bool) (e : Env K V) (o : Opts K) (t dt : K) : Act (Printer K V) Status := do
  let s ← quiet Act.get
  let u := s.u + dt • s.v + ((1 / 2 - o.alpha) * dt * dt) • s.a + (o.alpha * dt * dt) • (0 : V)
  let v := s.v + ((1 - o.delta) * dt) • s.a + (o.delta * dt) • (0 : V)
  quiet (setUVA u v 0)
  let M ← quiet (computeMass e (t + dt))
  let C ← quiet (computeDamping e u (t + dt))
  let R ← quiet (computeResidual e u (t + dt))
  let rhs := R - C v - M 0
  say verbose columnsRU
  newmarkLoopV verbose e o t dt M (nz (e.norm rhs)) o.maxIter.toNat 0 C 0 rhs

/-- `gsDynamicNewmark::_step`, `gsDynamicNewmark.hpp` 152-160, with output. -/
def newmarkV (verbose : Bool) (nl : Bool) (e : Env K V) (o : Opts K) (t dt : K) : Act (Printer K V) Status :=
  if nl then newmarkNV verbose e o t dt else newmarkLV verbose e o t dt

/-! ## Wilson: only the Newmark step prints -/

/-- Linear, `gsDynamicWilson.hpp` 29-55, with output. -/
def wilsonLV (verbose : Bool) (e : Env K V) (o : Opts K) (t dt : K) : Act (Printer K V) Status := do
  let x ← onCopyV (newmarkV verbose false e o t (o.gamma * dt))
  quiet (Act.modify fun s =>
    let a := (1 - 1 / o.gamma) • s.a + (1 / o.gamma) • x.2.2.2
    { s with a := a, v := s.v + (o.delta * dt) • a, u := s.u + (o.alpha * dt * dt) • a })
  pure .success

/-- Nonlinear, `gsDynamicWilson.hpp` 58-84, with output. -/
def wilsonNV (verbose : Bool) (e : Env K V) (o : Opts K) (t dt : K) : Act (Printer K V) Status := do
  let x ← onCopyV (newmarkV verbose true e o t (o.gamma * dt))
  quiet (Act.modify fun s =>
    let a := (1 - 1 / o.gamma) • s.a + (1 / o.gamma) • x.2.2.2
    { s with
      a := a
      u := s.u + dt • s.v + ((1 / 2 - o.alpha) * dt * dt) • s.a + (o.alpha * dt * dt) • a
      v := s.v + ((1 - o.delta) * dt) • s.a + (o.delta * dt) • a })
  pure .success

/-! ## Bathe -/

/-- Linear, `gsDynamicBathe.hpp` 29-79, with output. -/
def batheLV (verbose : Bool) (e : Env K V) (o : Opts K) (t dt : K) : Act (Printer K V) Status := do
  let s ← quiet Act.get
  say verbose (.stage 1)
  let x ← onCopyV (newmarkV verbose false e o t (o.gamma * dt))
  let us := x.2.1
  let vs := x.2.2.1
  let M ← quiet (computeMass e (t + dt))
  let F ← quiet (computeForce e (t + dt))
  let C ← quiet (computeDamping e s.u (t + dt))
  let Kt ← quiet (computeJacobian e s.u (t + dt))
  let c₁ := c1 o dt
  let c₂ := c2 o dt
  let c₃ := c3 o dt
  say verbose (.stage 2)
  say verbose columnsRU
  let u ← quiet (linSolve e (Kt + (c₃ * c₃) • M + c₃ • C)
    (F - M (c₁ • s.v + c₂ • vs + (c₁ * c₃) • s.u + (c₃ * c₂) • us) - C (c₂ • us + c₁ • s.u)))
  let v := c₁ • s.u + c₂ • us + c₃ • u
  let a := c₁ • s.v + c₂ • vs + c₃ • v
  quiet (setUVA u v a)
  say verbose (.row [.count 0, .num (e.norm (F - Kt u - M a - C v)), .num (e.norm u)])
  pure (finiteStatus e (e.norm u))

/-- An iteration up to its output, `gsDynamicBathe.hpp` 133-159. -/
def bathePass (e : Env K V) (o : Opts K) (t dt : K) (M : V →ₗ[K] V) (u0 v0 us vs : V) (it : ℕ) (C Kt : V →ₗ[K] V)
    (rhs : V) : Act (DSt K V) (Pass K V) := do
  let b ← refresh o it
  let CK ← renew e (t + dt) b C Kt
  let dU ← linSolve e (CK.2 + (c3 o dt * c3 o dt) • M + c3 o dt • CK.1) rhs
  Act.modify fun s => { s with u := s.u + dU }
  let s ← Act.get
  let R ← computeResidual e s.u (t + dt)
  pure ⟨s.u, s.v, s.a, dU, 0, batheRhs o dt M CK.1 u0 v0 us vs R s.u, 0, R, CK.1, CK.2⟩

/-- The loop of the nonlinear version, `gsDynamicBathe.hpp` 131-174, with output. -/
def batheLoopV (verbose : Bool) (e : Env K V) (o : Opts K) (t dt : K) (M : V →ₗ[K] V) (u0 v0 us vs : V) (res0 : K) :
    ℕ → ℕ → (V →ₗ[K] V) → (V →ₗ[K] V) → V → Act (Printer K V) Status
  | 0, _, _, _, _ => do
    quiet (Act.modify fun s =>
      let v := c1 o dt • u0 + c2 o dt • us + c3 o dt • s.u
      { s with v := v, a := c1 o dt • v0 + c2 o dt • vs + c3 o dt • v })
    pure .notConverged
  | n + 1, it, C, Kt, rhs => do
    let x ← quiet (bathePass e o t dt M u0 v0 us vs it C Kt rhs)
    say verbose (.row [.count it, .num (e.norm x.rhs / res0), .quot (e.norm x.d) (e.norm x.u)])
    if quotLt (e.norm x.d) (e.norm x.u) o.tolU = true ∧ e.norm x.rhs / res0 < o.tolF then do
      quiet (Act.modify fun s =>
        let v := c1 o dt • u0 + c2 o dt • us + c3 o dt • s.u
        { s with v := v, a := c1 o dt • v0 + c2 o dt • vs + c3 o dt • v })
      pure .success
    else batheLoopV verbose e o t dt M u0 v0 us vs res0 n (it + 1) x.C x.S x.rhs

/-- Nonlinear, `gsDynamicBathe.hpp` 82-175, with output. There is no line for the second stage. -/
def batheNV (verbose : Bool) (e : Env K V) (o : Opts K) (t dt : K) : Act (Printer K V) Status := do
  let s ← quiet Act.get
  say verbose (.stage 1)
  let x ← onCopyV (newmarkV verbose true e o t (o.gamma * dt))
  let us := x.2.1
  let vs := x.2.2.1
  let M ← quiet (computeMass e (t + dt))
  let C ← quiet (computeDamping e s.u (t + dt))
  let R ← quiet (computeResidual e s.u (t + dt))
  quiet (setUVA us vs x.2.2.2)
  let rhs := batheRhs o dt M C s.u s.v us vs R us
  say verbose columnsRU
  batheLoopV verbose e o t dt M s.u s.v us vs (nz (e.norm rhs)) o.maxIter.toNat 0 C 0 rhs

/-! ## All of them -/

/-- The virtual function `_step`, with output. Runge-Kutta prints nothing: the calls of
`_initOutput` are comments, and there is none of `_stepOutput` (`gsDynamicRK4.hpp` 18-157). -/
def integrateV (verbose : Bool) (m : Method) (nl : Bool) (e : Env K V) (o : Opts K) (t dt : K) :
    Act (Printer K V) Status :=
  match m, nl with
  | .explicitEuler, false => explicitEulerLV verbose e t dt
  | .explicitEuler, true => explicitEulerNV verbose e t dt
  | .rk4, false => quiet (rk4L e t dt)
  | .rk4, true => quiet (rk4N e t dt)
  | .implicitEuler, false => implicitEulerLV verbose e t dt
  | .implicitEuler, true => implicitEulerNV verbose e o t dt
  | .newmark, b => newmarkV verbose b e o t dt
  | .wilson, false => wilsonLV verbose e o t dt
  | .wilson, true => wilsonNV verbose e o t dt
  | .bathe, false => batheLV verbose e o t dt
  | .bathe, true => batheNV verbose e o t dt

/-- `step(T dt)`, `gsDynamicBase.h` 198-210, with output. -/
def stepV (cb : Option (ℕ → K → K → Bool)) (f : K → K → Act (Printer K V) Status) (dt : K) :
    Act (Printer K V) Status := do
  let s ← quiet Act.get
  if accepts cb s.log.length s.time dt then do
    let r ← f s.time dt
    quiet (Act.modify fun s => { s with time := s.time + dt, status := r })
    pure r
  else do
    quiet (Act.modify fun s => { s with status := .otherError })
    pure .otherError

end GsSA.Dynamic
