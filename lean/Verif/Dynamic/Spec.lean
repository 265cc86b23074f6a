import Mathlib.Tactic.Abel
import Mathlib.Tactic.Module
import Verif.Dynamic.Methods

/-!
# What the steps compute

For a linear problem, in which every callback returns a value, the result of a step is computed in
closed form. For arbitrary callbacks the recorded calls tell whether and why a step ends with an exception.
-/

set_option linter.unusedSectionVars false

namespace GsSA.Dynamic

open GsSA GsSA.Static
open GsSA.ALM (Act Err)

variable {K V : Type} [Field K] [LinearOrder K] [AddCommGroup V] [Module K V]

/-- A linear problem given by matrices and a force depending on time, as for the constructors of
`gsDynamicBase.h` 59-97. -/
structure Linear (e : Env K V) (M C S : V →ₗ[K] V) : Prop where
  mass : ∀ n t, e.mass n t = .value M
  damping : ∀ n x t, e.damping n x t = .value C
  jacobian : ∀ n x t, e.jacobian n x t = .value S

/-- The force is `F`. -/
def Forced (e : Env K V) (F : K → V) : Prop := ∀ n t, e.force n t = .value (F t)

/-- The residual is `F - S U`. -/
def Residual (e : Env K V) (S : V →ₗ[K] V) (F : K → V) : Prop :=
  ∀ n x t, e.residual n x t = .value (F t - S x)

/-- The sparse solver solves systems with the matrix `m` exactly. -/
def Solves (e : Env K V) (m : V →ₗ[K] V) : Prop := ∀ n b, m (e.solve n m b) = b

theorem call_value {α : Type} (c : Call K V) (f : ℕ → Reply α) {a : α} {s : DSt K V}
    (h : f s.log.length = .value a) :
    call c f s = ({ s with log := (c, true) :: s.log }, .ok a) := by
  simp [call, Act.bind_apply, h]

section

variable {e : Env K V} {o : Opts K} {M C S : V →ₗ[K] V} {F : K → V} {t dt : K} {s : DSt K V}

/-- The calls of a linear Newmark step. -/
def newmarkCalls (o : Opts K) (t dt : K) (s : DSt K V) : List (Call K V × Bool) :=
  let u := s.u + dt • s.v + ((1 / 2 - o.alpha) * dt * dt) • s.a
  [(.jacobian u (t + dt), true), (.damping u (t + dt), true), (.force (t + dt), true),
    (.mass (t + dt), true)]

theorem newmarkL_linear (hl : Linear e M C S) (hf : Forced e F) (o : Opts K) (t dt : K) (s : DSt K V) :
    newmarkL e o t dt s =
      let u := s.u + dt • s.v + ((1 / 2 - o.alpha) * dt * dt) • s.a
      let v := s.v + ((1 - o.delta) * dt) • s.a
      let a := e.solve (s.log.length + 4) (M + (o.delta * dt) • C + (dt * dt * o.alpha) • S)
        (F (t + dt) - S u - C v)
      ({ s with
        u := u + (o.alpha * dt * dt) • a, v := v + (o.delta * dt) • a, a := a
        log := newmarkCalls o t dt s ++ s.log },
        .ok (finiteStatus e (e.norm (u + (o.alpha * dt * dt) • a)))) := by
  simp only [newmarkL, computeMass, computeForce, computeDamping, computeJacobian, linSolve, setUV, setUVA,
    Act.bind_apply, Act.get_apply, Act.modify_apply, Act.pure_apply, call, hl.mass, hl.damping,
    hl.jacobian, hf _ _, newmarkCalls, List.length_cons, List.cons_append, List.nil_append]

/-- The mass inverse that a step uses. -/
def minvOf (e : Env K V) (M : V →ₗ[K] V) (s : DSt K V) : V →ₗ[K] V :=
  if e.constMass then s.massInv.getD (e.inverse M) else e.inverse M

theorem computeMassInverse_apply (e : Env K V) (M : V →ₗ[K] V) (s : DSt K V) :
    computeMassInverse e M s = ({ s with massInv := some (minvOf e M s) }, .ok (minvOf e M s)) := by
  rcases s with ⟨u, v, a, tm, st, mi, ni, lg⟩
  cases h : e.constMass <;> cases mi <;> simp [computeMassInverse, Act.bind_apply, minvOf, h]

theorem explicitEulerL_linear (hl : Linear e M C S) (hf : Forced e F) (t dt : K) (s : DSt K V) :
    ∃ lg, explicitEulerL e t dt s =
      let X := minvOf e M s
      let u := s.u + dt • s.v
      let v := s.v + dt • X (F t - S s.u - C s.v)
      ({ s with u := u, v := v, massInv := some X, log := lg },
        .ok (finiteStatus e (e.norm2 u v))) := by
  refine ⟨(.jacobian s.u t, true) :: (.damping s.u t, true) :: (.force t, true) :: (.mass t, true) :: s.log,
    ?_⟩
  simp [explicitEulerL, computeMass, computeForce, computeDamping, computeJacobian, setUV, Act.bind_apply,
    call, hl.mass, hl.damping, hl.jacobian, hf _ _, computeMassInverse_apply, minvOf]

theorem explicitEulerN_linear (hl : Linear e M C S) (hf : Residual e S F) (t dt : K) (s : DSt K V) :
    ∃ lg, explicitEulerN e t dt s =
      let X := minvOf e M s
      let u := s.u + dt • s.v
      let v := s.v + dt • X (-(F t - S s.u) - C s.v)
      ({ s with u := u, v := v, massInv := some X, log := lg },
        .ok (finiteStatus e (e.norm2 u v))) := by
  refine ⟨(.residual s.u t, true) :: (.damping s.u t, true) :: (.mass t, true) :: s.log, ?_⟩
  simp [explicitEulerN, computeMass, computeResidual, computeDamping, setUV, Act.bind_apply,
    call, hl.mass, hl.damping, hf _ _ _, computeMassInverse_apply, minvOf]

/-- The state after a Runge-Kutta step with forces `F`. -/
def rkNext (X C S : V →ₗ[K] V) (F : K → V) (t dt : K) (w : V × V) : V × V :=
  let f (τ : K) (x : V × V) : V × V := (x.2, X (F τ - S x.1 - C x.2))
  let k1 := f t w
  let k2 := f (t + dt / 2) (w + (dt / 2) • k1)
  let k3 := f (t + dt / 2) (w + (dt / 2) • k2)
  let k4 := f (t + dt) (w + dt • k3)
  w + (1 / 6 * dt) • (k1 + (2 : K) • k2 + (2 : K) • k3 + k4)

theorem rk4L_linear (hl : Linear e M C S) (hf : Forced e F) (t dt : K) (s : DSt K V) :
    ∃ lg, rk4L e t dt s =
      let X := minvOf e M s
      let w := rkNext X C S F t dt (s.u, s.v)
      ({ s with u := w.1, v := w.2, massInv := some X, log := lg },
        .ok (finiteStatus e (e.norm2 w.1 w.2))) := by
  refine ⟨(.force (t + dt), true) :: (.force (t + dt / 2), true) :: (.force (t + dt / 2), true) ::
    (.force t, true) :: (.jacobian s.u t, true) :: (.damping s.u t, true) :: (.mass t, true) :: s.log, ?_⟩
  simp only [rk4L, computeMass, computeForce, computeDamping, computeJacobian, setUV, Act.bind_apply,
    Act.get_apply, Act.modify_apply, Act.pure_apply,
    call, hl.mass, hl.damping, hl.jacobian, hf _ _, computeMassInverse_apply, minvOf, rkNext]
  rfl

theorem rk4N_linear (hl : Linear e M C S) (hf : Residual e S F) (t dt : K) (s : DSt K V) :
    ∃ lg, rk4N e t dt s =
      let X := minvOf e M s
      let w := rkNext X C S F t dt (s.u, s.v)
      ({ s with u := w.1, v := w.2, massInv := some X, log := lg },
        .ok (finiteStatus e (e.norm2 w.1 w.2))) := by
  have h : ∃ lg, rk4N e t dt s = ((rk4N e t dt s).1, (rk4N e t dt s).2) ∧ lg = (rk4N e t dt s).1.log :=
    ⟨_, rfl, rfl⟩
  obtain ⟨lg, -, hlg⟩ := h
  refine ⟨lg, ?_⟩
  rw [hlg]
  simp only [rk4N, computeMass, computeResidual, computeDamping, computeJacobian, setUV, Act.bind_apply,
    Act.get_apply, Act.modify_apply, Act.pure_apply,
    call, hl.mass, hl.damping, hl.jacobian, hf _ _ _, computeMassInverse_apply, minvOf, rkNext]
  rfl

theorem implicitEulerL_linear (hl : Linear e M C S) (hf : Forced e F) (t dt : K) (s : DSt K V) :
    ∃ lg, implicitEulerL e t dt s =
      let x := e.gmres (s.log.length + 4) LinearMap.id (-(dt • LinearMap.id)) (dt • S) (M + dt • C) s.u
        (dt • F (t + dt) + M s.v)
      ({ s with u := x.1, v := x.2, log := lg }, .ok .success) := by
  refine ⟨(.jacobian s.u t, true) :: (.damping s.u (t + dt), true) :: (.force (t + dt), true) ::
    (.mass (t + dt), true) :: s.log, ?_⟩
  simp [implicitEulerL, computeMass, computeForce, computeDamping, computeJacobian, setUV, Act.bind_apply,
    call, hl.mass, hl.damping, hl.jacobian, hf _ _, gmresSolve]

/-- The state after a linear Newmark step whose acceleration is `a`. -/
def newmarkNext (o : Opts K) (dt : K) (s : DSt K V) (a : V) : V × V :=
  (s.u + dt • s.v + ((1 / 2 - o.alpha) * dt * dt) • s.a + (o.alpha * dt * dt) • a,
    s.v + ((1 - o.delta) * dt) • s.a + (o.delta * dt) • a)

/-- The accelerations of a linear Newmark step are in equilibrium if the solver is exact. -/
theorem newmark_equilibrium {o : Opts K} {dt : K} {s : DSt K V} {a f : V}
    (h : (M + (o.delta * dt) • C + (dt * dt * o.alpha) • S) a =
      f - S (s.u + dt • s.v + ((1 / 2 - o.alpha) * dt * dt) • s.a)
        - C (s.v + ((1 - o.delta) * dt) • s.a)) :
    M a + C (newmarkNext o dt s a).2 + S (newmarkNext o dt s a).1 = f := by
  have e1 : f = (M + (o.delta * dt) • C + (dt * dt * o.alpha) • S) a +
      S (s.u + dt • s.v + ((1 / 2 - o.alpha) * dt * dt) • s.a) +
        C (s.v + ((1 - o.delta) * dt) • s.a) := by rw [h]; abel
  rw [e1]
  simp only [newmarkNext, LinearMap.add_apply, LinearMap.smul_apply, map_add, map_smul]
  module

theorem batheL_linear (hl : Linear e M C S) (hf : Forced e F) (o : Opts K) (t dt : K) (s : DSt K V) :
    ∃ (n : ℕ) (as : V) (lg : List (Call K V × Bool)),
      as = e.solve (s.log.length + 4)
        (M + (o.delta * (o.gamma * dt)) • C + ((o.gamma * dt) * (o.gamma * dt) * o.alpha) • S)
        (F (t + o.gamma * dt) - S (s.u + (o.gamma * dt) • s.v +
          ((1 / 2 - o.alpha) * (o.gamma * dt) * (o.gamma * dt)) • s.a)
          - C (s.v + ((1 - o.delta) * (o.gamma * dt)) • s.a)) ∧
      batheL e o t dt s =
        let x := newmarkNext o (o.gamma * dt) s as
        let u := e.solve n (S + (c3 o dt * c3 o dt) • M + c3 o dt • C)
          (F (t + dt) - M (c1 o dt • s.v + c2 o dt • x.2 + (c1 o dt * c3 o dt) • s.u +
            (c3 o dt * c2 o dt) • x.1) - C (c2 o dt • x.1 + c1 o dt • s.u))
        let v := c1 o dt • s.u + c2 o dt • x.1 + c3 o dt • u
        ({ s with u := u, v := v, a := c1 o dt • s.v + c2 o dt • x.2 + c3 o dt • v, log := lg },
          .ok (finiteStatus e (e.norm u))) := by
  refine ⟨(newmarkCalls o t (o.gamma * dt) s ++ s.log).length + 4, _,
    (.jacobian s.u (t + dt), true) :: (.damping s.u (t + dt), true) :: (.force (t + dt), true) ::
      (.mass (t + dt), true) :: (newmarkCalls o t (o.gamma * dt) s ++ s.log), rfl, ?_⟩
  simp [batheL, computeMass, computeForce, computeDamping, computeJacobian, setUVA, Act.bind_apply,
    call, hl.mass, hl.damping, hl.jacobian, hf _ _, newmark, linSolve, onCopy,
    newmarkL_linear hl hf, newmarkNext]

end

end GsSA.Dynamic
