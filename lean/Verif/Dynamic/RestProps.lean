import Verif.Dynamic.AgreeProps

/-!
# Equilibrium is kept, and the times at which the callbacks are evaluated: C93, C96
-/

set_option linter.unusedSectionVars false

namespace GsSA.Dynamic

open GsSA GsSA.Static
open GsSA.ALM (Act Err)

variable {K V : Type} [Field K] [LinearOrder K] [IsStrictOrderedRing K] [AddCommGroup V] [Module K V]

/-! ## C96 -/

/-- All calls made by `m` satisfy `P`, whatever its outcome. -/
def Calls {α : Type} (P : Call K V → Prop) (m : Act (DSt K V) α) : Prop :=
  ∀ s, ∃ l, (m s).1.log = l ++ s.log ∧ ∀ c ∈ l, P c.1

section

variable {α β : Type} {P : Call K V → Prop}

theorem Calls.ret (a : α) : Calls P (pure a : Act (DSt K V) α) := fun s => ⟨[], by simp⟩

theorem Calls.get : Calls P (Act.get : Act (DSt K V) (DSt K V)) := fun s => ⟨[], by simp⟩

theorem Calls.throw (x : Err) : Calls P (Act.throw x : Act (DSt K V) α) := fun s => ⟨[], by simp⟩

theorem Calls.modify {f : DSt K V → DSt K V} (h : ∀ s, (f s).log = s.log) : Calls P (Act.modify f) :=
  fun s => ⟨[], by simp [h]⟩

theorem Calls.bind {m : Act (DSt K V) α} {f : α → Act (DSt K V) β} (hm : Calls P m) (hf : ∀ a, Calls P (f a)) :
    Calls P (m >>= f) := by
  intro s
  rw [Act.bind_apply]
  obtain ⟨l, h1, h2⟩ := hm s
  rcases hms : m s with ⟨t, r⟩
  rw [hms] at h1
  cases r with
  | error x => exact ⟨l, h1, h2⟩
  | ok a =>
    obtain ⟨l', h3, h4⟩ := hf a t
    refine ⟨l' ++ l, h3.trans (by rw [show t.log = l ++ s.log from h1, List.append_assoc]), fun c hc => ?_⟩
    rcases List.mem_append.1 hc with hc | hc
    · exact h4 c hc
    · exact h2 c hc

theorem Calls.ite {c : Prop} [Decidable c] {m₁ m₂ : Act (DSt K V) α} (h₁ : Calls P m₁) (h₂ : Calls P m₂) :
    Calls P (if c then m₁ else m₂) := by
  split
  · exact h₁
  · exact h₂

theorem Calls.call {c : Call K V} {f : ℕ → Reply α} (h : P c) : Calls P (call c f) := by
  intro s
  rcases hf : f s.log.length with a | _ | _ <;>
    exact ⟨[(c, _)], by simp [Dynamic.call, Act.bind_apply, hf]; rfl, by simpa using h⟩

theorem Calls.onCopy {m : Act (DSt K V) α} (h : Calls P m) : Calls P (onCopy m) := by
  intro s
  obtain ⟨l, h1, h2⟩ := h s
  refine ⟨l, ?_, h2⟩
  rcases hm : m s with ⟨t, r⟩
  rw [hm] at h1
  cases r <;> simp only [Dynamic.onCopy, hm] <;> exact h1

theorem Calls.minv (e : Env K V) (M : V →ₗ[K] V) : Calls P (computeMassInverse e M) := by
  intro s
  exact ⟨[], by rw [computeMassInverse_apply]; rfl, by simp⟩

theorem Calls.refresh (o : Opts K) (it : ℕ) : Calls P (refresh o it : Act (DSt K V) Bool) :=
  .ite (.ret _) (.ite (.ret _) (.ite (.throw _) (.ret _)))

theorem Calls.renew {e : Env K V} {t : K} {b : Bool} {C S : V →ₗ[K] V}
    (h1 : ∀ x, P (.damping x t)) (h2 : ∀ x, P (.jacobian x t)) : Calls P (renew e t b C S) :=
  .ite (.bind .get fun _ => .bind (.call (h1 _)) fun _ => .bind (.call (h2 _)) fun _ => .ret _) (.ret _)

theorem Calls.lin {e : Env K V} {m : V →ₗ[K] V} {b : V} : Calls P (linSolve e m b) :=
  .bind .get fun _ => .ret _

theorem Calls.gm {e : Env K V} {a b c d : V →ₗ[K] V} {x y : V} : Calls P (gmresSolve e a b c d x y) :=
  .bind .get fun _ => .ret _

theorem calls_newmarkL {e : Env K V} {o : Opts K} {t dt : K} (hm : P (.mass (t + dt)))
    (hd : ∀ x, P (.damping x (t + dt))) (hj : ∀ x, P (.jacobian x (t + dt))) (hf : P (.force (t + dt))) :
    Calls P (newmarkL e o t dt) :=
  .bind .get fun _ => .bind (.call hm) fun _ => .bind (.call hf) fun _ =>
    .bind (.modify fun _ => rfl) fun _ => .bind (.call (hd _)) fun _ => .bind (.call (hj _)) fun _ =>
    .bind .lin fun _ => .bind (.modify fun _ => rfl) fun _ => .ret _

theorem calls_newmarkN {e : Env K V} {o : Opts K} {t dt : K} (hm : P (.mass (t + dt)))
    (hd : ∀ x, P (.damping x (t + dt))) (hj : ∀ x, P (.jacobian x (t + dt)))
    (hr : ∀ x, P (.residual x (t + dt))) : Calls P (newmarkN e o t dt) := by
  have hloop : ∀ (M : V →ₗ[K] V) (res0 : K) (n it : ℕ) (C S : V →ₗ[K] V) (rhs : V),
      Calls P (newmarkLoop e o t dt M res0 n it C S rhs) := by
    intro M res0 n
    induction n with
    | zero => exact fun _ _ _ _ => .ret _
    | succ n ih =>
      intro it C S rhs
      exact .bind (.refresh o it) fun b => .bind (.renew hd hj) fun _ => .bind .lin fun _ =>
        .bind (.modify fun _ => rfl) fun _ => .bind .get fun _ => .bind (.call (hr _)) fun _ =>
        .ite (.ret _) (ih _ _ _ _)
  exact .bind .get fun s => .bind (.modify fun _ => rfl) fun _ => .bind (.call hm) fun _ =>
    .bind (.call (hd _)) fun _ => .bind (.call (hr _)) fun _ => hloop _ _ _ _ _ _ _

end

/-- The times at which the callbacks may be evaluated in a step from `t` to `t+dt`. -/
def allowed (m : Method) (nl : Bool) (o : Opts K) (t dt : K) : Call K V → Prop
  | .mass τ => match m with
    | .explicitEuler | .rk4 => τ = t
    | .implicitEuler | .newmark => τ = t + dt
    | .wilson => τ = t + o.gamma * dt
    | .bathe => τ = t + o.gamma * dt ∨ τ = t + dt
  | .damping _ τ => match m with
    | .explicitEuler | .rk4 => τ = t
    | .implicitEuler | .newmark => τ = t + dt
    | .wilson => τ = t + o.gamma * dt
    | .bathe => τ = t + o.gamma * dt ∨ τ = t + dt
  | .jacobian _ τ => match m with
    | .explicitEuler | .rk4 => τ = t
    | .implicitEuler => if nl then τ = t + dt else τ = t
    | .newmark => τ = t + dt
    | .wilson => τ = t + o.gamma * dt
    | .bathe => τ = t + o.gamma * dt ∨ τ = t + dt
  | .force τ => nl = false ∧ match m with
    | .explicitEuler => τ = t
    | .rk4 => τ = t ∨ τ = t + dt / 2 ∨ τ = t + dt
    | .implicitEuler | .newmark => τ = t + dt
    | .wilson => τ = t + o.gamma * dt
    | .bathe => τ = t + o.gamma * dt ∨ τ = t + dt
  | .residual _ τ => nl = true ∧ match m with
    | .explicitEuler => τ = t
    | .rk4 => τ = t ∨ τ = t + dt / 2 ∨ τ = t + dt
    | .implicitEuler => τ = t ∨ τ = t + dt
    | .newmark => τ = t + dt
    | .wilson => τ = t + o.gamma * dt
    | .bathe => τ = t + o.gamma * dt ∨ τ = t + dt

theorem calls_bathe {e : Env K V} {o : Opts K} {t dt : K} {P : Call K V → Prop}
    (hd : ∀ x, P (.damping x (t + dt))) (hj : ∀ x, P (.jacobian x (t + dt)))
    (hr : ∀ x, P (.residual x (t + dt))) (M : V →ₗ[K] V) (u0 v0 us vs : V) (res0 : K) (n : ℕ) :
    ∀ (it : ℕ) (C S : V →ₗ[K] V) (rhs : V),
      Calls P (batheLoop e o t dt M u0 v0 us vs res0 n it C S rhs) := by
  induction n with
  | zero => exact fun _ _ _ _ => .bind (.modify fun _ => rfl) fun _ => .ret _
  | succ n ih =>
    intro it C S rhs
    exact .bind (.refresh o it) fun b => .bind (.renew hd hj) fun _ => .bind .lin fun _ =>
      .bind (.modify fun _ => rfl) fun _ => .bind .get fun _ => .bind (.call (hr _)) fun _ =>
      .ite (.bind (.modify fun _ => rfl) fun _ => .ret _) (ih _ _ _ _)

theorem calls_implicitEuler {e : Env K V} {o : Opts K} {t dt : K} {P : Call K V → Prop}
    (hd : ∀ x, P (.damping x (t + dt))) (hj : ∀ x, P (.jacobian x (t + dt)))
    (hr : ∀ x, P (.residual x t)) (u0 v0 : V) (M : V →ₗ[K] V) (res0 : K) (n : ℕ) :
    ∀ (it : ℕ) (C S : V →ₗ[K] V) (rhs : V),
      Calls P (implicitEulerLoop e o t dt u0 v0 M res0 n it C S rhs) := by
  induction n with
  | zero => exact fun _ _ _ _ => .ret _
  | succ n ih =>
    intro it C S rhs
    exact .bind (.refresh o it) fun b => .bind (.renew hd hj) fun _ => .bind .get fun _ => .bind .gm fun _ =>
      .bind (.modify fun _ => rfl) fun _ => .bind (.call (hr _)) fun _ => .ite (.ret _) (ih _ _ _ _)

/-- The times at which the callbacks are evaluated, for every method, in every outcome of a step. The
linear methods do not use the residual, the nonlinear ones do not use the force. -/
theorem C96_times (cb : Option (ℕ → K → K → Bool)) (m : Method) (nl : Bool) (e : Env K V) (o : Opts K) (dt : K)
    (s : DSt K V) :
    ∃ l, (step cb (integrate m nl e o) dt s).1.log = l ++ s.log ∧ ∀ c ∈ l, allowed m nl o s.time dt c.1 := by
  have key : ∀ t, Calls (allowed m nl o t dt) (integrate m nl e o t dt) := by
    intro t
    cases m <;> cases nl <;> simp only [integrate]
    · exact .bind .get fun s => .bind (.call rfl) fun _ => .bind (.minv _ _) fun _ =>
        .bind (.call ⟨rfl, rfl⟩) fun _ => .bind (.call rfl) fun _ => .bind (.call rfl) fun _ =>
        .bind (.modify fun _ => rfl) fun _ => .ret _
    · exact .bind .get fun s => .bind (.call rfl) fun _ => .bind (.minv _ _) fun _ =>
        .bind (.call rfl) fun _ => .bind (.call ⟨rfl, rfl⟩) fun _ =>
        .bind (.modify fun _ => rfl) fun _ => .ret _
    · exact .bind .get fun s => .bind (.call rfl) fun _ => .bind (.minv _ _) fun _ =>
        .bind (.call rfl) fun _ => .bind (.call rfl) fun _ => .bind (.call ⟨rfl, .inl rfl⟩) fun _ =>
        .bind (.call ⟨rfl, .inr (.inl rfl)⟩) fun _ => .bind (.call ⟨rfl, .inr (.inl rfl)⟩) fun _ =>
        .bind (.call ⟨rfl, .inr (.inr rfl)⟩) fun _ => .bind (.modify fun _ => rfl) fun _ => .ret _
    · exact .bind .get fun s => .bind (.call rfl) fun _ => .bind (.minv _ _) fun _ =>
        .bind (.call rfl) fun _ => .bind (.call rfl) fun _ => .bind (.call ⟨rfl, .inl rfl⟩) fun _ =>
        .bind (.call ⟨rfl, .inr (.inl rfl)⟩) fun _ => .bind (.call ⟨rfl, .inr (.inl rfl)⟩) fun _ =>
        .bind (.call ⟨rfl, .inr (.inr rfl)⟩) fun _ => .bind (.modify fun _ => rfl) fun _ => .ret _
    · exact .bind .get fun s => .bind (.call rfl) fun _ => .bind (.call ⟨rfl, rfl⟩) fun _ =>
        .bind (.call rfl) fun _ => .bind (.call rfl) fun _ => .bind .gm fun _ =>
        .bind (.modify fun _ => rfl) fun _ => .ret _
    · exact .bind .get fun s => .bind (.call rfl) fun _ => .bind (.call rfl) fun _ =>
        .bind (.call ⟨rfl, .inr rfl⟩) fun _ => calls_implicitEuler (fun _ => rfl) (fun _ => rfl)
          (fun _ => ⟨rfl, .inl rfl⟩) _ _ _ _ _ _ _ _ _
    · exact calls_newmarkL rfl (fun _ => rfl) (fun _ => rfl) ⟨rfl, rfl⟩
    · exact calls_newmarkN rfl (fun _ => rfl) (fun _ => rfl) fun _ => ⟨rfl, rfl⟩
    · exact .bind (.onCopy (m := newmark false e o t (o.gamma * dt))
        (calls_newmarkL rfl (fun _ => rfl) (fun _ => rfl) ⟨rfl, rfl⟩)) fun _ =>
        .bind (.modify fun _ => rfl) fun _ => .ret _
    · exact .bind (.onCopy (m := newmark true e o t (o.gamma * dt))
        (calls_newmarkN rfl (fun _ => rfl) (fun _ => rfl) fun _ => ⟨rfl, rfl⟩)) fun _ =>
        .bind (.modify fun _ => rfl) fun _ => .ret _
    · exact .bind .get fun s => .bind (.onCopy (m := newmark false e o t (o.gamma * dt))
        (calls_newmarkL (.inl rfl) (fun _ => .inl rfl) (fun _ => .inl rfl) ⟨rfl, .inl rfl⟩)) fun _ =>
        .bind (.call (.inr rfl)) fun _ => .bind (.call ⟨rfl, .inr rfl⟩) fun _ =>
        .bind (.call (.inr rfl)) fun _ => .bind (.call (.inr rfl)) fun _ => .bind .lin fun _ =>
        .bind (.modify fun _ => rfl) fun _ => .ret _
    · exact .bind .get fun s => .bind (.onCopy (m := newmark true e o t (o.gamma * dt))
        (calls_newmarkN (.inl rfl) (fun _ => .inl rfl) (fun _ => .inl rfl) fun _ => ⟨rfl, .inl rfl⟩)) fun _ =>
        .bind (.call (.inr rfl)) fun _ => .bind (.call (.inr rfl)) fun _ =>
        .bind (.call ⟨rfl, .inr rfl⟩) fun _ => .bind (.modify fun _ => rfl) fun _ =>
        calls_bathe (fun _ => .inr rfl) (fun _ => .inr rfl) (fun _ => ⟨rfl, .inr rfl⟩) _ _ _ _ _ _ _ _ _ _ _
  have hs : ∀ (t : K) (n : ℕ), Calls (allowed m nl o t dt)
      (if accepts cb n t dt = true then do
        let r ← integrate m nl e o t dt
        Act.modify fun s => { s with time := s.time + dt, status := r }
        pure r
      else do
        Act.modify fun s => { s with status := .otherError }
        pure .otherError) := fun t n =>
    .ite (.bind (key t) fun _ => .bind (.modify fun _ => rfl) fun _ => .ret _)
      (.bind (.modify fun _ => rfl) fun _ => .ret _)
  exact hs s.time s.log.length s

/-- A nonlinear implicit Euler step from time 0 to 1 evaluates the residual at time 1, then only at time 0. -/
example : (step none (integrate .implicitEuler true ramp demoOpts) 1 (DSt.init 0 0 0)).1.log.map (·.1) =
    [.residual 0 0, .jacobian 0 1, .damping 0 1, .residual 0 0, .jacobian (1 / 2) 1, .damping (1 / 2) 1,
      .residual (1 / 2) 0, .jacobian 0 1, .damping 0 1, .residual 0 1, .damping 0 1, .mass 1] := by
  decide +kernel

/-! ## C93 -/

/-- The callbacks return values, the residual is zero at `x` at all times, and the solvers return 0 for the
right hand side 0. -/
structure Balanced (e : Env K V) (x : V) : Prop where
  mass : ∀ n t, ∃ M, e.mass n t = .value M
  damping : ∀ n y t, ∃ C, e.damping n y t = .value C
  jacobian : ∀ n y t, ∃ S, e.jacobian n y t = .value S
  residual : ∀ n t, e.residual n x t = .value 0
  solve : ∀ n m, e.solve n m 0 = 0
  gmres : ∀ n a b c d, e.gmres n a b c d 0 0 = (0, 0)

/-- At rest in `x`. -/
structure Rest (x : V) (s : DSt K V) : Prop where
  u : s.u = x
  v : s.v = 0
  a : s.a = 0

section

variable {e : Env K V} {o : Opts K} {x : V} {t dt : K}

theorem renew_rest (hb : Balanced e x) (t : K) (b : Bool) (C S : V →ₗ[K] V) (s : DSt K V) :
    ∃ C' S' lg, renew e t b C S s = ({ s with log := lg }, .ok (C', S')) := by
  cases b with
  | false => exact ⟨C, S, s.log, by simp [renew]⟩
  | true =>
    obtain ⟨C', hC⟩ := hb.damping s.log.length s.u t
    obtain ⟨S', hS⟩ := hb.jacobian (s.log.length + 1) s.u t
    refine ⟨C', S', (.jacobian s.u t, true) :: (.damping s.u t, true) :: s.log, ?_⟩
    simp [renew, computeDamping, computeJacobian, call, Act.bind_apply, hC, hS]

/-- The action returns and leaves the state at rest. -/
def KeepsRest {α : Type} (x : V) (m : Act (DSt K V) α) : Prop :=
  ∀ s, Rest x s → ∃ q a, m s = (q, .ok a) ∧ Rest x q

theorem newmarkLoop_rest (hb : Balanced e x) (hz : ¬ o.zeroInterval) (M : V →ₗ[K] V) (res0 : K) (n : ℕ) :
    ∀ (it : ℕ) (C S : V →ₗ[K] V), KeepsRest x (newmarkLoop e o t dt M res0 n it C S 0) := by
  induction n with
  | zero => exact fun _ _ _ s hs => ⟨s, _, rfl, hs⟩
  | succ n ih =>
    intro it C S s hs
    obtain ⟨b, h1⟩ := refresh_ok hz it s
    obtain ⟨C', S', lg, h2⟩ := renew_rest hb (t + dt) b C S s
    simp only [newmarkLoop]
    rw [Act.bind_ok h1, Act.bind_ok h2]
    simp only [linSolve, computeResidual, call, Act.bind_apply, Act.get_apply, Act.modify_apply,
      Act.pure_apply, hb.solve, smul_zero, add_zero, hs.u, hs.v, hs.a, hb.residual, map_zero, sub_zero]
    split
    · exact ⟨_, _, rfl, ⟨rfl, rfl, rfl⟩⟩
    · exact ih _ _ _ _ ⟨rfl, rfl, rfl⟩

theorem newmarkN_rest (hb : Balanced e x) (hz : ¬ o.zeroInterval) : KeepsRest x (newmarkN e o t dt) := by
  intro s hs
  obtain ⟨M, hM⟩ := hb.mass s.log.length (t + dt)
  obtain ⟨C, hC⟩ := hb.damping (s.log.length + 1) x (t + dt)
  simp only [newmarkN, setUVA, computeMass, computeDamping, computeResidual, call, Act.bind_apply,
    Act.get_apply, Act.modify_apply, Act.pure_apply, hs.u, hs.v, hs.a, smul_zero, add_zero, hM, hC,
    List.length_cons, hb.residual, map_zero, sub_zero]
  exact newmarkLoop_rest hb hz M _ _ _ _ _ _ ⟨rfl, rfl, rfl⟩

theorem batheLoop_rest (hb : Balanced e x) (hz : ¬ o.zeroInterval)
    (hc : c1 o dt + c2 o dt + c3 o dt = 0) (M : V →ₗ[K] V) (res0 : K) (n : ℕ) :
    ∀ (it : ℕ) (C S : V →ₗ[K] V), KeepsRest x (batheLoop e o t dt M x 0 x 0 res0 n it C S 0) := by
  have hv : c1 o dt • x + c2 o dt • x + c3 o dt • x = 0 := by
    rw [← add_smul, ← add_smul, hc, zero_smul]
  have hm : (c1 o dt * c3 o dt) • x + (c3 o dt * c2 o dt) • x + (c3 o dt * c3 o dt) • x = 0 := by
    rw [← add_smul, ← add_smul, show c1 o dt * c3 o dt + c3 o dt * c2 o dt + c3 o dt * c3 o dt =
      c3 o dt * (c1 o dt + c2 o dt + c3 o dt) by ring, hc, mul_zero, zero_smul]
  have hr : ∀ C, batheRhs o dt M C x 0 x 0 0 x = 0 := by
    intro C
    simp only [batheRhs, smul_zero, zero_add, hv, hm, map_zero, sub_zero]
  induction n with
  | zero =>
    intro _ _ _ s hs
    refine ⟨_, _, rfl, ⟨hs.u, ?_, ?_⟩⟩
    · simp only [hs.u, hv]
    · simp only [hs.u, hv, smul_zero, add_zero]
  | succ n ih =>
    intro it C S s hs
    obtain ⟨b, h1⟩ := refresh_ok hz it s
    obtain ⟨C', S', lg, h2⟩ := renew_rest hb (t + dt) b C S s
    simp only [batheLoop]
    rw [Act.bind_ok h1, Act.bind_ok h2]
    simp only [linSolve, computeResidual, call, Act.bind_apply, Act.get_apply, Act.modify_apply,
      Act.pure_apply, hb.solve, add_zero, hs.u, hb.residual, hr]
    split
    · refine ⟨_, _, rfl, ⟨rfl, ?_, ?_⟩⟩
      · simp only [hv]
      · simp only [hv, smul_zero, add_zero]
    · exact ih _ _ _ _ ⟨rfl, hs.v, hs.a⟩

theorem implicitEulerLoop_rest (hb : Balanced e x) (hz : ¬ o.zeroInterval) (M : V →ₗ[K] V) (res0 : K) (n : ℕ) :
    ∀ (it : ℕ) (C S : V →ₗ[K] V), KeepsRest x (implicitEulerLoop e o t dt x 0 M res0 n it C S 0) := by
  induction n with
  | zero => exact fun _ _ _ s hs => ⟨s, _, rfl, hs⟩
  | succ n ih =>
    intro it C S s hs
    obtain ⟨b, h1⟩ := refresh_ok hz it s
    obtain ⟨C', S', lg, h2⟩ := renew_rest hb (t + dt) b C S s
    simp only [implicitEulerLoop]
    rw [Act.bind_ok h1, Act.bind_ok h2]
    simp only [gmresSolve, setUV, computeResidual, call, Act.bind_apply, Act.get_apply, Act.modify_apply,
      Act.pure_apply, hs.u, hs.v, sub_self, smul_zero, map_zero, neg_zero, add_zero, hb.gmres, hb.residual]
    split
    · exact ⟨_, _, rfl, ⟨rfl, rfl, hs.a⟩⟩
    · exact ih _ _ _ _ ⟨rfl, rfl, hs.a⟩

theorem c_sum (hg : o.gamma ≠ 0) (hg1 : o.gamma ≠ 1) (hdt : dt ≠ 0) : c1 o dt + c2 o dt + c3 o dt = 0 := by
  have : (1 : K) - o.gamma ≠ 0 := sub_ne_zero.2 (Ne.symm hg1)
  simp only [c1, c2, c3]
  field_simp
  ring

theorem rest_nonlinear (m : Method) (hb : Balanced e x) (hz : ¬ o.zeroInterval)
    (hm : m = .bathe → o.gamma ≠ 0 ∧ o.gamma ≠ 1 ∧ dt ≠ 0) : KeepsRest x (integrate m true e o t dt) := by
  intro s hs
  cases m <;> simp only [integrate]
  · obtain ⟨M, hM⟩ := hb.mass s.log.length t
    obtain ⟨C, hC⟩ := hb.damping (s.log.length + 1) x t
    simp only [explicitEulerN, setUV, computeMass, computeDamping, computeResidual, call, Act.bind_apply,
      Act.get_apply, Act.modify_apply, Act.pure_apply, computeMassInverse_apply, hs.u, hs.v, smul_zero,
      add_zero, hM, hC, List.length_cons, hb.residual, map_zero, sub_zero, neg_zero]
    exact ⟨_, _, rfl, ⟨rfl, rfl, hs.a⟩⟩
  · obtain ⟨M, hM⟩ := hb.mass s.log.length t
    obtain ⟨C, hC⟩ := hb.damping (s.log.length + 1) x t
    obtain ⟨S, hS⟩ := hb.jacobian (s.log.length + 1 + 1) x t
    simp only [rk4N, setUV, computeMass, computeDamping, computeJacobian, computeResidual, call,
      Act.bind_apply, Act.get_apply, Act.modify_apply, Act.pure_apply, computeMassInverse_apply, hs.u, hs.v,
      smul_zero, add_zero, hM, hC, hS, List.length_cons, hb.residual, map_zero, sub_zero]
    exact ⟨_, _, rfl, ⟨rfl, rfl, hs.a⟩⟩
  · obtain ⟨M, hM⟩ := hb.mass s.log.length (t + dt)
    obtain ⟨C, hC⟩ := hb.damping (s.log.length + 1) x (t + dt)
    simp only [implicitEulerN, computeMass, computeDamping, computeResidual, call, Act.bind_apply,
      Act.get_apply, Act.modify_apply, Act.pure_apply, hs.u, hs.v, hM, hC, List.length_cons, hb.residual]
    exact implicitEulerLoop_rest hb hz M _ _ _ _ _ _ ⟨rfl, rfl, hs.a⟩
  · exact newmarkN_rest hb hz s hs
  · obtain ⟨q, r, h1, h2⟩ := newmarkN_rest (t := t) (dt := o.gamma * dt) hb hz s hs
    simp only [wilsonN]
    rw [Act.bind_ok (onCopy_ok (m := newmark true e o t (o.gamma * dt)) h1)]
    simp only [Act.bind_apply, Act.modify_apply, Act.pure_apply, hs.u, hs.v, hs.a, h2.a, smul_zero, add_zero]
    exact ⟨_, _, rfl, ⟨rfl, rfl, rfl⟩⟩
  · obtain ⟨q, r, h1, h2⟩ := newmarkN_rest (t := t) (dt := o.gamma * dt) hb hz s hs
    obtain ⟨M, hM⟩ := hb.mass q.log.length (t + dt)
    obtain ⟨C, hC⟩ := hb.damping (q.log.length + 1) x (t + dt)
    have hc := c_sum (hm rfl).1 (hm rfl).2.1 (hm rfl).2.2
    have hr : batheRhs o dt M C x 0 x 0 0 x = 0 := by
      have hv : c1 o dt • x + c2 o dt • x + c3 o dt • x = 0 := by
        rw [← add_smul, ← add_smul, hc, zero_smul]
      have hm' : (c1 o dt * c3 o dt) • x + (c3 o dt * c2 o dt) • x + (c3 o dt * c3 o dt) • x = 0 := by
        rw [← add_smul, ← add_smul, show c1 o dt * c3 o dt + c3 o dt * c2 o dt + c3 o dt * c3 o dt =
          c3 o dt * (c1 o dt + c2 o dt + c3 o dt) by ring, hc, mul_zero, zero_smul]
      simp only [batheRhs, smul_zero, zero_add, hv, hm', map_zero, sub_zero]
    simp only [batheN]
    rw [Act.bind_ok (by rfl : Act.get s = (s, .ok s)),
      Act.bind_ok (onCopy_ok (m := newmark true e o t (o.gamma * dt)) h1)]
    simp only [setUVA, computeMass, computeDamping, computeResidual, call, Act.bind_apply,
      Act.get_apply, Act.modify_apply, Act.pure_apply, hs.u, hs.v, h2.u, h2.v, h2.a, hM, hC, List.length_cons,
      hb.residual, hr]
    exact batheLoop_rest hb hz hc M _ _ _ _ _ _ ⟨rfl, rfl, rfl⟩

end

/-- Steps keep a property that one step keeps. -/
theorem steps_rest {x : V} {f : K → K → Act (DSt K V) Status} {l : List K}
    (h : ∀ t, ∀ dt ∈ l, KeepsRest x (f t dt)) (s : DSt K V) (hs : Rest x s) :
    Rest x (steps none f l s).1 ∧ ∀ r ∈ (steps none f l s).2, r ≠ none := by
  induction l generalizing s with
  | nil => exact ⟨hs, by simp [steps]⟩
  | cons dt l ih =>
    obtain ⟨q, r, h1, h2⟩ := h s.time dt (by simp) s hs
    have h3 := step_none f dt s q r h1
    have h4 := ih (fun t dt' h' => h t dt' (by simp [h'])) { q with time := q.time + dt, status := r }
      ⟨h2.u, h2.v, h2.a⟩
    simp only [steps, h3]
    refine ⟨h4.1, fun z hz => ?_⟩
    rcases List.mem_cons.1 hz with rfl | hz
    · simp
    · exact h4.2 z hz

/-- A static equilibrium is kept by every nonlinear method, for any number of steps: the residual vanishes at
`x` at all times, velocity and acceleration are zero, and the callbacks return. No step raises an exception. -/
theorem C93_nonlinear (m : Method) (e : Env K V) (o : Opts K) (x : V) (l : List K) (s : DSt K V)
    (hb : Balanced e x) (hz : ¬ (o.quasi = true ∧ o.quasiIt = 0))
    (hm : m = .bathe → o.gamma ≠ 0 ∧ o.gamma ≠ 1 ∧ ∀ dt ∈ l, dt ≠ 0)
    (hs : s.u = x ∧ s.v = 0 ∧ s.a = 0) :
    let q := steps none (integrate m true e o) l s
    q.1.u = x ∧ q.1.v = 0 ∧ q.1.a = 0 ∧ ∀ r ∈ q.2, r ≠ none := by
  obtain ⟨h1, h2⟩ := steps_rest (f := integrate m true e o) (l := l)
    (fun t dt hdt => rest_nonlinear m hb hz fun h => ⟨(hm h).1, (hm h).2.1, (hm h).2.2 dt hdt⟩) s
    ⟨hs.1, hs.2.1, hs.2.2⟩
  exact ⟨h1.u, h1.v, h1.a, h2⟩

/-- A problem with residual `1 - x²`, in equilibrium at 1. -/
def square : Env ℚ ℚ := { demo (fun _ => false) with
  jacobian := fun _ x _ => .value ((2 * x) • LinearMap.id), residual := fun _ x _ => .value (1 - x * x) }

example : Balanced square 1 where
  mass _ _ := ⟨_, rfl⟩
  damping _ _ _ := ⟨_, rfl⟩
  jacobian _ _ _ := ⟨_, rfl⟩
  residual _ _ := by simp [square]
  solve _ m := by simp [square, demo]
  gmres _ a b c d := by simp [square, demo]

example : (steps none (integrate .bathe true square demoOpts) [1, 1 / 2] (DSt.init 1 0 0)).1.u = 1 := by
  decide +kernel

section

variable {e : Env K V} {o : Opts K} {M C S : V →ₗ[K] V} {x : V} {t dt : K}

theorem newmarkL_rest (hl : Linear e M C S) (hf : Forced e fun _ => S x) (h0 : ∀ n m, e.solve n m 0 = 0) :
    KeepsRest x (newmarkL e o t dt) := by
  intro s hs
  rw [newmarkL_linear hl hf o t dt s]
  simp only [hs.u, hs.v, hs.a, smul_zero, add_zero, sub_self, map_zero, h0]
  exact ⟨_, _, rfl, ⟨rfl, rfl, rfl⟩⟩

theorem rest_linear (m : Method) (hl : Linear e M C S) (hf : Forced e fun _ => S x)
    (h0 : ∀ n m, e.solve n m 0 = 0)
    (hi : m = .implicitEuler → BlockSolves e dt S (M + dt • C) ∧
      ∀ y z, y - dt • z = 0 → dt • S y + (M + dt • C) z = 0 → y = 0 ∧ z = 0)
    (hb : m = .bathe → o.gamma ≠ 0 ∧ o.gamma ≠ 1 ∧ dt ≠ 0 ∧ Solves e (S + (c3 o dt * c3 o dt) • M + c3 o dt • C) ∧
      ∀ y, (S + (c3 o dt * c3 o dt) • M + c3 o dt • C) y = 0 → y = 0) :
    KeepsRest x (integrate m false e o t dt) := by
  intro s hs
  cases m <;> simp only [integrate]
  · obtain ⟨lg, h⟩ := explicitEulerL_linear hl hf t dt s
    simp only [hs.u, hs.v, smul_zero, add_zero, sub_self, map_zero] at h
    exact ⟨_, _, h, ⟨rfl, rfl, hs.a⟩⟩
  · obtain ⟨lg, h⟩ := rk4L_linear hl hf t dt s
    have : rkNext (minvOf e M s) C S (fun _ => S x) t dt (x, 0) = (x, 0) := by
      simp only [rkNext, Prod.smul_mk, Prod.mk_add_mk, sub_self, map_zero, smul_zero, add_zero]
    simp only [hs.u, hs.v, this] at h
    exact ⟨_, _, h, ⟨rfl, rfl, hs.a⟩⟩
  · obtain ⟨lg, h⟩ := implicitEulerL_linear hl hf t dt s
    obtain ⟨hi, hu⟩ := hi rfl
    obtain ⟨h1, h2⟩ := hi (s.log.length + 4) s.u (dt • S x + M s.v)
    simp only [hs.u, hs.v, map_zero, add_zero] at h h1 h2
    obtain ⟨h3, h4⟩ := hu (_ - x) _ (by rw [sub_right_comm, h1, sub_self])
      (by rw [map_sub, smul_sub, sub_add_eq_add_sub, h2, sub_self])
    refine ⟨_, _, h, ⟨sub_eq_zero.1 h3, h4, hs.a⟩⟩
  · exact newmarkL_rest hl hf h0 s hs
  · obtain ⟨q, r, h1, h2⟩ := newmarkL_rest (o := o) (t := t) (dt := o.gamma * dt) hl hf h0 s hs
    simp only [wilsonL]
    rw [Act.bind_ok (onCopy_ok (m := newmark false e o t (o.gamma * dt)) h1)]
    simp only [Act.bind_apply, Act.modify_apply, Act.pure_apply, hs.u, hs.v, hs.a, h2.a, smul_zero, add_zero]
    exact ⟨_, _, rfl, ⟨rfl, rfl, rfl⟩⟩
  · obtain ⟨hg, hg1, hdt, hS, hinj⟩ := hb rfl
    have hc := c_sum (o := o) hg hg1 hdt
    obtain ⟨n, as, lg, has, h⟩ := batheL_linear hl hf o t dt s
    have has0 : as = 0 := by
      rw [has]
      simp only [hs.u, hs.v, hs.a, smul_zero, add_zero, sub_self, map_zero, h0]
    have hn : newmarkNext o (o.gamma * dt) s as = (x, 0) := by
      simp only [newmarkNext, has0, hs.u, hs.v, hs.a, smul_zero, add_zero]
    have hx : (S + (c3 o dt * c3 o dt) • M + c3 o dt • C) x =
        S x - M (c1 o dt • (0 : V) + c2 o dt • (0 : V) + (c1 o dt * c3 o dt) • x + (c3 o dt * c2 o dt) • x) -
          C (c2 o dt • x + c1 o dt • x) := by
      have e1 : c3 o dt = -(c1 o dt + c2 o dt) := by linear_combination hc
      simp only [LinearMap.add_apply, LinearMap.smul_apply, map_add, map_smul, smul_zero, zero_add, e1]
      module
    have hu : e.solve n (S + (c3 o dt * c3 o dt) • M + c3 o dt • C)
        (S x - M (c1 o dt • (0 : V) + c2 o dt • (0 : V) + (c1 o dt * c3 o dt) • x + (c3 o dt * c2 o dt) • x) -
          C (c2 o dt • x + c1 o dt • x)) = x :=
      eq_of_injective hinj (by rw [hS, hx])
    have hv : c1 o dt • x + c2 o dt • x + c3 o dt • x = 0 := by
      rw [← add_smul, ← add_smul, hc, zero_smul]
    simp only [hn, hs.u, hs.v, hu, hv] at h
    exact ⟨_, _, h, ⟨rfl, rfl, by simp⟩⟩

end

/-- A static equilibrium of a linear problem under constant load is kept by every linear method, for any
number of steps. -/
theorem C93_linear (m : Method) (e : Env K V) (o : Opts K) (M C S : V →ₗ[K] V) (x : V) (l : List K)
    (s : DSt K V) (hl : Linear e M C S) (hf : Forced e fun _ => S x) (h0 : ∀ n m, e.solve n m 0 = 0)
    (hi : m = .implicitEuler → ∀ dt ∈ l, BlockSolves e dt S (M + dt • C) ∧
      ∀ y z, y - dt • z = 0 → dt • S y + (M + dt • C) z = 0 → y = 0 ∧ z = 0)
    (hb : m = .bathe → ∀ dt ∈ l, o.gamma ≠ 0 ∧ o.gamma ≠ 1 ∧ dt ≠ 0 ∧
      Solves e (S + (c3 o dt * c3 o dt) • M + c3 o dt • C) ∧
      ∀ y, (S + (c3 o dt * c3 o dt) • M + c3 o dt • C) y = 0 → y = 0)
    (hs : s.u = x ∧ s.v = 0 ∧ s.a = 0) :
    let q := steps none (integrate m false e o) l s
    q.1.u = x ∧ q.1.v = 0 ∧ q.1.a = 0 ∧ ∀ r ∈ q.2, r ≠ none := by
  obtain ⟨h1, h2⟩ := steps_rest (f := integrate m false e o) (l := l)
    (fun t dt hdt => rest_linear m hl hf h0 (fun h => hi h dt hdt) fun h => hb h dt hdt) s
    ⟨hs.1, hs.2.1, hs.2.2⟩
  exact ⟨h1.u, h1.v, h1.a, h2⟩

/-- The spring under constant load 2, at displacement 2. -/
def loaded : Env ℚ ℚ := { demo (fun _ => false) with force := fun _ _ => .value 2 }

example : Forced loaded (fun _ => LinearMap.id (R := ℚ) 2) ∧ (∀ n m, loaded.solve n m 0 = 0) ∧
    (steps none (integrate .bathe false loaded demoOpts) [1, 1 / 2] (DSt.init 2 0 0)).1.u = 2 ∧
    (steps none (integrate .bathe false loaded demoOpts) [1, 1 / 2] (DSt.init 1 0 0)).1.u ≠ 1 :=
  ⟨fun _ _ => rfl, fun _ m => by simp [loaded, demo], by decide +kernel, by decide +kernel⟩

end GsSA.Dynamic
