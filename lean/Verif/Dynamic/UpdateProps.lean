import Verif.Dynamic.RestProps

/-!
# The last update of a successful nonlinear step (C90, C61), and callbacks that were never given (C87)
-/

set_option linter.unusedSectionVars false

namespace GsSA.Dynamic

open GsSA GsSA.Static
open GsSA.ALM (Act Err)

variable {K V : Type} [Field K] [LinearOrder K] [IsStrictOrderedRing K] [AddCommGroup V] [Module K V]

theorem updNorm_lt {x y z : K} : updNorm x y < z ↔ if y = 0 then x < z else x / y < z := by
  unfold updNorm
  by_cases h : y = 0 <;> simp [h]

theorem newmarkLoop_update {e : Env K V} {o : Opts K} {t dt : K} {M : V →ₗ[K] V} {res0 : K} {n : ℕ} :
    ∀ {it : ℕ} {C S : V →ₗ[K] V} {rhs : V} {s q : DSt K V},
      newmarkLoop e o t dt M res0 n it C S rhs s = (q, .ok .success) →
      ∃ i C S b, let dA := e.solve i (M + (o.delta * dt) • C + (dt * dt * o.alpha) • S) b
        if e.norm q.a = 0 then e.norm dA < o.tolU else e.norm dA / e.norm q.a < o.tolU := by
  induction n with
  | zero => intro it C S rhs s q h; simp [newmarkLoop] at h
  | succ n ih =>
    intro it C S rhs s q h
    obtain ⟨b, C', S', R, -, -, -, -, h⟩ := newmarkLoop_inv h
    split at h
    · rename_i hc
      obtain ⟨rfl, -⟩ := h
      refine ⟨(renewCalls (t + dt) b s.u ++ s.log).length, C', S', rhs, ?_⟩
      exact updNorm_lt.1 hc.1
    · exact ih h

/-- A successful nonlinear Newmark step: the last increment of the acceleration, the solution of a linear system
with the Newmark matrix, is smaller than the tolerance relative to the acceleration; if the acceleration is zero,
the increment itself is smaller than the tolerance. -/
theorem C90_update (e : Env K V) (o : Opts K) (dt : K) (s q : DSt K V)
    (h : step none (integrate .newmark true e o) dt s = (q, .ok .success)) :
    ∃ i M C S b n, e.mass n (s.time + dt) = .value M ∧
      let dA := e.solve i (M + (o.delta * dt) • C + (dt * dt * o.alpha) • S) b
      if e.norm q.a = 0 then e.norm dA < o.tolU else e.norm dA / e.norm q.a < o.tolU := by
  obtain ⟨q', hq', rfl⟩ := step_inv h
  clear h
  have h := hq'
  simp only [integrate, newmark, if_true, newmarkN] at h
  rw [Act.bind_ok (by rfl : Act.get s = (s, .ok s))] at h
  rw [Act.bind_ok (by rfl : setUVA _ _ _ _ = _)] at h
  obtain ⟨s1, M, h1, h⟩ := Act.bind_ok_inv h
  obtain ⟨s2, C, h2, h⟩ := Act.bind_ok_inv h
  obtain ⟨s3, R, h3, h⟩ := Act.bind_ok_inv h
  obtain ⟨h1', rfl⟩ := call_ok h1
  obtain ⟨-, rfl⟩ := call_ok h2
  obtain ⟨-, rfl⟩ := call_ok h3
  obtain ⟨i, C', S', b, h4⟩ := newmarkLoop_update h
  exact ⟨i, M, C', S', b, _, h1', h4⟩

/-- A force that is 1 in the first two evaluations and 0 later: the acceleration is 1 after the first iteration
and 0 after the second, with increment -1. A third iteration is made. -/
def kick : Env ℚ ℚ := { demo (fun _ => false) with
  jacobian := fun _ _ _ => .value 0
  residual := fun n _ _ => .value (if n ≤ 3 then 1 else 0) }

example : (step none (integrate .newmark true kick demoOpts) 1 (DSt.init 0 0 0)).2 = .ok .success ∧
    (step none (integrate .newmark true kick demoOpts) 1 (DSt.init 0 0 0)).1.a = 0 ∧
    residuals (step none (integrate .newmark true kick demoOpts) 1 (DSt.init 0 0 0)).1.log = 4 := by
  decide +kernel

theorem implicitEulerLoop_update {e : Env K V} {o : Opts K} {t dt : K} {u0 v0 : V} {M : V →ₗ[K] V} {res0 : K}
    {n : ℕ} : ∀ {it : ℕ} {C S : V →ₗ[K] V} {R : V} {s q : DSt K V},
      implicitEulerLoop e o t dt u0 v0 M res0 n it C S R s = (q, .ok .success) →
      ∃ i C S b c, let d := e.gmres i LinearMap.id (-(dt • LinearMap.id)) (dt • S) (M + dt • C) (-b) (-c)
        e.norm2 b c / res0 < o.tolF ∧
        if e.norm2 q.u q.v = 0 then e.norm2 d.1 d.2 < o.tolU else e.norm2 d.1 d.2 / e.norm2 q.u q.v < o.tolU := by
  induction n with
  | zero => intro it C S R s q h; simp [implicitEulerLoop] at h
  | succ n ih =>
    intro it C S R s q h
    obtain ⟨b, C', S', R', -, -, -, -, h⟩ := implicitEulerLoop_inv h
    split at h
    · rename_i hc
      obtain ⟨rfl, -⟩ := h
      refine ⟨(renewCalls (t + dt) b s.u ++ s.log).length, C', S', s.u - u0 - dt • s.v,
        M (s.v - v0) + dt • C' s.v + dt • (-R), hc.2, ?_⟩
      exact updNorm_lt.1 hc.1
    · exact ih h

/-- A successful nonlinear implicit Euler step: the last update of the state, the solution of a linear system whose
right hand side was small, is smaller than the tolerance relative to the new state, or absolutely if the norm of the
new state is zero. -/
theorem C61_update (e : Env K V) (o : Opts K) (dt : K) (s q : DSt K V)
    (h : step none (integrate .implicitEuler true e o) dt s = (q, .ok .success)) :
    ∃ i M C S b c n, e.mass n (s.time + dt) = .value M ∧
      let d := e.gmres i LinearMap.id (-(dt • LinearMap.id)) (dt • S) (M + dt • C) (-b) (-c)
      if e.norm2 q.u q.v = 0 then e.norm2 d.1 d.2 < o.tolU else e.norm2 d.1 d.2 / e.norm2 q.u q.v < o.tolU := by
  obtain ⟨q', hq', rfl⟩ := step_inv h
  clear h
  have h := hq'
  simp only [integrate, implicitEulerN] at h
  rw [Act.bind_ok (by rfl : Act.get s = (s, .ok s))] at h
  obtain ⟨s1, M, h1, h⟩ := Act.bind_ok_inv h
  obtain ⟨s2, C, h2, h⟩ := Act.bind_ok_inv h
  obtain ⟨s3, R, h3, h⟩ := Act.bind_ok_inv h
  obtain ⟨h1', rfl⟩ := call_ok h1
  obtain ⟨-, rfl⟩ := call_ok h2
  obtain ⟨-, rfl⟩ := call_ok h3
  obtain ⟨i, C', S', b, c, -, h4⟩ := implicitEulerLoop_update h
  exact ⟨i, M, C', S', b, c, _, h1', h4⟩

example : (step none (integrate .implicitEuler true (demo fun _ => false) demoOpts) 1 (DSt.init 1 0 0)).2 =
    .ok .success := by decide +kernel

/-! ## C87: callbacks that were never given -/

/-- What a reply throws: nothing, `throw 2`, or an exception from the callback itself. -/
def Reply.err {α : Type} : Reply α → Option Err
  | .value _ => none
  | .refused => some .assembly
  | .missing => some .other

/-- What a call throws if it is the one after `n` others. -/
def reason (e : Env K V) (n : ℕ) : Call K V → Option Err
  | .mass t => (e.mass n t).err
  | .damping x t => (e.damping n x t).err
  | .jacobian x t => (e.jacobian n x t).err
  | .force t => (e.force n t).err
  | .residual x t => (e.residual n x t).err

/-- An exception is the one of the last call, or a division by zero. -/
def Tells {α : Type} (e : Env K V) (m : Act (DSt K V) α) : Prop :=
  ∀ s x, (m s).2 = .error x → x = .ub ∨ ∃ c l, (m s).1.log = (c, false) :: l ∧ reason e l.length c = some x

section

variable {α β : Type} {e : Env K V}

theorem Tells.ret (a : α) : Tells e (pure a) := fun _ _ h => by simp at h

theorem Tells.get : Tells e Act.get := fun _ _ h => by simp at h

theorem Tells.modify {f : DSt K V → DSt K V} : Tells e (Act.modify f) := fun _ _ h => by simp at h

theorem Tells.bind {m : Act (DSt K V) α} {f : α → Act (DSt K V) β} (hm : Tells e m) (hf : ∀ a, Tells e (f a)) :
    Tells e (m >>= f) := by
  intro s x h
  have h1 := hm s
  simp only [Act.bind_apply] at h ⊢
  rcases hs : m s with ⟨q, y | a⟩ <;> rw [hs] at h1 h
  · simp only [Except.error.injEq] at h
    subst h
    exact h1 y rfl
  · exact hf a q x h

theorem Tells.ite {c : Prop} [Decidable c] {m₁ m₂ : Act (DSt K V) α} (h₁ : Tells e m₁) (h₂ : Tells e m₂) :
    Tells e (if c then m₁ else m₂) := by
  split
  · exact h₁
  · exact h₂

theorem Tells.call {c : Call K V} {f : ℕ → Reply α} (h : ∀ n, reason e n c = (f n).err) : Tells e (call c f) := by
  intro s x hx
  have h' := h s.log.length
  rcases hf : f s.log.length with a | _ | _ <;> rw [hf] at h' <;>
    simp [Dynamic.call, Act.bind_apply, hf] at hx <;> subst hx <;>
    exact .inr ⟨c, s.log, by simp [Dynamic.call, Act.bind_apply, hf], h'⟩

theorem Tells.onCopy {m : Act (DSt K V) α} (hm : Tells e m) : Tells e (onCopy m) := by
  intro s x h
  have h1 := hm s
  simp only [Dynamic.onCopy] at h ⊢
  rcases hs : m s with ⟨q, y | a⟩ <;> rw [hs] at h1 h
  · simp only [Except.error.injEq] at h
    subst h
    exact h1 y rfl
  · cases h

theorem Tells.minv {M : V →ₗ[K] V} : Tells e (computeMassInverse e M) := by
  refine .bind .get fun s => ?_
  split
  · exact .ret _
  · exact .bind .modify fun _ => .ret _

theorem Tells.refresh {o : Opts K} {it : ℕ} : Tells e (refresh o it) :=
  .ite (.ret _) (.ite (.ret _) (.ite (fun _ x h => by simp at h; exact .inl h.symm) (.ret _)))

theorem Tells.renew {t : K} {b : Bool} {C S : V →ₗ[K] V} : Tells e (renew e t b C S) :=
  .ite (.bind .get fun _ => .bind (.call fun _ => rfl) fun _ => .bind (.call fun _ => rfl) fun _ => .ret _) (.ret _)

theorem Tells.lin {m : V →ₗ[K] V} {b : V} : Tells e (linSolve e m b) := .bind .get fun _ => .ret _

theorem Tells.gm {a b c d : V →ₗ[K] V} {x y : V} : Tells e (gmresSolve e a b c d x y) := .bind .get fun _ => .ret _

end

section

variable (e : Env K V) (o : Opts K) (t dt : K)

theorem tells_newmark (nl : Bool) : Tells e (newmark nl e o t dt) := by
  have hloop : ∀ (M : V →ₗ[K] V) (res0 : K) (n it : ℕ) (C S : V →ₗ[K] V) (rhs : V),
      Tells e (newmarkLoop e o t dt M res0 n it C S rhs) := by
    intro M res0 n
    induction n with
    | zero => exact fun _ _ _ _ => .ret _
    | succ n ih =>
      intro it C S rhs
      exact .bind .refresh fun b => .bind .renew fun _ => .bind .lin fun _ => .bind .modify fun _ =>
        .bind .get fun _ => .bind (.call fun _ => rfl) fun _ => .ite (.ret _) (ih _ _ _ _)
  refine .ite ?_ ?_
  · exact .bind .get fun s => .bind .modify fun _ => .bind (.call fun _ => rfl) fun _ =>
      .bind (.call fun _ => rfl) fun _ => .bind (.call fun _ => rfl) fun _ => hloop _ _ _ _ _ _ _
  · exact .bind .get fun s => .bind (.call fun _ => rfl) fun _ => .bind (.call fun _ => rfl) fun _ =>
      .bind .modify fun _ => .bind (.call fun _ => rfl) fun _ => .bind (.call fun _ => rfl) fun _ =>
      .bind .lin fun _ => .bind .modify fun _ => .ret _

theorem tells_integrate (m : Method) (nl : Bool) : Tells e (integrate m nl e o t dt) := by
  cases m <;> cases nl <;> simp only [integrate]
  · exact .bind .get fun s => .bind (.call fun _ => rfl) fun _ => .bind .minv fun _ =>
      .bind (.call fun _ => rfl) fun _ => .bind (.call fun _ => rfl) fun _ => .bind (.call fun _ => rfl) fun _ =>
      .bind .modify fun _ => .ret _
  · exact .bind .get fun s => .bind (.call fun _ => rfl) fun _ => .bind .minv fun _ =>
      .bind (.call fun _ => rfl) fun _ => .bind (.call fun _ => rfl) fun _ => .bind .modify fun _ => .ret _
  · exact .bind .get fun s => .bind (.call fun _ => rfl) fun _ => .bind .minv fun _ =>
      .bind (.call fun _ => rfl) fun _ => .bind (.call fun _ => rfl) fun _ => .bind (.call fun _ => rfl) fun _ =>
      .bind (.call fun _ => rfl) fun _ => .bind (.call fun _ => rfl) fun _ =>
      .bind (.call fun _ => rfl) fun _ => .bind .modify fun _ => .ret _
  · exact .bind .get fun s => .bind (.call fun _ => rfl) fun _ => .bind .minv fun _ =>
      .bind (.call fun _ => rfl) fun _ => .bind (.call fun _ => rfl) fun _ => .bind (.call fun _ => rfl) fun _ =>
      .bind (.call fun _ => rfl) fun _ => .bind (.call fun _ => rfl) fun _ =>
      .bind (.call fun _ => rfl) fun _ => .bind .modify fun _ => .ret _
  · exact .bind .get fun s => .bind (.call fun _ => rfl) fun _ => .bind (.call fun _ => rfl) fun _ =>
      .bind (.call fun _ => rfl) fun _ => .bind (.call fun _ => rfl) fun _ => .bind .gm fun _ =>
      .bind .modify fun _ => .ret _
  · have hloop : ∀ (u0 v0 : V) (M : V →ₗ[K] V) (res0 : K) (n it : ℕ) (C S : V →ₗ[K] V) (rhs : V),
        Tells e (implicitEulerLoop e o t dt u0 v0 M res0 n it C S rhs) := by
      intro u0 v0 M res0 n
      induction n with
      | zero => exact fun _ _ _ _ => .ret _
      | succ n ih =>
        intro it C S rhs
        exact .bind .refresh fun b => .bind .renew fun _ => .bind .get fun _ => .bind .gm fun _ =>
          .bind .modify fun _ => .bind (.call fun _ => rfl) fun _ => .ite (.ret _) (ih _ _ _ _)
    exact .bind .get fun s => .bind (.call fun _ => rfl) fun _ => .bind (.call fun _ => rfl) fun _ =>
      .bind (.call fun _ => rfl) fun _ => hloop _ _ _ _ _ _ _ _ _
  · exact tells_newmark e o t dt false
  · exact tells_newmark e o t dt true
  · exact .bind (.onCopy (tells_newmark e o t _ false)) fun _ => .bind .modify fun _ => .ret _
  · exact .bind (.onCopy (tells_newmark e o t _ true)) fun _ => .bind .modify fun _ => .ret _
  · exact .bind .get fun s => .bind (.onCopy (tells_newmark e o t _ false)) fun _ =>
      .bind (.call fun _ => rfl) fun _ => .bind (.call fun _ => rfl) fun _ => .bind (.call fun _ => rfl) fun _ =>
      .bind (.call fun _ => rfl) fun _ => .bind .lin fun _ => .bind .modify fun _ => .ret _
  · have hloop : ∀ (M : V →ₗ[K] V) (u0 v0 us vs : V) (res0 : K) (n it : ℕ) (C S : V →ₗ[K] V) (rhs : V),
        Tells e (batheLoop e o t dt M u0 v0 us vs res0 n it C S rhs) := by
      intro M u0 v0 us vs res0 n
      induction n with
      | zero => exact fun _ _ _ _ => .bind .modify fun _ => .ret _
      | succ n ih =>
        intro it C S rhs
        exact .bind .refresh fun b => .bind .renew fun _ => .bind .lin fun _ => .bind .modify fun _ =>
          .bind .get fun _ => .bind (.call fun _ => rfl) fun _ =>
          .ite (.bind .modify fun _ => .ret _) (ih _ _ _ _)
    exact .bind .get fun s => .bind (.onCopy (tells_newmark e o t _ true)) fun _ =>
      .bind (.call fun _ => rfl) fun _ => .bind (.call fun _ => rfl) fun _ => .bind (.call fun _ => rfl) fun _ =>
      .bind .modify fun _ => hloop _ _ _ _ _ _ _ _ _ _ _

end

/-- The exception that leaves a step tells why: the integer 2 if the last callback returned `false`, the exception
of the callback if it threw one itself (for instance since it was never given); no other exception leaves a step,
but for the division by zero in quasi-Newton with interval 0. -/
theorem C87_reason (cb : Option (ℕ → K → K → Bool)) (m : Method) (nl : Bool) (e : Env K V) (o : Opts K) (dt : K)
    (s : DSt K V) (x : Err) (h : (step cb (integrate m nl e o) dt s).2 = .error x) :
    x = .ub ∨ ∃ c l, (step cb (integrate m nl e o) dt s).1.log = (c, false) :: l ∧
      x = match c with
        | .mass t => match e.mass l.length t with | .missing => .other | _ => .assembly
        | .damping y t => match e.damping l.length y t with | .missing => .other | _ => .assembly
        | .jacobian y t => match e.jacobian l.length y t with | .missing => .other | _ => .assembly
        | .force t => match e.force l.length t with | .missing => .other | _ => .assembly
        | .residual y t => match e.residual l.length y t with | .missing => .other | _ => .assembly := by
  have key : Tells e (step cb (integrate m nl e o) dt) :=
    .bind .get fun s => .ite (.bind (tells_integrate e o _ _ m nl) fun _ => .bind .modify fun _ => .ret _)
      (.bind .modify fun _ => .ret _)
  rcases key s x h with h | ⟨c, l, h1, h2⟩
  · exact .inl h
  · refine .inr ⟨c, l, h1, ?_⟩
    rcases c with t | ⟨y, t⟩ | ⟨y, t⟩ | t | ⟨y, t⟩ <;> simp only [reason] at h2
    · rcases hr : e.mass l.length t with a | _ | _ <;> rw [hr] at h2 <;> cases h2 <;> simp only [hr]
    · rcases hr : e.damping l.length y t with a | _ | _ <;> rw [hr] at h2 <;> cases h2 <;> simp only [hr]
    · rcases hr : e.jacobian l.length y t with a | _ | _ <;> rw [hr] at h2 <;> cases h2 <;> simp only [hr]
    · rcases hr : e.force l.length t with a | _ | _ <;> rw [hr] at h2 <;> cases h2 <;> simp only [hr]
    · rcases hr : e.residual l.length y t with a | _ | _ <;> rw [hr] at h2 <;> cases h2 <;> simp only [hr]

/-- The object was constructed with a force; the nonlinear step asks for the residual. -/
example : (step none (integrate .newmark true { demo (fun _ => false) with residual := fun _ _ _ => .missing } demoOpts)
      1 (DSt.init 1 0 0)).2 = .error .other ∧
    (step none (integrate .newmark true (demo fun _ => true) demoOpts) 1 (DSt.init 1 0 0)).2 = .error .assembly := by
  decide +kernel

end GsSA.Dynamic
