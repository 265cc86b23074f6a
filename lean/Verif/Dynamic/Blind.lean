import Verif.Dynamic.RestProps

/-!
# The integrators do not look at the time, the status and the number of iterations of the object

They get the time as an argument. So the `const` version of `step` computes the same as the other one.
-/

set_option linter.unusedSectionVars false

namespace GsSA.Dynamic

open GsSA GsSA.Static
open GsSA.ALM (Act Err)

variable {K V : Type} [Field K] [LinearOrder K] [IsStrictOrderedRing K] [AddCommGroup V] [Module K V]

/-- The state with other values of the time, the status and the number of iterations. -/
def DSt.reframe (s : DSt K V) (t : K) (r : Status) (n : ℤ) : DSt K V :=
  { s with time := t, status := r, numIt := n }

/-- The action neither reads nor writes the time, the status and the number of iterations. -/
def Blind {α : Type} (m : Act (DSt K V) α) : Prop :=
  ∀ s t r n, m (s.reframe t r n) = ((m s).1.reframe t r n, (m s).2)

section

variable {α β : Type}

theorem Blind.ret (a : α) : Blind (pure a : Act (DSt K V) α) := fun _ _ _ _ => rfl

theorem Blind.throw (x : Err) : Blind (Act.throw x : Act (DSt K V) α) := fun _ _ _ _ => rfl

theorem Blind.modify {f : DSt K V → DSt K V} (h : ∀ s t r n, f (s.reframe t r n) = (f s).reframe t r n) :
    Blind (Act.modify f) := by
  intro s t r n
  simp only [Act.modify_apply, h]

theorem Blind.bind {m : Act (DSt K V) α} {f : α → Act (DSt K V) β} (hm : Blind m) (hf : ∀ a, Blind (f a)) :
    Blind (m >>= f) := by
  intro s t r n
  simp only [Act.bind_apply, hm s t r n]
  rcases hms : m s with ⟨q, x | a⟩
  · rfl
  · exact hf a q t r n

theorem Blind.getBind {f : DSt K V → Act (DSt K V) β} (h : ∀ s t r n, f (s.reframe t r n) = f s)
    (hf : ∀ s, Blind (f s)) : Blind (Act.get >>= f) := by
  intro s t r n
  simp only [Act.bind_apply, Act.get_apply, h]
  exact hf s s t r n

theorem Blind.ite {c : Prop} [Decidable c] {m₁ m₂ : Act (DSt K V) α} (h₁ : Blind m₁) (h₂ : Blind m₂) :
    Blind (if c then m₁ else m₂) := by
  split
  · exact h₁
  · exact h₂

theorem Blind.call {c : Call K V} {f : ℕ → Reply α} : Blind (call c f) := by
  refine .getBind (fun _ _ _ _ => rfl) fun s => ?_
  rcases f s.log.length with a | _ | _
  · exact .bind (.modify fun _ _ _ _ => rfl) fun _ => .ret _
  · exact .bind (.modify fun _ _ _ _ => rfl) fun _ => .throw _
  · exact .bind (.modify fun _ _ _ _ => rfl) fun _ => .throw _

theorem Blind.onCopy {m : Act (DSt K V) α} (h : Blind m) : Blind (onCopy m) := by
  intro s t r n
  simp only [Dynamic.onCopy, h s t r n]
  rcases m s with ⟨q, x | a⟩ <;> rfl

theorem Blind.minv (e : Env K V) (M : V →ₗ[K] V) : Blind (computeMassInverse e M) := by
  intro s t r n
  rw [computeMassInverse_apply, computeMassInverse_apply]
  rfl

theorem Blind.refresh (o : Opts K) (it : ℕ) : Blind (refresh o it : Act (DSt K V) Bool) :=
  .ite (.ret _) (.ite (.ret _) (.ite (.throw _) (.ret _)))

theorem Blind.renew {e : Env K V} {t : K} {b : Bool} {C S : V →ₗ[K] V} : Blind (renew e t b C S) :=
  .ite (.getBind (fun _ _ _ _ => rfl) fun _ => .bind .call fun _ => .bind .call fun _ => .ret _) (.ret _)

theorem Blind.lin {e : Env K V} {m : V →ₗ[K] V} {b : V} : Blind (linSolve e m b) :=
  .getBind (fun _ _ _ _ => rfl) fun _ => .ret _

theorem Blind.gm {e : Env K V} {a b c d : V →ₗ[K] V} {x y : V} : Blind (gmresSolve e a b c d x y) :=
  .getBind (fun _ _ _ _ => rfl) fun _ => .ret _

end

section

variable (e : Env K V) (o : Opts K) (t dt : K)

theorem blind_newmark (nl : Bool) : Blind (newmark nl e o t dt) := by
  have hloop : ∀ (M : V →ₗ[K] V) (res0 : K) (n it : ℕ) (C S : V →ₗ[K] V) (rhs : V),
      Blind (newmarkLoop e o t dt M res0 n it C S rhs) := by
    intro M res0 n
    induction n with
    | zero => exact fun _ _ _ _ => .ret _
    | succ n ih =>
      intro it C S rhs
      exact .bind (.refresh o it) fun b => .bind .renew fun _ => .bind .lin fun _ =>
        .bind (.modify fun _ _ _ _ => rfl) fun _ => .getBind (fun _ _ _ _ => rfl) fun _ => .bind .call fun _ =>
        .ite (.ret _) (ih _ _ _ _)
  refine .ite ?_ ?_
  · exact .getBind (fun _ _ _ _ => rfl) fun s => .bind (.modify fun _ _ _ _ => rfl) fun _ => .bind .call fun _ =>
      .bind .call fun _ => .bind .call fun _ => hloop _ _ _ _ _ _ _
  · exact .getBind (fun _ _ _ _ => rfl) fun s => .bind .call fun _ => .bind .call fun _ =>
      .bind (.modify fun _ _ _ _ => rfl) fun _ => .bind .call fun _ => .bind .call fun _ => .bind .lin fun _ =>
      .bind (.modify fun _ _ _ _ => rfl) fun _ => .ret _

theorem blind_integrate (m : Method) (nl : Bool) : Blind (integrate m nl e o t dt) := by
  cases m <;> cases nl <;> simp only [integrate]
  · exact .getBind (fun _ _ _ _ => rfl) fun s => .bind .call fun _ => .bind (.minv _ _) fun _ =>
      .bind .call fun _ => .bind .call fun _ => .bind .call fun _ =>
      .bind (.modify fun _ _ _ _ => rfl) fun _ => .ret _
  · exact .getBind (fun _ _ _ _ => rfl) fun s => .bind .call fun _ => .bind (.minv _ _) fun _ =>
      .bind .call fun _ => .bind .call fun _ => .bind (.modify fun _ _ _ _ => rfl) fun _ => .ret _
  · exact .getBind (fun _ _ _ _ => rfl) fun s => .bind .call fun _ => .bind (.minv _ _) fun _ =>
      .bind .call fun _ => .bind .call fun _ => .bind .call fun _ => .bind .call fun _ => .bind .call fun _ =>
      .bind .call fun _ => .bind (.modify fun _ _ _ _ => rfl) fun _ => .ret _
  · exact .getBind (fun _ _ _ _ => rfl) fun s => .bind .call fun _ => .bind (.minv _ _) fun _ =>
      .bind .call fun _ => .bind .call fun _ => .bind .call fun _ => .bind .call fun _ => .bind .call fun _ =>
      .bind .call fun _ => .bind (.modify fun _ _ _ _ => rfl) fun _ => .ret _
  · exact .getBind (fun _ _ _ _ => rfl) fun s => .bind .call fun _ => .bind .call fun _ =>
      .bind .call fun _ => .bind .call fun _ => .bind .gm fun _ =>
      .bind (.modify fun _ _ _ _ => rfl) fun _ => .ret _
  · have hloop : ∀ (u0 v0 : V) (M : V →ₗ[K] V) (res0 : K) (n it : ℕ) (C S : V →ₗ[K] V) (rhs : V),
        Blind (implicitEulerLoop e o t dt u0 v0 M res0 n it C S rhs) := by
      intro u0 v0 M res0 n
      induction n with
      | zero => exact fun _ _ _ _ => .ret _
      | succ n ih =>
        intro it C S rhs
        exact .bind (.refresh o it) fun b => .bind .renew fun _ => .getBind (fun _ _ _ _ => rfl) fun _ =>
          .bind .gm fun _ => .bind (.modify fun _ _ _ _ => rfl) fun _ => .bind .call fun _ =>
          .ite (.ret _) (ih _ _ _ _)
    exact .getBind (fun _ _ _ _ => rfl) fun s => .bind .call fun _ => .bind .call fun _ =>
      .bind .call fun _ => hloop _ _ _ _ _ _ _ _ _
  · exact blind_newmark e o t dt false
  · exact blind_newmark e o t dt true
  · exact .bind (.onCopy (blind_newmark e o t _ false)) fun _ => .bind (.modify fun _ _ _ _ => rfl) fun _ => .ret _
  · exact .bind (.onCopy (blind_newmark e o t _ true)) fun _ => .bind (.modify fun _ _ _ _ => rfl) fun _ => .ret _
  · exact .getBind (fun _ _ _ _ => rfl) fun s => .bind (.onCopy (blind_newmark e o t _ false)) fun _ =>
      .bind .call fun _ => .bind .call fun _ => .bind .call fun _ => .bind .call fun _ => .bind .lin fun _ =>
      .bind (.modify fun _ _ _ _ => rfl) fun _ => .ret _
  · have hloop : ∀ (M : V →ₗ[K] V) (u0 v0 us vs : V) (res0 : K) (n it : ℕ) (C S : V →ₗ[K] V) (rhs : V),
        Blind (batheLoop e o t dt M u0 v0 us vs res0 n it C S rhs) := by
      intro M u0 v0 us vs res0 n
      induction n with
      | zero => exact fun _ _ _ _ => .bind (.modify fun _ _ _ _ => rfl) fun _ => .ret _
      | succ n ih =>
        intro it C S rhs
        exact .bind (.refresh o it) fun b => .bind .renew fun _ => .bind .lin fun _ =>
          .bind (.modify fun _ _ _ _ => rfl) fun _ => .getBind (fun _ _ _ _ => rfl) fun _ => .bind .call fun _ =>
          .ite (.bind (.modify fun _ _ _ _ => rfl) fun _ => .ret _) (ih _ _ _ _)
    exact .getBind (fun _ _ _ _ => rfl) fun s => .bind (.onCopy (blind_newmark e o t _ true)) fun _ =>
      .bind .call fun _ => .bind .call fun _ => .bind .call fun _ => .bind (.modify fun _ _ _ _ => rfl) fun _ =>
      hloop _ _ _ _ _ _ _ _ _ _ _

end

/-- The `const` step on the vectors of the object, at the time of the object, computes what `step(dt)` computes,
and leaves the vectors, the time and the status of the object alone. -/
theorem stepConst_step (m : Method) (nl : Bool) (e : Env K V) (o : Opts K) (dt : K) (s₁ s₂ q : DSt K V) (r : Status)
    (u v a : V)
    (hd : s₁.log = s₂.log) (hm : s₁.massInv = s₂.massInv)
    (h : stepConst (integrate m nl e o) s₂.time dt s₂.u s₂.v s₂.a s₁ = (q, .ok (r, u, v, a))) :
    ∃ p, step none (integrate m nl e o) dt s₂ = (p, .ok r) ∧ p.u = u ∧ p.v = v ∧ p.a = a ∧
      p.time = s₂.time + dt ∧ q.log = p.log ∧ q.massInv = p.massInv ∧
      q.u = s₁.u ∧ q.v = s₁.v ∧ q.a = s₁.a ∧ q.time = s₁.time ∧ q.status = s₁.status := by
  have e1 : ({ s₁ with u := s₂.u, v := s₂.v, a := s₂.a } : DSt K V) =
      s₂.reframe s₁.time s₁.status s₁.numIt := by
    simp only [DSt.reframe, hd, hm]
  simp only [stepConst] at h
  rw [e1, blind_integrate e o s₂.time dt m nl] at h
  rcases hi : integrate m nl e o s₂.time dt s₂ with ⟨p, x | x⟩
  · rw [hi] at h; simp at h
  · rw [hi] at h
    simp only [Prod.mk.injEq, Except.ok.injEq] at h
    obtain ⟨rfl, rfl, rfl, rfl, rfl⟩ := h
    have ht : p.time = s₂.time := by
      have h3 := (tame_integrate e o s₂.time dt m nl).2 s₂
      rw [hi] at h3
      simp only [DSt.frame, Prod.mk.injEq] at h3
      exact h3.1
    exact ⟨_, step_none _ _ _ _ _ hi, rfl, rfl, rfl, by simp [ht], rfl, rfl, rfl, rfl, rfl, rfl, rfl⟩

end GsSA.Dynamic
