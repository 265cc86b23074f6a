import Verif.Dynamic.Methods

/-!
# Exceptions and unchanged members

`Traced m P`: the calls recorded by `m`. If `m` returns they all succeeded; if `m` throws, the last one
failed and no other, except for undefined behaviour, which needs `P`.
-/

set_option linter.unusedSectionVars false

namespace GsSA.Dynamic

open GsSA GsSA.Static
open GsSA.ALM (Act Err)

variable {K V : Type} [Field K] [LinearOrder K] [AddCommGroup V] [Module K V]

/-- See the head of the file. -/
def Traced {α : Type} (P : Prop) (m : Act (DSt K V) α) : Prop :=
  ∀ s, ∃ l, (m s).1.log = l ++ s.log ∧
    match (m s).2 with
    | .ok _ => ∀ x ∈ l, x.2 = true
    | .error x => (x = .ub ∧ P ∧ ∀ y ∈ l, y.2 = true) ∨
        ((x = .assembly ∨ x = .other) ∧ ∃ c l', l = (c, false) :: l' ∧ ∀ y ∈ l', y.2 = true)

section

variable {α β : Type} {P : Prop}

theorem Traced.ret (a : α) : Traced P (pure a : Act (DSt K V) α) := fun s => ⟨[], by simp⟩

theorem Traced.get : Traced P (Act.get : Act (DSt K V) (DSt K V)) := fun s => ⟨[], by simp⟩

theorem Traced.modify {f : DSt K V → DSt K V} (h : ∀ s, (f s).log = s.log) :
    Traced P (Act.modify f) := fun s => ⟨[], by simp [h]⟩

theorem Traced.ub (h : P) : Traced P (Act.throw .ub : Act (DSt K V) α) := fun s => ⟨[], by simp [h]⟩

theorem Traced.bind {m : Act (DSt K V) α} {f : α → Act (DSt K V) β} (hm : Traced P m)
    (hf : ∀ a, Traced P (f a)) : Traced P (m >>= f) := by
  intro s
  obtain ⟨l, h1, h2⟩ := hm s
  rw [Act.bind_apply]
  rcases h : m s with ⟨t, r⟩
  rw [h] at h1 h2
  cases r with
  | error err => exact ⟨l, h1, h2⟩
  | ok a =>
    obtain ⟨l', h3, h4⟩ := hf a t
    rcases h' : f a t with ⟨u, r⟩
    rw [h'] at h3 h4
    refine ⟨l' ++ l, ?_, ?_⟩
    · simp only [h'] at h1 h3 ⊢
      rw [h3, h1, List.append_assoc]
    · simp only [h']
      cases r with
      | ok b =>
        intro x hx
        rcases List.mem_append.1 hx with hx | hx
        · exact h4 x hx
        · exact h2 x hx
      | error err =>
        rcases h4 with ⟨h5, h6, h7⟩ | ⟨h5, c, l₁, rfl, h6⟩
        · refine Or.inl ⟨h5, h6, fun y hy => ?_⟩
          rcases List.mem_append.1 hy with hy | hy
          · exact h7 y hy
          · exact h2 y hy
        · refine Or.inr ⟨h5, c, l₁ ++ l, rfl, fun y hy => ?_⟩
          rcases List.mem_append.1 hy with hy | hy
          · exact h6 y hy
          · exact h2 y hy

theorem Traced.ite {c : Prop} [Decidable c] {m₁ m₂ : Act (DSt K V) α} (h₁ : Traced P m₁)
    (h₂ : Traced P m₂) : Traced P (if c then m₁ else m₂) := by
  split
  · exact h₁
  · exact h₂

theorem Traced.call (c : Call K V) (f : ℕ → Reply α) : Traced P (call c f) := by
  intro s
  rcases h : f s.log.length with a | _ | _
  · exact ⟨[(c, true)], by simp [Dynamic.call, Act.bind_apply, h]⟩
  · exact ⟨[(c, false)], by simp [Dynamic.call, Act.bind_apply, h]⟩
  · exact ⟨[(c, false)], by simp [Dynamic.call, Act.bind_apply, h]⟩

theorem Traced.onCopy {m : Act (DSt K V) α} (hm : Traced P m) : Traced P (onCopy m) := by
  intro s
  obtain ⟨l, h1, h2⟩ := hm s
  refine ⟨l, ?_⟩
  rcases h : m s with ⟨t, r⟩
  rw [h] at h1 h2
  cases r <;> simp only [Dynamic.onCopy, h] <;> exact ⟨h1, h2⟩

end

/-- What an integrator leaves alone. -/
def DSt.frame (s : DSt K V) : K × Status × ℤ := (s.time, s.status, s.numIt)

section

variable {α : Type}

theorem keeps_call (c : Call K V) (f : ℕ → Reply α) : Keeps DSt.frame (call c f) := by
  intro s
  rcases h : f s.log.length with a | _ | _ <;> simp [Dynamic.call, Act.bind_apply, h, DSt.frame]

theorem keeps_onCopy {m : Act (DSt K V) α} (hm : Keeps DSt.frame m) : Keeps DSt.frame (onCopy m) := by
  intro s
  have h1 := hm s
  rcases h : m s with ⟨t, r⟩
  rw [h] at h1
  cases r <;> simp only [Dynamic.onCopy, h] <;> exact h1

end

/-- The undefined case: quasi-Newton with an interval of zero. -/
def Opts.zeroInterval (o : Opts K) : Prop := o.quasi = true ∧ o.quasiIt = 0

/-- Both facts on an action. -/
structure Tame {α : Type} (P : Prop) (m : Act (DSt K V) α) : Prop where
  traced : Traced P m
  keeps : Keeps DSt.frame m

section

variable {α β : Type} {P : Prop}

theorem Tame.ret (a : α) : Tame P (pure a : Act (DSt K V) α) := ⟨.ret a, .ret a⟩

theorem Tame.get : Tame P (Act.get : Act (DSt K V) (DSt K V)) := ⟨.get, .get⟩

theorem Tame.modify {f : DSt K V → DSt K V} (h : ∀ s, (f s).log = s.log)
    (h' : ∀ s, (f s).frame = s.frame) : Tame P (Act.modify f) := ⟨.modify h, .modify h'⟩

theorem Tame.bind {m : Act (DSt K V) α} {f : α → Act (DSt K V) β} (hm : Tame P m)
    (hf : ∀ a, Tame P (f a)) : Tame P (m >>= f) :=
  ⟨hm.1.bind fun a => (hf a).1, hm.2.bind fun a => (hf a).2⟩

theorem Tame.ite {c : Prop} [Decidable c] {m₁ m₂ : Act (DSt K V) α} (h₁ : Tame P m₁)
    (h₂ : Tame P m₂) : Tame P (if c then m₁ else m₂) := ⟨h₁.1.ite h₂.1, h₁.2.ite h₂.2⟩

theorem Tame.call (c : Call K V) (f : ℕ → Reply α) : Tame P (call c f) := ⟨.call c f, keeps_call c f⟩

theorem Tame.onCopy {m : Act (DSt K V) α} (hm : Tame P m) : Tame P (onCopy m) :=
  ⟨hm.1.onCopy, keeps_onCopy hm.2⟩

theorem Tame.minv (e : Env K V) (M : V →ₗ[K] V) : Tame P (computeMassInverse e M) := by
  refine .bind .get fun s => ?_
  split
  · exact .ret _
  · exact .bind (.modify (fun _ => rfl) fun _ => rfl) fun _ => .ret _

theorem Tame.linSolve (e : Env K V) (m : V →ₗ[K] V) (b : V) : Tame P (linSolve e m b) :=
  .bind .get fun _ => .ret _

theorem Tame.gmres (e : Env K V) (a b c d : V →ₗ[K] V) (x y : V) : Tame P (gmresSolve e a b c d x y) :=
  .bind .get fun _ => .ret _

theorem Tame.setUV (u v : V) : Tame P (setUV u v : Act (DSt K V) Unit) :=
  .modify (fun _ => rfl) fun _ => rfl

theorem Tame.setUVA (u v a : V) : Tame P (setUVA u v a : Act (DSt K V) Unit) :=
  .modify (fun _ => rfl) fun _ => rfl

theorem Tame.refresh (o : Opts K) (it : ℕ) : Tame o.zeroInterval (refresh o it : Act (DSt K V) Bool) := by
  by_cases hq : o.quasi = false
  · unfold Dynamic.refresh; rw [if_pos hq]; exact .ret _
  · have hq' : o.quasi = true := by simpa using hq
    unfold Dynamic.refresh
    rw [if_neg hq]
    refine .ite (.ret _) ?_
    by_cases h0 : o.quasiIt = 0
    · rw [if_pos h0]; exact ⟨.ub ⟨hq', h0⟩, .throw _⟩
    · rw [if_neg h0]; exact .ret _

end

section

variable (e : Env K V) (o : Opts K) (t dt : K)

theorem tame_newmarkLoop (M : V →ₗ[K] V) (res0 : K) : ∀ (n it : ℕ) (C S : V →ₗ[K] V) (rhs : V),
    Tame o.zeroInterval (newmarkLoop e o t dt M res0 n it C S rhs) := by
  intro n
  induction n with
  | zero => exact fun _ _ _ _ => .ret _
  | succ n ih =>
    intro it C S rhs
    refine .bind (.refresh o it) fun b => .bind ?_ fun CK => .bind (.linSolve _ _ _) fun dA =>
      .bind (.modify (fun _ => rfl) fun _ => rfl) fun _ => .bind .get fun s => .bind (.call _ _) fun R =>
      .ite (.ret _) (ih _ _ _ _)
    exact .ite (.bind .get fun s => .bind (.call _ _) fun _ => .bind (.call _ _) fun _ => .ret _) (.ret _)

theorem tame_batheLoop (M : V →ₗ[K] V) (u0 v0 us vs : V) (res0 : K) :
    ∀ (n it : ℕ) (C S : V →ₗ[K] V) (rhs : V),
      Tame o.zeroInterval (batheLoop e o t dt M u0 v0 us vs res0 n it C S rhs) := by
  intro n
  induction n with
  | zero => exact fun _ _ _ _ => .bind (.modify (fun _ => rfl) fun _ => rfl) fun _ => .ret _
  | succ n ih =>
    intro it C S rhs
    refine .bind (.refresh o it) fun b => .bind ?_ fun CK => .bind (.linSolve _ _ _) fun dA =>
      .bind (.modify (fun _ => rfl) fun _ => rfl) fun _ => .bind .get fun s => .bind (.call _ _) fun R =>
      .ite (.bind (.modify (fun _ => rfl) fun _ => rfl) fun _ => .ret _) (ih _ _ _ _)
    exact .ite (.bind .get fun s => .bind (.call _ _) fun _ => .bind (.call _ _) fun _ => .ret _) (.ret _)

theorem tame_implicitEulerLoop (u0 v0 : V) (M : V →ₗ[K] V) (res0 : K) :
    ∀ (n it : ℕ) (C S : V →ₗ[K] V) (R : V),
      Tame o.zeroInterval (implicitEulerLoop e o t dt u0 v0 M res0 n it C S R) := by
  intro n
  induction n with
  | zero => exact fun _ _ _ _ => .ret _
  | succ n ih =>
    intro it C S rhs
    refine .bind (.refresh o it) fun b => .bind ?_ fun CK => .bind .get fun s =>
      .bind (.gmres _ _ _ _ _ _ _) fun d => .bind (.setUV _ _) fun _ => .bind (.call _ _) fun R =>
      .ite (.ret _) (ih _ _ _ _)
    exact .ite (.bind .get fun s => .bind (.call _ _) fun _ => .bind (.call _ _) fun _ => .ret _) (.ret _)

theorem tame_newmark (nl : Bool) : Tame o.zeroInterval (newmark nl e o t dt) := by
  unfold newmark
  refine .ite ?_ ?_
  · exact .bind .get fun s => .bind (.setUVA _ _ _) fun _ => .bind (.call _ _) fun _ =>
      .bind (.call _ _) fun _ => .bind (.call _ _) fun _ => tame_newmarkLoop e o t dt _ _ _ _ _ _ _
  · exact .bind .get fun s => .bind (.call _ _) fun _ => .bind (.call _ _) fun _ =>
      .bind (.setUV _ _) fun _ => .bind (.call _ _) fun _ => .bind (.call _ _) fun _ =>
      .bind (.linSolve _ _ _) fun _ => .bind (.setUVA _ _ _) fun _ => .ret _

theorem tame_integrate (m : Method) (nl : Bool) : Tame o.zeroInterval (integrate m nl e o t dt) := by
  cases m <;> cases nl <;> simp only [integrate]
  · exact .bind .get fun s => .bind (.call _ _) fun _ => .bind (.minv _ _) fun _ =>
      .bind (.call _ _) fun _ => .bind (.call _ _) fun _ => .bind (.call _ _) fun _ =>
      .bind (.setUV _ _) fun _ => .ret _
  · exact .bind .get fun s => .bind (.call _ _) fun _ => .bind (.minv _ _) fun _ =>
      .bind (.call _ _) fun _ => .bind (.call _ _) fun _ => .bind (.setUV _ _) fun _ => .ret _
  · exact .bind .get fun s => .bind (.call _ _) fun _ => .bind (.minv _ _) fun _ =>
      .bind (.call _ _) fun _ => .bind (.call _ _) fun _ => .bind (.call _ _) fun _ =>
      .bind (.call _ _) fun _ => .bind (.call _ _) fun _ => .bind (.call _ _) fun _ =>
      .bind (.setUV _ _) fun _ => .ret _
  · exact .bind .get fun s => .bind (.call _ _) fun _ => .bind (.minv _ _) fun _ =>
      .bind (.call _ _) fun _ => .bind (.call _ _) fun _ => .bind (.call _ _) fun _ =>
      .bind (.call _ _) fun _ => .bind (.call _ _) fun _ => .bind (.call _ _) fun _ =>
      .bind (.setUV _ _) fun _ => .ret _
  · exact .bind .get fun s => .bind (.call _ _) fun _ => .bind (.call _ _) fun _ =>
      .bind (.call _ _) fun _ => .bind (.call _ _) fun _ => .bind (.gmres _ _ _ _ _ _ _) fun _ =>
      .bind (.setUV _ _) fun _ => .ret _
  · exact .bind .get fun s => .bind (.call _ _) fun _ => .bind (.call _ _) fun _ =>
      .bind (.call _ _) fun _ => tame_implicitEulerLoop e o t dt _ _ _ _ _ _ _ _ _
  · exact tame_newmark e o t dt _
  · exact tame_newmark e o t dt _
  · exact .bind (.onCopy (tame_newmark e o _ _ _)) fun _ =>
      .bind (.modify (fun _ => rfl) fun _ => rfl) fun _ => .ret _
  · exact .bind (.onCopy (tame_newmark e o _ _ _)) fun _ =>
      .bind (.modify (fun _ => rfl) fun _ => rfl) fun _ => .ret _
  · exact .bind .get fun s => .bind (.onCopy (tame_newmark e o _ _ _)) fun _ =>
      .bind (.call _ _) fun _ => .bind (.call _ _) fun _ => .bind (.call _ _) fun _ =>
      .bind (.call _ _) fun _ => .bind (.linSolve _ _ _) fun _ => .bind (.setUVA _ _ _) fun _ => .ret _
  · exact .bind .get fun s => .bind (.onCopy (tame_newmark e o _ _ _)) fun _ =>
      .bind (.call _ _) fun _ => .bind (.call _ _) fun _ => .bind (.call _ _) fun _ =>
      .bind (.setUVA _ _ _) fun _ => tame_batheLoop e o t dt _ _ _ _ _ _ _ _ _ _ _

end

end GsSA.Dynamic
