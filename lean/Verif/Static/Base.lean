import Verif.ALM.Hoare

/-!
# Common parts of the static solvers

`src/gsStaticSolvers/gsStaticBase.h`. Actions (`Act`) and the recorded events are those of the
arc-length model: an action keeps the state at the moment of a `throw`, and the calls of user
callbacks and of the linear solver are recorded, newest first.
-/

namespace GsSA.Static

open GsSA GsSA.ALM

/-- The options read by `gsStaticBase::getOptions` (`gsStaticBase.h` 78-86) and
`gsStaticNewton::getOptions` (`gsStaticNewton.hpp` 27-39), as stored in `m_options`. A negative `maxIt`
(a loop until the counter overflows) is not modelled. -/
structure Opts (K : Type) where
  tol : K
  tolF : K
  tolU : K
  maxIt : ℕ
  relax : K

variable {K : Type} [Field K] [LinearOrder K]

/-- `gsStaticBase.h` 80. -/
def Opts.theTolF (o : Opts K) : K := if o.tolF ≠ -1 then o.tolF else o.tol

/-- `gsStaticBase.h` 81. -/
def Opts.theTolU (o : Opts K) : K := if o.tolU ≠ -1 then o.tolU else o.tol

/-- `a/b < c` for floating point numbers with `b ≥ 0`: with `b = 0` the quotient is NaN or infinite, and
only `-inf` is smaller than `c`. -/
def quotLt (a b c : K) : Bool := if b = 0 then decide (a < 0) else decide (a / b < c)

/-- `if (x==0) x=1;`, `gsStaticNewton.hpp` 288, 299, 305. -/
def nz (x : K) : K := if x = 0 then 1 else x

/-- The handlers of `gsStaticNewton.hpp` 81-96, 121-136. -/
def statusOf : Err → Status
  | .notConverged => .notConverged
  | .assembly => .assemblyError
  | .solver => .solverError
  | .other => .otherError
  | .ub => .otherError

/-! ## Actions whose failures are recorded -/

section

variable {σ α β : Type}

/-- The recorded events of `m`: those which raise an error occur at most once, as the last thing `m`
does, and `m` then ends with the error of this event. -/
def Exact (lg : σ → List Event) (m : Act σ α) : Prop :=
  ∀ s, ∃ l, lg (m s).1 = l ++ lg s ∧
    match (m s).2 with
    | .ok _ => ∀ x ∈ l, x.err = none
    | .error e => ∃ x l', l = x :: l' ∧ x.err = some e ∧ ∀ y ∈ l', y.err = none

/-- `m` does not change what `f` shows, whether it returns or throws. -/
def Keeps {γ : Type} (f : σ → γ) (m : Act σ α) : Prop := ∀ s, f (m s).1 = f s

variable {lg : σ → List Event}

theorem Exact.ret (a : α) : Exact lg (pure a) := fun s => ⟨[], by simp⟩

theorem Exact.get : Exact lg (Act.get : Act σ σ) := fun s => ⟨[], by simp⟩

theorem Exact.modify {f : σ → σ} (h : ∀ s, lg (f s) = lg s) : Exact lg (Act.modify f) :=
  fun s => ⟨[], by simp [h]⟩

theorem Exact.bind {m : Act σ α} {f : α → Act σ β} (hm : Exact lg m) (hf : ∀ a, Exact lg (f a)) :
    Exact lg (m >>= f) := by
  intro s
  obtain ⟨l, h1, h2⟩ := hm s
  rw [Act.bind_apply]
  rcases h : m s with ⟨t, r⟩
  rw [h] at h1 h2
  cases r with
  | error err => exact ⟨l, h1, h2⟩
  | ok a =>
    obtain ⟨l', h3, h4⟩ := hf a t
    rcases h' : f a t with ⟨u, r⟩
    rw [h'] at h3 h4
    refine ⟨l' ++ l, ?_, ?_⟩
    · simp only [h'] at h1 h3 ⊢
      rw [h3, h1, List.append_assoc]
    · simp only [h']
      cases r with
      | ok b =>
        intro x hx
        rcases List.mem_append.1 hx with hx | hx
        · exact h4 x hx
        · exact h2 x hx
      | error err =>
        obtain ⟨x, l₁, rfl, h5, h6⟩ := h4
        refine ⟨x, l₁ ++ l, rfl, h5, fun y hy => ?_⟩
        rcases List.mem_append.1 hy with hy | hy
        · exact h6 y hy
        · exact h2 y hy

theorem Exact.ite {c : Prop} [Decidable c] {m₁ m₂ : Act σ α} (h₁ : Exact lg m₁) (h₂ : Exact lg m₂) :
    Exact lg (if c then m₁ else m₂) := by
  split
  · exact h₁
  · exact h₂

/-- With an error, what was recorded tells which. -/
theorem Exact.error {m : Act σ α} (hm : Exact lg m) {s t : σ} {e : Err}
    (h : m s = (t, .error e)) : ∃ x l, lg t = x :: (l ++ lg s) ∧ x.err = some e ∧
      ∀ y ∈ l, y.err = none := by
  obtain ⟨l, h1, h2⟩ := hm s
  rw [h] at h1 h2
  obtain ⟨x, l', rfl, h3, h4⟩ := h2
  exact ⟨x, l', h1, h3, h4⟩

/-- Without an error no recorded event is a failure. -/
theorem Exact.ok {m : Act σ α} (hm : Exact lg m) {s t : σ} {a : α}
    (h : m s = (t, .ok a)) : ∃ l, lg t = l ++ lg s ∧ ∀ y ∈ l, y.err = none := by
  obtain ⟨l, h1, h2⟩ := hm s
  rw [h] at h1 h2
  exact ⟨l, h1, h2⟩

variable {γ : Type} {f : σ → γ}

theorem Keeps.ret (a : α) : Keeps f (pure a : Act σ α) := fun _ => rfl

theorem Keeps.get : Keeps f (Act.get : Act σ σ) := fun _ => rfl

theorem Keeps.throw (e : Err) : Keeps f (Act.throw e : Act σ α) := fun _ => rfl

theorem Keeps.modify {g : σ → σ} (h : ∀ s, f (g s) = f s) : Keeps f (Act.modify g) := h

theorem Keeps.bind {m : Act σ α} {k : α → Act σ β} (hm : Keeps f m) (hk : ∀ a, Keeps f (k a)) :
    Keeps f (m >>= k) := by
  intro s
  rw [Act.bind_apply]
  rcases h : m s with ⟨t, r⟩
  have h1 : f t = f s := by simpa [h] using hm s
  cases r with
  | error err => exact h1
  | ok a => exact (hk a t).trans h1

theorem Keeps.ite {c : Prop} [Decidable c] {m₁ m₂ : Act σ α} (h₁ : Keeps f m₁) (h₂ : Keeps f m₂) :
    Keeps f (if c then m₁ else m₂) := by
  split
  · exact h₁
  · exact h₂

theorem Keeps.run {m : Act σ α} (hm : Keeps f m) {s t : σ} {r : Except Err α} (h : m s = (t, r)) :
    f t = f s := by simpa [h] using hm s

/-- `m` preserves `I`, whether it returns or throws. -/
def Pres (I : σ → Prop) (m : Act σ α) : Prop := ∀ s, I s → I (m s).1

section

variable {I : σ → Prop}

theorem Pres.ret (a : α) : Pres I (pure a : Act σ α) := fun _ h => h

theorem Pres.get : Pres I (Act.get : Act σ σ) := fun _ h => h

theorem Pres.throw (e : Err) : Pres I (Act.throw e : Act σ α) := fun _ h => h

theorem Pres.modify {g : σ → σ} (h : ∀ s, I s → I (g s)) : Pres I (Act.modify g) := h

theorem Pres.bind {m : Act σ α} {k : α → Act σ β} (hm : Pres I m) (hk : ∀ a, Pres I (k a)) :
    Pres I (m >>= k) := by
  intro s hs
  rw [Act.bind_apply]
  rcases h : m s with ⟨t, r⟩
  have h1 : I t := by simpa [h] using hm s hs
  cases r with
  | error err => exact h1
  | ok a => exact hk a t h1

theorem Pres.ite {c : Prop} [Decidable c] {m₁ m₂ : Act σ α} (h₁ : Pres I m₁) (h₂ : Pres I m₂) :
    Pres I (if c then m₁ else m₂) := by
  split
  · exact h₁
  · exact h₂

end

/-- The only errors of `m` are those in `P`. -/
def Errs (P : Err → Prop) (m : Act σ α) : Prop := ∀ s x, (m s).2 = .error x → P x

variable {P : Err → Prop}

theorem Errs.ret (a : α) : Errs P (pure a : Act σ α) := fun _ _ h => by simp at h

theorem Errs.get : Errs P (Act.get : Act σ σ) := fun _ _ h => by simp at h

theorem Errs.modify (g : σ → σ) : Errs P (Act.modify g) := fun _ _ h => by simp at h

theorem Errs.throw {e : Err} (h : P e) : Errs P (Act.throw e : Act σ α) := by
  intro s x hx
  simp only [Act.throw_apply, Except.error.injEq] at hx
  exact hx ▸ h

theorem Errs.bind {m : Act σ α} {k : α → Act σ β} (hm : Errs P m) (hk : ∀ a, Errs P (k a)) :
    Errs P (m >>= k) := by
  intro s x hx
  rcases h : (m >>= k) s with ⟨u, r⟩
  rw [h] at hx
  simp only at hx
  subst hx
  rcases Act.bind_cases h with ⟨t, a, -, h2⟩ | ⟨y, h1, h2⟩
  · exact hk a t x (by rw [h2])
  · simp only [Except.error.injEq] at h2
    exact h2 ▸ hm s y (by rw [h1])

theorem Errs.ite {c : Prop} [Decidable c] {m₁ m₂ : Act σ α} (h₁ : Errs P m₁) (h₂ : Errs P m₂) :
    Errs P (if c then m₁ else m₂) := by
  split
  · exact h₁
  · exact h₂

theorem Errs.mono {Q : Err → Prop} {m : Act σ α} (hm : Errs P m) (h : ∀ x, P x → Q x) : Errs Q m :=
  fun s x hx => h x (hm s x hx)

theorem Errs.run {m : Act σ α} (hm : Errs P m) {s t : σ} {x : Err} (h : m s = (t, .error x)) : P x :=
  hm s x (by rw [h])

end

end GsSA.Static
