import Verif.MPI.Exec

/-!
# Executions in which all jobs meet a condition

The results on the protocol are about work which is a function of the job. Here the work may depend on the state of
the solver of the worker, as long as it does not for the states and jobs which occur.
-/

namespace GsSA.MPI

open GsSA

variable {D A J R : Type*}

/-- The solver of a worker. -/
def Worker.solver : Worker A J R → A
  | .idle a => a
  | .busy a _ => a
  | .sending a _ => a
  | .stopped a => a

/-- An execution (`Run`) in which all jobs worked on meet a condition. -/
inductive RunIn (sv : Server D J R) (work : A → J → R × A) (P maxIt : ℕ) (G : J → Prop) :
    State D A J R → ℕ → State D A J R → Prop
  | nil (s : State D A J R) : RunIn sv work P maxIt G s 0 s
  | snoc {s₁ s₂ s₃ : State D A J R} {n : ℕ} {l : Label} :
      RunIn sv work P maxIt G s₁ n s₂ → Step sv work P maxIt s₂ l s₃ →
      (∀ w, l = .compute w → ∀ a j, s₂.workers w = .busy a j → G j) → RunIn sv work P maxIt G s₁ (n + 1) s₃

theorem RunIn.run {sv : Server D J R} {work : A → J → R × A} {P maxIt n : ℕ} {G : J → Prop} {s s' : State D A J R}
    (r : RunIn sv work P maxIt G s n s') : Run sv work P maxIt s n s' := by
  induction r with
  | nil => exact .nil _
  | snoc _ st _ ih => exact ih.snoc st

theorem solver_update {I : A → Prop} {f : ℕ → Worker A J R} (h : ∀ w, I (f w).solver) {v : ℕ} {x : Worker A J R}
    (hx : I x.solver) (w : ℕ) : I (Function.update f v x w).solver := by
  by_cases hw : w = v
  · rw [hw, Function.update_self]
    exact hx
  · rw [Function.update_of_ne hw]
    exact h w

/-- If the work keeps an invariant of the solvers, and agrees with other work while the invariant and the condition
on the jobs hold, then the execution is one of the other work. -/
theorem RunIn.replace {sv : Server D J R} {work work' : A → J → R × A} {P maxIt n : ℕ} {G : J → Prop}
    {I : A → Prop} (hI : ∀ a j, I a → G j → I (work a j).2) (he : ∀ a j, I a → G j → work' a j = work a j)
    {s s' : State D A J R} (r : RunIn sv work P maxIt G s n s') (h₀ : ∀ w, I (s.workers w).solver) :
    Run sv work' P maxIt s n s' ∧ ∀ w, I (s'.workers w).solver := by
  induction r with
  | nil => exact ⟨.nil _, h₀⟩
  | @snoc s₂ s₃ n l _ st hg ih =>
    obtain ⟨r, hi⟩ := ih
    cases st with
    | dispatch a b c d => exact ⟨r.snoc (.dispatch a b c d), hi⟩
    | dispatchFail a b c => exact ⟨r.snoc (.dispatchFail a b c), hi⟩
    | receive a b c d e f => exact ⟨r.snoc (.receive a b c d e f), hi⟩
    | receiveFail a b c d e f => exact ⟨r.snoc (.receiveFail a b c d e f), hi⟩
    | stop a b c => exact ⟨r.snoc (.stop a b c), hi⟩
    | sendStop a => exact ⟨r.snoc (.sendStop a), hi⟩
    | leave a => exact ⟨r.snoc (.leave a), hi⟩
    | @recvJob w a j q b c d =>
      refine ⟨r.snoc (.recvJob b c d), solver_update hi ?_⟩
      have := hi w
      rw [c] at this
      exact this
    | @recvStop w a q b c d =>
      refine ⟨r.snoc (.recvStop b c d), solver_update hi ?_⟩
      have := hi w
      rw [c] at this
      exact this
    | @compute w a j b c =>
      have ha := hi w
      rw [c] at ha
      have hj := hg w rfl a j c
      refine ⟨?_, solver_update hi (hI a j ha hj)⟩
      rw [← he a j ha hj]
      exact r.snoc (.compute b c)
    | @sendResult w a x b c =>
      refine ⟨r.snoc (.sendResult b c), solver_update hi ?_⟩
      have := hi w
      rw [c] at this
      exact this

/-- The job which a label works on. -/
def Label.job (s : State D A J R) : Label → Option J
  | .compute w => match s.workers w with
    | .busy _ j => some j
    | _ => none
  | _ => none

/-- A sequence of steps, all jobs of which meet a condition. -/
def fireIn (sv : Server D J R) (work : A → J → R × A) (P maxIt : ℕ) (G : J → Bool) :
    State D A J R → List Label → Option (State D A J R)
  | s, [] => some s
  | s, l :: ls =>
    if (l.job s).all G then
      match fire sv work P maxIt s l with
      | some s' => fireIn sv work P maxIt G s' ls
      | none => none
    else none

theorem RunIn.cons {sv : Server D J R} {work : A → J → R × A} {P maxIt n : ℕ} {G : J → Prop}
    {s₁ s₂ s₃ : State D A J R} {l : Label} (st : Step sv work P maxIt s₁ l s₂)
    (hg : ∀ w, l = .compute w → ∀ a j, s₁.workers w = .busy a j → G j) (r : RunIn sv work P maxIt G s₂ n s₃) :
    RunIn sv work P maxIt G s₁ (n + 1) s₃ := by
  induction r with
  | nil => exact (RunIn.nil _).snoc st hg
  | snoc _ st' hg' ih => exact ih.snoc st' hg'

theorem fireIn_run {sv : Server D J R} {work : A → J → R × A} {P maxIt : ℕ} {G : J → Bool} {s s' : State D A J R}
    {ls : List Label} (h : fireIn sv work P maxIt G s ls = some s') :
    RunIn sv work P maxIt (fun j => G j = true) s ls.length s' := by
  induction ls generalizing s with
  | nil => cases h; exact .nil _
  | cons l ls ih =>
    simp only [fireIn] at h
    split at h
    · rename_i hc
      split at h
      · rename_i s₁ h₁
        refine RunIn.cons (fire_step h₁) ?_ (ih h)
        rintro w rfl a j hw
        simpa [Label.job, hw] using hc
      · simp at h
    · simp at h

end GsSA.MPI
