import Verif.MPI.Invariant

/-!
# Executable form of the protocol

The step for a given label is unique; it is computed by `fire`. This is used for concrete executions.
-/

namespace GsSA.MPI

open GsSA

variable {D A J R : Type*}

instance (sv : Server D J R) (maxIt : ℕ) (s : State D A J R) : Decidable (mayDispatch sv maxIt s) := by
  unfold mayDispatch; infer_instance

/-- Is the main process in its loops? -/
def Phase.isRunning : Phase → Bool
  | .running => true
  | _ => false

theorem Phase.isRunning_iff (p : Phase) : p.isRunning = true ↔ p = .running := by
  cases p <;> simp [Phase.isRunning]

/-- The main process hands out a job. -/
def fireDispatch (sv : Server D J R) (maxIt : ℕ) (s : State D A J R) (w : ℕ) :
    Option (State D A J R) :=
  if s.phase.isRunning = true ∧ mayDispatch sv maxIt s then
    match s.pool, sv.pop s.data with
    | v :: ws, .ok (j, d) =>
      if v = w then
        some { s with
          data := d
          pool := ws
          it := s.it + 1
          njobs := s.njobs + 1
          toW := Function.update s.toW w (s.toW w ++ [some j]) }
      else none
    | _, _ => none
  else none

/-- The main process receives a result. -/
def fireReceive (sv : Server D J R) (P maxIt : ℕ) (s : State D A J R) (w : ℕ) :
    Option (State D A J R) :=
  if s.phase.isRunning = true ∧ ¬ mayDispatch sv maxIt s ∧ 0 < s.njobs ∧ w ∈ ranks P then
    match s.fromW w with
    | r :: rs =>
      match sv.submit s.data r with
      | .ok d =>
        some { s with
          data := d
          pool := s.pool ++ [w]
          njobs := s.njobs - 1
          fromW := Function.update s.fromW w rs }
      | .error _ => none
    | [] => none
  else none

/-- Steps of a worker. -/
def fireWorker (work : A → J → R × A) (P : ℕ) (s : State D A J R) (w : ℕ) : Label →
    Option (State D A J R)
  | .recvJob _ =>
    if w ∈ ranks P then
      match s.workers w, s.toW w with
      | .idle a, some j :: q =>
        some { s with
          workers := Function.update s.workers w (.busy a j)
          toW := Function.update s.toW w q }
      | _, _ => none
    else none
  | .recvStop _ =>
    if w ∈ ranks P then
      match s.workers w, s.toW w with
      | .idle a, none :: q =>
        some { s with
          workers := Function.update s.workers w (.stopped a)
          toW := Function.update s.toW w q }
      | _, _ => none
    else none
  | .compute _ =>
    if w ∈ ranks P then
      match s.workers w with
      | .busy a j =>
        some { s with workers := Function.update s.workers w (.sending (work a j).2 (work a j).1) }
      | _ => none
    else none
  | .sendResult _ =>
    if w ∈ ranks P then
      match s.workers w with
      | .sending a r =>
        some { s with
          workers := Function.update s.workers w (.idle a)
          fromW := Function.update s.fromW w (s.fromW w ++ [r]) }
      | _ => none
    else none
  | _ => none

/-- The step with a given label, if it is possible (failures of the main process excepted). -/
def fire (sv : Server D J R) (work : A → J → R × A) (P maxIt : ℕ) (s : State D A J R) (l : Label) :
    Option (State D A J R) :=
  match l with
  | .dispatch w => fireDispatch sv maxIt s w
  | .receive w => fireReceive sv P maxIt s w
  | .stop =>
    if s.phase.isRunning = true ∧ ¬ mayDispatch sv maxIt s ∧ s.njobs = 0 then
      some { s with phase := .stopping (ranks P) }
    else none
  | .sendStop w =>
    match s.phase with
    | .stopping (v :: l) =>
      if v = w then
        some { s with
          phase := .stopping l
          toW := Function.update s.toW w (s.toW w ++ [none]) }
      else none
    | _ => none
  | .leave =>
    match s.phase with
    | .stopping [] => some { s with phase := .finished }
    | _ => none
  | .recvJob w => fireWorker work P s w (.recvJob w)
  | .recvStop w => fireWorker work P s w (.recvStop w)
  | .compute w => fireWorker work P s w (.compute w)
  | .sendResult w => fireWorker work P s w (.sendResult w)
  | .dispatchFail => none
  | .receiveFail _ => none

/-- A sequence of steps. -/
def fireAll (sv : Server D J R) (work : A → J → R × A) (P maxIt : ℕ) :
    State D A J R → List Label → Option (State D A J R)
  | s, [] => some s
  | s, l :: ls =>
    match fire sv work P maxIt s l with
    | some s' => fireAll sv work P maxIt s' ls
    | none => none

theorem fire_step {sv : Server D J R} {work : A → J → R × A} {P maxIt : ℕ} {s s' : State D A J R}
    {l : Label} (h : fire sv work P maxIt s l = some s') : Step sv work P maxIt s l s' := by
  cases l with
  | dispatch w =>
    simp only [fire, fireDispatch] at h
    split at h
    · rename_i hc
      split at h
      · rename_i v ws j d hp hd
        split at h
        · rename_i hv
          subst hv
          cases h
          exact Step.dispatch ((Phase.isRunning_iff _).1 hc.1) hc.2 hp hd
        · simp at h
      · simp at h
    · simp at h
  | dispatchFail => simp [fire] at h
  | receive w =>
    simp only [fire, fireReceive] at h
    split at h
    · rename_i hc
      split at h
      · rename_i r rs hf
        split at h
        · rename_i d hd
          cases h
          exact Step.receive ((Phase.isRunning_iff _).1 hc.1) hc.2.1 hc.2.2.1 hc.2.2.2 hf hd
        · simp at h
      · simp at h
    · simp at h
  | receiveFail w => simp [fire] at h
  | stop =>
    simp only [fire] at h
    split at h
    · rename_i hc
      cases h
      exact Step.stop ((Phase.isRunning_iff _).1 hc.1) hc.2.1 hc.2.2
    · simp at h
  | sendStop w =>
    simp only [fire] at h
    split at h
    · rename_i v l hph
      split at h
      · rename_i hv
        subst hv
        cases h
        exact Step.sendStop hph
      · simp at h
    · simp at h
  | leave =>
    simp only [fire] at h
    split at h
    · rename_i hph
      cases h
      exact Step.leave hph
    · simp at h
  | recvJob w =>
    simp only [fire, fireWorker] at h
    split at h
    · rename_i hw
      split at h
      · rename_i a j q ha hq
        cases h
        exact Step.recvJob hw ha hq
      · simp at h
    · simp at h
  | recvStop w =>
    simp only [fire, fireWorker] at h
    split at h
    · rename_i hw
      split at h
      · rename_i a q ha hq
        cases h
        exact Step.recvStop hw ha hq
      · simp at h
    · simp at h
  | compute w =>
    simp only [fire, fireWorker] at h
    split at h
    · rename_i hw
      split at h
      · rename_i a j ha
        cases h
        exact Step.compute hw ha
      · simp at h
    · simp at h
  | sendResult w =>
    simp only [fire, fireWorker] at h
    split at h
    · rename_i hw
      split at h
      · rename_i a r ha
        cases h
        exact Step.sendResult hw ha
      · simp at h
    · simp at h

theorem Run.cons {sv : Server D J R} {work : A → J → R × A} {P maxIt n : ℕ} {s₁ s₂ s₃ : State D A J R}
    {l : Label} (st : Step sv work P maxIt s₁ l s₂) (r : Run sv work P maxIt s₂ n s₃) :
    Run sv work P maxIt s₁ (n + 1) s₃ := by
  induction r with
  | nil => exact (Run.nil _).snoc st
  | snoc _ st' ih => exact ih.snoc st'

theorem fireAll_run {sv : Server D J R} {work : A → J → R × A} {P maxIt : ℕ} {s s' : State D A J R}
    {ls : List Label} (h : fireAll sv work P maxIt s ls = some s') :
    Run sv work P maxIt s ls.length s' := by
  induction ls generalizing s with
  | nil => cases h; exact Run.nil _
  | cons l ls ih =>
    simp only [fireAll] at h
    split at h
    · rename_i s₁ h₁
      exact Run.cons (fire_step h₁) (ih h)
    · simp at h

end GsSA.MPI
