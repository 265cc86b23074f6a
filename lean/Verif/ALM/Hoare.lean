import Verif.ALM.Methods

/-!
# Reasoning about actions
-/

namespace GsSA.ALM

open GsSA

set_option linter.unusedSectionVars false

namespace Act

variable {σ α β : Type}

@[simp] theorem pure_apply (a : α) (s : σ) : (pure a : Act σ α) s = (s, .ok a) := rfl

@[simp] theorem get_apply (s : σ) : (Act.get : Act σ σ) s = (s, .ok s) := rfl

@[simp] theorem modify_apply (f : σ → σ) (s : σ) : Act.modify f s = (f s, .ok ()) := rfl

@[simp] theorem throw_apply (x : Err) (s : σ) : (Act.throw x : Act σ α) s = (s, .error x) := rfl

theorem bind_apply (m : Act σ α) (f : α → Act σ β) (s : σ) :
    (m >>= f) s = match m s with
      | (t, .ok a) => f a t
      | (t, .error x) => (t, .error x) := rfl

theorem bind_ok {m : Act σ α} {f : α → Act σ β} {s t : σ} {a : α} (h : m s = (t, .ok a)) :
    (m >>= f) s = f a t := by simp [bind_apply, h]

theorem bind_error {m : Act σ α} {f : α → Act σ β} {s t : σ} {x : Err}
    (h : m s = (t, .error x)) : (m >>= f) s = (t, .error x) := by simp [bind_apply, h]

/-- Invert a sequential composition. -/
theorem bind_cases {m : Act σ α} {f : α → Act σ β} {s u : σ} {r : Except Err β}
    (h : (m >>= f) s = (u, r)) :
    (∃ t a, m s = (t, .ok a) ∧ f a t = (u, r)) ∨ (∃ x, m s = (u, .error x) ∧ r = .error x) := by
  rw [bind_apply] at h
  rcases hm : m s with ⟨t, r'⟩
  rw [hm] at h
  cases r' with
  | ok a => exact Or.inl ⟨t, a, rfl, h⟩
  | error x =>
    simp only [Prod.mk.injEq] at h
    exact Or.inr ⟨x, by rw [h.1], h.2.symm⟩

/-- Invert a sequential composition that returned. -/
theorem bind_ok_inv {m : Act σ α} {f : α → Act σ β} {s u : σ} {b : β}
    (h : (m >>= f) s = (u, .ok b)) : ∃ t a, m s = (t, .ok a) ∧ f a t = (u, .ok b) := by
  rcases bind_cases h with h | ⟨x, -, h⟩
  · exact h
  · simp at h

end Act

variable {K V Mat Fac : Type} [Field K] [LinearOrder K] [AddCommGroup V] [Module K V]

/-- The members which only the frame of the step (not the methods) may change. -/
structure Core (K V : Type) where
  U : V
  L : K
  len : K
  lenPrev : K
  lenOri : K
  adaptive : Bool
  numIt : ℕ
  converged : Bool
  stability : ℤ
  stabilityPrev : ℤ
  status : Status
  initialized : Bool
  Lguess : K
  basisF : K
  basisU : K
  indicator : K

/-- The `Core` of a state. -/
def core (s : St K V Mat Fac) : Core K V :=
  { U := s.U, L := s.L, len := s.len, lenPrev := s.lenPrev, lenOri := s.lenOri
    adaptive := s.adaptive, numIt := s.numIt, converged := s.converged, stability := s.stability
    stabilityPrev := s.stabilityPrev, status := s.status, initialized := s.initialized
    Lguess := s.Lguess, basisF := s.basisF, basisU := s.basisU
    indicator := s.indicator }

/-- The events which are `bad` are recorded at most once, as the last thing an action does, and the
action then ends with the error that belongs to the event. -/
def Grows (bad : Event → Prop) {α : Type} (m : Act (St K V Mat Fac) α) : Prop :=
  ∀ s, ∃ l, (m s).1.log = l ++ s.log ∧
    match (m s).2 with
    | .ok _ => ∀ x ∈ l, ¬bad x
    | .error .ub => ∀ x ∈ l, ¬bad x
    | .error err => ∃ x l', l = x :: l' ∧ x.err = some err ∧ ∀ y ∈ l', ¬bad y

/-- An action that leaves the core alone and whose failures are all recorded. -/
structure Safe {α : Type} (m : Act (St K V Mat Fac) α) : Prop where
  core : ∀ s, core (m s).1 = core s
  grows : Grows (fun x => x.err ≠ none) m
  errs : ∀ s x, (m s).2 = .error x → x = .assembly ∨ x = .solver

section

variable {α β : Type} {bad : Event → Prop}

theorem Grows.mono {bad' : Event → Prop} (h : ∀ x, bad' x → bad x) {m : Act (St K V Mat Fac) α}
    (hm : Grows bad m) : Grows bad' m := by
  intro s
  obtain ⟨l, h1, h2⟩ := hm s
  refine ⟨l, h1, ?_⟩
  split at h2
  · exact fun x hx hb => h2 x hx (h x hb)
  · exact fun x hx hb => h2 x hx (h x hb)
  · obtain ⟨x, l', h3, h4, h5⟩ := h2
    exact ⟨x, l', h3, h4, fun y hy hb => h5 y hy (h y hb)⟩

theorem Grows.ret (a : α) : Grows bad (pure a : Act (St K V Mat Fac) α) :=
  fun s => ⟨[], by simp⟩

theorem Grows.get : Grows bad (Act.get : Act (St K V Mat Fac) _) := fun s => ⟨[], by simp⟩

theorem Grows.modify {f : St K V Mat Fac → St K V Mat Fac} (h : ∀ s, (f s).log = s.log) :
    Grows bad (Act.modify f) := fun s => ⟨[], by simp [h]⟩

theorem Grows.emit {x : Event} (h : ¬bad x) : Grows bad (ALM.emit x : Act (St K V Mat Fac) Unit) :=
  fun s => ⟨[x], by simp [ALM.emit, h]⟩

theorem Grows.ub : Grows bad (Act.throw .ub : Act (St K V Mat Fac) α) := fun s => ⟨[], by simp⟩

theorem Grows.bind {m : Act (St K V Mat Fac) α} {f : α → Act (St K V Mat Fac) β}
    (hm : Grows bad m) (hf : ∀ a, Grows bad (f a)) : Grows bad (m >>= f) := by
  intro s
  obtain ⟨l, h1, h2⟩ := hm s
  rw [Act.bind_apply]
  rcases h : m s with ⟨t, r⟩
  rw [h] at h1 h2
  cases r with
  | error err =>
    exact ⟨l, h1, by cases err <;> simpa using h2⟩
  | ok a =>
    simp only at h2 ⊢
    obtain ⟨l', h3, h4⟩ := hf a t
    refine ⟨l' ++ l, by rw [h3, h1]; simp, ?_⟩
    split at h4
    · next hr =>
      intro x hx
      rcases List.mem_append.1 hx with hx | hx
      · exact h4 x hx
      · exact h2 x hx
    · next hr =>
      intro x hx
      rcases List.mem_append.1 hx with hx | hx
      · exact h4 x hx
      · exact h2 x hx
    · next hr =>
      obtain ⟨x, l'', rfl, h6, h7⟩ := h4
      refine ⟨x, l'' ++ l, by simp, h6, ?_⟩
      intro y hy
      rcases List.mem_append.1 hy with hy | hy
      · exact h7 y hy
      · exact h2 y hy

theorem Grows.ite {c : Prop} [Decidable c] {m m' : Act (St K V Mat Fac) α} (h : Grows bad m)
    (h' : Grows bad m') : Grows bad (if c then m else m') := by
  split <;> assumption

theorem Safe.ret (a : α) : Safe (pure a : Act (St K V Mat Fac) α) :=
  ⟨fun _ => rfl, Grows.ret a, by simp⟩

theorem Safe.get : Safe (Act.get : Act (St K V Mat Fac) _) := ⟨fun _ => rfl, Grows.get, by simp⟩

theorem Safe.modify {f : St K V Mat Fac → St K V Mat Fac} (h : ∀ s, ALM.core (f s) = ALM.core s)
    (h' : ∀ s, (f s).log = s.log) : Safe (Act.modify f) :=
  ⟨fun s => by simp [h], Grows.modify h', by simp⟩

theorem Safe.emit {x : Event} (h : x.err = none) : Safe (ALM.emit x : Act (St K V Mat Fac) Unit) :=
  ⟨fun _ => rfl, Grows.emit (by simp [h]), by simp [ALM.emit]⟩

/-- Record a failure and throw. -/
theorem Safe.fail {x : Event} {err : Err} (h : x.err = some err)
    (h' : err = .assembly ∨ err = .solver) :
    Safe (ALM.emit x >>= fun _ => (Act.throw err : Act (St K V Mat Fac) α)) := by
  refine ⟨fun _ => rfl, fun s => ⟨[x], ?_⟩, ?_⟩
  · simp only [Act.bind_apply, ALM.emit, Act.modify_apply, Act.throw_apply, List.cons_append,
      List.nil_append, true_and]
    rcases h' with rfl | rfl <;> simp_all
  · intro s y
    simp only [Act.bind_apply, ALM.emit, Act.modify_apply, Act.throw_apply]
    rintro h2
    cases h2
    exact h'

theorem Safe.bind {m : Act (St K V Mat Fac) α} {f : α → Act (St K V Mat Fac) β}
    (hm : Safe m) (hf : ∀ a, Safe (f a)) : Safe (m >>= f) := by
  refine ⟨fun s => ?_, hm.grows.bind fun a => (hf a).grows, fun s => ?_⟩
  · have := hm.core s
    rw [Act.bind_apply]
    rcases h : m s with ⟨t, r⟩
    rw [h] at this
    cases r with
    | error err => exact this
    | ok a => exact ((hf a).core t).trans this
  · have := hm.errs s
    rw [Act.bind_apply]
    rcases h : m s with ⟨t, r⟩
    rw [h] at this
    cases r with
    | error err => simpa using this
    | ok a => exact (hf a).errs t

theorem Safe.noUB {m : Act (St K V Mat Fac) α} (h : Safe m) {s t : St K V Mat Fac} {x : Err}
    (hr : m s = (t, .error x)) : x ≠ .ub ∧ x ≠ .notConverged ∧ x ≠ .other := by
  rcases h.errs s x (by rw [hr]) with rfl | rfl <;> simp

theorem Safe.ite {c : Prop} [Decidable c] {m m' : Act (St K V Mat Fac) α} (h : Safe m)
    (h' : Safe m') : Safe (if c then m else m') := by
  split <;> assumption

theorem Safe.iteBool {c : Bool} {m : Act (St K V Mat Fac) Unit} (h : Safe m) :
    Safe (if c then m else pure ()) := Safe.ite h (Safe.ret _)

end

/-- Closes the goal if a safety lemma for the action is known; extended below. -/
syntax "safe_step" : tactic

macro_rules | `(tactic| safe_step) => `(tactic| exact Safe.ret _)
macro_rules | `(tactic| safe_step) => `(tactic| exact Safe.get)
macro_rules | `(tactic| safe_step) => `(tactic| exact Safe.emit (by with_unfolding_all rfl))
macro_rules | `(tactic| safe_step) => `(tactic| exact Safe.fail (by with_unfolding_all rfl) (by simp))

/-- Prove safety along the structure of an action. -/
macro "safe" : tactic => `(tactic| (
  repeat' first
    | with_reducible safe_step
    | with_reducible refine Safe.bind ?_ (fun _ => ?_)
    | refine Safe.modify (fun _ => rfl) (fun _ => rfl)
    | refine Safe.modify (fun s => by (try dsimp only); split <;> rfl) (fun s => by (try dsimp only); split <;> rfl)
    | refine Safe.ite ?_ ?_
    | split))

/-! ## Handlers -/

theorem caught_ok {m : Act (St K V Mat Fac) Unit} {f : St K V Mat Fac → St K V Mat Fac}
    {s t : St K V Mat Fac} (h : m s = (t, .ok ())) : caught m f s = (f t, .ok (f t).status) := by
  simp [caught, h]

theorem caught_error {m : Act (St K V Mat Fac) Unit} {f : St K V Mat Fac → St K V Mat Fac}
    {s t : St K V Mat Fac} {x : Err} (h : m s = (t, .error x)) (hx : x ≠ .ub) :
    caught m f s = ({ t with status := statusOf x }, .ok (statusOf x)) := by
  cases x <;> simp_all [caught]

theorem caught_inv {m : Act (St K V Mat Fac) Unit} {f : St K V Mat Fac → St K V Mat Fac}
    {s t : St K V Mat Fac} {st : Status} (h : caught m f s = (t, .ok st)) :
    (∃ u, m s = (u, .ok ()) ∧ t = f u ∧ st = (f u).status) ∨
    (∃ u x, m s = (u, .error x) ∧ x ≠ .ub ∧ t = { u with status := statusOf x } ∧
      st = statusOf x) := by
  rcases hm : m s with ⟨u, r⟩
  cases r with
  | ok _ =>
    rw [caught_ok hm] at h
    simp only [Prod.mk.injEq, Except.ok.injEq] at h
    exact Or.inl ⟨u, rfl, h.1.symm, h.2.symm⟩
  | error x =>
    by_cases hx : x = .ub
    · subst hx
      simp [caught, hm] at h
    · rw [caught_error hm hx] at h
      simp only [Prod.mk.injEq, Except.ok.injEq] at h
      exact Or.inr ⟨u, x, rfl, hx, h.1.symm, h.2.symm⟩

/-! ## The shared computations -/

variable (e : Env K V Mat Fac) (o : Opts K)

theorem safe_evalResidual (U : V) (L : K) : Safe (evalResidual e U L) := by
  unfold evalResidual; safe

macro_rules | `(tactic| safe_step) => `(tactic| exact safe_evalResidual ..)

theorem safe_computeResidual : Safe (computeResidual e) := by
  unfold computeResidual; safe

macro_rules | `(tactic| safe_step) => `(tactic| exact safe_computeResidual ..)

theorem safe_factorizeMatrix (m : Mat) : Safe (factorizeMatrix e m) := by
  unfold factorizeMatrix; safe

macro_rules | `(tactic| safe_step) => `(tactic| exact safe_factorizeMatrix ..)

theorem safe_solveSystem (b : V) : Safe (solveSystem e b) := by
  unfold solveSystem; safe

macro_rules | `(tactic| safe_step) => `(tactic| exact safe_solveSystem ..)

theorem safe_computeJacobianAt (U dU : V) : Safe (computeJacobianAt e U dU) := by
  unfold computeJacobianAt; safe

macro_rules | `(tactic| safe_step) => `(tactic| exact safe_computeJacobianAt ..)

theorem safe_assembleFactorize : Safe (assembleFactorize e) := by
  unfold assembleFactorize; safe

macro_rules | `(tactic| safe_step) => `(tactic| exact safe_assembleFactorize ..)

theorem safe_computeUbar : Safe (computeUbar e) := by
  unfold computeUbar; safe

macro_rules | `(tactic| safe_step) => `(tactic| exact safe_computeUbar ..)

theorem safe_computeUt : Safe (computeUt e) := by
  unfold computeUt; safe

macro_rules | `(tactic| safe_step) => `(tactic| exact safe_computeUt ..)

/-! ## The methods -/

/-- What the frame of the step needs to know about a method: only `iterationFinish` changes the
core, it accepts the increments and does not fail. -/
structure Method.Lawful (M : Method K V Mat Fac) : Prop where
  initiateStep : Safe M.initiateStep
  predictor : Safe M.predictor
  predictorGuess : Safe M.predictorGuess
  quasiPredictor : Safe M.quasiPredictor
  quasiIteration : Safe M.quasiIteration
  iteration : Safe M.iteration
  finish : ∀ s, ∃ DUold DLold, M.iterationFinish s =
    ({ s with
        converged := true, Uprev := s.U, Lprev := s.L, U := s.U + s.DU, L := s.L + s.DL
        DUold := DUold, DLold := DLold }, .ok ())

theorem safe_zeroIncrements : Safe (zeroIncrements : Act (St K V Mat Fac) Unit) := by
  unfold zeroIncrements; safe

macro_rules | `(tactic| safe_step) => `(tactic| exact safe_zeroIncrements ..)

theorem safe_quasiIterationUt : Safe (quasiIterationUt e) := by
  unfold quasiIterationUt; safe

macro_rules | `(tactic| safe_step) => `(tactic| exact safe_quasiIterationUt ..)

theorem safe_quasiPredictorUt : Safe (quasiPredictorUt e) := by
  unfold quasiPredictorUt; safe

macro_rules | `(tactic| safe_step) => `(tactic| exact safe_quasiPredictorUt ..)

theorem safe_lcPredict (dl : St K V Mat Fac → K) : Safe (lcPredict e dl) := by
  unfold lcPredict; safe

macro_rules | `(tactic| safe_step) => `(tactic| exact safe_lcPredict ..)

theorem safe_lcIteration : Safe (lcIteration e) := by
  unfold lcIteration; safe

macro_rules | `(tactic| safe_step) => `(tactic| exact safe_lcIteration ..)

theorem lawful_loadControl : (loadControl e).Lawful where
  initiateStep := safe_zeroIncrements
  predictor := safe_lcPredict e _
  predictorGuess := safe_lcPredict e _
  quasiPredictor := by unfold loadControl; safe
  quasiIteration := safe_assembleFactorize e
  iteration := safe_lcIteration e
  finish := fun s => ⟨s.DUold, s.DLold, rfl⟩

theorem safe_lambdaDOT (eta x1 x2 : K) : Safe (lambdaDOT e eta x1 x2) := by
  unfold lambdaDOT; safe

macro_rules | `(tactic| safe_step) => `(tactic| exact safe_lambdaDOT ..)

theorem safe_lambdasComplex : Safe (lambdasComplex e) := by
  unfold lambdasComplex; safe

macro_rules | `(tactic| safe_step) => `(tactic| exact safe_lambdasComplex ..)

theorem safe_computeLambdas : Safe (computeLambdas e) := by
  unfold computeLambdas; safe

macro_rules | `(tactic| safe_step) => `(tactic| exact safe_computeLambdas ..)

theorem safe_crIteration : Safe (crIteration e o) := by
  unfold crIteration; safe

macro_rules | `(tactic| safe_step) => `(tactic| exact safe_crIteration ..)

theorem safe_lambdaMU : Safe (lambdaMU e) := by
  unfold lambdaMU; safe

macro_rules | `(tactic| safe_step) => `(tactic| exact safe_lambdaMU ..)

theorem safe_firstPredictor : Safe (firstPredictor e o) := by
  unfold firstPredictor; safe

macro_rules | `(tactic| safe_step) => `(tactic| exact safe_firstPredictor ..)

theorem safe_laterPredictor : Safe (laterPredictor e o) := by
  unfold laterPredictor; safe

macro_rules | `(tactic| safe_step) => `(tactic| exact safe_laterPredictor ..)

theorem safe_crPredictor : Safe (crPredictor e o) := by
  unfold crPredictor; safe

macro_rules | `(tactic| safe_step) => `(tactic| exact safe_crPredictor ..)

theorem safe_crPredictorGuess : Safe (crPredictorGuess e o) := by
  unfold crPredictorGuess; safe

macro_rules | `(tactic| safe_step) => `(tactic| exact safe_crPredictorGuess ..)

theorem lawful_crisfield : (crisfield e o).Lawful where
  initiateStep := by unfold crisfield; safe
  predictor := safe_crPredictor e o
  predictorGuess := safe_crPredictorGuess e o
  quasiPredictor := safe_quasiPredictorUt e
  quasiIteration := safe_quasiIterationUt e
  iteration := safe_crIteration e o
  finish := by
    intro s
    simp only [crisfield, acceptStep, Act.bind_apply, Act.modify_apply]
    split
    · exact ⟨s.DU, s.DL, rfl⟩
    · exact ⟨s.DUold, s.DLold, rfl⟩

theorem safe_unitTangent : Safe (unitTangent e) := by
  unfold unitTangent; safe

macro_rules | `(tactic| safe_step) => `(tactic| exact safe_unitTangent ..)

theorem safe_secant (U U' : V) (L L' : K) : Safe (secant U U' L L' : Act (St K V Mat Fac) Unit) := by
  unfold secant; safe

macro_rules | `(tactic| safe_step) => `(tactic| exact safe_secant ..)

theorem safe_scaleByLength : Safe (scaleByLength : Act (St K V Mat Fac) Unit) := by
  unfold scaleByLength; safe

macro_rules | `(tactic| safe_step) => `(tactic| exact safe_scaleByLength ..)

theorem safe_rkPredictor : Safe (rkPredictor e) := by
  unfold rkPredictor; safe

macro_rules | `(tactic| safe_step) => `(tactic| exact safe_rkPredictor ..)

theorem safe_rkPredictorGuess : Safe (rkPredictorGuess e) := by
  unfold rkPredictorGuess; safe

macro_rules | `(tactic| safe_step) => `(tactic| exact safe_rkPredictorGuess ..)

theorem safe_rkIteration : Safe (rkIteration e) := by
  unfold rkIteration; safe

macro_rules | `(tactic| safe_step) => `(tactic| exact safe_rkIteration ..)

theorem lawful_riks : (riks e).Lawful where
  initiateStep := safe_zeroIncrements
  predictor := safe_rkPredictor e
  predictorGuess := safe_rkPredictorGuess e
  quasiPredictor := safe_quasiPredictorUt e
  quasiIteration := safe_quasiIterationUt e
  iteration := safe_rkIteration e
  finish := fun s => ⟨s.DUold, s.DLold, rfl⟩

theorem safe_ccPredict (target : St K V Mat Fac → (V × K) × (V × K)) : Safe (ccPredict e o target) := by
  unfold ccPredict; safe

macro_rules | `(tactic| safe_step) => `(tactic| exact safe_ccPredict ..)

theorem safe_ccIteration : Safe (ccIteration e) := by
  unfold ccIteration; safe

macro_rules | `(tactic| safe_step) => `(tactic| exact safe_ccIteration ..)

theorem lawful_consistentCrisfield : (consistentCrisfield e o).Lawful where
  initiateStep := safe_zeroIncrements
  predictor := safe_ccPredict e o _
  predictorGuess := safe_ccPredict e o _
  quasiPredictor := safe_quasiPredictorUt e
  quasiIteration := safe_quasiIterationUt e
  iteration := safe_ccIteration e
  finish := fun s => ⟨s.DU, s.DL, rfl⟩

/-- The methods of the library. -/
inductive IsMethod : Method K V Mat Fac → Prop
  | loadControl : IsMethod (loadControl e)
  | crisfield : IsMethod (crisfield e o)
  | riks : IsMethod (riks e)
  | consistentCrisfield : IsMethod (consistentCrisfield e o)

theorem IsMethod.lawful {e : Env K V Mat Fac} {o : Opts K} {M : Method K V Mat Fac}
    (h : IsMethod e o M) : M.Lawful := by
  cases h
  · exact lawful_loadControl e
  · exact lawful_crisfield e o
  · exact lawful_riks e
  · exact lawful_consistentCrisfield e o

end GsSA.ALM
