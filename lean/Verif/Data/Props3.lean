import Verif.Data.Confluence
import Verif.Data.Check
import Mathlib.Tactic.FieldSimp
import Mathlib.Tactic.Linarith
import Mathlib.Tactic.NormNum

/-!
# Property C11: independence of the schedule
-/

set_option linter.unusedSectionVars false

namespace GsSA.APALM

open GsSA

variable {K S : Type*} [Field K] [LinearOrder K] [IsStrictOrderedRing K]

/-- **C11** Two schedules started from the same branch, with the same correction function and the
same appended points, that both leave no refinement job, return the same times, solutions and
levels. Orders of hand-outs and completions, jobs in flight and intermediate queries are arbitrary
in both. -/
theorem C11_schedule_independence {corr : Corrector K S} (hcorr : CorrOK corr) {d : Data K S}
    (hd : Reachable d) {pts : List (K × S)} {s₁ s₂ : Sched K S}
    (h₁ : SRun corr ⟨d, []⟩ pts s₁) (h₂ : SRun corr ⟨d, []⟩ pts s₂)
    (e₁ : Drained s₁.data) (e₂ : Drained s₂.data) :
    flat s₁.data = flat s₂.data := by
  obtain ⟨ps, hr⟩ := hd.rep
  obtain ⟨ps₁, i₁, n₁, m₁, t₁⟩ := (SInv.start hr).run hcorr h₁
  obtain ⟨ps₂, i₂, n₂, m₂, t₂⟩ := (SInv.start hr).run hcorr h₂
  rw [i₁.rep.flat_drained e₁ corr s₁.data.maxLevel s₁.data.tol,
    i₂.rep.flat_drained e₂ corr s₂.data.maxLevel s₂.data.tol, n₁, n₂]

/-- A scheduling decision. -/
inductive Choice
  | pop
  | complete (id : ℕ)

/-- Executable scheduler. -/
def choose (corr : Corrector K S) (s : Sched K S) : Choice → Option (Sched K S)
  | .pop =>
    match APALM.pop s.data with
    | .ok (r, d₁) =>
      match getReferenceByID d₁ r.id with
      | (some ref, d₂) => some ⟨d₂, s.out ++ [(r, ref)]⟩
      | (none, _) => none
    | .error _ => none
  | .complete k =>
    match s.out[k]? with
    | some (r, ref) =>
      if 0 < (jobLevel s.data r.id).1 then
        match submit s.data r.id (corr r.dt r.start r.prev ref).ds
            (corr r.dt r.start r.prev ref).sols (corr r.dt r.start r.prev ref).upper
            (corr r.dt r.start r.prev ref).lower with
        | .ok d' => some ⟨finishJob d' r.id, s.out.take k ++ s.out.drop (k + 1)⟩
        | .error _ => none
      else none
    | none => none

/-- Executable schedule. -/
def chooseAll (corr : Corrector K S) (s : Sched K S) : List Choice → Option (Sched K S)
  | [] => some s
  | c :: l => (choose corr s c).bind (fun s' => chooseAll corr s' l)

theorem sstep_of_choose {corr : Corrector K S} {s s' : Sched K S} {c : Choice}
    (h : choose corr s c = some s') : SStep corr s [] s' := by
  obtain ⟨d, out⟩ := s
  cases c with
  | pop =>
    simp only [choose] at h
    split at h
    · rename_i r d₁ hp
      split at h
      · rename_i ref d₂ hr
        simp only [Option.some.injEq] at h
        subst h
        exact .pop hp hr
      · simp at h
    · simp at h
  | complete k =>
    simp only [choose] at h
    split at h
    · rename_i r ref hk
      split at h
      · rename_i hl
        split at h
        · rename_i d' hs
          simp only [Option.some.injEq] at h
          subst h
          have : out = out.take k ++ (r, ref) :: out.drop (k + 1) := by
            obtain ⟨hk', hk⟩ := List.getElem?_eq_some_iff.1 hk
            rw [← hk, List.getElem_cons_drop, List.take_append_drop]
          have key := SStep.complete (corr := corr) (out₁ := out.take k)
            (out₂ := out.drop (k + 1)) hl hs
          rw [← this] at key
          exact key
        · simp at h
      · simp at h
    · simp at h

theorem srun_of_chooseAll {corr : Corrector K S} {s s' : Sched K S} {cs : List Choice}
    (h : chooseAll corr s cs = some s') : SRun corr s [] s' := by
  induction cs generalizing s with
  | nil => simp [chooseAll] at h; subst h; exact .nil s
  | cons c cs ih =>
    simp only [chooseAll, Option.bind_eq_some_iff] at h
    obtain ⟨s₁, h₁, h₂⟩ := h
    exact .cons (l₁ := []) (sstep_of_choose h₁) (ih h₂)

/-- Sample correction: two sub-intervals, the end missed by a quarter of the length. -/
def sampleCorr : Corrector ℚ ℕ := fun Dt start prev ref =>
  ⟨[Dt / 2, Dt / 2, Dt / 4], [start + 10 * prev, ref + 100], Dt, Dt⟩

theorem sampleCorr_ok : CorrOK sampleCorr := by
  intro Dt start prev ref h
  refine ⟨rfl, ?_, ?_⟩
  · intro x hx
    simp only [sampleCorr, List.mem_cons, List.not_mem_nil, or_false] at hx
    rcases hx with rfl | rfl | rfl <;> positivity
  · simp only [sampleCorr, List.dropLast, List.sum_cons, List.sum_nil]
    have : (Dt - (Dt / 2 + (Dt / 2 + 0))) / Dt = 0 := by
      rw [show Dt - (Dt / 2 + (Dt / 2 + 0)) = 0 by ring]; simp
    rw [this]
    norm_num

/-- Sample branch for the schedules: two intervals, at most one level of refinement. -/
def sampleBranch : Option (Data ℚ ℕ) :=
  runChecked (Data.fresh 1 (1/10) 1) [.init [0, 1, 3] [100, 101, 102]]

/-- First in, first out. -/
def sequentialSchedule : List Choice := [.pop, .complete 0, .pop, .complete 0]

/-- Both jobs in flight, completed in the opposite order. -/
def parallelSchedule : List Choice := [.pop, .pop, .complete 1, .complete 0]

/-- All jobs waiting or active have level 0. -/
def drainedB (d : Data K S) : Bool := (d.queue ++ OMap.vals d.jobs).all (fun j => j.level == 0)

example : ∃ (d : Data ℚ ℕ) (s₁ s₂ : Sched ℚ ℕ), CorrOK sampleCorr ∧ Reachable d ∧
    SRun sampleCorr ⟨d, []⟩ [] s₁ ∧ SRun sampleCorr ⟨d, []⟩ [] s₂ ∧
    Drained s₁.data ∧ Drained s₂.data ∧ (flat s₁.data).length = 7 := by
  have h : sampleBranch.any (fun d : Data ℚ ℕ =>
      (chooseAll sampleCorr ⟨d, []⟩ sequentialSchedule).any (fun s₁ =>
      (chooseAll sampleCorr ⟨d, []⟩ parallelSchedule).any (fun s₂ =>
        drainedB s₁.data && drainedB s₂.data && decide ((flat s₁.data).length = 7)))) = true := by
    decide +kernel
  simp only [Option.any_eq_true, Bool.and_eq_true, decide_eq_true_eq] at h
  obtain ⟨d, hd, s₁, h₁, s₂, h₂, ⟨e₁, e₂⟩, e₃⟩ := h
  refine ⟨d, s₁, s₂, sampleCorr_ok, ⟨_, _, _, _, exec_of_runChecked hd⟩, srun_of_chooseAll h₁,
    srun_of_chooseAll h₂, ?_, ?_, e₃⟩
  · intro j hj
    simpa using List.all_eq_true.1 e₁ j hj
  · intro j hj
    simpa using List.all_eq_true.1 e₂ j hj

end GsSA.APALM
