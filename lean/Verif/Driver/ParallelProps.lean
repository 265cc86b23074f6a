import Verif.Driver.Parallel
import Verif.Driver.JobsProps
import Verif.Driver.ContainerProps
import Verif.Data.Props3
import Verif.MPI.ProtocolProps

/-!
# Property C27: `parallelSolve` does not depend on the number of processes and on the timing
-/

set_option linter.unusedSectionVars false

namespace GsSA.APALM

open GsSA MPI

variable {K S : Type*} [Field K] [LinearOrder K] [IsStrictOrderedRing K]

/-- The jobs handed out of branch `k`. -/
def outOf (out : List (Item K S)) (k : ℕ) : List (Popped K S × S) :=
  (out.filter (fun i => i.branch == k)).map (fun i => (i.job, i.ref))

theorem outOf_append (o₁ o₂ : List (Item K S)) (k : ℕ) :
    outOf (o₁ ++ o₂) k = outOf o₁ k ++ outOf o₂ k := by simp [outOf]

theorem outOf_cons_self (i : Item K S) (o : List (Item K S)) :
    outOf (i :: o) i.branch = (i.job, i.ref) :: outOf o i.branch := by simp [outOf]

theorem outOf_cons_ne {i : Item K S} (o : List (Item K S)) {k : ℕ} (h : i.branch ≠ k) :
    outOf (i :: o) k = outOf o k := by simp [outOf, h]

theorem outOf_nil (k : ℕ) : outOf ([] : List (Item K S)) k = [] := rfl

/-- A branch in a scheduled execution whose active jobs are all in the list of jobs handed out. -/
structure BOK (corr : Corrector K S) (d₀ : Data K S) (pts : List (K × S))
    (l : List (Popped K S × S)) (d : Data K S) : Prop where
  run : SRun corr ⟨d₀, []⟩ pts ⟨d, l⟩
  cover : ∀ id j, Active d id j → id ∈ l.map (fun x => x.1.id)
  coarse : coarse d = coarse d₀ ++ pts.map Prod.snd

/-- No job of level 0. -/
def Quiet (d : Data K S) : Prop := ∀ j ∈ allJobs d, 0 < j.level

theorem mem_vals_append {jobs : OMap ℕ (Job K)} {x : ℕ × Job K} {j : Job K}
    (h : j ∈ OMap.vals (jobs ++ [x])) : j ∈ OMap.vals jobs ∨ j = x.2 := by
  simpa [OMap.vals] using h

theorem mem_vals_erase {jobs : OMap ℕ (Job K)} {id : ℕ} {j : Job K}
    (h : j ∈ OMap.vals (OMap.erase jobs id)) : j ∈ OMap.vals jobs := by
  simp only [OMap.vals, List.mem_map] at h ⊢
  obtain ⟨x, hx, rfl⟩ := h
  exact ⟨x, OMap.mem_of_mem_erase hx, rfl⟩

/-- Taking out a job. -/
theorem BOK.take {corr : Corrector K S} {d₀ : Data K S} {pts : List (K × S)}
    {l : List (Popped K S × S)} {d : Data K S} (h : BOK corr d₀ pts l d)
    {j : Job K} {q : List (Job K)} {r : Popped K S} {ref : S} {d' : Data K S}
    (ht : Taken corr d l j q r ref d') : BOK corr d₀ pts (l ++ [(r, ref)]) d' := by
  refine ⟨by simpa using h.run.trans ht.run, ?_, by rw [ht.coarse, h.coarse]⟩
  intro id i hi
  rw [Active, ht.jobs, OMap.get?_append] at hi
  cases hg : OMap.get? d.jobs id with
  | some i' => exact List.mem_map.2 (by
      obtain ⟨x, hx, hx'⟩ := List.mem_map.1 (h.cover id i' hg)
      exact ⟨x, by simp [hx], hx'⟩)
  | none =>
    rw [hg] at hi
    by_cases he : d.nextID = id
    · simp [ht.id, he]
    · simp [OMap.get?, he] at hi

theorem BOK.finish {corr : Corrector K S} {d₀ : Data K S} {pts pts' : List (K × S)}
    {l₁ l₂ : List (Popped K S × S)} {r : Popped K S} {ref : S} {d d' : Data K S}
    (h : BOK corr d₀ pts (l₁ ++ (r, ref) :: l₂) d)
    (hr : SRun corr ⟨d, l₁ ++ (r, ref) :: l₂⟩ pts' ⟨d', l₁ ++ l₂⟩)
    (hj : d'.jobs = OMap.erase d.jobs r.id) (hsort : OMap.Sorted d.jobs)
    (hco : APALM.coarse d' = APALM.coarse d ++ pts'.map Prod.snd) :
    BOK corr d₀ (pts ++ pts') (l₁ ++ l₂) d' := by
  refine ⟨h.run.trans hr, ?_, by rw [hco, h.coarse]; simp⟩
  intro id i hi
  rw [Active, hj] at hi
  have hne : id ≠ r.id := by
    rintro rfl
    rw [OMap.get?_erase_self hsort] at hi
    simp at hi
  rw [OMap.get?_erase_ne hne] at hi
  have := h.cover id i hi
  simp only [List.map_append, List.map_cons, List.mem_append, List.mem_cons] at this ⊢
  rcases this with h1 | h1 | h1
  · exact Or.inl h1
  · exact absurd h1 hne
  · exact Or.inr h1

theorem BOK.sinv {corr : Corrector K S} (hcorr : CorrOK corr) {d₀ d : Data K S}
    (hd : Reachable d₀) {pts : List (K × S)} {l : List (Popped K S × S)} (h : BOK corr d₀ pts l d) :
    ∃ ps, SInv ⟨d, l⟩ ps := by
  obtain ⟨ps, hr⟩ := hd.rep
  obtain ⟨ps', h', -⟩ := (SInv.start hr).run hcorr h.run
  exact ⟨ps', h'⟩

/-- Without jobs handed out and without waiting jobs nothing is left. -/
theorem BOK.drained {corr : Corrector K S} {d₀ d : Data K S} {pts : List (K × S)}
    (h : BOK corr d₀ pts [] d) (hq : d.queue = []) : Drained d := by
  intro j hj
  rw [hq, List.nil_append] at hj
  obtain ⟨x, hx, rfl⟩ := List.mem_map.1 hj
  have : OMap.get? d.jobs x.1 ≠ none := by
    rw [Ne, OMap.get?_eq_none]
    push Not
    exact ⟨x, hx, rfl⟩
  obtain ⟨i, hi⟩ := Option.ne_none_iff_exists'.1 this
  have := h.cover x.1 i hi
  simp at this

/-- Branches before a parallel solve: reachable, only refinement jobs, none of them handed out. -/
def ReadyBranch (d : Data K S) : Prop := Reachable d ∧ (∀ j ∈ d.queue, 0 < j.level) ∧ d.jobs = []

/-- A correction computed from what is sent to the worker. -/
def corrWork (corr : Corrector K S) (i : Item K S) : ℕ × ℕ × Corr K S :=
  (i.branch, i.job.id, corr i.job.dt i.job.start i.job.prev i.ref)

/-- Invariant of sequential executions of `corrServer`. -/
structure ContInv (corr : Corrector K S) (c₀ c : Container K S) (out : List (Item K S)) : Prop where
  len : c.length = c₀.length
  branch : ∀ i ∈ out, i.branch < c₀.length
  ok : ∀ k d₀ d, c₀[k]? = some d₀ → c[k]? = some d → BOK corr d₀ [] (outOf out k) d ∧ Quiet d

theorem ContInv.get {corr : Corrector K S} {c₀ c : Container K S} {out : List (Item K S)}
    (h : ContInv corr c₀ c out) {k : ℕ} {d : Data K S} (hk : c[k]? = some d) :
    ∃ d₀, c₀[k]? = some d₀ ∧ BOK corr d₀ [] (outOf out k) d ∧ Quiet d := by
  have hl : k < c₀.length := by
    rw [← h.len]
    exact (List.getElem?_eq_some_iff.1 hk).1
  exact ⟨c₀[k], by simp, h.ok k c₀[k] d (by simp) hk⟩

theorem ContInv.start {corr : Corrector K S} {c₀ : Container K S} (hc : ∀ d ∈ c₀, ReadyBranch d) :
    ContInv corr c₀ c₀ [] := by
  refine ⟨rfl, by simp, ?_⟩
  intro k d₀ d h₀ h
  rw [h₀] at h
  simp only [Option.some.injEq] at h
  subst h
  obtain ⟨-, h2, h3⟩ := hc d₀ (List.mem_of_getElem? h₀)
  refine ⟨⟨SRun.nil _, ?_, by simp⟩, ?_⟩
  · intro id j hj
    rw [Active, h3] at hj
    simp [OMap.get?] at hj
  · intro j hj
    simp only [allJobs, h3, OMap.vals, List.map_nil, List.append_nil] at hj
    exact h2 j hj

theorem ContInv.pop {corr : Corrector K S} (hcorr : CorrOK corr) {c₀ c : Container K S}
    (hc : ∀ d ∈ c₀, ReadyBranch d) {out : List (Item K S)} (h : ContInv corr c₀ c out)
    (he : c.empty = false) : ∃ i c', corrPop c = .ok (i, c') ∧ ContInv corr c₀ c' (out ++ [i]) := by
  obtain ⟨k, hk, hkl⟩ := (C16_empty c).2 he
  obtain ⟨⟨d, hd, hq⟩, -⟩ := (C16_first_non_empty c k).1 hk
  obtain ⟨d₀, hd₀, hb, hquiet⟩ := h.get hd
  obtain ⟨ps, hs⟩ := hb.sinv hcorr (hc d₀ (List.mem_of_getElem? hd₀)).1
  obtain ⟨j, q, hjq⟩ := List.exists_cons_of_ne_nil hq
  obtain ⟨r, ref, d', ht⟩ := hs.take corr hjq
  have hj0 : 0 < j.level := hquiet j (by simp [allJobs, hjq])
  refine ⟨⟨k, r, j.level, ref⟩, c.set k d', ?_, ?_, ?_, ?_⟩
  · unfold corrPop
    rw [hk]
    simp only [Container.branch, hd]
    rw [ht.takeCorr hj0]
  · simp [h.len]
  · intro i hi
    simp only [List.mem_append, List.mem_singleton] at hi
    rcases hi with hi | rfl
    · exact h.branch i hi
    · rw [← h.len]; exact hkl
  · intro k' e₀ e h₀ he
    rw [outOf_append]
    by_cases hkk : k = k'
    · subst hkk
      rw [hd₀] at h₀
      rw [List.getElem?_set_self (by simpa [Container.nBranches] using hkl)] at he
      simp only [Option.some.injEq] at h₀ he
      subst h₀ he
      rw [outOf_cons_self ⟨k, r, j.level, ref⟩, outOf_nil]
      refine ⟨hb.take ht, ?_⟩
      intro i hi
      simp only [allJobs, ht.queue, ht.jobs, List.mem_append] at hi
      rcases hi with hi | hi
      · exact hquiet i (by simp [allJobs, hjq, hi])
      · rcases mem_vals_append hi with hi | rfl
        · exact hquiet i (by simp [allJobs, hi])
        · exact hj0
    · rw [List.getElem?_set_ne hkk] at he
      rw [outOf_cons_ne _ hkk, outOf_nil, List.append_nil]
      exact h.ok k' e₀ e h₀ he

theorem ContInv.submit {corr : Corrector K S} (hcorr : CorrOK corr) {c₀ c : Container K S}
    (hc : ∀ d ∈ c₀, ReadyBranch d) {o₁ o₂ : List (Item K S)} {i : Item K S}
    (h : ContInv corr c₀ c (o₁ ++ i :: o₂)) :
    ∃ c', corrSubmit c (corrWork corr i) = .ok c' ∧ ContInv corr c₀ c' (o₁ ++ o₂) := by
  have hbl : i.branch < c₀.length := h.branch i (by simp)
  have hd : c[i.branch]? = some (c[i.branch]'(by rw [h.len]; exact hbl)) := by simp
  generalize (c[i.branch]'(by rw [h.len]; exact hbl)) = d at hd
  obtain ⟨d₀, hd₀, hb, hquiet⟩ := h.get hd
  rw [outOf_append, outOf_cons_self] at hb
  obtain ⟨ps, hs⟩ := hb.sinv hcorr (hc d₀ (List.mem_of_getElem? hd₀)).1
  obtain ⟨j, hj, -⟩ := hs.out (i.job, i.ref) (by simp)
  have hj0 : 0 < j.level := hquiet j (mem_allJobs_of_get hj)
  obtain ⟨new, d', ht⟩ := hs.complete hcorr hj hj0
  refine ⟨c.set i.branch d', ?_, ?_, ?_, ?_⟩
  · unfold corrSubmit
    simp only [corrWork, Container.branch, hd]
    rw [ht.store]
  · simp [h.len]
  · intro i' hi'
    apply h.branch i'
    simp only [List.mem_append, List.mem_cons] at hi' ⊢
    tauto
  · intro k' e₀ e h₀ he
    rw [outOf_append]
    by_cases hkk : i.branch = k'
    · subst hkk
      rw [hd₀] at h₀
      rw [List.getElem?_set_self (by rw [h.len]; exact hbl)] at he
      simp only [Option.some.injEq] at h₀ he
      subst h₀ he
      refine ⟨hb.finish ht.run ht.jobs hs.rep.jobsSorted (by rw [ht.coarse]; simp), ?_⟩
      intro x hx
      simp only [allJobs, ht.queue, ht.jobs, List.mem_append] at hx
      rcases hx with (hx | hx) | hx
      · exact hquiet x (by simp [allJobs, hx])
      · exact ht.level x hx
      · exact hquiet x (by simp [allJobs, mem_vals_erase hx])
    · rw [List.getElem?_set_ne hkk] at he
      have := h.ok k' e₀ e h₀ he
      rw [outOf_append, outOf_cons_ne _ hkk] at this
      exact this

theorem ContInv.seq {A : Type*} {corr : Corrector K S} (hcorr : CorrOK corr) {c₀ : Container K S}
    (hc : ∀ d ∈ c₀, ReadyBranch d) {work : A → Item K S → (ℕ × ℕ × Corr K S) × A}
    (hw : ∀ a i, (work a i).1 = corrWork corr i) {m n : ℕ} {x : Container K S × List (Item K S)}
    (r : SeqRun (corrServer K S) work (c₀, []) m n x) : ContInv corr c₀ x.1 x.2 := by
  generalize hs : (c₀, ([] : List (Item K S))) = s₀ at r
  induction r with
  | nil => subst hs; exact ContInv.start hc
  | pop _ he hp ih =>
    obtain ⟨i, c', h1, h2⟩ := ih.pop hcorr hc he
    have : corrPop _ = _ := hp
    rw [h1] at this
    simp only [Except.ok.injEq, Prod.mk.injEq] at this
    obtain ⟨rfl, rfl⟩ := this
    exact h2
  | submit a _ hp ih =>
    obtain ⟨c', h1, h2⟩ := ih.submit hcorr hc
    have : corrSubmit _ _ = _ := hp
    rw [hw, h1] at this
    simp only [Except.ok.injEq] at this
    subst this
    exact h2

/-- Two sequential executions which leave nothing to do end with the same curves. -/
theorem seq_flat {A B : Type*} {corr : Corrector K S} (hcorr : CorrOK corr) {c₀ : Container K S}
    (hc : ∀ d ∈ c₀, ReadyBranch d) {work₁ : A → Item K S → (ℕ × ℕ × Corr K S) × A}
    {work₂ : B → Item K S → (ℕ × ℕ × Corr K S) × B}
    (hw₁ : ∀ a i, (work₁ a i).1 = corrWork corr i) (hw₂ : ∀ a i, (work₂ a i).1 = corrWork corr i)
    {m₁ m₂ n₁ n₂ : ℕ} {c₁ c₂ : Container K S}
    (r₁ : SeqRun (corrServer K S) work₁ (c₀, []) m₁ n₁ (c₁, []))
    (r₂ : SeqRun (corrServer K S) work₂ (c₀, []) m₂ n₂ (c₂, []))
    (e₁ : c₁.empty = true) (e₂ : c₂.empty = true) : c₁.map flat = c₂.map flat := by
  have h₁ := ContInv.seq hcorr hc hw₁ r₁
  have h₂ := ContInv.seq hcorr hc hw₂ r₂
  simp only at h₁ h₂
  apply List.ext_getElem?
  intro k
  rw [List.getElem?_map, List.getElem?_map]
  by_cases hk : k < c₀.length
  · have g₁ : c₁[k]? = some (c₁[k]'(by rw [h₁.len]; exact hk)) := by simp
    have g₂ : c₂[k]? = some (c₂[k]'(by rw [h₂.len]; exact hk)) := by simp
    generalize (c₁[k]'(by rw [h₁.len]; exact hk)) = d₁ at g₁
    generalize (c₂[k]'(by rw [h₂.len]; exact hk)) = d₂ at g₂
    have b₁ := (h₁.ok k c₀[k] d₁ (by simp) g₁).1
    have b₂ := (h₂.ok k c₀[k] d₂ (by simp) g₂).1
    rw [outOf_nil] at b₁ b₂
    rw [g₁, g₂]
    simp only [Option.map_some, Option.some.injEq]
    exact C11_schedule_independence hcorr (hc c₀[k] (by simp)).1 b₁.run b₂.run
      (b₁.drained ((C16_empty c₁).1.1 e₁ d₁ (List.mem_of_getElem? g₁)))
      (b₂.drained ((C16_empty c₂).1.1 e₂ d₂ (List.mem_of_getElem? g₂)))
  · rw [List.getElem?_eq_none (by rw [h₁.len]; omega), List.getElem?_eq_none (by rw [h₂.len]; omega)]

/-- **C27** In a parallel solve, whatever the number of processes, the initial solver states and the
order of events, no check or exception of the data fails in the main process. -/
theorem C27_no_failure {A : Type*} {corr : Corrector K S} (hcorr : CorrOK corr) {c₀ : Container K S}
    (hc : ∀ d ∈ c₀, ReadyBranch d) {work : A → Item K S → (ℕ × ℕ × Corr K S) × A}
    (hw : ∀ a i, (work a i).1 = corrWork corr i) {P maxIt : ℕ} {pool : List ℕ}
    (hp : ∀ w ∈ pool, w ∈ ranks P) {a : ℕ → A} {n : ℕ}
    {s : State (Container K S) A (Item K S) (ℕ × ℕ × Corr K S)}
    (r : Run (corrServer K S) work P maxIt (start c₀ pool a) n s) (e : Fail) :
    s.phase ≠ .failed e := by
  intro hf
  obtain ⟨k, m, c, out, h1, h2⟩ := C25_failure_is_sequential hp r hf
  have hinv := ContInv.seq hcorr hc hw h1
  rcases h2 with ⟨he, hpop⟩ | ⟨j, hj, b, hsub⟩
  · obtain ⟨i, c', h3, -⟩ := hinv.pop hcorr hc he
    have hpop' : corrPop _ = _ := hpop
    rw [h3] at hpop'
    simp at hpop'
  · obtain ⟨o₁, o₂, rfl⟩ := List.append_of_mem hj
    obtain ⟨c', h3, -⟩ := hinv.submit hcorr hc
    have hsub' : corrSubmit _ _ = _ := hsub
    rw [hw, h3] at hsub'
    simp at hsub'

/-- **C27** Two parallel solves of the same data, each with any number of processes and any order of
events, which both end with no job waiting, give the same times, solutions and levels in all
branches. -/
theorem C27_process_independence {A : Type*} {corr : Corrector K S} (hcorr : CorrOK corr)
    {c₀ : Container K S} (hc : ∀ d ∈ c₀, ReadyBranch d)
    {work : A → Item K S → (ℕ × ℕ × Corr K S) × A} (hw : ∀ a i, (work a i).1 = corrWork corr i)
    {P₁ P₂ max₁ max₂ : ℕ} {pool₁ pool₂ : List ℕ} (hp₁ : ∀ w ∈ pool₁, w ∈ ranks P₁)
    (hp₂ : ∀ w ∈ pool₂, w ∈ ranks P₂) {a₁ a₂ : ℕ → A} {n₁ n₂ : ℕ}
    {s₁ s₂ : State (Container K S) A (Item K S) (ℕ × ℕ × Corr K S)}
    (r₁ : Run (corrServer K S) work P₁ max₁ (start c₀ pool₁ a₁) n₁ s₁)
    (r₂ : Run (corrServer K S) work P₂ max₂ (start c₀ pool₂ a₂) n₂ s₂)
    (f₁ : s₁.phase = .finished) (f₂ : s₂.phase = .finished)
    (e₁ : s₁.data.empty = true) (e₂ : s₂.data.empty = true) :
    s₁.data.map flat = s₂.data.map flat :=
  seq_flat hcorr hc hw hw (C25_all_answered hp₁ r₁ (Or.inl f₁)) (C25_all_answered hp₂ r₂ (Or.inl f₂))
    e₁ e₂

/-- **C27** The same for a parallel solve and a solve without MPI. -/
theorem C27_equals_single_process {A : Type*} {corr : Corrector K S} (hcorr : CorrOK corr)
    {c₀ : Container K S} (hc : ∀ d ∈ c₀, ReadyBranch d)
    {work : A → Item K S → (ℕ × ℕ × Corr K S) × A} (hw : ∀ a i, (work a i).1 = corrWork corr i)
    {P max₁ max₂ : ℕ} {pool : List ℕ} (hp : ∀ w ∈ pool, w ∈ ranks P) {a₁ : ℕ → A} {n : ℕ}
    {s : State (Container K S) A (Item K S) (ℕ × ℕ × Corr K S)} {a₂ a' : A} {c : Container K S}
    (r : Run (corrServer K S) work P max₁ (start c₀ pool a₁) n s) (f : s.phase = .finished)
    (e : s.data.empty = true)
    (r' : single (corrServer K S) work max₂ a₂ c₀ = .ok (c, a')) (e' : c.empty = true) :
    s.data.map flat = c.map flat := by
  obtain ⟨m, h⟩ := single_seq r' (SeqRun.nil (c₀, []))
  exact seq_flat hcorr hc hw hw (C25_all_answered hp r (Or.inl f)) h e e'

/-- **C27** Without MPI no check or exception of the data fails. -/
theorem C27_single_no_failure {A : Type*} {corr : Corrector K S} (hcorr : CorrOK corr)
    {c₀ : Container K S} (hc : ∀ d ∈ c₀, ReadyBranch d)
    {work : A → Item K S → (ℕ × ℕ × Corr K S) × A} (hw : ∀ a i, (work a i).1 = corrWork corr i)
    (n : ℕ) (a : A) : ∃ c a', single (corrServer K S) work n a c₀ = .ok (c, a') := by
  have key : ∀ (n : ℕ) (a : A) (c : Container K S), ContInv corr c₀ c [] →
      ∃ c' a', single (corrServer K S) work n a c = .ok (c', a') := by
    intro n
    induction n with
    | zero => exact fun a c _ => ⟨c, a, rfl⟩
    | succ n ih =>
      intro a c h
      simp only [single]
      by_cases he : (corrServer K S).empty c = true
      · exact ⟨c, a, by rw [if_pos he]⟩
      · rw [if_neg he]
        obtain ⟨i, c₁, h1, h2⟩ := h.pop hcorr hc (by simpa [corrServer] using he)
        obtain ⟨c₂, h3, h4⟩ := ContInv.submit (o₁ := []) (o₂ := []) hcorr hc h2
        rw [show (corrServer K S).pop c = .ok (i, c₁) from h1]
        simp only
        rw [hw, show (corrServer K S).submit c₁ (corrWork corr i) = .ok c₂ from h3]
        exact ih (work a i).2 c₂ h4
  exact key n a c₀ (ContInv.start hc)

/-! ## Example -/

theorem readyBranch_of_check {d : Data ℚ ℕ} (h : sampleBranch = some d) : ReadyBranch d := by
  have h1 : sampleBranch.all (fun d => d.queue.all (fun j => decide (0 < j.level)) &&
      d.jobs.isEmpty) = true := by decide +kernel
  rw [h] at h1
  simp only [Option.all_some, Bool.and_eq_true, List.all_eq_true, decide_eq_true_eq,
    List.isEmpty_iff] at h1
  exact ⟨⟨_, _, _, _, exec_of_runChecked h⟩, h1.1, h1.2⟩

/-- Worker with a solver state counting its jobs. -/
def sampleWork (a : ℕ) (i : Item ℚ ℕ) : (ℕ × ℕ × Corr ℚ ℕ) × ℕ := (corrWork sampleCorr i, a + 1)

/-- Three processes, four jobs in two branches, completed out of order. -/
def sampleLabels : List Label :=
  [.dispatch 1, .dispatch 2, .recvJob 2, .compute 2, .recvJob 1, .sendResult 2, .receive 2,
   .dispatch 2, .recvJob 2, .compute 2, .sendResult 2, .receive 2, .dispatch 2, .compute 1,
   .recvJob 2, .compute 2, .sendResult 2, .receive 2, .sendResult 1, .receive 1,
   .stop, .sendStop 1, .recvStop 1, .sendStop 2, .leave, .recvStop 2]

/-- `C27_no_failure`, `C27_process_independence`, `C27_equals_single_process`, `C27_single_no_failure` apply to a
complete parallel execution on three processes and to one on a single process. -/
example : ∃ (c₀ : Container ℚ ℕ) (n : ℕ)
    (s : State (Container ℚ ℕ) ℕ (Item ℚ ℕ) (ℕ × ℕ × Corr ℚ ℕ)) (c : Container ℚ ℕ) (a : ℕ),
    CorrOK sampleCorr ∧ (∀ d ∈ c₀, ReadyBranch d) ∧
    (∀ a i, (sampleWork a i).1 = corrWork sampleCorr i) ∧
    Run (corrServer ℚ ℕ) sampleWork 3 100 (start c₀ (ranks 3) fun _ => 0) n s ∧
    s.phase = .finished ∧ s.data.empty = true ∧
    single (corrServer ℚ ℕ) sampleWork 100 0 c₀ = .ok (c, a) ∧ c.empty = true ∧
    s.it = 4 ∧ (s.data.map flat).map List.length = [7, 7] := by
  have h : sampleBranch.any (fun d : Data ℚ ℕ =>
      (fireAll (corrServer ℚ ℕ) sampleWork 3 100 (start [d, d] (ranks 3) fun _ => 0)
        sampleLabels).any (fun s =>
          decide (s.phase.told 1 = true ∧ s.phase.told 2 = true ∧ s.data.empty = true ∧ s.it = 4 ∧
            (s.data.map flat).map List.length = [7, 7]) &&
          (match s.phase with | .finished => true | _ => false) &&
          (match single (corrServer ℚ ℕ) sampleWork 100 0 [d, d] with
           | .ok (c, _) => c.empty
           | .error _ => false))) = true := by
    decide +kernel
  simp only [Option.any_eq_true, Bool.and_eq_true, decide_eq_true_eq] at h
  obtain ⟨d, hd, s, hs, ⟨⟨-, -, h1, h2, h3⟩, h4⟩, h5⟩ := h
  have hr := readyBranch_of_check hd
  have hph : s.phase = .finished := by
    revert h4
    cases s.phase <;> simp
  revert h5
  cases hc : single (corrServer ℚ ℕ) sampleWork 100 0 [d, d] with
  | error e => simp
  | ok x =>
    obtain ⟨c, a⟩ := x
    intro h5
    exact ⟨[d, d], _, s, c, a, sampleCorr_ok, by simp [hr], fun _ _ => rfl, fireAll_run hs, hph, h1,
      hc, h5, h2, h3⟩

end GsSA.APALM
