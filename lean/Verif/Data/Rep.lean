import Mathlib.Algebra.BigOperators.Group.List.Basic
import Mathlib.Algebra.Order.BigOperators.Group.List
import Mathlib.Tactic.Ring
import Mathlib.Tactic.FieldSimp
import Mathlib.Tactic.Positivity
import Verif.Data.Curve

/-!
# The operations on the abstract curve

For each operation of `gsAPALMData` called within its contract: it does not fail, and the new
members represent the curve obtained by the corresponding abstract operation. Proof machinery.
-/

set_option linter.unusedSectionVars false

namespace GsSA.APALM

open GsSA

variable {K S : Type*} [Field K] [LinearOrder K]

/-! ## Lookups -/

theorem sorted_map {ν : Type*} {ps : List (Pt K S)} (h : ps.Pairwise (fun p q => p.xi < q.xi))
    (f : Pt K S → ν) : OMap.Sorted (ps.map (fun p => (p.xi, f p))) := by
  rw [OMap.Sorted, List.pairwise_map]
  exact h

theorem get_map {ν : Type*} {ps : List (Pt K S)} (h : ps.Pairwise (fun p q => p.xi < q.xi))
    (f : Pt K S → ν) {p : Pt K S} (hp : p ∈ ps) :
    OMap.get? (ps.map (fun p => (p.xi, f p))) p.xi = some (f p) :=
  OMap.get?_of_mem (sorted_map h f) (List.mem_map.2 ⟨p, hp, rfl⟩)

variable {d : Data K S} {ps : List (Pt K S)}

theorem Rep.get_sols (h : Rep d ps) {p : Pt K S} (hp : p ∈ ps) :
    OMap.get? d.sols p.xi = some p.sol := by
  rw [h.sols]; exact get_map h.sortedXi _ hp

theorem Rep.get_prevs (h : Rep d ps) {p : Pt K S} (hp : p ∈ ps) :
    OMap.get? d.prevs p.xi = some p.prev := by
  rw [h.prevs]; exact get_map h.sortedXi _ hp

theorem Rep.get_levels (h : Rep d ps) {p : Pt K S} (hp : p ∈ ps) :
    OMap.get? d.levels p.xi = some p.level := by
  rw [h.levels]; exact get_map h.sortedXi _ hp

theorem timeMap_index {tm : OMap K K} (h : TimeMapOK tm ps)
    (hs : ps.Pairwise (fun p q => p.xi < q.xi)) {p : Pt K S} (hp : p ∈ ps) :
    OMap.index tm p.xi 0 = (p.t, ps.map (fun p => (p.xi, p.t))) := by
  rcases h with h | ⟨q, hq, ht, hx, h⟩
  · subst h
    exact OMap.index_of_get? (get_map hs _ hp) 0
  · subst hq h
    simp only [List.mem_singleton] at hp
    subst hp
    simp [OMap.index, OMap.set, ht]

theorem timeMapOK_built (ps : List (Pt K S)) : TimeMapOK (ps.map (fun p => (p.xi, p.t))) ps :=
  Or.inl rfl

theorem buildMap_eq (d : Data K S) (ps : List (Pt K S)) (hx : d.xi = ps.map (·.xi))
    (ht : d.t = ps.map (·.t)) (h₁ : ps.Pairwise (fun p q => p.xi < q.xi))
    (h₂ : ps.Pairwise (fun p q => p.t < q.t)) :
    buildMap d = .ok { d with
      tmap := ps.map (fun p => (p.xi, p.t))
      ximap := ps.map (fun p => (p.t, p.xi)) } := by
  unfold buildMap
  rw [if_pos (by simp [hx, ht])]
  have hz : d.xi.zip d.t = ps.map (fun p => (p.xi, p.t)) := by
    rw [hx, ht, List.zip_map']
  have e1 : (d.xi.zip d.t).foldl (fun m p => OMap.insertNew m p.1 p.2) [] =
      ps.map (fun p => (p.xi, p.t)) := by
    rw [hz, List.foldl_map]
    have := foldl_insertNew (fun p : Pt K S => p.xi) (fun p => p.t) ps [] h₁ (by simp)
    simpa using this
  have e2 : (d.xi.zip d.t).foldl (fun m p => OMap.insertNew m p.2 p.1) [] =
      ps.map (fun p => (p.t, p.xi)) := by
    rw [hz, List.foldl_map]
    have := foldl_insertNew (fun p : Pt K S => p.t) (fun p => p.xi) ps [] h₂ (by simp)
    simpa using this
  rw [e1, e2]

/-! ## Gaps -/

theorem gaps_append (l : List (Pt K S)) (a : Pt K S) (r : List (Pt K S)) :
    gaps (l ++ a :: r) = gaps (l ++ [a]) ++ gaps (a :: r) := by
  induction l with
  | nil => simp [gaps]
  | cons p l ih =>
    cases l with
    | nil => simp [gaps]
    | cons q l =>
      simp only [List.cons_append, gaps] at ih ⊢
      rw [ih, List.append_assoc]

theorem mem_gaps {j : Job K} (h : j ∈ gaps ps) : ∃ pre a b post, ps = pre ++ a :: b :: post ∧
    j = ⟨a.xi, b.xi, j.level⟩ ∧ b.pend = some j.level := by
  induction ps with
  | nil => simp [gaps] at h
  | cons p l ih =>
    cases l with
    | nil => simp [gaps] at h
    | cons q l =>
      simp only [gaps, List.mem_append] at h
      rcases h with h | h
      · refine ⟨[], p, q, l, rfl, ?_⟩
        unfold gapJob at h
        split at h
        · rename_i ℓ hl
          simp at h
          subst h
          exact ⟨rfl, hl⟩
        · simp at h
      · obtain ⟨pre, a, b, post, he, h1, h2⟩ := ih h
        exact ⟨p :: pre, a, b, post, by rw [he]; rfl, h1, h2⟩

theorem gaps_congr_head {a a' : Pt K S} (l : List (Pt K S)) (h : a.xi = a'.xi) :
    gaps (a :: l) = gaps (a' :: l) := by
  cases l with
  | nil => rfl
  | cons b l => simp [gaps, gapJob, h]

theorem gaps_map_shift (f : Pt K S → Pt K S) (hf : ∀ p, (f p).xi = p.xi)
    (hp : ∀ p, (f p).pend = p.pend) (l : List (Pt K S)) : gaps (l.map f) = gaps l := by
  induction l with
  | nil => rfl
  | cons a l ih =>
    cases l with
    | nil => rfl
    | cons b l =>
      simp only [List.map_cons, gaps] at ih ⊢
      rw [ih]
      simp [gapJob, hf, hp]

theorem gaps_level_pos (h : ∀ p ∈ ps, ∀ ℓ, p.pend = some ℓ → 0 < ℓ) :
    ∀ j ∈ gaps ps, 0 < j.level := by
  intro j hj
  obtain ⟨pre, a, b, post, he, h1, h2⟩ := mem_gaps hj
  exact h b (by simp [he]) _ h2

theorem gaps_middle (pre : List (Pt K S)) (a b : Pt K S) (post : List (Pt K S)) :
    gaps (pre ++ a :: b :: post) = gaps (pre ++ [a]) ++ (gapJob a b ++ gaps (b :: post)) := by
  rw [gaps_append]; rfl

/-- A job of positive level of a represented data set is a gap of the curve. -/
theorem Rep.job_gap (h : Rep d ps) {j : Job K} (hj : j ∈ allJobs d) (hl : 0 < j.level) :
    ∃ pre a b post, ps = pre ++ a :: b :: post ∧ j = ⟨a.xi, b.xi, j.level⟩ ∧
      b.pend = some j.level :=
  mem_gaps (h.jobs.mem_iff.1 (List.mem_filter.2 ⟨hj, by simpa using hl⟩))

theorem Rep.job_lo (h : Rep d ps) {j : Job K} (hj : j ∈ allJobs d) : ∃ p ∈ ps, p.xi = j.lo := by
  rcases Nat.eq_zero_or_pos j.level with hl | hl
  · exact (h.zero j hj hl).2
  · obtain ⟨pre, a, b, post, he, h1, -⟩ := h.job_gap hj hl
    exact ⟨a, by simp [he], by rw [h1]⟩

theorem Rep.job_hi (h : Rep d ps) {j : Job K} (hj : j ∈ allJobs d) : ∃ p ∈ ps, p.xi = j.hi := by
  rcases Nat.eq_zero_or_pos j.level with hl | hl
  · obtain ⟨e, p, hp, hx⟩ := h.zero j hj hl
    exact ⟨p, hp, by rw [hx, e]⟩
  · obtain ⟨pre, a, b, post, he, h1, -⟩ := h.job_gap hj hl
    exact ⟨b, by simp [he], by rw [h1]⟩

/-! ## pop -/

/-- The state after a successful `pop`. -/
def popState (d : Data K S) (j : Job K) (q : List (Job K)) (ps : List (Pt K S)) : Data K S :=
  { d with
    queue := q
    tmap := ps.map (fun p => (p.xi, p.t))
    jobs := d.jobs ++ [(d.nextID, j)]
    nextID := d.nextID + 1 }

theorem Rep.pop_eq (h : Rep d ps) {j : Job K} {q : List (Job K)} (hq : d.queue = j :: q)
    {p : Pt K S} (hp : p ∈ ps) (hpx : p.xi = j.lo) {p' : Pt K S} (hp' : p' ∈ ps)
    (hpx' : p'.xi = j.hi) :
    pop d = .ok (⟨d.nextID, if j.lo = j.hi ∧ j.level = 0 then d.dt else p'.t - p.t, p.sol, p.prev⟩,
      popState d j q ps) := by
  unfold pop
  have hi := h.init (Or.inl (by simp [hq]))
  rw [hi, hq]
  simp only [Bool.not_true, Bool.false_eq_true, if_false]
  rw [← hpx, timeMap_index h.tmap h.sortedXi hp]
  simp only
  rw [← hpx', timeMap_index (timeMapOK_built ps) h.sortedXi hp', h.get_sols hp, h.get_prevs hp]
  simp only
  rw [OMap.set_last d.jobs d.nextID j (fun q hq => h.ids q hq), APALM.popState, hi]

theorem Rep.popState (h : Rep d ps) {j : Job K} {q : List (Job K)} (hq : d.queue = j :: q) :
    Rep (popState d j q ps) ps where
  xi := h.xi
  t := h.t
  sols := h.sols
  levels := h.levels
  prevs := h.prevs
  tmap := timeMapOK_built ps
  ximap := h.ximap
  sortedXi := h.sortedXi
  sortedT := h.sortedT
  head0 := h.head0
  jobs := by
    refine List.Perm.trans (List.Perm.filter _ ?_) h.jobs
    simp only [allJobs, APALM.popState, OMap.vals, List.map_append, List.map_cons, List.map_nil, hq]
    rw [← List.append_assoc]
    exact (List.perm_append_comm).trans (by simp)
  zero := by
    intro i hi hl
    refine h.zero i ?_ hl
    simp only [allJobs, APALM.popState, OMap.vals, List.map_append, List.map_cons, List.map_nil, hq,
      List.mem_append, List.mem_cons, List.not_mem_nil, or_false] at hi ⊢
    tauto
  jobsSorted := by
    simp only [APALM.popState, OMap.Sorted]
    rw [List.pairwise_append]
    refine ⟨h.jobsSorted, by simp, ?_⟩
    intro a ha b hb
    simp at hb; subst hb
    exact h.ids a ha
  ids := by
    intro x hx
    simp only [APALM.popState, List.mem_append, List.mem_singleton] at hx ⊢
    rcases hx with hx | hx
    · have := h.ids x hx; omega
    · subst hx; simp
  init := fun _ => h.init (Or.inl (by simp [hq]))
  pendPos := h.pendPos

/-! ## finishJob -/

theorem finish_none {id : ℕ} (hj : OMap.get? d.jobs id = none) :
    finishJob d id = d := by
  simp [finishJob, OMap.erase_of_not_mem hj]

theorem allJobs_finish {id : ℕ} {j : Job K} (hs : OMap.Sorted d.jobs)
    (hj : OMap.get? d.jobs id = some j) :
    (allJobs d).Perm (j :: allJobs (finishJob d id)) := by
  obtain ⟨m₁, m₂, he, h₁, h₂⟩ := OMap.exists_split hs hj
  simp only [allJobs, finishJob, he]
  rw [OMap.erase_append (fun p hp => ne_of_lt (h₁ p hp))]
  simp only [OMap.vals, List.map_append, List.map_cons]
  rw [← List.append_assoc, ← List.append_assoc]
  exact List.perm_middle

theorem mem_allJobs_of_get {id : ℕ} {j : Job K} (hj : OMap.get? d.jobs id = some j) :
    j ∈ allJobs d := by
  simp only [allJobs, List.mem_append, OMap.vals]
  exact Or.inr (List.mem_map.2 ⟨(id, j), OMap.mem_of_get? hj, rfl⟩)

theorem Rep.finish_zero (h : Rep d ps) {id : ℕ} {j : Job K} (hj : OMap.get? d.jobs id = some j)
    (hl : j.level = 0) : Rep (finishJob d id) ps where
  xi := h.xi
  t := h.t
  sols := h.sols
  levels := h.levels
  prevs := h.prevs
  tmap := h.tmap
  ximap := h.ximap
  sortedXi := h.sortedXi
  sortedT := h.sortedT
  head0 := h.head0
  jobs := by
    have := (allJobs_finish h.jobsSorted hj).filter (fun j => decide (0 < j.level))
    rw [List.filter_cons_of_neg (by simp [hl])] at this
    exact this.symm.trans h.jobs
  zero := fun i hi => h.zero i ((allJobs_finish h.jobsSorted hj).mem_iff.2 (by simp [hi]))
  jobsSorted := OMap.sorted_erase h.jobsSorted id
  ids := fun q hq => h.ids q (OMap.mem_of_mem_erase hq)
  init := by
    intro hh
    refine h.init (Or.inr ?_)
    intro hn
    rw [hn] at hj
    simp at hj
  pendPos := h.pendPos

/-- Removing a pending mark. -/
theorem Rep.finish_gap {pre : List (Pt K S)} {a b : Pt K S} {post : List (Pt K S)} {id : ℕ} {ℓ : ℕ}
    (h : Rep d (pre ++ a :: b :: post)) (hj : OMap.get? d.jobs id = some ⟨a.xi, b.xi, ℓ⟩)
    (hp : b.pend = some ℓ) :
    Rep (finishJob d id) (pre ++ a :: { b with pend := none } :: post) where
  xi := by rw [finishJob, h.xi]; simp
  t := by rw [finishJob, h.t]; simp
  sols := by rw [finishJob, h.sols]; simp
  levels := by rw [finishJob, h.levels]; simp
  prevs := by rw [finishJob, h.prevs]; simp
  tmap := by
    rcases h.tmap with hh | ⟨p, hh, _⟩
    · left; rw [finishJob, hh]; simp
    · have := congrArg List.length hh; simp at this; omega
  ximap := by
    rcases h.ximap with hh | ⟨p, hh, _⟩
    · left; rw [finishJob, hh]; simp
    · have := congrArg List.length hh; simp at this; omega
  sortedXi := by
    have := h.sortedXi
    simp only [List.pairwise_append, List.pairwise_cons, List.mem_cons, forall_eq_or_imp] at this ⊢
    exact this
  sortedT := by
    have := h.sortedT
    simp only [List.pairwise_append, List.pairwise_cons, List.mem_cons, forall_eq_or_imp] at this ⊢
    exact this
  head0 := by
    have := h.head0
    cases pre <;> simpa using this
  jobs := by
    have hℓ := h.pendPos b (by simp) ℓ hp
    have h1 := (allJobs_finish h.jobsSorted hj).filter (fun j => decide (0 < j.level))
    rw [List.filter_cons_of_pos (by simpa using hℓ)] at h1
    have h2 := h1.symm.trans h.jobs
    rw [gaps_middle, gapJob, hp] at h2
    rw [gaps_middle, gapJob]
    simp only [List.nil_append]
    refine (List.Perm.cons_inv (a := (⟨a.xi, b.xi, ℓ⟩ : Job K)) ?_)
    refine h2.trans ?_
    rw [gaps_congr_head (a := { b with pend := none }) (a' := b) post rfl]
    exact List.perm_middle
  zero := by
    intro i hi hl
    obtain ⟨e, p, hp, hx⟩ :=
      h.zero i ((allJobs_finish h.jobsSorted hj).mem_iff.2 (by simp [hi])) hl
    refine ⟨e, ?_⟩
    simp only [List.mem_append, List.mem_cons] at hp
    rcases hp with hp | hp | hp | hp
    · exact ⟨p, by simp [hp], hx⟩
    · exact ⟨p, by simp [hp], hx⟩
    · exact ⟨{ b with pend := none }, by simp, by rw [← hx, hp]⟩
    · exact ⟨p, by simp [hp], hx⟩
  jobsSorted := OMap.sorted_erase h.jobsSorted id
  ids := fun q hq => h.ids q (OMap.mem_of_mem_erase hq)
  init := by
    intro hh
    refine h.init (Or.inr ?_)
    intro hn
    rw [hn] at hj
    simp at hj
  pendPos := by
    intro p hpp ℓ' hl
    simp only [List.mem_append, List.mem_cons] at hpp
    rcases hpp with hpp | hpp | hpp | hpp
    · exact h.pendPos p (by simp [hpp]) ℓ' hl
    · exact h.pendPos p (by simp [hpp]) ℓ' hl
    · rw [hpp] at hl; simp at hl
    · exact h.pendPos p (by simp [hpp]) ℓ' hl

end GsSA.APALM
