import Verif.Data.Submit

/-!
# The remaining operations on the abstract curve (proof machinery)
-/

set_option linter.unusedSectionVars false

namespace GsSA.APALM

open GsSA

variable {K S : Type*} [Field K] [LinearOrder K] [IsStrictOrderedRing K]
variable {d : Data K S} {ps : List (Pt K S)}

/-- `submit` followed by `finishJob`. -/
theorem Rep.submit_finish {pre : List (Pt K S)} {a b : Pt K S} {post : List (Pt K S)} {id ℓ : ℕ}
    (h : Rep d (pre ++ a :: b :: post)) (hj : OMap.get? d.jobs id = some ⟨a.xi, b.xi, ℓ⟩)
    (hp : b.pend = some ℓ) {s : SubmitData K S} (hs : SubmitOK s a b) :
    Rep (finishJob (submitState d
        (d.queue ++ gaps (a :: (s.newPts d.maxLevel d.tol a b ℓ ++ [s.endPt d.maxLevel d.tol a b ℓ])))
        (s.curve d.maxLevel d.tol pre a b post ℓ)) id)
      (s.curve d.maxLevel d.tol pre a b post ℓ) := by
  obtain ⟨hcx, hct⟩ := curve_sorted (s := s) d.maxLevel d.tol ℓ h.sortedXi h.sortedT hs
  have hℓ := h.pendPos b (by simp) ℓ hp
  have hgp : ∀ j ∈ gaps (a :: (s.newPts d.maxLevel d.tol a b ℓ ++
      [s.endPt d.maxLevel d.tol a b ℓ])), 0 < j.level := by
    intro j hj
    obtain ⟨pre', a', b', post', he, -, hb'⟩ := mem_gaps hj
    have hmem : b' ∈ s.newPts d.maxLevel d.tol a b ℓ ++ [s.endPt d.maxLevel d.tol a b ℓ] := by
      have : b' ∈ (pre' ++ a' :: b' :: post').tail := by cases pre' <;> simp
      rw [← he] at this
      simpa using this
    simp only [List.mem_append, List.mem_singleton] at hmem
    rcases hmem with hm | hm
    · have := (newPts_mem _ _ _ _ _ _ b' hm).2.2
      rw [hb', SubmitData.pendLow] at this
      split at this <;> simp at this
      omega
    · rw [hm] at hb'
      simp only [SubmitData.endPt, SubmitData.pendUpp] at hb'
      split at hb' <;> simp at hb'
      omega
  exact {
    xi := rfl
    t := rfl
    sols := rfl
    levels := rfl
    prevs := rfl
    tmap := Or.inl rfl
    ximap := Or.inl rfl
    sortedXi := hcx
    sortedT := hct
    head0 := by
      have := h.head0
      unfold SubmitData.curve
      cases pre <;> simpa using this
    jobs := by
      have h1 := (allJobs_finish h.jobsSorted hj).filter (fun j => decide (0 < j.level))
      rw [List.filter_cons_of_pos (by simpa using hℓ)] at h1
      have h2 := h1.symm.trans h.jobs
      rw [gaps_middle, gapJob, hp] at h2
      have h3 : ((allJobs (finishJob d id)).filter (fun j => decide (0 < j.level))).Perm
          (gaps (pre ++ [a]) ++ gaps (b :: post)) :=
        List.Perm.cons_inv (a := (⟨a.xi, b.xi, ℓ⟩ : Job K)) (h2.trans List.perm_middle)
      set new := s.newPts d.maxLevel d.tol a b ℓ with hnew
      set e := s.endPt d.maxLevel d.tol a b ℓ with he
      have h4 : gaps (s.curve d.maxLevel d.tol pre a b post ℓ) =
          gaps (pre ++ [a]) ++ (gaps (a :: (new ++ [e])) ++ gaps (b :: post)) := by
        unfold SubmitData.curve
        rw [← hnew, ← he, gaps_append]
        congr 1
        rw [show ∀ r, a :: (new ++ e :: r) = (a :: new) ++ e :: r by simp, gaps_append]
        congr 1
        rw [gaps_congr_head (a' := shiftPt (s.ds.sum + s.δ - (b.t - a.t)) b)
          (a := e) _ rfl, ← List.map_cons]
        exact gaps_map_shift (shiftPt (s.ds.sum + s.δ - (b.t - a.t))) (fun _ => rfl)
          (fun _ => rfl) (b :: post)
      rw [h4]
      have h5 : allJobs (finishJob (submitState d (d.queue ++ gaps (a :: (new ++ [e])))
          (s.curve d.maxLevel d.tol pre a b post ℓ)) id) =
          d.queue ++ gaps (a :: (new ++ [e])) ++ OMap.vals (OMap.erase d.jobs id) := rfl
      have h7 : (gaps (a :: (new ++ [e]))).filter (fun j => decide (0 < j.level)) =
          gaps (a :: (new ++ [e])) := List.filter_eq_self.2 (fun j hj => by simpa using hgp j hj)
      rw [h5, List.filter_append, List.filter_append, h7]
      have h6 : (allJobs (finishJob d id)).filter (fun j => decide (0 < j.level)) =
          d.queue.filter (fun j => decide (0 < j.level)) ++
          (OMap.vals (OMap.erase d.jobs id)).filter (fun j => decide (0 < j.level)) := by
        rw [← List.filter_append]; rfl
      rw [h6] at h3
      refine List.Perm.trans (l₂ := gaps (a :: (new ++ [e])) ++
        (d.queue.filter (fun j => decide (0 < j.level)) ++
          (OMap.vals (OMap.erase d.jobs id)).filter (fun j => decide (0 < j.level)))) ?_ ?_
      · rw [← List.append_assoc]
        exact List.Perm.append_right _ List.perm_append_comm
      · refine (h3.append_left _).trans ?_
        rw [← List.append_assoc, ← List.append_assoc]
        exact List.Perm.append_right _ List.perm_append_comm
    zero := by
      intro i hi hl
      have hi' : i ∈ allJobs (finishJob d id) := by
        simp only [allJobs, finishJob, submitState, List.mem_append] at hi ⊢
        rcases hi with (hi | hi) | hi
        · exact Or.inl hi
        · have := hgp i hi; omega
        · exact Or.inr hi
      obtain ⟨e1, p, hp', hx⟩ :=
        h.zero i ((allJobs_finish h.jobsSorted hj).mem_iff.2 (by simp [hi'])) hl
      refine ⟨e1, ?_⟩
      simp only [List.mem_append, List.mem_cons] at hp'
      unfold SubmitData.curve
      rcases hp' with hp' | hp' | hp' | hp'
      · exact ⟨p, by simp [hp'], hx⟩
      · exact ⟨p, by simp [hp'], hx⟩
      · exact ⟨s.endPt d.maxLevel d.tol a b ℓ, by simp, by rw [← hx, hp']; rfl⟩
      · exact ⟨shiftPt (s.ds.sum + s.δ - (b.t - a.t)) p, by
          simp only [List.mem_append, List.mem_cons, List.mem_map]
          exact Or.inr (Or.inr (Or.inr (Or.inr ⟨p, hp', rfl⟩))), hx⟩
    jobsSorted := OMap.sorted_erase h.jobsSorted id
    ids := fun q hq => h.ids q (OMap.mem_of_mem_erase hq)
    init := fun _ => h.init (Or.inr (by intro hn; rw [hn] at hj; simp at hj))
    pendPos := by
      intro p hpp ℓ' hl'
      unfold SubmitData.curve at hpp
      simp only [List.mem_append, List.mem_cons, List.mem_map] at hpp
      rcases hpp with hpp | hpp | hpp | hpp | ⟨q, hq, rfl⟩
      · exact h.pendPos p (by simp [hpp]) ℓ' hl'
      · exact h.pendPos p (by simp [hpp]) ℓ' hl'
      · have := (newPts_mem _ _ _ _ _ _ p hpp).2.2
        rw [hl', SubmitData.pendLow] at this
        split at this <;> simp at this
        omega
      · rw [hpp] at hl'
        simp only [SubmitData.endPt, SubmitData.pendUpp] at hl'
        split at hl' <;> simp at hl'
        omega
      · exact h.pendPos q (by simp [hq]) ℓ' hl' }

/-! ## Starting and appending -/

theorem perm_pushJob (q : List (Job K)) (j : Job K) (b : Bool) : (pushJob q j b).Perm (j :: q) := by
  cases b
  · exact List.perm_append_comm (l₁ := q) (l₂ := [j])
  · exact List.Perm.refl _

theorem pushJob_ne_nil (q : List (Job K)) (j : Job K) (b : Bool) : pushJob q j b ≠ [] := by
  intro h
  have := (perm_pushJob q j b).length_eq
  rw [h] at this
  simp at this

/-- The state after `addStartPoint` at time 0 on a fresh data set. -/
def startState (d : Data K S) (sol : S) : Data K S :=
  { applyOptions d with
    t := [0]
    xi := [0]
    sols := [(0, sol)]
    levels := [(0, 0)]
    prevs := [(0, sol)]
    queue := [⟨0, 0, 0⟩]
    initialized := true }

/-- A data set without any point or job. -/
structure IsFresh (d : Data K S) : Prop where
  xi : d.xi = []
  t : d.t = []
  sols : d.sols = []
  levels : d.levels = []
  prevs : d.prevs = []
  tmap : d.tmap = []
  ximap : d.ximap = []
  queue : d.queue = []
  jobs : d.jobs = []

theorem IsFresh.rep (h : IsFresh d) : Rep d [] where
  xi := h.xi
  t := h.t
  sols := h.sols
  levels := h.levels
  prevs := h.prevs
  tmap := Or.inl h.tmap
  ximap := Or.inl h.ximap
  sortedXi := by simp
  sortedT := by simp
  head0 := by simp
  jobs := by simp [allJobs, h.queue, h.jobs, gaps, OMap.vals]
  zero := by simp [allJobs, h.queue, h.jobs, OMap.vals]
  jobsSorted := by simp [h.jobs, OMap.Sorted]
  ids := by simp [h.jobs]
  init := by simp [h.jobs, h.queue]
  pendPos := by simp

theorem Rep.isFresh (h : Rep d []) : IsFresh d := by
  have h1 : allJobs d = [] := by
    rw [List.eq_nil_iff_forall_not_mem]
    intro j hj
    obtain ⟨p, hp, -⟩ := h.job_lo hj
    simp at hp
  simp only [allJobs, List.append_eq_nil_iff, OMap.vals, List.map_eq_nil_iff] at h1
  exact {
    xi := h.xi
    t := h.t
    sols := h.sols
    levels := h.levels
    prevs := h.prevs
    tmap := by
      rcases h.tmap with h | ⟨p, hp, _⟩
      · exact h
      · simp at hp
    ximap := by
      rcases h.ximap with h | ⟨p, hp, _⟩
      · exact h
      · simp at hp
    queue := h1.1
    jobs := h1.2 }

theorem addStartPoint_eq (h : IsFresh d) (sol : S) (b : Bool) :
    addStartPoint d 0 sol b = .ok (startState d sol) := by
  cases b <;>
  simp [addStartPoint, h.t, h.xi, h.sols, h.levels, h.prevs, h.queue, OMap.insertNew, OMap.get?,
    knotInsert, startState, pushJob, applyOptions]

theorem startState_rep (h : IsFresh d) (sol : S) :
    Rep (startState d sol) [⟨0, 0, sol, 0, sol, none⟩] where
  xi := rfl
  t := rfl
  sols := rfl
  levels := rfl
  prevs := rfl
  tmap := Or.inr ⟨_, rfl, rfl, rfl, h.tmap⟩
  ximap := Or.inr ⟨_, rfl, rfl, rfl, h.ximap⟩
  sortedXi := by simp
  sortedT := by simp
  head0 := by simp
  jobs := by simp [allJobs, startState, gaps, applyOptions, h.jobs, OMap.vals]
  zero := by
    intro j hj _
    simp [allJobs, startState, applyOptions, h.jobs, OMap.vals] at hj
    subst hj
    exact ⟨rfl, _, List.mem_singleton.2 rfl, rfl⟩
  jobsSorted := by simp [startState, applyOptions, h.jobs, OMap.Sorted]
  ids := by simp [startState, applyOptions, h.jobs]
  init := fun _ => rfl
  pendPos := by simp

/-- The state after `appendPoint`. -/
def appendPointState (d : Data K S) (x : K) (b : Bool) : Data K S :=
  { d with
    queue := pushJob d.queue ⟨x, x, 0⟩ b
    initialized := true }

theorem Rep.appendPoint_eq {l : List (Pt K S)} {p : Pt K S} (h : Rep d (l ++ [p])) (b : Bool) :
    appendPoint d b = .ok (appendPointState d p.xi b) := by
  simp [appendPoint, h.xi, appendPointState]

theorem Rep.appendPoint {l : List (Pt K S)} {p : Pt K S} (h : Rep d (l ++ [p])) (b : Bool) :
    Rep (appendPointState d p.xi b) (l ++ [p]) where
  xi := h.xi
  t := h.t
  sols := h.sols
  levels := h.levels
  prevs := h.prevs
  tmap := h.tmap
  ximap := h.ximap
  sortedXi := h.sortedXi
  sortedT := h.sortedT
  head0 := h.head0
  jobs := by
    refine List.Perm.trans (List.Perm.filter _ ?_) h.jobs (l₂ := ((⟨p.xi, p.xi, 0⟩ : Job K) ::
      allJobs d).filter (fun j => decide (0 < j.level)))
    exact (perm_pushJob _ _ _).append_right _
  zero := by
    intro j hj hl
    have : j ∈ (⟨p.xi, p.xi, 0⟩ : Job K) :: allJobs d :=
      ((perm_pushJob d.queue _ b).append_right (OMap.vals d.jobs)).mem_iff.1 hj
    rcases List.mem_cons.1 this with h1 | h1
    · subst h1; exact ⟨rfl, p, by simp, rfl⟩
    · exact h.zero j h1 hl
  jobsSorted := h.jobsSorted
  ids := h.ids
  init := fun _ => rfl
  pendPos := h.pendPos

/-- Abstract state change of `appendData` on an empty data set. -/
def appendFirstState (d : Data K S) (time : K) (sol : S) : Data K S :=
  { d with
    sols := [(0, sol)]
    levels := [(0, 0)]
    prevs := [(0, sol)]
    t := [time]
    xi := [0]
    tmap := [(0, time)]
    ximap := [(time, 0)] }

theorem appendData_first_eq (h : IsFresh d) (time : K) (sol : S) (b : Bool) :
    appendData d time sol b = .ok (appendFirstState d time sol) := by
  simp [appendData, h.t, h.xi, h.sols, h.levels, h.prevs, OMap.insertNew, OMap.get?,
    knotInsert, appendFirstState, buildMap]

theorem appendFirst_rep (h : IsFresh d) (time : K) (sol : S) :
    Rep (appendFirstState d time sol) [⟨0, time, sol, 0, sol, none⟩] where
  xi := rfl
  t := rfl
  sols := rfl
  levels := rfl
  prevs := rfl
  tmap := Or.inl rfl
  ximap := Or.inl rfl
  sortedXi := by simp
  sortedT := by simp
  head0 := by simp
  jobs := by simp [allJobs, appendFirstState, gaps, h.jobs, h.queue, OMap.vals]
  zero := by
    intro j hj _
    simp [allJobs, appendFirstState, h.jobs, h.queue, OMap.vals] at hj
  jobsSorted := by simp [appendFirstState, h.jobs, OMap.Sorted]
  ids := by simp [appendFirstState, h.jobs]
  init := by simp [appendFirstState, h.jobs, h.queue]
  pendPos := by simp

/-- Parameter given by `appendData` to the new point. -/
def appendPar (ps : List (Pt K S)) (time : K) : K :=
  match ps with
  | [] => 0
  | [_] => 1
  | p0 :: l@(_ :: _) =>
    let p := l.getLast (by simp_all)
    (time - p.t) * (p.xi - p0.xi) / (p.t - p0.t) + p.xi

/-- The state after `appendData` on a nonempty data set. -/
def appendState (d : Data K S) (j : Job K) (b : Bool) (ps' : List (Pt K S)) : Data K S :=
  { d with
    sols := ps'.map (fun p => (p.xi, p.sol))
    levels := ps'.map (fun p => (p.xi, p.level))
    prevs := ps'.map (fun p => (p.xi, p.prev))
    queue := pushJob d.queue j b
    initialized := true
    t := ps'.map (·.t)
    xi := ps'.map (·.xi)
    tmap := ps'.map (fun p => (p.xi, p.t))
    ximap := ps'.map (fun p => (p.t, p.xi)) }

theorem Rep.last_lt {l : List (Pt K S)} {p : Pt K S} (h : Rep d (l ++ [p])) :
    ∀ q ∈ l, q.xi < p.xi ∧ q.t < p.t := fun q hq =>
  ⟨(List.pairwise_append.1 h.sortedXi).2.2 q hq p (by simp),
    (List.pairwise_append.1 h.sortedT).2.2 q hq p (by simp)⟩

theorem Rep.appendPar_gt {l : List (Pt K S)} {p : Pt K S} (h : Rep d (l ++ [p])) {time : K}
    (ht : p.t < time) : p.xi < appendPar (l ++ [p]) time := by
  cases l with
  | nil =>
    have := (h.head0 p (by simp)).1
    simp [appendPar, this]
  | cons p0 l =>
    have e : appendPar (p0 :: l ++ [p]) time =
        (time - p.t) * (p.xi - p0.xi) / (p.t - p0.t) + p.xi := by
      cases l <;> simp [appendPar]
    rw [e]
    obtain ⟨h1, h2⟩ := h.last_lt p0 (by simp)
    have : 0 < (time - p.t) * (p.xi - p0.xi) / (p.t - p0.t) := by
      apply div_pos
      · apply mul_pos <;> linarith
      · linarith
    linarith

/-- The point added by `appendData`. -/
def appendPt (ps : List (Pt K S)) (p : Pt K S) (time : K) (sol : S) : Pt K S :=
  ⟨appendPar ps time, time, sol, 0, p.sol, some 1⟩

theorem appendPoints_sorted {l : List (Pt K S)} {p : Pt K S} (h : Rep d (l ++ [p])) {time : K}
    (ht : p.t < time) (sol : S) :
    (l ++ [p] ++ [appendPt (l ++ [p]) p time sol]).Pairwise (fun p q => p.xi < q.xi) ∧
    (l ++ [p] ++ [appendPt (l ++ [p]) p time sol]).Pairwise (fun p q => p.t < q.t) := by
  have hx := h.appendPar_gt ht
  constructor
  · rw [List.pairwise_append]
    refine ⟨h.sortedXi, by simp, ?_⟩
    intro q hq r hr
    simp only [List.mem_singleton] at hr
    subst hr
    simp only [List.mem_append, List.mem_singleton] at hq
    rcases hq with hq | hq
    · exact (h.last_lt q hq).1.trans hx
    · subst hq; exact hx
  · rw [List.pairwise_append]
    refine ⟨h.sortedT, by simp, ?_⟩
    intro q hq r hr
    simp only [List.mem_singleton] at hr
    subst hr
    simp only [List.mem_append, List.mem_singleton] at hq
    rcases hq with hq | hq
    · exact (h.last_lt q hq).2.trans ht
    · subst hq; exact ht

theorem Rep.appendData_eq {l : List (Pt K S)} {p : Pt K S} (h : Rep d (l ++ [p])) {time : K}
    (ht : p.t < time) (sol : S) (b : Bool) :
    appendData d time sol b =
      .ok (appendState d ⟨p.xi, appendPar (l ++ [p]) time, 1⟩ b
        (l ++ [p] ++ [appendPt (l ++ [p]) p time sol])) := by
  obtain ⟨hsx, hst⟩ := appendPoints_sorted h ht sol
  have hx := h.appendPar_gt ht
  have hlast : ∀ q ∈ l ++ [p], q.xi < appendPar (l ++ [p]) time := by
    intro q hq
    exact (List.pairwise_append.1 hsx).2.2 q hq (appendPt (l ++ [p]) p time sol) (by simp)
  have hlastt : ∀ q ∈ l ++ [p], q.t < time := by
    intro q hq
    exact (List.pairwise_append.1 hst).2.2 q hq (appendPt (l ++ [p]) p time sol) (by simp)
  have hsols : OMap.insertNew d.sols (appendPar (l ++ [p]) time) sol =
      (l ++ [p] ++ [appendPt (l ++ [p]) p time sol]).map (fun p => (p.xi, p.sol)) := by
    rw [h.sols, OMap.insertNew_last]
    · rw [List.map_append (l₂ := [appendPt _ _ _ _])]; rfl
    · intro q hq
      obtain ⟨r, hr, rfl⟩ := List.mem_map.1 hq
      exact hlast r hr
  have hlev : OMap.insertNew d.levels (appendPar (l ++ [p]) time) 0 =
      (l ++ [p] ++ [appendPt (l ++ [p]) p time sol]).map (fun p => (p.xi, p.level)) := by
    rw [h.levels, OMap.insertNew_last]
    · rw [List.map_append (l₂ := [appendPt _ _ _ _])]; rfl
    · intro q hq
      obtain ⟨r, hr, rfl⟩ := List.mem_map.1 hq
      exact hlast r hr
  have hprev : OMap.insertNew d.prevs (appendPar (l ++ [p]) time) p.sol =
      (l ++ [p] ++ [appendPt (l ++ [p]) p time sol]).map (fun p => (p.xi, p.prev)) := by
    rw [h.prevs, OMap.insertNew_last]
    · rw [List.map_append (l₂ := [appendPt _ _ _ _])]; rfl
    · intro q hq
      obtain ⟨r, hr, rfl⟩ := List.mem_map.1 hq
      exact hlast r hr
  have hget : OMap.get? ((l ++ [p] ++ [appendPt (l ++ [p]) p time sol]).map
      (fun p => (p.xi, p.sol))) p.xi = some p.sol := get_map hsx _ (by simp)
  have hkx : knotInsert d.xi (appendPar (l ++ [p]) time) =
      (l ++ [p] ++ [appendPt (l ++ [p]) p time sol]).map (·.xi) := by
    have := knotInsert_between d.xi [] (appendPar (l ++ [p]) time) (by
      intro x hx
      rw [h.xi] at hx
      obtain ⟨q, hq, rfl⟩ := List.mem_map.1 hx
      exact hlast q hq) (by simp)
    rw [List.append_nil] at this
    rw [this, h.xi, List.map_append (l₂ := [appendPt _ _ _ _])]; rfl
  have hkt : knotInsert d.t time =
      (l ++ [p] ++ [appendPt (l ++ [p]) p time sol]).map (·.t) := by
    have := knotInsert_between d.t [] time (by
      intro x hx
      rw [h.t] at hx
      obtain ⟨q, hq, rfl⟩ := List.mem_map.1 hx
      exact hlastt q hq) (by simp)
    rw [List.append_nil] at this
    rw [this, h.t, List.map_append (l₂ := [appendPt _ _ _ _])]; rfl
  have hlen : ¬ d.t.length ≠ d.xi.length := by simp [h.t, h.xi]
  -- the shape of the knot vectors
  have key : ∀ (t0 x0 : K) (t' x' : List K), d.t = t0 :: t' → d.xi = x0 :: x' →
      (t0 :: t').getLast (by simp) = p.t ∧ (x0 :: x').getLast (by simp) = p.xi ∧
      (if t' = [] then (1 : K) else
        (time - p.t) * (p.xi - x0) / (p.t - t0) + p.xi) = appendPar (l ++ [p]) time := by
    intro t0 x0 t' x' e1 e2
    have e1' := h.t
    have e2' := h.xi
    refine ⟨?_, ?_, ?_⟩
    · have : (t0 :: t').getLast? = some p.t := by rw [← e1, e1']; simp
      rw [List.getLast?_eq_getLast_of_ne_nil (by simp)] at this
      simpa using this
    · have : (x0 :: x').getLast? = some p.xi := by rw [← e2, e2']; simp
      rw [List.getLast?_eq_getLast_of_ne_nil (by simp)] at this
      simpa using this
    · cases l with
      | nil =>
        rw [e1] at e1'
        simp at e1'
        simp [e1', appendPar]
      | cons p0 l =>
        rw [e1] at e1'
        rw [e2] at e2'
        simp at e1' e2'
        have : t' ≠ [] := by rw [e1'.2]; simp
        rw [if_neg this, e1'.1, e2'.1]
        cases l <;> simp [appendPar]
  unfold appendData
  rw [if_neg hlen]
  split
  · rename_i e1
    rw [h.t] at e1
    simp at e1
  · rename_i e1 e2
    rw [h.xi] at e2
    simp at e2
  · rename_i t0 t' x0 x' e1 e2
    obtain ⟨k1, k2, k3⟩ := key t0 x0 t' x' e1 e2
    simp only [k1, k2, k3, ht, not_true_eq_false, if_false, hsols, hget, hlev, hprev, hkx, hkt]
    rw [buildMap_eq _ (l ++ [p] ++ [appendPt (l ++ [p]) p time sol]) rfl rfl hsx hst]
    rfl

theorem Rep.appendData {l : List (Pt K S)} {p : Pt K S} (h : Rep d (l ++ [p])) {time : K}
    (ht : p.t < time) (sol : S) (b : Bool) :
    Rep (appendState d ⟨p.xi, appendPar (l ++ [p]) time, 1⟩ b
        (l ++ [p] ++ [appendPt (l ++ [p]) p time sol]))
      (l ++ [p] ++ [appendPt (l ++ [p]) p time sol]) where
  xi := rfl
  t := rfl
  sols := rfl
  levels := rfl
  prevs := rfl
  tmap := Or.inl rfl
  ximap := Or.inl rfl
  sortedXi := (appendPoints_sorted h ht sol).1
  sortedT := (appendPoints_sorted h ht sol).2
  head0 := by
    have := h.head0
    cases l <;> simpa using this
  jobs := by
    have h1 := ((perm_pushJob d.queue ⟨p.xi, appendPar (l ++ [p]) time, 1⟩ b).append_right
      (OMap.vals d.jobs)).filter (fun j => decide (0 < j.level))
    rw [List.cons_append, List.filter_cons_of_pos (by simp)] at h1
    have h2 : gaps (l ++ [p] ++ [appendPt (l ++ [p]) p time sol]) =
        gaps (l ++ [p]) ++ [⟨p.xi, appendPar (l ++ [p]) time, 1⟩] := by
      rw [List.append_assoc, List.singleton_append, gaps_append]
      rfl
    rw [h2]
    refine h1.trans ?_
    exact (List.Perm.cons _ h.jobs).trans (List.perm_append_comm (l₁ := [_]))
  zero := by
    intro j hj hl
    have : j ∈ (⟨p.xi, appendPar (l ++ [p]) time, 1⟩ : Job K) :: allJobs d :=
      ((perm_pushJob d.queue _ b).append_right (OMap.vals d.jobs)).mem_iff.1 hj
    rcases List.mem_cons.1 this with h1 | h1
    · subst h1; simp at hl
    · obtain ⟨e, q, hq, hx⟩ := h.zero j h1 hl
      exact ⟨e, q, List.mem_append_left _ hq, hx⟩
  jobsSorted := h.jobsSorted
  ids := h.ids
  init := fun _ => rfl
  pendPos := by
    intro q hq ℓ hl
    rcases List.mem_append.1 hq with hq | hq
    · exact h.pendPos q hq ℓ hl
    · simp only [List.mem_singleton] at hq
      subst hq
      simp [appendPt] at hl
      omega

end GsSA.APALM
