import Verif.Data.History
import Verif.Data.Check

/-!
# Properties of branch data sets (C01 - C09)

The statements use only the model (`Verif/Data/Model.lean`) and the notion of contract-respecting
histories (`Verif/Data/Spec.lean`).
-/

set_option linter.unusedSectionVars false

namespace GsSA.APALM

open GsSA

variable {K S : Type*} [Field K] [LinearOrder K] [IsStrictOrderedRing K]
variable {d d' : Data K S}

/-! ## Sample history for the examples -/

example : (runChecked sampleStart sampleOps).map (fun d => (flat d).map (fun p => (p.time, p.sol, p.level)))
    = some [(0, 100, 0), (1/2, 203, 1), (1, 204, 1), (5/4, 101, 0), (9/4, 201, 1), (13/4, 202, 1),
      (15/4, 102, 0)] := by
  decide +kernel

/-- Data sets reached in the sample history. -/
theorem sample_reachable {n : ℕ} {q : Data ℚ ℕ → Bool}
    (h : (runChecked sampleStart (sampleOps.take n)).any q = true) :
    ∃ d : Data ℚ ℕ, Reachable d ∧ q d = true := by
  rw [Option.any_eq_true] at h
  obtain ⟨d, hd, h⟩ := h
  exact ⟨d, ⟨_, _, _, _, exec_of_runChecked hd⟩, h⟩

/-- **C01** No contract-respecting call on a reachable data set fails (no assertion, exception or
undefined behaviour). -/
theorem C01_no_failure (h : Reachable d) (op : Op K S) (hc : Contract d op) :
    ∃ d', exec d op = .ok d' := by
  obtain ⟨ps, hr⟩ := h.rep
  obtain ⟨d', _, he, _⟩ := hr.step op hc
  exact ⟨d', he⟩

example : ∃ d : Data ℚ ℕ, Reachable d ∧ Contract d .pop := by
  have h : (runChecked sampleStart (sampleOps.take 1)).any (fun d => contractB d .pop) = true := by
    decide +kernel
  rw [Option.any_eq_true] at h
  obtain ⟨d, hd, h⟩ := h
  exact ⟨d, ⟨_, _, _, _, exec_of_runChecked hd⟩, contract_of_contractB h⟩

/-- **C01** After any history the returned times strictly increase and there is one entry per
point ever stored. -/
theorem C01_flat_strictly_ordered {maxLevel : ℕ} {tol dt : K} {ops : List (Op K S)}
    (h : Exec (Data.fresh maxLevel tol dt) ops d) :
    ((flat d).map (·.time)).Pairwise (· < ·) ∧ (flat d).length = (ops.map Op.stored).sum := by
  obtain ⟨ps, hr, hl, -, -⟩ := h.abs (fresh_isFresh maxLevel tol dt).rep
  rw [hr.flat_eq]
  refine ⟨?_, by simpa using hl⟩
  rw [List.map_map, List.pairwise_map]
  exact hr.sortedT

example : ∃ d, Exec sampleStart sampleOps d ∧ (flat d).length = 7 := by
  have h : (runChecked sampleStart sampleOps).isSome = true := by decide +kernel
  obtain ⟨d, hd⟩ := Option.isSome_iff_exists.1 h
  refine ⟨d, exec_of_runChecked hd, ?_⟩
  rw [(C01_flat_strictly_ordered (exec_of_runChecked hd)).2]
  decide

/-- **C01** A level filter returns exactly the points of that level, in order. -/
theorem C01_flat_filter (h : Reachable d) (ℓ : ℕ) :
    (getFlatSolution d (some ℓ)).1 = (flat d).filter (fun p => p.level = ℓ) := by
  obtain ⟨ps, hr⟩ := h.rep
  rw [hr.flat_filter_eq, hr.flat_eq, List.filter_map]
  congr 2
  funext p
  simp only [Function.comp, Pt.flat, reduceCtorEq, false_or, Option.some.injEq]
  congr 1
  exact propext eq_comm

/-- `C01_flat_filter`: points of two levels. -/
example : ∃ d : Data ℚ ℕ, Reachable d ∧ ((getFlatSolution d (some 1)).1.map (·.sol) = [203, 204, 201, 202] ∧
    (getFlatSolution d (some 0)).1.map (·.sol) = [100, 101, 102]) := by
  simpa using sample_reachable (n := 6) (q := fun d => decide
    ((getFlatSolution d (some 1)).1.map (·.sol) = [203, 204, 201, 202] ∧
      (getFlatSolution d (some 0)).1.map (·.sol) = [100, 101, 102])) (by decide +kernel)

/-- **C02** Whatever is called later, the stored (solution, level) pairs stay, in the same relative
order. -/
theorem C02_points_are_kept (h : Reachable d) {ops : List (Op K S)} (he : Exec d ops d') :
    ((flat d).map (fun p => (p.sol, p.level))).Sublist
      ((flat d').map (fun p => (p.sol, p.level))) := by
  obtain ⟨ps, hr⟩ := h.rep
  obtain ⟨ps', hr', -, hs, -⟩ := he.abs hr
  rw [hr.flat_eq, hr'.flat_eq, List.map_map, List.map_map]
  exact hs

example : ∃ d d', Reachable d ∧ Exec d [Op.complete 0 [1/2, 1/2, 1/4] [203, 204] 1 (1/2), .pop] d' ∧
    (flat d).length = 5 ∧ (flat d' : List (FlatPoint ℚ ℕ)).length = 7 := by
  have h : (runChecked sampleStart (sampleOps.take 4)).any (fun d =>
      (flat d).length = 5 && (runChecked d (sampleOps.drop 4)).any (fun d' =>
        (flat d').length = 7)) = true := by
    decide +kernel
  rw [Option.any_eq_true] at h
  obtain ⟨d, hd, h⟩ := h
  rw [Bool.and_eq_true, Option.any_eq_true] at h
  obtain ⟨h5, d', hd', h7⟩ := h
  exact ⟨d, d', ⟨_, _, _, _, exec_of_runChecked hd⟩, exec_of_runChecked hd', by simpa using h5,
    by simpa using h7⟩

/-- Every refinement job waiting or active. -/
def refinementJobs (d : Data K S) : List (Job K) :=
  (d.queue ++ OMap.vals d.jobs).filter (fun j => 0 < j.level)

/-- **C03** Every waiting or active refinement job spans two consecutive stored points; no stored
point lies inside it. -/
theorem C03_jobs_are_gaps (h : Reachable d) (j : Job K) (hj : j ∈ refinementJobs d) :
    (∃ i, d.xi[i]? = some j.lo ∧ d.xi[i + 1]? = some j.hi) ∧
    ∀ x ∈ d.xi, x ≤ j.lo ∨ j.hi ≤ x := by
  obtain ⟨ps, hr⟩ := h.rep
  have hj' := List.mem_filter.1 hj
  obtain ⟨pre, a, b, post, rfl, hje, -⟩ := hr.job_gap hj'.1 (by simpa using hj'.2)
  constructor
  · refine ⟨pre.length, ?_, ?_⟩
    · rw [hr.xi, hje]; simp
    · rw [hr.xi, hje]
      simp
  · intro x hx
    rw [hr.xi] at hx
    obtain ⟨p, hp, rfl⟩ := List.mem_map.1 hx
    rw [hje]
    rcases adjacent_le hr.sortedXi hp with ⟨h1, -⟩ | ⟨h1, -⟩
    · exact Or.inl h1
    · exact Or.inr h1

/-- `C03_jobs_are_gaps`: refinement jobs of two levels, waiting and active. -/
example : ∃ d : Data ℚ ℕ, Reachable d ∧ (∃ j ∈ refinementJobs d, j ∈ d.queue) ∧
    ∃ j ∈ refinementJobs d, ∃ id, Active d id j := by
  obtain ⟨d, h, hq⟩ := sample_reachable (n := 6) (q := fun d => (refinementJobs d).any (fun j => d.queue.contains j) &&
    (refinementJobs d).any (fun j => OMap.get? d.jobs 2 == some j)) (by decide +kernel)
  simp only [Bool.and_eq_true, List.any_eq_true, List.contains_iff_mem, beq_iff_eq] at hq
  obtain ⟨⟨j, h1, h2⟩, j', h3, h4⟩ := hq
  exact ⟨d, h, ⟨j, h1, h2⟩, j', h3, 2, h4⟩

/-- **C03** No two waiting or active refinement jobs share an interval: their start parameters are
pairwise different (so, by `C03_jobs_are_gaps`, the intervals do not overlap). -/
theorem C03_jobs_are_disjoint (h : Reachable d) :
    ((refinementJobs d).map (·.lo)).Nodup ∧
    (refinementJobs d).Pairwise (fun j j' => j.hi ≤ j'.lo ∨ j'.hi ≤ j.lo) := by
  have hC := C03_jobs_are_gaps h
  obtain ⟨ps, hr⟩ := h.rep
  have hn : ((refinementJobs d).map (·.lo)).Nodup := hr.lo_nodup
  refine ⟨hn, ?_⟩
  rw [List.Nodup, List.pairwise_map] at hn
  refine hn.imp_of_mem ?_
  intro j j' hj hj' hne
  have hlo : ∀ j ∈ refinementJobs d, j.lo ∈ d.xi := by
    intro j hj
    obtain ⟨⟨i, h1, -⟩, -⟩ := hC j hj
    exact List.mem_of_getElem? h1
  rcases (hC j hj).2 _ (hlo j' hj') with h1 | h1
  · rcases (hC j' hj').2 _ (hlo j hj) with h2 | h2
    · exact absurd (le_antisymm h2 h1) hne
    · exact Or.inr h2
  · exact Or.inl h1

example : ∃ d : Data ℚ ℕ, Reachable d ∧ (refinementJobs d).length = 3 := by
  have h : (runChecked sampleStart sampleOps).any (fun d => (refinementJobs d).length = 3) = true := by
    decide +kernel
  rw [Option.any_eq_true] at h
  obtain ⟨d, hd, h⟩ := h
  exact ⟨d, ⟨_, _, _, _, exec_of_runChecked hd⟩, by simpa using h⟩

/-- **C04** `pop` on a nonempty queue succeeds and hands out a new identifier; the job is then
active, its reference solution is found, and for a refinement job the length handed out is the
positive difference of the job times. The start and the reference are stored points. -/
theorem C04_pop_is_complete (h : Reachable d) {j : Job K} {q : List (Job K)}
    (hq : d.queue = j :: q) :
    ∃ r d', pop d = .ok (r, d') ∧ r.id = d.nextID ∧ Active d' r.id j ∧
      (∃ p ∈ flat d, p.sol = r.start ∧ p.time = (jobTimes d' r.id).1.1) ∧
      (∃ p ∈ flat d, (getReferenceByID d' r.id).1 = some p.sol ∧
        p.time = (jobTimes d' r.id).1.2) ∧
      (0 < j.level → r.dt = (jobTimes d' r.id).1.2 - (jobTimes d' r.id).1.1 ∧ 0 < r.dt) ∧
      (j.level = 0 → r.dt = d.dt ∧ (jobTimes d' r.id).1.1 = (jobTimes d' r.id).1.2) := by
  obtain ⟨ps, hr⟩ := h.rep
  have hjm : j ∈ allJobs d := by simp [allJobs, hq]
  obtain ⟨p, hp, hpx⟩ := hr.job_lo hjm
  obtain ⟨p', hp', hpx'⟩ := hr.job_hi hjm
  have hact : Active (popState d j q ps) d.nextID j := by
    rw [Active, APALM.popState]
    simp only
    rw [OMap.get?_append, OMap.get?_eq_none.2 (fun x hx => ne_of_lt (hr.ids x hx))]
    simp [OMap.get?]
  refine ⟨_, _, hr.pop_eq hq hp hpx hp' hpx', rfl, hact, ?_⟩
  have hr' := hr.popState hq
  simp only
  rw [hr'.jobTimes_eq hact hp hp' hpx hpx', hr'.getReferenceByID_eq hact hp' hpx', hr.flat_eq]
  refine ⟨⟨_, List.mem_map.2 ⟨p, hp, rfl⟩, rfl, rfl⟩, ⟨_, List.mem_map.2 ⟨p', hp', rfl⟩, rfl, rfl⟩,
    ?_, ?_⟩
  · intro hl
    rw [if_neg (by omega)]
    refine ⟨rfl, ?_⟩
    obtain ⟨pre, a, b, post, rfl, hje, -⟩ := hr.job_gap hjm hl
    have e1 : p = a := eq_of_xi hr.sortedXi hp (by simp) (by rw [hpx, hje])
    have e2 : p' = b := eq_of_xi hr.sortedXi hp' (by simp) (by rw [hpx', hje])
    subst e1 e2
    have := hr.sortedT
    simp only [List.pairwise_append, List.pairwise_cons, List.mem_cons, forall_eq_or_imp] at this
    exact sub_pos.2 this.2.1.1.1
  · intro hl
    obtain ⟨e, -⟩ := hr.zero j hjm hl
    rw [if_pos ⟨e, hl⟩]
    refine ⟨rfl, ?_⟩
    have : p = p' := eq_of_xi hr.sortedXi hp hp' (by rw [hpx, hpx', e])
    rw [this]

example : ∃ (d : Data ℚ ℕ) (j : Job ℚ) (q : List (Job ℚ)), Reachable d ∧ d.queue = j :: q ∧
    0 < j.level := by
  have h : (runChecked sampleStart sampleOps).any (fun d =>
      d.queue.head?.any (fun j => 0 < j.level)) = true := by
    decide +kernel
  rw [Option.any_eq_true] at h
  obtain ⟨d, hd, h⟩ := h
  rw [Option.any_eq_true] at h
  obtain ⟨j, hj, h⟩ := h
  obtain ⟨q, hq⟩ := List.head?_eq_some_iff.1 hj
  exact ⟨d, j, q, ⟨_, _, _, _, exec_of_runChecked hd⟩, hq, by simpa using h⟩

/-- **C05** While a job is in flight, no other call changes its interval or the length of its
interval: if `id` was handed out before and is still active afterwards, then it was active, with
the same interval, and `jobTimes` spans the same length. -/
theorem C05_length_in_flight (h : Reachable d) {ops : List (Op K S)} (he : Exec d ops d')
    {id : ℕ} (hid : id < d.nextID) {j : Job K} (hj : Active d' id j) :
    Active d id j ∧
    (jobTimes d' id).1.2 - (jobTimes d' id).1.1 = (jobTimes d id).1.2 - (jobTimes d id).1.1 := by
  obtain ⟨ps, hr⟩ := h.rep
  exact he.width hr hid hj

/-- `C05_length_in_flight`: the first job is in flight while the second one is completed with a longer length. -/
example : ∃ d d' : Data ℚ ℕ, Reachable d ∧ Exec d [.complete 1 [1, 1, 1/2] [201, 202] (9/5) (19/10)] d' ∧
    0 < d.nextID ∧ ∃ j, Active d' 0 j := by
  have h : (runChecked sampleStart (sampleOps.take 3)).any (fun d => decide (0 < d.nextID) &&
      (runChecked d [.complete 1 [1, 1, 1/2] [201, 202] (9/5) (19/10)]).any (fun d' =>
        (OMap.get? d'.jobs 0).isSome)) = true := by
    decide +kernel
  simp only [Option.any_eq_true, Bool.and_eq_true, decide_eq_true_eq, Option.isSome_iff_exists] at h
  obtain ⟨d, hd, h1, d', hd', h2⟩ := h
  exact ⟨d, d', ⟨_, _, _, _, exec_of_runChecked hd⟩, exec_of_runChecked hd', h1, h2⟩

/-- **C05** In particular, from the `pop` that hands out a refinement job on, the span of
`jobTimes` equals the length handed out, as long as the job is active. -/
theorem C05_length_handed_out (h : Reachable d) {j : Job K} {q : List (Job K)}
    (hq : d.queue = j :: q) (hl : 0 < j.level) {r : Popped K S} {d₁ : Data K S}
    (hp : pop d = .ok (r, d₁)) {ops : List (Op K S)} (he : Exec d₁ ops d') {j' : Job K}
    (hj : Active d' r.id j') :
    (jobTimes d' r.id).1.2 - (jobTimes d' r.id).1.1 = r.dt := by
  obtain ⟨r', d₁', hp', hid, hact, -, -, hdt, -⟩ := C04_pop_is_complete h hq
  rw [hp] at hp'
  injection hp' with hp'
  injection hp' with e1 e2
  subst e1 e2
  have hr₁ : Reachable d₁ := by
    obtain ⟨m, tol, dt, ops', he'⟩ := h
    refine ⟨m, tol, dt, ops' ++ [.pop], ?_⟩
    clear he hact hdt hj
    generalize hF : (Data.fresh m tol dt : Data K S) = d0 at he'
    clear hF
    induction he' with
    | nil d => exact .cons (by simp [Contract, hq]) (by simp [exec, hp, Except.map]) (.nil _)
    | cons hc hx _ ih => exact .cons hc hx (ih hq hp hid)
  obtain ⟨ps, hr⟩ := hr₁.rep
  rw [(C05_length_in_flight hr₁ he (hr.active_lt hact) hj).2]
  exact (hdt hl).1.symm

/-- `C05_length_handed_out`: the interval `[1, 3]` is handed out; then the first one is completed with another length,
which moves the job but does not change its length. -/
example : ∃ (d : Data ℚ ℕ) (j : Job ℚ) (q : List (Job ℚ)) (r : Popped ℚ ℕ) (d₁ d' : Data ℚ ℕ), Reachable d ∧
    d.queue = j :: q ∧ 0 < j.level ∧ pop d = .ok (r, d₁) ∧
    Exec d₁ [.complete 0 [1/2, 1/2, 1/4] [203, 204] 1 (1/2)] d' ∧ Active d' r.id j ∧
    (jobTimes d₁ r.id).1 = (1, 3) ∧ (jobTimes d' r.id).1 = (5/4, 13/4) := by
  have h : (runChecked sampleStart (sampleOps.take 2)).any (fun d => d.queue.head?.any fun j =>
      decide (0 < j.level) && (match pop d with
        | .ok (r, d₁) => (runChecked d₁ [.complete 0 [1/2, 1/2, 1/4] [203, 204] 1 (1/2)]).any (fun d' =>
            OMap.get? d'.jobs r.id == some j && decide ((jobTimes d₁ r.id).1 = (1, 3) ∧
              (jobTimes d' r.id).1 = (5/4, 13/4)))
        | .error _ => false)) = true := by
    decide +kernel
  simp only [Option.any_eq_true, Bool.and_eq_true, decide_eq_true_eq] at h
  obtain ⟨d, hd, j, hj, h1, h2⟩ := h
  obtain ⟨q, hq⟩ := List.head?_eq_some_iff.1 hj
  split at h2
  · rename_i r d₁ hp
    simp only [Option.any_eq_true, Bool.and_eq_true, decide_eq_true_eq, beq_iff_eq] at h2
    obtain ⟨d', hd', h3, h4⟩ := h2
    exact ⟨d, j, q, r, d₁, d', ⟨_, _, _, _, exec_of_runChecked hd⟩, hq, h1, hp, exec_of_runChecked hd', h3, h4⟩
  · simp at h2

/-- **C07** The identifier handed out by `pop` differs from all identifiers handed out before:
identifiers are `0, 1, 2, …` in the order of the `pop`s. -/
theorem C07_ids_count_pops {maxLevel : ℕ} {tol dt : K} {ops : List (Op K S)}
    (h : Exec (Data.fresh maxLevel tol dt) ops d) :
    d.nextID = (ops.map Op.pops).sum ∧
    ∀ r d', pop d = .ok (r, d') → r.id = (ops.map Op.pops).sum := by
  have key : d.nextID = (ops.map Op.pops).sum := by
    have : ∀ (d0 d : Data K S) ps, Rep d0 ps → Exec d0 ops d →
        d.nextID = d0.nextID + (ops.map Op.pops).sum := by
      clear h
      intro d0 d ps hr he
      induction he generalizing ps with
      | nil d => simp
      | cons hc hx _ ih =>
        obtain ⟨d₁, ps₁, hx', hr', -, hf⟩ := hr.step _ hc
        rw [hx'] at hx
        injection hx with hx
        subst hx
        rw [ih _ hr', hf.nextID, List.map_cons, List.sum_cons]
        omega
    simpa [Data.fresh] using this _ _ _ (fresh_isFresh maxLevel tol dt).rep h
  refine ⟨key, ?_⟩
  intro r d' hp
  rw [← key]
  unfold pop at hp
  split at hp
  · simp at hp
  · split at hp
    · simp at hp
    · simp only at hp
      split at hp
      · simp only [Except.ok.injEq, Prod.mk.injEq] at hp
        rw [← hp.1]
      · simp at hp

/-- `C07_ids_count_pops`: three jobs have been handed out, the next one gets the number 3. -/
example : ∃ d, Exec sampleStart sampleOps d ∧ (sampleOps.map Op.pops).sum = 3 ∧
    ∃ r d', pop d = .ok (r, d') ∧ r.id = 3 := by
  have h : (runChecked sampleStart sampleOps).any (fun d => match pop d with
      | .ok (r, _) => decide (r.id = 3)
      | .error _ => false) = true := by
    decide +kernel
  rw [Option.any_eq_true] at h
  obtain ⟨d, hd, h⟩ := h
  refine ⟨d, exec_of_runChecked hd, by decide, ?_⟩
  split at h
  · rename_i r d' hp
    exact ⟨r, d', hp, by simpa using h⟩
  · simp at h

/-- **C07** `pop` moves exactly one job from waiting to active; `finishJob` (and so `complete`)
removes exactly the given active job and no other. -/
theorem C07_counters (h : Reachable d) :
    (∀ r d', pop d = .ok (r, d') →
      nWaiting d = nWaiting d' + 1 ∧ nActive d' = nActive d + 1) ∧
    (∀ id j, Active d id j → nActive (finishJob d id) + 1 = nActive d ∧
      nWaiting (finishJob d id) = nWaiting d) ∧
    (∀ id id', id' ≠ id → ∀ j, Active (finishJob d id) id' j ↔ Active d id' j) ∧
    (∀ id j, ¬ Active (finishJob d id) id j) := by
  obtain ⟨ps, hr⟩ := h.rep
  refine ⟨?_, ?_, ?_, ?_⟩
  · intro r d' hp
    have hne : d.queue ≠ [] := by
      intro hn
      unfold pop at hp
      rw [hn] at hp
      split at hp <;> simp at hp
    obtain ⟨j, q, hq⟩ := List.exists_cons_of_ne_nil hne
    have hjm : j ∈ allJobs d := by simp [allJobs, hq]
    obtain ⟨p, hp1, hpx⟩ := hr.job_lo hjm
    obtain ⟨p', hp', hpx'⟩ := hr.job_hi hjm
    rw [hr.pop_eq hq hp1 hpx hp' hpx'] at hp
    injection hp with hp
    injection hp with _ hp
    subst hp
    simp [nWaiting, nActive, APALM.popState, hq]
  · intro id j hj
    obtain ⟨m₁, m₂, he, h₁, h₂⟩ := OMap.exists_split hr.jobsSorted hj
    simp only [nActive, nWaiting, finishJob, he]
    rw [OMap.erase_append (fun p hp => ne_of_lt (h₁ p hp))]
    simp
    omega
  · intro id id' hne j
    rw [Active, Active, finishJob, OMap.get?_erase_ne hne]
  · intro id j hj
    rw [Active, finishJob, OMap.get?_erase_self hr.jobsSorted] at hj
    simp at hj

/-- `C07_counters`: two jobs are active, one of them is finished. -/
example : ∃ d : Data ℚ ℕ, Reachable d ∧ nActive d = 2 ∧ (∃ j, Active d 0 j) ∧ (∃ j, Active d 1 j) ∧
    nActive (finishJob d 0) = 1 := by
  obtain ⟨d, h, hq⟩ := sample_reachable (n := 3) (q := fun d => decide (nActive d = 2 ∧
    (OMap.get? d.jobs 0).isSome ∧ (OMap.get? d.jobs 1).isSome ∧ nActive (finishJob d 0) = 1)) (by decide +kernel)
  simp only [decide_eq_true_eq, Option.isSome_iff_exists] at hq
  exact ⟨d, h, hq⟩

end GsSA.APALM
