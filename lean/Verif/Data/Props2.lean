import Verif.Data.Queue
import Verif.Data.Props

/-!
# Properties of branch data sets (C06, C08 - C10, C12 - C15)
-/

set_option linter.unusedSectionVars false

namespace GsSA.APALM

open GsSA

variable {K S : Type*} [Field K] [LinearOrder K] [IsStrictOrderedRing K]
variable {d d' : Data K S}

theorem newPts_times (xf : K → K) (level : ℕ) (pend : Option ℕ) (t : K) (sp : S) (l : List (K × S)) :
    (newPts xf level pend t sp l).map (·.t) =
      (List.range l.length).map (fun k => t + ((l.map Prod.fst).take (k + 1)).sum) := by
  induction l generalizing t sp with
  | nil => simp [newPts]
  | cons a l ih =>
    obtain ⟨δ, s⟩ := a
    simp only [newPts, List.map_cons, ih, List.length_cons, List.range_succ_eq_map, List.map_map]
    simp only [List.cons.injEq, List.take_succ_cons, List.sum_cons, List.take_zero, List.sum_nil,
      add_zero, true_and]
    apply List.map_congr_left
    intro k _
    simp [add_assoc]

/-- **C06** A submission `d₀, …, d_N` on an active refinement job leaves all points up to the start
of the interval where they are, puts the `k`-th new point at `tlow + d₀ + … + d_k`, gives it the
submitted solution and the level of the job, and moves every point from the end of the interval on
by `(d₀ + … + d_N) - (tupp - tlow)`. -/
theorem C06_submit_places_points (h : Reachable d) {id : ℕ} {ds : List K} {sols : List S} {u l : K}
    (hc : Contract d (.complete id ds sols u l)) :
    ∃ j d' pre a b post new, Active d id j ∧
      exec d (.complete id ds sols u l) = .ok d' ∧
      flat d = pre ++ a :: b :: post ∧
      (jobTimes d id).1 = (a.time, b.time) ∧
      flat d' = pre ++ a :: (new ++ ({ b with time := a.time + ds.sum } ::
        post.map fun p => { p with time := p.time + (ds.sum - (b.time - a.time)) })) ∧
      new.map (·.time) = (List.range sols.length).map (fun k => a.time + (ds.take (k + 1)).sum) ∧
      new.map (·.sol) = sols ∧
      ∀ p ∈ new, p.level = j.level := by
  obtain ⟨ps, hr⟩ := h.rep
  obtain ⟨d', ps', he, hr', ha, -⟩ := hr.step _ hc
  cases ha with
  | complete _ _ _ _ _ hne pre a b post ℓ hp hact hok =>
    have hsum : ds.dropLast.sum + ds.getLast hne = ds.sum := by
      conv_rhs => rw [← List.dropLast_append_getLast hne]
      simp
    refine ⟨_, d', pre.map Pt.flat, a.flat, b.flat, post.map Pt.flat,
      ((submitDataOf ds sols u l hne).newPts d.maxLevel d.tol a b ℓ).map Pt.flat, hact, he, ?_, ?_,
      ?_, ?_, ?_, ?_⟩
    · rw [hr.flat_eq]; simp
    · rw [hr.jobTimes_eq hact (a := a) (b := b) (by simp) (by simp) rfl rfl]; rfl
    · rw [hr'.flat_eq, SubmitData.curve, submitDataOf]
      simp only [List.map_append, List.map_cons, List.map_map, hsum]
      congr 4
      simp only [Pt.flat, SubmitData.endPt, hsum]
      congr 1
      ring
    · rw [List.map_map]
      change List.map (fun p : Pt K S => p.t) _ = _
      rw [SubmitData.newPts, newPts_times, hok.zip_fst, List.length_zip, hok.len, min_self]
      apply List.map_congr_left
      intro k hk
      have hk' : k + 1 ≤ ds.dropLast.length := by
        have := hok.len
        simp only [submitDataOf, List.mem_range] at this hk ⊢
        omega
      congr 2
      conv_rhs => rw [← List.dropLast_append_getLast hne]
      rw [List.take_append_of_le_length hk']
      rfl
    · rw [List.map_map]
      change List.map (fun p : Pt K S => p.sol) _ = _
      rw [SubmitData.newPts, newPts_sol, hok.zip_snd]
      rfl
    · intro p hp
      obtain ⟨q, hq, rfl⟩ := List.mem_map.1 hp
      exact (newPts_mem _ _ _ _ _ _ q hq).2.1

example : ∃ d : Data ℚ ℕ, Reachable d ∧
    Contract d (.complete 0 [1/2, 1/2, 1/4] [203, 204] 1 (1/2)) := by
  have h : (runChecked sampleStart (sampleOps.take 4)).any
      (fun d => contractB d (.complete 0 [1/2, 1/2, 1/4] [203, 204] 1 (1/2))) = true := by
    decide +kernel
  rw [Option.any_eq_true] at h
  obtain ⟨d, hd, h⟩ := h
  exact ⟨d, ⟨_, _, _, _, exec_of_runChecked hd⟩, contract_of_contractB h⟩

/-- **C08** With `MaxLevel ≥ 1` every waiting or active job and every stored point has level at
most `MaxLevel`. -/
theorem C08_level_bound {maxLevel : ℕ} {tol dt : K} {ops : List (Op K S)} (hm : 1 ≤ maxLevel)
    (h : Exec (Data.fresh maxLevel tol dt) ops d) :
    (∀ p ∈ flat d, p.level ≤ maxLevel) ∧
    (∀ j ∈ d.queue, j.level ≤ maxLevel) ∧
    (∀ id j, Active d id j → j.level ≤ maxLevel) := by
  obtain ⟨ps, hr, hl, -⟩ := h.levelsLe (fresh_isFresh maxLevel tol dt).rep hm le_rfl le_rfl
    (by intro p hp; simp at hp)
  have hj : ∀ j ∈ allJobs d, j.level ≤ maxLevel := by
    intro j hj
    rcases Nat.eq_zero_or_pos j.level with h0 | h0
    · omega
    · obtain ⟨pre, a, b, post, rfl, -, hbp⟩ := hr.job_gap hj h0
      exact (hl b (by simp)).2 _ hbp
  refine ⟨?_, fun j hq => hj j (by simp [allJobs, hq]), fun id j ha => hj j (mem_allJobs_of_get ha)⟩
  rw [hr.flat_eq]
  intro p hp
  obtain ⟨q, hq, rfl⟩ := List.mem_map.1 hp
  exact (hl q hq).1

example : ∃ d, Exec sampleStart sampleOps d ∧ ∃ p ∈ flat d, p.level = 1 := by
  have h : (runChecked sampleStart sampleOps).any
      (fun d => (flat d).any (fun p => p.level = 1)) = true := by decide +kernel
  rw [Option.any_eq_true] at h
  obtain ⟨d, hd, h⟩ := h
  rw [List.any_eq_true] at h
  obtain ⟨p, hp, h⟩ := h
  exact ⟨d, exec_of_runChecked hd, p, hp, by simpa using h⟩

/-- **C08** With `MaxLevel = 0` jobs of level 1 are nevertheless queued, handed out and stored: the
bound of `C08_level_bound` needs `MaxLevel ≥ 1`. -/
theorem C08_zero_maxLevel_not_respected :
    ∃ (ops : List (Op ℚ ℕ)) (d : Data ℚ ℕ), Exec (Data.fresh 0 (1/10) 1) ops d ∧
      (∃ j ∈ d.queue, j.level = 1) ∧ (∃ p ∈ flat d, p.level = 1) := by
  have h : (runChecked (Data.fresh 0 (1/10) 1) (sampleOps.take 2 ++
      [.complete 0 [1, 1] [201] 1 1])).any
      (fun d => d.queue.any (fun j => j.level = 1) && (flat d).any (fun p => p.level = 1)) = true := by
    decide +kernel
  rw [Option.any_eq_true] at h
  obtain ⟨d, hd, h⟩ := h
  simp only [Bool.and_eq_true, List.any_eq_true, decide_eq_true_eq] at h
  exact ⟨_, d, exec_of_runChecked hd, h.1, h.2⟩

/-- The values of `l` between `lo` and `hi`. -/
def between (lo hi : K) (l : List K) : List K := l.filter (fun x => decide (lo ≤ x ∧ x ≤ hi))

theorem filter_mid {pre mid post : List (Pt K S)} {lo hi : K}
    (h₁ : ∀ p ∈ pre, p.xi < lo) (h₂ : ∀ p ∈ mid, lo ≤ p.xi ∧ p.xi ≤ hi) (h₃ : ∀ p ∈ post, hi < p.xi) :
    between lo hi ((pre ++ mid ++ post).map (·.xi)) = mid.map (·.xi) := by
  rw [between, List.map_append, List.map_append, List.filter_append, List.filter_append]
  rw [List.filter_eq_nil_iff.2, List.filter_eq_self.2, List.filter_eq_nil_iff.2]
  · simp
  · intro x hx
    obtain ⟨p, hp, rfl⟩ := List.mem_map.1 hx
    simp [not_le.2 (h₃ p hp)]
  · intro x hx
    obtain ⟨p, hp, rfl⟩ := List.mem_map.1 hx
    simpa using h₂ p hp
  · intro x hx
    obtain ⟨p, hp, rfl⟩ := List.mem_map.1 hx
    simp [not_le.2 (h₁ p hp)]

/-- **C09** Decision logic of `submit`. Let `X` be the parameters stored in the interval after the
submission (its end points and the new points); the submission appends to the queue, at the level
above the job, the consecutive pairs of `X` except the last one iff the job is below `MaxLevel` and
`(Dt - lowerDistance)/Dt ≥ Tolerance`, and the last pair iff the job is below `MaxLevel` and
`((Σd - upperDistance) - (Dt - lowerDistance))/Dt ≥ Tolerance`, in this order, and nothing else. -/
theorem C09_requeue_decision (h : Reachable d) {id : ℕ} {ds : List K} {sols : List S} {u l : K}
    (hc : Contract d (.complete id ds sols u l)) :
    ∃ j d', Active d id j ∧ exec d (.complete id ds sols u l) = .ok d' ∧
      let Dt := (jobTimes d id).1.2 - (jobTimes d id).1.1
      let X := between j.lo j.hi d'.xi
      X.length = sols.length + 2 ∧
      d'.queue = d.queue ++
        ((if j.level < d.maxLevel ∧ d.tol ≤ (Dt - l) / Dt then (X.zip X.tail).dropLast else []) ++
         (if j.level < d.maxLevel ∧ d.tol ≤ ((ds.sum - u) - (Dt - l)) / Dt
          then (X.zip X.tail).drop sols.length else [])).map
          (fun x => ⟨x.1, x.2, j.level + 1⟩) := by
  obtain ⟨ps, hr⟩ := h.rep
  obtain ⟨d', ps', he, hr', ha, -⟩ := hr.step _ hc
  cases ha with
  | complete _ _ _ _ _ hne pre a b post ℓ hp hact hok =>
    refine ⟨_, d', hact, he, ?_⟩
    set s := submitDataOf ds sols u l hne with hs
    set mid := a :: (s.newPts d.maxLevel d.tol a b ℓ ++ [s.endPt d.maxLevel d.tol a b ℓ]) with hmid
    have hcurve : s.curve d.maxLevel d.tol pre a b post ℓ =
        pre ++ mid ++ post.map (shiftPt (s.ds.sum + s.δ - (b.t - a.t))) := by
      simp [SubmitData.curve, hmid]
    have hsx := hr'.sortedXi
    rw [hcurve] at hsx
    have hend : (s.endPt d.maxLevel d.tol a b ℓ).xi = b.xi := rfl
    have hX : between a.xi b.xi d'.xi = mid.map (·.xi) := by
      rw [hr'.xi, hcurve]
      rw [List.pairwise_append, List.pairwise_append] at hsx
      apply filter_mid
      · intro p hp
        exact hsx.1.2.2 p hp a (by simp [hmid])
      · intro p hp
        have hm := hsx.1.2.1
        rw [hmid, List.pairwise_cons] at hm
        rw [hmid, List.mem_cons] at hp
        constructor
        · rcases hp with hp | hp
          · rw [hp]
          · exact (hm.1 p hp).le
        · rw [← hend]
          rcases hp with hp | hp
          · rw [hp]; exact (hm.1 _ (by simp)).le
          · rcases List.mem_append.1 hp with hp | hp
            · exact ((List.pairwise_append.1 hm.2).2.2 p hp _ (by simp)).le
            · simp only [List.mem_singleton] at hp
              rw [hp]
      · intro p hp
        rw [← hend]
        exact hsx.2.2 _ (by simp [hmid]) p hp
    have hnl : (s.newPts d.maxLevel d.tol a b ℓ).length = sols.length := by
      have := hok.len
      rw [SubmitData.newPts, newPts_length, List.length_zip, this, min_self]
      rfl
    have htimes : (jobTimes d id).1 = (a.t, b.t) := by
      rw [hr.jobTimes_eq hact (a := a) (b := b) (by simp) (by simp) rfl rfl]
    have hsum : ds.dropLast.sum + ds.getLast hne = ds.sum := by
      conv_rhs => rw [← List.dropLast_append_getLast hne]
      simp
    simp only [htimes]
    rw [hX]
    refine ⟨by simp [hmid, hnl], ?_⟩
    -- the queue
    have hj' := hr.submit_eq hact hok
    rw [show s.ds ++ [s.δ] = ds from List.dropLast_append_getLast hne, ← hmid] at hj'
    simp only [exec] at he
    rw [show submit d id ds sols u l = _ from hj'] at he
    simp only [Except.map, Except.ok.injEq] at he
    have hq : d'.queue = d.queue ++ gaps mid := by rw [← he]; rfl
    rw [hq, hmid, gaps_new a (s.endPt d.maxLevel d.tol a b ℓ) (s.newPts d.maxLevel d.tol a b ℓ)
      (s.pendLow d.maxLevel d.tol (b.t - a.t) ℓ) (s.pendUpp d.maxLevel d.tol (b.t - a.t) ℓ)
      (fun p hp => (newPts_mem _ _ _ _ _ _ p hp).2.2) rfl, hnl]
    have h1 : s.lower = l := rfl
    have h2 : s.upper = u := rfl
    have h3 : s.ds.sum + s.δ = ds.sum := hsum
    have hlow : s.pendLow d.maxLevel d.tol (b.t - a.t) ℓ =
        if ℓ < d.maxLevel ∧ d.tol ≤ (b.t - a.t - l) / (b.t - a.t) then some (ℓ + 1) else none := by
      simp only [SubmitData.pendLow, not_lt, h1]
    have hupp : s.pendUpp d.maxLevel d.tol (b.t - a.t) ℓ =
        if ℓ < d.maxLevel ∧ d.tol ≤ ((ds.sum - u) - (b.t - a.t - l)) / (b.t - a.t)
        then some (ℓ + 1) else none := by
      simp only [SubmitData.pendUpp, not_lt, h1, h2, h3]
    rw [hlow, hupp]
    split_ifs <;> simp [pendJobs]

/-- `C09_requeue_decision`: a submission after which the lower intervals are queued again and the last one is not. -/
example : ∃ d d' : Data ℚ ℕ, Reachable d ∧ Contract d (.complete 0 [1/2, 1/2, 1/4] [203, 204] 1 (1/2)) ∧
    exec d (.complete 0 [1/2, 1/2, 1/4] [203, 204] 1 (1/2)) = .ok d' ∧ d.queue.length < d'.queue.length ∧
    d'.queue.length < d.queue.length + 3 := by
  have h : (runChecked sampleStart (sampleOps.take 4)).any (fun d : Data ℚ ℕ =>
      contractB d (.complete 0 [1/2, 1/2, 1/4] [203, 204] 1 (1/2)) &&
      (match exec d (.complete 0 [1/2, 1/2, 1/4] [203, 204] 1 (1/2)) with
        | .ok d' => decide (d.queue.length < d'.queue.length ∧ d'.queue.length < d.queue.length + 3)
        | .error _ => false)) = true := by
    decide +kernel
  simp only [Option.any_eq_true, Bool.and_eq_true] at h
  obtain ⟨d, hd, h1, h2⟩ := h
  split at h2
  · rename_i d' hx
    exact ⟨d, d', ⟨_, _, _, _, exec_of_runChecked hd⟩, contract_of_contractB h1, hx, by simpa using h2⟩
  · simp at h2

/-- **C09** Nothing is queued by a submission at `MaxLevel`. -/
theorem C09_maxLevel_no_requeue (h : Reachable d) {id : ℕ} {ds : List K} {sols : List S} {u l : K}
    (hc : Contract d (.complete id ds sols u l)) {j : Job K} (hj : Active d id j)
    (hm : d.maxLevel ≤ j.level) (he : exec d (.complete id ds sols u l) = .ok d') :
    d'.queue = d.queue := by
  obtain ⟨j', d'', hj', he', -, hq⟩ := C09_requeue_decision h hc
  rw [he] at he'
  injection he' with he'
  subst he'
  rw [Active, hj] at hj'
  injection hj' with hj'
  subst hj'
  rw [hq, if_neg (fun hh => absurd hh.1 (not_lt.2 hm)), if_neg (fun hh => absurd hh.1 (not_lt.2 hm))]
  simp

/-- `C09_maxLevel_no_requeue`: the same submission with `MaxLevel` 1. -/
example : ∃ (d d' : Data ℚ ℕ) (j : Job ℚ), Reachable d ∧
    Contract d (.complete 0 [1/2, 1/2, 1/4] [203, 204] 1 (1/2)) ∧ Active d 0 j ∧ d.maxLevel ≤ j.level ∧
    exec d (.complete 0 [1/2, 1/2, 1/4] [203, 204] 1 (1/2)) = .ok d' := by
  have h : (runChecked (Data.fresh 1 (1/10) 1) (sampleOps.take 3)).any (fun d : Data ℚ ℕ =>
      contractB d (.complete 0 [1/2, 1/2, 1/4] [203, 204] 1 (1/2)) &&
      (OMap.get? d.jobs 0).any (fun j => decide (d.maxLevel ≤ j.level))) = true := by
    decide +kernel
  simp only [Option.any_eq_true, Bool.and_eq_true, decide_eq_true_eq] at h
  obtain ⟨d, hd, h1, j, hj, h2⟩ := h
  have hr : Reachable d := ⟨_, _, _, _, exec_of_runChecked hd⟩
  obtain ⟨d', hx⟩ := C01_no_failure hr _ (contract_of_contractB h1)
  exact ⟨d, d', j, hr, contract_of_contractB h1, hj, h2, hx⟩

/-- Jobs that calls other than submissions add to the queue. -/
def Op.newJobs : Op K S → ℕ
  | .addStart _ _ => 1
  | .init times _ => times.length - 1
  | .appendPoint _ => 1
  | .appendData _ _ _ => 1
  | _ => 0

theorem weight_le (n m ℓ : ℕ) : weight n m ℓ ≤ ∑ i ∈ Finset.range (max m 1), (n + 1) ^ i := by
  unfold weight
  split
  · have : max m 1 = (max m 1 - 1) + 1 := by omega
    rw [this, Finset.sum_range_succ']
    simp
  · apply Finset.sum_le_sum_of_subset
    apply Finset.range_mono
    omega

/-- **C10** Refinement terminates. If no submission contains more than `n` new points, then during
any history the number of jobs handed out is at most
`(waiting + added) · G + active · (G - 1)`, `G = 1 + (n+1) + … + (n+1)^(MaxLevel-1)`, where
`waiting` and `active` count the jobs at the beginning and `added` the jobs added by other calls
than submissions. -/
theorem C10_refinement_terminates {maxLevel : ℕ} {tol dt : K} {ops₀ ops : List (Op K S)} {n : ℕ}
    (h : Exec (Data.fresh maxLevel tol dt) ops₀ d) (he : Exec d ops d')
    (hn : ∀ op ∈ ops, op.newPointsLe n) :
    (ops.map Op.pops).sum ≤
      (nWaiting d + (ops.map Op.newJobs).sum) * (∑ i ∈ Finset.range (max maxLevel 1), (n + 1) ^ i)
      + nActive d * ((∑ i ∈ Finset.range (max maxLevel 1), (n + 1) ^ i) - 1) := by
  have hmax : d.maxLevel = maxLevel ∧ d.optMaxLevel = maxLevel := by
    have : ∀ (d0 d : Data K S) ps, Rep d0 ps → Exec d0 ops₀ d → d0.maxLevel = maxLevel →
        d0.optMaxLevel = maxLevel → d.maxLevel = maxLevel ∧ d.optMaxLevel = maxLevel := by
      clear h he
      intro d0 d ps hr he
      induction he generalizing ps with
      | nil d => exact fun h1 h2 => ⟨h1, h2⟩
      | cons hc hx _ ih =>
        obtain ⟨d₁, ps₁, hx', hr', -, hf⟩ := hr.step _ hc
        rw [hx'] at hx
        injection hx with hx
        subst hx
        intro h1 h2
        refine ih _ hr' ?_ ?_
        · rcases hf.maxLevel with e | e <;> rw [e] <;> assumption
        · rw [hf.optMaxLevel, h2]
    exact this _ _ _ (fresh_isFresh maxLevel tol dt).rep h rfl rfl
  obtain ⟨ps, hr⟩ := h.rep (fresh_isFresh maxLevel tol dt).rep
  have hp := he.potential hr (by rw [hmax.1, hmax.2]) hn
  rw [hmax.1] at hp
  set G := ∑ i ∈ Finset.range (max maxLevel 1), (n + 1) ^ i with hG
  have hb : (ops.map (Op.budget n maxLevel)).sum ≤ (ops.map Op.newJobs).sum * G := by
    clear hp he hn
    induction ops with
    | nil => simp
    | cons op ops ih =>
      simp only [List.map_cons, List.sum_cons, Nat.add_mul]
      refine Nat.add_le_add ?_ ih
      have h1 := weight_le n maxLevel 1
      have h0 : 1 ≤ G := le_trans (weight_pos n maxLevel 1) h1
      cases op <;> simp only [Op.budget, Op.newJobs, Nat.zero_mul, Nat.one_mul, le_refl] <;>
        first | exact h0 | exact h1 | exact Nat.mul_le_mul_left _ h1
  have hq : (d.queue.map (fun j => weight n d.maxLevel j.level)).sum ≤ nWaiting d * G := by
    rw [hmax.1, nWaiting]
    have := List.sum_le_card_nsmul (d.queue.map (fun j => weight n maxLevel j.level)) G (by
      intro x hx
      obtain ⟨j, -, rfl⟩ := List.mem_map.1 hx
      exact weight_le n maxLevel j.level)
    simpa using this
  have ha : ((OMap.vals d.jobs).map (fun j => weight n d.maxLevel j.level - 1)).sum ≤
      nActive d * (G - 1) := by
    rw [hmax.1, nActive]
    have := List.sum_le_card_nsmul
      ((OMap.vals d.jobs).map (fun j => weight n maxLevel j.level - 1)) (G - 1) (by
      intro x hx
      obtain ⟨j, -, rfl⟩ := List.mem_map.1 hx
      exact Nat.sub_le_sub_right (weight_le n maxLevel j.level) 1)
    simpa [OMap.vals] using this
  unfold potential at hp
  rw [Nat.add_mul]
  omega

example : ∀ op ∈ sampleOps, op.newPointsLe 2 := by
  intro op hop
  simp only [sampleOps, List.mem_cons, List.not_mem_nil, or_false] at hop
  rcases hop with rfl | rfl | rfl | rfl | rfl | rfl <;> simp [Op.newPointsLe]

/-- **C12** `submit` accepts a zero last distance. Then the level of the stored end point is
overwritten and its parameter is stored twice (so that the numbers of parameters and of stored
solutions disagree). -/
theorem C12_zero_last_distance_corrupts :
    ∃ (d d' : Data ℚ ℕ) (id : ℕ) (j : Job ℚ), Reachable d ∧ Active d id j ∧
      submit d id [1/2, 1/2, 0] [201, 202] 1 1 = .ok d' ∧
      OMap.get? d.levels j.hi = some 0 ∧ OMap.get? d'.levels j.hi = some 1 ∧
      OMap.get? d.sols j.hi = some 101 ∧ OMap.get? d'.sols j.hi = some 202 ∧
      ¬ d'.xi.Nodup ∧ d'.sols.length < d'.xi.length := by
  have h : (runChecked sampleStart (sampleOps.take 2)).any (fun d : Data ℚ ℕ =>
      (OMap.get? d.jobs 0).any (fun j =>
        match submit d 0 [1/2, 1/2, 0] [201, 202] 1 1 with
        | .ok d' => decide (OMap.get? d.levels j.hi = some 0 ∧ OMap.get? d'.levels j.hi = some 1 ∧
            OMap.get? d.sols j.hi = some 101 ∧ OMap.get? d'.sols j.hi = some 202 ∧
            ¬ d'.xi.Nodup ∧ d'.sols.length < d'.xi.length)
        | .error _ => false)) = true := by
    decide +kernel
  rw [Option.any_eq_true] at h
  obtain ⟨d, hd, h⟩ := h
  rw [Option.any_eq_true] at h
  obtain ⟨j, hj, h⟩ := h
  split at h
  · rename_i d' he
    exact ⟨d, d', 0, j, ⟨_, _, _, _, exec_of_runChecked hd⟩, hj, he, of_decide_eq_true h⟩
  · simp at h

/-- **C12** With positive distances only (and the other parts of the contract) a submission never
stores a parameter twice, and keeps one solution, one level and one previous solution per
parameter. -/
theorem C12_positive_distances_consistent (h : Reachable d) : d.xi.Nodup ∧
    OMap.keys d.sols = d.xi ∧ OMap.keys d.levels = d.xi ∧ OMap.keys d.prevs = d.xi ∧
    d.t.length = d.xi.length := by
  obtain ⟨ps, hr⟩ := h.rep
  refine ⟨?_, ?_, ?_, ?_, ?_⟩
  · rw [hr.xi]
    refine List.Pairwise.imp (fun hab => ne_of_lt hab) (?_ : List.Pairwise (· < ·) (ps.map (·.xi)))
    rw [List.pairwise_map]
    exact hr.sortedXi
  · rw [hr.sols, hr.xi, OMap.keys, List.map_map]; rfl
  · rw [hr.levels, hr.xi, OMap.keys, List.map_map]; rfl
  · rw [hr.prevs, hr.xi, OMap.keys, List.map_map]; rfl
  · rw [hr.t, hr.xi]; simp

/-- `C12_positive_distances_consistent`: seven points after two submissions. -/
example : ∃ d : Data ℚ ℕ, Reachable d ∧ d.xi.length = 7 := by
  simpa using sample_reachable (n := 6) (q := fun d => decide (d.xi.length = 7)) (by decide +kernel)

/-- **C13** For a stored time `getReferenceByTime` returns the solution stored there; for an active
job `getReferenceByID` returns the solution at the end of its interval and changes nothing. -/
theorem C13_known_keys_partial (h : Reachable d) :
    (∀ p ∈ flat d, (getReferenceByTime d p.time).1 = some p.sol) ∧
    (∀ id j, Active d id j → ∃ p ∈ flat d, getReferenceByID d id = (some p.sol, d) ∧
      p.time = (jobTimes d id).1.2) := by
  obtain ⟨ps, hr⟩ := h.rep
  rw [hr.flat_eq]
  constructor
  · intro p hp
    obtain ⟨q, hq, rfl⟩ := List.mem_map.1 hp
    have hx : (OMap.index d.ximap q.t 0).1 = q.xi := by
      rcases hr.ximap with hm | ⟨p0, hps, ht, hx, hm⟩
      · have hs : OMap.Sorted (ps.map (fun p => (p.t, p.xi))) := by
          rw [OMap.Sorted, List.pairwise_map]; exact hr.sortedT
        rw [hm, OMap.index_of_get? (OMap.get?_of_mem hs (List.mem_map.2 ⟨q, hq, rfl⟩))]
      · subst hps
        simp only [List.mem_singleton] at hq
        subst hq
        rw [hm, OMap.index_of_none rfl, hx]
    simp only [getReferenceByTime, Pt.flat]
    rw [hx, hr.get_sols hq]
  · intro id j hj
    obtain ⟨b, hb, hbx⟩ := hr.job_hi (mem_allJobs_of_get hj)
    obtain ⟨a, ha, hax⟩ := hr.job_lo (mem_allJobs_of_get hj)
    refine ⟨b.flat, List.mem_map.2 ⟨b, hb, rfl⟩, hr.getReferenceByID_eq hj hb hbx, ?_⟩
    rw [hr.jobTimes_eq hj ha hb hax hbx]
    rfl

/-- `C13_known_keys_partial`: a stored time and an active job. -/
example : ∃ d : Data ℚ ℕ, Reachable d ∧ (∃ p ∈ flat d, p.time = 9/4 ∧ p.sol = 201) ∧ ∃ j, Active d 2 j := by
  obtain ⟨d, h, hq⟩ := sample_reachable (n := 6) (q := fun d => (flat d).any (fun p =>
    decide (p.time = 9/4 ∧ p.sol = 201)) && (OMap.get? d.jobs 2).isSome) (by decide +kernel)
  simp only [Bool.and_eq_true, List.any_eq_true, decide_eq_true_eq, Option.isSome_iff_exists] at hq
  exact ⟨d, h, hq⟩

/-- **C13** (negation) On every nonempty reachable data set, an identifier that is not active makes
`getReferenceByID` succeed with the first solution of the branch and leaves a phantom active job. -/
theorem C13_unknown_id_violation (h : Reachable d) (hne : d.xi ≠ []) {id : ℕ}
    (hid : OMap.get? d.jobs id = none) :
    (getReferenceByID d id).1 = (flat d).head?.map (·.sol) ∧
    (getReferenceByID d id).1.isSome ∧
    nActive (getReferenceByID d id).2 = nActive d + 1 ∧
    Active (getReferenceByID d id).2 id ⟨0, 0, 0⟩ := by
  obtain ⟨ps, hr⟩ := h.rep
  have hps : ps ≠ [] := by rintro rfl; exact hne hr.xi
  obtain ⟨p, l, rfl⟩ := List.exists_cons_of_ne_nil hps
  have hp := (hr.head0 p (by simp)).1
  have h1 : (getReferenceByID d id).1 = some p.sol := by
    simp only [getReferenceByID, jobIndex, OMap.index_of_none hid]
    rw [← hp]
    exact hr.get_sols (by simp)
  refine ⟨?_, by rw [h1]; rfl, ?_, ?_⟩
  · rw [h1, hr.flat_eq]; rfl
  · simp only [getReferenceByID, jobIndex, OMap.index_of_none hid, nActive]
    exact OMap.length_set_of_none hid _
  · simp only [getReferenceByID, jobIndex, OMap.index_of_none hid, Active]
    rw [OMap.get?_set _ _ _ hr.jobsSorted]
    simp

/-- **C13** (negation) On every reachable nonempty data set, a time that is not stored makes
`getReferenceByTime` succeed with the first solution of the branch. -/
theorem C13_unknown_time_violation (h : Reachable d) (hne : d.xi ≠ []) {time : K}
    (ht : ∀ p ∈ flat d, p.time ≠ time) :
    (getReferenceByTime d time).1 = (flat d).head?.map (·.sol) ∧
    (getReferenceByTime d time).1.isSome := by
  obtain ⟨ps, hr⟩ := h.rep
  have hps : ps ≠ [] := by rintro rfl; exact hne hr.xi
  obtain ⟨p, l, rfl⟩ := List.exists_cons_of_ne_nil hps
  have hp := (hr.head0 p (by simp)).1
  rw [hr.flat_eq] at ht ⊢
  have hnone : OMap.get? d.ximap time = none := by
    rw [OMap.get?_eq_none]
    intro x hx
    rcases hr.ximap with hm | ⟨p0, hps, _, _, hm⟩
    · rw [hm] at hx
      obtain ⟨q, hq, rfl⟩ := List.mem_map.1 hx
      exact ht _ (List.mem_map.2 ⟨q, hq, rfl⟩)
    · rw [hm] at hx; simp at hx
  have h1 : (getReferenceByTime d time).1 = some p.sol := by
    simp only [getReferenceByTime, OMap.index_of_none hnone]
    rw [← hp]
    exact hr.get_sols (by simp)
  exact ⟨by rw [h1]; rfl, by rw [h1]; rfl⟩

example : ∃ d : Data ℚ ℕ, Reachable d ∧ d.xi ≠ [] ∧ OMap.get? d.jobs 7 = none ∧
    ∀ p ∈ flat d, p.time ≠ 10 := by
  have h : (runChecked sampleStart sampleOps).any (fun d => !d.xi.isEmpty &&
      (OMap.get? d.jobs 7).isNone && (flat d).all (fun p => decide (p.time ≠ 10))) = true := by
    decide +kernel
  rw [Option.any_eq_true] at h
  obtain ⟨d, hd, h⟩ := h
  simp only [Bool.and_eq_true, Bool.not_eq_true', List.isEmpty_eq_false_iff, Option.isNone_iff_eq_none,
    List.all_eq_true, decide_eq_true_eq] at h
  exact ⟨d, ⟨_, _, _, _, exec_of_runChecked hd⟩, h.1.1, h.1.2, h.2⟩

/-- **C14** After `addStartPoint(time)` and `pop`, `jobStartTime` returns 0 whatever the time given:
the documented value `time` is returned only if it is 0. -/
theorem C14_start_time_violation (maxLevel : ℕ) (tol dt time : K) (sol : S) (b : Bool) :
    ∃ d₁ r d₂, addStartPoint (Data.fresh maxLevel tol dt) time sol b = .ok d₁ ∧
      pop d₁ = .ok (r, d₂) ∧ (jobStartTime d₂ r.id).1 = 0 ∧
      ((jobStartTime d₂ r.id).1 = time ↔ time = 0) := by
  refine ⟨{ (Data.fresh maxLevel tol dt : Data K S) with
      t := [time], xi := [0], sols := [(0, sol)], levels := [(0, 0)], prevs := [(0, sol)],
      queue := [⟨0, 0, 0⟩], initialized := true }, ⟨0, dt, sol, sol⟩,
    { (Data.fresh maxLevel tol dt : Data K S) with
      t := [time], xi := [0], sols := [(0, sol)], levels := [(0, 0)], prevs := [(0, sol)],
      queue := [], initialized := true, tmap := [(0, 0)], jobs := [(0, ⟨0, 0, 0⟩)], nextID := 1 },
    ?_, ?_, ?_, ?_⟩
  · cases b <;>
    simp [addStartPoint, Data.fresh, OMap.insertNew, OMap.get?, applyOptions, knotInsert, pushJob]
  · simp [pop, Data.fresh, OMap.index, OMap.get?, OMap.set]
  · simp [jobStartTime, jobIndex, Data.fresh, OMap.index, OMap.get?]
  · simp [jobStartTime, jobIndex, Data.fresh, OMap.index, OMap.get?, eq_comm]

/-- **C15** `init(times, solutions)` on a fresh data set: the flat solution is the given data with
level 0, the parameters are the times mapped affinely to `[0,1]`, and the queue holds the
consecutive pairs at level 1, in order. -/
theorem C15_init (maxLevel : ℕ) (tol dt : K) {times : List K} {sols : List S}
    (hs : times.Pairwise (· < ·)) (h2 : 2 ≤ times.length) (hlen : times.length = sols.length) :
    ∃ d, initData (Data.fresh maxLevel tol dt) times sols = .ok d ∧
      (flat d).map (fun p => (p.time, p.sol)) = times.zip sols ∧
      (∀ p ∈ flat d, p.level = 0) ∧
      d.xi = times.map (fun t => (t - times.headD 0) / (times.getLastD 0 - times.headD 0)) ∧
      d.queue = (d.xi.zip d.xi.tail).map (fun x => ⟨x.1, x.2, 1⟩) := by
  obtain ⟨e, r⟩ := initData_eq (fresh_isFresh (S := S) maxLevel tol dt) hs h2 hlen
  refine ⟨_, e, ?_⟩
  match times, sols, hs, h2, hlen with
  | a :: l, s :: ss, hs, h2, hlen =>
    have hlen' : l.length = ss.length := by simpa using hlen
    set b := (a :: l).getLast (by simp) with hb
    have hcurve : initCurve (a :: l) (s :: ss) =
        ⟨unitPar a b a, a, s, 0, s, none⟩ :: initTail (unitPar a b) s (l.zip ss) := by
      simp [initCurve, initPts, ← hb]
    obtain ⟨i1, i2, i3, i4⟩ := initTail_map (unitPar a b) s (l.zip ss)
    have hsolmap : (initTail (unitPar a b) s (l.zip ss)).map (·.sol) = ss := by
      have := congrArg (List.map Prod.snd) i3
      simp only [List.map_map] at this
      refine Eq.trans this ?_
      have : (Prod.snd ∘ fun x : K × S => (unitPar a b x.1, x.2)) = Prod.snd := rfl
      rw [this]
      exact List.map_snd_zip (by rw [hlen'])
    have htmap : (initTail (unitPar a b) s (l.zip ss)).map (·.t) = l := by
      rw [i1]; exact List.map_fst_zip (by rw [hlen'])
    refine ⟨?_, ?_, ?_, ?_⟩
    · rw [r.flat_eq, hcurve, List.map_cons, List.map_cons, List.zip_cons_cons]
      congr 1
      rw [List.map_map]
      have : ((fun p : FlatPoint K S => (p.time, p.sol)) ∘ Pt.flat) =
          fun p : Pt K S => (p.t, p.sol) := rfl
      rw [this]
      have hz : ∀ m : List (Pt K S), m.map (fun p => (p.t, p.sol)) =
          (m.map (·.t)).zip (m.map (·.sol)) := by
        intro m
        rw [List.zip_map']
      rw [hz, htmap, hsolmap]
    · intro p hp
      rw [r.flat_eq, hcurve] at hp
      obtain ⟨q, hq, rfl⟩ := List.mem_map.1 hp
      rcases List.mem_cons.1 hq with hq | hq
      · rw [hq]; rfl
      · exact (initTail_mem _ _ _ q hq).2
    · rw [r.xi, hcurve]
      have hl : (a :: l).getLastD 0 = b := by
        rw [List.getLastD_eq_getLast?, List.getLast?_eq_getLast_of_ne_nil (by simp)]; rfl
      rw [hl]
      simp only [List.headD_cons, List.map_cons]
      rw [i2]
      congr 1
      have : (l.zip ss).map (fun x => unitPar a b x.1) =
          ((l.zip ss).map Prod.fst).map (unitPar a b) := by rw [List.map_map]; rfl
      rw [this, List.map_fst_zip (by rw [hlen'])]
      rfl
    · have hq : (initState (Data.fresh maxLevel tol dt) (initCurve (a :: l) (s :: ss))).queue =
          gaps (initCurve (a :: l) (s :: ss)) := rfl
      rw [hq, r.xi, hcurve, ← gaps_pairJobs _ _ (fun q hq => (initTail_mem _ _ _ q hq).1)]
      generalize (_ :: initTail (unitPar a b) s (l.zip ss) : List (Pt K S)).map (·.xi) = xs
      clear * -
      induction xs with
      | nil => rfl
      | cons x xs ih =>
        cases xs with
        | nil => rfl
        | cons y ys => simp only [pairJobs, ih]; rfl

example : ([0, 1, 3] : List ℚ).Pairwise (· < ·) := by decide +kernel

/-- **C15** Calling `init` again on a used data set does not replace the solutions stored at
coinciding parameters. -/
theorem C15_second_init_keeps_old_solutions :
    ∃ (d d' : Data ℚ ℕ), Reachable d ∧ initData d [0, 1] [7, 8] = .ok d' ∧
      (flat d').map (·.sol) = [100, 101, 102] := by
  have h : (runChecked sampleStart (sampleOps.take 1)).any (fun d : Data ℚ ℕ =>
        match initData d [0, 1] [7, 8] with
        | .ok d' => decide ((flat d').map (·.sol) = [100, 101, 102])
        | .error _ => false) = true := by
    decide +kernel
  rw [Option.any_eq_true] at h
  obtain ⟨d, hd, h⟩ := h
  split at h
  · rename_i d' he
    exact ⟨d, d', ⟨_, _, _, _, exec_of_runChecked hd⟩, he, of_decide_eq_true h⟩
  · simp at h

end GsSA.APALM
