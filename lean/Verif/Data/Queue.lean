import Mathlib.Algebra.BigOperators.Ring.Finset
import Mathlib.Tactic.Ring
import Verif.Data.History

/-!
# What each call does to the queue (proof machinery)
-/

set_option linter.unusedSectionVars false

namespace GsSA.APALM

open GsSA

variable {K S : Type*} [Field K] [LinearOrder K] [IsStrictOrderedRing K]
variable {d d' : Data K S} {ps ps' : List (Pt K S)}

/-- The queue after a call. -/
def QueueStep (d : Data K S) (op : Op K S) (q' : List (Job K)) : Prop :=
  match op with
  | .addStart _ _ => d.queue = [] ∧ q' = [⟨0, 0, 0⟩]
  | .init times _ => d.queue = [] ∧ q'.length + 1 = times.length ∧ ∀ j ∈ q', j.level = 1
  | .appendPoint b => ∃ x, q' = pushJob d.queue ⟨x, x, 0⟩ b
  | .appendData _ _ b => q' = d.queue ∨ ∃ x y, q' = pushJob d.queue ⟨x, y, 1⟩ b
  | .pop => ∃ j, d.queue = j :: q'
  | .complete id ds _ _ _ => ∃ j new, Active d id j ∧ 0 < j.level ∧ q' = d.queue ++ new ∧
      (∀ j' ∈ new, j'.level = j.level + 1) ∧ new.length ≤ ds.length ∧
      (new ≠ [] → j.level < d.maxLevel)
  | _ => q' = d.queue

theorem gaps_length_le (a : Pt K S) (l : List (Pt K S)) : (gaps (a :: l)).length ≤ l.length := by
  induction l generalizing a with
  | nil => simp [gaps]
  | cons b l ih =>
    have := ih b
    simp only [gaps, List.length_append, List.length_cons]
    have h2 : (gapJob a b).length ≤ 1 := by unfold gapJob; split <;> simp
    omega

theorem gaps_length_eq (a : Pt K S) (l : List (Pt K S)) (h : ∀ p ∈ l, p.pend = some 1) :
    (gaps (a :: l)).length = l.length ∧ ∀ j ∈ gaps (a :: l), j.level = 1 := by
  induction l generalizing a with
  | nil => simp [gaps]
  | cons b l ih =>
    obtain ⟨h1, h2⟩ := ih b (fun p hp => h p (by simp [hp]))
    have hb := h b (by simp)
    constructor
    · simp only [gaps, List.length_append, List.length_cons, h1]
      simp [gapJob, hb, Nat.add_comm]
    · intro j hj
      simp only [gaps, List.mem_append] at hj
      rcases hj with hj | hj
      · simp only [gapJob, hb, List.mem_singleton] at hj
        rw [hj]
      · exact h2 j hj

theorem SubmitData.new_level {s : SubmitData K S} {m : ℕ} {tol : K} {a b : Pt K S} {ℓ : ℕ} :
    ∀ j ∈ gaps (a :: (s.newPts m tol a b ℓ ++ [s.endPt m tol a b ℓ])),
      j.level = ℓ + 1 ∧ ℓ < m := by
  intro j hj
  obtain ⟨pre, p, q, post, he, h1, h2⟩ := mem_gaps hj
  have hq : q ∈ s.newPts m tol a b ℓ ++ [s.endPt m tol a b ℓ] := by
    cases pre with
    | nil =>
      simp only [List.nil_append, List.cons.injEq] at he
      rw [he.2]; simp
    | cons c pre =>
      simp only [List.cons_append, List.cons.injEq] at he
      rw [he.2]; simp
  rcases List.mem_append.1 hq with hq | hq
  · have := (newPts_mem _ _ _ _ _ _ q hq).2.2
    rw [this, SubmitData.pendLow] at h2
    split at h2
    · rename_i hc
      exact ⟨by simpa using h2.symm, hc.1⟩
    · simp at h2
  · simp only [List.mem_singleton] at hq
    subst hq
    simp only [SubmitData.endPt, SubmitData.pendUpp] at h2
    split at h2
    · rename_i hc
      exact ⟨by simpa using h2.symm, hc.1⟩
    · simp at h2

theorem Rep.queue_step (h : Rep d ps) {op : Op K S} (hc : Contract d op)
    (hx : exec d op = .ok d') : QueueStep d op d'.queue := by
  cases op with
  | addStart sol b =>
    have hp := ps_eq_nil_of_xi h hc
    subst hp
    rw [exec, addStartPoint_eq h.isFresh sol b] at hx
    injection hx with hx
    subst hx
    exact ⟨h.isFresh.queue, rfl⟩
  | init times sols =>
    obtain ⟨hx', hs, h2, hlen⟩ := hc
    have hp := ps_eq_nil_of_xi h hx'
    subst hp
    obtain ⟨e, r⟩ := initData_eq h.isFresh hs h2 hlen
    rw [exec, e] at hx
    injection hx with hx
    subst hx
    refine ⟨h.isFresh.queue, ?_⟩
    match times, sols, h2, hlen with
    | a :: l, s :: ss, h2, hlen =>
      obtain ⟨h3, h4⟩ := gaps_length_eq
        (⟨unitPar a ((a :: l).getLast (by simp)) a, a, s, 0, s, none⟩ : Pt K S)
        (initTail (unitPar a ((a :: l).getLast (by simp))) s (l.zip ss))
        (fun p hp => (initTail_mem _ _ _ p hp).1)
      refine ⟨?_, h4⟩
      have : (gaps (initCurve (a :: l) (s :: ss))).length = l.length := by
        refine h3.trans ?_
        rw [initTail_length]
        simp only [List.length_cons, List.length_zip] at hlen ⊢
        omega
      simpa [initState] using this
  | appendPoint b =>
    have hne : ps ≠ [] := by
      rintro rfl
      exact hc h.xi
    obtain ⟨l, p, rfl⟩ := exists_last hne
    rw [exec, h.appendPoint_eq b] at hx
    injection hx with hx
    subst hx
    exact ⟨p.xi, rfl⟩
  | appendData time sol b =>
    by_cases hne : ps = []
    · subst hne
      rw [exec, appendData_first_eq h.isFresh time sol b] at hx
      injection hx with hx
      subst hx
      exact Or.inl rfl
    · obtain ⟨l, p, rfl⟩ := exists_last hne
      have ht : p.t < time := hc p.t (by rw [h.t]; simp)
      rw [exec, h.appendData_eq ht sol b] at hx
      injection hx with hx
      subst hx
      exact Or.inr ⟨_, _, rfl⟩
  | pop =>
    obtain ⟨j, q, hq⟩ := List.exists_cons_of_ne_nil hc
    have hjm : j ∈ allJobs d := by simp [allJobs, hq]
    obtain ⟨p, hp, hpx⟩ := h.job_lo hjm
    obtain ⟨p', hp', hpx'⟩ := h.job_hi hjm
    rw [exec, h.pop_eq hq hp hpx hp' hpx'] at hx
    simp only [Except.map, Except.ok.injEq] at hx
    subst hx
    exact ⟨j, hq⟩
  | complete id ds sols u l =>
    obtain ⟨j, hj, hl, hlen, hpos, hens⟩ := hc
    obtain ⟨pre, a, b, post, rfl, hje, hbp⟩ := h.job_gap (mem_allJobs_of_get hj) hl
    have hne : ds ≠ [] := by rintro rfl; simp at hlen
    rw [h.jobTimes_eq hj (a := a) (b := b) (by simp) (by simp) (by rw [hje]) (by rw [hje])] at hens
    have hok : SubmitOK (submitDataOf ds sols u l hne) a b :=
      { len := by simp [submitDataOf, hlen]
        pos := fun x hx => hpos x (List.mem_of_mem_dropLast hx)
        posLast := hpos _ (List.getLast_mem hne)
        ensure := hens }
    have hj' := hj
    rw [hje] at hj'
    have := h.submit_eq hj' hok
    simp only [submitDataOf, List.dropLast_append_getLast] at this
    simp only [exec] at hx
    rw [this] at hx
    simp only [Except.map, Except.ok.injEq] at hx
    subst hx
    refine ⟨j, _, hj, hl, rfl, fun j' hj' => (SubmitData.new_level j' hj').1, ?_, ?_⟩
    · refine (gaps_length_le _ _).trans ?_
      simp [SubmitData.newPts, newPts_length, List.length_zip]
      omega
    · intro hn
      obtain ⟨j', hj'⟩ := List.exists_mem_of_ne_nil _ hn
      exact (SubmitData.new_level j' hj').2
  | finish id =>
    simp only [exec, Except.ok.injEq] at hx
    subst hx
    rfl
  | setLength dt =>
    simp only [exec, Except.ok.injEq] at hx
    subst hx
    rfl
  | readFlat f =>
    simp only [exec, Except.ok.injEq] at hx
    subst hx
    rfl
  | readTimes id =>
    obtain ⟨j, hj⟩ := hc
    obtain ⟨p, hp, hpx⟩ := h.job_lo (mem_allJobs_of_get hj)
    obtain ⟨p', hp', hpx'⟩ := h.job_hi (mem_allJobs_of_get hj)
    rw [exec, h.jobTimes_eq hj hp hp' hpx hpx'] at hx
    simp only [Except.ok.injEq] at hx
    subst hx
    rfl
  | readReference id =>
    obtain ⟨j, hj⟩ := hc
    obtain ⟨p', hp', hpx'⟩ := h.job_hi (mem_allJobs_of_get hj)
    rw [exec, h.getReferenceByID_eq hj hp' hpx'] at hx
    simp only [Except.ok.injEq] at hx
    subst hx
    rfl

/-! ## Level bound -/

/-- All levels of the curve are at most `m`. -/
def LevelsLe (m : ℕ) (ps : List (Pt K S)) : Prop :=
  ∀ p ∈ ps, p.level ≤ m ∧ ∀ ℓ, p.pend = some ℓ → ℓ ≤ m

theorem AbsStep.levelsLe {op : Op K S} (hs : AbsStep d op ps ps') {m : ℕ} (hm : 1 ≤ m)
    (hd : d.maxLevel ≤ m) (h : LevelsLe m ps) : LevelsLe m ps' := by
  cases hs with
  | addStart => intro p hp; simp at hp; subst hp; simp
  | init times sols h2 hs hlen =>
    intro p hp
    cases times with
    | nil => simp at h2
    | cons a l =>
      cases sols with
      | nil => simp at hlen
      | cons s ss =>
        simp only [initCurve, List.zip_cons_cons, initPts, List.mem_cons] at hp
        rcases hp with hp | hp
        · subst hp; simp
        · obtain ⟨h1, h2⟩ := initTail_mem _ _ _ p hp
          rw [h1, h2]
          simp only [zero_le, Option.some.injEq, true_and]
          intro ℓ e
          omega
  | appendFirst => intro p hp; simp at hp; subst hp; simp
  | appendData time sol b l p ht =>
    intro q hq
    rcases List.mem_append.1 hq with hq | hq
    · exact h q hq
    · simp only [List.mem_singleton] at hq
      subst hq
      simp only [appendPt, zero_le, Option.some.injEq, true_and]
      intro ℓ e
      omega
  | complete id ds sols u l hne pre a b post ℓ hp hact hok =>
    intro p hq
    have hb := (h b (by simp)).2 ℓ hp
    simp only [SubmitData.curve, List.mem_append, List.mem_cons, List.mem_map] at hq
    rcases hq with hq | hq | hq | hq | ⟨q, hq, rfl⟩
    · exact h p (by simp [hq])
    · exact h p (by simp [hq])
    · obtain ⟨-, h1, h2⟩ := newPts_mem _ _ _ _ _ _ p hq
      refine ⟨by omega, ?_⟩
      rw [h2, SubmitData.pendLow]
      intro ℓ' h3
      split at h3
      · rename_i hc
        simp only [Option.some.injEq] at h3
        omega
      · simp at h3
    · subst hq
      refine ⟨(h b (by simp)).1, ?_⟩
      simp only [SubmitData.endPt, SubmitData.pendUpp]
      intro ℓ' h3
      split at h3
      · rename_i hc
        simp only [Option.some.injEq] at h3
        omega
      · simp at h3
    · exact h q (by simp [hq])
  | drop id pre a b post ℓ hp hact =>
    intro p hq
    simp only [List.mem_append, List.mem_cons] at hq
    rcases hq with hq | hq | hq | hq
    · exact h p (by simp [hq])
    · exact h p (by simp [hq])
    · subst hq
      exact ⟨(h b (by simp)).1, by simp⟩
    · exact h p (by simp [hq])
  | appendPoint => exact h
  | pop => exact h
  | finish => exact h
  | setLength => exact h
  | readFlat => exact h
  | readTimes => exact h
  | readReference => exact h

theorem Exec.levelsLe {ops : List (Op K S)} (he : Exec d ops d') (h : Rep d ps) {m : ℕ}
    (hm : 1 ≤ m) (hd : d.maxLevel ≤ m) (ho : d.optMaxLevel ≤ m) (hl : LevelsLe m ps) :
    ∃ ps', Rep d' ps' ∧ LevelsLe m ps' ∧ d'.maxLevel ≤ m := by
  induction he generalizing ps with
  | nil d => exact ⟨ps, h, hl, hd⟩
  | cons hc hx _ ih =>
    obtain ⟨d₁, ps₁, hx', hr, ha, hf⟩ := h.step _ hc
    rw [hx'] at hx
    injection hx with hx
    subst hx
    refine ih hr ?_ ?_ (ha.levelsLe hm hd hl)
    · rcases hf.maxLevel with e | e <;> rw [e] <;> assumption
    · rw [hf.optMaxLevel]; exact ho

/-! ## Termination -/

/-- Number of jobs a waiting refinement job of level `ℓ` can give rise to (itself included). -/
def weight (n maxLevel ℓ : ℕ) : ℕ :=
  if ℓ = 0 then 1 else ∑ i ∈ Finset.range (maxLevel - ℓ + 1), (n + 1) ^ i

theorem weight_pos (n m ℓ : ℕ) : 1 ≤ weight n m ℓ := by
  unfold weight
  split
  · exact le_rfl
  · rw [Finset.sum_range_succ']
    simp

theorem weight_succ {n m ℓ : ℕ} (h0 : 0 < ℓ) (hlt : ℓ < m) :
    weight n m ℓ = 1 + (n + 1) * weight n m (ℓ + 1) := by
  unfold weight
  rw [if_neg (by omega), if_neg (by omega)]
  have : m - ℓ + 1 = (m - (ℓ + 1) + 1) + 1 := by omega
  rw [this, Finset.sum_range_succ', Finset.mul_sum, add_comm]
  simp [pow_succ, mul_comm]

/-- Potential: waiting jobs count with their weight, active ones without themselves. -/
def potential (n : ℕ) (d : Data K S) : ℕ :=
  (d.queue.map (fun j => weight n d.maxLevel j.level)).sum +
    ((OMap.vals d.jobs).map (fun j => weight n d.maxLevel j.level - 1)).sum

/-- Jobs a call can add in the long run. -/
def Op.budget (n m : ℕ) : Op K S → ℕ
  | .addStart _ _ => 1
  | .init times _ => (times.length - 1) * weight n m 1
  | .appendPoint _ => 1
  | .appendData _ _ _ => weight n m 1
  | _ => 0

/-- No submission contains more than `n` new points. -/
def Op.newPointsLe (n : ℕ) : Op K S → Prop
  | .complete _ _ sols _ _ => sols.length ≤ n
  | _ => True

theorem sum_erase_le {l : OMap ℕ (Job K)} (hs : OMap.Sorted l) {id : ℕ} {j : Job K}
    (hj : OMap.get? l id = some j) (f : Job K → ℕ) :
    ((OMap.vals l).map f).sum = f j + ((OMap.vals (OMap.erase l id)).map f).sum := by
  obtain ⟨m₁, m₂, he, h₁, h₂⟩ := OMap.exists_split hs hj
  rw [he, OMap.erase_append (fun p hp => ne_of_lt (h₁ p hp))]
  simp [OMap.vals]
  omega

theorem sum_le_of_const {l : List (Job K)} {f : Job K → ℕ} {c : ℕ} (h : ∀ j ∈ l, f j = c) :
    (l.map f).sum = l.length * c := by
  induction l with
  | nil => simp
  | cons a l ih =>
    simp only [List.map_cons, List.sum_cons, List.length_cons,
      ih (fun j hj => h j (by simp [hj])), h a (by simp)]
    ring

theorem pushJob_sum (q : List (Job K)) (j : Job K) (b : Bool) (f : Job K → ℕ) :
    ((pushJob q j b).map f).sum = (q.map f).sum + f j := by
  unfold pushJob
  split <;> simp [Nat.add_comm]

theorem Rep.potential_step (h : Rep d ps) {op : Op K S} (hc : Contract d op)
    (hx : exec d op = .ok d') (hm : d'.maxLevel = d.maxLevel) (hf : Frame d op d') {n : ℕ}
    (hn : op.newPointsLe n) :
    op.pops + potential n d' ≤ potential n d + op.budget n d.maxLevel := by
  have hq := h.queue_step hc hx
  have hj := hf.jobs
  unfold potential
  rw [hm, hj]
  cases op with
  | addStart sol b =>
    obtain ⟨h1, h2⟩ := hq
    rw [h1, h2]
    simp [nextJobs, Op.pops, Op.budget, weight, Nat.add_comm]
  | init times sols =>
    obtain ⟨h1, h2, h3⟩ := hq
    rw [h1, sum_le_of_const (c := weight n d.maxLevel 1) (fun j hj => by rw [h3 j hj])]
    simp only [nextJobs, Op.pops, Op.budget, List.map_nil, List.sum_nil]
    rw [show times.length - 1 = d'.queue.length by omega]
    omega
  | appendPoint b =>
    obtain ⟨x, h1⟩ := hq
    rw [h1, pushJob_sum]
    simp only [nextJobs, Op.pops, Op.budget, weight]
    simp
    omega
  | appendData time sol b =>
    simp only [nextJobs, Op.pops, Op.budget]
    rcases hq with h1 | ⟨x, y, h1⟩
    · rw [h1]; omega
    · rw [h1, pushJob_sum]; simp only; omega
  | pop =>
    obtain ⟨j, h1⟩ := hq
    have := weight_pos n d.maxLevel j.level
    simp only [nextJobs, Op.pops, Op.budget, h1, OMap.vals, List.map_append, List.sum_append,
      List.map_cons, List.sum_cons, List.map_nil, List.sum_nil]
    omega
  | complete id ds sols u l =>
    obtain ⟨j, new, hact, hl, h1, h2, h3, h4⟩ := hq
    obtain ⟨-, -, -, hlen, -⟩ := hc
    simp only [nextJobs, Op.pops, Op.budget]
    rw [sum_erase_le h.jobsSorted hact, h1, List.map_append, List.sum_append,
      sum_le_of_const (l := new) (c := weight n d.maxLevel (j.level + 1))
        (fun j hj => by rw [h2 j hj])]
    simp only [Op.newPointsLe] at hn
    by_cases hnew : new = []
    · rw [hnew]; simp only [List.length_nil, Nat.zero_mul]; omega
    · rw [weight_succ hl (h4 hnew)]
      have : new.length * weight n d.maxLevel (j.level + 1) ≤
          (n + 1) * weight n d.maxLevel (j.level + 1) := Nat.mul_le_mul_right _ (by omega)
      omega
  | finish id =>
    have hq : d'.queue = d.queue := hq
    simp only [nextJobs, Op.pops, Op.budget, hq]
    cases hg : OMap.get? d.jobs id with
    | none => rw [OMap.erase_of_not_mem hg]; omega
    | some j => rw [sum_erase_le h.jobsSorted hg]; omega
  | setLength dt => have hq : d'.queue = d.queue := hq; simp [nextJobs, Op.pops, Op.budget, hq]
  | readFlat f => have hq : d'.queue = d.queue := hq; simp [nextJobs, Op.pops, Op.budget, hq]
  | readTimes id => have hq : d'.queue = d.queue := hq; simp [nextJobs, Op.pops, Op.budget, hq]
  | readReference id => have hq : d'.queue = d.queue := hq; simp [nextJobs, Op.pops, Op.budget, hq]

theorem Exec.potential {ops : List (Op K S)} (he : Exec d ops d') (h : Rep d ps)
    (hm : d.optMaxLevel = d.maxLevel) {n : ℕ} (hn : ∀ op ∈ ops, op.newPointsLe n) :
    (ops.map Op.pops).sum + potential n d' ≤
      potential n d + (ops.map (Op.budget n d.maxLevel)).sum := by
  induction he generalizing ps with
  | nil d => simp
  | @cons d₀ _ _ op ops hc hx _ ih =>
    obtain ⟨d₁, ps₁, hx', hr, ha, hf⟩ := h.step _ hc
    rw [hx'] at hx
    injection hx with hx
    subst hx
    have hm1 : d₁.maxLevel = d₀.maxLevel := by
      rcases hf.maxLevel with e | e
      · exact e
      · exact e.trans hm
    have h1 := h.potential_step hc hx' hm1 hf (hn _ (by simp))
    have h2 := ih hr (by rw [hf.optMaxLevel, hm1, hm]) (fun op hop => hn op (by simp [hop]))
    rw [hm1] at h2
    simp only [List.map_cons, List.sum_cons]
    omega

end GsSA.APALM
