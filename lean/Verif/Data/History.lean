import Verif.Data.Invariant

/-!
# Facts about histories (proof machinery)
-/

set_option linter.unusedSectionVars false

namespace GsSA.APALM

open GsSA

variable {K S : Type*} [Field K] [LinearOrder K] [IsStrictOrderedRing K]
variable {d d' : Data K S} {ps ps' : List (Pt K S)}

theorem initTail_length (xf : K → K) (sp : S) (l : List (K × S)) :
    (initTail xf sp l).length = l.length := by
  rw [← List.length_map (f := (·.t)), (initTail_map xf sp l).1, List.length_map]

theorem initCurve_length {times : List K} {sols : List S} (h : times.length = sols.length) :
    (initCurve times sols).length = times.length := by
  cases times with
  | nil => rfl
  | cons a l =>
    cases sols with
    | nil => simp at h
    | cons s ss =>
      simp only [initCurve, List.zip_cons_cons, initPts, List.length_cons, initTail_length,
        List.length_zip] at h ⊢
      omega

theorem AbsStep.length {op : Op K S} (h : AbsStep d op ps ps') :
    ps'.length = ps.length + op.stored := by
  cases h with
  | addStart => rfl
  | init times sols h2 hs hlen => simp [initCurve_length hlen, Op.stored]
  | appendPoint => rfl
  | appendFirst => rfl
  | appendData => simp [Op.stored]
  | pop => rfl
  | complete id ds sols u l hne pre a b post ℓ hp hact hok =>
    have := hok.len
    simp only [SubmitData.curve, SubmitData.newPts, List.length_append, List.length_cons,
      newPts_length, List.length_zip, List.length_map, Op.stored]
    simp only [submitDataOf] at this ⊢
    omega
  | finish => rfl
  | drop => simp [Op.stored]
  | setLength => rfl
  | readFlat => rfl
  | readTimes => rfl
  | readReference => rfl

/-- Solution and level of a point. -/
def Pt.sl (p : Pt K S) : S × ℕ := (p.sol, p.level)

theorem AbsStep.sublist {op : Op K S} (h : AbsStep d op ps ps') :
    (ps.map Pt.sl).Sublist (ps'.map Pt.sl) := by
  cases h with
  | addStart => simp
  | init times sols h2 hs hlen => simp
  | appendPoint => exact List.Sublist.refl _
  | appendFirst => simp
  | appendData => exact (List.sublist_append_left _ _).map _
  | pop => exact List.Sublist.refl _
  | complete id ds sols u l hne pre a b post ℓ hp hact hok =>
    simp only [SubmitData.curve, List.map_append, List.map_cons, List.map_map]
    refine List.Sublist.append (List.Sublist.refl _) (List.Sublist.cons_cons _ ?_)
    refine List.Sublist.trans ?_ (List.sublist_append_right _ _)
    exact List.Sublist.refl _
  | finish => exact List.Sublist.refl _
  | drop => simp [Pt.sl]
  | setLength => exact List.Sublist.refl _
  | readFlat => exact List.Sublist.refl _
  | readTimes => exact List.Sublist.refl _
  | readReference => exact List.Sublist.refl _

theorem Exec.abs {ops : List (Op K S)} (he : Exec d ops d') (h : Rep d ps) :
    ∃ ps', Rep d' ps' ∧ ps'.length = ps.length + (ops.map Op.stored).sum ∧
      (ps.map Pt.sl).Sublist (ps'.map Pt.sl) ∧ d.nextID ≤ d'.nextID := by
  induction he generalizing ps with
  | nil d => exact ⟨ps, h, by simp, List.Sublist.refl _, le_rfl⟩
  | cons hc hx _ ih =>
    obtain ⟨d₁, ps₁, hx', hr, ha, hf⟩ := h.step _ hc
    rw [hx'] at hx
    injection hx with hx
    subst hx
    obtain ⟨ps₂, hr₂, h1, h2, h3⟩ := ih hr
    refine ⟨ps₂, hr₂, ?_, ha.sublist.trans h2, ?_⟩
    · rw [h1, ha.length, List.map_cons, List.sum_cons]; omega
    · have := hf.nextID
      omega

/-! ## Uniqueness of gaps -/

theorem eq_of_xi (h : ps.Pairwise (fun p q => p.xi < q.xi)) {p q : Pt K S} (hp : p ∈ ps)
    (hq : q ∈ ps) (he : p.xi = q.xi) : p = q := by
  have h1 := get_map h (fun p => p) hp
  rw [he, get_map h (fun p => p) hq] at h1
  simpa using h1.symm

theorem gaps_lo_sublist (ps : List (Pt K S)) :
    ((gaps ps).map (·.lo)).Sublist (ps.map (·.xi)) := by
  induction ps with
  | nil => simp [gaps]
  | cons a l ih =>
    cases l with
    | nil => simp [gaps]
    | cons b l =>
      simp only [gaps, List.map_append, List.map_cons] at ih ⊢
      have : ((gapJob a b).map (·.lo)).Sublist [a.xi] := by
        unfold gapJob
        split <;> simp
      exact List.Sublist.append this ih

theorem Rep.lo_nodup (h : Rep d ps) :
    (((allJobs d).filter (fun j => decide (0 < j.level))).map (·.lo)).Nodup := by
  rw [(h.jobs.map (·.lo)).nodup_iff]
  refine (gaps_lo_sublist ps).nodup ?_
  refine List.Pairwise.imp (fun hab => ne_of_lt hab) (?_ : List.Pairwise (· < ·) (ps.map (·.xi)))
  rw [List.pairwise_map]
  exact h.sortedXi

theorem Rep.lo_ne (h : Rep d ps) {id id' : ℕ} {j j' : Job K} (hne : id ≠ id') (hj : Active d id j)
    (hj' : Active d id' j') (hl : 0 < j.level) (hl' : 0 < j'.level) : j.lo ≠ j'.lo := by
  have h1 := ((allJobs_finish h.jobsSorted hj).filter (fun j => decide (0 < j.level))).map (·.lo)
  rw [List.filter_cons_of_pos (by simpa using hl), List.map_cons] at h1
  have h2 := h1.nodup_iff.1 h.lo_nodup
  rw [List.nodup_cons] at h2
  intro he
  apply h2.1
  rw [he]
  refine List.mem_map.2 ⟨j', List.mem_filter.2 ⟨?_, by simpa using hl'⟩, rfl⟩
  apply mem_allJobs_of_get (id := id')
  rw [finishJob, OMap.get?_erase_ne hne.symm]
  exact hj'

theorem adjacent_le {pre : List (Pt K S)} {a b : Pt K S} {post : List (Pt K S)}
    (h : (pre ++ a :: b :: post).Pairwise (fun p q => p.xi < q.xi)) {p : Pt K S}
    (hp : p ∈ pre ++ a :: b :: post) :
    (p.xi ≤ a.xi ∧ p ∈ pre ++ [a]) ∨ (b.xi ≤ p.xi ∧ p ∈ b :: post) := by
  simp only [List.pairwise_append, List.pairwise_cons, List.mem_cons, forall_eq_or_imp] at h
  simp only [List.mem_append, List.mem_cons] at hp
  rcases hp with hp | hp | hp | hp
  · exact Or.inl ⟨(h.2.2 p hp).1.le, by simp [hp]⟩
  · exact Or.inl ⟨by rw [hp], by simp [hp]⟩
  · exact Or.inr ⟨by rw [hp], by simp [hp]⟩
  · exact Or.inr ⟨(h.2.1.2.1 p hp).le, by simp [hp]⟩

/-- Points of the old curve in the new curve. -/
theorem curve_point {s : SubmitData K S} (maxLevel : ℕ) (tol : K) {pre : List (Pt K S)}
    {a b : Pt K S} {post : List (Pt K S)} (level : ℕ) :
    (∀ p ∈ pre ++ [a], p ∈ s.curve maxLevel tol pre a b post level) ∧
    (∀ p ∈ b :: post, ∃ q ∈ s.curve maxLevel tol pre a b post level, q.xi = p.xi ∧
      q.t = p.t + (s.ds.sum + s.δ - (b.t - a.t))) := by
  unfold SubmitData.curve
  constructor
  · intro p hp
    simp only [List.mem_append, List.mem_cons] at hp ⊢
    tauto
  · intro p hp
    rcases List.mem_cons.1 hp with hp | hp
    · refine ⟨s.endPt maxLevel tol a b level, by simp, ?_, ?_⟩
      · rw [hp]; rfl
      · rw [hp]; rfl
    · refine ⟨shiftPt (s.ds.sum + s.δ - (b.t - a.t)) p, ?_, rfl, rfl⟩
      simp only [List.mem_append, List.mem_cons, List.mem_map]
      exact Or.inr (Or.inr (Or.inr (Or.inr ⟨p, hp, rfl⟩)))

/-- The job table only gains fresh identifiers. -/
theorem Frame.active {op : Op K S} (hf : Frame d op d') (h : Rep d ps) {id : ℕ} {j' : Job K}
    (hj' : Active d' id j') : Active d id j' ∨ id = d.nextID := by
  rw [Active, hf.jobs] at hj'
  cases op with
  | pop =>
    simp only [nextJobs] at hj'
    split at hj'
    · rw [OMap.get?_append] at hj'
      cases hg : OMap.get? d.jobs id with
      | some x =>
        rw [hg] at hj'
        left
        rw [Active, hg, ← hj']
        rfl
      | none =>
        rw [hg] at hj'
        right
        simp only [Option.none_or, OMap.get?_cons, OMap.get?_nil] at hj'
        split at hj'
        · rename_i e; exact e.symm
        · simp at hj'
    · exact Or.inl hj'
  | complete id' _ _ _ _ =>
    simp only [nextJobs] at hj'
    by_cases hid : id = id'
    · subst hid
      rw [OMap.get?_erase_self h.jobsSorted] at hj'
      simp at hj'
    · rw [OMap.get?_erase_ne hid] at hj'
      exact Or.inl hj'
  | finish id' =>
    simp only [nextJobs] at hj'
    by_cases hid : id = id'
    · subst hid
      rw [OMap.get?_erase_self h.jobsSorted] at hj'
      simp at hj'
    · rw [OMap.get?_erase_ne hid] at hj'
      exact Or.inl hj'
  | addStart => exact Or.inl hj'
  | init => exact Or.inl hj'
  | appendPoint => exact Or.inl hj'
  | appendData => exact Or.inl hj'
  | setLength => exact Or.inl hj'
  | readFlat => exact Or.inl hj'
  | readTimes => exact Or.inl hj'
  | readReference => exact Or.inl hj'

theorem Rep.active_lt (h : Rep d ps) {id : ℕ} {j : Job K} (hj : Active d id j) : id < d.nextID :=
  h.ids _ (OMap.mem_of_get? hj)

/-- Interval length of an active job. -/
def jobWidth (d : Data K S) (id : ℕ) : K := (jobTimes d id).1.2 - (jobTimes d id).1.1

theorem Rep.jobWidth_eq (h : Rep d ps) {id : ℕ} {j : Job K} (hj : Active d id j) {a b : Pt K S}
    (ha : a ∈ ps) (hb : b ∈ ps) (hax : a.xi = j.lo) (hbx : b.xi = j.hi) :
    jobWidth d id = b.t - a.t := by
  rw [jobWidth, h.jobTimes_eq hj ha hb hax hbx]

theorem AbsStep.width {op : Op K S} (hs : AbsStep d op ps ps') (h : Rep d ps) (h' : Rep d' ps')
    (hf : Frame d op d') {id : ℕ} {j : Job K} (hj : Active d id j) (hj' : Active d' id j) :
    jobWidth d' id = jobWidth d id := by
  obtain ⟨p, hp, hpx⟩ := h.job_lo (mem_allJobs_of_get hj)
  obtain ⟨q, hq, hqx⟩ := h.job_hi (mem_allJobs_of_get hj)
  rw [h.jobWidth_eq hj hp hq hpx hqx]
  cases hs with
  | addStart => simp at hp
  | init times sols h2 hs hlen => simp at hp
  | appendPoint => rw [h'.jobWidth_eq hj' hp hq hpx hqx]
  | appendFirst => simp at hp
  | appendData =>
    rw [h'.jobWidth_eq hj' (List.mem_append_left _ hp) (List.mem_append_left _ hq) hpx hqx]
  | pop => rw [h'.jobWidth_eq hj' hp hq hpx hqx]
  | finish => rw [h'.jobWidth_eq hj' hp hq hpx hqx]
  | setLength => rw [h'.jobWidth_eq hj' hp hq hpx hqx]
  | readFlat => rw [h'.jobWidth_eq hj' hp hq hpx hqx]
  | readTimes => rw [h'.jobWidth_eq hj' hp hq hpx hqx]
  | readReference => rw [h'.jobWidth_eq hj' hp hq hpx hqx]
  | drop id' pre a b post ℓ hpe hact =>
    have key : ∀ r ∈ pre ++ a :: b :: post,
        ∃ r' ∈ pre ++ a :: { b with pend := none } :: post, r'.xi = r.xi ∧ r'.t = r.t := by
      intro r hr
      simp only [List.mem_append, List.mem_cons] at hr
      rcases hr with hr | hr | hr | hr
      · exact ⟨r, by simp [hr], rfl, rfl⟩
      · exact ⟨r, by simp [hr], rfl, rfl⟩
      · exact ⟨{ b with pend := none }, by simp, by rw [hr], by rw [hr]⟩
      · exact ⟨r, by simp [hr], rfl, rfl⟩
    obtain ⟨p', hp', hpx', hpt⟩ := key p hp
    obtain ⟨q', hq', hqx', hqt⟩ := key q hq
    rw [h'.jobWidth_eq hj' hp' hq' (hpx'.trans hpx) (hqx'.trans hqx), hpt, hqt]
  | complete id' ds sols u l hne pre a b post ℓ hpe hact hok =>
    have hid : id ≠ id' := by
      rintro rfl
      rw [Active, hf.jobs, nextJobs, OMap.get?_erase_self h.jobsSorted] at hj'
      simp at hj'
    set s := submitDataOf ds sols u l hne with hs
    obtain ⟨k1, k2⟩ := curve_point (s := s) d.maxLevel d.tol (pre := pre) (a := a) (b := b)
      (post := post) ℓ
    have same : (p ∈ pre ++ [a] ∧ q ∈ pre ++ [a]) ∨ (p ∈ b :: post ∧ q ∈ b :: post) := by
      rcases Nat.eq_zero_or_pos j.level with hl | hl
      · obtain ⟨e, -⟩ := h.zero j (mem_allJobs_of_get hj) hl
        have hpq : p.xi = q.xi := by rw [hpx, hqx, e]
        have : p = q := eq_of_xi h.sortedXi hp hq hpq
        subst this
        rcases adjacent_le h.sortedXi hp with ⟨-, h1⟩ | ⟨-, h1⟩
        · exact Or.inl ⟨h1, h1⟩
        · exact Or.inr ⟨h1, h1⟩
      · have hlo := h.lo_ne hid hj hact hl (h.pendPos b (by simp) ℓ hpe)
        simp only at hlo
        obtain ⟨pre', a', b', post', he, hje, -⟩ := h.job_gap (mem_allJobs_of_get hj) hl
        have hpa : p.xi = a'.xi := by rw [hpx, hje]
        have hqb : q.xi = b'.xi := by rw [hqx, hje]
        have hsx := h.sortedXi
        have hsx' := h.sortedXi
        rw [he] at hsx'
        have ha : a ∈ pre' ++ a' :: b' :: post' := by rw [← he]; simp
        have hpq : p.xi < q.xi := by
          rw [hpa, hqb]
          simp only [List.pairwise_append, List.pairwise_cons, List.mem_cons,
            forall_eq_or_imp] at hsx'
          exact hsx'.2.1.1.1
        rcases adjacent_le hsx hp with ⟨h1, h1'⟩ | ⟨h1, h1'⟩
        · left
          refine ⟨h1', ?_⟩
          rcases adjacent_le hsx hq with ⟨h2, h2'⟩ | ⟨h2, h2'⟩
          · exact h2'
          · exfalso
            rcases adjacent_le hsx' ha with ⟨h3, -⟩ | ⟨h3, -⟩
            · apply hlo
              rw [← hpx]
              exact le_antisymm h1 (by rw [hpa]; exact h3)
            · have : b.xi ≤ a.xi := by rw [← hqb] at h3; exact h2.trans h3
              simp only [List.pairwise_append, List.pairwise_cons, List.mem_cons,
                forall_eq_or_imp] at hsx
              exact absurd hsx.2.1.1.1 (not_lt.2 this)
        · right
          refine ⟨h1', ?_⟩
          rcases adjacent_le hsx hq with ⟨h2, h2'⟩ | ⟨h2, h2'⟩
          · exfalso
            have : b.xi < a.xi := lt_of_le_of_lt h1 (lt_of_lt_of_le hpq h2)
            simp only [List.pairwise_append, List.pairwise_cons, List.mem_cons,
              forall_eq_or_imp] at hsx
            exact absurd hsx.2.1.1.1 (not_lt.2 this.le)
          · exact h2'
    rcases same with ⟨h1, h2⟩ | ⟨h1, h2⟩
    · rw [h'.jobWidth_eq hj' (k1 p h1) (k1 q h2) hpx hqx]
    · obtain ⟨p', hp', hpx', hpt⟩ := k2 p h1
      obtain ⟨q', hq', hqx', hqt⟩ := k2 q h2
      rw [h'.jobWidth_eq hj' hp' hq' (hpx'.trans hpx) (hqx'.trans hqx), hpt, hqt]
      ring

theorem Exec.width {ops : List (Op K S)} (he : Exec d ops d') (h : Rep d ps) {id : ℕ}
    (hid : id < d.nextID) {j' : Job K} (hj' : Active d' id j') :
    Active d id j' ∧ jobWidth d' id = jobWidth d id := by
  induction he generalizing ps with
  | nil d => exact ⟨hj', rfl⟩
  | cons hc hx _ ih =>
    obtain ⟨d₁, ps₁, hx', hr, ha, hf⟩ := h.step _ hc
    rw [hx'] at hx
    injection hx with hx
    subst hx
    have hid' : id < d₁.nextID := by
      have := hf.nextID
      omega
    obtain ⟨h1, h2⟩ := ih hr hid' hj'
    rcases hf.active h h1 with h3 | h3
    · exact ⟨h3, by rw [h2, ha.width h hr hf h3 h1]⟩
    · omega

end GsSA.APALM
