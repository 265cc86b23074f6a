import Verif.Driver.Jobs
import Verif.Data.Confluence
import Verif.Data.Queue

/-!
# Effect of taking out a job and storing its result (proof machinery)
-/

set_option linter.unusedSectionVars false

namespace GsSA.APALM

open GsSA

variable {K S : Type*} [Field K] [LinearOrder K] [IsStrictOrderedRing K]
variable {d : Data K S} {ps : List (Pt K S)}

theorem SRun.trans {corr : Corrector K S} {s₁ s₂ s₃ : Sched K S} {l₁ l₂ : List (K × S)}
    (h₁ : SRun corr s₁ l₁ s₂) (h₂ : SRun corr s₂ l₂ s₃) : SRun corr s₁ (l₁ ++ l₂) s₃ := by
  induction h₁ with
  | nil s => exact h₂
  | cons hs _ ih => rw [List.append_assoc]; exact .cons hs (ih h₂)

theorem SStep.run {corr : Corrector K S} {s₁ s₂ : Sched K S} {l : List (K × S)}
    (h : SStep corr s₁ l s₂) : SRun corr s₁ l s₂ := by
  have := SRun.cons h (SRun.nil s₂)
  rwa [List.append_nil] at this

/-- The last point of the branch: parameter, solution and previous solution. -/
def LastIs (d : Data K S) (x : K) (s p : S) : Prop :=
  d.xi.getLast? = some x ∧ OMap.get? d.sols x = some s ∧ OMap.get? d.prevs x = some p

theorem Rep.lastIs {l : List (Pt K S)} {p : Pt K S} (h : Rep d (l ++ [p])) :
    LastIs d p.xi p.sol p.prev :=
  ⟨by rw [h.xi]; simp, h.get_sols (by simp), h.get_prevs (by simp)⟩

theorem Rep.of_lastIs (h : Rep d ps) {x : K} {s p : S} (hx : LastIs d x s p) :
    ∃ l q, ps = l ++ [q] ∧ q.xi = x ∧ q.sol = s ∧ q.prev = p := by
  have hne : ps ≠ [] := by
    rintro rfl
    have := hx.1
    rw [h.xi] at this
    simp at this
  obtain ⟨l, q, rfl⟩ := exists_last hne
  have e1 : q.xi = x := by
    have := hx.1
    rw [h.xi] at this
    simpa using this
  subst e1
  have h2 := hx.2.1
  have h3 := hx.2.2
  rw [h.get_sols (by simp)] at h2
  rw [h.get_prevs (by simp)] at h3
  exact ⟨l, q, rfl, rfl, by simpa using h2, by simpa using h3⟩

/-- The solutions of the points of level 0, in order. -/
def coarse (d : Data K S) : List S := ((flat d).filter (fun p => p.level = 0)).map (·.sol)

/-- The same for a curve. -/
def coarsePts (ps : List (Pt K S)) : List S := (ps.filter (fun p => p.level = 0)).map (·.sol)

theorem Rep.coarse_eq (h : Rep d ps) : coarse d = coarsePts ps := by
  rw [coarse, h.flat_eq, List.filter_map, List.map_map]
  rfl

theorem coarsePts_append (l₁ l₂ : List (Pt K S)) :
    coarsePts (l₁ ++ l₂) = coarsePts l₁ ++ coarsePts l₂ := by simp [coarsePts]

theorem coarsePts_cons (p : Pt K S) (l : List (Pt K S)) :
    coarsePts (p :: l) = coarsePts [p] ++ coarsePts l := coarsePts_append [p] l

theorem coarsePts_shift (c : K) (l : List (Pt K S)) : coarsePts (l.map (shiftPt c)) = coarsePts l := by
  simp only [coarsePts, List.filter_map, List.map_map]
  rfl

theorem coarsePts_single {p q : Pt K S} (h₁ : p.level = q.level) (h₂ : p.sol = q.sol) :
    coarsePts [p] = coarsePts [q] := by
  simp only [coarsePts, List.filter_singleton, h₁]
  cases decide (q.level = 0) <;> simp [h₂]

theorem coarsePts_new {l : List (Pt K S)} (h : ∀ p ∈ l, 0 < p.level) : coarsePts l = [] := by
  rw [coarsePts, List.map_eq_nil_iff, List.filter_eq_nil_iff]
  intro p hp
  have := h p hp
  simp
  omega

/-- What taking out the job `j` does. -/
structure Taken (corr : Corrector K S) (d : Data K S) (out : List (Popped K S × S)) (j : Job K)
    (q : List (Job K)) (r : Popped K S) (ref : S) (d' : Data K S) : Prop where
  take : takeJob d = .ok (r, j.level, ref, d')
  takeCorr : 0 < j.level → takeCorr d = .ok (r, j.level, ref, d')
  run : SRun corr ⟨d, out⟩ [] ⟨d', out ++ [(r, ref)]⟩
  id : r.id = d.nextID
  queue : d'.queue = q
  jobs : d'.jobs = d.jobs ++ [(d.nextID, j)]
  nextID : d'.nextID = d.nextID + 1
  dt : d'.dt = d.dt
  last : ∀ x s p, LastIs d x s p → LastIs d' x s p
  coarse : coarse d' = coarse d
  init : j.level = 0 → r.dt = d.dt ∧ OMap.get? d.sols j.lo = some r.start ∧
    OMap.get? d.prevs j.lo = some r.prev

theorem SInv.take (corr : Corrector K S) {out : List (Popped K S × S)} (h : SInv ⟨d, out⟩ ps)
    {j : Job K} {q : List (Job K)} (hq : d.queue = j :: q) :
    ∃ r ref d', Taken corr d out j q r ref d' := by
  have hr : Rep d ps := h.rep
  have hjm : j ∈ allJobs d := by simp [allJobs, hq]
  obtain ⟨p, hp, hpx⟩ := hr.job_lo hjm
  obtain ⟨p', hp', hpx'⟩ := hr.job_hi hjm
  have hpop := hr.pop_eq hq hp hpx hp' hpx'
  have hr' := hr.popState hq
  have hact : Active (popState d j q ps) d.nextID j := by
    rw [Active, APALM.popState]
    simp only
    rw [OMap.get?_append, OMap.get?_eq_none.2 (fun x hx => ne_of_lt (hr.ids x hx))]
    simp [OMap.get?]
  have href := hr'.getReferenceByID_eq hact hp' hpx'
  have hlev : jobLevel (popState d j q ps) d.nextID = (j.level, popState d j q ps) := by
    rw [jobLevel, hr'.jobIndex hact]
  have htimes : (jobTimes (popState d j q ps) d.nextID).2 = popState d j q ps := by
    rw [hr'.jobTimes_eq hact hp hp' hpx hpx']; rfl
  have hstart : (jobStartTime (popState d j q ps) d.nextID).2 = popState d j q ps := by
    rw [hr'.jobStartTime_eq hact hp hpx]; rfl
  have hps : j.level = 0 → p = p' := by
    intro h0
    obtain ⟨e, -⟩ := hr.zero j hjm h0
    exact eq_of_xi hr.sortedXi hp hp' (by rw [hpx, hpx', e])
  refine ⟨⟨d.nextID, if j.lo = j.hi ∧ j.level = 0 then d.dt else p'.t - p.t, p.sol, p.prev⟩,
    p'.sol, popState d j q ps, ?_, ?_, ?_, rfl, rfl, rfl, rfl, rfl, ?_, ?_, ?_⟩
  · unfold takeJob
    rw [hpop]
    simp only [hlev]
    by_cases h0 : j.level = 0
    · rw [if_pos h0, hstart, hps h0, h0]
    · rw [if_neg h0, href]
      simp only [htimes]
  · intro _
    unfold APALM.takeCorr
    rw [hpop]
    simp only [hlev]
    rw [href]
    simp only [htimes]
  · exact (SStep.pop hpop href).run
  · intro x s p h
    exact h
  · rw [hr.coarse_eq, hr'.coarse_eq]
  · intro h0
    obtain ⟨e, -⟩ := hr.zero j hjm h0
    refine ⟨by simp [e, h0], ?_, ?_⟩
    · rw [← hpx, hr.get_sols hp]
    · rw [← hpx, hr.get_prevs hp]

theorem storeCorr_of {id : ℕ} {c : Corr K S} {d' : Data K S}
    (h : submit d id c.ds c.sols c.upper c.lower = .ok d') :
    storeCorr d id c = .ok (finishJob d' id) := by
  unfold storeCorr
  rw [h]

theorem storeInit_of {id : ℕ} {δ : K} {s : S} {d' : Data K S}
    (h : appendData (jobStartTime d id).2 ((jobStartTime d id).1 + δ) s false = .ok d') :
    storeInit d id δ s = .ok (finishJob d' id) := by
  unfold storeInit
  rw [h]

/-- What storing the result of a correction does. -/
structure Completed (corr : Corrector K S) (d : Data K S) (out₁ out₂ : List (Popped K S × S))
    (r : Popped K S) (ref : S) (new : List (Job K)) (d' : Data K S) : Prop where
  store : storeCorr d r.id (corr r.dt r.start r.prev ref) = .ok d'
  run : SRun corr ⟨d, out₁ ++ (r, ref) :: out₂⟩ [] ⟨d', out₁ ++ out₂⟩
  queue : d'.queue = d.queue ++ new
  level : ∀ j ∈ new, 0 < j.level
  jobs : d'.jobs = OMap.erase d.jobs r.id
  nextID : d'.nextID = d.nextID
  dt : d'.dt = d.dt
  last : ∀ x s p, LastIs d x s p → LastIs d' x s p
  coarse : coarse d' = coarse d

theorem SInv.complete {corr : Corrector K S} (hcorr : CorrOK corr) {out₁ out₂ : List (Popped K S × S)}
    {r : Popped K S} {ref : S} (h : SInv ⟨d, out₁ ++ (r, ref) :: out₂⟩ ps) {j : Job K}
    (hj : Active d r.id j) (hlev : 0 < j.level) :
    ∃ new d', Completed corr d out₁ out₂ r ref new d' := by
  have hr : Rep d ps := h.rep
  obtain ⟨j', hj', hout⟩ := h.out (r, ref) (by simp)
  have : j' = j := by
    simp only [Active] at hj hj'
    rw [hj] at hj'
    simpa using hj'.symm
  subst this
  obtain ⟨h1, h2, h3, h4⟩ := hout hlev
  obtain ⟨p, hp, hpx⟩ := hr.job_lo (mem_allJobs_of_get hj)
  obtain ⟨q, hq, hqx⟩ := hr.job_hi (mem_allJobs_of_get hj)
  obtain ⟨pre, a, b, post, he, hje, hbp⟩ := hr.job_gap (mem_allJobs_of_get hj) hlev
  have hpa : p = a := eq_of_xi hr.sortedXi hp (by simp [he]) (by rw [hpx, hje])
  have hqb : q = b := eq_of_xi hr.sortedXi hq (by simp [he]) (by rw [hqx, hje])
  subst hpa hqb
  rw [hr.jobWidth_eq hj hp hq hpx hqx] at h1
  rw [← hpx, hr.get_sols hp] at h2
  rw [← hpx, hr.get_prevs hp] at h3
  rw [← hqx, hr.get_sols hq] at h4
  simp only [Option.some.injEq] at h1 h2 h3 h4
  have hpq : p.t < q.t := by
    have := hr.sortedT
    rw [he] at this
    simp only [List.pairwise_append, List.pairwise_cons, List.mem_cons, forall_eq_or_imp] at this
    exact this.2.1.1.1
  obtain ⟨c1, c2, c3⟩ := hcorr (q.t - p.t) p.sol p.prev q.sol (sub_pos.2 hpq)
  have hcc : corr r.dt r.start r.prev ref = corr (q.t - p.t) p.sol p.prev q.sol := by
    rw [h1, ← h2, ← h3, ← h4]
  set c := corr (q.t - p.t) p.sol p.prev q.sol with hc
  subst he
  have hj' : OMap.get? d.jobs r.id = some ⟨p.xi, q.xi, j'.level⟩ := by rw [← hje]; exact hj
  have hne : c.ds ≠ [] := by intro hn; rw [hn] at c1; simp at c1
  have hok : SubmitOK c.toData p q :=
    { len := by simp [Corr.toData, c1]
      pos := fun x hx => c2 x (List.mem_of_mem_dropLast hx)
      posLast := by
        simp only [Corr.toData, List.getLastD_eq_getLast?,
          List.getLast?_eq_getLast_of_ne_nil hne]
        exact c2 _ (List.getLast_mem hne)
      ensure := c3 }
  have hds : c.toData.ds ++ [c.toData.δ] = c.ds := by
    simp only [Corr.toData, List.getLastD_eq_getLast?,
      List.getLast?_eq_getLast_of_ne_nil hne]
    exact List.dropLast_append_getLast hne
  have hsub := hr.submit_eq hj' hok
  have hrep := hr.submit_finish hj' hbp hok
  rw [hds] at hsub
  have hsub' : submit d r.id c.ds c.sols c.upper c.lower = _ := hsub
  have hst := storeCorr_of hsub'
  refine ⟨_, _, (congrArg _ hcc).trans hst, ?_, rfl, ?_, rfl, rfl, rfl, ?_, ?_⟩
  · have hl : 0 < (jobLevel d r.id).1 := by
      rw [jobLevel, hr.jobIndex hj]
      exact hlev
    refine (SStep.complete hl ?_).run
    rw [hcc]
    exact hsub'
  · intro i hi
    have := (SubmitData.new_level i hi).1
    omega
  · intro x s pv hx
    obtain ⟨l, y, hy, e1, e2, e3⟩ := hr.of_lastIs hx
    have hsplit : ∃ l' y', c.toData.curve d.maxLevel d.tol pre p q post j'.level = l' ++ [y'] ∧
        y'.xi = x ∧ y'.sol = s ∧ y'.prev = pv := by
      unfold SubmitData.curve
      rcases List.eq_nil_or_concat post with hp' | ⟨post', z, hz⟩
      · subst hp'
        have : y = q := by
          have h5 : pre ++ [p] ++ [q] = l ++ [y] := by simpa using hy
          have := List.append_inj_right' h5 rfl
          simpa using this.symm
        subst this
        exact ⟨pre ++ p :: c.toData.newPts d.maxLevel d.tol p y j'.level,
          c.toData.endPt d.maxLevel d.tol p y j'.level, by simp, e1, e2, e3⟩
      · rw [List.concat_eq_append] at hz
        subst hz
        have : y = z := by
          have h5 : pre ++ p :: q :: post' ++ [z] = l ++ [y] := by simpa using hy
          have := List.append_inj_right' h5 rfl
          simpa using this.symm
        subst this
        exact ⟨pre ++ p :: (c.toData.newPts d.maxLevel d.tol p q j'.level ++
            c.toData.endPt d.maxLevel d.tol p q j'.level ::
              post'.map (shiftPt (c.toData.ds.sum + c.toData.δ - (q.t - p.t)))),
          shiftPt (c.toData.ds.sum + c.toData.δ - (q.t - p.t)) y, by simp, e1, e2, e3⟩
    obtain ⟨l', y', hc', f1, f2, f3⟩ := hsplit
    rw [hc'] at hrep ⊢
    have := hrep.lastIs
    rw [f1, f2, f3] at this
    exact this
  · rw [hrep.coarse_eq, hr.coarse_eq, SubmitData.curve, coarsePts_append, coarsePts_append,
      coarsePts_cons p (_ ++ _), coarsePts_append, coarsePts_new (l := SubmitData.newPts ..),
      coarsePts_cons (SubmitData.endPt ..), coarsePts_shift, coarsePts_cons p (q :: post),
      coarsePts_cons q post, List.nil_append]
    · rw [coarsePts_single (p := SubmitData.endPt ..) (q := q) rfl rfl]
    · intro x hx
      rw [(newPts_mem _ _ _ _ _ _ x hx).2.1]
      exact hlev

/-- What storing the point of an initiation does. -/
structure Appended (corr : Corrector K S) (d : Data K S) (out₁ out₂ : List (Popped K S × S))
    (r : Popped K S) (ref : S) (x : K) (st : S) (δ : K) (s : S) (y : K) (d' : Data K S) : Prop where
  store : storeInit d r.id δ s = .ok d'
  run : SRun corr ⟨d, out₁ ++ (r, ref) :: out₂⟩ [(δ, s)] ⟨d', out₁ ++ out₂⟩
  queue : d'.queue = d.queue ++ [⟨x, y, 1⟩]
  jobs : d'.jobs = OMap.erase d.jobs r.id
  nextID : d'.nextID = d.nextID
  dt : d'.dt = d.dt
  last : LastIs d' y s st
  coarse : coarse d' = coarse d ++ [s]

theorem SInv.initiate (corr : Corrector K S) {out₁ out₂ : List (Popped K S × S)}
    {r : Popped K S} {ref : S} (h : SInv ⟨d, out₁ ++ (r, ref) :: out₂⟩ ps) {x : K}
    (hj : Active d r.id ⟨x, x, 0⟩) {st pv : S} (hx : LastIs d x st pv) {δ : K} (hδ : 0 < δ) (s : S) :
    ∃ y d', Appended corr d out₁ out₂ r ref x st δ s y d' := by
  have hr : Rep d ps := h.rep
  obtain ⟨l, p, rfl, e1, e2, e3⟩ := hr.of_lastIs hx
  subst e1 e2
  have hstart := hr.jobStartTime_eq hj (a := p) (by simp) rfl
  have htimes := hr.jobTimes_eq hj (a := p) (b := p) (by simp) (by simp) rfl rfl
  set d₁ : Data K S := { d with tmap := (l ++ [p]).map (fun p => (p.xi, p.t)) } with hd₁
  have hr₁ : Rep d₁ (l ++ [p]) := hr.setTmap
  have ht : p.t < p.t + δ := by linarith
  have happ := hr₁.appendData_eq ht s false
  have hr₂ := hr₁.appendData ht s false
  have hst := storeInit_of (d := d) (id := r.id) (δ := δ) (s := s) (by rw [hstart]; exact happ)
  refine ⟨appendPar (l ++ [p]) (p.t + δ), _, hst, ?_, ?_, rfl, rfl, rfl, ?_, ?_⟩
  · have s1 : SStep corr ⟨d, out₁ ++ (r, ref) :: out₂⟩ [] ⟨d₁, out₁ ++ (r, ref) :: out₂⟩ := by
      have := SStep.times (corr := corr) (d := d) (r := r) (ref := ref)
        (out := out₁ ++ (r, ref) :: out₂) (by simp)
      rw [htimes] at this
      exact this
    have s2 := SStep.append (corr := corr) (d := d₁) (out := out₁ ++ (r, ref) :: out₂) (b := false)
      (sol := s) (d' := appendState d₁ ⟨p.xi, appendPar (l ++ [p]) (p.t + δ), 1⟩ false
        (l ++ [p] ++ [appendPt (l ++ [p]) p (p.t + δ) s])) hδ (by
          have hlast : d₁.t.getLastD 0 = p.t := by rw [hr₁.t]; simp
          rw [hlast]
          exact happ)
    have hact : Active (appendState d₁ ⟨p.xi, appendPar (l ++ [p]) (p.t + δ), 1⟩ false
        (l ++ [p] ++ [appendPt (l ++ [p]) p (p.t + δ) s])) r.id ⟨p.xi, p.xi, 0⟩ := hj
    have s3 := SStep.finish (corr := corr) (ref := ref) (out₁ := out₁) (out₂ := out₂)
      (d := appendState d₁ ⟨p.xi, appendPar (l ++ [p]) (p.t + δ), 1⟩ false
        (l ++ [p] ++ [appendPt (l ++ [p]) p (p.t + δ) s])) (r := r) (by
          rw [jobLevel, hr₂.jobIndex hact])
    have := s1.run.trans (s2.run.trans s3.run)
    simpa using this
  · rfl
  · have := hr₂.lastIs
    exact this
  · rw [(hr₂.finish_zero (id := r.id) hj rfl).coarse_eq, hr.coarse_eq, coarsePts_append]
    rfl

/-- Queueing an initiation at the last point. -/
theorem SInv.point (corr : Corrector K S) {out : List (Popped K S × S)} (h : SInv ⟨d, out⟩ ps) {x : K}
    {st pv : S} (hx : LastIs d x st pv) :
    ∃ d', appendPoint d true = .ok d' ∧ SRun corr ⟨d, out⟩ [] ⟨d', out⟩ ∧
      d'.queue = ⟨x, x, 0⟩ :: d.queue ∧ d'.jobs = d.jobs ∧ d'.nextID = d.nextID ∧ d'.dt = d.dt ∧
      LastIs d' x st pv ∧ coarse d' = coarse d := by
  have hr : Rep d ps := h.rep
  obtain ⟨l, p, rfl, e1, e2, e3⟩ := hr.of_lastIs hx
  subst e1
  have happ := hr.appendPoint_eq true
  exact ⟨_, happ, (SStep.appendPoint happ).run, rfl, rfl, rfl, rfl, hx, by rw [hr.coarse_eq, (hr.appendPoint true).coarse_eq]⟩

end GsSA.APALM
