import Verif.Data.Init
import Verif.Data.Spec

/-!
# The representation invariant holds in all executions (proof machinery)
-/

set_option linter.unusedSectionVars false

namespace GsSA.APALM

open GsSA

variable {K S : Type*} [Field K] [LinearOrder K] [IsStrictOrderedRing K]
variable {d : Data K S} {ps : List (Pt K S)}

/-- Replacing the time map by the built one. -/
theorem Rep.setTmap (h : Rep d ps) : Rep { d with tmap := ps.map (fun p => (p.xi, p.t)) } ps :=
  { h with tmap := Or.inl rfl }

theorem Rep.jobIndex (_h : Rep d ps) {id : ℕ} {j : Job K} (hj : Active d id j) :
    jobIndex d id = (j, d) := by
  unfold APALM.jobIndex
  rw [OMap.index_of_get? hj]

/-- The flat view of a point. -/
def Pt.flat (p : Pt K S) : FlatPoint K S := ⟨p.t, p.sol, p.level⟩

theorem flatLoop_eq (ps qs : List (Pt K S)) (hsub : ∀ p ∈ qs, p ∈ ps)
    (hs : ps.Pairwise (fun p q => p.xi < q.xi)) (tm : OMap K K) (htm : TimeMapOK tm ps) :
    (flatLoop none (qs.map (fun p => (p.xi, p.sol))) (ps.map (fun p => (p.xi, p.level))) tm).1 =
      qs.map Pt.flat ∧
    (flatLoop none (qs.map (fun p => (p.xi, p.sol))) (ps.map (fun p => (p.xi, p.level))) tm).2.1 =
      ps.map (fun p => (p.xi, p.level)) ∧
    TimeMapOK (flatLoop none (qs.map (fun p => (p.xi, p.sol)))
      (ps.map (fun p => (p.xi, p.level))) tm).2.2 ps := by
  induction qs generalizing tm with
  | nil => exact ⟨rfl, rfl, htm⟩
  | cons p qs ih =>
    simp only [List.map_cons, flatLoop]
    rw [OMap.index_of_get? (get_map hs (fun p => p.level) (hsub p (by simp)))]
    simp only [true_or, if_true]
    rw [timeMap_index htm hs (hsub p (by simp))]
    obtain ⟨h1, h2, h3⟩ := ih (fun q hq => hsub q (by simp [hq])) _ (timeMapOK_built ps)
    exact ⟨by rw [h1]; rfl, h2, h3⟩

/-- With a level filter. -/
theorem flatLoop_filter_eq (f : Option ℕ) (ps qs : List (Pt K S)) (hsub : ∀ p ∈ qs, p ∈ ps)
    (hs : ps.Pairwise (fun p q => p.xi < q.xi)) (tm : OMap K K) (htm : TimeMapOK tm ps) :
    (flatLoop f (qs.map (fun p => (p.xi, p.sol))) (ps.map (fun p => (p.xi, p.level))) tm).1 =
      (qs.filter (fun p => decide (f = none ∨ f = some p.level))).map Pt.flat ∧
    (flatLoop f (qs.map (fun p => (p.xi, p.sol))) (ps.map (fun p => (p.xi, p.level))) tm).2.1 =
      ps.map (fun p => (p.xi, p.level)) ∧
    TimeMapOK (flatLoop f (qs.map (fun p => (p.xi, p.sol)))
      (ps.map (fun p => (p.xi, p.level))) tm).2.2 ps := by
  induction qs generalizing tm with
  | nil => exact ⟨rfl, rfl, htm⟩
  | cons p qs ih =>
    simp only [List.map_cons, flatLoop]
    rw [OMap.index_of_get? (get_map hs (fun p => p.level) (hsub p (by simp)))]
    simp only
    by_cases hf : f = none ∨ f = some p.level
    · rw [if_pos hf, timeMap_index htm hs (hsub p (by simp))]
      obtain ⟨h1, h2, h3⟩ := ih (fun q hq => hsub q (by simp [hq])) _ (timeMapOK_built ps)
      refine ⟨?_, h2, h3⟩
      rw [List.filter_cons_of_pos (by simpa using hf)]
      simp only [h1]
      rfl
    · rw [if_neg hf, List.filter_cons_of_neg (by simpa using hf)]
      exact ih (fun q hq => hsub q (by simp [hq])) _ htm

theorem Rep.flat_eq (h : Rep d ps) : flat d = ps.map Pt.flat := by
  unfold flat getFlatSolution
  have := (flatLoop_eq ps ps (fun _ hp => hp) h.sortedXi d.tmap h.tmap).1
  rw [← h.sols, ← h.levels] at this
  exact this

theorem Rep.flat_filter_eq (h : Rep d ps) (f : Option ℕ) : (getFlatSolution d f).1 =
    (ps.filter (fun p => decide (f = none ∨ f = some p.level))).map Pt.flat := by
  unfold getFlatSolution
  have := (flatLoop_filter_eq f ps ps (fun _ hp => hp) h.sortedXi d.tmap h.tmap).1
  rw [← h.sols, ← h.levels] at this
  exact this

theorem Rep.readFlat (h : Rep d ps) (f : Option ℕ) : Rep (getFlatSolution d f).2 ps := by
  have := flatLoop_filter_eq f ps ps (fun _ hp => hp) h.sortedXi d.tmap h.tmap
  rw [← h.sols, ← h.levels] at this
  exact { h with levels := this.2.1.trans h.levels, tmap := this.2.2 }

/-- The two points at the ends of a job. -/
theorem Rep.jobTimes_eq (h : Rep d ps) {id : ℕ} {j : Job K} (hj : Active d id j) {a b : Pt K S}
    (ha : a ∈ ps) (hb : b ∈ ps) (hax : a.xi = j.lo) (hbx : b.xi = j.hi) :
    jobTimes d id = ((a.t, b.t), { d with tmap := ps.map (fun p => (p.xi, p.t)) }) := by
  unfold jobTimes
  rw [h.jobIndex hj]
  simp only
  rw [← hax, timeMap_index h.tmap h.sortedXi ha]
  simp only
  rw [← hbx, timeMap_index (timeMapOK_built ps) h.sortedXi hb]

theorem Rep.jobStartTime_eq (h : Rep d ps) {id : ℕ} {j : Job K} (hj : Active d id j) {a : Pt K S}
    (ha : a ∈ ps) (hax : a.xi = j.lo) :
    jobStartTime d id = (a.t, { d with tmap := ps.map (fun p => (p.xi, p.t)) }) := by
  unfold jobStartTime
  rw [h.jobIndex hj]
  simp only
  rw [← hax, timeMap_index h.tmap h.sortedXi ha]

theorem Rep.getReferenceByID_eq (h : Rep d ps) {id : ℕ} {j : Job K} (hj : Active d id j)
    {b : Pt K S} (hb : b ∈ ps) (hbx : b.xi = j.hi) :
    getReferenceByID d id = (some b.sol, d) := by
  unfold getReferenceByID
  rw [h.jobIndex hj]
  simp only
  rw [← hbx, h.get_sols hb]

/-- The submission data of a `complete` call. -/
def submitDataOf (ds : List K) (sols : List S) (u l : K) (hne : ds ≠ []) : SubmitData K S :=
  ⟨ds.dropLast, ds.getLast hne, sols, u, l⟩

/-- What a contract-respecting call does to the represented curve. -/
inductive AbsStep (d : Data K S) : Op K S → List (Pt K S) → List (Pt K S) → Prop
  | addStart (sol : S) (b : Bool) : AbsStep d (.addStart sol b) [] [⟨0, 0, sol, 0, sol, none⟩]
  | init (times : List K) (sols : List S) (h2 : 2 ≤ times.length) (hs : times.Pairwise (· < ·))
      (hlen : times.length = sols.length) :
      AbsStep d (.init times sols) [] (initCurve times sols)
  | appendPoint (b : Bool) (ps : List (Pt K S)) : AbsStep d (.appendPoint b) ps ps
  | appendFirst (time : K) (sol : S) (b : Bool) :
      AbsStep d (.appendData time sol b) [] [⟨0, time, sol, 0, sol, none⟩]
  | appendData (time : K) (sol : S) (b : Bool) (l : List (Pt K S)) (p : Pt K S) (ht : p.t < time) :
      AbsStep d (.appendData time sol b) (l ++ [p])
        (l ++ [p] ++ [appendPt (l ++ [p]) p time sol])
  | pop (ps : List (Pt K S)) : AbsStep d .pop ps ps
  | complete (id : ℕ) (ds : List K) (sols : List S) (u l : K) (hne : ds ≠ []) (pre : List (Pt K S))
      (a b : Pt K S) (post : List (Pt K S)) (ℓ : ℕ) (hp : b.pend = some ℓ)
      (hact : Active d id ⟨a.xi, b.xi, ℓ⟩) (hok : SubmitOK (submitDataOf ds sols u l hne) a b) :
      AbsStep d (.complete id ds sols u l) (pre ++ a :: b :: post)
        ((submitDataOf ds sols u l hne).curve d.maxLevel d.tol pre a b post ℓ)
  | finish (id : ℕ) (ps : List (Pt K S)) (h : ∀ j, Active d id j → j.level = 0) :
      AbsStep d (.finish id) ps ps
  | drop (id : ℕ) (pre : List (Pt K S)) (a b : Pt K S) (post : List (Pt K S)) (ℓ : ℕ)
      (hp : b.pend = some ℓ) (hact : Active d id ⟨a.xi, b.xi, ℓ⟩) :
      AbsStep d (.finish id) (pre ++ a :: b :: post) (pre ++ a :: { b with pend := none } :: post)
  | setLength (dt : K) (ps : List (Pt K S)) : AbsStep d (.setLength dt) ps ps
  | readFlat (f : Option ℕ) (ps : List (Pt K S)) : AbsStep d (.readFlat f) ps ps
  | readTimes (id : ℕ) (ps : List (Pt K S)) : AbsStep d (.readTimes id) ps ps
  | readReference (id : ℕ) (ps : List (Pt K S)) : AbsStep d (.readReference id) ps ps

/-- The job table after a call. -/
def nextJobs (d : Data K S) : Op K S → OMap ℕ (Job K)
  | .pop =>
    match d.queue with
    | j :: _ => d.jobs ++ [(d.nextID, j)]
    | [] => d.jobs
  | .complete id _ _ _ _ => OMap.erase d.jobs id
  | .finish id => OMap.erase d.jobs id
  | _ => d.jobs

/-- The members that do not belong to the curve. -/
structure Frame (d : Data K S) (op : Op K S) (d' : Data K S) : Prop where
  jobs : d'.jobs = nextJobs d op
  nextID : d'.nextID = d.nextID + op.pops
  optMaxLevel : d'.optMaxLevel = d.optMaxLevel
  optTol : d'.optTol = d.optTol
  maxLevel : d'.maxLevel = d.maxLevel ∨ d'.maxLevel = d.optMaxLevel
  tol : d'.tol = d.tol ∨ d'.tol = d.optTol

theorem ps_eq_nil_of_xi (h : Rep d ps) (hx : d.xi = []) : ps = [] := by
  have := h.xi
  rw [hx] at this
  simpa using this.symm

theorem exists_last (h : ps ≠ []) : ∃ l p, ps = l ++ [p] :=
  ⟨ps.dropLast, ps.getLast h, (List.dropLast_append_getLast h).symm⟩

/-- Every contract-respecting call succeeds and acts on the curve as `AbsStep` says. -/
theorem Rep.step (h : Rep d ps) (op : Op K S) (hc : Contract d op) :
    ∃ d' ps', exec d op = .ok d' ∧ Rep d' ps' ∧ AbsStep d op ps ps' ∧ Frame d op d' := by
  cases op with
  | addStart sol b =>
    have hp := ps_eq_nil_of_xi h hc
    subst hp
    exact ⟨_, _, addStartPoint_eq h.isFresh sol b, startState_rep h.isFresh sol, .addStart sol b,
      ⟨rfl, rfl, rfl, rfl, Or.inr rfl, Or.inr rfl⟩⟩
  | init times sols =>
    obtain ⟨hx, hs, h2, hlen⟩ := hc
    have hp := ps_eq_nil_of_xi h hx
    subst hp
    obtain ⟨e, r⟩ := initData_eq h.isFresh hs h2 hlen
    exact ⟨_, _, e, r, .init times sols h2 hs hlen, ⟨rfl, rfl, rfl, rfl, Or.inr rfl, Or.inr rfl⟩⟩
  | appendPoint b =>
    have hne : ps ≠ [] := by
      rintro rfl
      exact hc h.xi
    obtain ⟨l, p, rfl⟩ := exists_last hne
    exact ⟨_, _, h.appendPoint_eq b, h.appendPoint b, .appendPoint b _,
      ⟨rfl, rfl, rfl, rfl, Or.inl rfl, Or.inl rfl⟩⟩
  | appendData time sol b =>
    by_cases hne : ps = []
    · subst hne
      exact ⟨_, _, appendData_first_eq h.isFresh time sol b, appendFirst_rep h.isFresh time sol,
        .appendFirst time sol b, ⟨rfl, rfl, rfl, rfl, Or.inl rfl, Or.inl rfl⟩⟩
    · obtain ⟨l, p, rfl⟩ := exists_last hne
      have ht : p.t < time := hc p.t (by rw [h.t]; simp)
      exact ⟨_, _, h.appendData_eq ht sol b, h.appendData ht sol b, .appendData time sol b l p ht,
        ⟨rfl, rfl, rfl, rfl, Or.inl rfl, Or.inl rfl⟩⟩
  | pop =>
    obtain ⟨j, q, hq⟩ := List.exists_cons_of_ne_nil hc
    have hjm : j ∈ allJobs d := by simp [allJobs, hq]
    obtain ⟨p, hp, hpx⟩ := h.job_lo hjm
    obtain ⟨p', hp', hpx'⟩ := h.job_hi hjm
    refine ⟨APALM.popState d j q ps, ps, ?_, h.popState hq, .pop ps,
      ⟨by simp [nextJobs, hq, APALM.popState], rfl, rfl, rfl, Or.inl rfl, Or.inl rfl⟩⟩
    simp only [exec]
    rw [h.pop_eq hq hp hpx hp' hpx']
    rfl
  | complete id ds sols u l =>
    obtain ⟨j, hj, hl, hlen, hpos, hens⟩ := hc
    obtain ⟨pre, a, b, post, rfl, hje, hbp⟩ := h.job_gap (mem_allJobs_of_get hj) hl
    have hne : ds ≠ [] := by rintro rfl; simp at hlen
    rw [h.jobTimes_eq hj (a := a) (b := b) (by simp) (by simp) (by rw [hje]) (by rw [hje])] at hens
    rw [hje] at hj
    have hok : SubmitOK (submitDataOf ds sols u l hne) a b :=
      { len := by simp [submitDataOf, hlen]
        pos := fun x hx => hpos x (List.mem_of_mem_dropLast hx)
        posLast := hpos _ (List.getLast_mem hne)
        ensure := hens }
    refine ⟨_, _, ?_, h.submit_finish hj hbp hok, .complete id ds sols u l hne pre a b post _ hbp hj hok,
      ⟨rfl, rfl, rfl, rfl, Or.inl rfl, Or.inl rfl⟩⟩
    have := h.submit_eq hj hok
    simp only [submitDataOf, List.dropLast_append_getLast] at this
    simp only [exec]
    rw [this]
    rfl
  | finish id =>
    cases hj : OMap.get? d.jobs id with
    | none =>
      refine ⟨d, ps, by rw [exec, finish_none hj], h, .finish id ps (fun j hj' => ?_),
        ⟨by simp [nextJobs, OMap.erase_of_not_mem hj], rfl, rfl, rfl, Or.inl rfl, Or.inl rfl⟩⟩
      rw [Active, hj] at hj'
      simp at hj'
    | some j =>
      rcases Nat.eq_zero_or_pos j.level with hl | hl
      · refine ⟨_, ps, rfl, h.finish_zero hj hl, .finish id ps (fun j' hj' => ?_),
          ⟨rfl, rfl, rfl, rfl, Or.inl rfl, Or.inl rfl⟩⟩
        rw [Active, hj] at hj'
        simp at hj'
        rw [← hj']
        exact hl
      · obtain ⟨pre, a, b, post, rfl, hje, hbp⟩ := h.job_gap (mem_allJobs_of_get hj) hl
        rw [hje] at hj
        exact ⟨_, _, rfl, h.finish_gap hj hbp, .drop id pre a b post _ hbp hj,
          ⟨rfl, rfl, rfl, rfl, Or.inl rfl, Or.inl rfl⟩⟩
  | setLength dt => exact ⟨_, ps, rfl, { h with }, .setLength dt ps, ⟨rfl, rfl, rfl, rfl, Or.inl rfl, Or.inl rfl⟩⟩
  | readFlat f => exact ⟨_, ps, rfl, h.readFlat f, .readFlat f ps, ⟨rfl, rfl, rfl, rfl, Or.inl rfl, Or.inl rfl⟩⟩
  | readTimes id =>
    obtain ⟨j, hj⟩ := hc
    obtain ⟨p, hp, hpx⟩ := h.job_lo (mem_allJobs_of_get hj)
    obtain ⟨p', hp', hpx'⟩ := h.job_hi (mem_allJobs_of_get hj)
    refine ⟨{ d with tmap := ps.map (fun p => (p.xi, p.t)) }, ps, ?_, h.setTmap, .readTimes id ps,
      ⟨rfl, rfl, rfl, rfl, Or.inl rfl, Or.inl rfl⟩⟩
    rw [exec, h.jobTimes_eq hj hp hp' hpx hpx']
  | readReference id =>
    obtain ⟨j, hj⟩ := hc
    obtain ⟨p', hp', hpx'⟩ := h.job_hi (mem_allJobs_of_get hj)
    refine ⟨d, ps, ?_, h, .readReference id ps, ⟨rfl, rfl, rfl, rfl, Or.inl rfl, Or.inl rfl⟩⟩
    rw [exec, h.getReferenceByID_eq hj hp' hpx']

/-- Sequences of abstract steps. -/
theorem Exec.rep {d d' : Data K S} {ops : List (Op K S)} (he : Exec d ops d') {ps : List (Pt K S)}
    (h : Rep d ps) : ∃ ps', Rep d' ps' := by
  induction he generalizing ps with
  | nil d => exact ⟨ps, h⟩
  | cons hc hx _ ih =>
    obtain ⟨d', ps', hx', hr, -, -⟩ := h.step _ hc
    rw [hx'] at hx
    injection hx with hx
    subst hx
    exact ih hr

theorem fresh_isFresh (maxLevel : ℕ) (tol dt : K) :
    IsFresh (Data.fresh maxLevel tol dt : Data K S) :=
  ⟨rfl, rfl, rfl, rfl, rfl, rfl, rfl, rfl, rfl⟩

theorem Reachable.rep (h : Reachable d) : ∃ ps, Rep d ps := by
  obtain ⟨m, tol, dt, ops, he⟩ := h
  exact he.rep (fresh_isFresh m tol dt).rep

end GsSA.APALM
