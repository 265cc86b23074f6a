import Verif.Driver.Solve
import Verif.Driver.ParallelProps

/-!
# Invariant of `solve` (proof machinery)

With one start there is at any time at most one initiation, waiting or handed out. The points found by
initiations form a sequence (`Chain`) which does not depend on the schedule of the corrections.
-/

set_option linter.unusedSectionVars false

namespace GsSA.APALM

open GsSA MPI

variable {K S : Type*} [Field K] [LinearOrder K] [IsStrictOrderedRing K]

/-- An initiation as a function of length, start and previous solution. -/
abbrev Initiator (K S : Type*) := K → S → S → InitRes K S

/-- Initiations find a point at a positive distance, and one more solution at a bifurcation. -/
def InitOK (ini : Initiator K S) : Prop :=
  ∀ dt start prev, 0 < (ini dt start prev).distance ∧
    ((ini dt start prev).bifurcation = false → ∃ s, (ini dt start prev).sols = [s]) ∧
    ((ini dt start prev).bifurcation = true → ∃ s s', (ini dt start prev).sols = [s, s'])

/-- The next initiation: counter, length, start and previous solution. -/
structure Live (K S : Type*) where
  steps : ℕ
  len : K
  start : S
  prev : S

/-- Sequence of initiations: finished branches (start and points), start and points of the current
branch, and the next initiation. -/
structure Chain (K S : Type*) where
  done : List (S × List (K × S))
  start0 : S
  pts : List (K × S)
  live : Option (Live K S)

/-- Start of the sequence. -/
def Chain.init (s : S) (len : K) : Chain K S := ⟨[], s, [], some ⟨1, len, s, s⟩⟩

/-- One initiation. -/
def Chain.next (ini : Initiator K S) (n : ℤ) (bifMult lenBif : K) (c : Chain K S) : Chain K S :=
  match c.live with
  | none => c
  | some l =>
    let r := ini l.len l.start l.prev
    let s := r.sols.headD l.start
    let pts := c.pts ++ [(r.distance, s)]
    if (l.steps : ℤ) < n - 1 then
      if r.bifurcation then
        let s' := r.sols.getD 1 l.start
        ⟨c.done ++ [(c.start0, pts)], s', [], some ⟨1, lenBif, s', s'⟩⟩
      else
        ⟨c.done, c.start0, pts,
          some ⟨l.steps + 1, if c.done ≠ [] ∧ c.pts = [] then l.len / bifMult else l.len, s, l.start⟩⟩
    else ⟨c.done, c.start0, pts, none⟩

/-- All branches. -/
def Chain.all (c : Chain K S) : List (S × List (K × S)) := c.done ++ [(c.start0, c.pts)]

theorem Chain.all_length (c : Chain K S) : c.all.length = c.done.length + 1 := by simp [Chain.all]

/-- State of the next initiation in the current branch `d`, `l` being the jobs handed out of it. -/
def LiveOK (live : Option (Live K S)) (first : Prop) (cnt : Option ℕ) (l : List (Popped K S × S))
    (d : Data K S) : Prop :=
  match live with
  | none => Quiet d
  | some v => cnt = some v.steps ∧ d.dt = v.len ∧ ∃ x, LastIs d x v.start v.prev ∧
      ((∃ q, d.queue = ⟨x, x, 0⟩ :: q ∧ (∀ j ∈ q, 0 < j.level) ∧
          (∀ y ∈ d.jobs, 0 < y.2.level) ∧ (first ↔ d.nextID = 0)) ∨
        (∃ r ref, (r, ref) ∈ l ∧ r.dt = v.len ∧ r.start = v.start ∧ r.prev = v.prev ∧
          Active d r.id ⟨x, x, 0⟩ ∧ (∀ j ∈ d.queue, 0 < j.level) ∧
          (∀ y ∈ d.jobs, y.1 ≠ r.id → 0 < y.2.level) ∧ (first ↔ r.id = 0)))

/-- The invariant. -/
structure SolInv (corr : Corrector K S) (e : Data K S) (ch : Chain K S) (s : SolveState K S)
    (out : List (Item K S)) : Prop where
  len : s.data.length = ch.done.length + 1
  cnt : s.cnt.length = ch.done.length + 1
  branch : ∀ i ∈ out, i.branch < ch.done.length + 1
  level : ∀ i ∈ out, ∀ d, s.data[i.branch]? = some d → ∀ j, Active d i.job.id j → i.level = j.level
  ok : ∀ k b d, ch.all[k]? = some b → s.data[k]? = some d →
    BOK corr (startState e b.1) b.2 (outOf out k) d
  quiet : ∀ k d, k < ch.done.length → s.data[k]? = some d → Quiet d
  live : ∀ d, s.data[ch.done.length]? = some d →
    LiveOK ch.live (ch.pts = []) s.cnt[ch.done.length]? (outOf out ch.done.length) d

/-- The result computed by a worker. -/
def solveWork (ini : Initiator K S) (corr : Corrector K S) (i : Item K S) : ℕ × ℕ × Payload K S :=
  (i.branch, i.job.id,
    if i.level = 0 then .init (ini i.job.dt i.job.start i.job.prev)
    else .corr (corr i.job.dt i.job.start i.job.prev i.ref))

theorem startState_reachable (m : ℕ) (tol dt : K) (s : S) :
    Reachable (startState (Data.fresh m tol dt) s) := by
  refine ⟨m, tol, dt, [.addStart s false], ?_⟩
  refine Exec.cons ?_ ?_ (Exec.nil _)
  · rfl
  · exact addStartPoint_eq (fresh_isFresh m tol dt) s false

theorem startState_lastIs (e : Data K S) (s : S) : LastIs (startState e s) 0 s s := by
  refine ⟨rfl, ?_, ?_⟩ <;> simp [startState, OMap.get?]

/-- State with one new branch. -/
theorem newBranch_ok {p : SolveParams K S} (hf : IsFresh p.empty) (c : Container K S) (sol : S)
    (len : K) (b : Bool) :
    newBranch p c sol len b = .ok (c ++ [setLength (startState p.empty sol) len]) := by
  unfold newBranch
  rw [addStartPoint_eq hf]
  rfl

theorem startBranch_bok (corr : Corrector K S) {e : Data K S} (hf : IsFresh e) (s : S) (len : K) :
    BOK corr (startState e s) [] [] (setLength (startState e s) len) := by
  refine ⟨(SStep.setLength).run, ?_, ?_⟩
  · intro id j hj
    simp [Active, setLength, startState, applyOptions, hf.jobs] at hj
  · simp only [List.map_nil, List.append_nil]
    rfl

theorem startBranch_live {e : Data K S} (hf : IsFresh e) (hn : e.nextID = 0) (s : S) (len : K) :
    LiveOK (some ⟨1, len, s, s⟩) True (some 1) [] (setLength (startState e s) len) := by
  refine ⟨rfl, rfl, 0, startState_lastIs e s, Or.inl ⟨[], rfl, by simp, ?_, ?_⟩⟩
  · simp [setLength, startState, applyOptions, hf.jobs]
  · simp [setLength, startState, applyOptions, hn]

variable {corr : Corrector K S} {ini : Initiator K S} {p : SolveParams K S} {e : Data K S}
  {ch : Chain K S} {s : SolveState K S} {out : List (Item K S)}

theorem SolInv.start (corr : Corrector K S) (hf : IsFresh e) (hn : e.nextID = 0) (s₀ : S) (len : K) :
    SolInv corr e (Chain.init s₀ len) ⟨[setLength (startState e s₀) len], [1]⟩ [] where
  len := rfl
  cnt := rfl
  branch := by simp
  level := by simp
  ok := by
    intro k b d hb hd
    cases k with
    | zero =>
      simp only [Chain.all, Chain.init, List.nil_append, List.getElem?_cons_zero,
        Option.some.injEq] at hb hd
      subst hb hd
      exact startBranch_bok corr hf s₀ len
    | succ k => simp at hd
  quiet := by
    intro k d hk
    simp [Chain.init] at hk
  live := by
    intro d hd
    simp only [Chain.init, List.length_nil, List.getElem?_cons_zero, Option.some.injEq] at hd
    subst hd
    have := startBranch_live hf hn s₀ len
    simpa [LiveOK, Chain.init, outOf_nil] using this

theorem SolInv.get (h : SolInv corr e ch s out) {k : ℕ} {d : Data K S} (hk : s.data[k]? = some d) :
    ∃ b, ch.all[k]? = some b ∧ BOK corr (startState e b.1) b.2 (outOf out k) d := by
  have hl : k < ch.all.length := by
    rw [ch.all_length, ← h.len]
    exact (List.getElem?_eq_some_iff.1 hk).1
  exact ⟨ch.all[k], by simp, h.ok k ch.all[k] d (by simp) hk⟩

theorem taken_mem_jobs {d d' : Data K S} {l : List (Popped K S × S)} {j : Job K} {q : List (Job K)}
    {r : Popped K S} {ref : S} (ht : Taken corr d l j q r ref d') {y : ℕ × Job K} (hy : y ∈ d'.jobs) :
    y ∈ d.jobs ∨ y = (r.id, j) := by
  rw [ht.jobs, List.mem_append, List.mem_singleton] at hy
  rw [ht.id]
  exact hy

theorem quiet_iff {d : Data K S} : Quiet d ↔ (∀ j ∈ d.queue, 0 < j.level) ∧ ∀ y ∈ d.jobs, 0 < y.2.level := by
  unfold Quiet allJobs OMap.vals
  constructor
  · intro h
    exact ⟨fun j hj => h j (by simp [hj]), fun y hy =>
      h y.2 (List.mem_append.2 (Or.inr (List.mem_map.2 ⟨y, hy, rfl⟩)))⟩
  · rintro ⟨h1, h2⟩ j hj
    rcases List.mem_append.1 hj with hj | hj
    · exact h1 j hj
    · obtain ⟨y, hy, rfl⟩ := List.mem_map.1 hj
      exact h2 y hy

theorem taken_active {d d' : Data K S} {l : List (Popped K S × S)} {j : Job K} {q : List (Job K)}
    {r : Popped K S} {ref : S} (ht : Taken corr d l j q r ref d') {ps : List (Pt K S)}
    (hr : Rep d ps) : Active d' r.id j := by
  rw [Active, ht.jobs, ht.id, OMap.get?_append,
    OMap.get?_eq_none.2 (fun x hx => ne_of_lt (hr.ids x hx))]
  simp [OMap.get?]

theorem taken_active_old {d d' : Data K S} {l : List (Popped K S × S)} {j : Job K} {q : List (Job K)}
    {r : Popped K S} {ref : S} (ht : Taken corr d l j q r ref d') {id : ℕ} {j' : Job K}
    (h : Active d id j') : Active d' id j' := by
  rw [Active] at h
  rw [Active, ht.jobs, OMap.get?_append, h]
  rfl

theorem taken_quiet {d d' : Data K S} {l : List (Popped K S × S)} {j : Job K} {q : List (Job K)}
    {r : Popped K S} {ref : S} (ht : Taken corr d l j q r ref d') (hq : d.queue = j :: q)
    (h : Quiet d) : Quiet d' := by
  rw [quiet_iff] at h ⊢
  rw [hq] at h
  refine ⟨fun i hi => h.1 i (by rw [ht.queue] at hi; simp [hi]), fun y hy => ?_⟩
  rcases taken_mem_jobs ht hy with hy | rfl
  · exact h.2 y hy
  · exact h.1 j (by simp)

theorem LiveOK.take {live : Option (Live K S)} {first : Prop} {cnt : Option ℕ}
    {l : List (Popped K S × S)} {d d' : Data K S} {j : Job K} {q : List (Job K)}
    {r : Popped K S} {ref : S} (h : LiveOK live first cnt l d) (ht : Taken corr d l j q r ref d')
    (hq : d.queue = j :: q) {ps : List (Pt K S)} (hr : Rep d ps) :
    LiveOK live first cnt (l ++ [(r, ref)]) d' := by
  cases live with
  | none => exact taken_quiet ht hq h
  | some v =>
    obtain ⟨h1, h2, x, h3, hAB⟩ := h
    refine ⟨h1, ht.dt.trans h2, x, ht.last _ _ _ h3, Or.inr ?_⟩
    rcases hAB with ⟨q', hA1, hA2, hA3, hA4⟩ | ⟨r', ref', hB1, hB2, hB3, hB4, hB5, hB6, hB7, hB8⟩
    · rw [hq] at hA1
      obtain ⟨rfl, rfl⟩ := List.cons.inj hA1
      obtain ⟨i1, i2, i3⟩ := ht.init rfl
      refine ⟨r, ref, by simp, i1.trans h2, ?_, ?_, taken_active ht hr, ?_, ?_, ?_⟩
      · have := h3.2.1
        simp only at i2
        rw [i2] at this
        simpa using this
      · have := h3.2.2
        simp only at i3
        rw [i3] at this
        simpa using this
      · rw [ht.queue]; exact hA2
      · intro y hy hne
        rcases taken_mem_jobs ht hy with hy | rfl
        · exact hA3 y hy
        · exact absurd rfl hne
      · rw [ht.id]; exact hA4
    · refine ⟨r', ref', by simp [hB1], hB2, hB3, hB4, taken_active_old ht hB5, ?_, ?_, hB8⟩
      · rw [ht.queue]
        exact fun i hi => hB6 i (by simp [hq, hi])
      · intro y hy hne
        rcases taken_mem_jobs ht hy with hy | rfl
        · exact hB7 y hy hne
        · exact hB6 j (by simp [hq])

theorem SolInv.pop (hcorr : CorrOK corr) (hre : ∀ s, Reachable (startState e s))
    (h : SolInv corr e ch s out) (he : s.data.empty = false) :
    ∃ i s', solvePop s = .ok (i, s') ∧ SolInv corr e ch s' (out ++ [i]) := by
  obtain ⟨k, hk, hkl⟩ := (C16_empty s.data).2 he
  obtain ⟨⟨d, hd, hq⟩, -⟩ := (C16_first_non_empty s.data k).1 hk
  obtain ⟨b, hb, hbok⟩ := h.get hd
  obtain ⟨ps, hs⟩ := hbok.sinv hcorr (hre b.1)
  obtain ⟨j, q, hjq⟩ := List.exists_cons_of_ne_nil hq
  obtain ⟨r, ref, d', ht⟩ := hs.take corr hjq
  have hkl' : k < s.data.length := hkl
  have hself : (s.data.set k d')[k]? = some d' := List.getElem?_set_self hkl'
  refine ⟨⟨k, r, j.level, ref⟩, ⟨s.data.set k d', s.cnt⟩, ?_, ?_⟩
  · unfold solvePop
    rw [hk]
    simp only [Container.branch, hd]
    rw [ht.take]
  refine ⟨by simp [h.len], h.cnt, ?_, ?_, ?_, ?_, ?_⟩
  · intro i hi
    simp only [List.mem_append, List.mem_singleton] at hi
    rcases hi with hi | rfl
    · exact h.branch i hi
    · simp only [← h.len]; exact hkl'
  · intro i hi e' he' j' hj'
    simp only [List.mem_append, List.mem_singleton] at hi
    rcases hi with hi | rfl
    · by_cases hkk : k = i.branch
      · rw [← hkk] at he'
        simp only at he'
        rw [hself] at he'
        simp only [Option.some.injEq] at he'
        subst he'
        -- the job was active before
        have hmem : (i.job, i.ref) ∈ outOf out k := by
          simp only [outOf, List.mem_map, List.mem_filter]
          exact ⟨i, ⟨hi, by simp [hkk]⟩, rfl⟩
        obtain ⟨j₀, hj₀, -⟩ := hs.out _ hmem
        have := taken_active_old ht hj₀
        rw [Active] at this hj'
        rw [this] at hj'
        simp only [Option.some.injEq] at hj'
        subst hj'
        exact h.level i hi d (by rw [← hkk]; exact hd) _ hj₀
      · simp only at he'
        rw [List.getElem?_set_ne hkk] at he'
        exact h.level i hi e' he' j' hj'
    · simp only at he' hj' ⊢
      rw [hself] at he'
      simp only [Option.some.injEq] at he'
      subst he'
      have := taken_active ht hs.rep
      rw [Active] at this hj'
      rw [this] at hj'
      simp only [Option.some.injEq] at hj'
      rw [← hj']
  · intro k' b' e' hb' he'
    simp only at he'
    rw [outOf_append]
    by_cases hkk : k = k'
    · subst hkk
      rw [hself] at he'
      simp only [Option.some.injEq] at he'
      subst he'
      rw [hb] at hb'
      simp only [Option.some.injEq] at hb'
      subst hb'
      rw [outOf_cons_self ⟨k, r, j.level, ref⟩, outOf_nil]
      exact hbok.take ht
    · rw [List.getElem?_set_ne hkk] at he'
      rw [outOf_cons_ne _ hkk, outOf_nil, List.append_nil]
      exact h.ok k' b' e' hb' he'
  · intro k' e' hk' he'
    simp only at he'
    by_cases hkk : k = k'
    · subst hkk
      rw [hself] at he'
      simp only [Option.some.injEq] at he'
      subst he'
      exact taken_quiet ht hjq (h.quiet k d hk' hd)
    · rw [List.getElem?_set_ne hkk] at he'
      exact h.quiet k' e' hk' he'
  · intro e' he'
    simp only at he' ⊢
    rw [outOf_append]
    by_cases hkk : k = ch.done.length
    · subst hkk
      rw [hself] at he'
      simp only [Option.some.injEq] at he'
      subst he'
      rw [outOf_cons_self ⟨ch.done.length, r, j.level, ref⟩, outOf_nil]
      exact (h.live d hd).take ht hjq hs.rep
    · rw [List.getElem?_set_ne hkk] at he'
      rw [outOf_cons_ne _ hkk, outOf_nil, List.append_nil]
      exact h.live e' he'

theorem completed_quiet {d d' : Data K S} {l₁ l₂ : List (Popped K S × S)} {r : Popped K S} {ref : S}
    {new : List (Job K)} (ht : Completed corr d l₁ l₂ r ref new d') (h : Quiet d) : Quiet d' := by
  rw [quiet_iff] at h ⊢
  refine ⟨fun i hi => ?_, fun y hy => ?_⟩
  · rw [ht.queue, List.mem_append] at hi
    rcases hi with hi | hi
    · exact h.1 i hi
    · exact ht.level i hi
  · rw [ht.jobs] at hy
    exact h.2 y (OMap.mem_of_mem_erase hy)

theorem LiveOK.complete {live : Option (Live K S)} {first : Prop} {cnt : Option ℕ}
    {l₁ l₂ : List (Popped K S × S)} {d d' : Data K S} {r : Popped K S} {ref : S} {new : List (Job K)}
    (h : LiveOK live first cnt (l₁ ++ (r, ref) :: l₂) d) (ht : Completed corr d l₁ l₂ r ref new d')
    {j : Job K} (hj : Active d r.id j) (hj0 : 0 < j.level) :
    LiveOK live first cnt (l₁ ++ l₂) d' := by
  cases live with
  | none => exact completed_quiet ht h
  | some v =>
    obtain ⟨h1, h2, x, h3, hAB⟩ := h
    refine ⟨h1, ht.dt.trans h2, x, ht.last _ _ _ h3, ?_⟩
    rcases hAB with ⟨q', hA1, hA2, hA3, hA4⟩ | ⟨r', ref', hB1, hB2, hB3, hB4, hB5, hB6, hB7, hB8⟩
    · refine Or.inl ⟨q' ++ new, by rw [ht.queue, hA1]; rfl, ?_, ?_, ?_⟩
      · intro i hi
        rcases List.mem_append.1 hi with hi | hi
        · exact hA2 i hi
        · exact ht.level i hi
      · intro y hy
        rw [ht.jobs] at hy
        exact hA3 y (OMap.mem_of_mem_erase hy)
      · rw [ht.nextID]; exact hA4
    · have hne : r'.id ≠ r.id := by
        intro he
        rw [he] at hB5
        rw [Active] at hB5 hj
        rw [hB5] at hj
        simp only [Option.some.injEq] at hj
        subst hj
        simp at hj0
      refine Or.inr ⟨r', ref', ?_, hB2, hB3, hB4, ?_, ?_, ?_, hB8⟩
      · simp only [List.mem_append, List.mem_cons] at hB1 ⊢
        rcases hB1 with hB1 | hB1 | hB1
        · exact Or.inl hB1
        · exact absurd (congrArg (fun z => z.1.id) hB1) hne
        · exact Or.inr hB1
      · rw [Active, ht.jobs, OMap.get?_erase_ne hne]
        exact hB5
      · intro i hi
        rw [ht.queue, List.mem_append] at hi
        rcases hi with hi | hi
        · exact hB6 i hi
        · exact ht.level i hi
      · intro y hy hy'
        rw [ht.jobs] at hy
        exact hB7 y (OMap.mem_of_mem_erase hy) hy'

theorem active_erase {d d' : Data K S} {id id' : ℕ} {j : Job K} (hs : OMap.Sorted d.jobs)
    (hj : d'.jobs = OMap.erase d.jobs id) (h : Active d' id' j) : Active d id' j := by
  rw [Active, hj] at h
  by_cases he : id' = id
  · subst he
    rw [OMap.get?_erase_self hs] at h
    simp at h
  · rw [OMap.get?_erase_ne he] at h
    exact h

theorem mem_cons_of_mem {α : Type*} {l₁ l₂ : List α} {i x : α} (h : x ∈ l₁ ++ l₂) :
    x ∈ l₁ ++ i :: l₂ := by
  simp only [List.mem_append, List.mem_cons] at h ⊢
  tauto

theorem SolInv.submitCorr (hcorr : CorrOK corr) (hre : ∀ s, Reachable (startState e s))
    {o₁ o₂ : List (Item K S)} {i : Item K S} (h : SolInv corr e ch s (o₁ ++ i :: o₂))
    (hi : 0 < i.level) (p : SolveParams K S) (almLen : K) (ini : Initiator K S) :
    ∃ s', solveSubmit p almLen s (solveWork ini corr i) = .ok s' ∧ SolInv corr e ch s' (o₁ ++ o₂) := by
  have hbl : i.branch < s.data.length := by rw [h.len]; exact h.branch i (by simp)
  have hd : s.data[i.branch]? = some s.data[i.branch] := by simp
  generalize s.data[i.branch] = d at hd
  obtain ⟨b, hb, hbok⟩ := h.get hd
  rw [outOf_append, outOf_cons_self] at hbok
  obtain ⟨ps, hs⟩ := hbok.sinv hcorr (hre b.1)
  obtain ⟨j, hj, -⟩ := hs.out (i.job, i.ref) (by simp)
  have hlev := h.level i (by simp) d hd j hj
  have hj0 : 0 < j.level := by omega
  obtain ⟨new, d', ht⟩ := hs.complete hcorr hj hj0
  have hself : (s.data.set i.branch d')[i.branch]? = some d' := List.getElem?_set_self hbl
  have hjl : jobLevel d i.job.id = (j.level, d) := by
    rw [jobLevel, hs.rep.jobIndex hj]
  refine ⟨⟨s.data.set i.branch d', s.cnt⟩, ?_, ?_⟩
  · unfold solveSubmit
    simp only [solveWork, Container.branch, hd, hjl]
    rw [if_neg (by omega), if_neg (by omega)]
    simp only
    rw [ht.store]
  refine ⟨by simp [h.len], h.cnt, fun x hx => h.branch x (mem_cons_of_mem hx), ?_, ?_, ?_, ?_⟩
  · intro x hx e' he' j' hj'
    simp only at he'
    by_cases hkk : i.branch = x.branch
    · rw [← hkk, hself] at he'
      simp only [Option.some.injEq] at he'
      subst he'
      exact h.level x (mem_cons_of_mem hx) d (by rw [← hkk]; exact hd) j'
        (active_erase hs.rep.jobsSorted ht.jobs hj')
    · rw [List.getElem?_set_ne hkk] at he'
      exact h.level x (mem_cons_of_mem hx) e' he' j' hj'
  · intro k' b' e' hb' he'
    simp only at he'
    rw [outOf_append]
    by_cases hkk : i.branch = k'
    · subst hkk
      rw [hself] at he'
      simp only [Option.some.injEq] at he'
      subst he'
      rw [hb] at hb'
      simp only [Option.some.injEq] at hb'
      subst hb'
      have := hbok.finish ht.run ht.jobs hs.rep.jobsSorted (by rw [ht.coarse]; simp)
      rwa [List.append_nil] at this
    · rw [List.getElem?_set_ne hkk] at he'
      have := h.ok k' b' e' hb' he'
      rw [outOf_append, outOf_cons_ne _ hkk] at this
      exact this
  · intro k' e' hk' he'
    simp only at he'
    by_cases hkk : i.branch = k'
    · subst hkk
      rw [hself] at he'
      simp only [Option.some.injEq] at he'
      subst he'
      exact completed_quiet ht (h.quiet _ d hk' hd)
    · rw [List.getElem?_set_ne hkk] at he'
      exact h.quiet k' e' hk' he'
  · intro e' he'
    simp only at he' ⊢
    rw [outOf_append]
    by_cases hkk : i.branch = ch.done.length
    · rw [← hkk, hself] at he'
      simp only [Option.some.injEq] at he'
      subst he'
      have := h.live d (by rw [← hkk]; exact hd)
      rw [outOf_append, ← hkk, outOf_cons_self] at this
      rw [← hkk]
      exact this.complete ht hj hj0
    · rw [List.getElem?_set_ne hkk] at he'
      have := h.live e' he'
      rw [outOf_append, outOf_cons_ne _ hkk] at this
      exact this

/-- A job handed out with level 0 is the next initiation. -/
theorem SolInv.live_of_zero (hcorr : CorrOK corr) (hre : ∀ s, Reachable (startState e s))
    {o₁ o₂ : List (Item K S)} {i : Item K S} (h : SolInv corr e ch s (o₁ ++ i :: o₂))
    (hi : i.level = 0) {d : Data K S} (hd : s.data[i.branch]? = some d) :
    i.branch = ch.done.length ∧ ∃ v x, ch.live = some v ∧ s.cnt[i.branch]? = some v.steps ∧
      d.dt = v.len ∧ LastIs d x v.start v.prev ∧ i.job.dt = v.len ∧ i.job.start = v.start ∧
      i.job.prev = v.prev ∧ Active d i.job.id ⟨x, x, 0⟩ ∧ (∀ j ∈ d.queue, 0 < j.level) ∧
      (∀ y ∈ d.jobs, y.1 ≠ i.job.id → 0 < y.2.level) ∧ (ch.pts = [] ↔ i.job.id = 0) := by
  obtain ⟨b, hb, hbok⟩ := h.get hd
  obtain ⟨ps, hs⟩ := hbok.sinv hcorr (hre b.1)
  have hmem : (i.job, i.ref) ∈ outOf (o₁ ++ i :: o₂) i.branch := by
    rw [outOf_append, outOf_cons_self]; simp
  obtain ⟨j, hj, -⟩ := hs.out _ hmem
  have hlev := h.level i (by simp) d hd j hj
  have hj0 : j.level = 0 := by omega
  have hjm : (i.job.id, j) ∈ d.jobs := OMap.mem_of_get? hj
  have hbr : i.branch = ch.done.length := by
    by_contra hne
    have hlt : i.branch < ch.done.length := by
      have := h.branch i (by simp)
      omega
    have := (quiet_iff.1 (h.quiet _ d hlt hd)).2 _ hjm
    simp only at this
    omega
  refine ⟨hbr, ?_⟩
  have hl := h.live d (by rw [← hbr]; exact hd)
  rw [← hbr] at hl
  cases hv : ch.live with
  | none =>
    rw [hv] at hl
    have := (quiet_iff.1 hl).2 _ hjm
    simp only at this
    omega
  | some v =>
    rw [hv] at hl
    obtain ⟨h1, h2, x, h3, hAB⟩ := hl
    rcases hAB with ⟨q', hA1, hA2, hA3, hA4⟩ | ⟨r', ref', hB1, hB2, hB3, hB4, hB5, hB6, hB7, hB8⟩
    · have := hA3 _ hjm
      simp only at this
      omega
    · have hid : i.job.id = r'.id := by
        by_contra hne
        have := hB7 _ hjm hne
        simp only at this
        omega
      have heq : (i.job, i.ref) = (r', ref') := by
        have hnd := hs.ids
        exact List.inj_on_of_nodup_map hnd hmem hB1 hid
      obtain ⟨rfl, rfl⟩ := Prod.mk.inj heq
      exact ⟨v, x, rfl, h1, h2, h3, hB2, hB3, hB4, hB5, hB6, hB7, hB8⟩

theorem Chain.all_last (c : Chain K S) : c.all[c.done.length]? = some (c.start0, c.pts) := by
  simp [Chain.all]

theorem Chain.all_lt (c : Chain K S) {k : ℕ} (hk : k < c.done.length) : c.all[k]? = c.done[k]? := by
  rw [Chain.all, List.getElem?_append_left hk]

/-- Replacing the current branch. -/
theorem SolInv.replace {o₁ o₂ : List (Item K S)} {i : Item K S}
    (h : SolInv corr e ch s (o₁ ++ i :: o₂)) (hbr : i.branch = ch.done.length) {d d' : Data K S}
    (hd : s.data[i.branch]? = some d) {pts : List (K × S)} {live : Option (Live K S)} {cnt : List ℕ}
    (hcnt : cnt.length = s.cnt.length)
    (hbok : BOK corr (startState e ch.start0) pts (outOf o₁ i.branch ++ outOf o₂ i.branch) d')
    (hact : ∀ id j, Active d' id j → Active d id j)
    (hlive : LiveOK live (pts = []) cnt[i.branch]? (outOf o₁ i.branch ++ outOf o₂ i.branch) d') :
    SolInv corr e ⟨ch.done, ch.start0, pts, live⟩ ⟨s.data.set i.branch d', cnt⟩ (o₁ ++ o₂) := by
  have hbl : i.branch < s.data.length := (List.getElem?_eq_some_iff.1 hd).1
  have hself : (s.data.set i.branch d')[i.branch]? = some d' := List.getElem?_set_self hbl
  refine ⟨by simp [h.len], by rw [hcnt]; exact h.cnt, fun x hx => h.branch x (mem_cons_of_mem hx),
    ?_, ?_, ?_, ?_⟩
  · intro x hx e' he' j' hj'
    simp only at he'
    by_cases hkk : i.branch = x.branch
    · rw [← hkk, hself] at he'
      simp only [Option.some.injEq] at he'
      subst he'
      exact h.level x (mem_cons_of_mem hx) d (by rw [← hkk]; exact hd) j' (hact _ _ hj')
    · rw [List.getElem?_set_ne hkk] at he'
      exact h.level x (mem_cons_of_mem hx) e' he' j' hj'
  · intro k' b' e' hb' he'
    simp only at he'
    rw [outOf_append]
    by_cases hkk : i.branch = k'
    · subst hkk
      rw [hself] at he'
      simp only [Option.some.injEq] at he'
      subst he'
      have := Chain.all_last ⟨ch.done, ch.start0, pts, live⟩
      simp only at this
      rw [hbr, this] at hb'
      simp only [Option.some.injEq] at hb'
      subst hb'
      exact hbok
    · rw [List.getElem?_set_ne hkk] at he'
      have hk' : k' < ch.done.length := by
        have : k' < s.data.length := (List.getElem?_eq_some_iff.1 he').1
        rw [h.len] at this
        omega
      rw [Chain.all_lt (⟨ch.done, ch.start0, pts, live⟩ : Chain K S) hk'] at hb'
      have := h.ok k' b' e' (by rw [Chain.all_lt _ hk']; exact hb') he'
      rw [outOf_append, outOf_cons_ne _ hkk] at this
      exact this
  · intro k' e' hk' he'
    simp only at he' hk'
    rw [List.getElem?_set_ne (by omega)] at he'
    exact h.quiet k' e' hk' he'
  · intro e' he'
    simp only at he' ⊢
    rw [outOf_append]
    rw [← hbr, hself] at he'
    simp only [Option.some.injEq] at he'
    subst he'
    rw [← hbr]
    exact hlive

/-- Adding a branch. -/
theorem SolInv.addBranch (hf : IsFresh e) (hn : e.nextID = 0) (h : SolInv corr e ch s out)
    (hlive : ch.live = none) (s' : S) (len : K) :
    SolInv corr e ⟨ch.done ++ [(ch.start0, ch.pts)], s', [], some ⟨1, len, s', s'⟩⟩
      ⟨s.data ++ [setLength (startState e s') len], s.cnt ++ [1]⟩ out := by
  have hall : (ch.done ++ [(ch.start0, ch.pts)]) = ch.all := rfl
  have hlen : s.data.length = ch.all.length := by rw [h.len, ch.all_length]
  have hget : ∀ {k d}, k < ch.all.length →
      (s.data ++ [setLength (startState e s') len])[k]? = some d → s.data[k]? = some d := by
    intro k d hk hd
    rwa [List.getElem?_append_left (by omega)] at hd
  have hnew : (s.data ++ [setLength (startState e s') len])[ch.all.length]? =
      some (setLength (startState e s') len) := by
    rw [← hlen]; simp
  have hout : outOf out ch.all.length = [] := by
    simp only [outOf, List.map_eq_nil_iff, List.filter_eq_nil_iff, beq_iff_eq]
    intro x hx he
    have := h.branch x hx
    rw [ch.all_length] at he
    omega
  rw [hall]
  refine ⟨by simp [hlen], by simp [h.cnt, ch.all_length], ?_, ?_, ?_, ?_, ?_⟩
  · intro x hx
    have := h.branch x hx
    simp only [ch.all_length]
    omega
  · intro x hx d hd j hj
    have := h.branch x hx
    exact h.level x hx d (hget (by rw [ch.all_length]; omega) hd) j hj
  · intro k b d hb hd
    by_cases hk : k < ch.all.length
    · rw [Chain.all_lt _ hk] at hb
      exact h.ok k b d hb (hget hk hd)
    · have hk' : k = ch.all.length := by
        have : k < _ := (List.getElem?_eq_some_iff.1 hd).1
        simp at this
        omega
      subst hk'
      simp only at hd
      rw [hnew] at hd
      have := Chain.all_last (⟨ch.all, s', [], some ⟨1, len, s', s'⟩⟩ : Chain K S)
      simp only at this
      rw [this] at hb
      simp only [Option.some.injEq] at hb hd
      subst hb hd
      rw [hout]
      exact startBranch_bok corr hf s' len
  · intro k d hk hd
    simp only at hk
    have hd' := hget hk hd
    by_cases hk' : k < ch.done.length
    · exact h.quiet k d hk' hd'
    · have : k = ch.done.length := by rw [ch.all_length] at hk; omega
      subst this
      have := h.live d hd'
      rw [hlive] at this
      exact this
  · intro d hd
    simp only at hd ⊢
    rw [hnew] at hd
    simp only [Option.some.injEq] at hd
    subst hd
    rw [hout]
    have hc : (s.cnt ++ [1])[ch.all.length]? = some 1 := by
      rw [ch.all_length, ← h.cnt]; simp
    rw [hc]
    have := startBranch_live hf hn s' len
    simpa [LiveOK] using this

theorem SolInv.submitInit (hcorr : CorrOK corr) (hini : InitOK ini) (hf : IsFresh p.empty)
    (hn : p.empty.nextID = 0) (hre : ∀ s, Reachable (startState p.empty s))
    {o₁ o₂ : List (Item K S)} {i : Item K S} (h : SolInv corr p.empty ch s (o₁ ++ i :: o₂))
    (hi : i.level = 0) (almLen : K) :
    ∃ s', solveSubmit p almLen s (solveWork ini corr i) = .ok s' ∧
      SolInv corr p.empty
        (ch.next ini p.nSteps p.bifMult (almLen * p.branchMult * p.bifMult)) s' (o₁ ++ o₂) := by
  have hbl : i.branch < s.data.length := by rw [h.len]; exact h.branch i (by simp)
  have hd : s.data[i.branch]? = some s.data[i.branch] := by simp
  generalize s.data[i.branch] = d at hd
  obtain ⟨hbr, v, x, hv, hcnt, hdt, hx, hj1, hj2, hj3, hact, hq, hjobs, hfirst⟩ :=
    h.live_of_zero hcorr hre hi hd
  have hbok : BOK corr (startState p.empty ch.start0) ch.pts
      (outOf o₁ i.branch ++ (i.job, i.ref) :: outOf o₂ i.branch) d := by
    have := h.ok i.branch (ch.start0, ch.pts) d (by rw [hbr]; exact ch.all_last) hd
    rwa [outOf_append, outOf_cons_self] at this
  obtain ⟨ps, hs⟩ := hbok.sinv hcorr (hre _)
  have hcl : i.branch < s.cnt.length := by rw [h.cnt]; omega
  have hjl : jobLevel d i.job.id = (0, d) := by rw [jobLevel, hs.rep.jobIndex hact]
  obtain ⟨hpos, hnb, hb⟩ := hini v.len v.start v.prev
  -- the stored point
  have hsols : ∃ s₀ rest, (ini v.len v.start v.prev).sols = s₀ :: rest := by
    cases hbf : (ini v.len v.start v.prev).bifurcation with
    | false => obtain ⟨a, ha⟩ := hnb hbf; exact ⟨a, [], ha⟩
    | true => obtain ⟨a, b, ha⟩ := hb hbf; exact ⟨a, [b], ha⟩
  obtain ⟨s₀, rest, hsol⟩ := hsols
  obtain ⟨y, d', ht⟩ := hs.initiate corr hact hx hpos s₀
  have hactd : ∀ id j, Active d' id j → Active d id j :=
    fun id j hj => active_erase hs.rep.jobsSorted ht.jobs hj
  have hbok' := hbok.finish ht.run ht.jobs hs.rep.jobsSorted (by rw [ht.coarse]; rfl)
  have hjobs' : ∀ z ∈ d'.jobs, 0 < z.2.level := by
    intro z hz
    rw [ht.jobs] at hz
    refine hjobs z (OMap.mem_of_mem_erase hz) ?_
    rintro hze
    have h1 := OMap.get?_erase_self hs.rep.jobsSorted i.job.id
    rw [OMap.get?_eq_none] at h1
    exact h1 z hz hze
  have hq' : ∀ j ∈ d'.queue, 0 < j.level := by
    intro j hj
    rw [ht.queue, List.mem_append, List.mem_singleton] at hj
    rcases hj with hj | rfl
    · exact hq j hj
    · simp
  have hquiet : Quiet d' := quiet_iff.2 ⟨hq', hjobs'⟩
  have hpts : ch.pts ++ [((ini v.len v.start v.prev).distance, s₀)] ≠ [] := by simp
  have hnext : d'.nextID ≠ 0 := by
    have := hs.rep.ids _ (OMap.mem_of_get? hact)
    rw [ht.nextID]
    simp only at this
    omega
  have hstep : solveSubmit p almLen s (solveWork ini corr i) =
      advance p almLen i.branch i.job.id (ini v.len v.start v.prev).bifurcation rest v.steps d'
        ⟨s.data.set i.branch d', s.cnt.set i.branch (v.steps + 1)⟩ := by
    unfold solveSubmit
    simp only [solveWork, Container.branch, hd, hjl]
    rw [if_pos hi]
    simp only [hj1, hj2, hj3, hsol, if_true]
    rw [ht.store]
    simp only [hcnt]
  have hcnt' : (s.cnt.set i.branch (v.steps + 1))[i.branch]? = some (v.steps + 1) :=
    List.getElem?_set_self hcl
  rw [hstep]
  by_cases hN : (v.steps : ℤ) < p.nSteps - 1
  · cases hbf : (ini v.len v.start v.prev).bifurcation with
    | true =>
      obtain ⟨a, b, hab⟩ := hb hbf
      rw [hsol] at hab
      obtain ⟨rfl, rfl⟩ := List.cons.inj hab
      have hch : ch.next ini p.nSteps p.bifMult (almLen * p.branchMult * p.bifMult) =
          ⟨ch.done ++ [(ch.start0, ch.pts ++ [((ini v.len v.start v.prev).distance, s₀)])], b, [],
            some ⟨1, almLen * p.branchMult * p.bifMult, b, b⟩⟩ := by
        unfold Chain.next
        rw [hv]
        simp only [hN, if_true, hbf, hsol]
        rfl
      rw [hch]
      have hrep := h.replace hbr hd (live := none)
        (cnt := s.cnt.set i.branch (v.steps + 1)) (by simp) hbok' hactd hquiet
      refine ⟨_, ?_, hrep.addBranch hf hn rfl b (almLen * p.branchMult * p.bifMult)⟩
      unfold advance
      simp only [hN, if_true]
      rw [newBranch_ok hf]
    | false =>
      obtain ⟨a, hab⟩ := hnb hbf
      rw [hsol] at hab
      obtain ⟨rfl, rfl⟩ := List.cons.inj hab
      obtain ⟨ps', hs'⟩ := hbok'.sinv hcorr (hre _)
      obtain ⟨d₂, hap, hrun, hq₂, hjobs₂, hid₂, hdt₂, hlast₂, hco₂⟩ := hs'.point corr ht.last
      have hch : ch.next ini p.nSteps p.bifMult (almLen * p.branchMult * p.bifMult) =
          ⟨ch.done, ch.start0, ch.pts ++ [((ini v.len v.start v.prev).distance, s₀)],
            some ⟨v.steps + 1, if ch.done ≠ [] ∧ ch.pts = [] then v.len / p.bifMult else v.len, s₀,
              v.start⟩⟩ := by
        unfold Chain.next
        rw [hv]
        simp only [hN, if_true, hbf, hsol]
        rfl
      rw [hch]
      set d₃ := (if i.branch ≠ 0 ∧ i.job.id = 0 then setLength d₂ (d₂.dt / p.bifMult) else d₂)
        with hd₃
      have hset : (s.data.set i.branch d').set i.branch d₃ = s.data.set i.branch d₃ :=
        List.set_set ..
      refine ⟨⟨s.data.set i.branch d₃, s.cnt.set i.branch (v.steps + 1)⟩, ?_, ?_⟩
      · unfold advance
        simp only [hN, if_true, Bool.false_eq_true, if_false]
        rw [hap]
        simp only [← hd₃, hset]
      have hiff : (i.branch ≠ 0 ∧ i.job.id = 0) ↔ (ch.done ≠ [] ∧ ch.pts = []) := by
        rw [hfirst, hbr]
        simp [List.length_eq_zero_iff]
      have h₃ : d₃.queue = d₂.queue ∧ d₃.jobs = d₂.jobs ∧ d₃.nextID = d₂.nextID ∧
          (∀ x s p, LastIs d₂ x s p → LastIs d₃ x s p) ∧
          d₃.dt = (if ch.done ≠ [] ∧ ch.pts = [] then v.len / p.bifMult else v.len) ∧
          SRun corr ⟨d₂, outOf o₁ i.branch ++ outOf o₂ i.branch⟩ []
            ⟨d₃, outOf o₁ i.branch ++ outOf o₂ i.branch⟩ ∧ coarse d₃ = coarse d₂ := by
        by_cases hc : i.branch ≠ 0 ∧ i.job.id = 0
        · rw [hd₃, if_pos hc, if_pos (hiff.1 hc)]
          refine ⟨rfl, rfl, rfl, fun _ _ _ h => h, ?_, SStep.setLength.run, rfl⟩
          simp only [setLength]
          rw [hdt₂, ht.dt, hdt]
        · rw [hd₃, if_neg hc, if_neg (fun h => hc (hiff.2 h))]
          exact ⟨rfl, rfl, rfl, fun _ _ _ h => h, by rw [hdt₂, ht.dt, hdt], SRun.nil _, rfl⟩
      obtain ⟨g1, g2, g3, g4, g5, g6, g7⟩ := h₃
      refine h.replace hbr hd (by simp) ?_ ?_ ?_
      · refine ⟨?_, ?_, ?_⟩
        · have := hbok'.run.trans (hrun.trans g6)
          simpa using this
        · intro id j hj
          rw [Active, g2, hjobs₂] at hj
          exact hbok'.cover id j hj
        · rw [g7, hco₂]
          exact hbok'.coarse
      · intro id j hj
        rw [Active, g2, hjobs₂] at hj
        exact hactd id j hj
      · refine ⟨hcnt', g5, y, g4 _ _ _ hlast₂, Or.inl ⟨d'.queue, by rw [g1, hq₂], hq', ?_, ?_⟩⟩
        · rw [g2, hjobs₂]
          exact hjobs'
        · rw [g3, hid₂]
          simp [hpts, hnext]
  · have hch : ch.next ini p.nSteps p.bifMult (almLen * p.branchMult * p.bifMult) =
        ⟨ch.done, ch.start0, ch.pts ++ [((ini v.len v.start v.prev).distance, s₀)], none⟩ := by
      unfold Chain.next
      rw [hv]
      simp only [hN, if_false, hsol]
      rfl
    rw [hch]
    refine ⟨⟨s.data.set i.branch d', s.cnt.set i.branch (v.steps + 1)⟩, ?_,
      h.replace hbr hd (by simp) hbok' hactd hquiet⟩
    unfold advance
    rw [if_neg hN]

end GsSA.APALM
