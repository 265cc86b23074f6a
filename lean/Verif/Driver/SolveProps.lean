import Verif.Driver.SolveInv

/-!
# Properties C22, C23, C73: `solve`
-/

set_option linter.unusedSectionVars false

namespace GsSA.APALM

open GsSA MPI

variable {K S : Type*} [Field K] [LinearOrder K] [IsStrictOrderedRing K]
variable {corr : Corrector K S} {ini : Initiator K S} {p : SolveParams K S}

/-- `m_dataEmpty` is a data set without points. -/
def FreshParams (p : SolveParams K S) : Prop := ∃ m tol dt, p.empty = Data.fresh m tol dt

theorem FreshParams.isFresh (h : FreshParams p) : IsFresh p.empty := by
  obtain ⟨m, tol, dt, he⟩ := h
  rw [he]
  exact fresh_isFresh m tol dt

theorem FreshParams.nextID (h : FreshParams p) : p.empty.nextID = 0 := by
  obtain ⟨m, tol, dt, he⟩ := h
  rw [he]
  rfl

theorem FreshParams.reachable (h : FreshParams p) (s : S) : Reachable (startState p.empty s) := by
  obtain ⟨m, tol, dt, he⟩ := h
  rw [he]
  exact startState_reachable m tol dt s

/-- State before the loop for a first call with one start. -/
theorem solveStart_one (hp : FreshParams p) (s₀ : S) (len : K) :
    solveStart p [] [(s₀, len)] = .ok ⟨[setLength (startState p.empty s₀) len], [1]⟩ := by
  simp [solveStart, addStarts, newBranch_ok hp.isFresh]

/-- The sequence of initiations. -/
def chainAt (p : SolveParams K S) (ini : Initiator K S) (almLen : K) (s₀ : S) (len : K) (n : ℕ) :
    Chain K S :=
  (Chain.next ini p.nSteps p.bifMult (almLen * p.branchMult * p.bifMult))^[n] (Chain.init s₀ len)

theorem chainAt_succ (almLen : K) (s₀ : S) (len : K) (n : ℕ) :
    chainAt p ini almLen s₀ len (n + 1) =
      (chainAt p ini almLen s₀ len n).next ini p.nSteps p.bifMult
        (almLen * p.branchMult * p.bifMult) := by
  rw [chainAt, Function.iterate_succ_apply']
  rfl

theorem SolInv.submit (hcorr : CorrOK corr) (hini : InitOK ini) (hp : FreshParams p)
    {o₁ o₂ : List (Item K S)} {i : Item K S} {s : SolveState K S} {almLen : K} {s₀ : S} {len : K} {n : ℕ}
    (h : SolInv corr p.empty (chainAt p ini almLen s₀ len n) s (o₁ ++ i :: o₂)) :
    ∃ s' m, solveSubmit p almLen s (solveWork ini corr i) = .ok s' ∧
      SolInv corr p.empty (chainAt p ini almLen s₀ len m) s' (o₁ ++ o₂) := by
  by_cases hi : i.level = 0
  · obtain ⟨s', h1, h2⟩ := h.submitInit hcorr hini hp.isFresh hp.nextID hp.reachable hi almLen
    exact ⟨s', n + 1, h1, by rw [chainAt_succ]; exact h2⟩
  · obtain ⟨s', h1, h2⟩ := h.submitCorr hcorr hp.reachable (by omega) p almLen ini
    exact ⟨s', n, h1, h2⟩

theorem SolInv.seq {A : Type*} (hcorr : CorrOK corr) (hini : InitOK ini) (hp : FreshParams p)
    {work : A → Item K S → (ℕ × ℕ × Payload K S) × A} (hw : ∀ a i, (work a i).1 = solveWork ini corr i)
    {almLen : K} {s₀ : S} {len : K} {st : SolveState K S}
    (h₀ : solveStart p [] [(s₀, len)] = .ok st) {m n : ℕ} {x : SolveState K S × List (Item K S)}
    (r : SeqRun (solveServer p almLen) work (st, []) m n x) :
    ∃ k, SolInv corr p.empty (chainAt p ini almLen s₀ len k) x.1 x.2 := by
  rw [solveStart_one hp, Except.ok.injEq] at h₀
  subst h₀
  generalize hs : ((⟨[setLength (startState p.empty s₀) len], [1]⟩ : SolveState K S),
    ([] : List (Item K S))) = y at r
  induction r with
  | nil => subst hs; exact ⟨0, SolInv.start corr hp.isFresh hp.nextID s₀ len⟩
  | pop _ he hpop ih =>
    obtain ⟨k, ih⟩ := ih
    obtain ⟨i, s', h1, h2⟩ := ih.pop hcorr hp.reachable he
    have : solvePop _ = _ := hpop
    rw [h1] at this
    simp only [Except.ok.injEq, Prod.mk.injEq] at this
    obtain ⟨rfl, rfl⟩ := this
    exact ⟨k, h2⟩
  | submit a _ hsub ih =>
    obtain ⟨k, ih⟩ := ih
    obtain ⟨s', m, h1, h2⟩ := ih.submit hcorr hini hp
    have : solveSubmit _ _ _ _ = _ := hsub
    rw [hw, h1] at this
    simp only [Except.ok.injEq] at this
    subst this
    exact ⟨m, h2⟩

/-- With nothing waiting and nothing handed out there is no further initiation. -/
theorem SolInv.ended {e : Data K S} {ch : Chain K S} {s : SolveState K S} (h : SolInv corr e ch s [])
    (he : s.data.empty = true) : ch.live = none := by
  have hl : ch.done.length < s.data.length := by rw [h.len]; omega
  have hd : s.data[ch.done.length]? = some s.data[ch.done.length] := by simp
  generalize s.data[ch.done.length] = d at hd
  have hlive := h.live d hd
  rw [outOf_nil] at hlive
  cases hv : ch.live with
  | none => rfl
  | some v =>
    rw [hv] at hlive
    obtain ⟨-, -, x, -, ⟨q, hq, -⟩ | ⟨r, ref, hm, -⟩⟩ := hlive
    · rw [(C16_empty s.data).1.1 he d (List.mem_of_getElem? hd)] at hq
      simp at hq
    · simp at hm

theorem chainAt_fix {almLen : K} {s₀ : S} {len : K} {n : ℕ}
    (h : (chainAt p ini almLen s₀ len n).live = none) (k : ℕ) :
    chainAt p ini almLen s₀ len (n + k) = chainAt p ini almLen s₀ len n := by
  induction k with
  | zero => rfl
  | succ k ih => rw [← Nat.add_assoc, chainAt_succ, ih, Chain.next, h]

theorem chainAt_unique {almLen : K} {s₀ : S} {len : K} {m n : ℕ}
    (hm : (chainAt p ini almLen s₀ len m).live = none)
    (hn : (chainAt p ini almLen s₀ len n).live = none) :
    chainAt p ini almLen s₀ len m = chainAt p ini almLen s₀ len n := by
  rcases le_total m n with h | h
  · obtain ⟨k, rfl⟩ := Nat.exists_eq_add_of_le h
    exact (chainAt_fix hm k).symm
  · obtain ⟨k, rfl⟩ := Nat.exists_eq_add_of_le h
    exact chainAt_fix hn k

/-- Two ended executions with the same sequence of initiations have the same curves. -/
theorem SolInv.flat_eq (hcorr : CorrOK corr) {e : Data K S} (hre : ∀ s, Reachable (startState e s))
    {ch : Chain K S} {s₁ s₂ : SolveState K S} (h₁ : SolInv corr e ch s₁ []) (h₂ : SolInv corr e ch s₂ [])
    (e₁ : s₁.data.empty = true) (e₂ : s₂.data.empty = true) :
    s₁.data.map flat = s₂.data.map flat := by
  apply List.ext_getElem?
  intro k
  rw [List.getElem?_map, List.getElem?_map]
  by_cases hk : k < ch.done.length + 1
  · have g₁ : s₁.data[k]? = some (s₁.data[k]'(by rw [h₁.len]; exact hk)) := by simp
    have g₂ : s₂.data[k]? = some (s₂.data[k]'(by rw [h₂.len]; exact hk)) := by simp
    generalize (s₁.data[k]'(by rw [h₁.len]; exact hk)) = d₁ at g₁
    generalize (s₂.data[k]'(by rw [h₂.len]; exact hk)) = d₂ at g₂
    obtain ⟨b, hb, b₁⟩ := h₁.get g₁
    have b₂ := h₂.ok k b d₂ hb g₂
    rw [outOf_nil] at b₁ b₂
    rw [g₁, g₂]
    simp only [Option.map_some, Option.some.injEq]
    exact C11_schedule_independence hcorr (hre b.1) b₁.run b₂.run
      (b₁.drained ((C16_empty s₁.data).1.1 e₁ d₁ (List.mem_of_getElem? g₁)))
      (b₂.drained ((C16_empty s₂.data).1.1 e₂ d₂ (List.mem_of_getElem? g₂)))
  · rw [List.getElem?_eq_none (by rw [h₁.len]; omega), List.getElem?_eq_none (by rw [h₂.len]; omega)]

/-! ## C23 -/

/-- **C23** In a first `solve` with one start no check, exception or out-of-range access (in
particular of the step counters) occurs in the main process, for any number of processes and any
order of events. Partial: for objects which already hold branches, and for more than one start, it is
false, see below. -/
theorem C23_no_failure_partial {A : Type*} (hcorr : CorrOK corr) (hini : InitOK ini)
    (hp : FreshParams p) {work : A → Item K S → (ℕ × ℕ × Payload K S) × A}
    (hw : ∀ a i, (work a i).1 = solveWork ini corr i) {almLen : K} {s₀ : S} {len : K}
    {st : SolveState K S} (h₀ : solveStart p [] [(s₀, len)] = .ok st) {P maxIt : ℕ} {pool : List ℕ}
    (hpool : ∀ w ∈ pool, w ∈ ranks P) {a : ℕ → A} {n : ℕ}
    {s : State (SolveState K S) A (Item K S) (ℕ × ℕ × Payload K S)}
    (r : Run (solveServer p almLen) work P maxIt (start st pool a) n s) (e : Fail) :
    s.phase ≠ .failed e := by
  intro hf
  obtain ⟨k, m, c, out, h1, h2⟩ := C25_failure_is_sequential hpool r hf
  obtain ⟨j, hinv⟩ := SolInv.seq hcorr hini hp hw h₀ h1
  rcases h2 with ⟨he, hpop⟩ | ⟨j, hj, b, hsub⟩
  · obtain ⟨i, c', h3, -⟩ := hinv.pop hcorr hp.reachable he
    have hpop' : solvePop _ = _ := hpop
    rw [h3] at hpop'
    simp at hpop'
  · obtain ⟨o₁, o₂, rfl⟩ := List.append_of_mem hj
    obtain ⟨c', m, h3, -⟩ := hinv.submit hcorr hini hp
    have hsub' : solveSubmit _ _ _ _ = _ := hsub
    rw [hw, h3] at hsub'
    simp at hsub'

/-- **C23** violated: `solve` on an object which already holds branches (for example after a
`serialSolve`, or a second `solve`) reads the step counter out of range at the first initiation. -/
theorem C23_violated_second_call {A : Type*} (hcorr : CorrOK corr) (hini : InitOK ini) (hp : FreshParams p)
    {work : A → Item K S → (ℕ × ℕ × Payload K S) × A} (hw : ∀ a i, (work a i).1 = solveWork ini corr i)
    {c : Container K S} (hc : c ≠ []) (hq : ∀ d ∈ c, d.queue = []) (getLen : A → K) (s₀ : S) (len : K)
    {maxIt fuel : ℕ} (hm : 0 < maxIt) (a : A) :
    ∃ st, solveStart p c [(s₀, len)] = .ok st ∧
      solveSingle p getLen work maxIt (fuel + 1) 0 a st = some (.error .ub) := by
  set d := setLength (startState p.empty s₀) len with hd
  refine ⟨⟨c ++ [d], [1]⟩, by simp [solveStart, addStarts, newBranch_ok hp.isFresh, hd], ?_⟩
  have hdq : d.queue = [⟨0, 0, 0⟩] := rfl
  have hclen : 0 < c.length := List.length_pos_of_ne_nil hc
  have hget : (c ++ [d])[c.length]? = some d := by simp
  have hne : ¬ ((c ++ [d] : Container K S).empty = true ∨ maxIt ≤ 0) := by
    rintro (h | h)
    · have := (C16_empty (c ++ [d])).1.1 h d (by simp)
      rw [hdq] at this
      simp at this
    · omega
  have hfirst : Container.getFirstNonEmptyBranch (c ++ [d]) = .ok c.length := by
    rw [C16_first_non_empty]
    refine ⟨⟨d, hget, by rw [hdq]; simp⟩, ?_⟩
    intro j hj x hx
    rw [List.getElem?_append_left hj] at hx
    exact hq x (List.mem_of_getElem? hx)
  have hb := startBranch_bok corr hp.isFresh s₀ len
  rw [← hd] at hb
  obtain ⟨ps, hs⟩ := hb.sinv hcorr (hp.reachable s₀)
  obtain ⟨r, ref, d', ht⟩ := hs.take corr hdq
  have hlast : LastIs d' 0 s₀ s₀ := ht.last _ _ _ (startState_lastIs p.empty s₀)
  have hpop : solvePop (⟨c ++ [d], [1]⟩ : SolveState K S) =
      .ok (⟨c.length, r, 0, ref⟩, ⟨(c ++ [d]).set c.length d', [1]⟩) := by
    unfold solvePop
    simp only [hfirst, Container.branch, hget]
    rw [ht.take]
  have hself : ((c ++ [d]).set c.length d')[c.length]? = some d' :=
    List.getElem?_set_self (by simp)
  have hact : Active d' r.id ⟨0, 0, 0⟩ := taken_active ht hs.rep
  obtain ⟨ps', hs'⟩ := (hb.take ht).sinv hcorr (hp.reachable s₀)
  obtain ⟨hpos, hnb, hbf⟩ := hini r.dt r.start r.prev
  have hsols : ∃ y rest, (ini r.dt r.start r.prev).sols = y :: rest := by
    cases hbf' : (ini r.dt r.start r.prev).bifurcation with
    | false => obtain ⟨y, hy⟩ := hnb hbf'; exact ⟨y, [], hy⟩
    | true => obtain ⟨y, z, hy⟩ := hbf hbf'; exact ⟨y, [z], hy⟩
  obtain ⟨y, rest, hsol⟩ := hsols
  obtain ⟨xi, d₁, hst⟩ := SInv.initiate (out₁ := []) (out₂ := []) corr hs' hact hlast hpos y
  have hjl : jobLevel d' r.id = (0, d') := by rw [jobLevel, hs'.rep.jobIndex hact]
  have hcnt : ([1] : List ℕ)[c.length]? = none := by
    rw [List.getElem?_eq_none]
    simp
    omega
  unfold solveSingle
  rw [if_neg hne, hpop]
  simp only [hw]
  have : solveSubmit p (getLen (work a ⟨c.length, r, 0, ref⟩).2)
      ⟨(c ++ [d]).set c.length d', [1]⟩ (solveWork ini corr ⟨c.length, r, 0, ref⟩) = .error .ub := by
    unfold solveSubmit
    simp only [solveWork, Container.branch, hself, hjl, if_true, hsol]
    rw [hst.store]
    simp only [hcnt]
  rw [this]

/-! ## C73 -/

/-- **C73** Two `solve`s with one start, each with any number of processes and any order of events,
which both end with no job waiting, give the same branches with the same times, solutions and levels. -/
theorem C73_schedule_independence {A : Type*} (hcorr : CorrOK corr) (hini : InitOK ini)
    (hp : FreshParams p) {work : A → Item K S → (ℕ × ℕ × Payload K S) × A}
    (hw : ∀ a i, (work a i).1 = solveWork ini corr i) {almLen : K} {s₀ : S} {len : K}
    {st : SolveState K S} (h₀ : solveStart p [] [(s₀, len)] = .ok st)
    {P₁ P₂ max₁ max₂ : ℕ} {pool₁ pool₂ : List ℕ} (hp₁ : ∀ w ∈ pool₁, w ∈ ranks P₁)
    (hp₂ : ∀ w ∈ pool₂, w ∈ ranks P₂) {a₁ a₂ : ℕ → A} {n₁ n₂ : ℕ}
    {s₁ s₂ : State (SolveState K S) A (Item K S) (ℕ × ℕ × Payload K S)}
    (r₁ : Run (solveServer p almLen) work P₁ max₁ (start st pool₁ a₁) n₁ s₁)
    (r₂ : Run (solveServer p almLen) work P₂ max₂ (start st pool₂ a₂) n₂ s₂)
    (f₁ : s₁.phase = .finished) (f₂ : s₂.phase = .finished)
    (e₁ : s₁.data.data.empty = true) (e₂ : s₂.data.data.empty = true) :
    s₁.data.data.map flat = s₂.data.data.map flat := by
  obtain ⟨k₁, i₁⟩ := SolInv.seq hcorr hini hp hw h₀ (C25_all_answered hp₁ r₁ (Or.inl f₁))
  obtain ⟨k₂, i₂⟩ := SolInv.seq hcorr hini hp hw h₀ (C25_all_answered hp₂ r₂ (Or.inl f₂))
  have := chainAt_unique (i₁.ended e₁) (i₂.ended e₂)
  simp only at i₁ i₂
  rw [this] at i₁
  exact i₁.flat_eq hcorr hp.reachable i₂ e₁ e₂

/-- The loop without MPI is a sequential execution of the server if the solver has the length of the
main process after each initiation which finds a bifurcation. -/
theorem solveSubmit_congr {almLen almLen' : K} {s : SolveState K S} {i : Item K S}
    (h : i.level = 0 → (ini i.job.dt i.job.start i.job.prev).bifurcation = true → almLen = almLen') :
    solveSubmit p almLen s (solveWork ini corr i) = solveSubmit p almLen' s (solveWork ini corr i) := by
  by_cases hi : i.level = 0
  · cases hb : (ini i.job.dt i.job.start i.job.prev).bifurcation with
    | true => rw [h hi hb]
    | false =>
      unfold solveSubmit
      simp only [solveWork, hi, if_true]
      congr 1
      funext d₀
      congr 1
      simp only [hb]
      congr 1
  · unfold solveSubmit
    simp only [solveWork, hi, if_false]

theorem solveSingle_seq {A : Type*} {work : A → Item K S → (ℕ × ℕ × Payload K S) × A}
    (hw : ∀ a i, (work a i).1 = solveWork ini corr i) {almLen : K} {getLen : A → K}
    (hlen : ∀ a i, i.level = 0 → (ini i.job.dt i.job.start i.job.prev).bifurcation = true →
      getLen (work a i).2 = almLen)
    {maxIt fuel it : ℕ} {a a' : A} {s s' : SolveState K S} {x : SolveState K S × List (Item K S)} {k : ℕ}
    (hr : SeqRun (solveServer p almLen) work x k k (s, []))
    (h : solveSingle p getLen work maxIt fuel it a s = some (.ok (s', a'))) :
    ∃ m, SeqRun (solveServer p almLen) work x m m (s', []) := by
  induction fuel generalizing it a s k with
  | zero => simp [solveSingle] at h
  | succ fuel ih =>
    simp only [solveSingle] at h
    split at h
    · simp only [Option.some.injEq, Except.ok.injEq, Prod.mk.injEq] at h
      obtain ⟨rfl, rfl⟩ := h
      exact ⟨k, hr⟩
    · rename_i hc
      push Not at hc
      split at h
      · simp at h
      · rename_i j s₁ hpop
        split at h
        · simp at h
        · rename_i s₂ hsub
          have hsub' : (solveServer p almLen).submit s₁ (work a j).1 = .ok s₂ := by
            rw [← hsub, hw]
            exact (solveSubmit_congr (hlen a j)).symm
          exact ih (SeqRun.submit (o₁ := []) (o₂ := []) a
            (SeqRun.pop hr (by simpa [solveServer] using hc.1) hpop) hsub') h

/-- **C73** A `solve` without MPI gives the same as one with MPI, provided that the solver has the
length of the main process after each initiation finding a bifurcation. Partial: without this
assumption it is false, see below. -/
theorem C73_equals_single_process_partial {A : Type*} (hcorr : CorrOK corr) (hini : InitOK ini)
    (hp : FreshParams p) {work : A → Item K S → (ℕ × ℕ × Payload K S) × A}
    (hw : ∀ a i, (work a i).1 = solveWork ini corr i) {almLen : K} {getLen : A → K}
    (hlen : ∀ a i, i.level = 0 → (ini i.job.dt i.job.start i.job.prev).bifurcation = true →
      getLen (work a i).2 = almLen) {s₀ : S} {len : K}
    {st : SolveState K S} (h₀ : solveStart p [] [(s₀, len)] = .ok st)
    {P max₁ max₂ fuel : ℕ} {pool : List ℕ} (hpool : ∀ w ∈ pool, w ∈ ranks P) {a₁ : ℕ → A} {n : ℕ}
    {s : State (SolveState K S) A (Item K S) (ℕ × ℕ × Payload K S)} {a₂ a' : A} {s' : SolveState K S}
    (r : Run (solveServer p almLen) work P max₁ (start st pool a₁) n s) (f : s.phase = .finished)
    (e : s.data.data.empty = true)
    (r' : solveSingle p getLen work max₂ fuel 0 a₂ st = some (.ok (s', a')))
    (e' : s'.data.empty = true) :
    s.data.data.map flat = s'.data.map flat := by
  obtain ⟨k₁, i₁⟩ := SolInv.seq hcorr hini hp hw h₀ (C25_all_answered hpool r (Or.inl f))
  obtain ⟨m, hm⟩ := solveSingle_seq hw hlen (SeqRun.nil (st, [])) r'
  obtain ⟨k₂, i₂⟩ := SolInv.seq hcorr hini hp hw h₀ hm
  have := chainAt_unique (i₁.ended e) (i₂.ended e')
  simp only at i₁ i₂
  rw [this] at i₁
  exact i₁.flat_eq hcorr hp.reachable i₂ e e'

/-! ## C86 -/

/-- The jobs `js` are done one after the other by one process. -/
inductive Works {A : Type*} (p : SolveParams K S) (getLen : A → K)
    (work : A → Item K S → (ℕ × ℕ × Payload K S) × A) :
    A → SolveState K S → List (Item K S) → A → SolveState K S → Prop
  | nil (a : A) (s : SolveState K S) : Works p getLen work a s [] a s
  | cons {a a' : A} {s s₁ s₂ s' : SolveState K S} {j : Item K S} {js : List (Item K S)}
      (ne : s.data.empty = false) (pop : solvePop s = .ok (j, s₁))
      (sub : solveSubmit p (getLen (work a j).2) s₁ (work a j).1 = .ok s₂)
      (rest : Works p getLen work (work a j).2 s₂ js a' s') : Works p getLen work a s (j :: js) a' s'

/-- **C86** Without MPI, `solve` ends when no job is waiting or when `MaxIt` corrections have been done.
Initiations (jobs of level 0) are not counted. -/
theorem C86_maxIt_counts_corrections {A : Type*} {getLen : A → K}
    {work : A → Item K S → (ℕ × ℕ × Payload K S) × A} {maxIt fuel : ℕ} {a a' : A}
    {s s' : SolveState K S} (h : solveSingle p getLen work maxIt fuel 0 a s = some (.ok (s', a'))) :
    ∃ js, Works p getLen work a s js a' s' ∧ js.countP (fun j => j.level ≠ 0) ≤ maxIt ∧
      (s'.data.empty = true ∨ js.countP (fun j => j.level ≠ 0) = maxIt) := by
  have key : ∀ (fuel it : ℕ) (a : A) (s : SolveState K S), it ≤ maxIt →
      solveSingle p getLen work maxIt fuel it a s = some (.ok (s', a')) →
      ∃ js, Works p getLen work a s js a' s' ∧ it + js.countP (fun j => j.level ≠ 0) ≤ maxIt ∧
        (s'.data.empty = true ∨ it + js.countP (fun j => j.level ≠ 0) = maxIt) := by
    intro fuel
    induction fuel with
    | zero => intro it a s _ h; simp [solveSingle] at h
    | succ fuel ih =>
      intro it a s hit h
      simp only [solveSingle] at h
      split at h
      · rename_i hc
        simp only [Option.some.injEq, Except.ok.injEq, Prod.mk.injEq] at h
        obtain ⟨rfl, rfl⟩ := h
        refine ⟨[], .nil _ _, by simpa using hit, ?_⟩
        rcases hc with hc | hc
        · exact .inl hc
        · exact .inr (by simp only [List.countP_nil]; omega)
      · rename_i hc
        push Not at hc
        split at h
        · simp at h
        · rename_i j s₁ hpop
          split at h
          · simp at h
          · rename_i s₂ hsub
            obtain ⟨js, h1, h2, h3⟩ := ih _ _ _ (by split <;> omega) h
            refine ⟨j :: js, .cons (by simpa using hc.1) hpop hsub h1, ?_⟩
            rw [List.countP_cons]
            by_cases hj : j.level = 0
            · simp only [hj, if_true, ne_eq, not_true, decide_false, Bool.false_eq_true, if_false,
                add_zero] at h2 h3 ⊢
              exact ⟨h2, h3⟩
            · simp only [hj, if_false, ne_eq, not_false_iff, decide_true, if_true] at h2 h3 ⊢
              exact ⟨by omega, by rcases h3 with h3 | h3; exacts [.inl h3, .inr (by omega)]⟩
  obtain ⟨js, h1, h2, h3⟩ := key fuel 0 a s (Nat.zero_le _) h
  exact ⟨js, h1, by simpa using h2, by simpa using h3⟩

/-! ## C22 -/

/-- Solutions of `n` successive steps of the same length. -/
def stepSeq (ini : Initiator K S) (len : K) : ℕ → S → S → List S
  | 0, _, _ => []
  | n + 1, start, prev =>
    (ini len start prev).sols.headD start ::
      stepSeq ini len n ((ini len start prev).sols.headD start) start

theorem stepSeq_length (ini : Initiator K S) (len : K) (n : ℕ) (a b : S) :
    (stepSeq ini len n a b).length = n := by
  induction n generalizing a b with
  | zero => rfl
  | succ n ih => simp [stepSeq, ih]

theorem next_none {n : ℤ} {bm lb : K} {c : Chain K S} (h : c.live = none) (k : ℕ) :
    (Chain.next ini n bm lb)^[k] c = c := by
  have : Chain.next ini n bm lb c = c := by rw [Chain.next, h]
  exact Function.iterate_fixed this k

theorem chain_no_bifurcation (hb : ∀ dt s q, (ini dt s q).bifurcation = false) (n : ℤ) (bm lb : K)
    (k : ℕ) (c : Chain K S) (v : Live K S) (hd : c.done = []) (hv : c.live = some v)
    (hk : ((Chain.next ini n bm lb)^[k] c).live = none) :
    ((Chain.next ini n bm lb)^[k] c).done = [] ∧ ((Chain.next ini n bm lb)^[k] c).start0 = c.start0 ∧
    ((Chain.next ini n bm lb)^[k] c).pts.map Prod.snd =
      c.pts.map Prod.snd ++ stepSeq ini v.len (max (n - v.steps) 1).toNat v.start v.prev := by
  induction k generalizing c v with
  | zero => simp [hv] at hk
  | succ k ih =>
    rw [Function.iterate_succ_apply] at hk ⊢
    by_cases hN : (v.steps : ℤ) < n - 1
    · have hc : Chain.next ini n bm lb c = ⟨[], c.start0,
          c.pts ++ [((ini v.len v.start v.prev).distance, (ini v.len v.start v.prev).sols.headD v.start)],
          some ⟨v.steps + 1, v.len, (ini v.len v.start v.prev).sols.headD v.start, v.start⟩⟩ := by
        unfold Chain.next
        rw [hv]
        simp [hN, hb, hd]
      rw [hc] at hk ⊢
      obtain ⟨h1, h2, h3⟩ := ih _ _ rfl rfl hk
      refine ⟨h1, h2, ?_⟩
      rw [h3]
      have : (max (n - v.steps) 1).toNat = (max (n - ((v.steps + 1 : ℕ) : ℤ)) 1).toNat + 1 := by
        push_cast
        omega
      rw [this, stepSeq]
      simp
    · have hc : Chain.next ini n bm lb c = ⟨[], c.start0,
          c.pts ++ [((ini v.len v.start v.prev).distance, (ini v.len v.start v.prev).sols.headD v.start)],
          none⟩ := by
        unfold Chain.next
        rw [hv]
        simp [hN, hd]
      rw [hc] at hk ⊢
      rw [next_none rfl]
      refine ⟨rfl, rfl, ?_⟩
      have : (max (n - v.steps) 1).toNat = 1 := by omega
      rw [this]
      simp [stepSeq]

/-- **C22** Without bifurcations a `solve(N)`, with any number of processes and any order of events,
ends with one branch, whose points of level 0 are the start and `max(N-1,1)` successive steps. -/
theorem C22_points {A : Type*} (hcorr : CorrOK corr) (hini : InitOK ini)
    (hb : ∀ dt s q, (ini dt s q).bifurcation = false)
    (hp : FreshParams p) {work : A → Item K S → (ℕ × ℕ × Payload K S) × A}
    (hw : ∀ a i, (work a i).1 = solveWork ini corr i) {almLen : K} {s₀ : S} {len : K}
    {st : SolveState K S} (h₀ : solveStart p [] [(s₀, len)] = .ok st) {P maxIt : ℕ} {pool : List ℕ}
    (hpool : ∀ w ∈ pool, w ∈ ranks P) {a : ℕ → A} {n : ℕ}
    {s : State (SolveState K S) A (Item K S) (ℕ × ℕ × Payload K S)}
    (r : Run (solveServer p almLen) work P maxIt (start st pool a) n s)
    (f : s.phase = .finished) (e : s.data.data.empty = true) :
    ∃ d, s.data.data = [d] ∧
      coarse d = s₀ :: stepSeq ini len (max (p.nSteps - 1) 1).toNat s₀ s₀ := by
  obtain ⟨k, i⟩ := SolInv.seq hcorr hini hp hw h₀ (C25_all_answered hpool r (Or.inl f))
  have hend := i.ended e
  obtain ⟨h1, h2, h3⟩ := chain_no_bifurcation hb p.nSteps p.bifMult
    (almLen * p.branchMult * p.bifMult) k (Chain.init s₀ len) ⟨1, len, s₀, s₀⟩ rfl rfl hend
  have hl := i.len
  simp only at hl
  rw [chainAt, h1] at hl
  obtain ⟨d, hd⟩ := List.length_eq_one_iff.1 hl
  refine ⟨d, hd, ?_⟩
  obtain ⟨b, hbb, hbok⟩ := i.get (k := 0) (d := d) (by simp [hd])
  have hbe : b = (s₀, (chainAt p ini almLen s₀ len k).pts) := by
    rw [Chain.all, chainAt, h1, h2] at hbb
    simpa [Chain.init, chainAt] using hbb.symm
  rw [hbok.coarse, hbe]
  simp only
  rw [chainAt, h3]
  have : coarse (startState p.empty s₀) = [s₀] := by
    rw [(startState_rep hp.isFresh s₀).coarse_eq]
    rfl
  rw [this]
  simp [Chain.init]

theorem chain_steps (n : ℤ) (bm lb : K) (k : ℕ) (c : Chain K S)
    (h₁ : ∀ b ∈ c.all, (b.2.length : ℤ) ≤ max (n - 1) 1)
    (h₂ : ∀ v, c.live = some v → v.steps = c.pts.length + 1 ∧ (c.pts.length : ℤ) < max (n - 1) 1) :
    ∀ b ∈ ((Chain.next ini n bm lb)^[k] c).all, (b.2.length : ℤ) ≤ max (n - 1) 1 := by
  induction k generalizing c with
  | zero => exact h₁
  | succ k ih =>
    rw [Function.iterate_succ_apply]
    cases hv : c.live with
    | none =>
      have : Chain.next ini n bm lb c = c := by rw [Chain.next, hv]
      rw [this]
      exact ih c h₁ (by simp [hv])
    | some v =>
      obtain ⟨h3, h4⟩ := h₂ v hv
      have hdone : ∀ b ∈ c.done, (b.2.length : ℤ) ≤ max (n - 1) 1 :=
        fun b hb => h₁ b (by simp [Chain.all, hb])
      have hlen : ∀ x : K × S, ((c.pts ++ [x]).length : ℤ) ≤ max (n - 1) 1 := by
        intro x
        simp only [List.length_append, List.length_singleton]
        push_cast
        omega
      refine ih _ ?_ ?_
      · unfold Chain.next
        rw [hv]
        simp only
        split
        · split
          · intro b hb
            simp only [Chain.all, List.mem_append, List.mem_singleton] at hb
            rcases hb with (hb | rfl) | rfl
            · exact hdone b hb
            · exact hlen _
            · simp
          · intro b hb
            simp only [Chain.all, List.mem_append, List.mem_singleton] at hb
            rcases hb with hb | rfl
            · exact hdone b hb
            · exact hlen _
        · intro b hb
          simp only [Chain.all, List.mem_append, List.mem_singleton] at hb
          rcases hb with hb | rfl
          · exact hdone b hb
          · exact hlen _
      · unfold Chain.next
        rw [hv]
        simp only
        split
        · rename_i hN
          split
          · intro w hw
            simp only [Option.some.injEq] at hw
            subst hw
            simp
          · intro w hw
            simp only [Option.some.injEq] at hw
            subst hw
            simp only [List.length_append, List.length_singleton]
            refine ⟨by omega, ?_⟩
            push_cast
            omega
        · simp

/-- **C22** With or without bifurcations, every branch computed by `solve(N)` has at most
`max(N-1,1)` points of level 0 besides its start. -/
theorem C22_points_le {A : Type*} (hcorr : CorrOK corr) (hini : InitOK ini)
    (hp : FreshParams p) {work : A → Item K S → (ℕ × ℕ × Payload K S) × A}
    (hw : ∀ a i, (work a i).1 = solveWork ini corr i) {almLen : K} {s₀ : S} {len : K}
    {st : SolveState K S} (h₀ : solveStart p [] [(s₀, len)] = .ok st) {P maxIt : ℕ} {pool : List ℕ}
    (hpool : ∀ w ∈ pool, w ∈ ranks P) {a : ℕ → A} {n : ℕ}
    {s : State (SolveState K S) A (Item K S) (ℕ × ℕ × Payload K S)}
    (r : Run (solveServer p almLen) work P maxIt (start st pool a) n s) :
    ∀ d ∈ s.data.data, ((coarse d).length : ℤ) ≤ max (p.nSteps - 1) 1 + 1 := by
  obtain ⟨m, out, hr, -⟩ := C25_refines_sequential hpool r
  obtain ⟨k, i⟩ := SolInv.seq hcorr hini hp hw h₀ hr
  intro d hd
  obtain ⟨j, hj⟩ := List.mem_iff_getElem?.1 hd
  obtain ⟨b, hb, hbok⟩ := i.get hj
  have hst : coarse (startState p.empty b.1) = [b.1] := by
    rw [(startState_rep hp.isFresh b.1).coarse_eq]
    rfl
  have := chain_steps (ini := ini) p.nSteps p.bifMult (almLen * p.branchMult * p.bifMult) k
    (Chain.init s₀ len) (by simp [Chain.init, Chain.all])
    (by simp [Chain.init]) b (List.mem_of_getElem? hb)
  rw [hbok.coarse, hst]
  simp only [List.length_append, List.length_map, List.length_singleton]
  push_cast
  omega

/-- **C22** A bifurcation found in the last allowed step does not open a branch: `solve(N)` with
`N ≤ 2` computes one branch. (`serialSolve` does open one, see `C21_bifurcation_in_last_step`.) -/
theorem C22_no_branch_from_last_step {A : Type*} (hcorr : CorrOK corr) (hini : InitOK ini)
    (hp : FreshParams p) {work : A → Item K S → (ℕ × ℕ × Payload K S) × A}
    (hw : ∀ a i, (work a i).1 = solveWork ini corr i) {almLen : K} {s₀ : S} {len : K}
    {st : SolveState K S} (h₀ : solveStart p [] [(s₀, len)] = .ok st) (hN : p.nSteps ≤ 2)
    {P maxIt : ℕ} {pool : List ℕ} (hpool : ∀ w ∈ pool, w ∈ ranks P) {a : ℕ → A} {n : ℕ}
    {s : State (SolveState K S) A (Item K S) (ℕ × ℕ × Payload K S)}
    (r : Run (solveServer p almLen) work P maxIt (start st pool a) n s) :
    s.data.data.length = 1 := by
  obtain ⟨m, out, hr, -⟩ := C25_refines_sequential hpool r
  obtain ⟨k, i⟩ := SolInv.seq hcorr hini hp hw h₀ hr
  have hl := i.len
  simp only at hl
  rw [hl]
  have : (chainAt p ini almLen s₀ len k).done = [] := by
    cases k with
    | zero => rfl
    | succ k =>
      have h1 : Chain.next ini p.nSteps p.bifMult (almLen * p.branchMult * p.bifMult)
          (Chain.init s₀ len) = ⟨[], s₀, [((ini len s₀ s₀).distance, (ini len s₀ s₀).sols.headD s₀)],
            none⟩ := by
        unfold Chain.next Chain.init
        simp only
        rw [if_neg (by push_cast; omega)]
        rfl
      rw [chainAt, Function.iterate_succ_apply, h1, next_none rfl]
  rw [this]
  rfl

/-! ## Examples and counterexamples -/

/-- Parameters: branches of at most one level of refinement, `N = 3`. -/
def sampleParams (bm bf : ℚ) : SolveParams ℚ ℕ := ⟨Data.fresh 1 (1/10) 1, 3, bm, bf⟩

theorem sampleParams_fresh (bm bf : ℚ) : FreshParams (sampleParams bm bf) := ⟨1, 1/10, 1, rfl⟩

/-- Initiations which report a bifurcation at the given solutions. -/
def sampleIni (at_ : List ℕ) : Initiator ℚ ℕ := fun dt start prev =>
  if start ∈ at_ then ⟨if 0 < dt then dt else 1, [start + 2 * prev + 1, start + 50], true⟩
  else ⟨if 0 < dt then dt else 1, [start + 2 * prev + 1], false⟩

theorem sampleIni_ok (l : List ℕ) : InitOK (sampleIni l) := by
  intro dt start prev
  unfold sampleIni
  split
  · refine ⟨?_, by simp, fun _ => ⟨_, _, rfl⟩⟩
    simp only
    split
    · assumption
    · norm_num
  · refine ⟨?_, fun _ => ⟨_, rfl⟩, by simp⟩
    simp only
    split
    · assumption
    · norm_num

/-- A worker; its state is the length of the last step, as in `_initiation` and `_correction`
(`gsAPALM.hpp` 950-952, 1045-1048). -/
def sampleSolveWork (l : List ℕ) (_ : ℚ) (i : Item ℚ ℕ) : (ℕ × ℕ × Payload ℚ ℕ) × ℚ :=
  (solveWork (sampleIni l) sampleCorr i, i.job.dt)

/-- `n` jobs, one after the other on process 1, and the stop messages. -/
def oneByOne (n : ℕ) : List Label :=
  (List.replicate n [Label.dispatch 1, .recvJob 1, .compute 1, .sendResult 1, .receive 1]).flatten ++
    [.stop, .sendStop 1, .leave, .recvStop 1]

/-- Three processes: corrections overlap the following initiation and are received late. -/
def overlapped : List Label :=
  [.dispatch 1, .recvJob 1, .compute 1, .sendResult 1, .receive 1,
   .dispatch 2, .dispatch 1, .recvJob 1, .recvJob 2, .compute 2, .sendResult 2, .receive 2,
   .dispatch 2, .recvJob 2, .compute 2, .sendResult 2, .receive 2, .compute 1, .sendResult 1, .receive 1,
   .stop, .sendStop 1, .recvStop 1, .sendStop 2, .leave, .recvStop 2]

/-- Final state of an execution of `solve` with the sample workers. -/
def sampleRun (p : SolveParams ℚ ℕ) (l : List ℕ) (P : ℕ) (labels : List Label) :
    Option (State (SolveState ℚ ℕ) ℚ (Item ℚ ℕ) (ℕ × ℕ × Payload ℚ ℕ)) :=
  match solveStart p [] [(0, 1)] with
  | .ok st => fireAll (solveServer p 1) (sampleSolveWork l) P 100 (start st (ranks P) fun _ => 1) labels
  | .error _ => none

/-- Has the loop ended with nothing waiting? -/
def endedB (s : State (SolveState ℚ ℕ) ℚ (Item ℚ ℕ) (ℕ × ℕ × Payload ℚ ℕ)) : Bool :=
  s.data.data.empty && (match s.phase with | .finished => true | _ => false)

theorem endedB_iff {s : State (SolveState ℚ ℕ) ℚ (Item ℚ ℕ) (ℕ × ℕ × Payload ℚ ℕ)} (h : endedB s = true) :
    s.phase = .finished ∧ s.data.data.empty = true := by
  simp only [endedB, Bool.and_eq_true] at h
  refine ⟨?_, h.1⟩
  have := h.2
  revert this
  cases s.phase <;> simp

theorem sampleRun_run {p : SolveParams ℚ ℕ} {l : List ℕ} {P : ℕ} {labels : List Label}
    {s : State (SolveState ℚ ℕ) ℚ (Item ℚ ℕ) (ℕ × ℕ × Payload ℚ ℕ)} (h : sampleRun p l P labels = some s) :
    ∃ st n, solveStart p [] [(0, 1)] = .ok st ∧
      Run (solveServer p 1) (sampleSolveWork l) P 100 (start st (ranks P) fun _ => 1) n s := by
  unfold sampleRun at h
  split at h
  · rename_i st hst
    exact ⟨st, _, hst, fireAll_run h⟩
  · simp at h

/-- `C22_points`, `C22_points_le` and `C23_no_failure_partial` apply to a complete execution with three
processes. -/
example : ∃ st n s, CorrOK sampleCorr ∧ InitOK (sampleIni []) ∧
    (∀ dt s q, (sampleIni [] dt s q).bifurcation = false) ∧ FreshParams (sampleParams 1 1) ∧
    (∀ a i, (sampleSolveWork [] a i).1 = solveWork (sampleIni []) sampleCorr i) ∧
    solveStart (sampleParams 1 1) [] [(0, 1)] = .ok st ∧
    Run (solveServer (sampleParams 1 1) 1) (sampleSolveWork []) 3 100 (start st (ranks 3) fun _ => 1) n s ∧
    s.phase = .finished ∧ s.data.data.empty = true ∧
    s.data.data.map coarse = [0 :: stepSeq (sampleIni []) 1 2 0 0] := by
  have h : (sampleRun (sampleParams 1 1) [] 3 overlapped).any (fun s =>
      endedB s && decide (s.data.data.map coarse = [0 :: stepSeq (sampleIni []) 1 2 0 0])) = true := by
    decide +kernel
  simp only [Option.any_eq_true, Bool.and_eq_true, decide_eq_true_eq] at h
  obtain ⟨s, hs, h1, h2⟩ := h
  obtain ⟨st, n, h3, h4⟩ := sampleRun_run hs
  obtain ⟨h5, h6⟩ := endedB_iff h1
  exact ⟨st, n, s, sampleCorr_ok, sampleIni_ok _, by simp [sampleIni], sampleParams_fresh _ _,
    fun _ _ => rfl, h3, h4, h5, h6, h2⟩

/-- `C73_schedule_independence` applies to executions with two and with three processes. -/
example : ∃ st n₁ n₂ s₁ s₂, solveStart (sampleParams 1 1) [] [(0, 1)] = .ok st ∧
    Run (solveServer (sampleParams 1 1) 1) (sampleSolveWork []) 2 100 (start st (ranks 2) fun _ => 1)
      n₁ s₁ ∧
    Run (solveServer (sampleParams 1 1) 1) (sampleSolveWork []) 3 100 (start st (ranks 3) fun _ => 1)
      n₂ s₂ ∧
    s₁.phase = .finished ∧ s₂.phase = .finished ∧ s₁.data.data.empty = true ∧
    s₂.data.data.empty = true ∧ (s₁.data.data.map flat).map List.length = [7] := by
  have h₁ : (sampleRun (sampleParams 1 1) [] 2 (oneByOne 4)).any (fun s =>
      endedB s && decide ((s.data.data.map flat).map List.length = [7])) = true := by
    decide +kernel
  have h₂ : (sampleRun (sampleParams 1 1) [] 3 overlapped).any endedB = true := by decide +kernel
  simp only [Option.any_eq_true, Bool.and_eq_true, decide_eq_true_eq] at h₁ h₂
  obtain ⟨s₁, hs₁, h1, h2⟩ := h₁
  obtain ⟨s₂, hs₂, h3⟩ := h₂
  obtain ⟨st, n₁, h4, h5⟩ := sampleRun_run hs₁
  obtain ⟨st', n₂, h6, h7⟩ := sampleRun_run hs₂
  rw [h4, Except.ok.injEq] at h6
  subst h6
  exact ⟨st, n₁, n₂, s₁, s₂, h4, h5, h7, (endedB_iff h1).1, (endedB_iff h3).1, (endedB_iff h1).2,
    (endedB_iff h3).2, h2⟩

/-- **C73** violated: `solve` without MPI measures the length of a new branch with the solver that made
the last step, `solve` with MPI with the one of the main process. With `BranchLengthMultiplier = 1/2` and
bifurcations in the first steps of the first two branches, the third branch differs. -/
theorem C73_violated_single_process :
    ∃ (p : SolveParams ℚ ℕ) (ini : Initiator ℚ ℕ) (st : SolveState ℚ ℕ) (n : ℕ)
      (s : State (SolveState ℚ ℕ) ℚ (Item ℚ ℕ) (ℕ × ℕ × Payload ℚ ℕ)) (s' : SolveState ℚ ℕ) (a' : ℚ),
      FreshParams p ∧ InitOK ini ∧ CorrOK sampleCorr ∧
      solveStart p [] [(0, 1)] = .ok st ∧
      Run (solveServer p 1) (fun _ i => (solveWork ini sampleCorr i, i.job.dt)) 2 100
        (start st (ranks 2) fun _ => 1) n s ∧ s.phase = .finished ∧ s.data.data.empty = true ∧
      solveSingle p id (fun _ i => (solveWork ini sampleCorr i, i.job.dt)) 100 100 0 1 st =
        some (.ok (s', a')) ∧ s'.data.empty = true ∧
      s.data.data.map flat ≠ s'.data.map flat := by
  have h : (sampleRun (sampleParams (1/2) 1) [0, 50] 2 (oneByOne 8)).any (fun s => endedB s &&
      (match solveStart (sampleParams (1/2) 1) [] [(0, 1)] with
       | .ok st =>
         (match solveSingle (sampleParams (1/2) 1) id (sampleSolveWork [0, 50]) 100 100 0 1 st with
          | some (.ok x) => x.1.data.empty && decide (s.data.data.map flat ≠ x.1.data.map flat)
          | _ => false)
       | .error _ => false)) = true := by
    decide +kernel
  simp only [Option.any_eq_true, Bool.and_eq_true] at h
  obtain ⟨s, hs, h1, h2⟩ := h
  obtain ⟨st, n, h3, h4⟩ := sampleRun_run hs
  rw [h3] at h2
  simp only at h2
  split at h2
  · rename_i x hx
    simp only [Bool.and_eq_true, decide_eq_true_eq] at h2
    exact ⟨_, sampleIni [0, 50], st, n, s, x.1, x.2, sampleParams_fresh _ _, sampleIni_ok _,
      sampleCorr_ok, h3, h4, (endedB_iff h1).1, (endedB_iff h1).2, hx, h2.1, h2.2⟩
  · simp at h2

/-- `C73_equals_single_process_partial` applies if nothing bifurcates. -/
example : ∃ st n s s' a', (∀ (a : ℚ) i, i.level = 0 →
      (sampleIni [] i.job.dt i.job.start i.job.prev).bifurcation = true →
      id (sampleSolveWork [] a i).2 = 1) ∧ solveStart (sampleParams 1 1) [] [(0, 1)] = .ok st ∧
    Run (solveServer (sampleParams 1 1) 1) (sampleSolveWork []) 3 100 (start st (ranks 3) fun _ => 1)
      n s ∧ s.phase = .finished ∧ s.data.data.empty = true ∧
    solveSingle (sampleParams 1 1) id (sampleSolveWork []) 100 100 0 1 st = some (.ok (s', a')) ∧
    s'.data.empty = true := by
  have h : (sampleRun (sampleParams 1 1) [] 3 overlapped).any (fun s => endedB s &&
      (match solveStart (sampleParams 1 1) [] [(0, 1)] with
       | .ok st =>
         (match solveSingle (sampleParams 1 1) id (sampleSolveWork []) 100 100 0 1 st with
          | some (.ok x) => x.1.data.empty
          | _ => false)
       | .error _ => false)) = true := by
    decide +kernel
  simp only [Option.any_eq_true, Bool.and_eq_true] at h
  obtain ⟨s, hs, h1, h2⟩ := h
  obtain ⟨st, n, h3, h4⟩ := sampleRun_run hs
  rw [h3] at h2
  simp only at h2
  split at h2
  · rename_i x hx
    exact ⟨st, n, s, x.1, x.2, by simp [sampleIni], h3, h4, (endedB_iff h1).1, (endedB_iff h1).2, hx, h2⟩
  · simp at h2

/-- **C23** violated: the loop over `m_starts` is written for several starts, but the step counters have
one entry; with two starts they are read out of range as soon as the first branch is complete. (The
public functions store one start at a time; two can be left behind by an exception in `serialSolve`.) -/
theorem C23_violated_two_starts :
    ∃ (p : SolveParams ℚ ℕ) (ini : Initiator ℚ ℕ) (st : SolveState ℚ ℕ), FreshParams p ∧ InitOK ini ∧
      CorrOK sampleCorr ∧ solveStart p [] [(0, 1), (7, 1)] = .ok st ∧
      solveSingle p id (fun _ i => (solveWork ini sampleCorr i, i.job.dt)) 100 100 0 1 st =
        some (.error .ub) := by
  have h : (match solveStart (sampleParams 1 1) [] [(0, 1), (7, 1)] with
       | .ok st =>
         (match solveSingle (sampleParams 1 1) id (sampleSolveWork []) 100 100 0 1 st with
          | some (.error .ub) => true
          | _ => false)
       | .error _ => false) = true := by
    decide +kernel
  split at h
  · rename_i st hst
    split at h
    · rename_i hx
      exact ⟨_, sampleIni [], st, sampleParams_fresh _ _, sampleIni_ok _, sampleCorr_ok, hst, hx⟩
    · simp at h
  · simp at h

/-- `C23_violated_second_call` applies to a container with a finished branch. -/
example : ∃ c : Container ℚ ℕ, c ≠ [] ∧ (∀ d ∈ c, d.queue = []) ∧ CorrOK sampleCorr ∧
    InitOK (sampleIni []) ∧ FreshParams (sampleParams 1 1) := by
  have h : (sampleRun (sampleParams 1 1) [] 2 (oneByOne 4)).any (fun s =>
      decide (s.data.data ≠ [] ∧ ∀ d ∈ s.data.data, d.queue = [])) = true := by
    decide +kernel
  simp only [Option.any_eq_true, decide_eq_true_eq] at h
  obtain ⟨s, -, h1, h2⟩ := h
  exact ⟨s.data.data, h1, h2, sampleCorr_ok, sampleIni_ok _, sampleParams_fresh _ _⟩

/-- C86: with `MaxIt = 1`, `solve` ends after its first correction, with five points and jobs waiting. -/
example : ∃ st s' a', solveStart (sampleParams 1 1) [] [(0, 1)] = .ok st ∧
    solveSingle (sampleParams 1 1) id (sampleSolveWork []) 1 100 0 1 st = some (.ok (s', a')) ∧
    s'.data.empty = false ∧ (s'.data.map fun d => (flat d).length) = [5] := by
  have h : (match solveStart (sampleParams 1 1) [] [(0, 1)] with
       | .ok st =>
         (match solveSingle (sampleParams 1 1) id (sampleSolveWork []) 1 100 0 1 st with
          | some (.ok x) => decide (x.1.data.empty = false ∧ (x.1.data.map fun d => (flat d).length) = [5])
          | _ => false)
       | .error _ => false) = true := by
    decide +kernel
  split at h
  · rename_i st hst
    split at h
    · rename_i x hx
      simp only [decide_eq_true_eq] at h
      exact ⟨st, x.1, x.2, hst, hx, h.1, h.2⟩
    · simp at h
  · simp at h

end GsSA.APALM
