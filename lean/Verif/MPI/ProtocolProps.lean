import Verif.MPI.Exec

/-!
# Properties of the main / worker protocol (C25, C26, C28)

They hold for every server (data of the main process), every kind of work, every number of processes,
every iteration limit and every timing.
-/

namespace GsSA.MPI

open GsSA

variable {D A J R : Type*} {sv : Server D J R} {work : A → J → R × A} {P maxIt : ℕ}

/-! ## C25 -/

/-- C25: whatever the timing, the main data is what some sequential execution produces in which every
answer is the result of working on a job handed out before and not answered before. The number of jobs
handed out is `it`, the number of those without answer is `njobs`. -/
theorem C25_refines_sequential {d : D} {pool : List ℕ} (hp : ∀ w ∈ pool, w ∈ ranks P) {a : ℕ → A}
    {n : ℕ} {s : State D A J R} (r : Run sv work P maxIt (start d pool a) n s) :
    ∃ m out, SeqRun sv work (d, []) s.it m (s.data, out) ∧ m + out.length = s.it ∧
      s.njobs = out.length := by
  obtain ⟨out, h⟩ := (PInv.start sv work P maxIt d pool a).run hp r
  obtain ⟨m, h1, h2⟩ := h.seq
  exact ⟨m, out.map Prod.snd, h1, by simpa using h2, by simpa using h.jobs⟩

/-- C25: when the main process has left its loop every job handed out has been answered and stored
exactly once. -/
theorem C25_all_answered {d : D} {pool : List ℕ} (hp : ∀ w ∈ pool, w ∈ ranks P) {a : ℕ → A}
    {n : ℕ} {s : State D A J R} (r : Run sv work P maxIt (start d pool a) n s)
    (hph : s.phase = .finished ∨ ∃ l, s.phase = .stopping l) :
    SeqRun sv work (d, []) s.it s.it (s.data, []) := by
  obtain ⟨out, h⟩ := (PInv.start sv work P maxIt d pool a).run hp r
  have ho : out = [] := h.done (by rcases hph with e | ⟨l, e⟩ <;> simp [e, Phase.done])
  obtain ⟨m, h1, h2⟩ := h.seq
  subst ho
  simp only [List.length_nil, Nat.add_zero] at h2
  subst h2
  exact h1

/-- C25: the main process leaves its loops only if there is no job left or the limit is reached,
provided there is a worker. -/
theorem C25_left_only_when_done {d : D} {pool : List ℕ} (hp : ∀ w ∈ pool, w ∈ ranks P)
    (hne : pool ≠ []) {a : ℕ → A} {n : ℕ} {s : State D A J R}
    (r : Run sv work P maxIt (start d pool a) n s)
    (hph : s.phase = .finished ∨ ∃ l, s.phase = .stopping l) :
    sv.empty s.data = true ∨ s.it = maxIt := by
  have key : ∀ {n : ℕ} {s : State D A J R}, Run sv work P maxIt (start d pool a) n s →
      s.phase.done → ¬ mayDispatch sv maxIt s := by
    intro n s r
    generalize hs : start d pool a = s₀ at r
    induction r with
    | nil => subst hs; intro h; simp [start, Phase.done] at h
    | snoc r' st ih =>
      intro hd
      cases st with
      | dispatch hph => simp [hph, Phase.done] at hd
      | dispatchFail => simp [Phase.done] at hd
      | receive hph => simp [hph, Phase.done] at hd
      | receiveFail => simp [Phase.done] at hd
      | stop hph hm hn => exact hm
      | sendStop hph => exact ih (by simp [hph, Phase.done])
      | leave hph => exact ih (by simp [hph, Phase.done])
      | recvJob => exact ih hd
      | recvStop => exact ih hd
      | compute => exact ih hd
      | sendResult => exact ih hd
  have hd : s.phase.done := by rcases hph with e | ⟨l, e⟩ <;> simp [e, Phase.done]
  obtain ⟨out, h⟩ := (PInv.start sv work P maxIt d pool a).run hp r
  have ho := h.done hd
  have hpool := h.pool
  rw [ho] at hpool
  simp only [List.map_nil, List.append_nil] at hpool
  have hm := key r hd
  unfold mayDispatch at hm
  by_cases he : sv.empty s.data = true
  · exact Or.inl he
  · right
    have he' : sv.empty s.data = false := by simpa using he
    have hq : s.pool ≠ [] := by
      intro e; rw [e] at hpool; exact hne hpool.nil_eq.symm
    have := h.it
    by_contra hne'
    exact hm ⟨he', by omega, hq⟩

/-! ## C26 -/

theorem sum_update {l : List ℕ} (hn : l.Nodup) {f g : ℕ → ℕ} {w : ℕ}
    (h : ∀ u, u ≠ w → f u = g u) :
    (l.map f).sum + (if w ∈ l then g w else 0) = (l.map g).sum + (if w ∈ l then f w else 0) := by
  induction l with
  | nil => simp
  | cons x l ih =>
    have ih := ih (List.nodup_cons.1 hn).2
    have hx := (List.nodup_cons.1 hn).1
    by_cases hxw : x = w
    · subst hxw
      simp only [hx, if_false] at ih
      simp
      omega
    · have := h x hxw
      have e : (w ∈ x :: l) ↔ w ∈ l := by simp [Ne.symm hxw]
      simp only [List.map_cons, List.sum_cons, e]
      omega

/-- Weight of a message to a worker: number of steps it can still cause. -/
def msgWeight : Option J → ℕ
  | some _ => 4
  | none => 1

/-- Weight of a worker. -/
def Worker.weight : Worker A J R → ℕ
  | .busy _ _ => 3
  | .sending _ _ => 2
  | _ => 0

/-- Weight of the position of the main process. -/
def Phase.weight (P : ℕ) : Phase → ℕ
  | .running => 2 * (P - 1) + 2
  | .stopping l => 2 * l.length + 1
  | _ => 0

/-- Steps a worker can still cause. -/
def State.load (s : State D A J R) (w : ℕ) : ℕ :=
  ((s.toW w).map msgWeight).sum + (s.workers w).weight + (s.fromW w).length

/-- Steps which can still be taken without handing out further jobs. -/
def State.weight (P : ℕ) (s : State D A J R) : ℕ :=
  ((ranks P).map s.load).sum + s.phase.weight P

theorem Step.weight {s s' : State D A J R} {l : Label} (st : Step sv work P maxIt s l s') :
    s'.weight P + 1 + 5 * s.it ≤ s.weight P + 5 * s'.it := by
  have hlen : (ranks P).length = P - 1 := by simp [ranks]
  have other : ∀ {w : ℕ}, (∀ u, u ≠ w → s'.load u = s.load u) →
      ((ranks P).map s'.load).sum + (if w ∈ ranks P then s.load w else 0) =
        ((ranks P).map s.load).sum + (if w ∈ ranks P then s'.load w else 0) :=
    fun h => sum_update (ranks_nodup P) h
  cases st with
  | @dispatch w ws j d hph hm hpool hpop =>
    have h := other (w := w) (by intro u hu; simp [State.load, Function.update_of_ne hu])
    simp only [State.weight]
    by_cases hw : w ∈ ranks P
    · simp only [hw, if_true] at h
      simp only [State.load, Function.update_self, List.map_append, List.sum_append, List.map_cons,
        List.map_nil, List.sum_cons, List.sum_nil, msgWeight] at h ⊢
      omega
    · simp only [hw, if_false] at h; omega
  | dispatchFail hph hm hpop =>
    simp only [State.weight, hph, Phase.weight]
    change (List.map s.load (ranks P)).sum + _ + _ + _ ≤ _
    omega
  | @receive w r rs d hph hm hn hw hf hs =>
    have h := other (w := w) (by intro u hu; simp [State.load, Function.update_of_ne hu])
    simp only [State.weight]
    simp only [hw, if_true] at h
    simp only [State.load, Function.update_self, hf, List.length_cons] at h ⊢
    omega
  | receiveFail hph hm hn hw hf hs =>
    simp only [State.weight, hph, Phase.weight]
    change (List.map s.load (ranks P)).sum + _ + _ + _ ≤ _
    omega
  | stop hph hm hn =>
    simp only [State.weight, hph, Phase.weight, hlen]
    change (List.map s.load (ranks P)).sum + _ + _ + _ ≤ _
    omega
  | @sendStop w l hph =>
    have h := other (w := w) (by intro u hu; simp [State.load, Function.update_of_ne hu])
    simp only [State.weight, hph, Phase.weight, List.length_cons]
    by_cases hw : w ∈ ranks P
    · simp only [hw, if_true] at h
      simp only [State.load, Function.update_self, List.map_append, List.sum_append, List.map_cons,
        List.map_nil, List.sum_cons, List.sum_nil, msgWeight] at h ⊢
      omega
    · simp only [hw, if_false] at h; omega
  | leave hph =>
    simp only [State.weight, hph, Phase.weight, List.length_nil]
    change (List.map s.load (ranks P)).sum + _ + _ + _ ≤ _
    omega
  | @recvJob w a j q hw ha hq =>
    have h := other (w := w) (by intro u hu; simp [State.load, Function.update_of_ne hu])
    simp only [State.weight]
    simp only [hw, if_true] at h
    simp only [State.load, Function.update_self, ha, hq, List.map_cons, List.sum_cons, msgWeight,
      Worker.weight] at h ⊢
    omega
  | @recvStop w a q hw ha hq =>
    have h := other (w := w) (by intro u hu; simp [State.load, Function.update_of_ne hu])
    simp only [State.weight]
    simp only [hw, if_true] at h
    simp only [State.load, Function.update_self, ha, hq, List.map_cons, List.sum_cons, msgWeight,
      Worker.weight] at h ⊢
    omega
  | @compute w a j hw ha =>
    have h := other (w := w) (by intro u hu; simp [State.load, Function.update_of_ne hu])
    simp only [State.weight]
    simp only [hw, if_true] at h
    simp only [State.load, Function.update_self, ha, Worker.weight] at h ⊢
    omega
  | @sendResult w a r hw ha =>
    have h := other (w := w) (by intro u hu; simp [State.load, Function.update_of_ne hu])
    simp only [State.weight]
    simp only [hw, if_true] at h
    simp only [State.load, Function.update_self, ha, Worker.weight, List.length_append,
      List.length_cons, List.length_nil] at h ⊢
    omega

/-- C26: an execution in which `it` jobs have been handed out has at most `5 it + 2 P` steps
(of all processes together). -/
theorem C26_steps_bounded {d : D} {pool : List ℕ} {a : ℕ → A}
    {n : ℕ} {s : State D A J R} (r : Run sv work P maxIt (start d pool a) n s) :
    n ≤ 5 * s.it + 2 * (P - 1) + 2 := by
  have key : n + s.weight P ≤ 5 * s.it + (2 * (P - 1) + 2) := by
    generalize hs : start d pool a = s₀ at r
    induction r with
    | nil =>
      subst hs
      have : (List.map (start d pool a : State D A J R).load (ranks P)).sum = 0 := by
        have e : (start d pool a : State D A J R).load = fun _ => 0 := by
          funext w; rfl
        rw [e]
        induction ranks P with
        | nil => rfl
        | cons _ _ ih => simp
      simp only [State.weight, this]
      simp [start, Phase.weight]
    | snoc r' st ih =>
      have := ih
      have := st.weight
      omega
  omega

/-- C26: there is no infinite execution. -/
theorem C26_terminates {d : D} {pool : List ℕ} (hp : ∀ w ∈ pool, w ∈ ranks P) {a : ℕ → A}
    (f : ℕ → State D A J R) (h0 : f 0 = start d pool a) :
    ∃ i, ∀ l, ¬ Step sv work P maxIt (f i) l (f (i + 1)) := by
  by_contra hcon
  push Not at hcon
  have hr : ∀ i, Run sv work P maxIt (start d pool a) i (f i) := by
    intro i
    induction i with
    | zero => rw [h0]; exact Run.nil _
    | succ i ih =>
      obtain ⟨l, hl⟩ := hcon i
      exact ih.snoc hl
  have h1 := C26_steps_bounded (hr (5 * maxIt + 2 * (P - 1) + 3))
  obtain ⟨out, h⟩ := (PInv.start sv work P maxIt d pool a).run hp
    (hr (5 * maxIt + 2 * (P - 1) + 3))
  have := h.it
  omega

theorem answers_nil_right {js : List J} (h : Answers work js []) : js = [] := by
  cases h; rfl

/-- What a worker with nothing to receive from can do. -/
theorem Desc.worker_moves {s : State D A J R} {w : ℕ} {js : List J}
    (hw : w ∈ ranks P) (h : Desc work (s.workers w) (s.toW w) (s.fromW w) js (s.phase.told w))
    (hf : s.fromW w = []) (hj : js ≠ []) :
    (∃ s', Step sv work P maxIt s (.recvJob w) s') ∨ (∃ s', Step sv work P maxIt s (.compute w) s') ∨
      (∃ s', Step sv work P maxIt s (.sendResult w) s') := by
  rw [hf] at h
  generalize hx : s.workers w = x at h
  generalize hq : s.toW w = q at h
  generalize s.phase.told w = t at h
  cases h with
  | @idle a js qs _ told hr =>
    have := answers_nil_right hr
    subst this
    cases qs with
    | nil => simp at hj
    | cons j qs => exact Or.inl ⟨_, Step.recvJob hw hx hq⟩
  | busy a j told hr => exact Or.inr (Or.inl ⟨_, Step.compute hw hx⟩)
  | sending a b j told hr => exact Or.inr (Or.inr ⟨_, Step.sendResult hw hx⟩)
  | stopped a hr => exact absurd (answers_nil_right hr) hj

/-- What a worker without jobs looks like. -/
theorem Desc.without_jobs {x : Worker A J R} {q : List (Option J)} {rs : List R} {t : Bool}
    (h : Desc work x q rs [] t) :
    rs = [] ∧ ((∃ a, x = .idle a ∧ q = if t then [none] else []) ∨
      (∃ a, x = .stopped a ∧ q = [] ∧ t = true)) := by
  generalize hj : ([] : List J) = js at h
  cases h with
  | @idle a js qs rs told hr =>
    obtain ⟨rfl, rfl⟩ := List.append_eq_nil_iff.1 hj.symm
    cases hr
    exact ⟨rfl, Or.inl ⟨a, rfl, by simp [inbox]⟩⟩
  | busy a j told hr => simp at hj
  | sending a b j told hr => simp at hj
  | stopped a hr =>
    subst hj
    cases hr
    exact ⟨rfl, Or.inr ⟨a, rfl, rfl, rfl⟩⟩

/-- All processes have ended and nothing is in transit. -/
def Ended (P : ℕ) (s : State D A J R) : Prop :=
  s.phase = .finished ∧ ∀ w ∈ ranks P, (∃ a, s.workers w = .stopped a) ∧ s.toW w = [] ∧ s.fromW w = []

theorem progress_running {d : D} {pool : List ℕ} {s : State D A J R} {out : List (ℕ × J)}
    (h : PInv sv work P maxIt d pool s out) (hp : ∀ w ∈ pool, w ∈ ranks P) (hph : s.phase = .running)
    (hm : ¬ mayDispatch sv maxIt s) :
    (∃ s', Step sv work P maxIt s .stop s') ∨
    (∃ w s', Step sv work P maxIt s (.receive w) s') ∨
    (∃ w s', Step sv work P maxIt s (.receiveFail w) s') ∨
    (0 < s.njobs ∧ (∀ w, s.fromW w = []) ∧ ∃ w s', Step sv work P maxIt s (.recvJob w) s' ∨
      Step sv work P maxIt s (.compute w) s' ∨ Step sv work P maxIt s (.sendResult w) s') := by
  by_cases hn : s.njobs = 0
  · exact Or.inl ⟨_, Step.stop hph hm hn⟩
  right
  have hn' : 0 < s.njobs := by omega
  by_cases hf : ∀ w, s.fromW w = []
  · right; right
    refine ⟨hn', hf, ?_⟩
    have hout : out ≠ [] := by rintro rfl; exact hn h.jobs
    obtain ⟨⟨w, j⟩, hx⟩ := List.exists_mem_of_ne_nil _ hout
    have hw : w ∈ ranks P := by
      apply hp
      apply h.pool.subset
      simp only [List.mem_append, List.mem_map]
      exact Or.inr ⟨_, hx, rfl⟩
    rcases (h.desc w hw).worker_moves (sv := sv) (maxIt := maxIt) hw (hf w) (itemsOf_ne_nil hx) with
      ⟨s', hs⟩ | ⟨s', hs⟩ | ⟨s', hs⟩
    · exact ⟨w, s', Or.inl hs⟩
    · exact ⟨w, s', Or.inr (Or.inl hs)⟩
    · exact ⟨w, s', Or.inr (Or.inr hs)⟩
  · push Not at hf
    obtain ⟨w, hw⟩ := hf
    have hwr : w ∈ ranks P := by
      by_contra hc; exact hw (h.quiet w hc).1
    obtain ⟨r, rs, hrs⟩ := List.exists_cons_of_ne_nil hw
    cases hsub : sv.submit s.data r with
    | ok d' => exact Or.inl ⟨w, _, Step.receive hph hm hn' hwr hrs hsub⟩
    | error e => exact Or.inr (Or.inl ⟨w, _, Step.receiveFail hph hm hn' hwr hrs hsub⟩)

theorem progress_finished {d : D} {pool : List ℕ} {s : State D A J R} {out : List (ℕ × J)}
    (h : PInv sv work P maxIt d pool s out) (hph : s.phase = .finished) :
    Ended P s ∨ ∃ w s', Step sv work P maxIt s (.recvStop w) s' := by
  by_cases hall : ∀ w ∈ ranks P, ∃ a, s.workers w = .stopped a
  · left
    refine ⟨hph, fun w hw => ?_⟩
    have hd := h.desc w hw
    rw [h.done (by simp [hph, Phase.done])] at hd
    obtain ⟨a, ha⟩ := hall w hw
    rw [ha] at hd
    obtain ⟨h1, ⟨_, h2, _⟩ | ⟨b, _, h3, _⟩⟩ := hd.without_jobs
    · simp at h2
    · exact ⟨⟨a, ha⟩, h3, h1⟩
  · right
    push Not at hall
    obtain ⟨w, hw, hns⟩ := hall
    have hd := h.desc w hw
    rw [h.done (by simp [hph, Phase.done])] at hd
    obtain ⟨_, ⟨a, h2, h3⟩ | ⟨b, h2, _⟩⟩ := hd.without_jobs
    · simp only [hph, Phase.told, if_true] at h3
      exact ⟨w, _, Step.recvStop hw h2 h3⟩
    · exact absurd h2 (hns b)

/-- C26: no deadlock. In every reachable state some process can take a step, unless everything has
ended properly or the main process has failed. -/
theorem C26_no_deadlock {d : D} {pool : List ℕ} (hp : ∀ w ∈ pool, w ∈ ranks P) {a : ℕ → A}
    {n : ℕ} {s : State D A J R} (r : Run sv work P maxIt (start d pool a) n s) :
    (∃ l s', Step sv work P maxIt s l s') ∨ Ended P s ∨ ∃ e, s.phase = .failed e := by
  obtain ⟨out, h⟩ := (PInv.start sv work P maxIt d pool a).run hp r
  cases hph : s.phase with
  | running =>
    left
    by_cases hm : mayDispatch sv maxIt s
    · obtain ⟨w, ws, hw⟩ := List.exists_cons_of_ne_nil hm.2.2
      cases hpop : sv.pop s.data with
      | ok x =>
        obtain ⟨j, d'⟩ := x
        exact ⟨_, _, Step.dispatch hph hm hw hpop⟩
      | error e => exact ⟨_, _, Step.dispatchFail hph hm hpop⟩
    · rcases progress_running h hp hph hm with ⟨s', x⟩ | ⟨w, s', x⟩ | ⟨w, s', x⟩ |
        ⟨_, _, w, s', x | x | x⟩ <;> exact ⟨_, _, x⟩
  | stopping l =>
    left
    cases l with
    | nil => exact ⟨_, _, Step.leave hph⟩
    | cons w l => exact ⟨_, _, Step.sendStop hph⟩
  | finished =>
    rcases progress_finished h hph with x | ⟨w, s', x⟩
    · exact Or.inr (Or.inl x)
    · exact Or.inl ⟨_, _, x⟩
  | failed e => exact Or.inr (Or.inr ⟨e, rfl⟩)

/-- C26: the same with synchronous sends, in the first call, where every worker is once in the
pool. -/
theorem C26_no_deadlock_synchronous {d : D} {pool : List ℕ} (hp : ∀ w ∈ pool, w ∈ ranks P)
    (hnd : pool.Nodup) {a : ℕ → A} {n : ℕ} {s : State D A J R}
    (r : SyncRun sv work P maxIt (start d pool a) n s) :
    (∃ l s', Ready sv maxIt s l ∧ Step sv work P maxIt s l s') ∨ Ended P s ∨ ∃ e, s.phase = .failed e := by
  obtain ⟨out, h⟩ := (PInv.start sv work P maxIt d pool a).run hp r.run
  cases hph : s.phase with
  | running =>
    left
    by_cases hm : mayDispatch sv maxIt s
    · obtain ⟨w, ws, hw⟩ := List.exists_cons_of_ne_nil hm.2.2
      cases hpop : sv.pop s.data with
      | ok x =>
        obtain ⟨j, d'⟩ := x
        refine ⟨.dispatch w, _, ?_, Step.dispatch hph hm hw hpop⟩
        have hwp : w ∈ ranks P := hp w (h.pool.subset (by simp [hw]))
        have hcount : (itemsOf out w).length = 0 := by
          have h1 := h.pool.count_eq w
          have h2 := List.nodup_iff_count_le_one.1 hnd w
          rw [hw, List.count_append, List.count_cons_self] at h1
          rw [itemsOf_length]
          omega
        have hd := h.desc w hwp
        rw [List.eq_nil_of_length_eq_zero hcount] at hd
        obtain ⟨_, ⟨b, h2, h3⟩ | ⟨b, h2, _, h4⟩⟩ := hd.without_jobs
        · exact ⟨⟨b, h2⟩, by simpa [hph, Phase.told] using h3⟩
        · simp [hph, Phase.told] at h4
      | error e => exact ⟨.dispatchFail, _, trivial, Step.dispatchFail hph hm hpop⟩
    · rcases progress_running h hp hph hm with ⟨s', x⟩ | ⟨w, s', x⟩ | ⟨w, s', x⟩ |
        ⟨hn, hf, w, s', x | x | x⟩
      · exact ⟨.stop, _, trivial, x⟩
      · exact ⟨.receive w, _, trivial, x⟩
      · exact ⟨.receiveFail w, _, trivial, x⟩
      · exact ⟨.recvJob w, _, trivial, x⟩
      · exact ⟨.compute w, _, trivial, x⟩
      · exact ⟨.sendResult w, _, ⟨hph, hm, hn, hf⟩, x⟩
  | stopping l =>
    left
    cases l with
    | nil => exact ⟨.leave, _, trivial, Step.leave hph⟩
    | cons w l =>
      refine ⟨.sendStop w, _, ?_, Step.sendStop hph⟩
      have hwp : w ∈ ranks P := (h.stop _ hph).2 w (by simp)
      have hd := h.desc w hwp
      rw [h.done (by simp [hph, Phase.done])] at hd
      obtain ⟨_, ⟨b, h2, h3⟩ | ⟨b, h2, _, h4⟩⟩ := hd.without_jobs
      · exact ⟨⟨b, h2⟩, by simpa [hph, Phase.told] using h3⟩
      · simp [hph, Phase.told] at h4
  | finished =>
    rcases progress_finished h hph with x | ⟨w, s', x⟩
    · exact Or.inr (Or.inl x)
    · exact Or.inl ⟨.recvStop w, _, trivial, x⟩
  | failed e => exact Or.inr (Or.inr ⟨e, rfl⟩)

/-- C26: after a failure of the main process no worker ever ends. -/
theorem C26_failure_leaves_workers {d : D} {pool : List ℕ} (hp : ∀ w ∈ pool, w ∈ ranks P) {a : ℕ → A}
    {n : ℕ} {s : State D A J R} (r : Run sv work P maxIt (start d pool a) n s) {e : Fail}
    (hph : s.phase = .failed e) : ∀ w ∈ ranks P, ∀ b, s.workers w ≠ .stopped b := by
  obtain ⟨out, h⟩ := (PInv.start sv work P maxIt d pool a).run hp r
  intro w hw b hb
  have hd := h.desc w hw
  rw [hb, hph] at hd
  simp only [Phase.told] at hd
  generalize s.toW w = q at hd
  cases hd

/-! ## C28 -/

/-- Jobs a worker has: waiting for it, being worked on, or with a result on its way. -/
def held (s : State D A J R) (w : ℕ) : ℕ :=
  ((s.toW w).filter Option.isSome).length +
    (match s.workers w with
      | .busy _ _ => 1
      | .sending _ _ => 1
      | _ => 0) + (s.fromW w).length

theorem filter_inbox (qs : List J) (t : Bool) :
    ((inbox qs t).filter Option.isSome).length = qs.length := by
  have : ∀ qs : List J, ((qs.map some).filter Option.isSome).length = qs.length := by
    intro qs
    induction qs with
    | nil => rfl
    | cons q qs ih => simpa using ih
  cases t <;> simp [inbox, this]

theorem Answers.length {js : List J} {rs : List R} (h : Answers work js rs) : js.length = rs.length :=
  List.Forall₂.length_eq h

/-- C28: the number of jobs of a worker and its entries in the pool sum up to its entries in the pool
at the start. -/
theorem C28_held {d : D} {pool : List ℕ} (hp : ∀ w ∈ pool, w ∈ ranks P) {a : ℕ → A}
    {n : ℕ} {s : State D A J R} (r : Run sv work P maxIt (start d pool a) n s) {w : ℕ}
    (hw : w ∈ ranks P) : held s w + s.pool.count w = pool.count w := by
  obtain ⟨out, h⟩ := (PInv.start sv work P maxIt d pool a).run hp r
  have h1 := h.pool.count_eq w
  rw [List.count_append, ← itemsOf_length] at h1
  have h2 : held s w = (itemsOf out w).length := by
    have hd := h.desc w hw
    unfold held
    generalize s.workers w = x at hd ⊢
    generalize s.toW w = q at hd ⊢
    generalize s.fromW w = f at hd ⊢
    generalize itemsOf out w = js at hd ⊢
    generalize s.phase.told w = t at hd
    cases hd with
    | idle a told hr => have := hr.length; simp [filter_inbox]; omega
    | busy a j told hr => have := hr.length; simp [filter_inbox]; omega
    | sending a b j told hr => have := hr.length; simp [filter_inbox]; omega
    | stopped a hr => have := hr.length; simp; omega
  omega

/-- C28: in the first call a worker has at most one job. -/
theorem C28_at_most_one {d : D} {a : ℕ → A} {n : ℕ} {s : State D A J R}
    (r : Run sv work P maxIt (start d (ranks P) a) n s) {w : ℕ} (hw : w ∈ ranks P) : held s w ≤ 1 := by
  have h1 := C28_held (fun _ h => h) r hw
  have h2 := List.nodup_iff_count_le_one.1 (ranks_nodup P) w
  omega

/-- C28: after a call the workers of the pool are those at its start, so that with the workers added
again by the next call (`gsAPALM.hpp` 279-280) each is there twice. -/
theorem C28_pool_after {d : D} {pool : List ℕ} (hp : ∀ w ∈ pool, w ∈ ranks P) {a : ℕ → A}
    {n : ℕ} {s : State D A J R} (r : Run sv work P maxIt (start d pool a) n s)
    (hph : s.phase = .finished) : (s.pool ++ ranks P).Perm (pool ++ ranks P) := by
  obtain ⟨out, h⟩ := (PInv.start sv work P maxIt d pool a).run hp r
  have h1 := h.pool
  rw [h.done (by simp [hph, Phase.done])] at h1
  simp only [List.map_nil, List.append_nil] at h1
  exact h1.append_right _

theorem Desc.head_answer {x : Worker A J R} {q : List (Option J)} {r : R} {rs : List R} {js : List J}
    {t : Bool} (h : Desc work x q (r :: rs) js t) : ∃ j ∈ js, ∃ a, r = (work a j).1 := by
  have key : ∀ {js : List J}, Answers work js (r :: rs) → ∃ j ∈ js, ∃ a, r = (work a j).1 := by
    intro js h
    cases h with
    | cons h _ => exact ⟨_, by simp, h⟩
  cases h with
  | idle a told hr => obtain ⟨j, hj, hx⟩ := key hr; exact ⟨j, by simp [hj], hx⟩
  | busy a i told hr => obtain ⟨j, hj, hx⟩ := key hr; exact ⟨j, by simp [hj], hx⟩
  | sending a b i told hr => obtain ⟨j, hj, hx⟩ := key hr; exact ⟨j, by simp [hj], hx⟩
  | stopped a hr => exact key hr

/-- C25: if the main process fails, then a sequential execution leads to data for which taking out a
job or storing the result of a job handed out fails in the same way. -/
theorem C25_failure_is_sequential {d : D} {pool : List ℕ} (hp : ∀ w ∈ pool, w ∈ ranks P) {a : ℕ → A}
    {n : ℕ} {s : State D A J R} (r : Run sv work P maxIt (start d pool a) n s) {e : Fail}
    (hf : s.phase = .failed e) :
    ∃ k m d' out, SeqRun sv work (d, []) k m (d', out) ∧
      ((sv.empty d' = false ∧ sv.pop d' = .error e) ∨
        ∃ j ∈ out, ∃ b, sv.submit d' (work b j).1 = .error e) := by
  generalize hs : start d pool a = s₀ at r
  induction r with
  | nil => subst hs; simp [start] at hf
  | snoc r' st ih =>
    subst hs
    obtain ⟨out, h⟩ := (PInv.start sv work P maxIt d pool a).run hp r'
    obtain ⟨m, h1, h2⟩ := h.seq
    cases st with
    | dispatch hph => simp [hph] at hf
    | dispatchFail hph hm hpop =>
      simp only [Phase.failed.injEq] at hf
      subst hf
      exact ⟨_, _, _, _, h1, Or.inl ⟨hm.1, hpop⟩⟩
    | receive hph => simp [hph] at hf
    | @receiveFail w r rs e' hph hm hn hwr hfr hsub =>
      simp only [Phase.failed.injEq] at hf
      subst hf
      have hd := h.desc w hwr
      rw [hfr] at hd
      obtain ⟨j, hj, b, rfl⟩ := hd.head_answer
      refine ⟨_, _, _, _, h1, Or.inr ⟨j, ?_, b, hsub⟩⟩
      simp only [itemsOf, List.mem_filterMap, Option.ite_none_right_eq_some, Option.some.injEq] at hj
      obtain ⟨x, hx, -, rfl⟩ := hj
      exact List.mem_map.2 ⟨x, hx, rfl⟩
    | stop => simp at hf
    | sendStop => simp at hf
    | leave => simp at hf
    | recvJob => exact ih hf
    | recvStop => exact ih hf
    | compute => exact ih hf
    | sendResult => exact ih hf

/-! ## Examples -/

/-- A list of numbers to be doubled, and the results. -/
def demoServer : Server (List ℕ × List ℕ) ℕ ℕ where
  empty d := d.1.isEmpty
  pop d := match d.1 with
    | [] => .error .ub
    | j :: js => .ok (j, (js, d.2))
  submit d r := .ok (d.1, d.2 ++ [r])

/-- Doubling; the state counts the jobs. -/
def demoWork (a j : ℕ) : ℕ × ℕ := (2 * j, a + 1)

/-- Three processes, three jobs; the second worker answers first. -/
def demoLabels : List Label :=
  [.dispatch 1, .dispatch 2, .recvJob 2, .compute 2, .recvJob 1, .sendResult 2, .receive 2,
   .dispatch 2, .recvJob 2, .compute 1, .sendResult 1, .compute 2, .sendResult 2, .receive 1,
   .receive 2, .stop, .sendStop 1, .recvStop 1, .sendStop 2, .leave, .recvStop 2]

/-- `C25_refines_sequential`, `C25_all_answered`, `C25_left_only_when_done`, `C26_steps_bounded`, `C26_terminates`,
`C26_no_deadlock`, `C28_held`, `C28_at_most_one`, `C28_pool_after` apply to a complete execution. -/
example : ∃ n s, Run demoServer demoWork 3 10 (start ([1, 2, 3], []) (ranks 3) fun _ => 0) n s ∧
    s.phase.told 1 = true ∧ s.it = 3 ∧ s.data = ([], [4, 2, 6]) ∧ s.pool = [1, 2] := by
  have h : (fireAll demoServer demoWork 3 10 (start ([1, 2, 3], []) (ranks 3) fun _ => 0)
      demoLabels).any (fun s => decide (s.phase.told 1 = true ∧ s.it = 3 ∧
        s.data = ([], [4, 2, 6]) ∧ s.pool = [1, 2])) = true := by decide +kernel
  rw [Option.any_eq_true] at h
  obtain ⟨s, h1, h2⟩ := h
  exact ⟨_, s, fireAll_run h1, by simpa using h2⟩

/-- A server whose last job cannot be taken out. -/
def faultyServer : Server (List ℕ × List ℕ) ℕ ℕ :=
  { demoServer with pop := fun d => match d.1 with
      | j :: j' :: js => .ok (j, (j' :: js, d.2))
      | _ => .error .exc }

/-- `C25_failure_is_sequential`, `C26_failure_leaves_workers`: the third job cannot be taken out while the workers are
at work. -/
example : ∃ n s, Run faultyServer demoWork 4 10 (start ([1, 2, 3], []) (ranks 4) fun _ => 0) n s ∧
    s.phase = .failed .exc ∧ s.it = 2 := by
  have h : (fireAll faultyServer demoWork 4 10 (start ([1, 2, 3], []) (ranks 4) fun _ => 0)
      [.dispatch 1, .dispatch 2, .recvJob 2]).any (fun s => s.phase.isRunning &&
        decide (mayDispatch faultyServer 10 s) && decide (s.data.1 = [3] ∧ s.it = 2)) = true := by decide +kernel
  simp only [Option.any_eq_true, Bool.and_eq_true, decide_eq_true_eq] at h
  obtain ⟨s, h1, ⟨h2, h3⟩, h4, h5⟩ := h
  refine ⟨_, _, (fireAll_run h1).snoc (.dispatchFail (e := .exc) ?_ h3 ?_), rfl, h5⟩
  · revert h2
    cases s.phase <;> simp [Phase.isRunning]
  · simp [faultyServer, h4]

/-- `C26_no_deadlock_synchronous`: a worker has received its job. -/
example : (ranks 3).Nodup ∧ ∃ s, SyncRun demoServer demoWork 3 10 (start ([1, 2, 3], []) (ranks 3) fun _ => 0) 1 s ∧
    s.it = 1 := by
  have st : Step demoServer demoWork 3 10 (start ([1, 2, 3], []) (ranks 3) fun _ => 0) (.dispatch 1) _ :=
    Step.dispatch (w := 1) (ws := [2]) (j := 1) (d := ([2, 3], [])) rfl (by decide +kernel) rfl rfl
  exact ⟨by decide, _, (SyncRun.nil _).snoc (l := .dispatch 1) ⟨⟨0, rfl⟩, rfl⟩ st, rfl⟩

/-- C28: in a second call a worker can have two jobs at once. -/
theorem C28_second_call_two_jobs : ∃ n s,
    Run demoServer demoWork 2 10 (start ([1, 2], []) (ranks 2 ++ ranks 2) fun _ => 0) n s ∧
      held s 1 = 2 := by
  have h : (fireAll demoServer demoWork 2 10 (start ([1, 2], []) (ranks 2 ++ ranks 2) fun _ => 0)
      [.dispatch 1, .dispatch 1]).any (fun s => decide (held s 1 = 2)) = true := by decide +kernel
  rw [Option.any_eq_true] at h
  obtain ⟨s, h1, h2⟩ := h
  exact ⟨_, s, fireAll_run h1, by simpa using h2⟩

/-- C28, C26: with synchronous sends the second call can deadlock: the main process wants to send the
second job to a worker which wants to send the result of the first. -/
theorem C28_second_call_deadlock : ∃ n s,
    SyncRun demoServer demoWork 2 10 (start ([1, 2], []) (ranks 2 ++ ranks 2) fun _ => 0) n s ∧
      s.phase = .running ∧ s.njobs = 1 ∧
      ∀ l s', Ready demoServer 10 s l → ¬ Step demoServer demoWork 2 10 s l s' := by
  let s₀ : State (List ℕ × List ℕ) ℕ ℕ ℕ := start ([1, 2], []) (ranks 2 ++ ranks 2) fun _ => 0
  have hm : mayDispatch demoServer 10 s₀ := by decide +kernel
  have hm1 : (1 : ℕ) ∈ ranks 2 := by decide
  have st1 : Step demoServer demoWork 2 10 s₀ (.dispatch 1) _ :=
    Step.dispatch (w := 1) (ws := [1]) (j := 1) (d := ([2], [])) rfl hm rfl rfl
  have st2 := Step.recvJob (sv := demoServer) (work := demoWork) (P := 2) (maxIt := 10)
    (s := { s₀ with
          data := ([2], [])
          pool := [1]
          it := s₀.it + 1
          njobs := s₀.njobs + 1
          toW := Function.update s₀.toW 1 (s₀.toW 1 ++ [some 1]) }) (w := 1) (a := 0) (j := 1) (q := [])
      hm1 rfl (by simp [s₀, start])
  have st3 := Step.compute (sv := demoServer) (work := demoWork) (P := 2) (maxIt := 10)
    (s := { s₀ with
          data := ([2], [])
          pool := [1]
          it := s₀.it + 1
          njobs := s₀.njobs + 1
          workers := Function.update s₀.workers 1 (.busy 0 1)
          toW := Function.update (Function.update s₀.toW 1 (s₀.toW 1 ++ [some 1])) 1 [] })
      (w := 1) (a := 0) (j := 1) hm1 (by simp)
  refine ⟨3, _, ((((SyncRun.nil s₀).snoc (l := .dispatch 1) ⟨⟨0, rfl⟩, rfl⟩ st1).snoc
    (l := .recvJob 1) trivial st2).snoc (l := .compute 1) trivial st3),
    rfl, rfl, ?_⟩
  have hmd : mayDispatch demoServer 10
      ({ s₀ with
          data := ([2], [])
          pool := [1]
          it := s₀.it + 1
          njobs := s₀.njobs + 1
          workers := Function.update (Function.update s₀.workers 1 (.busy 0 1)) 1 (.sending 1 2)
          toW := Function.update (Function.update s₀.toW 1 (s₀.toW 1 ++ [some 1])) 1 [] } :
        State (List ℕ × List ℕ) ℕ ℕ ℕ) := ⟨rfl, by decide, by simp⟩
  intro l s' hr hs
  have hranks : ∀ w, w ∈ ranks 2 → w = 1 := by intro w hw; simpa [ranks] using hw
  cases hs with
  | dispatch hph hm hpool hpop =>
    obtain ⟨rfl, rfl⟩ := List.cons.inj hpool
    obtain ⟨⟨a, ha⟩, _⟩ := hr
    simp at ha
  | dispatchFail hph hm hpop => simp [demoServer] at hpop
  | receive hph hm => exact hm hmd
  | receiveFail hph hm => exact hm hmd
  | stop hph hm => exact hm hmd
  | sendStop hph => simp [s₀, start] at hph
  | leave hph => simp [s₀, start] at hph
  | recvJob hw ha hq => obtain rfl := hranks _ hw; simp at ha
  | recvStop hw ha hq => obtain rfl := hranks _ hw; simp at ha
  | compute hw ha => obtain rfl := hranks _ hw; simp at ha
  | sendResult hw ha => exact hr.2.1 hmd

end GsSA.MPI
