import Mathlib.Data.List.Nodup
import Mathlib.Data.List.Count
import Mathlib.Tactic.Linarith
import Verif.MPI.Protocol

/-!
# Invariant of the main / worker protocol

The jobs which have been handed out and whose result has not been stored are listed with their
worker. For each worker the list determines what is in transit in both directions.
-/

namespace GsSA.MPI

open GsSA

variable {D A J R : Type*}

/-- The jobs of worker `w` in a list of (worker, job). -/
def itemsOf (out : List (ℕ × J)) (w : ℕ) : List J :=
  out.filterMap fun x => if x.1 = w then some x.2 else none

@[simp] theorem itemsOf_nil (w : ℕ) : itemsOf ([] : List (ℕ × J)) w = [] := rfl

@[simp] theorem itemsOf_append (o₁ o₂ : List (ℕ × J)) (w : ℕ) :
    itemsOf (o₁ ++ o₂) w = itemsOf o₁ w ++ itemsOf o₂ w := by
  simp [itemsOf]

@[simp] theorem itemsOf_cons_self (w : ℕ) (j : J) (o : List (ℕ × J)) :
    itemsOf ((w, j) :: o) w = j :: itemsOf o w := by
  simp [itemsOf]

theorem itemsOf_cons_ne {w v : ℕ} (h : v ≠ w) (j : J) (o : List (ℕ × J)) :
    itemsOf ((v, j) :: o) w = itemsOf o w := by
  simp [itemsOf, h]

theorem itemsOf_eq_cons {out : List (ℕ × J)} {w : ℕ} {j : J} {js : List J}
    (h : itemsOf out w = j :: js) :
    ∃ o₁ o₂, out = o₁ ++ (w, j) :: o₂ ∧ itemsOf o₁ w = [] ∧ itemsOf o₂ w = js := by
  induction out with
  | nil => simp at h
  | cons x out ih =>
    obtain ⟨v, i⟩ := x
    by_cases hv : v = w
    · subst hv
      rw [itemsOf_cons_self] at h
      obtain ⟨rfl, rfl⟩ := List.cons.inj h
      exact ⟨[], out, rfl, rfl, rfl⟩
    · rw [itemsOf_cons_ne hv] at h
      obtain ⟨o₁, o₂, rfl, h1, h2⟩ := ih h
      exact ⟨(v, i) :: o₁, o₂, rfl, by rw [itemsOf_cons_ne hv, h1], h2⟩

theorem itemsOf_ne_nil {out : List (ℕ × J)} {w : ℕ} {j : J} (h : (w, j) ∈ out) :
    itemsOf out w ≠ [] := by
  obtain ⟨o₁, o₂, rfl⟩ := List.append_of_mem h
  simp

theorem itemsOf_length (out : List (ℕ × J)) (w : ℕ) :
    (itemsOf out w).length = (out.map Prod.fst).count w := by
  induction out with
  | nil => rfl
  | cons x out ih =>
    obtain ⟨v, i⟩ := x
    by_cases hv : v = w
    · subst hv; simp [ih]
    · rw [itemsOf_cons_ne hv, ih]; simp [hv]

/-- A list of results belongs to a list of jobs. -/
def Answers (work : A → J → R × A) (js : List J) (rs : List R) : Prop :=
  List.Forall₂ (fun j r => ∃ a, r = (work a j).1) js rs

/-- The messages to a worker: jobs and possibly a stop message. -/
def inbox (qs : List J) (told : Bool) : List (Option J) :=
  qs.map some ++ if told then [none] else []

/-- Relation of a worker, the messages to it, the messages from it, the jobs it has been given, and
whether it has been told to stop. -/
inductive Desc (work : A → J → R × A) :
    Worker A J R → List (Option J) → List R → List J → Bool → Prop
  | idle (a : A) {js qs : List J} {rs : List R} (told : Bool) :
      Answers work js rs → Desc work (.idle a) (inbox qs told) rs (js ++ qs) told
  | busy (a : A) (j : J) {js qs : List J} {rs : List R} (told : Bool) :
      Answers work js rs → Desc work (.busy a j) (inbox qs told) rs (js ++ j :: qs) told
  | sending (a b : A) (j : J) {js qs : List J} {rs : List R} (told : Bool) :
      Answers work js rs →
      Desc work (.sending a (work b j).1) (inbox qs told) rs (js ++ j :: qs) told
  | stopped (a : A) {js : List J} {rs : List R} :
      Answers work js rs → Desc work (.stopped a) [] rs js true

/-- Whether a worker has been told to stop. -/
def Phase.told : Phase → ℕ → Bool
  | .running, _ => false
  | .failed _, _ => false
  | .stopping l, w => decide (w ∉ l)
  | .finished, _ => true

/-- No result can be outstanding in this phase. -/
def Phase.done : Phase → Prop
  | .stopping _ => True
  | .finished => True
  | _ => False

/-- The invariant, with the list of jobs handed out. -/
structure PInv (sv : Server D J R) (work : A → J → R × A) (P maxIt : ℕ) (d₀ : D) (pool₀ : List ℕ)
    (s : State D A J R) (out : List (ℕ × J)) : Prop where
  seq : ∃ n, SeqRun sv work (d₀, []) s.it n (s.data, out.map Prod.snd) ∧ n + out.length = s.it
  jobs : s.njobs = out.length
  pool : (s.pool ++ out.map Prod.fst).Perm pool₀
  it : s.it ≤ maxIt
  desc : ∀ w ∈ ranks P, Desc work (s.workers w) (s.toW w) (s.fromW w) (itemsOf out w) (s.phase.told w)
  quiet : ∀ w, w ∉ ranks P → s.fromW w = [] ∧ s.toW w = []
  done : s.phase.done → out = []
  stop : ∀ l, s.phase = .stopping l → l.Nodup ∧ ∀ w ∈ l, w ∈ ranks P

theorem ranks_nodup (P : ℕ) : (ranks P).Nodup := List.nodup_range'

theorem PInv.start (sv : Server D J R) (work : A → J → R × A) (P maxIt : ℕ) (d : D) (pool : List ℕ)
    (a : ℕ → A) : PInv sv work P maxIt d pool (start d pool a) [] where
  seq := ⟨0, SeqRun.nil _, rfl⟩
  jobs := rfl
  pool := by simp [MPI.start]
  it := Nat.zero_le _
  desc w _ := Desc.idle (qs := []) (a w) false List.Forall₂.nil
  quiet w _ := ⟨rfl, rfl⟩
  done _ := rfl
  stop l h := by simp [MPI.start] at h

theorem Desc.give {work : A → J → R × A} {x : Worker A J R} {q : List (Option J)} {rs : List R}
    {js : List J} (h : Desc work x q rs js false) (j : J) :
    Desc work x (q ++ [some j]) rs (js ++ [j]) false := by
  cases h with
  | @idle a _ qs _ told hr =>
    simpa [inbox] using Desc.idle a (qs := qs ++ [j]) false hr
  | @busy a i _ qs _ told hr =>
    simpa [inbox] using Desc.busy a i (qs := qs ++ [j]) false hr
  | @sending a b i _ qs _ told hr =>
    simpa [inbox] using Desc.sending a b i (qs := qs ++ [j]) false hr

theorem Desc.tell {work : A → J → R × A} {x : Worker A J R} {q : List (Option J)} {rs : List R}
    {js : List J} (h : Desc work x q rs js false) :
    Desc work x (q ++ [none]) rs js true := by
  cases h with
  | idle a told hr => simpa [inbox] using Desc.idle a (qs := _) true hr
  | busy a i told hr => simpa [inbox] using Desc.busy a i (qs := _) true hr
  | sending a b i told hr => simpa [inbox] using Desc.sending a b i (qs := _) true hr

theorem Desc.take {work : A → J → R × A} {x : Worker A J R} {q : List (Option J)} {rs : List R}
    {r : R} {js : List J} {t : Bool} (h : Desc work x q (r :: rs) js t) :
    ∃ b j js', js = j :: js' ∧ r = (work b j).1 ∧ Desc work x q rs js' t := by
  cases h with
  | idle a told hr =>
    cases hr with
    | cons h1 h2 =>
      obtain ⟨b, hb⟩ := h1
      exact ⟨b, _, _, rfl, hb, Desc.idle a _ h2⟩
  | busy a i told hr =>
    cases hr with
    | cons h1 h2 =>
      obtain ⟨b, hb⟩ := h1
      exact ⟨b, _, _, rfl, hb, Desc.busy a i _ h2⟩
  | sending a b i told hr =>
    cases hr with
    | cons h1 h2 =>
      obtain ⟨b', hb⟩ := h1
      exact ⟨b', _, _, rfl, hb, Desc.sending a b i _ h2⟩
  | stopped a hr =>
    cases hr with
    | cons h1 h2 =>
      obtain ⟨b, hb⟩ := h1
      exact ⟨b, _, _, rfl, hb, Desc.stopped a h2⟩

theorem inbox_cons {qs : List J} {t : Bool} {m : Option J} {q : List (Option J)}
    (h : inbox qs t = m :: q) :
    (∃ j qs', m = some j ∧ qs = j :: qs' ∧ q = inbox qs' t) ∨
      (m = none ∧ qs = [] ∧ q = [] ∧ t = true) := by
  cases qs with
  | nil =>
    cases t with
    | false => simp [inbox] at h
    | true => simp [inbox] at h; right; simp [h]
  | cons j qs =>
    left
    simp only [inbox, List.map_cons, List.cons_append, List.cons.injEq] at h
    exact ⟨j, qs, h.1.symm, rfl, h.2.symm⟩

theorem Answers.snoc {work : A → J → R × A} {js : List J} {rs : List R} (h : Answers work js rs)
    (a : A) (j : J) : Answers work (js ++ [j]) (rs ++ [(work a j).1]) :=
  List.rel_append h (List.Forall₂.cons ⟨a, rfl⟩ List.Forall₂.nil)

/-- Frame rule: a worker not touched by a step keeps its description. -/
theorem desc_update {work : A → J → R × A} {P : ℕ} {s s' : State D A J R} {out out' : List (ℕ × J)}
    {v : ℕ} (h : ∀ w ∈ ranks P, Desc work (s.workers w) (s.toW w) (s.fromW w) (itemsOf out w) (s.phase.told w))
    (hf : ∀ w ∈ ranks P, w ≠ v → s'.workers w = s.workers w ∧ s'.toW w = s.toW w ∧ s'.fromW w = s.fromW w ∧
      itemsOf out' w = itemsOf out w ∧ s'.phase.told w = s.phase.told w)
    (hv : v ∈ ranks P →
      Desc work (s'.workers v) (s'.toW v) (s'.fromW v) (itemsOf out' v) (s'.phase.told v)) :
    ∀ w ∈ ranks P, Desc work (s'.workers w) (s'.toW w) (s'.fromW w) (itemsOf out' w) (s'.phase.told w) := by
  intro w hw
  by_cases hwv : w = v
  · subst hwv; exact hv hw
  · obtain ⟨h1, h2, h3, h4, h5⟩ := hf w hw hwv
    rw [h1, h2, h3, h4, h5]; exact h w hw

theorem PInv.step {sv : Server D J R} {work : A → J → R × A} {P maxIt : ℕ} {d₀ : D} {pool₀ : List ℕ}
    (hp : ∀ w ∈ pool₀, w ∈ ranks P)
    {s s' : State D A J R} {l : Label} {out : List (ℕ × J)}
    (h : PInv sv work P maxIt d₀ pool₀ s out) (st : Step sv work P maxIt s l s') :
    ∃ out', PInv sv work P maxIt d₀ pool₀ s' out' := by
  cases st with
  | @dispatch w ws j d hph hm hpool hpop =>
    have hw : w ∈ ranks P := hp w (h.pool.subset (by simp [hpool]))
    refine ⟨out ++ [(w, j)], ?_, ?_, ?_, ?_, ?_, ?_, ?_, ?_⟩
    · obtain ⟨n, h1, h2⟩ := h.seq
      refine ⟨n, ?_, ?_⟩
      · simpa using h1.pop hm.1 hpop
      · simp; omega
    · simp [h.jobs]
    · have := h.pool
      rw [hpool] at this
      refine List.Perm.trans ?_ this
      simp only [List.map_append, List.map_cons, List.map_nil, List.cons_append]
      rw [← List.append_assoc]
      exact List.perm_append_singleton _ _
    · exact hm.2.1
    · refine desc_update (v := w) h.desc ?_ ?_
      · intro u _ hu
        refine ⟨rfl, Function.update_of_ne hu _ _, rfl, ?_, rfl⟩
        rw [itemsOf_append, itemsOf_cons_ne (Ne.symm hu)]; simp
      · intro _
        have := h.desc w hw
        simp only [hph, Phase.told] at this ⊢
        simpa using this.give j
    · intro u hu
      have := h.quiet u hu
      refine ⟨this.1, ?_⟩
      simp only
      rw [Function.update_of_ne (by rintro rfl; exact hu hw)]
      exact this.2
    · intro hd; simp [hph, Phase.done] at hd
    · intro l hl; simp [hph] at hl
  | dispatchFail hph hm hpop =>
    refine ⟨out, h.seq, h.jobs, h.pool, h.it, ?_, h.quiet, ?_, ?_⟩
    · intro w hw
      have := h.desc w hw
      simpa [hph, Phase.told] using this
    · intro hd; simp [Phase.done] at hd
    · intro l hl; simp at hl
  | @receive w r rs d hph hm hn hw hf hs =>
    have hd := h.desc w hw
    rw [hf] at hd
    obtain ⟨b, j, js, hj, hr, hd'⟩ := hd.take
    obtain ⟨o₁, o₂, ho, hi1, hi2⟩ := itemsOf_eq_cons hj
    refine ⟨o₁ ++ o₂, ?_, ?_, ?_, h.it, ?_, ?_, ?_, ?_⟩
    · obtain ⟨n, h1, h2⟩ := h.seq
      refine ⟨n + 1, ?_, ?_⟩
      · rw [ho] at h1
        simp only [List.map_append, List.map_cons] at h1 ⊢
        exact h1.submit b (hr ▸ hs)
      · rw [ho] at h2; simp at h2 ⊢; omega
    · have := h.jobs; rw [ho] at this; simp at this ⊢; omega
    · have := h.pool
      rw [ho] at this
      refine List.Perm.trans ?_ this
      simp only [List.map_append, List.map_cons, List.append_assoc]
      refine List.Perm.append_left _ ?_
      exact (List.perm_middle (l₁ := o₁.map Prod.fst) (a := w) (l₂ := o₂.map Prod.fst)).symm
    · refine desc_update (v := w) h.desc ?_ ?_
      · intro u _ hu
        refine ⟨rfl, rfl, Function.update_of_ne hu _ _, ?_, rfl⟩
        rw [ho, itemsOf_append, itemsOf_append, itemsOf_cons_ne (Ne.symm hu)]
      · intro _
        simp only [itemsOf_append, hi1, hi2, Function.update_self, List.nil_append]
        exact hd'
    · intro u hu
      have := h.quiet u hu
      refine ⟨?_, this.2⟩
      simp only
      rw [Function.update_of_ne (by rintro rfl; exact hu hw)]
      exact this.1
    · intro hd; simp [hph, Phase.done] at hd
    · intro l hl; simp [hph] at hl
  | receiveFail hph hm hn hw hf hs =>
    refine ⟨out, h.seq, h.jobs, h.pool, h.it, ?_, h.quiet, ?_, ?_⟩
    · intro w hw
      have := h.desc w hw
      simpa [hph, Phase.told] using this
    · intro hd; simp [Phase.done] at hd
    · intro l hl; simp at hl
  | stop hph hm hn =>
    refine ⟨out, h.seq, h.jobs, h.pool, h.it, ?_, h.quiet, ?_, ?_⟩
    · intro w hw
      have := h.desc w hw
      simpa [hph, Phase.told, hw] using this
    · intro _
      exact List.eq_nil_of_length_eq_zero (h.jobs ▸ hn)
    · intro l hl
      simp only [Phase.stopping.injEq] at hl
      subst hl
      exact ⟨ranks_nodup P, fun _ h => h⟩
  | @sendStop w l hph =>
    obtain ⟨hnd, hsub⟩ := h.stop _ hph
    have hw : w ∈ ranks P := hsub w (by simp)
    have hwl : w ∉ l := (List.nodup_cons.1 hnd).1
    refine ⟨out, h.seq, h.jobs, h.pool, h.it, ?_, ?_, ?_, ?_⟩
    · refine desc_update (v := w) h.desc ?_ ?_
      · intro u _ hu
        refine ⟨rfl, Function.update_of_ne hu _ _, rfl, rfl, ?_⟩
        simp [hph, Phase.told, hu]
      · intro _
        have := h.desc w hw
        simp only [hph, Phase.told, List.mem_cons, true_or, not_true_eq_false, decide_false,
          hwl, not_false_eq_true, decide_true, Function.update_self] at this ⊢
        exact this.tell
    · intro u hu
      have := h.quiet u hu
      refine ⟨this.1, ?_⟩
      simp only
      rw [Function.update_of_ne (by rintro rfl; exact hu hw)]
      exact this.2
    · intro _; exact h.done (by simp [hph, Phase.done])
    · intro l' hl
      simp only [Phase.stopping.injEq] at hl
      subst hl
      exact ⟨(List.nodup_cons.1 hnd).2, fun u hu => hsub u (by simp [hu])⟩
  | leave hph =>
    refine ⟨out, h.seq, h.jobs, h.pool, h.it, ?_, h.quiet, ?_, ?_⟩
    · intro w hw
      have := h.desc w hw
      simpa [hph, Phase.told, hw] using this
    · intro _; exact h.done (by simp [hph, Phase.done])
    · intro l hl; simp at hl
  | @recvJob w a j q hw ha hq =>
    refine ⟨out, h.seq, h.jobs, h.pool, h.it, ?_, ?_, h.done, h.stop⟩
    · refine desc_update (v := w) h.desc ?_ ?_
      · intro u _ hu
        exact ⟨Function.update_of_ne hu _ _, Function.update_of_ne hu _ _, rfl, rfl, rfl⟩
      · intro _
        have := h.desc w hw
        rw [ha, hq] at this
        simp only [Function.update_self]
        generalize itemsOf out w = js at this
        generalize s.phase.told w = t at this
        generalize hx : some j :: q = x at this
        cases this with
        | idle a told hr =>
          rcases inbox_cons hx.symm with ⟨i, qs', h1, rfl, rfl⟩ | ⟨h1, _⟩
          · obtain rfl : j = i := by simpa using h1
            exact Desc.busy a j _ hr
          · simp at h1
    · intro u hu
      have := h.quiet u hu
      refine ⟨this.1, ?_⟩
      simp only
      rw [Function.update_of_ne (by rintro rfl; exact hu hw)]
      exact this.2
  | @recvStop w a q hw ha hq =>
    refine ⟨out, h.seq, h.jobs, h.pool, h.it, ?_, ?_, h.done, h.stop⟩
    · refine desc_update (v := w) h.desc ?_ ?_
      · intro u _ hu
        exact ⟨Function.update_of_ne hu _ _, Function.update_of_ne hu _ _, rfl, rfl, rfl⟩
      · intro _
        have := h.desc w hw
        rw [ha, hq] at this
        simp only [Function.update_self]
        generalize itemsOf out w = js at this
        generalize s.phase.told w = t at this
        generalize hx : none :: q = x at this
        cases this with
        | idle a told hr =>
          rcases inbox_cons hx.symm with ⟨i, qs', h1, rfl, rfl⟩ | ⟨_, rfl, rfl, rfl⟩
          · simp at h1
          · simpa using Desc.stopped a hr
    · intro u hu
      have := h.quiet u hu
      refine ⟨this.1, ?_⟩
      simp only
      rw [Function.update_of_ne (by rintro rfl; exact hu hw)]
      exact this.2
  | @compute w a j hw ha =>
    refine ⟨out, h.seq, h.jobs, h.pool, h.it, ?_, h.quiet, h.done, h.stop⟩
    refine desc_update (v := w) h.desc ?_ ?_
    · intro u _ hu
      exact ⟨Function.update_of_ne hu _ _, rfl, rfl, rfl, rfl⟩
    · intro _
      have := h.desc w hw
      rw [ha] at this
      simp only [Function.update_self]
      generalize itemsOf out w = js at this
      generalize s.phase.told w = t at this
      generalize s.toW w = x at this
      cases this with
      | busy a i told hr => exact Desc.sending _ _ _ _ hr
  | @sendResult w a r hw ha =>
    refine ⟨out, h.seq, h.jobs, h.pool, h.it, ?_, ?_, h.done, h.stop⟩
    · refine desc_update (v := w) h.desc ?_ ?_
      · intro u _ hu
        exact ⟨Function.update_of_ne hu _ _, rfl, Function.update_of_ne hu _ _, rfl, rfl⟩
      · intro _
        have := h.desc w hw
        rw [ha] at this
        simp only [Function.update_self]
        generalize itemsOf out w = js at this
        generalize s.phase.told w = t at this
        generalize s.toW w = x at this
        cases this with
        | @sending a b i _ qs _ told hr =>
          have := Desc.idle a (qs := qs) t (hr.snoc b i)
          simpa using this
    · intro u hu
      have := h.quiet u hu
      refine ⟨?_, this.2⟩
      simp only
      rw [Function.update_of_ne (by rintro rfl; exact hu hw)]
      exact this.1

theorem PInv.run {sv : Server D J R} {work : A → J → R × A} {P maxIt : ℕ} {d₀ : D} {pool₀ : List ℕ}
    (hp : ∀ w ∈ pool₀, w ∈ ranks P)
    {s s' : State D A J R} {n : ℕ} {out : List (ℕ × J)}
    (h : PInv sv work P maxIt d₀ pool₀ s out) (r : Run sv work P maxIt s n s') :
    ∃ out', PInv sv work P maxIt d₀ pool₀ s' out' := by
  induction r with
  | nil => exact ⟨out, h⟩
  | snoc _ st ih =>
    obtain ⟨o, ho⟩ := ih
    exact ho.step hp st

theorem SyncRun.run {sv : Server D J R} {work : A → J → R × A} {P maxIt n : ℕ}
    {s s' : State D A J R} (r : SyncRun sv work P maxIt s n s') : Run sv work P maxIt s n s' := by
  induction r with
  | nil => exact Run.nil _
  | snoc _ _ st ih => exact ih.snoc st

end GsSA.MPI
