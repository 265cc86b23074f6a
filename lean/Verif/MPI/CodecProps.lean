import Verif.MPI.Codec
import Mathlib.Tactic.Ring

/-!
# Properties of the message layout (C29)
-/

namespace GsSA.MPI

open GsSA

variable {K α β : Type*}

/-! ## Receives -/

/-- Channels with the same messages of each tag in the same order: what is observable when messages with
different tags overtake each other. -/
def TagEq (c c' : Chan K) : Prop := ∀ t, c.filter (fun x => x.1 = t) = c'.filter (fun x => x.1 = t)

theorem TagEq.refl (c : Chan K) : TagEq c c := fun _ => rfl

theorem takeTag_spec (t : ℕ) (c : Chan K) :
    (takeTag t c = none ∧ c.filter (fun x => x.1 = t) = []) ∨
    ∃ v c', takeTag t c = some (v, c') ∧ c.filter (fun x => x.1 = t) = (t, v) :: c'.filter (fun x => x.1 = t) ∧
      ∀ s, s ≠ t → c.filter (fun x => x.1 = s) = c'.filter (fun x => x.1 = s) := by
  induction c with
  | nil => exact Or.inl ⟨rfl, rfl⟩
  | cons x l ih =>
    obtain ⟨t', v⟩ := x
    by_cases h : t' = t
    · subst h
      refine Or.inr ⟨v, l, by simp [takeTag], by simp, ?_⟩
      intro s hs
      simp [Ne.symm hs]
    · rcases ih with ⟨h1, h2⟩ | ⟨w, c', h1, h2, h3⟩
      · refine Or.inl ⟨by simp [takeTag, h, h1], by simpa [h] using h2⟩
      · refine Or.inr ⟨w, (t', v) :: c', by simp [takeTag, h, h1], by simpa [h] using h2, ?_⟩
        intro s hs
        simp only [List.filter_cons, h3 s hs]

/-- The outcome of a receiving program does not depend on how messages with different tags overtake
each other. -/
theorem Prog.run_congr (p : Prog K α) {c c' : Chan K} (h : TagEq c c') :
    (p.run c = none ∧ p.run c' = none) ∨
    ∃ a d d', p.run c = some (a, d) ∧ p.run c' = some (a, d') ∧ TagEq d d' := by
  induction p generalizing c c' with
  | done a => exact Or.inr ⟨a, c, c', rfl, rfl, h⟩
  | fail => exact Or.inl ⟨rfl, rfl⟩
  | recv t next ih =>
    rcases takeTag_spec t c with ⟨h1, h2⟩ | ⟨v, d, h1, h2, h3⟩
    · rcases takeTag_spec t c' with ⟨h1', h2'⟩ | ⟨v', d', h1', h2', h3'⟩
      · exact Or.inl ⟨by simp [run, h1], by simp [run, h1']⟩
      · have := h t
        rw [h2, h2'] at this
        simp at this
    · rcases takeTag_spec t c' with ⟨h1', h2'⟩ | ⟨v', d', h1', h2', h3'⟩
      · have := h t
        rw [h2, h2'] at this
        simp at this
      · have ht := h t
        rw [h2, h2', List.cons.injEq, Prod.mk.injEq] at ht
        obtain ⟨⟨-, rfl⟩, ht⟩ := ht
        have hd : TagEq d d' := by
          intro s
          by_cases hs : s = t
          · subst hs
            exact ht
          · rw [← h3 s hs, ← h3' s hs]
            exact h s
        simp only [run, h1, h1']
        exact ih v hd

theorem Prog.run_bind (p : Prog K α) (f : α → Prog K β) (c : Chan K) :
    (p.bind f).run c = match p.run c with
      | none => none
      | some (a, c') => (f a).run c' := by
  induction p generalizing c with
  | done a => rfl
  | fail => rfl
  | recv t next ih =>
    simp only [bind, run]
    cases takeTag t c with
    | none => rfl
    | some x =>
      simp only
      exact ih x.1 x.2

@[simp] theorem takeTag_head (t : ℕ) (v : Val K) (c : Chan K) : takeTag t ((t, v) :: c) = some (v, c) := by
  simp [takeTag]

@[simp] theorem run_done (a : α) (c : Chan K) : (Prog.done a).run c = some (a, c) := rfl

@[simp] theorem run_int (t n : ℕ) (c : Chan K) : (recvInt t).run ((t, .int n) :: c) = some (n, c) := by
  simp [recvInt, Prog.run]

@[simp] theorem run_real (t : ℕ) (x : K) (c : Chan K) :
    (recvReal t).run ((t, .real x) :: c) = some (x, c) := by
  simp [recvReal, Prog.run]

@[simp] theorem run_bool (t : ℕ) (x : Bool) (c : Chan K) :
    (recvBool t).run ((t, .bool x) :: c) = some (x, c) := by
  simp [recvBool, Prog.run]

@[simp] theorem run_vec (t : ℕ) (l : List K) (c : Chan K) :
    (recvVec t l.length).run ((t, .vec l) :: c) = some (l, c) := by
  simp [recvVec, Prog.run]

/-- A vector of another size than announced is not taken. -/
theorem C29_size (t n : ℕ) (l : List K) (c : Chan K) (h : l.length ≠ n) :
    (recvVec t n).run ((t, .vec l) :: c) = none := by
  simp [recvVec, Prog.run, h]

/-- `C29_size`: two numbers for three. -/
example : (recvVec 7 3).run [(7, .vec [(1 : ℕ), 2])] = none := C29_size _ _ _ _ (by decide)

/-! ## Jobs -/

/-- The level tells the kind of the job. -/
def Order.Matches (o : Order K) : Prop :=
  match o.task with
  | .init _ _ => o.level = 0
  | .corr _ _ _ _ => o.level ≠ 0

theorem recvOrder_run (o : Option (Order K)) (h : ∀ x, o = some x → x.Matches) (rest : Chan K) :
    recvOrder.run (sendOrder o ++ rest) = some (o, rest) := by
  cases o with
  | none => simp [recvOrder, sendOrder, Prog.run_bind]
  | some o =>
    obtain ⟨b, lv, task⟩ := o
    have hm := h _ rfl
    cases task with
    | init e t =>
      simp only [Order.Matches] at hm
      subst hm
      simp [recvOrder, sendOrder, Prog.run_bind, recvMeta, sendMeta, recvInitJob, sendInitJob, Task.id]
    | corr e t t' ref =>
      simp only [Order.Matches] at hm
      simp [recvOrder, sendOrder, Prog.run_bind, recvMeta, sendMeta, recvCorrJob, sendCorrJob, Task.id,
        if_neg hm]

/-- **C29** Whatever was sent to a worker before it reads (several orders may be in transit) and however
messages with different tags overtake each other, the worker receives the first order unchanged, and the
rest is what was sent behind it. Jobs have vectors of any, even different, sizes. -/
theorem C29_order (o : Option (Order K)) (h : ∀ x, o = some x → x.Matches) (rest : Chan K) {c : Chan K}
    (hc : TagEq c (sendOrder o ++ rest)) :
    ∃ c', recvOrder.run c = some (o, c') ∧ TagEq c' rest := by
  rcases (recvOrder (K := K)).run_congr hc with ⟨-, h2⟩ | ⟨a, d, d', h1, h2, h3⟩
  · rw [recvOrder_run o h] at h2
    simp at h2
  · rw [recvOrder_run o h] at h2
    simp only [Option.some.injEq, Prod.mk.injEq] at h2
    obtain ⟨rfl, rfl⟩ := h2
    exact ⟨d, h1, h3⟩

/-! ## Results -/

theorem run_recvInitHeads (tag : ℕ) (l : List (K × ℕ)) (rest : Chan K) :
    (recvInitHeads tag l.length).run (initHeadsOf tag l ++ rest) = some (l, rest) := by
  induction l generalizing tag with
  | nil => rfl
  | cons x l ih =>
    simp [recvInitHeads, initHeadsOf, Prog.run_bind, ih]

theorem run_recvCorrHeads (tag : ℕ) (l : List (K × K × ℕ)) (rest : Chan K) :
    (recvCorrHeads tag l.length).run (corrHeadsOf tag l ++ rest) = some (l, rest) := by
  induction l generalizing tag with
  | nil => rfl
  | cons x l ih =>
    simp [recvCorrHeads, corrHeadsOf, Prog.run_bind, ih]

/-- The vectors arrive whatever loads they are combined with, if the sizes are right. -/
theorem run_recvVectors (tag : ℕ) (sols : List (Sol K)) (loads : List K)
    (hl : loads.length = sols.length) (rest : Chan K) :
    (recvVectors tag (loads.zip (sols.map (·.U.length)))).run (vectors tag sols ++ rest) =
      some (List.zipWith (fun s L => ⟨s.U, L⟩) sols loads, rest) := by
  induction sols generalizing tag loads with
  | nil =>
    rw [List.length_nil, List.length_eq_zero_iff] at hl
    subst hl
    rfl
  | cons s sols ih =>
    cases loads with
    | nil => simp at hl
    | cons L loads =>
      simp only [List.map_cons, List.zip_cons_cons, recvVectors, vectors, List.cons_append,
        Prog.run_bind, run_vec, List.zipWith_cons_cons]
      rw [ih (tag + 1) loads (by simpa using hl)]
      rfl

theorem zipWith_loads (sols : List (Sol K)) :
    List.zipWith (fun s L => (⟨s.U, L⟩ : Sol K)) sols (sols.map (·.L)) = sols := by
  induction sols with
  | nil => rfl
  | cons s l ih => simp [ih]

theorem initHeads_eq (tag : ℕ) (sols : List (Sol K)) :
    initHeads tag sols = initHeadsOf tag ((sols.map (·.L)).zip (sols.map (·.U.length))) := by
  induction sols generalizing tag with
  | nil => rfl
  | cons s l ih => simp [initHeads, initHeadsOf, ih]

theorem corrHeads_eq (tag : ℕ) (ds : List K) (sols : List (Sol K)) :
    corrHeads tag (ds.zip sols) =
      corrHeadsOf tag (ds.zip ((sols.map (·.L)).zip (sols.map (·.U.length)))) := by
  induction sols generalizing tag ds with
  | nil => simp [corrHeads, corrHeadsOf]
  | cons s l ih =>
    cases ds with
    | nil => rfl
    | cons d ds => simp [corrHeads, corrHeadsOf, ih]

/-- Reception of an initiation result with given transmitted loads (and right sizes). -/
theorem run_recvInitResult (distance : K) (sols : List (Sol K)) (b : Bool) (loads : List K)
    (hl : loads.length = sols.length) (rest : Chan K) :
    recvInitResult.run (([(0, .real distance), (1, .bool b), (2, .int sols.length)] ++
      initHeadsOf 3 (loads.zip (sols.map (·.U.length))) ++ vectors (3 + 2 * sols.length) sols) ++ rest) =
      some (.init distance (List.zipWith (fun s L => ⟨s.U, L⟩) sols loads) b, rest) := by
  have h1 := run_recvInitHeads 3 (loads.zip (sols.map (·.U.length)))
    (vectors (3 + 2 * sols.length) sols ++ rest)
  rw [List.length_zip, List.length_map, hl, min_self] at h1
  simp only [recvInitResult, Prog.run_bind, List.append_assoc, List.cons_append, List.nil_append,
    run_real, run_bool, run_int, h1, run_recvVectors _ sols loads hl, run_done]

theorem map_fst_zip_take (l : List α) (r : List β) : (l.zip r).map Prod.fst = l.take r.length := by
  induction l generalizing r with
  | nil => simp
  | cons x l ih => cases r <;> simp [ih]

/-- Reception of a correction result with given transmitted loads (and right sizes). -/
theorem run_recvCorrResult (ds : List K) (last : K) (sols : List (Sol K)) (upper lower : K) (loads : List K)
    (hl : loads.length = sols.length) (hd : ds.length = sols.length + 1)
    (hlast : ds[sols.length]? = some last) (rest : Chan K) :
    recvCorrResult.run (([(0, .real upper), (1, .real lower), (2, .int sols.length)] ++
      corrHeadsOf 3 (ds.zip (loads.zip (sols.map (·.U.length)))) ++
      [(3 + 3 * sols.length, .real last)] ++ vectors (4 + 3 * sols.length) sols) ++ rest) =
      some (.corr ds (List.zipWith (fun s L => ⟨s.U, L⟩) sols loads) upper lower, rest) := by
  have hz : (loads.zip (sols.map (·.U.length))).length = sols.length := by simp [hl]
  have h1 := run_recvCorrHeads 3 (ds.zip (loads.zip (sols.map (·.U.length))))
    ((3 + 3 * sols.length, .real last) :: (vectors (4 + 3 * sols.length) sols ++ rest))
  rw [List.length_zip, hz, hd, min_eq_right (by omega)] at h1
  have h2 : (ds.zip (loads.zip (sols.map (·.U.length)))).map Prod.snd =
      loads.zip (sols.map (·.U.length)) := List.map_snd_zip (by rw [hz, hd]; omega)
  have h3 : (ds.zip (loads.zip (sols.map (·.U.length)))).map Prod.fst ++ [last] = ds := by
    rw [map_fst_zip_take, hz]
    rw [show [last] = ds.drop sols.length from ?_, List.take_append_drop]
    rw [List.drop_eq_getElem_cons (by omega), List.drop_of_length_le (by omega)]
    rw [List.getElem?_eq_getElem (by omega)] at hlast
    simp only [Option.some.injEq] at hlast
    rw [hlast]
  simp only [recvCorrResult, Prog.run_bind, List.append_assoc, List.cons_append, List.nil_append,
    run_real, run_int, h1, h2, h3, run_recvVectors _ sols loads hl, run_done]

/-- The layout of the answer fits the level of the job, and there is one distance more than solutions. -/
def Answer.Fits (level : ℕ) : Answer K → Prop
  | .init _ _ _ => level = 0
  | .corr ds sols _ _ => level ≠ 0 ∧ ds.length = sols.length + 1

/-- **C29** If every value is transmitted as it is at its `isend`, the main process receives the answer of
a worker unchanged, for any number of solutions and any sizes of their vectors, whatever else the worker
sends behind it, and however messages with different tags overtake each other. -/
theorem C29_answer (level : ℕ → ℕ → ℕ) (branch id : ℕ) (a : Answer K) (h : a.Fits (level branch id)) :
    ∃ sent, sendAnswer branch id a = .ok sent ∧
      ∀ (rest c : Chan K), TagEq c (sent ++ rest) →
        ∃ c', (recvAnswer level).run c = some (((branch, id), a), c') ∧ TagEq c' rest := by
  have key : ∃ sent, sendAnswer branch id a = .ok sent ∧ ∀ rest,
      (recvAnswer level).run (sent ++ rest) = some (((branch, id), a), rest) := by
    cases a with
    | init distance sols b =>
      refine ⟨_, rfl, ?_⟩
      intro rest
      simp only [Answer.Fits] at h
      have := run_recvInitResult distance sols b (sols.map (·.L)) (by simp) rest
      rw [← initHeads_eq, zipWith_loads] at this
      simp only [recvAnswer, recvResultMeta, Prog.run_bind, sendResultMeta, List.cons_append,
        List.nil_append, run_int, run_done, h, if_true]
      have h' : recvInitResult.run (sendInitResult distance sols b ++ rest) = _ := this
      rw [h']
    | corr ds sols upper lower =>
      obtain ⟨h1, h2⟩ := h
      have hlast : ds[sols.length]? = some (ds[sols.length]) := by simp
      refine ⟨sendResultMeta branch id ++
        ([(0, Val.real upper), (1, Val.real lower), (2, Val.int sols.length)] ++
          corrHeads 3 (ds.zip sols) ++ [(3 + 3 * sols.length, Val.real ds[sols.length])] ++
          vectors (4 + 3 * sols.length) sols), by simp only [sendAnswer, sendCorrResult, hlast], ?_⟩
      intro rest
      have := run_recvCorrResult ds _ sols upper lower (sols.map (·.L)) (by simp) h2 hlast rest
      rw [← corrHeads_eq, zipWith_loads] at this
      simp only [recvAnswer, recvResultMeta, Prog.run_bind, sendResultMeta, List.append_assoc,
        List.cons_append, List.nil_append, run_int, run_done, h1, if_false] at this ⊢
      rw [this]
  obtain ⟨sent, h1, h2⟩ := key
  refine ⟨sent, h1, ?_⟩
  intro rest c hc
  rcases (recvAnswer level).run_congr hc with ⟨-, h3⟩ | ⟨x, d, d', h3, h4, h5⟩
  · rw [h2] at h3
    simp at h3
  · rw [h2] at h4
    simp only [Option.some.injEq, Prod.mk.injEq] at h4
    obtain ⟨rfl, rfl⟩ := h4
    exact ⟨d, h3, h5⟩

/-- **C29** `_sendWorkerToMain` throws if there are not more distances than solutions. -/
theorem C29_too_few_distances (ds : List K) (sols : List (Sol K)) (upper lower : K)
    (h : ds.length ≤ sols.length) : sendCorrResult ds sols upper lower = .error .exc := by
  simp [sendCorrResult, List.getElem?_eq_none h]

/-! ## Overwritten send buffers -/

theorem Deferred.length {l s : List β} (h : Deferred l s) : s.length = l.length := by
  induction h with
  | nil => rfl
  | cons _ _ ih => simp [ih]

theorem Deferred.self (l : List β) : Deferred l l := by
  induction l with
  | nil => exact .nil
  | cons x l ih => exact .cons (by simp) ih

theorem Deferred.eq_of_const {l s : List β} (h : Deferred l s) {x : β} (hx : ∀ y ∈ l, y = x) : s = l := by
  induction h with
  | nil => rfl
  | @cons a b l s hb _ ih =>
    rw [ih (fun y hy => hx y (by simp [hy]))]
    have h1 := hx a (by simp)
    have h2 := hx b hb
    rw [h1, h2]

theorem Deferred.last (l : List β) (x : β) : Deferred (l ++ [x]) (List.replicate (l.length + 1) x) := by
  induction l with
  | nil => exact .cons (by simp) .nil
  | cons y l ih => exact .cons (by simp) ih

/-- **C29** Under all transmissions MPI allows, an initiation result is received unchanged if all solutions
have the same load and the same vector size; in particular if there is one solution (no bifurcation).
Partial: it is false for two solutions with different loads, see `C29_violated_loads`. -/
theorem C29_init_any_transmission_partial (distance : K) (sols : List (Sol K)) (b : Bool)
    {L : K} {n : ℕ} (hL : ∀ s ∈ sols, s.L = L ∧ s.U.length = n) {sent : Chan K}
    (hs : SendsInit distance sols b sent) (rest c : Chan K) (hc : TagEq c (sent ++ rest)) :
    ∃ c', recvInitResult.run c = some (.init distance sols b, c') ∧ TagEq c' rest := by
  obtain ⟨h1, h2⟩ := hs
  rename_i loads sizes
  have e1 : loads = sols.map (·.L) := h1.eq_of_const (x := L) (by
    intro y hy
    obtain ⟨s, hs, rfl⟩ := List.mem_map.1 hy
    exact (hL s hs).1)
  have e2 : sizes = sols.map (·.U.length) := h2.eq_of_const (x := n) (by
    intro y hy
    obtain ⟨s, hs, rfl⟩ := List.mem_map.1 hy
    exact (hL s hs).2)
  subst e1 e2
  have := run_recvInitResult distance sols b (sols.map (·.L)) (by simp) rest
  rw [zipWith_loads] at this
  rcases (recvInitResult (K := K)).run_congr hc with ⟨-, h3⟩ | ⟨x, d, d', h3, h4, h5⟩
  · rw [this] at h3
    simp at h3
  · rw [this] at h4
    simp only [Option.some.injEq, Prod.mk.injEq] at h4
    obtain ⟨rfl, rfl⟩ := h4
    exact ⟨d, h3, h5⟩

/-- **C29** Under all transmissions MPI allows, the distances and the vectors of a correction result are
received unchanged if all vectors have the same size; the loads are among those sent. -/
theorem C29_corr_any_transmission_partial (ds : List K) (sols : List (Sol K)) (upper lower : K)
    (hd : ds.length = sols.length + 1) {n : ℕ} (hn : ∀ s ∈ sols, s.U.length = n) {sent : Chan K}
    (hs : SendsCorr ds sols upper lower sent) (rest c : Chan K) (hc : TagEq c (sent ++ rest)) :
    ∃ loads c', Deferred (sols.map (·.L)) loads ∧ recvCorrResult.run c =
      some (.corr ds (List.zipWith (fun s L => ⟨s.U, L⟩) sols loads) upper lower, c') ∧ TagEq c' rest := by
  obtain ⟨hlast, h1, h2⟩ := hs
  rename_i loads sizes last
  have e2 : sizes = sols.map (·.U.length) := h2.eq_of_const (x := n) (by
    intro y hy
    obtain ⟨s, hs, rfl⟩ := List.mem_map.1 hy
    exact hn s hs)
  subst e2
  have hl : loads.length = sols.length := by simpa using h1.length
  have := run_recvCorrResult ds last sols upper lower loads hl hd hlast rest
  rcases (recvCorrResult (K := K)).run_congr hc with ⟨-, h3⟩ | ⟨x, d, d', h3, h4, h5⟩
  · rw [this] at h3
    simp at h3
  · rw [this] at h4
    simp only [Option.some.injEq, Prod.mk.injEq] at h4
    obtain ⟨rfl, rfl⟩ := h4
    exact ⟨loads, d, h1, h3, h5⟩

/-- **C29** violated: MPI may transmit the load of the last solution for all solutions of a result. All
solutions are then received with that load. -/
theorem C29_violated_loads (distance : K) (sols : List (Sol K)) (s : Sol K) (b : Bool) :
    ∃ sent, SendsInit distance (sols ++ [s]) b sent ∧ ∀ rest, recvInitResult.run (sent ++ rest) =
      some (.init distance ((sols ++ [s]).map fun x => ⟨x.U, s.L⟩) b, rest) := by
  have h1 : Deferred ((sols ++ [s]).map (·.L)) (List.replicate (sols.length + 1) s.L) := by
    have := Deferred.last (sols.map (·.L)) s.L
    simpa using this
  refine ⟨_, .mk h1 (Deferred.self _), ?_⟩
  intro rest
  rw [run_recvInitResult _ _ _ _ (by simp)]
  have : ∀ l : List (Sol K), List.zipWith (fun s L => (⟨s.U, L⟩ : Sol K)) l
      (List.replicate l.length s.L) = l.map fun x => ⟨x.U, s.L⟩ := by
    intro l
    induction l with
    | nil => rfl
    | cons x l ih => simp [List.replicate_succ, ih]
  have h2 := this (sols ++ [s])
  rw [List.length_append, List.length_singleton] at h2
  rw [h2]

/-! ## Examples -/

/-- A correction job with vectors of size 2 behind another order, and a stop signal behind it. -/
def sampleOrder : Order ℕ := ⟨1, 2, .corr ⟨7, 5, ⟨[1, 2], 3⟩, ⟨[4, 5], 6⟩⟩ 0 1 ⟨[8, 9], 10⟩⟩

example : (∀ x, some sampleOrder = some x → x.Matches) ∧
    TagEq (sendOrder (some sampleOrder) ++ sendOrder none) (sendOrder (some sampleOrder) ++ sendOrder none) := by
  refine ⟨?_, TagEq.refl _⟩
  intro x hx
  simp only [Option.some.injEq] at hx
  subst hx
  simp [sampleOrder, Order.Matches]

/-- `C29_order`: the same messages with the size of the start vector arriving before the stop flag. -/
example : TagEq ([(4, Val.int 2), (99, .bool false)] : Chan ℕ) [(99, .bool false), (4, .int 2)] := by
  intro t
  by_cases h4 : 4 = t
  · subst h4
    simp
  · by_cases h9 : 99 = t
    · subst h9
      simp
    · simp [h4, h9]

/-- `C29_answer`: answers of both kinds, with two solutions. -/
example : (Answer.init 3 [⟨[1, 2], 3⟩, ⟨[4, 5], 6⟩] true : Answer ℕ).Fits 0 ∧
    (Answer.corr [1, 2, 3] [⟨[1, 2], 3⟩, ⟨[4, 5], 6⟩] 7 8 : Answer ℕ).Fits 1 := by
  simp [Answer.Fits]

/-- `C29_init_any_transmission_partial`, `C29_corr_any_transmission_partial`: two solutions with vectors of size 2; the
load of the second one is transmitted twice. -/
example : (∃ sent : Chan ℕ, SendsInit 3 [⟨[1, 2], 3⟩, ⟨[4, 5], 3⟩] true sent) ∧
    ∃ sent : Chan ℕ, SendsCorr [1, 2, 3] [⟨[1, 2], 3⟩, ⟨[4, 5], 6⟩] 7 8 sent ∧ sent[4]? = some (4, .real 6) := by
  refine ⟨⟨_, .mk (loads := [3, 3]) (sizes := [2, 2]) (.cons (by simp) (.cons (by simp) .nil))
    (.cons (by simp) (.cons (by simp) .nil))⟩, _, .mk (loads := [6, 6]) (sizes := [2, 2]) rfl
    (.cons (by simp) (.cons (by simp) .nil)) (.cons (by simp) (.cons (by simp) .nil)), rfl⟩

/-- `C29_too_few_distances`: two solutions, two distances. -/
example : sendCorrResult [1, 2] [⟨[1, 2], 3⟩, ⟨[4, 5], 6⟩] 7 8 = (.error .exc : Except Fail (Chan ℕ)) :=
  C29_too_few_distances _ _ _ _ (by simp)

/-- `C29_violated_loads` on a bifurcation: the point found and the point on the new branch are received with
the same load 6 although the loads are 3 and 6. -/
example : ∃ sent, SendsInit 1 [⟨[1, 2], 3⟩, ⟨[4, 5], 6⟩] true sent ∧
    recvInitResult.run (sent ++ ([] : Chan ℕ)) = some (.init 1 [⟨[1, 2], 6⟩, ⟨[4, 5], 6⟩] true, []) := by
  obtain ⟨sent, h1, h2⟩ := C29_violated_loads (K := ℕ) 1 [⟨[1, 2], 3⟩] ⟨[4, 5], 6⟩ true
  exact ⟨sent, h1, h2 []⟩

end GsSA.MPI
