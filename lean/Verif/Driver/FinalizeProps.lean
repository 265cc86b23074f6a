import Verif.Driver.Finalize

/-!
# Properties of the result views (C24)
-/

set_option linter.unusedSectionVars false

namespace GsSA.APALM

open GsSA

variable {K S : Type*} [Field K] [LinearOrder K] [IsStrictOrderedRing K]

theorem pushPoints_spec (levels : List ℕ) (lv : List (List ℕ)) (ks : List ℕ) (lv' : List (List ℕ))
    (h : pushPoints levels lv ks = .ok lv') :
    lv'.length = lv.length ∧ (∀ k ∈ ks, ∃ ℓ, levels[k]? = some ℓ ∧ ℓ < lv.length) ∧
    ∀ ℓ, lv'.getD ℓ [] = lv.getD ℓ [] ++ ks.filter (fun k => levels[k]? = some ℓ) := by
  induction ks generalizing lv with
  | nil =>
    simp only [pushPoints, Except.ok.injEq] at h
    subst h
    simp
  | cons k ks ih =>
    simp only [pushPoints] at h
    unfold pushPoint at h
    cases hk : levels[k]? with
    | none => simp [hk] at h
    | some ℓ =>
      rw [hk] at h
      simp only at h
      by_cases hl : ℓ < lv.length
      · rw [if_pos hl] at h
        simp only at h
        obtain ⟨h1, h2, h3⟩ := ih _ h
        rw [List.length_modify] at h1 h2
        refine ⟨h1, ?_, ?_⟩
        · intro k' hk'
          rcases List.mem_cons.1 hk' with rfl | hk'
          · exact ⟨ℓ, hk, hl⟩
          · exact h2 k' hk'
        · intro m
          rw [h3, List.filter_cons, hk]
          simp only [Option.some.injEq, decide_eq_true_eq]
          by_cases hm : ℓ = m
          · subst hm
            rw [if_pos rfl]
            have : (lv.modify ℓ (· ++ [k])).getD ℓ [] = lv.getD ℓ [] ++ [k] := by
              simp [List.getD_eq_getElem?_getD, List.getElem?_eq_getElem hl]
            rw [this]
            simp
          · rw [if_neg hm]
            have : (lv.modify ℓ (· ++ [k])).getD m [] = lv.getD m [] := by
              simp [List.getD_eq_getElem?_getD, List.getElem?_modify, hm]
            rw [this]
      · rw [if_neg hl] at h
        simp at h

theorem pushPoints_ok (levels : List ℕ) (lv : List (List ℕ)) (ks : List ℕ)
    (h : ∀ k ∈ ks, ∃ ℓ, levels[k]? = some ℓ ∧ ℓ < lv.length) : ∃ lv', pushPoints levels lv ks = .ok lv' := by
  induction ks generalizing lv with
  | nil => exact ⟨lv, rfl⟩
  | cons k ks ih =>
    obtain ⟨ℓ, h1, h2⟩ := h k (by simp)
    obtain ⟨lv', h3⟩ := ih (lv.modify ℓ (· ++ [k])) (by
      intro k' hk'
      rw [List.length_modify]
      exact h k' (by simp [hk']))
    refine ⟨lv', ?_⟩
    simp only [pushPoints, pushPoint, h1, if_pos h2]
    exact h3

theorem getD_resize {α : Type*} (l : List (List α)) (n ℓ : ℕ) (h : l.length ≤ n) :
    (resize l n []).getD ℓ [] = l.getD ℓ [] := by
  unfold resize
  rw [List.take_of_length_le h, List.getD_eq_getElem?_getD, List.getD_eq_getElem?_getD,
    List.getElem?_append]
  split
  · rfl
  · rename_i hl
    rw [List.getElem?_eq_none (l := l) (by omega)]
    by_cases hr : ℓ - l.length < n - l.length
    · rw [List.getElem?_replicate_of_lt hr]
      rfl
    · rw [List.getElem?_eq_none (by simpa using hr)]

theorem resize_length {α : Type*} (l : List α) (n : ℕ) (x : α) : (resize l n x).length = n := by
  unfold resize
  simp
  omega

theorem finalizeLoop_spec (n : ℕ) (old : List (List (List ℕ))) (ds : List (Data K S))
    (lvs : List (List (List ℕ))) (h : finalizeLoop n old ds = .ok lvs) :
    lvs.length = ds.length ∧ ∀ b d, ds[b]? = some d →
      ∃ lv, lvs[b]? = some lv ∧ finalizeBranch n (old.getD b []) d = .ok lv := by
  induction ds generalizing old lvs with
  | nil =>
    simp only [finalizeLoop, Except.ok.injEq] at h
    subst h
    simp
  | cons d ds ih =>
    simp only [finalizeLoop] at h
    split at h
    · simp at h
    · rename_i lv hlv
      split at h
      · simp at h
      · rename_i lvs' hlvs
        simp only [Except.ok.injEq] at h
        subst h
        obtain ⟨h1, h2⟩ := ih _ _ hlvs
        refine ⟨by simp [h1], ?_⟩
        intro b e hb
        cases b with
        | zero =>
          simp only [List.getElem?_cons_zero, Option.some.injEq] at hb
          subst hb
          refine ⟨lv, rfl, ?_⟩
          rw [← hlv]
          congr 1
          cases old <;> rfl
        | succ b =>
          obtain ⟨lv', h3, h4⟩ := h2 b e (by simpa using hb)
          refine ⟨lv', by simpa using h3, ?_⟩
          rw [← h4]
          congr 1
          cases old <;> rfl

theorem finalizeLoop_ok (n : ℕ) (old : List (List (List ℕ))) (ds : List (Data K S))
    (h : ∀ d ∈ ds, ∀ o, ∃ lv, finalizeBranch n o d = .ok lv) :
    ∃ lvs, finalizeLoop n old ds = .ok lvs := by
  induction ds generalizing old with
  | nil => exact ⟨[], rfl⟩
  | cons d ds ih =>
    obtain ⟨lv, h1⟩ := h d (by simp) (old.headD [])
    obtain ⟨lvs, h2⟩ := ih old.tail (fun e he => h e (by simp [he]))
    exact ⟨lv :: lvs, by simp only [finalizeLoop, h1, h2]⟩

theorem finalize_spec {c : Container K S} {old : List (List (List ℕ))} {v : Views K S}
    (h : finalize c old = .ok v) :
    v.flats = c.map flat ∧ ∀ b d, c[b]? = some d → ∃ lv, v.lvl[b]? = some lv ∧
      finalizeBranch c.length ((resize old c.length []).getD b []) d = .ok lv := by
  unfold finalize at h
  split at h
  · simp at h
  · rename_i lvs hl
    simp only [Except.ok.injEq] at h
    subst h
    exact ⟨rfl, (finalizeLoop_spec _ _ _ _ hl).2⟩

/-- Points of the first `n` with level `ℓ`, from indices. -/
theorem range_filter_map (l : List (FlatPoint K S)) (n ℓ : ℕ) :
    ((List.range n).filter (fun k => (l.map (·.level))[k]? = some ℓ)).map (fun k => l[k]?) =
      ((l.take n).filter (fun x => x.level = ℓ)).map some := by
  induction n with
  | zero => simp
  | succ n ih =>
    rw [List.range_succ, List.filter_append, List.map_append, ih]
    rcases lt_or_ge n l.length with hn | hn
    · rw [List.take_add_one, List.filter_append, List.map_append]
      congr 1
      rw [List.getElem?_eq_getElem hn]
      simp only [Option.toList_some, List.filter_cons, List.filter_nil, List.getElem?_map,
        List.getElem?_eq_getElem hn, Option.map_some, Option.some.injEq]
      by_cases hl : l[n].level = ℓ
      · simp [hl, List.getElem?_eq_getElem hn]
      · simp [hl]
    · rw [List.take_of_length_le hn, List.take_of_length_le (by omega)]
      simp [List.filter_cons, List.getElem?_eq_none hn]

/-- **C24** The flat views are the points of the branches. -/
theorem C24_flat {c : Container K S} {old : List (List (List ℕ))} {v : Views K S}
    (h : finalize c old = .ok v) (b : ℕ) (d : Data K S) (hd : c[b]? = some d) :
    v.flats[b]? = some (flat d) := by
  rw [(finalize_spec h).1, List.getElem?_map, hd]
  rfl

/-- **C24** What the per-level views list after the first call: the points of that level among the first
`n` points of the branch, where `n` is the number of branches. -/
theorem C24_listed {c : Container K S} {v : Views K S} (h : finalize c [] = .ok v) (b : ℕ) (d : Data K S)
    (hd : c[b]? = some d) (ℓ : ℕ) :
    v.perLevel b ℓ = (((flat d).take c.length).filter (fun x => x.level = ℓ)).map some := by
  obtain ⟨hf, hs⟩ := finalize_spec h
  obtain ⟨lv, h1, h2⟩ := hs b d hd
  unfold finalizeBranch at h2
  rw [getD_resize [] _ _ (by simp)] at h2
  obtain ⟨-, -, h3⟩ := pushPoints_spec _ _ _ _ h2
  have h4 : v.lvl.getD b [] = lv := by simp [List.getD_eq_getElem?_getD, h1]
  have h5 : v.flats.getD b [] = flat d := by
    simp [List.getD_eq_getElem?_getD, C24_flat h b d hd]
  unfold Views.perLevel
  rw [h4, h5, h3, getD_resize _ _ _ (by simp)]
  simp only [List.getD_nil, List.nil_append]
  exact range_filter_map (flat d) c.length ℓ

/-- **C24** The per-level views list all points of each level if every branch has as many points as there
are branches. Partial: otherwise this is false, see below. -/
theorem C24_per_level_partial {c : Container K S} {v : Views K S} (h : finalize c [] = .ok v) (b : ℕ)
    (d : Data K S) (hd : c[b]? = some d) (hn : (flat d).length = c.length) (ℓ : ℕ) :
    v.perLevel b ℓ = ((flat d).filter (fun x => x.level = ℓ)).map some := by
  rw [C24_listed h b d hd, List.take_of_length_le (by omega)]

/-- **C24** `_finalize` succeeds if every branch has at least as many points as there are branches, and
no point has a level beyond the maximum (C08). -/
theorem C24_no_failure_partial {c : Container K S} (old : List (List (List ℕ)))
    (hn : ∀ d ∈ c, c.length ≤ (flat d).length)
    (hl : ∀ d ∈ c, ∀ x ∈ flat d, x.level ≤ d.maxLevel) : ∃ v, finalize c old = .ok v := by
  obtain ⟨lvs, h⟩ := finalizeLoop_ok c.length (resize old c.length []) c (by
    intro d hd o
    apply pushPoints_ok
    intro k hk
    have hk' : k < (flat d).length := lt_of_lt_of_le (List.mem_range.1 hk) (hn d hd)
    refine ⟨(flat d)[k].level, by simp [List.getElem?_eq_getElem hk'], ?_⟩
    rw [resize_length]
    have := hl d hd _ (List.getElem_mem hk')
    omega)
  exact ⟨⟨c.map flat, lvs⟩, by simp [finalize, h]⟩

/-- **C24** violated: the views of a branch list as many points as there are branches, however many
points it has; a point behind is listed in none of them. -/
theorem C24_violated_missing {c : Container K S} {v : Views K S} (h : finalize c [] = .ok v) (b : ℕ)
    (d : Data K S) (hd : c[b]? = some d) {k : ℕ} (hk : c.length ≤ k) (ℓ : ℕ) :
    k ∉ (v.lvl.getD b []).getD ℓ [] := by
  obtain ⟨hf, hs⟩ := finalize_spec h
  obtain ⟨lv, h1, h2⟩ := hs b d hd
  unfold finalizeBranch at h2
  rw [getD_resize [] _ _ (by simp)] at h2
  obtain ⟨-, -, h3⟩ := pushPoints_spec _ _ _ _ h2
  have h4 : v.lvl.getD b [] = lv := by simp [List.getD_eq_getElem?_getD, h1]
  rw [h4, h3, getD_resize _ _ _ (by simp)]
  simp only [List.getD_nil, List.nil_append, List.mem_filter, List.mem_range]
  omega

/-- **C24** violated: if a branch has fewer points than there are branches, `_finalize` reads past its end
(or fails before). -/
theorem C24_violated_out_of_range {c : Container K S} {old : List (List (List ℕ))} {d : Data K S}
    (hd : d ∈ c) (hn : (flat d).length < c.length) (v : Views K S) : finalize c old ≠ .ok v := by
  intro h
  obtain ⟨b, hb⟩ := List.mem_iff_getElem?.1 hd
  obtain ⟨-, hs⟩ := finalize_spec h
  obtain ⟨lv, -, h2⟩ := hs b d hb
  obtain ⟨-, h3, -⟩ := pushPoints_spec _ _ _ _ h2
  obtain ⟨ℓ, h4, -⟩ := h3 (flat d).length (List.mem_range.2 hn)
  simp at h4

/-- **C24** violated: a second `_finalize` on the same data appends the same pointers again, so that
every listed point appears twice. -/
theorem C24_violated_second_call {c : Container K S} {v w : Views K S} (h : finalize c [] = .ok v)
    (h' : finalize c v.lvl = .ok w) (b : ℕ) (d : Data K S) (hd : c[b]? = some d) (ℓ : ℕ) :
    w.perLevel b ℓ = v.perLevel b ℓ ++ v.perLevel b ℓ := by
  have hlen : v.lvl.length = c.length := by
    unfold finalize at h
    split at h
    · simp at h
    · rename_i lvs hl
      simp only [Except.ok.injEq] at h
      subst h
      exact (finalizeLoop_spec _ _ _ _ hl).1
  obtain ⟨hf, hs⟩ := finalize_spec h
  obtain ⟨hf', hs'⟩ := finalize_spec h'
  obtain ⟨lv, h1, h2⟩ := hs b d hd
  obtain ⟨lw, g1, g2⟩ := hs' b d hd
  have h4 : v.lvl.getD b [] = lv := by simp [List.getD_eq_getElem?_getD, h1]
  have g4 : w.lvl.getD b [] = lw := by simp [List.getD_eq_getElem?_getD, g1]
  unfold finalizeBranch at h2 g2
  rw [getD_resize [] _ _ (by simp)] at h2
  rw [getD_resize _ _ _ hlen.le, h4] at g2
  obtain ⟨e1, -, h3⟩ := pushPoints_spec _ _ _ _ h2
  obtain ⟨-, -, g3⟩ := pushPoints_spec _ _ _ _ g2
  rw [resize_length] at e1
  have key : lw.getD ℓ [] = lv.getD ℓ [] ++ lv.getD ℓ [] := by
    have e2 := h3 ℓ
    rw [getD_resize _ _ _ (by simp)] at e2
    simp only [List.getD_nil, List.nil_append] at e2
    rw [g3, getD_resize _ _ _ e1.le, ← e2]
  unfold Views.perLevel
  rw [h4, g4, key, List.map_append, hf, hf']

/-! ## Examples -/

/-- A branch of three points, ready for corrections. -/
def viewBranch : Option (Data ℚ ℕ) :=
  runChecked (Data.fresh 1 (1/10) 1) [.init [0, 1, 3] [100, 101, 102]]

/-- `C24_flat`, `C24_listed`: one branch with three points; only the first is listed at level 0; and again after a second call. -/
example : ∃ (d : Data ℚ ℕ) (v w : Views ℚ ℕ), finalize [d] [] = .ok v ∧ finalize [d] v.lvl = .ok w ∧
    (flat d).length = 3 ∧ (v.perLevel 0 0).length = 1 ∧ (w.perLevel 0 0).length = 2 := by
  have h : viewBranch.any (fun d => (match finalize [d] [] with
      | .ok v => (match finalize [d] v.lvl with
        | .ok w => decide ((flat d).length = 3 ∧ (v.perLevel 0 0).length = 1 ∧
            (w.perLevel 0 0).length = 2)
        | .error _ => false)
      | .error _ => false)) = true := by
    decide +kernel
  rw [Option.any_eq_true] at h
  obtain ⟨d, -, h⟩ := h
  split at h
  · rename_i v hv
    split at h
    · rename_i w hw
      have := of_decide_eq_true h
      exact ⟨d, v, w, hv, hw, this⟩
    · simp at h
  · simp at h

/-- Three branches of three points: `C24_per_level_partial` and `C24_no_failure_partial` apply. -/
example : ∃ (d : Data ℚ ℕ) (v : Views ℚ ℕ), finalize [d, d, d] [] = .ok v ∧
    (flat d).length = [d, d, d].length ∧ (∀ x ∈ flat d, x.level ≤ d.maxLevel) ∧ (v.perLevel 1 0).length = 3 := by
  have h : viewBranch.any (fun d => (match finalize [d, d, d] [] with
      | .ok v => decide ((flat d).length = [d, d, d].length ∧ (∀ x ∈ flat d, x.level ≤ d.maxLevel) ∧
          (v.perLevel 1 0).length = 3)
      | .error _ => false)) = true := by
    decide +kernel
  rw [Option.any_eq_true] at h
  obtain ⟨d, -, h⟩ := h
  split at h
  · rename_i v hv
    exact ⟨d, v, hv, of_decide_eq_true h⟩
  · simp at h

/-- Four branches of three points: `C24_violated_out_of_range` applies. -/
example : ∃ d : Data ℚ ℕ, (flat d).length < [d, d, d, d].length := by
  have h : viewBranch.any (fun d => decide ((flat d).length < [d, d, d, d].length)) = true := by
    decide +kernel
  rw [Option.any_eq_true] at h
  obtain ⟨d, -, h⟩ := h
  exact ⟨d, of_decide_eq_true h⟩

end GsSA.APALM
