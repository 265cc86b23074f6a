import Verif.Tools.Domains

/-!
# The knot vectors of the geometries
-/

namespace GsSA.Tools

set_option linter.unusedSectionVars false

variable {K : Type} [Field K] [LinearOrder K] [IsStrictOrderedRing K]

/-! ### Uniform refinement -/

/-- Points with numbers `a` to `a + k` at distance `1 / d`. -/
def seg (a k : ℕ) (d : K) : List K := (List.range (k + 1)).map fun i => ((a + i : ℕ) : K) / d

theorem seg_succ (a k : ℕ) (d : K) : seg a (k + 1) d = (a : K) / d :: seg (a + 1) k d := by
  rw [seg, List.range_succ_eq_map, List.map_cons, List.map_map, seg]
  congr 1
  refine List.map_congr_left fun i _ => ?_
  simp only [Function.comp]
  rw [show a + (i + 1) = a + 1 + i by ring]

theorem refine_seg {d : K} (hd : 0 < d) (k : ℕ) : ∀ a, refineKnots (seg a k d) = seg (2 * a) (2 * k) (2 * d) := by
  have hd2 : (2 : K) * d ≠ 0 := by positivity
  have e : ∀ a : ℕ, ((2 * a : ℕ) : K) / (2 * d) = a / d := by
    intro a
    push_cast
    rw [mul_div_mul_left _ _ two_ne_zero]
  induction k with
  | zero =>
    intro a
    simp [seg, refineKnots, ← e a]
  | succ k ih =>
    intro a
    have hs : ∃ r, seg (a + 1) k d = ((a + 1 : ℕ) : K) / d :: r := by
      cases k with
      | zero => exact ⟨[], by simp [seg]⟩
      | succ k => exact ⟨_, seg_succ _ _ _⟩
    obtain ⟨r, hr⟩ := hs
    have h2 : seg (2 * a) (2 * (k + 1)) (2 * d) =
        ((2 * a : ℕ) : K) / (2 * d) :: ((2 * a + 1 : ℕ) : K) / (2 * d) :: seg (2 * (a + 1)) (2 * k) (2 * d) := by
      rw [show 2 * (k + 1) = 2 * k + 1 + 1 by ring, seg_succ, seg_succ, show 2 * a + 1 + 1 = 2 * (a + 1) by ring]
    rw [h2, ← ih (a + 1), seg_succ, hr, refineKnots, if_neg, e a]
    · congr 2
      push_cast
      field_simp
      ring
    · intro hc
      rw [div_left_inj' hd.ne'] at hc
      have : a = a + 1 := by exact_mod_cast hc
      omega

theorem refine_front (a : K) (r : List K) (p : ℕ) :
    refineKnots (List.replicate p a ++ a :: r) = List.replicate p a ++ refineKnots (a :: r) := by
  induction p with
  | zero => rfl
  | succ p ih =>
    rw [List.replicate_succ, List.cons_append]
    cases p with
    | zero => simp [refineKnots]
    | succ p =>
      rw [List.replicate_succ, List.cons_append] at ih ⊢
      rw [refineKnots, if_pos rfl, ih]
      rfl

theorem refine_rep (c : K) (p : ℕ) : refineKnots (c :: List.replicate p c) = c :: List.replicate p c := by
  induction p with
  | zero => rfl
  | succ p ih => rw [List.replicate_succ, refineKnots, if_pos rfl, ih]

theorem refine_back (c : K) (p : ℕ) (l : List K) :
    refineKnots (l ++ c :: List.replicate p c) = refineKnots (l ++ [c]) ++ List.replicate p c := by
  induction l with
  | nil =>
    rw [List.nil_append, refine_rep]
    rfl
  | cons a l ih =>
    cases l with
    | nil =>
      simp only [List.cons_append, List.nil_append, refineKnots]
      rw [refine_rep]
      split <;> rfl
    | cons b l =>
      simp only [List.cons_append] at ih ⊢
      rw [refineKnots, refineKnots, ih]
      split <;> rfl

theorem seg_last (k : ℕ) (d : K) : seg 0 k d = (List.range k).map (fun i : ℕ => (i : K) / d) ++ [(k : K) / d] := by
  rw [seg, List.range_succ, List.map_append]
  simp

/-- The knots of a direction, written out. -/
theorem rectKnots_eq (n p : ℕ) :
    (rectKnots n p : List K) = List.replicate p 0 ++ (seg 0 (2 ^ n) (2 ^ n) ++ List.replicate p 1) := by
  induction n with
  | zero =>
    rw [rectKnots, Function.iterate_zero, id, openKnots, List.replicate_succ', List.replicate_succ]
    simp [seg, List.range_succ]
  | succ n ih =>
    rw [rectKnots, Function.iterate_succ_apply', ← rectKnots, ih]
    have hpos : (0 : K) < 2 ^ n := by positivity
    have e1 : (seg 0 (2 ^ n) (2 ^ n) : List K) =
        (List.range (2 ^ n)).map (fun i : ℕ => (i : K) / 2 ^ n) ++ [1] := by
      rw [seg_last]
      congr 2
      push_cast
      exact div_self hpos.ne'
    obtain ⟨r, hr⟩ : ∃ r, (seg 0 (2 ^ n) (2 ^ n) : List K) = 0 :: r := by
      obtain ⟨m, hm⟩ : ∃ m, 2 ^ n = m + 1 := ⟨2 ^ n - 1, by have := Nat.one_le_two_pow (n := n); omega⟩
      rw [hm, seg_succ]
      simp
    rw [hr, List.cons_append, refine_front, ← List.cons_append, ← hr, e1, List.append_assoc, List.singleton_append,
      refine_back, ← e1, refine_seg hpos]
    rw [Nat.mul_zero, ← pow_succ', ← pow_succ', ← List.append_assoc]

theorem seg_length (a k : ℕ) (d : K) : (seg a k d).length = k + 1 := by simp [seg]

theorem rectKnots_size (n p : ℕ) : basisSize p (rectKnots n p : List K) = 2 ^ n + p := by
  rw [basisSize, rectKnots_eq]
  simp only [List.length_append, List.length_replicate, seg_length]
  generalize 2 ^ n = k
  omega

/-- The knots by their index. -/
theorem rectKnots_at (n p i : ℕ) : knotAt (rectKnots n p : List K) i = ((min (i - p) (2 ^ n) : ℕ) : K) / 2 ^ n := by
  have hpos : (0 : K) < 2 ^ n := by positivity
  rw [knotAt, rectKnots_eq, List.getD_eq_getElem?_getD, List.getElem?_append]
  simp only [List.length_replicate]
  by_cases h1 : i < p
  · rw [if_pos h1, List.getElem?_replicate, if_pos h1, show i - p = 0 by omega]
    simp
  · rw [if_neg h1, List.getElem?_append, seg_length]
    by_cases h2 : i - p < 2 ^ n + 1
    · rw [if_pos h2, seg, List.getElem?_map, List.getElem?_range h2, Nat.min_eq_left (by omega)]
      simp
    · rw [if_neg h2, List.getElem?_replicate, Nat.min_eq_right (by omega)]
      push_cast
      rw [div_self hpos.ne']
      split <;> rfl

/-! ### Open knot vectors -/

/-- An open knot vector of degree `p` as a list. -/
def IsOpen (p : ℕ) (l : List K) : Prop :=
  ∃ m, l = List.replicate (p + 1) 0 ++ (m ++ List.replicate (p + 1) 1) ∧ m.Pairwise (· ≤ ·) ∧ ∀ x ∈ m, 0 < x ∧ x < 1

theorem IsOpen.knots {p : ℕ} {l : List K} (h : IsOpen p l) : OpenKnots (knotAt l) (basisSize p l) p := by
  obtain ⟨m, rfl, hm, hx⟩ := h
  have at_ : ∀ i, knotAt (List.replicate (p + 1) 0 ++ (m ++ List.replicate (p + 1) 1)) i =
      if i < p + 1 then (0 : K) else if i - (p + 1) < m.length then m.getD (i - (p + 1)) 1 else 1 := by
    intro i
    rw [knotAt, List.getD_eq_getElem?_getD, List.getElem?_append]
    simp only [List.length_replicate]
    by_cases h1 : i < p + 1
    · rw [if_pos h1, if_pos h1, List.getElem?_replicate, if_pos h1]
      rfl
    · rw [if_neg h1, if_neg h1, List.getElem?_append]
      by_cases h2 : i - (p + 1) < m.length
      · rw [if_pos h2, if_pos h2, List.getD_eq_getElem?_getD]
      · rw [if_neg h2, if_neg h2, List.getElem?_replicate]
        split <;> rfl
  have hsize : basisSize p (List.replicate (p + 1) (0 : K) ++ (m ++ List.replicate (p + 1) 1)) = m.length + p + 1 := by
    rw [basisSize]
    simp only [List.length_append, List.length_replicate]
    omega
  have get : ∀ i (hi : i < m.length), m.getD i 1 = m[i] := fun i hi => by
    rw [List.getD_eq_getElem?_getD, List.getElem?_eq_getElem hi]
    rfl
  have mem : ∀ i (hi : i < m.length), 0 < m[i] ∧ m[i] < 1 := fun i hi => hx _ (List.getElem_mem hi)
  rw [hsize]
  refine ⟨fun i j hij => ?_, fun i hi => ?_, fun i hi => ?_, ?_, ?_, by omega⟩
  · rw [at_, at_]
    by_cases h1 : i < p + 1
    · rw [if_pos h1]
      by_cases h2 : j < p + 1
      · rw [if_pos h2]
      · rw [if_neg h2]
        by_cases h3 : j - (p + 1) < m.length
        · rw [if_pos h3, get _ h3]
          exact (mem _ h3).1.le
        · rw [if_neg h3]
          exact zero_le_one
    · rw [if_neg h1, if_neg (by omega : ¬j < p + 1)]
      by_cases h2 : i - (p + 1) < m.length
      · rw [if_pos h2, get _ h2]
        by_cases h3 : j - (p + 1) < m.length
        · rw [if_pos h3, get _ h3]
          rcases (show i - (p + 1) ≤ j - (p + 1) by omega).lt_or_eq with h4 | h4
          · exact List.pairwise_iff_getElem.1 hm _ _ h2 h3 h4
          · simp only [h4, le_refl]
        · rw [if_neg h3]
          exact (mem _ h2).2.le
      · rw [if_neg h2, if_neg (by omega)]
  · rw [at_, if_pos (by omega)]
  · rw [at_, if_neg (by omega), if_neg (by omega)]
  · rw [at_, if_neg (by omega)]
    by_cases h3 : p + 1 - (p + 1) < m.length
    · rw [if_pos h3, get _ h3]
      exact (mem _ h3).1
    · rw [if_neg h3]
      exact one_pos
  · rw [at_]
    by_cases h1 : m.length + p + 1 - 1 < p + 1
    · rw [if_pos h1]
      exact one_pos
    · rw [if_neg h1, if_pos (by omega), get _ (by omega)]
      exact (mem _ _).2

theorem isOpen_rect (n p : ℕ) : IsOpen p (rectKnots n p : List K) := by
  have hpos : (0 : K) < 2 ^ n := by positivity
  obtain ⟨m, hm⟩ : ∃ m, 2 ^ n = m + 1 := ⟨2 ^ n - 1, by have := Nat.one_le_two_pow (n := n); omega⟩
  have hcast : ((m : K) + 1) = 2 ^ n := by exact_mod_cast hm.symm
  refine ⟨(List.range m).map fun i => ((i + 1 : ℕ) : K) / 2 ^ n, ?_, ?_, ?_⟩
  · rw [rectKnots_eq, hm, seg_succ, List.replicate_succ', List.replicate_succ]
    have : (seg (0 + 1) m (2 ^ n) : List K) = (List.range m).map (fun i => ((i + 1 : ℕ) : K) / 2 ^ n) ++ [1] := by
      rw [seg, List.range_succ, List.map_append]
      congr 1
      · refine List.map_congr_left fun i _ => ?_
        rw [show 0 + 1 + i = i + 1 by ring]
      · simp only [List.map_cons, List.map_nil]
        congr 1
        push_cast
        rw [add_comm, hcast, div_self hpos.ne']
    rw [this]
    simp
  · rw [List.pairwise_map]
    refine List.Pairwise.imp ?_ List.pairwise_lt_range
    intro a b hab
    refine div_le_div_of_nonneg_right ?_ hpos.le
    exact_mod_cast (by omega : a + 1 ≤ b + 1)
  · intro x hx
    obtain ⟨i, hi, rfl⟩ := List.mem_map.1 hx
    have := List.mem_range.1 hi
    refine ⟨by positivity, ?_⟩
    rw [div_lt_one hpos, ← hcast]
    exact_mod_cast (by omega : i + 1 < m + 1)

theorem insert_front (x a : K) (h : a ≤ x) (p : ℕ) (r : List K) :
    insertKnot x (List.replicate p a ++ r) = List.replicate p a ++ insertKnot x r := by
  induction p with
  | zero => rfl
  | succ p ih => rw [List.replicate_succ, List.cons_append, insertKnot, if_pos h, ih, List.cons_append]

theorem insert_back (x c : K) (h : x < c) (p : ℕ) (m : List K) :
    insertKnot x (m ++ List.replicate (p + 1) c) = insertKnot x m ++ List.replicate (p + 1) c := by
  induction m with
  | nil => rw [List.nil_append, List.replicate_succ, insertKnot, if_neg (not_le.2 h)]; rfl
  | cons a m ih =>
    rw [List.cons_append, insertKnot, insertKnot, ih]
    split <;> rfl

theorem mem_insertKnot (x y : K) (m : List K) : y ∈ insertKnot x m ↔ y = x ∨ y ∈ m := by
  induction m with
  | nil => simp [insertKnot]
  | cons a m ih =>
    rw [insertKnot]
    split
    · rw [List.mem_cons, ih, List.mem_cons]
      tauto
    · rw [List.mem_cons]

theorem insert_sorted (x : K) (m : List K) (h : m.Pairwise (· ≤ ·)) : (insertKnot x m).Pairwise (· ≤ ·) := by
  induction m with
  | nil => simp [insertKnot]
  | cons a m ih =>
    rw [insertKnot]
    rw [List.pairwise_cons] at h
    split
    · rename_i hax
      rw [List.pairwise_cons]
      refine ⟨fun y hy => ?_, ih h.2⟩
      rcases (mem_insertKnot x y m).1 hy with rfl | hy
      · exact hax
      · exact h.1 y hy
    · rename_i hax
      rw [List.pairwise_cons]
      refine ⟨fun y hy => ?_, List.pairwise_cons.2 h⟩
      rcases List.mem_cons.1 hy with rfl | hy
      · exact (not_le.1 hax).le
      · exact (not_le.1 hax).le.trans (h.1 y hy)

theorem IsOpen.insert {p : ℕ} {l : List K} (h : IsOpen p l) {x : K} (h0 : 0 < x) (h1 : x < 1) :
    IsOpen p (insertKnot x l) := by
  obtain ⟨m, rfl, hm, hx⟩ := h
  refine ⟨insertKnot x m, ?_, insert_sorted x m hm, fun y hy => ?_⟩
  · rw [insert_front x 0 h0.le, insert_back x 1 h1]
  · rcases (mem_insertKnot x y m).1 hy with rfl | hy
    · exact ⟨h0, h1⟩
    · exact hx y hy

theorem mem_distinct (y : K) : ∀ l : List K, y ∈ distinct l → y ∈ l
  | [], h => h
  | [a], h => h
  | a :: b :: l, h => by
    rw [distinct] at h
    split at h
    · exact List.mem_cons_of_mem _ (mem_distinct y _ h)
    · rcases List.mem_cons.1 h with rfl | h
      · exact List.mem_cons_self
      · exact List.mem_cons_of_mem _ (mem_distinct y _ h)

theorem distinct_front (a : K) (r : List K) (p : ℕ) : distinct (List.replicate p a ++ a :: r) = distinct (a :: r) := by
  induction p with
  | zero => rfl
  | succ p ih =>
    rw [List.replicate_succ, List.cons_append]
    cases p with
    | zero => simp [distinct]
    | succ p =>
      rw [List.replicate_succ, List.cons_append] at ih ⊢
      rw [distinct, if_pos rfl, ih]

/-- The second distinct knot. -/
theorem rect_second (n p : ℕ) : (distinct (rectKnots n p : List K)).getD 1 0 = 1 / 2 ^ n := by
  have hpos : (0 : K) < 2 ^ n := by positivity
  obtain ⟨m, hm⟩ : ∃ m, 2 ^ n = m + 1 := ⟨2 ^ n - 1, by have := Nat.one_le_two_pow (n := n); omega⟩
  have h1 : (seg (0 + 1) m (2 ^ n) ++ List.replicate p 1 : List K) ≠ [] := by simp [seg]
  obtain ⟨r, hr⟩ : ∃ r, (seg (0 + 1) m (2 ^ n) ++ List.replicate p 1 : List K) = 1 / 2 ^ n :: r := by
    cases m with
    | zero => exact ⟨List.replicate p 1, by simp [seg]⟩
    | succ m => exact ⟨_, by rw [seg_succ, List.cons_append]; simp; rfl⟩
  rw [rectKnots_eq, hm, seg_succ, List.cons_append, hr, Nat.cast_zero, zero_div, distinct_front, distinct,
    if_neg (by positivity)]
  have : ∀ (a : K) (r : List K), (distinct (a :: r)).head? = some a := by
    intro a r
    induction r generalizing a with
    | nil => rfl
    | cons b r ih =>
      rw [distinct]
      split
      · rename_i hab
        rw [ih, hab]
      · rfl
  have hh := this (1 / 2 ^ n) r
  rw [List.getD_cons_succ]
  cases hd : distinct ((1 : K) / 2 ^ n :: r) with
  | nil => rw [hd] at hh; simp at hh
  | cons a t =>
    rw [hd] at hh
    simp only [List.head?_cons, Option.some.injEq] at hh
    simp [hh]

/-- The knots with the option `clamped`, for an offset of at most 1/2. -/
theorem clampKnots_eq (n p : ℕ) {off : K} (h0 : 0 < off) (h1 : off ≤ 1 / 2) :
    clampKnots off (rectKnots n p) = insertKnot (1 - off) (insertKnot (min off (1 / 2 ^ (n + 1))) (rectKnots n p)) := by
  unfold clampKnots
  simp only
  rw [rect_second, show (1 : K) / 2 ^ n / 2 = 1 / 2 ^ (n + 1) by rw [pow_succ, div_div]]
  congr 1
  refine max_eq_left ?_
  set l1 := insertKnot (min off (1 / 2 ^ (n + 1))) (rectKnots n p : List K) with hl1
  have hle : ∀ y ∈ l1, y ≤ 1 := by
    intro y hy
    rcases (mem_insertKnot _ y _).1 hy with rfl | hy
    · exact (min_le_left _ _).trans (by linarith)
    · obtain ⟨m, e, -, hx⟩ := isOpen_rect (K := K) n p
      rw [e] at hy
      rcases List.mem_append.1 hy with hy | hy
      · rw [List.eq_of_mem_replicate hy]; exact zero_le_one
      · rcases List.mem_append.1 hy with hy | hy
        · exact (hx y hy).2.le
        · rw [List.eq_of_mem_replicate hy]
  have : (distinct l1).getD ((distinct l1).length - 2) 0 ≤ 1 := by
    rw [List.getD_eq_getElem?_getD]
    cases hg : (distinct l1)[(distinct l1).length - 2]? with
    | none => exact zero_le_one
    | some y => exact hle y (mem_distinct y _ (List.mem_of_getElem? hg))
  linarith

end GsSA.Tools
