import Verif.Tools.PostProcess
import Mathlib.Tactic.Linarith
import Mathlib.Tactic.FieldSimp
import Mathlib.Tactic.Ring
import Mathlib.Tactic.NormNum
import Mathlib.Algebra.Order.Ring.Rat
import Mathlib.Algebra.Field.Rat
import Mathlib.Data.Rat.Floor

/-!
# C149: post-processing of solutions
-/

namespace GsSA.Tools

set_option linter.unusedSectionVars false

/-! ### Which solutions are read -/

theorem scanFiles_from (has : FileName → Bool) (sol : FileName) (n : ℕ) : ∀ (k fuel : ℕ),
    (∀ i < n, has (solFile sol (k + i)) = true) → has (solFile sol (k + n)) = false → n < fuel →
    scanFiles has sol fuel k = some ((List.range n).map fun i => solFile sol (k + i)) := by
  induction n with
  | zero =>
    intro k fuel _ h0 hf
    obtain ⟨f, rfl⟩ : ∃ f, fuel = f + 1 := ⟨fuel - 1, by omega⟩
    simp only [Nat.add_zero] at h0
    simp [scanFiles, h0]
  | succ n ih =>
    intro k fuel h h0 hf
    obtain ⟨f, rfl⟩ : ∃ f, fuel = f + 1 := ⟨fuel - 1, by omega⟩
    have hk : has (solFile sol k) = true := h 0 (by omega)
    rw [scanFiles, if_pos hk, ih (k + 1) f (fun i hi => by
      have := h (i + 1) (by omega)
      rwa [show k + 1 + i = k + (i + 1) by omega]) (by rwa [show k + 1 + n = k + (n + 1) by omega]) (by omega)]
    rw [Option.map_some, List.range_succ_eq_map, List.map_cons, List.map_map]
    congr 1
    simp only [Nat.add_zero, List.cons.injEq, true_and]
    apply List.map_congr_left
    intro i _
    simp only [Function.comp_apply, Nat.succ_eq_add_one]
    rw [show k + 1 + i = k + (i + 1) by omega]

theorem scanFiles_some (has : FileName → Bool) (sol : FileName) : ∀ (fuel k : ℕ) (l : List FileName),
    scanFiles has sol fuel k = some l → ∃ n < fuel, (∀ i < n, has (solFile sol (k + i)) = true) ∧
      has (solFile sol (k + n)) = false
  | 0, _, _, h => by simp [scanFiles] at h
  | fuel + 1, k, l, h => by
    rw [scanFiles] at h
    by_cases hk : has (solFile sol k) = true
    · rw [if_pos hk] at h
      obtain ⟨m, hm, rfl⟩ := Option.map_eq_some_iff.1 h
      obtain ⟨n, hn, h1, h2⟩ := scanFiles_some has sol fuel (k + 1) m hm
      refine ⟨n + 1, by omega, fun i hi => ?_, by rwa [show k + (n + 1) = k + 1 + n by omega]⟩
      rcases i with _ | i
      · exact hk
      · rw [show k + (i + 1) = k + 1 + i by omega]
        exact h1 i (by omega)
    · exact ⟨0, by omega, fun i hi => by omega, by simpa using hk⟩

/-- **C149** The loop ends as soon as a number is missing, and only then. The solutions found are the one without a number,
if there is one, and those with the numbers below the first missing one, in this order. -/
theorem C149_found (has : FileName → Bool) (sol : FileName) (fuel : ℕ) (l : List FileName) :
    foundFiles has sol fuel = some l ↔ ∃ n < fuel, (∀ i < n, has (solFile sol i) = true) ∧
      has (solFile sol n) = false ∧
      l = (if has (baseFile sol) = true then [baseFile sol] else []) ++ (List.range n).map (solFile sol) := by
  constructor
  · intro h
    obtain ⟨m, hm, rfl⟩ := Option.map_eq_some_iff.1 h
    obtain ⟨n, hn, h1, h2⟩ := scanFiles_some has sol fuel 0 m hm
    simp only [Nat.zero_add] at h1 h2
    refine ⟨n, hn, h1, h2, ?_⟩
    have := scanFiles_from has sol n 0 fuel (by simpa using h1) (by simpa using h2) hn
    rw [hm] at this
    simp only [Nat.zero_add, Option.some.injEq] at this
    rw [this]
  · rintro ⟨n, hn, h1, h2, rfl⟩
    rw [foundFiles, scanFiles_from has sol n 0 fuel (by simpa using h1) (by simpa using h2) hn]
    simp

/-- **C149** violated: a solution after a gap in the numbers is not processed, though it is in the folder. -/
theorem C149_violated_gap (has : FileName → Bool) (sol : FileName) {fuel g m : ℕ} {l : List FileName}
    (h : foundFiles has sol fuel = some l) (hg : has (solFile sol g) = false) (hm : g < m) :
    solFile sol m ∉ l := by
  obtain ⟨n, _, h1, _, rfl⟩ := (C149_found ..).1 h
  have hng : n ≤ g := by
    by_contra hc
    simp [h1 g (by omega)] at hg
  have inj : ∀ a b : ℕ, solFile sol a = solFile sol b → a = b := by
    intro a b e
    simp only [solFile, List.append_assoc] at e
    have e := List.append_cancel_right (List.append_cancel_left e)
    rw [Nat.toList_repr, Nat.toList_repr] at e
    rw [← Nat.ofDigitChars_ten_toDigits (n := a), ← Nat.ofDigitChars_ten_toDigits (n := b), e]
  simp only [List.mem_append, List.mem_map, List.mem_range, not_or, not_exists, not_and]
  constructor
  · split
    · simp only [List.mem_singleton]
      intro e
      simp only [solFile, baseFile, List.append_assoc] at e
      have e := congrArg List.length (List.append_cancel_left e)
      have : 0 < (Nat.repr m).toList.length := by
        rw [Nat.toList_repr]
        exact Nat.length_toDigits_pos
      simp only [List.length_append] at e
      omega
    · simp
  · intro i hi e
    have := inj _ _ e
    omega

/-! ### Where they are written -/

theorem repr_inj_chars {m n : ℕ} (h : (Nat.repr m).toList = (Nat.repr n).toList) : m = n := by
  rw [Nat.toList_repr, Nat.toList_repr] at h
  rw [← Nat.ofDigitChars_ten_toDigits (n := m), ← Nat.ofDigitChars_ten_toDigits (n := n), h]

theorem tableFile_inj {out : FileName} {m n : ℕ} (h : tableFile out m = tableFile out n) : m = n := by
  simp only [tableFile, List.append_assoc] at h
  exact repr_inj_chars (List.append_cancel_right (List.append_cancel_left h))

theorem vtsFile_inj {out : FileName} {k k' p p' : ℕ} (hp : p < 10) (hp' : p' < 10)
    (h : vtsFile out k p = vtsFile out k' p') : k = k' ∧ p = p' := by
  simp only [vtsFile, List.append_assoc] at h
  have h := List.append_cancel_left h
  rw [← List.append_assoc, ← List.append_assoc] at h
  have h := List.append_cancel_right h
  have hlen : ∀ n < 10, (Nat.repr n).toList.length = 1 := by decide
  obtain ⟨h1, h2⟩ := List.append_inj' h (by rw [hlen p hp, hlen p' hp'])
  exact ⟨repr_inj_chars h1, repr_inj_chars h2⟩

theorem tableFile_ne_vts (out : FileName) (m k p : ℕ) : tableFile out m ≠ vtsFile out k p := by
  intro h
  obtain ⟨_, h2⟩ := List.append_inj' h rfl
  exact absurd h2 (by decide)

theorem afterWrites_eq {N C : Type} [DecidableEq N] {l : List (N × C)} {d : N → Option C} {n : N} {c : C}
    (hu : ∀ c', (n, c') ∈ l → c' = c) (h : (n, c) ∈ l ∨ d n = some c) : afterWrites l d n = some c := by
  induction l generalizing d with
  | nil =>
    rcases h with h | h
    · cases h
    · exact h
  | cons x l ih =>
    obtain ⟨m, e⟩ := x
    rw [afterWrites]
    apply ih (fun c' hc => hu c' (List.mem_cons_of_mem _ hc))
    by_cases hm : m = n
    · subst hm
      rw [hu e List.mem_cons_self]
      right
      exact Function.update_self ..
    · rw [Function.update_of_ne (Ne.symm hm)]
      rcases h with h | h
      · rcases List.mem_cons.1 h with h | h
        · cases h
          exact absurd rfl hm
        · exact Or.inl h
      · exact Or.inr h

theorem mem_postWrites {pv w : Bool} {out : FileName} {P : ℕ} {files : List FileName} {x : FileName × Written} :
    x ∈ postWrites pv w out P files ↔ ∃ (k : ℕ) (f : FileName), files[k]? = some f ∧
      ((pv = true ∧ ∃ p < P, x = (vtsFile out k p, .patch f p)) ∨ w = true ∧ x = (tableFile out k, .table f)) := by
  simp only [postWrites, List.mem_flatMap, writesOf, List.mem_append]
  constructor
  · rintro ⟨⟨f, k⟩, hf, h⟩
    rw [List.mem_zipIdx_iff_getElem?] at hf
    refine ⟨k, f, hf, ?_⟩
    rcases h with h | h
    · split at h
      · rename_i hpv
        obtain ⟨p, hp, rfl⟩ := List.mem_map.1 h
        exact Or.inl ⟨hpv, p, List.mem_range.1 hp, rfl⟩
      · cases h
    · split at h
      · rename_i hw
        exact Or.inr ⟨hw, List.mem_singleton.1 h⟩
      · cases h
  · rintro ⟨k, f, hf, h⟩
    refine ⟨(f, k), List.mem_zipIdx_iff_getElem?.2 hf, ?_⟩
    rcases h with ⟨hpv, p, hp, rfl⟩ | ⟨hw, rfl⟩
    · left
      rw [if_pos hpv]
      exact List.mem_map.2 ⟨p, List.mem_range.2 hp, rfl⟩
    · right
      rw [if_pos hw]
      exact List.mem_singleton.2 rfl

/-- **C149** With `--write` the table with number `k` is, in the end, that of the `k`-th solution found. -/
theorem C149_tables (pv : Bool) (out : FileName) (P : ℕ) (files : List FileName) (d : FileName → Option Written)
    {k : ℕ} {f : FileName} (hf : files[k]? = some f) :
    afterWrites (postWrites pv true out P files) d (tableFile out k) = some (.table f) := by
  apply afterWrites_eq
  · intro c hc
    obtain ⟨k', f', hf', h | h⟩ := mem_postWrites.1 hc
    · obtain ⟨_, p, _, e⟩ := h
      exact absurd (congrArg Prod.fst e) (tableFile_ne_vts out k k' p)
    · have e1 := tableFile_inj (congrArg Prod.fst h.2)
      subst e1
      rw [hf] at hf'
      cases hf'
      exact congrArg Prod.snd h.2
  · exact Or.inl (mem_postWrites.2 ⟨k, f, hf, Or.inr ⟨rfl, rfl⟩⟩)

/-- **C149** With `--paraview` and at most ten patches every patch of every solution is, in the end, in its own file, and
part `k` of the collection is the first patch of the `k`-th solution, with the time `k`. -/
theorem C149_paraview (w : Bool) (out : FileName) {P : ℕ} (hP : P ≤ 10) (files : List FileName)
    (d : FileName → Option Written) {k : ℕ} {f : FileName} (hf : files[k]? = some f) :
    (∀ p < P, afterWrites (postWrites true w out P files) d (vtsFile out k p) = some (.patch f p)) ∧
    (postParts out files)[k]? = some (vtsFile out k 0, k) := by
  constructor
  · intro p hp
    apply afterWrites_eq
    · intro c hc
      obtain ⟨k', f', hf', h | h⟩ := mem_postWrites.1 hc
      · obtain ⟨_, p', hp', e⟩ := h
        obtain ⟨e1, e2⟩ := vtsFile_inj (by omega) (by omega) (congrArg Prod.fst e)
        subst e1 e2
        rw [hf] at hf'
        cases hf'
        exact congrArg Prod.snd e
      · exact absurd (congrArg Prod.fst h.2).symm (tableFile_ne_vts out k' k p)
    · exact Or.inl (mem_postWrites.2 ⟨k, f, hf, Or.inl ⟨rfl, p, hp, rfl⟩⟩)
  · have e : (Nat.repr 0).toList = "0".toList := by decide
    simp only [postParts, List.getElem?_map, List.getElem?_zipIdx, hf, Option.map_some, Nat.zero_add, vtsFile, e]

/-- **C149** If there is no solution without a number, the numbers of the outputs are those of the inputs. -/
theorem C149_numbers (has : FileName → Bool) (sol : FileName) {fuel : ℕ} {l : List FileName}
    (h : foundFiles has sol fuel = some l) (hb : has (baseFile sol) = false) {k : ℕ} (hk : k < l.length) :
    l[k]? = some (solFile sol k) := by
  obtain ⟨n, _, _, _, rfl⟩ := (C149_found ..).1 h
  simp only [hb, Bool.false_eq_true, if_false, List.nil_append, List.length_map, List.length_range] at hk ⊢
  simp [hk]

/-- **C149** violated: if there is one, the output with number `k+1` is that of the solution with number `k`. -/
theorem C149_violated_numbers (has : FileName → Bool) (sol : FileName) {fuel : ℕ} {l : List FileName}
    (h : foundFiles has sol fuel = some l) (hb : has (baseFile sol) = true) :
    l[0]? = some (baseFile sol) ∧ ∀ k : ℕ, k + 1 < l.length → l[k + 1]? = some (solFile sol k) := by
  obtain ⟨n, _, _, _, rfl⟩ := (C149_found ..).1 h
  rw [if_pos hb]
  refine ⟨by simp, fun k hk => ?_⟩
  simp only [List.cons_append, List.nil_append, List.length_cons, List.length_map, List.length_range] at hk
  simp [show k < n by omega]

/-- **C149** violated: with eleven patches and twelve solutions the file of patch 10 of solution 1 is that of patch 0 of
solution 11; not both are in the folder in the end. -/
theorem C149_violated_patches (w : Bool) (out : FileName) (P : ℕ) (files : List FileName)
    (d : FileName → Option Written) (f g : FileName) : vtsFile out 1 10 = vtsFile out 11 0 ∧
    ¬ (afterWrites (postWrites true w out P files) d (vtsFile out 1 10) = some (.patch f 10) ∧
      afterWrites (postWrites true w out P files) d (vtsFile out 11 0) = some (.patch g 0)) := by
  have e : vtsFile out 1 10 = vtsFile out 11 0 := by
    simp only [vtsFile, List.append_assoc]
    rw [← List.append_assoc (Nat.repr 1).toList, ← List.append_assoc (Nat.repr 11).toList,
      show (Nat.repr 1).toList ++ (Nat.repr 10).toList = (Nat.repr 11).toList ++ (Nat.repr 0).toList by decide]
  refine ⟨e, fun h => ?_⟩
  rw [e] at h
  have := h.1.symm.trans h.2
  cases this

/-- **C149** violated: the collection has no file of another patch than the first. -/
theorem C149_violated_parts (out : FileName) (files : List FileName) (k t : ℕ) {p : ℕ} (h0 : 0 < p) (hp : p < 10) :
    (vtsFile out k p, t) ∉ postParts out files := by
  intro h
  obtain ⟨⟨f, j⟩, hj, e⟩ := List.mem_map.1 h
  have e0 : (Nat.repr 0).toList = "0".toList := by decide
  have e1 : vtsFile out j 0 = vtsFile out k p := by
    refine Eq.trans ?_ (congrArg Prod.fst e)
    simp only [vtsFile, e0]
  have := (vtsFile_inj (by omega) hp e1).2
  omega

/-- `C149_found`, `C149_violated_gap`, `C149_violated_numbers`: a folder with `s.xml`, `s0.xml`, `s1.xml` and `s3.xml`. -/
example : foundFiles (fun n => n ∈ ["s.xml".toList, "s0.xml".toList, "s1.xml".toList, "s3.xml".toList]) "s".toList 9 =
    some ["s.xml".toList, "s0.xml".toList, "s1.xml".toList] := by
  decide +kernel

/-- `C149_numbers`. -/
example : foundFiles (fun n => n ∈ ["s0.xml".toList, "s1.xml".toList]) "s".toList 9 =
    some ["s0.xml".toList, "s1.xml".toList] := by
  decide +kernel

/-- `C149_tables`, `C149_paraview`, `C149_violated_parts`: the files written for two solutions of two patches. -/
example : postWrites true true "out".toList 2 ["s.xml".toList, "s0.xml".toList] =
    [("out00.vts".toList, .patch "s.xml".toList 0), ("out01.vts".toList, .patch "s.xml".toList 1),
     ("out0.csv".toList, .table "s.xml".toList), ("out10.vts".toList, .patch "s0.xml".toList 0),
     ("out11.vts".toList, .patch "s0.xml".toList 1), ("out1.csv".toList, .table "s0.xml".toList)] ∧
    postParts "out".toList ["s.xml".toList, "s0.xml".toList] = [("out00.vts".toList, 0), ("out10.vts".toList, 1)] := by
  decide +kernel

/-! ### Isolines -/

section Isolines

variable {K : Type} [Field K] [LinearOrder K] [IsStrictOrderedRing K]

/-- **C149** The points of an isoline: one coordinate is the fraction `u` of its range, the other goes in equal steps from
the first to the last value of its range, and all points are in the parameter domain. -/
theorem C149_points (r : Fin 2 → K × K) (hr : ∀ j, (r j).1 ≤ (r j).2) (dir : Fin 2) {u : K} (h0 : 0 ≤ u) (h1 : u ≤ 1)
    {N : ℕ} (hN : 2 ≤ N) :
    (∀ i, isoPoint r dir u N i dir - (r dir).1 = u * ((r dir).2 - (r dir).1)) ∧
    (∀ j, j ≠ dir → isoPoint r dir u N 0 j = (r j).1 ∧ isoPoint r dir u N (N - 1) j = (r j).2 ∧
      ∀ i, isoPoint r dir u N (i + 1) j - isoPoint r dir u N i j = ((r j).2 - (r j).1) / (N - 1 : ℕ)) ∧
    ∀ i < N, ∀ j, (r j).1 ≤ isoPoint r dir u N i j ∧ isoPoint r dir u N i j ≤ (r j).2 := by
  have hN0 : (0 : K) < ((N - 1 : ℕ) : K) := by exact_mod_cast (by omega : 0 < N - 1)
  refine ⟨fun i => ?_, fun j hj => ⟨?_, ?_, fun i => ?_⟩, fun i hi j => ?_⟩
  · simp [isoPoint]
  · rw [isoPoint, if_neg hj, linSpaced, if_neg (by omega)]
    simp
  · rw [isoPoint, if_neg hj, linSpaced, if_neg (by omega)]
    field_simp
    ring
  · rw [isoPoint, if_neg hj, isoPoint, if_neg hj, linSpaced, if_neg (by omega), linSpaced, if_neg (by omega)]
    push_cast
    ring
  · have key : ∀ t : K, 0 ≤ t → t ≤ 1 → (r j).1 ≤ t * ((r j).2 - (r j).1) + (r j).1 ∧
        t * ((r j).2 - (r j).1) + (r j).1 ≤ (r j).2 := by
      intro t ht0 ht1
      have hd : 0 ≤ (r j).2 - (r j).1 := sub_nonneg.2 (hr j)
      have e1 := mul_nonneg ht0 hd
      have e2 := mul_le_mul_of_nonneg_right ht1 hd
      constructor <;> linarith
    by_cases hj : j = dir
    · subst hj
      rw [isoPoint, if_pos rfl]
      exact key u h0 h1
    · rw [isoPoint, if_neg hj]
      apply key
      · rw [linSpaced, if_neg (by omega)]
        have : (0 : K) ≤ i := Nat.cast_nonneg i
        have := mul_nonneg this (div_nonneg (by norm_num : (0 : K) ≤ 1 - 0) hN0.le)
        linarith
      · rw [linSpaced, if_neg (by omega), sub_zero, zero_add, mul_one_div, div_le_one hN0]
        exact_mod_cast (by omega : i ≤ N - 1)

/-- **C149** violated: a line of one point has the last point only. -/
theorem C149_violated_one (r : Fin 2 → K × K) {dir j : Fin 2} (hj : j ≠ dir) (u : K) (i : ℕ) :
    isoPoint r dir u 1 i j = (r j).2 := by
  rw [isoPoint, if_neg hj, linSpaced, if_pos rfl]
  ring

theorem flatMap_block {α β : Type} (g : ℕ) (f : α → List β) : ∀ (l : List α), (∀ x ∈ l, (f x).length = g) →
    ∀ (p c : ℕ), c < g → (l.flatMap f)[p * g + c]? = l[p]?.bind fun x => (f x)[c]?
  | [], _, p, c, _ => by simp
  | x :: l, h, p, c, hc => by
    have hx := h x List.mem_cons_self
    rw [List.flatMap_cons]
    rcases p with _ | p
    · rw [List.getElem?_append_left (by omega)]
      simp
    · rw [List.getElem?_append_right (by rw [hx, Nat.succ_mul]; omega), hx,
        show (p + 1) * g + c - g = p * g + c by rw [Nat.succ_mul]; omega,
        flatMap_block g f l (fun y hy => h y (List.mem_cons_of_mem _ hy)) p c hc]
      simp

/-- **C149** The table of all patches has `N` rows; row `i` has, in the columns of patch `p`, the image of the `i`-th point
of the line on that patch. The table of one patch has its columns only. -/
theorem C149_table (mp : List (IsoPatch K)) {g : ℕ} (hg : ∀ s ∈ mp, ∀ x, (s.map x).length = g) (dir : Fin 2) (u : K)
    (N : ℕ) : (∃ t, isoTable mp none dir u N = some t ∧ t.length = N ∧ ∀ i < N, ∃ row, t[i]? = some row ∧
        row.length = mp.length * g ∧ ∀ p s, mp[p]? = some s → ∀ c < g,
          row[p * g + c]? = (s.map (isoPoint s.range dir u N i))[c]?) ∧
    ∀ p s, mp[p]? = some s → ∃ t, isoTable mp (some p) dir u N = some t ∧ t.length = N ∧
      ∀ i < N, t[i]? = some (s.map (isoPoint s.range dir u N i)) := by
  constructor
  · refine ⟨_, rfl, by simp, fun i hi => ⟨isoRow mp dir u N i, by simp [hi], ?_, fun p s hp c hc => ?_⟩⟩
    · rw [isoRow, List.length_flatMap]
      have : mp.map (fun s => (s.map (isoPoint s.range dir u N i)).length) = List.replicate mp.length g := by
        rw [List.eq_replicate_iff]
        refine ⟨by simp, fun b hb => ?_⟩
        obtain ⟨s, hs, rfl⟩ := List.mem_map.1 hb
        exact hg s hs _
      rw [this]
      simp
    · rw [isoRow, flatMap_block g _ mp (fun s hs => hg s hs _) p c hc, hp]
      rfl
  · intro p s hp
    refine ⟨_, by rw [isoTable, hp], by simp, fun i hi => by simp [hi]⟩

theorem isoFiles_mem {micro : K → ℤ} {mp : List (IsoPatch K)} {patch : Option ℕ} {N : ℕ} : ∀ {q : List (K × ℕ)}
    {l : List ((ℤ × ℕ) × List (List K))}, isoFiles micro mp patch N q = some l → ∀ x, x ∈ l ↔
      ∃ u dir, ∃ h : dir < 2, (u, dir) ∈ q ∧ x.1 = (micro u, dir) ∧ isoTable mp patch ⟨dir, h⟩ u N = some x.2
  | [], l, h, x => by
    simp only [isoFiles, Option.some.injEq] at h
    subst h
    simp
  | (u, dir) :: q, l, h, x => by
    rw [isoFiles] at h
    split at h
    · rename_i hd
      split at h
      · rename_i t r ht hr
        simp only [Option.some.injEq] at h
        subst h
        rw [List.mem_cons, isoFiles_mem hr x]
        constructor
        · rintro (rfl | ⟨u', d', hd', hm, e⟩)
          · exact ⟨u, dir, hd, List.mem_cons_self, rfl, ht⟩
          · exact ⟨u', d', hd', List.mem_cons_of_mem _ hm, e⟩
        · rintro ⟨u', d', hd', hm, e1, e2⟩
          rcases List.mem_cons.1 hm with hm | hm
          · cases hm
            left
            rw [ht] at e2
            cases e2
            exact Prod.ext e1 rfl
          · exact Or.inr ⟨u', d', hd', hm, e1, e2⟩
      · cases h
    · cases h

/-- **C149** A line with a direction and a value of `u` that differ, with six decimals, from those of all other lines asked
for is in its file in the end. -/
theorem C149_lines {micro : K → ℤ} {mp : List (IsoPatch K)} {patch : Option ℕ} {N : ℕ} {q : List (K × ℕ)}
    {l : List ((ℤ × ℕ) × List (List K))} (h : isoFiles micro mp patch N q = some l)
    (d : ℤ × ℕ → Option (List (List K))) {u : K} {dir : ℕ} (hd : dir < 2) (hq : (u, dir) ∈ q)
    (hu : ∀ v, (v, dir) ∈ q → micro v = micro u → v = u) :
    afterWrites l d (micro u, dir) = isoTable mp patch ⟨dir, hd⟩ u N := by
  have ht : ∃ t, isoTable mp patch ⟨dir, hd⟩ u N = some t := by
    clear hu d
    induction q generalizing l with
    | nil => cases hq
    | cons y q ih =>
      obtain ⟨v, e⟩ := y
      rw [isoFiles] at h
      split at h
      · split at h
        · rename_i t r ht hr
          rcases List.mem_cons.1 hq with hq | hq
          · cases hq
            exact ⟨t, ht⟩
          · exact ih hr hq
        · cases h
      · cases h
  obtain ⟨t, ht⟩ := ht
  rw [ht]
  apply afterWrites_eq
  · intro c hc
    obtain ⟨v, e, he, hv, e1, e2⟩ := (isoFiles_mem h _).1 hc
    simp only [Prod.mk.injEq] at e1
    obtain ⟨e1, rfl⟩ := e1
    rw [hu v hv e1.symm, ht] at e2
    exact (Option.some.inj e2).symm
  · exact Or.inl ((isoFiles_mem h _).2 ⟨u, dir, hd, hq, rfl, ht⟩)

/-- **C149** violated: of two lines with the same direction and the same six decimals of `u` only the second is kept. -/
theorem C149_violated_lines {micro : K → ℤ} {mp : List (IsoPatch K)} {patch : Option ℕ} {N : ℕ} {u v : K} {dir : ℕ}
    (hd : dir < 2) {l : List ((ℤ × ℕ) × List (List K))} (h : isoFiles micro mp patch N [(u, dir), (v, dir)] = some l)
    (d : ℤ × ℕ → Option (List (List K))) (huv : micro u = micro v) :
    afterWrites l d (micro u, dir) = isoTable mp patch ⟨dir, hd⟩ v N ∧
    ∀ n, n ≠ (micro u, dir) → afterWrites l d n = d n := by
  simp only [isoFiles, dif_pos hd] at h
  split at h
  · rename_i t r ht hr
    split at hr
    · rename_i t' r' ht' hr'
      cases hr'
      cases hr
      cases h
      simp only [afterWrites]
      rw [← huv, ht']
      refine ⟨Function.update_self .., fun n hn => ?_⟩
      rw [Function.update_of_ne hn, Function.update_of_ne hn]
    · cases hr
  · cases h

/-- Two bilinear patches side by side, the second with the parameter domain `[0,2]×[1,3]`. -/
def isoDemo : List (IsoPatch ℚ) :=
  [⟨fun _ => (0, 1), fun x => [x 0, x 1, x 0 * x 1]⟩, ⟨fun j => if j = 0 then (0, 2) else (1, 3), fun x => [x 0, x 1, 5]⟩]

/-- `C149_points`, `C149_table`, `C149_violated_one`. -/
example : isoTable isoDemo none 0 (1 / 2) 3 =
      some [[1 / 2, 0, 0, 1, 1, 5], [1 / 2, 1 / 2, 1 / 4, 1, 2, 5], [1 / 2, 1, 1 / 2, 1, 3, 5]] ∧
    isoTable isoDemo (some 1) 1 (1 / 4) 3 = some [[0, 3 / 2, 5], [1, 3 / 2, 5], [2, 3 / 2, 5]] ∧
    isoTable isoDemo (some 0) 0 (1 / 2) 1 = some [[1 / 2, 1, 1 / 2]] ∧ isoTable isoDemo (some 2) 0 0 2 = none := by
  decide +kernel

/-- `C149_lines`, `C149_violated_lines`. -/
example : (isoFiles (fun u : ℚ => round (1000000 * u)) isoDemo (some 0) 2 [(1 / 2, 0), (1 / 2, 1)]).map
      (List.map Prod.fst) = some [(500000, 0), (500000, 1)] ∧
    (isoFiles (fun u : ℚ => round (1000000 * u)) isoDemo (some 0) 2 [(1 / 3, 0), (333333 / 1000000, 0)]).map
      (List.map Prod.fst) = some [(333333, 0), (333333, 0)] ∧
    isoFiles (fun u : ℚ => round (1000000 * u)) isoDemo (some 0) 2 [(1 / 3, 2)] = none := by
  decide +kernel

end Isolines

end GsSA.Tools
