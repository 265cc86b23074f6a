import Mathlib.Algebra.Order.Ring.Rat
import Mathlib.Tactic.Linarith
import Mathlib.Tactic.Ring
import Mathlib.Tactic.FieldSimp
import Mathlib.Tactic.NormNum
import Mathlib.Tactic.Positivity
import Verif.Tools.Fitter

/-!
# Properties of the solution fitter

C71, C100, C101.
-/

namespace GsSA.Tools

set_option linter.unusedSectionVars false

open GsSA

variable {K : Type} [Field K] [LinearOrder K]

/-- The length of the polygon up to the point `i`, for `rt` the identity. -/
def lengthTo (rt : K → K) (t : ℕ → K) (i : ℕ) : K := ∑ k ∈ Finset.range i, rt (t (k + 1) - t k)

theorem foldl_add (f : ℕ → K) (n : ℕ) (x : K) :
    (List.range n).foldl (fun d i => d + f i) x = x + ∑ k ∈ Finset.range n, f k := by
  induction n with
  | zero => simp
  | succ n ih => rw [List.range_succ, List.foldl_append, ih, Finset.sum_range_succ]; simp [add_assoc]

theorem chord_eq (rt : K → K) (t : ℕ → K) (n : ℕ) : chord rt t n = lengthTo rt t (n - 1) := by
  rw [chord, foldl_add, zero_add]
  rfl

theorem window_eq (u : ℕ → K) (deg j : ℕ) : window u deg j = ∑ i ∈ Finset.range deg, u (j + i) := by
  rw [window, foldl_add (fun i => u (j + i)), zero_add]

theorem ubar_eq (rt : K → K) (t : ℕ → K) (n : ℕ) (hn : 2 ≤ n) (hd : chord rt t n ≠ 0) (i : ℕ)
    (hi : i ≤ n - 1) : ubar rt t n i = lengthTo rt t i / chord rt t n := by
  have key : ∀ m, m ≤ n - 2 → ∀ u : ℕ → K,
      u = (List.range m).foldl
        (fun u i => Function.update u (i + 1) (u i + 1 / chord rt t n * rt (t (i + 1) - t i)))
        (ubarStart n) →
      (∀ i ≤ m, u i = lengthTo rt t i / chord rt t n) ∧ u (n - 1) = 1 := by
    intro m
    induction m with
    | zero =>
      intro _ u hu
      subst hu
      refine ⟨fun i hi => ?_, by simp [ubarStart]⟩
      have h0 : i = 0 := Nat.le_zero.1 hi
      have h1 : (0 : ℕ) ≠ n - 1 := by omega
      subst h0
      simp [ubarStart, lengthTo, Function.update_of_ne h1]
    | succ m ih =>
      intro hm u hu
      rw [List.range_succ, List.foldl_append] at hu
      obtain ⟨h1, h2⟩ := ih (by omega) _ rfl
      simp only [List.foldl_cons, List.foldl_nil] at hu
      subst hu
      refine ⟨fun i hi => ?_, ?_⟩
      · rcases Nat.lt_or_ge i (m + 1) with h | h
        · rw [Function.update_of_ne (by omega)]
          exact h1 i (by omega)
        · have : i = m + 1 := by omega
          subst this
          rw [Function.update_self, h1 m le_rfl, lengthTo, lengthTo, Finset.sum_range_succ]
          ring
      · rw [Function.update_of_ne (by omega)]
        exact h2
  obtain ⟨h1, h2⟩ := key (n - 2) le_rfl _ rfl
  rcases Nat.lt_or_ge i (n - 1) with h | h
  · exact h1 i (by omega)
  · have : i = n - 1 := by omega
    subst this
    rw [← chord_eq, div_self hd]
    exact h2

theorem endKnots_eq (n deg : ℕ) (hn : deg < n) :
    (∀ i ≤ deg, endKnots (K := K) n deg i = 0) ∧
      ∀ i, n ≤ i → i ≤ n + deg → endKnots (K := K) n deg i = 1 := by
  have key : ∀ m, m ≤ deg + 1 → ∀ u : ℕ → K,
      u = (List.range m).foldl
        (fun u k => Function.update (Function.update u k 0) (n + deg + 1 - k - 1) 1) (fun _ => 0) →
      (∀ i ≤ deg, u i = 0) ∧ ∀ i, n + deg + 1 - m ≤ i → i ≤ n + deg → u i = 1 := by
    intro m
    induction m with
    | zero =>
      intro _ u hu
      subst hu
      exact ⟨fun _ _ => rfl, fun i h1 h2 => by omega⟩
    | succ m ih =>
      intro hm u hu
      rw [List.range_succ, List.foldl_append] at hu
      obtain ⟨h1, h2⟩ := ih (by omega) _ rfl
      simp only [List.foldl_cons, List.foldl_nil] at hu
      subst hu
      refine ⟨fun i hi => ?_, fun i hi hi2 => ?_⟩
      · rw [Function.update_of_ne (by omega)]
        by_cases h : i = m
        · rw [h, Function.update_self]
        · rw [Function.update_of_ne h]
          exact h1 i hi
      · by_cases h : i = n + deg + 1 - m - 1
        · rw [h, Function.update_self]
        · rw [Function.update_of_ne h, Function.update_of_ne (by omega)]
          exact h2 i (by omega) hi2
  obtain ⟨h1, h2⟩ := key (deg + 1) le_rfl _ rfl
  exact ⟨h1, fun i h3 h4 => h2 i (by omega) h4⟩

theorem rawKnots_eq (rt : K → K) (t : ℕ → K) (n deg : ℕ) (hn : deg < n) :
    (∀ i ≤ deg, rawKnots rt t n deg i = 0) ∧
      (∀ j, 1 ≤ j → j + deg < n →
        rawKnots rt t n deg (j + deg) = (∑ i ∈ Finset.range deg, ubar rt t n (j + i)) / deg) ∧
      ∀ i, n ≤ i → i ≤ n + deg → rawKnots rt t n deg i = 1 := by
  obtain ⟨e1, e2⟩ := endKnots_eq (K := K) n deg hn
  have key : ∀ m, m ≤ n - deg - 1 → ∀ u : ℕ → K,
      u = (List.range m).foldl
        (fun u i => Function.update u (i + 1 + deg) (window (ubar rt t n) deg (i + 1) / deg))
        (endKnots n deg) →
      (∀ i ≤ deg, u i = 0) ∧
      (∀ j, 1 ≤ j → j ≤ m → u (j + deg) = (∑ i ∈ Finset.range deg, ubar rt t n (j + i)) / deg) ∧
      ∀ i, n ≤ i → i ≤ n + deg → u i = 1 := by
    intro m
    induction m with
    | zero =>
      intro _ u hu
      subst hu
      exact ⟨e1, fun j h1 h2 => by omega, e2⟩
    | succ m ih =>
      intro hm u hu
      rw [List.range_succ, List.foldl_append] at hu
      obtain ⟨h1, h2, h3⟩ := ih (by omega) _ rfl
      simp only [List.foldl_cons, List.foldl_nil] at hu
      subst hu
      refine ⟨fun i hi => ?_, fun j hj hj2 => ?_, fun i hi hi2 => ?_⟩
      · rw [Function.update_of_ne (by omega)]
        exact h1 i hi
      · by_cases h : j = m + 1
        · rw [h, Function.update_self, window_eq]
        · rw [Function.update_of_ne (by omega)]
          exact h2 j hj (by omega)
      · rw [Function.update_of_ne (by omega)]
        exact h3 i hi hi2
  obtain ⟨h1, h2, h3⟩ := key (n - deg - 1) le_rfl _ rfl
  exact ⟨h1, fun j hj hj2 => h2 j hj (by omega), h3⟩

section

variable [IsStrictOrderedRing K]

theorem lengthTo_lt (rt : K → K) (hrt : ∀ x, 0 < x → 0 < rt x) (t : ℕ → K) (n : ℕ)
    (ht : ∀ i, i + 1 < n → t i < t (i + 1)) (i j : ℕ) (hij : i < j) (hj : j < n) :
    lengthTo rt t i < lengthTo rt t j := by
  induction j with
  | zero => omega
  | succ j ih =>
    have h1 : lengthTo rt t j < lengthTo rt t (j + 1) := by
      rw [lengthTo, lengthTo, Finset.sum_range_succ]
      have := hrt _ (sub_pos.2 (ht j hj))
      linarith
    rcases Nat.lt_or_ge i j with h | h
    · exact (ih h (by omega)).trans h1
    · have : i = j := by omega
      rw [this]; exact h1

/-- What is expected of the knot vector on `[a,b]` for `n` basis functions of degree `deg`. -/
structure GoodKnots (u : ℕ → K) (n deg : ℕ) (a b : K) : Prop where
  left : ∀ i ≤ deg, u i = a
  right : ∀ i, n ≤ i → i ≤ n + deg → u i = b
  inside : ∀ i, deg < i → i < n → a < u i ∧ u i < b
  strict : ∀ i j, deg < i → i < j → j < n → u i < u j
  mono : ∀ i j, i ≤ j → j ≤ n + deg → u i ≤ u j

theorem GoodKnots.mk' {u : ℕ → K} {n deg : ℕ} {a b : K} (hab : a ≤ b)
    (left : ∀ i ≤ deg, u i = a) (right : ∀ i, n ≤ i → i ≤ n + deg → u i = b)
    (inside : ∀ i, deg < i → i < n → a < u i ∧ u i < b)
    (strict : ∀ i j, deg < i → i < j → j < n → u i < u j) : GoodKnots u n deg a b := by
  refine ⟨left, right, inside, strict, fun i j hij hj => ?_⟩
  rcases Nat.lt_or_ge deg i with hi | hi
  · rcases Nat.lt_or_ge j n with hj2 | hj2
    · rcases Nat.lt_or_ge i j with h | h
      · exact (strict i j hi h hj2).le
      · rw [show i = j by omega]
    · rw [right j hj2 hj]
      rcases Nat.lt_or_ge i n with h | h
      · exact (inside i hi h).2.le
      · rw [right i h (by omega)]
  · rw [left i hi]
    rcases Nat.lt_or_ge j n with hj2 | hj2
    · rcases Nat.lt_or_ge deg j with h | h
      · exact (inside j h hj2).1.le
      · rw [left j h]
    · rw [right j hj2 hj]; exact hab

/-- **C71**: the averaged knots before the affine map: `deg + 1` zeros, strictly increasing knots strictly
between 0 and 1, `deg + 1` ones. `rt` is the identity (chord length) or the square root (centripetal). -/
theorem C71_raw (rt : K → K) (hrt : ∀ x, 0 < x → 0 < rt x) (t : ℕ → K) (n deg : ℕ) (hdeg : 1 ≤ deg)
    (hn : deg < n) (ht : ∀ i, i + 1 < n → t i < t (i + 1)) : GoodKnots (rawKnots rt t n deg) n deg 0 1 := by
  obtain ⟨h1, h2, h3⟩ := rawKnots_eq rt t n deg hn
  have hd : 0 < chord rt t n := by
    rw [chord_eq]
    have := lengthTo_lt rt hrt t n ht 0 (n - 1) (by omega) (by omega)
    simpa [lengthTo] using this
  have hu := ubar_eq rt t n (by omega) hd.ne'
  have hlt : ∀ i j, i < j → j ≤ n - 1 → ubar rt t n i < ubar rt t n j := by
    intro i j hij hj
    rw [hu i (by omega), hu j hj]
    exact (div_lt_div_iff_of_pos_right hd).2 (lengthTo_lt rt hrt t n ht i j hij (by omega))
  have h0 : ubar rt t n 0 = 0 := by rw [hu 0 (by omega)]; simp [lengthTo]
  have hlast : ubar rt t n (n - 1) = 1 := by rw [hu (n - 1) le_rfl, ← chord_eq, div_self hd.ne']
  have hdK : (0 : K) < (deg : K) := by exact_mod_cast hdeg
  have hne : (Finset.range deg).Nonempty := Finset.nonempty_range_iff.2 (by omega)
  refine GoodKnots.mk' zero_le_one h1 h3 ?_ ?_
  · intro i hi hin
    obtain ⟨j, rfl⟩ : ∃ j, i = j + deg := ⟨i - deg, by omega⟩
    rw [h2 j (by omega) hin]
    have hin' : ∀ k ∈ Finset.range deg, 0 < ubar rt t n (j + k) ∧ ubar rt t n (j + k) < 1 := by
      intro k hk
      rw [Finset.mem_range] at hk
      constructor
      · rw [← h0]; exact hlt _ _ (by omega) (by omega)
      · rw [← hlast]; exact hlt _ _ (by omega) le_rfl
    constructor
    · exact div_pos (Finset.sum_pos (fun k hk => (hin' k hk).1) hne) hdK
    · rw [div_lt_one hdK]
      calc _ < ∑ _k ∈ Finset.range deg, (1 : K) := Finset.sum_lt_sum_of_nonempty hne fun k hk => (hin' k hk).2
        _ = deg := by simp
  · intro i j hi hij hj
    obtain ⟨i, rfl⟩ : ∃ j, i = j + deg := ⟨i - deg, by omega⟩
    obtain ⟨j, rfl⟩ : ∃ k, j = k + deg := ⟨j - deg, by omega⟩
    rw [h2 i (by omega) (by omega), h2 j (by omega) hj]
    refine (div_lt_div_iff_of_pos_right hdK).2 (Finset.sum_lt_sum_of_nonempty hne fun k hk => ?_)
    rw [Finset.mem_range] at hk
    exact hlt _ _ (by omega) (by omega)

theorem GoodKnots.affine {u : ℕ → K} {n deg : ℕ} (h : GoodKnots u n deg 0 1) {a b : K} (hab : a < b) :
    GoodKnots (affine u (n + deg) a b) n deg a b := by
  have e : ∀ i, Tools.affine u (n + deg) a b i = a + u i * (b - a) := by
    intro i
    rw [Tools.affine, h.left 0 (Nat.zero_le _), h.right (n + deg) (by omega) le_rfl]
    ring
  have hp := sub_pos.2 hab
  refine GoodKnots.mk' hab.le ?_ ?_ ?_ ?_
  · intro i hi; rw [e, h.left i hi]; ring
  · intro i hi hi2; rw [e, h.right i hi hi2]; ring
  · intro i hi hi2
    obtain ⟨h1, h2⟩ := h.inside i hi hi2
    rw [e]
    constructor <;> nlinarith
  · intro i j hi hij hj
    have := h.strict i j hi hij hj
    rw [e, e]
    nlinarith

/-- **C71**: for each of the three parameterisations and at least `deg + 1` increasing times, the knot vector
is valid on the interval of the times: `deg + 1` knots at each end, and simple knots strictly inside. -/
theorem C71_knots (pow : ℤ → K → K) (hpow : ∀ p x, 0 < x → 0 < pow p x) (param : ℤ)
    (hp : param = 0 ∨ param = 1 ∨ param = 2) (t : ℕ → K) (n deg : ℕ) (hdeg : 1 ≤ deg) (hn : deg < n)
    (ht : ∀ i, i + 1 < n → t i < t (i + 1)) :
    ∃ u, knotsOf pow param t n deg = .ok u ∧ GoodKnots u n deg (t 0) (t (n - 1)) := by
  have hlt : t 0 < t (n - 1) := by
    have : ∀ m, m + 1 < n → t 0 < t (m + 1) := by
      intro m
      induction m with
      | zero => exact ht 0
      | succ m ih => intro h; exact (ih (by omega)).trans (ht _ h)
    have := this (n - 2) (by omega)
    rwa [show n - 2 + 1 = n - 1 by omega] at this
  rw [knotsOf]
  split
  · rw [if_neg (by omega)]
    refine ⟨_, rfl, ?_⟩
    have hnd : (0 : K) < ((n - deg : ℕ) : K) := by
      have : 0 < n - deg := by omega
      exact_mod_cast this
    have hstep : 0 < (t (n - 1) - t 0) / ((n - deg : ℕ) : K) := div_pos (sub_pos.2 hlt) hnd
    have e : ∀ i, deg < i → i < n → uniformKnots n deg (t 0) (t (n - 1)) i =
        t 0 + ((i - deg : ℕ) : K) * ((t (n - 1) - t 0) / ((n - deg : ℕ) : K)) := by
      intro i h1 h2
      rw [uniformKnots, if_neg (by omega), if_neg (by omega)]
    refine GoodKnots.mk' hlt.le ?_ ?_ ?_ ?_
    · intro i hi; rw [uniformKnots, if_pos hi]
    · intro i hi _; rw [uniformKnots, if_neg (by omega), if_pos hi]
    · intro i h1 h2
      rw [e i h1 h2]
      have hi : (0 : K) < ((i - deg : ℕ) : K) := by
        have : 0 < i - deg := by omega
        exact_mod_cast this
      have hi2 : ((i - deg : ℕ) : K) < ((n - deg : ℕ) : K) := by
        have : i - deg < n - deg := by omega
        exact_mod_cast this
      constructor
      · have := mul_pos hi hstep; linarith
      · have h3 := mul_lt_mul_of_pos_right hi2 hstep
        rw [mul_div_cancel₀ _ hnd.ne'] at h3
        linarith
    · intro i j h1 h2 h3
      rw [e i h1 (by omega), e j (by omega) h3]
      have hij : ((i - deg : ℕ) : K) < ((j - deg : ℕ) : K) := by
        have : i - deg < j - deg := by omega
        exact_mod_cast this
      have := mul_lt_mul_of_pos_right hij hstep
      linarith
  · rename_i h0
    rw [if_pos (hp.resolve_left h0), if_neg (by omega), if_neg (by omega)]
    exact ⟨_, rfl, (C71_raw _ (hpow param) t n deg hdeg hn ht).affine hlt⟩

end

/-! ### The data -/

theorem insertNew_present {κ ν : Type*} [LinearOrder κ] (m : OMap κ ν) (k : κ) (v w : ν) (hs : OMap.Sorted m)
    (h : m.get? k = some w) : m.insertNew k v = m := by
  induction m with
  | nil => simp [OMap.get?] at h
  | cons p m ih =>
    obtain ⟨a, b⟩ := p
    rw [OMap.get?_cons] at h
    have hp := List.pairwise_cons.1 hs
    by_cases hak : a = k
    · subst hak
      simp [OMap.insertNew]
    · rw [if_neg hak] at h
      have hm := OMap.mem_of_get? h
      have hlt : a < k := hp.1 _ hm
      rw [OMap.insertNew, if_neg (not_lt.2 hlt.le), if_neg (fun hh => hak hh.symm), ih hp.2 h]

theorem mem_insertNew {κ ν : Type*} [LinearOrder κ] (m : OMap κ ν) (k : κ) (v : ν) (q : κ × ν)
    (h : q ∈ m.insertNew k v) : q = (k, v) ∨ q ∈ m := by
  induction m with
  | nil => exact .inl (List.mem_singleton.1 h)
  | cons p m ih =>
    obtain ⟨a, b⟩ := p
    rw [OMap.insertNew] at h
    split at h
    · exact List.mem_cons.1 h
    · split at h
      · exact .inr h
      · rcases List.mem_cons.1 h with h | h
        · exact .inr (h ▸ List.mem_cons_self)
        · exact (ih h).imp id (List.mem_cons_of_mem _)

theorem sorted_insertNew {κ ν : Type*} [LinearOrder κ] (m : OMap κ ν) (k : κ) (v : ν) (hs : OMap.Sorted m) :
    OMap.Sorted (m.insertNew k v) := by
  induction m with
  | nil => exact List.pairwise_singleton _ _
  | cons p m ih =>
    obtain ⟨a, b⟩ := p
    have hp := List.pairwise_cons.1 hs
    rw [OMap.insertNew]
    split
    · rename_i hlt
      refine List.pairwise_cons.2 ⟨fun q hq => ?_, hs⟩
      rcases List.mem_cons.1 hq with rfl | hq
      · exact hlt
      · exact hlt.trans (hp.1 q hq)
    · rename_i hlt
      split
      · exact hs
      · rename_i hne
        refine List.pairwise_cons.2 ⟨fun q hq => ?_, ih hp.2⟩
        rcases mem_insertNew m k v q hq with rfl | hq
        · exact lt_of_le_of_ne (not_lt.1 hlt) fun h => hne h.symm
        · exact hp.1 q hq

variable {V : Type} [AddCommGroup V] [Module K V]

/-- **C100**: whatever the order in which data are given to the constructor and to `addDataPoint`, the times
are strictly increasing. -/
theorem C100_increasing (data : List V) (times : List K) (deg : ℕ) (s : Fitter K V)
    (h : Fitter.new data times deg = .ok s) (more : List (V × K)) (i : ℕ)
    (hi : i + 1 < (more.foldl (fun s x => s.addDataPoint x.1 x.2) s).data.length) :
    (more.foldl (fun s x => s.addDataPoint x.1 x.2) s).times i <
      (more.foldl (fun s x => s.addDataPoint x.1 x.2) s).times (i + 1) := by
  have h1 : ∀ (l : List (K × V)) (m : OMap K V), OMap.Sorted m →
      OMap.Sorted (l.foldl (fun m x => m.insertNew x.1 x.2) m) := by
    intro l
    induction l with
    | nil => exact fun m hm => hm
    | cons x l ih => exact fun m hm => ih _ (sorted_insertNew m x.1 x.2 hm)
  have h2 : OMap.Sorted s.data := by
    rw [Fitter.new] at h
    split at h
    · cases h
    · split at h
      · cases h
      · cases h
        exact h1 _ _ List.Pairwise.nil
  have h3 : ∀ (l : List (V × K)) (s : Fitter K V), OMap.Sorted s.data →
      OMap.Sorted (l.foldl (fun s x => s.addDataPoint x.1 x.2) s).data := by
    intro l
    induction l with
    | nil => exact fun s hs => hs
    | cons x l ih => exact fun s hs => ih _ (sorted_insertNew s.data x.2 x.1 hs)
  have h4 := h3 more s h2
  generalize more.foldl (fun s x => s.addDataPoint x.1 x.2) s = r at h4 hi
  have h5 := List.pairwise_iff_getElem.1 h4 i (i + 1) (by omega) hi (by omega)
  have hi1 : i < r.data.length := by omega
  simpa [Fitter.times, OMap.keys, List.getElem?_map, List.getElem?_eq_getElem hi,
    List.getElem?_eq_getElem hi1] using h5

/-- **C100** violated: `compute` throws for every data set without a datum at the time 0. -/
theorem C100_violated_origin (pow : ℤ → K → K) (lib : FitLib K V) (s : Fitter K V)
    (h : ∀ p ∈ s.data, p.1 ≠ 0) : s.compute pow lib = .error .exc := by
  rw [Fitter.compute, OMap.get?_eq_none.2 h]

/-- **C100** violated: a datum at a time that is present already is dropped. -/
theorem C100_violated_duplicate (s : Fitter K V) (hs : OMap.Sorted s.data) (x y : V) (time : K)
    (h : s.data.get? time = some y) : s.addDataPoint x time = s := by
  rw [Fitter.addDataPoint, insertNew_present _ _ _ _ hs h]

/-- **C100**: with a datum at the time 0, more data than the degree (and at least two) and one of the three
parameterisations, `compute` returns. -/
theorem C100_returns (pow : ℤ → K → K) (lib : FitLib K V) (s : Fitter K V) (y : V)
    (h : s.data.get? 0 = some y) (hp : s.param = 0 ∨ s.param = 1 ∨ s.param = 2)
    (hn : s.deg < s.data.length) (h2 : 2 ≤ s.data.length) :
    ∃ t, s.compute pow lib = .ok t ∧ t.data = s.data ∧ ∃ c, t.fit = some c ∧ c.n = s.data.length ∧
      c.deg = s.deg := by
  have hk : ∃ u, knotsOf pow s.param s.times s.data.length s.deg = .ok u := by
    rw [knotsOf]
    split
    · rw [if_neg (by omega)]; exact ⟨_, rfl⟩
    · rename_i h0
      rw [if_pos (hp.resolve_left h0), if_neg (by omega), if_neg (by omega)]; exact ⟨_, rfl⟩
  obtain ⟨u, hu⟩ := hk
  simp only [Fitter.compute, h, hu]
  exact ⟨_, rfl, rfl, _, rfl, rfl, rfl⟩

/-- The fitting library satisfies the constraints it is given, if this is possible. -/
def Constrained (lib : FitLib K V) : Prop :=
  ∀ t rhs C n, (∃ c : ℕ → V, ∀ k < n, ∑ j ∈ Finset.range n, C k j • c j = rhs k) →
    ∀ k < n, ∑ j ∈ Finset.range n, C k j • lib t rhs C n j = rhs k

/-- There are coefficients with which the curve of the given knots takes the given values at the anchors. -/
def Solvable (u : ℕ → K) (n deg : ℕ) (rhs : ℕ → V) : Prop :=
  ∃ c : ℕ → V, ∀ k < n, (Curve.mk deg n u c).eval (anchor u deg k) = rhs k

theorem compute_inv (pow : ℤ → K → K) (lib : FitLib K V) (s r : Fitter K V) (h : s.compute pow lib = .ok r) :
    ∃ u, knotsOf pow s.param s.times s.data.length s.deg = .ok u ∧ r.fit = some ⟨s.deg, s.data.length, u,
          lib s.times s.rows (fun k j => bspl u (u s.data.length) s.deg j (anchor u s.deg k))
            s.data.length⟩ := by
  rw [Fitter.compute] at h
  split at h
  · cases h
  · split at h
    · cases h
    · rename_i u hu
      cases h
      exact ⟨u, hu, rfl⟩

/-- **C101**: the fitted curve takes the value of the `k`-th datum at the `k`-th anchor of its basis, if a
curve with these knots can. -/
theorem C101_anchors (pow : ℤ → K → K) (lib : FitLib K V) (hl : Constrained lib) (s r : Fitter K V)
    (c : Curve K V) (h : s.compute pow lib = .ok r) (hc : r.fit = some c)
    (hsol : Solvable c.knots c.n c.deg s.rows) (k : ℕ) (hk : k < s.data.length) :
    c.eval (anchor c.knots c.deg k) = s.rows k := by
  obtain ⟨u, _, h2⟩ := compute_inv pow lib s r h
  rw [hc, Option.some.injEq] at h2
  subst h2
  obtain ⟨d, hd⟩ := hsol
  exact hl s.times s.rows (fun k j => bspl u (u s.data.length) s.deg j (anchor u s.deg k)) _ ⟨d, hd⟩ k hk

theorem bspl_one (u : ℕ → K) (n : ℕ) (hs : ∀ i j, 1 ≤ i → i < j → j ≤ n → u i < u j)
    (h0 : u 0 = u 1) (h1 : u (n + 1) = u n) (hn : 2 ≤ n) (k j : ℕ) (hk : k < n) (hj : j < n) :
    bspl u (u n) 1 j (u (k + 1)) = if j = k then 1 else 0 := by
  have hlt : ∀ i j, 1 ≤ i → i ≤ n → 1 ≤ j → j ≤ n → (u i < u j ↔ i < j) := by
    intro i j a b c d
    refine ⟨fun h => ?_, fun h => hs i j a h d⟩
    by_contra hc
    rcases Nat.lt_or_ge j i with h2 | h2
    · exact lt_asymm h (hs j i c h2 b)
    · rw [show i = j by omega] at h
      exact lt_irrefl _ h
  have hle : ∀ i j, 1 ≤ i → i ≤ n → 1 ≤ j → j ≤ n → (u i ≤ u j ↔ i ≤ j) := by
    intro i j a b c d
    rw [← not_lt, hlt j i c d a b, not_lt]
  have heq : ∀ i j, 1 ≤ i → i ≤ n → 1 ≤ j → j ≤ n → (u i = u j ↔ i = j) := by
    intro i j a b c d
    rw [le_antisymm_iff, hle i j a b c d, hle j i c d a b]
    omega
  -- the functions of degree 0
  have hz : ∀ j ≤ n, bspl u (u n) 0 j (u (k + 1)) =
      if (k + 1 < n ∧ j = k + 1) ∨ (k + 1 = n ∧ j = k) then 1 else 0 := by
    intro j hj
    rw [bspl]
    congr 1
    rw [eq_iff_iff]
    rcases Nat.eq_zero_or_pos j with rfl | hj0
    · rw [h0, zero_add, hle _ _ (by omega) (by omega) (by omega) (by omega),
        hlt _ _ (by omega) (by omega) (by omega) (by omega),
        heq _ _ (by omega) (by omega) (by omega) (by omega),
        hlt _ _ (by omega) (by omega) (by omega) (by omega),
        heq _ _ (by omega) (by omega) (by omega) (by omega)]
      omega
    · rcases Nat.lt_or_ge j n with h | h
      · rw [hle _ _ (by omega) (by omega) (by omega) (by omega),
          hlt _ _ (by omega) (by omega) (by omega) (by omega),
          heq _ _ (by omega) (by omega) (by omega) (by omega),
          hlt _ _ (by omega) (by omega) (by omega) (by omega),
          heq _ _ (by omega) (by omega) (by omega) (by omega)]
        omega
      · have : j = n := by omega
        subst this
        rw [h1, hle _ _ (by omega) (by omega) (by omega) (by omega),
          hlt _ _ (by omega) (by omega) (by omega) (by omega),
          heq _ _ (by omega) (by omega) (by omega) (by omega),
          hlt _ _ (by omega) (by omega) (by omega) (by omega),
          heq _ _ (by omega) (by omega) (by omega) (by omega)]
        omega
  rw [bspl, hz j hj.le, hz (j + 1) (by omega)]
  simp only [add_zero]
  rcases Nat.lt_or_ge (k + 1) n with hkn | hkn
  · by_cases e1 : j = k
    · subst e1
      have hne : u (j + 2) - u (j + 1) ≠ 0 := sub_ne_zero.2 (hs _ _ (by omega) (by omega) (by omega)).ne'
      rw [if_neg (by omega), if_pos (by omega), if_pos rfl, div_self hne]
      ring
    · by_cases e2 : j = k + 1
      · subst e2
        rw [if_pos (by omega), if_neg (by omega), if_neg (by omega)]
        simp
      · rw [if_neg (by omega), if_neg (by omega), if_neg e1]
        ring
  · have hk1 : k + 1 = n := by omega
    by_cases e1 : j = k
    · subst e1
      have hne : u (j + 1) - u j ≠ 0 := by
        rcases Nat.eq_zero_or_pos j with h | h
        · omega
        · exact sub_ne_zero.2 (hs _ _ (by omega) (by omega) (by omega)).ne'
      rw [if_pos (by omega), if_neg (by omega), if_pos rfl, div_self hne]
      ring
    · by_cases e2 : j + 1 = k
      · rw [if_neg (by omega), if_pos (by omega), if_neg e1]
        rw [show j + 2 = k + 1 by omega]
        simp
      · rw [if_neg (by omega), if_neg (by omega), if_neg e1]
        ring

theorem GoodKnots.solvable_one [IsStrictOrderedRing K] {u : ℕ → K} {n : ℕ} {a b : K}
    (h : GoodKnots u n 1 a b) (hab : a < b) (hn : 2 ≤ n) (rhs : ℕ → V) : Solvable u n 1 rhs := by
  refine ⟨rhs, fun k hk => ?_⟩
  have hs : ∀ i j, 1 ≤ i → i < j → j ≤ n → u i < u j := by
    intro i j hi hij hj
    rcases Nat.lt_or_ge 1 i with h1 | h1
    · rcases Nat.lt_or_ge j n with h2 | h2
      · exact h.strict i j h1 hij h2
      · rw [h.right j h2 (by omega)]
        exact (h.inside i h1 (by omega)).2
    · rw [h.left i h1]
      rcases Nat.lt_or_ge j n with h2 | h2
      · exact (h.inside j (by omega) h2).1
      · rw [h.right j h2 (by omega)]
        exact hab
  have ha : anchor u 1 k = u (k + 1) := by simp [anchor]
  rw [Curve.eval]
  simp only [ha]
  rw [Finset.sum_congr rfl fun j hj => by
    rw [bspl_one u n hs (by rw [h.left 0 (by omega), h.left 1 le_rfl])
      (by rw [h.right n le_rfl (by omega), h.right (n + 1) (by omega) le_rfl]) hn k j hk
      (Finset.mem_range.1 hj)]]
  simp only [ite_smul, one_smul, zero_smul, Finset.sum_ite_eq', Finset.mem_range, hk, if_true]

/-- **C101**: for degree 1 and the chord length (the default) the anchors are the times, so the curve
interpolates the data. -/
theorem C101_linear [IsStrictOrderedRing K] (pow : ℤ → K → K) (hpow : ∀ x, pow 1 x = x) (lib : FitLib K V)
    (hl : Constrained lib) (s r : Fitter K V) (c : Curve K V) (hdeg : s.deg = 1) (hp : s.param = 1)
    (hs : ∀ i, i + 1 < s.data.length → s.times i < s.times (i + 1))
    (h : s.compute pow lib = .ok r) (hc : r.fit = some c) (k : ℕ) (hk : k < s.data.length) :
    c.eval (s.times k) = s.rows k := by
  obtain ⟨u, hu, h2⟩ := compute_inv pow lib s r h
  have hn2 : 2 ≤ s.data.length := by
    by_contra hc
    rw [knotsOf, hp, if_neg (by decide), if_pos (Or.inl rfl), if_pos (by omega)] at hu
    cases hu
  have hlt : s.times 0 < s.times (s.data.length - 1) := by
    have : ∀ m, m + 1 < s.data.length → s.times 0 < s.times (m + 1) := by
      intro m
      induction m with
      | zero => exact hs 0
      | succ m ih => intro h; exact (ih (by omega)).trans (hs _ h)
    have := this (s.data.length - 2) (by omega)
    rwa [show s.data.length - 2 + 1 = s.data.length - 1 by omega] at this
  have hgood : GoodKnots u s.data.length 1 (s.times 0) (s.times (s.data.length - 1)) := by
    have hraw := C71_raw (pow 1) (fun x hx => by rw [hpow]; exact hx) s.times s.data.length 1 le_rfl
      (by omega) hs
    rw [knotsOf, hp, if_neg (by decide), if_pos (Or.inl rfl), hdeg, if_neg (by omega), if_neg (by omega)] at hu
    simp only [Except.ok.injEq] at hu
    rw [← hu]
    exact hraw.affine hlt
  have hsol : Solvable c.knots c.n c.deg s.rows := by
    rw [hc, Option.some.injEq] at h2
    rw [h2]
    simp only [hdeg]
    exact hgood.solvable_one hlt hn2 s.rows
  rw [← C101_anchors pow lib hl s r c h hc hsol k hk]
  congr 1
  rw [hc, Option.some.injEq] at h2
  subst h2
  simp only [hdeg]
  rw [anchor]
  simp only [Finset.sum_range_one, Nat.cast_one, div_one, add_zero]
  rw [knotsOf, hp, if_neg (by decide), if_pos (Or.inl rfl), hdeg] at hu
  rw [if_neg (by omega), if_neg (by omega)] at hu
  simp only [Except.ok.injEq] at hu
  have hid : pow 1 = id := funext hpow
  rw [hid] at hu
  set n := s.data.length with hn
  set t := s.times with ht
  have htel : ∀ i, lengthTo id t i = t i - t 0 := by
    intro i
    induction i with
    | zero => simp [lengthTo]
    | succ i ih =>
      rw [lengthTo, Finset.sum_range_succ]
      rw [lengthTo] at ih
      rw [ih]
      simp
  obtain ⟨k1, k2, k3⟩ := rawKnots_eq id t n 1 (by omega)
  have hd : 0 < chord id t n := by
    rw [chord_eq]
    have := lengthTo_lt id (fun _ h => h) t n hs 0 (n - 1) (by omega) (by omega)
    simpa [lengthTo] using this
  have hub := ubar_eq id t n (by omega) hd.ne'
  have hraw : rawKnots id t n 1 (k + 1) = ubar id t n k := by
    rcases Nat.eq_zero_or_pos k with h0 | h0
    · subst h0
      rw [k1 1 le_rfl, hub 0 (by omega)]
      simp [lengthTo]
    · rcases Nat.lt_or_ge (k + 1) n with h1 | h1
      · rw [k2 k h0 h1]
        simp
      · have hkn : k = n - 1 := by omega
        rw [k3 (k + 1) (by omega) (by omega), hub k (by omega), hkn, ← chord_eq, div_self hd.ne']
  rw [← hu, affine, k1 0 (by omega), k3 (n + 1) (by omega) le_rfl, hraw, hub k (by omega), htel, chord_eq,
    htel]
  rw [chord_eq, htel] at hd
  have := hd.ne'
  simp only [sub_zero, div_one]
  rw [div_mul_cancel₀ _ this]
  ring

/-! ### Examples -/

/-- A power function for the examples: right for `p = 1`. -/
def pow1 (_ : ℤ) (x : ℚ) : ℚ := x

/-- Four data `x = t` at times 0, 1/3, 2/3, 1, degree 2, chord length. -/
def four : Fitter ℚ ℚ := ⟨[(0, 0), (1 / 3, 1 / 3), (2 / 3, 2 / 3), (1, 1)], 2, 1, none⟩

/-- Its knots: 0, 0, 0, 1/2, 1, 1, 1. -/
def knots4 : ℕ → ℚ := affine (rawKnots (pow1 1) four.times 4 2) (4 + 2) (four.times 0) (four.times 3)

theorem four_knots : knotsOf pow1 four.param four.times four.data.length four.deg = .ok knots4 := by
  rw [knotsOf, if_neg (by decide), if_pos (by decide), if_neg (by decide), if_neg (by decide)]
  rfl

example : (List.range 7).map knots4 = [0, 0, 0, 1 / 2, 1, 1, 1] ∧
    (List.range 4).map (anchor knots4 2) = [0, 1 / 4, 3 / 4, 1] := by
  decide +kernel

theorem four_matrix : ∀ k < 4, ∀ j < 4, bspl knots4 (knots4 4) 2 j (anchor knots4 2 k) =
    (([[1, 0, 0, 0], [1 / 4, 5 / 8, 1 / 8, 0], [0, 1 / 8, 5 / 8, 1 / 4], [0, 0, 0, 1]] : List (List ℚ))[k]?.getD
      [])[j]?.getD 0 := by
  decide +kernel

theorem four_third : ∀ j < 4, bspl knots4 (knots4 4) 2 j (1 / 3) =
    ([1 / 9, 2 / 3, 2 / 9, 0] : List ℚ)[j]?.getD 0 := by
  decide +kernel

theorem four_rows : four.rows 0 = 0 ∧ four.rows 1 = 1 / 3 ∧ four.rows 2 = 2 / 3 ∧ four.rows 3 = 1 := by
  decide +kernel

/-- **C101** violated: with the default degree 2 a straight line sampled at equal distances is not
interpolated: whatever library satisfies the constraints, the curve misses the datum at 1/3. -/
theorem C101_violated_quadratic (lib : FitLib ℚ ℚ) (hl : Constrained lib) :
    ∃ r c, four.compute pow1 lib = .ok r ∧ r.fit = some c ∧ four.times 1 = 1 / 3 ∧
      c.eval (four.times 1) ≠ four.rows 1 := by
  obtain ⟨r, hr, -, c, hc, -, -⟩ := C100_returns pow1 lib four 0 rfl (Or.inr (Or.inl rfl)) (by decide)
    (by decide)
  have ht : four.times 1 = 1 / 3 := by decide +kernel
  refine ⟨r, c, hr, hc, ht, ?_⟩
  obtain ⟨u, hu, h2⟩ := compute_inv pow1 lib four r hr
  rw [four_knots] at hu
  simp only [Except.ok.injEq] at hu
  subst hu
  rw [hc, Option.some.injEq] at h2
  set d := c.coefs with hd
  have hdeg : c.deg = 2 ∧ c.n = 4 ∧ c.knots = knots4 := by rw [h2]; exact ⟨rfl, rfl, rfl⟩
  obtain ⟨r0, r1, r2, r3⟩ := four_rows
  have m := fun k (hk : k < 4) j (hj : j < 4) => four_matrix k hk j hj
  have ev : ∀ (d : ℕ → ℚ) k, (Curve.mk 2 4 knots4 d).eval (anchor knots4 2 k) =
      bspl knots4 (knots4 4) 2 0 (anchor knots4 2 k) * d 0 + bspl knots4 (knots4 4) 2 1 (anchor knots4 2 k) * d 1 +
      bspl knots4 (knots4 4) 2 2 (anchor knots4 2 k) * d 2 +
      bspl knots4 (knots4 4) 2 3 (anchor knots4 2 k) * d 3 := by
    intro d k
    simp [Curve.eval, Finset.sum_range_succ]
  have e0 : ∀ d : ℕ → ℚ, (Curve.mk 2 4 knots4 d).eval (anchor knots4 2 0) = d 0 := by
    intro d
    rw [ev, m 0 (by decide) 0 (by decide), m 0 (by decide) 1 (by decide), m 0 (by decide) 2 (by decide),
      m 0 (by decide) 3 (by decide)]
    simp
  have e1 : ∀ d : ℕ → ℚ, (Curve.mk 2 4 knots4 d).eval (anchor knots4 2 1) =
      1 / 4 * d 0 + 5 / 8 * d 1 + 1 / 8 * d 2 := by
    intro d
    rw [ev, m 1 (by decide) 0 (by decide), m 1 (by decide) 1 (by decide), m 1 (by decide) 2 (by decide),
      m 1 (by decide) 3 (by decide)]
    simp
  have e2 : ∀ d : ℕ → ℚ, (Curve.mk 2 4 knots4 d).eval (anchor knots4 2 2) =
      1 / 8 * d 1 + 5 / 8 * d 2 + 1 / 4 * d 3 := by
    intro d
    rw [ev, m 2 (by decide) 0 (by decide), m 2 (by decide) 1 (by decide), m 2 (by decide) 2 (by decide),
      m 2 (by decide) 3 (by decide)]
    simp
  have e3 : ∀ d : ℕ → ℚ, (Curve.mk 2 4 knots4 d).eval (anchor knots4 2 3) = d 3 := by
    intro d
    rw [ev, m 3 (by decide) 0 (by decide), m 3 (by decide) 1 (by decide), m 3 (by decide) 2 (by decide),
      m 3 (by decide) 3 (by decide)]
    simp
  have hsol : Solvable c.knots c.n c.deg four.rows := by
    rw [hdeg.1, hdeg.2.1, hdeg.2.2]
    refine ⟨fun i => if i = 0 then 0 else if i = 1 then 5 / 12 else if i = 2 then 7 / 12 else 1, ?_⟩
    intro k hk
    have : k = 0 ∨ k = 1 ∨ k = 2 ∨ k = 3 := by omega
    rcases this with rfl | rfl | rfl | rfl
    · rw [e0, r0]; simp
    · rw [e1, r1]; norm_num
    · rw [e2, r2]; norm_num
    · rw [e3, r3]; norm_num
  have hA := C101_anchors pow1 lib hl four r c hr hc hsol
  have hcd : c = Curve.mk 2 4 knots4 d := by
    rw [h2] at hd
    rw [h2, hd]
    rfl
  rw [hcd] at hA ⊢
  have a0 := hA 0 (by decide)
  have a1 := hA 1 (by decide)
  have a2 := hA 2 (by decide)
  have a3 := hA 3 (by decide)
  simp only at a0 a1 a2 a3
  rw [e0, r0] at a0
  rw [e1, r1] at a1
  rw [e2, r2] at a2
  rw [e3, r3] at a3
  have hv : (Curve.mk 2 4 knots4 d).eval (1 / 3) = 1 / 9 * d 0 + 2 / 3 * d 1 + 2 / 9 * d 2 := by
    have : (Curve.mk 2 4 knots4 d).eval (1 / 3) =
      bspl knots4 (knots4 4) 2 0 (1 / 3) * d 0 + bspl knots4 (knots4 4) 2 1 (1 / 3) * d 1 +
      bspl knots4 (knots4 4) 2 2 (1 / 3) * d 2 + bspl knots4 (knots4 4) 2 3 (1 / 3) * d 3 := by
      simp [Curve.eval, Finset.sum_range_succ]
    rw [this, four_third 0 (by decide), four_third 1 (by decide), four_third 2 (by decide),
      four_third 3 (by decide)]
    simp
  rw [ht, hv, r1]
  intro h
  linarith

/-- `C71_knots`: three knots inside for seven times and degree 3. -/
example : (List.range 11).map (rawKnots (pow1 1) (fun i => ((i * i : ℕ) : ℚ)) 7 3) =
    [0, 0, 0, 0, 7 / 54, 29 / 108, 25 / 54, 1, 1, 1, 1] := by
  decide +kernel

/-- `C100_violated_origin`: times 1 and 2. -/
example (lib : FitLib ℚ ℚ) :
    (Fitter.mk [(1, 5), (2, 6)] 1 1 none : Fitter ℚ ℚ).compute pow1 lib = .error .exc :=
  C100_violated_origin _ _ _ (by decide)

/-- `C100_increasing`: unsorted times with a repetition. -/
example : (Fitter.new [7, 8, 9, 10] [(2 : ℚ), 0, 1, 0] 1 : Except Fail (Fitter ℚ ℚ)).map
    (fun s => (s.addDataPoint 11 (1 / 2)).data.keys) = .ok [0, 1 / 2, 1, 2] := by
  decide +kernel

/-- `C100_violated_duplicate`: the second value for the time 1/3 is dropped. -/
example : four.addDataPoint 100 (1 / 3) = four :=
  C100_violated_duplicate four (by unfold OMap.Sorted; decide +kernel) 100 (1 / 3) (1 / 3) (by decide +kernel)

/-- **C100**: there is no fit through as many points as the degree, or fewer, whatever the parametrisation. -/
theorem C100_few (pow : ℤ → K → K) (param : ℤ) (t : ℕ → K) (n deg : ℕ) (h : n ≤ deg) :
    ∃ f, knotsOf pow param t n deg = .error f := by
  unfold knotsOf
  split_ifs
  · exact ⟨_, rfl⟩
  · exact ⟨_, rfl⟩
  · exact ⟨_, rfl⟩
  · exact ⟨_, rfl⟩

/-- **C100**: a new fitter has the degree given, the parametrisation by the length of chords and no fit. -/
theorem C100_new {V : Type} (data : List V) (times : List K) (deg : ℕ) (s : Fitter K V)
    (h : Fitter.new data times deg = .ok s) : s.deg = deg ∧ s.param = 1 ∧ s.fit = none := by
  unfold Fitter.new at h
  split_ifs at h
  cases h
  exact ⟨rfl, rfl, rfl⟩

/-- `C100_few`, `C100_new`: two points and degree 2. -/
example : (∃ f, knotsOf (fun _ x => x) 1 (fun k => (k : ℚ)) 2 2 = .error f) ∧
    (Fitter.new [(5 : ℚ), 6] [(0 : ℚ), 1] 2).toOption.map (fun s => (s.deg, s.param)) = some (2, 1) :=
  ⟨C100_few _ _ _ _ _ le_rfl, rfl⟩

end GsSA.Tools
