import Mathlib.Tactic.Linarith
import Mathlib.Tactic.Ring
import Mathlib.Tactic.FieldSimp
import Mathlib.Tactic.Positivity
import Mathlib.Algebra.BigOperators.Intervals
import Mathlib.Algebra.BigOperators.Ring.Finset
import Mathlib.Algebra.Order.BigOperators.Group.Finset
import Verif.Tools.Fitter

/-!
# B-splines with open knot vectors

Facts about the recursion of Cox and de Boor (`bspl`) that the geometries of the programs rest on.
-/

namespace GsSA.Tools

set_option linter.unusedSectionVars false

variable {K : Type} [Field K] [LinearOrder K] [IsStrictOrderedRing K]

/-- An open knot vector on `[0,1]` with `n` B-splines of degree `p`; indices beyond the end are read as 1. -/
structure OpenKnots (u : ℕ → K) (n p : ℕ) : Prop where
  mono : ∀ i j, i ≤ j → u i ≤ u j
  first : ∀ i, i ≤ p → u i = 0
  last : ∀ i, n ≤ i → u i = 1
  start : 0 < u (p + 1)
  finish : u (n - 1) < 1
  size : p < n

variable {u : ℕ → K} {n p : ℕ} {x y : K}

theorem bspl_support (hu : ∀ i j, i ≤ j → u i ≤ u j) {e : K} (q : ℕ) :
    ∀ j, bspl u e q j x ≠ 0 → u j ≤ x ∧ x ≤ u (j + q + 1) := by
  induction q with
  | zero =>
    intro j h
    simp only [bspl, ne_eq, ite_eq_right_iff, one_ne_zero, imp_false, not_not] at h
    rcases h with h | h
    · exact ⟨h.1, h.2.le⟩
    · exact ⟨h.2.1.le, h.2.2.ge⟩
  | succ q ih =>
    intro j h
    rw [bspl] at h
    by_cases h1 : bspl u e q j x = 0
    · by_cases h2 : bspl u e q (j + 1) x = 0
      · rw [h1, h2] at h
        simp at h
      · obtain ⟨a, b⟩ := ih _ h2
        exact ⟨(hu _ _ (by omega)).trans a, b.trans (hu _ _ (by omega))⟩
    · obtain ⟨a, b⟩ := ih _ h1
      exact ⟨a, b.trans (hu _ _ (by omega))⟩

theorem bspl_null (hu : ∀ i j, i ≤ j → u i ≤ u j) {e : K} (q : ℕ) :
    ∀ j, u j = u (j + q + 1) → bspl u e q j x = 0 := by
  induction q with
  | zero =>
    intro j h
    rw [bspl, if_neg]
    rintro (⟨h1, h2⟩ | ⟨-, h2, h3⟩)
    · rw [Nat.add_zero] at h
      rw [← h] at h2
      exact absurd h1 (not_le.2 h2)
    · rw [Nat.add_zero] at h
      rw [← h] at h3
      exact h2.ne h3
  | succ q ih =>
    intro j h
    have h1 : u j = u (j + q + 1) :=
      le_antisymm (hu _ _ (by omega)) (h ▸ hu _ _ (by omega))
    have h2 : u (j + 1) = u (j + 1 + q + 1) :=
      le_antisymm (hu _ _ (by omega)) (by
        rw [show j + 1 + q + 1 = j + (q + 1) + 1 by ring, ← h]
        exact hu _ _ (by omega))
    rw [bspl, ih j h1, ih (j + 1) h2]
    ring

theorem bspl_nonneg (hu : ∀ i j, i ≤ j → u i ≤ u j) {e : K} (q : ℕ) : ∀ j, 0 ≤ bspl u e q j x := by
  induction q with
  | zero =>
    intro j
    rw [bspl]
    split <;> norm_num
  | succ q ih =>
    intro j
    rw [bspl]
    refine add_nonneg ?_ ?_
    · by_cases h : bspl u e q j x = 0
      · rw [h, mul_zero]
      · exact mul_nonneg (div_nonneg (sub_nonneg.2 (bspl_support hu q j h).1) (sub_nonneg.2 (hu _ _ (by omega)))) (ih j)
    · by_cases h : bspl u e q (j + 1) x = 0
      · rw [h, mul_zero]
      · have := (bspl_support hu q (j + 1) h).2
        rw [show j + 1 + q + 1 = j + q + 2 by ring] at this
        exact mul_nonneg (div_nonneg (sub_nonneg.2 this) (sub_nonneg.2 (hu _ _ (by omega)))) (ih (j + 1))

/-- The part of a B-spline that goes to the B-spline of the next degree with the same number. -/
def upPart (u : ℕ → K) (q j : ℕ) (x : K) : K := (x - u j) / (u (j + q + 1) - u j) * bspl u 1 q j x

/-- The part that goes to the B-spline of the next degree with the number before. -/
def downPart (u : ℕ → K) (q j : ℕ) (x : K) : K := (u (j + q + 1) - x) / (u (j + q + 1) - u j) * bspl u 1 q j x

theorem bspl_succ (q j : ℕ) : bspl u 1 (q + 1) j x = upPart u q j x + downPart u q (j + 1) x := by
  rw [bspl, upPart, downPart, show j + 1 + q + 1 = j + q + 2 by ring]

theorem parts_add (hu : ∀ i j, i ≤ j → u i ≤ u j) (q j : ℕ) :
    upPart u q j x + downPart u q j x = bspl u 1 q j x := by
  unfold upPart downPart
  by_cases h : u (j + q + 1) - u j = 0
  · rw [bspl_null hu q j (sub_eq_zero.1 h).symm]
    ring
  · field_simp
    ring

namespace OpenKnots

variable (h : OpenKnots u n p)
include h

theorem le_one (i : ℕ) : u i ≤ 1 := by
  rw [← h.last (max i n) (le_max_right _ _)]
  exact h.mono _ _ (le_max_left _ _)

theorem nonneg (i : ℕ) : 0 ≤ u i := by
  rw [← h.first 0 (Nat.zero_le _)]
  exact h.mono _ _ (Nat.zero_le _)

theorem beyond (q : ℕ) {j : ℕ} (hj : n ≤ j) : bspl u 1 q j x = 0 :=
  bspl_null h.mono q j (by rw [h.last j hj, h.last _ (by omega)])

theorem early (q : ℕ) {j : ℕ} (hj : j + q + 1 ≤ p) : bspl u 1 q j x = 0 :=
  bspl_null h.mono q j (by rw [h.first j (by omega), h.first _ hj])

end OpenKnots

/-- The sum of the B-splines with numbers from `j`. -/
def tail (u : ℕ → K) (n q j : ℕ) (x : K) : K := ∑ i ∈ Finset.Ico j n, bspl u 1 q i x

theorem tail_head {q j : ℕ} (hj : j < n) : tail u n q j x = bspl u 1 q j x + tail u n q (j + 1) x := by
  rw [tail, tail, Finset.sum_eq_sum_Ico_succ_bot hj]

theorem tail_empty {q j : ℕ} (hj : n ≤ j) : tail u n q j x = 0 := by
  rw [tail, Finset.Ico_eq_empty_of_le hj, Finset.sum_empty]

namespace OpenKnots

variable (h : OpenKnots u n p)
include h

theorem tail_head' (q j : ℕ) : tail u n q j x = bspl u 1 q j x + tail u n q (j + 1) x := by
  rcases lt_or_ge j n with hj | hj
  · exact tail_head hj
  · rw [tail_empty hj, tail_empty (by omega), h.beyond q hj, add_zero]

theorem tail_succ (q : ℕ) {j : ℕ} (hj : j ≤ n) : tail u n (q + 1) j x = upPart u q j x + tail u n q (j + 1) x := by
  induction hj using Nat.decreasingInduction with
  | self =>
    rw [tail_empty le_rfl, tail_empty (by omega), upPart, h.beyond q le_rfl]
    ring
  | of_succ j hj ih =>
    have hj' : j < n := hj
    rw [tail_head hj', ih, bspl_succ, add_assoc, h.tail_head' q (j + 1), ← parts_add h.mono q (j + 1)]
    ring

theorem tail_zero {j : ℕ} (hj : j ≤ n) (hx0 : 0 ≤ x) (hx1 : x ≤ 1) :
    tail u n 0 j x = if u j ≤ x ∧ (x = 1 → u j < x) then 1 else 0 := by
  induction hj using Nat.decreasingInduction with
  | self =>
    rw [tail_empty le_rfl, if_neg]
    rintro ⟨h1, h2⟩
    rw [h.last n le_rfl] at h1 h2
    have : x = 1 := le_antisymm hx1 h1
    exact (h2 this).ne this.symm
  | of_succ j hj ih =>
    have hj' : j < n := hj
    rw [tail_head hj', ih, bspl]
    have hm := h.mono j (j + 1) (by omega)
    have h1 := h.le_one (j + 1)
    rcases hx1.lt_or_eq with hx | rfl
    · simp only [hx.ne, false_and, or_false, false_imp_iff, and_true]
      by_cases a : u j ≤ x
      · by_cases b : u (j + 1) ≤ x
        · rw [if_neg (by rintro ⟨-, c⟩; exact absurd b (not_le.2 c)), if_pos b, if_pos a, zero_add]
        · rw [if_pos ⟨a, not_le.1 b⟩, if_neg b, if_pos a, add_zero]
      · rw [if_neg (fun c => a c.1), if_neg (fun c => a (hm.trans c)), if_neg a, add_zero]
    · simp only [not_lt.2 h1, and_false, false_or, true_and, true_imp_iff, h1, h.le_one j]
      by_cases a : u j < 1
      · by_cases b : u (j + 1) < 1
        · rw [if_neg (fun c => b.ne c.2), if_pos b, if_pos a, zero_add]
        · rw [if_pos ⟨a, le_antisymm h1 (not_lt.1 b)⟩, if_neg b, if_pos a, add_zero]
      · rw [if_neg (fun c => a c.1), if_neg (fun c => a (hm.trans_lt c)), if_neg a, add_zero]

/-- The B-splines sum to one. -/
theorem partition {q : ℕ} (hq : q ≤ p) (hx0 : 0 ≤ x) (hx1 : x ≤ 1) : tail u n q 0 x = 1 := by
  induction q with
  | zero =>
    rw [h.tail_zero (Nat.zero_le _) hx0 hx1, h.first 0 (Nat.zero_le _), if_pos]
    exact ⟨hx0, fun e => by rw [e]; exact one_pos⟩
  | succ q ih =>
    rw [h.tail_succ q (Nat.zero_le _)]
    have e := h.tail_head' (x := x) q 0
    rw [ih (by omega), h.early q (by omega), zero_add] at e
    rw [← e, upPart, h.early q (by omega)]
    ring

theorem tail_nonneg (q j : ℕ) : 0 ≤ tail u n q j x := Finset.sum_nonneg fun i _ => bspl_nonneg h.mono q i

/-- The sums of the B-splines from a number on do not decrease. -/
theorem tail_mono (hx0 : 0 ≤ x) (hxy : x ≤ y) (hy1 : y ≤ 1) (q : ℕ) :
    ∀ j, j ≤ n → tail u n q j x ≤ tail u n q j y := by
  induction q with
  | zero =>
    intro j hj
    rw [h.tail_zero hj hx0 (hxy.trans hy1), h.tail_zero hj (hx0.trans hxy) hy1]
    by_cases a : u j ≤ x ∧ (x = 1 → u j < x)
    · rw [if_pos a, if_pos]
      refine ⟨a.1.trans hxy, fun e => ?_⟩
      subst e
      rcases hxy.lt_or_eq with hl | hl
      · exact a.1.trans_lt hl
      · rw [← hl]; exact a.2 hl
    · rw [if_neg a]
      split <;> norm_num
  | succ q ih =>
    intro j hj
    rcases hj.eq_or_lt with rfl | hj
    · rw [tail_empty le_rfl, tail_empty le_rfl]
    rw [h.tail_succ q hj.le, h.tail_succ q hj.le]
    -- the factor, cut off at 0 and 1
    have cut : ∀ z, upPart u q j z =
        max 0 (min 1 ((z - u j) / (u (j + q + 1) - u j))) * (tail u n q j z - tail u n q (j + 1) z) := by
      intro z
      rw [tail_head hj, add_sub_cancel_right, upPart]
      by_cases hz : bspl u 1 q j z = 0
      · rw [hz, mul_zero, mul_zero]
      · obtain ⟨a, b⟩ := bspl_support h.mono q j hz
        have d : 0 ≤ u (j + q + 1) - u j := sub_nonneg.2 (h.mono _ _ (by omega))
        rw [min_eq_right (div_le_one_of_le₀ (by linarith) d), max_eq_right (div_nonneg (by linarith) d)]
    have hm : max 0 (min 1 ((x - u j) / (u (j + q + 1) - u j))) ≤ max 0 (min 1 ((y - u j) / (u (j + q + 1) - u j))) :=
      max_le_max le_rfl (min_le_min le_rfl
        (div_le_div_of_nonneg_right (by linarith) (sub_nonneg.2 (h.mono _ _ (by omega)))))
    have h0 : 0 ≤ max 0 (min 1 ((x - u j) / (u (j + q + 1) - u j))) := le_max_left _ _
    have h1 : max 0 (min 1 ((y - u j) / (u (j + q + 1) - u j))) ≤ 1 := max_le zero_le_one (min_le_left _ _)
    have i1 := ih j hj.le
    have i2 := ih (j + 1) hj
    have hN : 0 ≤ tail u n q j x - tail u n q (j + 1) x := by
      rw [tail_head hj, add_sub_cancel_right]
      exact bspl_nonneg h.mono q j
    rw [cut x, cut y]
    generalize max 0 (min 1 ((x - u j) / (u (j + q + 1) - u j))) = a at *
    generalize max 0 (min 1 ((y - u j) / (u (j + q + 1) - u j))) = b at *
    have e1 := mul_le_mul_of_nonneg_right hm hN
    have e2 := mul_le_mul_of_nonneg_left i1 (h0.trans hm)
    have e3 := mul_le_mul_of_nonneg_left i2 (sub_nonneg.2 h1)
    linarith

end OpenKnots

/-- The value of a spline with the coefficients `c`. -/
def spline (u : ℕ → K) (n p : ℕ) (c : ℕ → K) (x : K) : K := ∑ i ∈ Finset.range n, bspl u 1 p i x * c i

theorem by_parts (c S : ℕ → K) (m : ℕ) : ∑ i ∈ Finset.range (m + 1), (S i - S (i + 1)) * c i =
    c 0 * S 0 + ∑ i ∈ Finset.range m, (c (i + 1) - c i) * S (i + 1) - c m * S (m + 1) := by
  induction m with
  | zero => simp; ring
  | succ m ih =>
    rw [Finset.sum_range_succ, ih, Finset.sum_range_succ _ m]
    ring

/-- The sum of the knots that belong to a Greville abscissa. -/
def knotSum (u : ℕ → K) (q j : ℕ) : K := ∑ i ∈ Finset.range q, u (j + 1 + i)

theorem knotSum_up (q j : ℕ) : knotSum u (q + 1) j = knotSum u q j + u (j + q + 1) := by
  rw [knotSum, Finset.sum_range_succ, ← knotSum, show j + 1 + q = j + q + 1 by ring]

theorem knotSum_down (q j : ℕ) : knotSum u (q + 1) j = u (j + 1) + knotSum u q (j + 1) := by
  rw [knotSum, Finset.sum_range_succ', add_comm, knotSum]
  congr 1
  refine Finset.sum_congr rfl fun i _ => ?_
  congr 1
  ring

namespace OpenKnots

variable (h : OpenKnots u n p)
include h

theorem spline_parts (c : ℕ → K) (hx0 : 0 ≤ x) (hx1 : x ≤ 1) :
    spline u n p c x = c 0 + ∑ i ∈ Finset.range (n - 1), (c (i + 1) - c i) * tail u n p (i + 1) x := by
  obtain ⟨m, rfl⟩ : ∃ m, n = m + 1 := ⟨n - 1, by have := h.size; omega⟩
  have e : spline u (m + 1) p c x =
      ∑ i ∈ Finset.range (m + 1), (tail u (m + 1) p i x - tail u (m + 1) p (i + 1) x) * c i := by
    refine Finset.sum_congr rfl fun i _ => ?_
    rw [h.tail_head' p i, add_sub_cancel_right]
  rw [e, by_parts c (fun i => tail u (m + 1) p i x), h.partition le_rfl hx0 hx1, tail_empty (j := m + 1) le_rfl]
  simp

theorem spline_const (c : K) (hx0 : 0 ≤ x) (hx1 : x ≤ 1) : spline u n p (fun _ => c) x = c := by
  rw [h.spline_parts _ hx0 hx1]
  simp

/-- Splines with increasing coefficients increase. -/
theorem spline_mono {c : ℕ → K} (hc : ∀ i, i + 1 < n → c i ≤ c (i + 1)) (hx0 : 0 ≤ x) (hxy : x ≤ y) (hy1 : y ≤ 1) :
    spline u n p c x ≤ spline u n p c y := by
  rw [h.spline_parts c hx0 (hxy.trans hy1), h.spline_parts c (hx0.trans hxy) hy1]
  refine add_le_add le_rfl (Finset.sum_le_sum fun i hi => ?_)
  have := Finset.mem_range.1 hi
  exact mul_le_mul_of_nonneg_left (h.tail_mono hx0 hxy hy1 p (i + 1) (by omega)) (sub_nonneg.2 (hc i (by omega)))

/-- The coefficients of the identity. -/
theorem greville {q : ℕ} (hq : q ≤ p) (hx0 : 0 ≤ x) (hx1 : x ≤ 1) :
    ∑ i ∈ Finset.range n, bspl u 1 q i x * knotSum u q i = q * x := by
  induction q with
  | zero => simp [knotSum]
  | succ q ih =>
    obtain ⟨m, hm⟩ : ∃ m, n = m + 1 := ⟨n - 1, by have := h.size; omega⟩
    have key : ∀ k, ∑ i ∈ Finset.range (k + 1), bspl u 1 (q + 1) i x * knotSum u (q + 1) i =
        ∑ i ∈ Finset.range (k + 1), bspl u 1 q i x * (knotSum u q i + x) +
          downPart u q (k + 1) x * knotSum u (q + 1) k := by
      have mid : ∀ j, upPart u q (j + 1) x * knotSum u (q + 1) (j + 1) + downPart u q (j + 1) x * knotSum u (q + 1) j =
          bspl u 1 q (j + 1) x * (knotSum u q (j + 1) + x) := by
        intro j
        rw [knotSum_up q (j + 1), knotSum_down q j]
        unfold upPart downPart
        by_cases hd : u (j + 1 + q + 1) - u (j + 1) = 0
        · rw [bspl_null h.mono q (j + 1) (sub_eq_zero.1 hd).symm]
          ring
        · field_simp
          ring
      intro k
      induction k with
      | zero =>
        simp only [zero_add, Finset.sum_range_one]
        rw [bspl_succ, upPart, h.early q (by omega)]
        ring
      | succ k ihk =>
        rw [Finset.sum_range_succ, ihk, Finset.sum_range_succ _ (k + 1), ← mid k, bspl_succ]
        ring
    have e := key m
    rw [← hm] at e
    rw [e, downPart, h.beyond q le_rfl]
    have p1 : ∑ i ∈ Finset.range n, bspl u 1 q i x = 1 := by
      have := h.partition (q := q) (by omega) hx0 hx1
      rwa [tail, ← Finset.range_eq_Ico] at this
    simp only [mul_add, Finset.sum_add_distrib, mul_zero, zero_mul, add_zero]
    rw [ih (by omega), ← Finset.sum_mul, p1]
    push_cast
    ring

theorem spline_greville (hp : 1 ≤ p) (a κ : K) (hx0 : 0 ≤ x) (hx1 : x ≤ 1) :
    spline u n p (fun i => a + κ * (knotSum u p i / p)) x = a + κ * x := by
  have hp' : (p : K) ≠ 0 := by exact_mod_cast (by omega : p ≠ 0)
  have e := h.greville le_rfl hx0 hx1
  have e1 := h.spline_const a hx0 hx1
  have e2 : spline u n p (fun i => a + κ * (knotSum u p i / p)) x =
      spline u n p (fun _ => a) x + κ / p * ∑ i ∈ Finset.range n, bspl u 1 p i x * knotSum u p i := by
    rw [spline, spline, Finset.mul_sum, ← Finset.sum_add_distrib]
    refine Finset.sum_congr rfl fun i _ => ?_
    ring
  rw [e2, e, e1]
  field_simp

/-- Bounds on the slope from the coefficients. -/
theorem spline_slope (hp : 1 ≤ p) {c : ℕ → K} {κ κ' : K}
    (h1 : ∀ i, i + 1 < n → κ * (u (i + 1 + p) - u (i + 1)) ≤ p * (c (i + 1) - c i))
    (h2 : ∀ i, i + 1 < n → p * (c (i + 1) - c i) ≤ κ' * (u (i + 1 + p) - u (i + 1)))
    (hx0 : 0 ≤ x) (hxy : x ≤ y) (hy1 : y ≤ 1) :
    κ * (y - x) ≤ spline u n p c y - spline u n p c x ∧ spline u n p c y - spline u n p c x ≤ κ' * (y - x) := by
  have hp0 : (0 : K) < p := by exact_mod_cast (by omega : 0 < p)
  have hk : ∀ i, knotSum u p (i + 1) - knotSum u p i = u (i + 1 + p) - u (i + 1) := by
    intro i
    have a := knotSum_up (u := u) p i
    have b := knotSum_down (u := u) p i
    rw [show i + 1 + p = i + p + 1 by ring]
    linarith
  have lin : ∀ (s t : K) (z : K), spline u n p (fun i => s * c i + t * (knotSum u p i / p)) z =
      s * spline u n p c z + t * spline u n p (fun i => knotSum u p i / p) z := by
    intro s t z
    simp only [spline, Finset.mul_sum, ← Finset.sum_add_distrib]
    refine Finset.sum_congr rfl fun i _ => ?_
    ring
  have hid : ∀ z, 0 ≤ z → z ≤ 1 → spline u n p (fun i => knotSum u p i / p) z = z := by
    intro z z0 z1
    have := h.spline_greville hp 0 1 z0 z1
    simpa using this
  have hx1 := hxy.trans hy1
  have hy0 := hx0.trans hxy
  constructor
  · have m := h.spline_mono (c := fun i => 1 * c i + (-κ) * (knotSum u p i / p)) (fun i hi => by
      have := h1 i hi
      rw [← hk i] at this
      have e : κ * (knotSum u p (i + 1) / p) - κ * (knotSum u p i / p) ≤ c (i + 1) - c i := by
        rw [← mul_sub, ← sub_div, ← mul_div_assoc, div_le_iff₀ hp0]
        linarith
      linarith) hx0 hxy hy1
    rw [lin, lin, hid x hx0 hx1, hid y hy0 hy1] at m
    linarith
  · have m := h.spline_mono (c := fun i => (-1) * c i + κ' * (knotSum u p i / p)) (fun i hi => by
      have := h2 i hi
      rw [← hk i] at this
      have e : c (i + 1) - c i ≤ κ' * (knotSum u p (i + 1) / p) - κ' * (knotSum u p i / p) := by
        rw [← mul_sub, ← sub_div, ← mul_div_assoc, le_div_iff₀ hp0]
        linarith
      linarith) hx0 hxy hy1
    rw [lin, lin, hid x hx0 hx1, hid y hy0 hy1] at m
    linarith

/-- At the start of the domain only the first B-spline is not zero. -/
theorem at_zero (q : ℕ) (hq : q ≤ p) : ∀ j, p < j + q → bspl u 1 q j 0 = 0 := by
  induction q with
  | zero =>
    intro j hj
    rw [bspl, if_neg]
    have := h.start.trans_le (h.mono (p + 1) j (by omega))
    rintro (c | c)
    · linarith [c.1]
    · exact absurd c.1 zero_ne_one
  | succ q ih =>
    intro j hj
    rw [bspl, ih (by omega) (j + 1) (by omega)]
    by_cases hj' : p < j + q
    · rw [ih (by omega) j hj']
      ring
    · rw [h.first j (by omega)]
      ring

/-- At the end of the domain only the last B-spline is not zero. -/
theorem at_one (q : ℕ) : ∀ j, j + 1 < n → bspl u 1 q j 1 = 0 := by
  induction q with
  | zero =>
    intro j hj
    have h1 := (h.mono (j + 1) (n - 1) (by omega)).trans_lt h.finish
    rw [bspl, if_neg]
    rintro (c | c)
    · exact absurd c.2 (not_lt.2 (h.le_one _))
    · exact h1.ne c.2.2
  | succ q ih =>
    intro j hj
    rw [bspl, ih j hj]
    rcases Nat.lt_or_ge (j + 2) n with hj' | hj'
    · rw [ih (j + 1) hj']
      ring
    · rw [h.last (j + q + 2) (by omega)]
      ring

theorem spline_zero (c : ℕ → K) : spline u n p c 0 = c 0 := by
  have e := h.spline_parts (x := 0) c le_rfl zero_le_one
  rw [e]
  have : ∀ i, tail u n p (i + 1) 0 = 0 := by
    intro i
    exact Finset.sum_eq_zero fun k hk => h.at_zero p le_rfl k (by
      have := (Finset.mem_Ico.1 hk).1
      omega)
  simp [this]

theorem spline_one (c : ℕ → K) : spline u n p c 1 = c (n - 1) := by
  have hn := h.size
  have p1 := h.partition (x := 1) le_rfl zero_le_one le_rfl
  rw [tail, ← Finset.range_eq_Ico, Finset.sum_eq_single (n - 1)
    (fun j hj hne => h.at_one p j (by have := Finset.mem_range.1 hj; omega))
    (fun hj => absurd (Finset.mem_range.2 (by omega)) hj)] at p1
  rw [spline, Finset.sum_eq_single (n - 1)
    (fun j hj hne => by rw [h.at_one p j (by have := Finset.mem_range.1 hj; omega), zero_mul])
    (fun hj => absurd (Finset.mem_range.2 (by omega)) hj), p1, one_mul]

end OpenKnots

end GsSA.Tools
