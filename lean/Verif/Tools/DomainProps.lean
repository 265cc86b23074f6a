import Mathlib.Data.Real.Basic
import Mathlib.Topology.Order.IntermediateValue
import Mathlib.Topology.MetricSpace.Pseudo.Defs
import Mathlib.Topology.Instances.Real.Lemmas
import Mathlib.Order.Interval.Set.Infinite
import Verif.Tools.DomainKnots

/-!
# C146: the geometries built by the programs
-/

namespace GsSA.Tools

set_option linter.unusedSectionVars false

variable {K : Type} [Field K] [LinearOrder K] [IsStrictOrderedRing K]

/-! ### Rectangles -/

theorem OpenKnots.sum_one {u : ℕ → K} {n p : ℕ} {x : K} (h : OpenKnots u n p) (h0 : 0 ≤ x) (h1 : x ≤ 1) :
    ∑ i ∈ Finset.range n, bspl u 1 p i x = 1 := by
  have := h.partition le_rfl h0 h1
  rwa [tail, ← Finset.range_eq_Ico] at this

theorem div_row {n i : ℕ} (k : ℕ) (hi : i < n) : (k * n + i) / n = k := by
  rw [Nat.add_div_of_dvd_right (Dvd.intro_left k rfl), Nat.mul_div_cancel _ (by omega), Nat.div_eq_of_lt hi, add_zero]

theorem mod_row {n i : ℕ} (k : ℕ) (hi : i < n) : (k * n + i) % n = i := by
  rw [add_comm, Nat.add_mul_mod_self_right, Nat.mod_eq_of_lt hi]

theorem rectangle_eval {l0 l1 : List K} {p q : ℕ} (h0 : IsOpen p l0) (h1 : IsOpen q l1) (L B : K) {u v : K}
    (hu0 : 0 ≤ u) (hu1 : u ≤ 1) (hv0 : 0 ≤ v) (hv1 : v ≤ 1) :
    rectangle l0 l1 p q L B u v =
      ⟨spline (knotAt l0) (basisSize p l0) p (linSpaced (basisSize p l0) 0 L) u,
        spline (knotAt l1) (basisSize q l1) q (linSpaced (basisSize q l1) 0 B) v, 0⟩ := by
  have s0 := h0.knots.sum_one hu0 hu1
  have s1 := h1.knots.sum_one hv0 hv1
  set n0 := basisSize p l0
  set n1 := basisSize q l1
  have e : ∀ (g : Pt K → K) (a : ℕ → ℕ → K), (∀ k i, i < n0 → g (rectCoefs n0 n1 L B (k * n0 + i)) = a k i) →
      ∑ k ∈ Finset.range n1, ∑ i ∈ Finset.range n0,
        bspl (knotAt l0) 1 p i u * bspl (knotAt l1) 1 q k v * g (rectCoefs n0 n1 L B (k * n0 + i)) =
      ∑ k ∈ Finset.range n1, ∑ i ∈ Finset.range n0, bspl (knotAt l0) 1 p i u * bspl (knotAt l1) 1 q k v * a k i := by
    intro g a hg
    refine Finset.sum_congr rfl fun k _ => Finset.sum_congr rfl fun i hi => ?_
    rw [hg k i (Finset.mem_range.1 hi)]
  unfold rectangle surface
  simp only
  rw [e Pt.x (fun _ i => linSpaced n0 0 L i) (fun k i hi => by simp only [rectCoefs, mod_row k hi]),
    e Pt.y (fun k _ => linSpaced n1 0 B k) (fun k i hi => by simp only [rectCoefs, div_row k hi]),
    e Pt.z (fun _ _ => 0) (fun k i hi => rfl)]
  refine Pt.ext ?_ ?_ ?_
  · simp only
    rw [Finset.sum_comm, spline]
    refine Finset.sum_congr rfl fun i _ => ?_
    rw [← Finset.sum_mul, ← Finset.mul_sum, s1, mul_one]
  · simp only
    rw [spline]
    refine Finset.sum_congr rfl fun k _ => ?_
    rw [← Finset.sum_mul, ← Finset.sum_mul, s0, one_mul]
  · simp

theorem linSpaced_step {n : ℕ} (hn : 2 ≤ n) (a b : K) (k : ℕ) :
    linSpaced n a b (k + 1) - linSpaced n a b k = (b - a) / (n - 1 : ℕ) := by
  rw [linSpaced, linSpaced, if_neg (by omega), if_neg (by omega)]
  push_cast
  ring

theorem linSpaced_first {n : ℕ} (hn : 2 ≤ n) (a b : K) : linSpaced n a b 0 = a := by
  rw [linSpaced, if_neg (by omega)]
  simp

theorem linSpaced_last {n : ℕ} (hn : 2 ≤ n) (a b : K) : linSpaced n a b (n - 1) = b := by
  have : ((n - 1 : ℕ) : K) ≠ 0 := by exact_mod_cast (by omega : n - 1 ≠ 0)
  rw [linSpaced, if_neg (by omega), mul_div_cancel₀ _ this]
  ring

/-- A coordinate of the unrefined parameter, for the knots of a uniform refinement. -/
structure Coordinate (X : K → K) (L κ κ' : K) : Prop where
  zero : X 0 = 0
  one : X 1 = L
  slope : ∀ x y, 0 ≤ x → x ≤ y → y ≤ 1 → κ * (y - x) ≤ X y - X x ∧ X y - X x ≤ κ' * (y - x)

theorem Coordinate.range {X : K → K} {L κ κ' : K} (h : Coordinate X L κ κ') (hκ : 0 ≤ κ) {x : K} (h0 : 0 ≤ x)
    (h1 : x ≤ 1) : 0 ≤ X x ∧ X x ≤ L := by
  have a := (h.slope 0 x le_rfl h0 h1).1
  have b := (h.slope x 1 h0 h1 le_rfl).1
  rw [h.zero] at a
  rw [h.one] at b
  have a' := mul_nonneg hκ (sub_nonneg.2 h0)
  have b' := mul_nonneg hκ (sub_nonneg.2 h1)
  constructor <;> linarith

theorem Coordinate.inj {X : K → K} {L κ κ' : K} (h : Coordinate X L κ κ') (hκ : 0 < κ) {x y : K} (hx0 : 0 ≤ x)
    (hx1 : x ≤ 1) (hy0 : 0 ≤ y) (hy1 : y ≤ 1) (e : X x = X y) : x = y := by
  rcases lt_trichotomy x y with hl | hl | hl
  · have := (h.slope x y hx0 hl.le hy1).1
    have := mul_pos hκ (sub_pos.2 hl)
    linarith
  · exact hl
  · have := (h.slope y x hy0 hl.le hx1).1
    have := mul_pos hκ (sub_pos.2 hl)
    linarith

/-- The spline with equally spaced coefficients. -/
def spaced (n p : ℕ) (L : K) : K → K :=
  spline (knotAt (rectKnots n p)) (basisSize p (rectKnots n p : List K)) p (linSpaced (2 ^ n + p) 0 L)

theorem spaced_coordinate (n : ℕ) {p : ℕ} (hp : 1 ≤ p) {L : K} (hL : 0 ≤ L) :
    Coordinate (spaced n p L) L (L * 2 ^ n / (2 ^ n + p - 1)) (p * (L * 2 ^ n / (2 ^ n + p - 1))) := by
  have ho := (isOpen_rect (K := K) n p).knots
  have hpos : (0 : K) < 2 ^ n := by positivity
  have hnat := Nat.one_le_two_pow (n := n)
  have hp0 : (0 : K) < p := by exact_mod_cast (by omega : 0 < p)
  have hp1 : (1 : K) ≤ p := by exact_mod_cast hp
  have hcast : ((2 ^ n + p - 1 : ℕ) : K) = 2 ^ n + p - 1 := by
    rw [Nat.cast_sub (by omega)]
    push_cast
    ring
  have hden : (0 : K) < 2 ^ n + p - 1 := by linarith
  have hsz := rectKnots_size (K := K) n p
  have knot : ∀ i, i + 1 < 2 ^ n + p → ∃ d : ℕ, 1 ≤ d ∧ d ≤ p ∧
      knotAt (rectKnots n p : List K) (i + 1 + p) - knotAt (rectKnots n p : List K) (i + 1) = d / 2 ^ n := by
    intro i hi
    refine ⟨min (i + 1) (2 ^ n) - min (i + 1 - p) (2 ^ n), ?_, ?_, ?_⟩
    · rcases le_total (i + 1) (2 ^ n) with h1 | h1 <;> rcases le_total (i + 1 - p) (2 ^ n) with h2 | h2 <;>
        simp only [min_eq_left, min_eq_right, h1, h2] <;> omega
    · rcases le_total (i + 1) (2 ^ n) with h1 | h1 <;> rcases le_total (i + 1 - p) (2 ^ n) with h2 | h2 <;>
        simp only [min_eq_left, min_eq_right, h1, h2] <;> omega
    · have hle : min (i + 1 - p) (2 ^ n) ≤ min (i + 1) (2 ^ n) := min_le_min (by omega) le_rfl
      rw [rectKnots_at, rectKnots_at, Nat.add_sub_cancel, Nat.cast_sub hle, sub_div]
  refine ⟨?_, ?_, fun x y hx hxy hy => ?_⟩
  · rw [spaced, ho.spline_zero, linSpaced_first (by omega)]
  · rw [spaced, ho.spline_one, hsz, linSpaced_last (by omega)]
  · refine ho.spline_slope hp (fun i hi => ?_) (fun i hi => ?_) hx hxy hy
    · rw [hsz] at hi
      obtain ⟨d, d1, d2, e⟩ := knot i hi
      rw [e, linSpaced_step (by omega), hcast, sub_zero]
      have : (d : K) ≤ p := by exact_mod_cast d2
      rw [div_mul_div_comm, ← mul_div_assoc, div_le_div_iff₀ (by positivity) hden]
      have h1 : L * 2 ^ n * d ≤ L * 2 ^ n * p := mul_le_mul_of_nonneg_left this (by positivity)
      have h2 := mul_le_mul_of_nonneg_right h1 hden.le
      nlinarith [h2]
    · rw [hsz] at hi
      obtain ⟨d, d1, d2, e⟩ := knot i hi
      rw [e, linSpaced_step (by omega), hcast, sub_zero]
      have : (1 : K) ≤ d := by exact_mod_cast d1
      rw [mul_assoc, div_mul_div_comm]
      refine mul_le_mul_of_nonneg_left ?_ hp0.le
      rw [div_le_div_iff₀ hden (by positivity)]
      have h1 : L * 2 ^ n * 1 ≤ L * 2 ^ n * d := mul_le_mul_of_nonneg_left this (by positivity)
      have h2 := mul_le_mul_of_nonneg_right h1 hden.le
      nlinarith [h2]

/-! ### Symmetry -/

theorem bspl_reverse {u : ℕ → K} {N : ℕ} (hsym : ∀ i, i ≤ N → u (N - i) = 1 - u i) {x : K} (hx0 : x ≠ 0) (hx1 : x ≠ 1)
    (hx : ∀ i, u i ≠ x) (q : ℕ) : ∀ j, j + q + 1 ≤ N → bspl u 1 q j (1 - x) = bspl u 1 q (N - (j + q + 1)) x := by
  induction q with
  | zero =>
    intro j hj
    rw [bspl, bspl]
    have e1 := hsym (j + 1) hj
    have e2 := hsym j (by omega)
    have hN : N - (j + 0 + 1) + 1 = N - j := by omega
    rw [hN, Nat.add_zero, e1, e2]
    have n1 := hx (N - (j + 1))
    have n2 := hx (N - j)
    rw [e1] at n1
    rw [e2] at n2
    have i1 : 1 - x ≠ 1 := fun h => hx0 (by linarith)
    simp only [i1, hx1, false_and, or_false]
    refine if_congr ⟨fun ⟨a, b⟩ => ⟨by linarith, ?_⟩, fun ⟨a, b⟩ => ⟨by linarith, ?_⟩⟩ rfl rfl
    · exact lt_of_le_of_ne (by linarith) n2.symm
    · have := lt_of_le_of_ne a n1
      linarith
  | succ q ih =>
    intro j hj
    have hJ : N - (j + q + 1) = N - (j + (q + 1) + 1) + 1 := by omega
    rw [bspl, ih j (by omega), ih (j + 1) (by omega), bspl, hJ]
    have a1 := hsym (j + q + 2) (by omega)
    have a2 := hsym j (by omega)
    have a3 := hsym (j + q + 1) (by omega)
    have a4 := hsym (j + 1) (by omega)
    have b1 : N - (j + (q + 1) + 1) = N - (j + q + 2) := by omega
    have b2 : N - (j + q + 2) + q + 1 = N - (j + 1) := by omega
    have b3 : N - (j + q + 2) + q + 2 = N - j := by omega
    have b4 : N - (j + q + 2) + 1 = N - (j + q + 1) := by omega
    have b5 : N - (j + 1 + q + 1) = N - (j + q + 2) := by omega
    rw [b1, b5, b2, b3, b4, a1, a2, a3, a4]
    rw [show 1 - x - u j = 1 - u j - x by ring, show u (j + q + 1) - u j = 1 - u j - (1 - u (j + q + 1)) by ring,
      show u (j + q + 2) - (1 - x) = x - (1 - u (j + q + 2)) by ring,
      show u (j + q + 2) - u (j + 1) = 1 - u (j + 1) - (1 - u (j + q + 2)) by ring]
    ring

theorem spaced_symmetric (n : ℕ) {p : ℕ} (hp : 1 ≤ p) {L : K} (hL : 0 ≤ L) {x : K} (hx0 : 0 ≤ x) (hx1 : x ≤ 1) :
    spaced n p L (1 - x) = L - spaced n p L x := by
  have hC := spaced_coordinate n hp hL
  have ho := (isOpen_rect (K := K) n p).knots
  have hpos : (0 : K) < 2 ^ n := by positivity
  have hnat := Nat.one_le_two_pow (n := n)
  have hp1 : (1 : K) ≤ p := by exact_mod_cast hp
  have hsz := rectKnots_size (K := K) n p
  have hsym : ∀ i, i ≤ 2 ^ n + 2 * p →
      knotAt (rectKnots n p : List K) (2 ^ n + 2 * p - i) = 1 - knotAt (rectKnots n p : List K) i := by
    intro i hi
    rw [rectKnots_at, rectKnots_at, eq_sub_iff_add_eq, ← add_div, div_eq_one_iff_eq hpos.ne', ← Nat.cast_add]
    have : min (2 ^ n + 2 * p - i - p) (2 ^ n) + min (i - p) (2 ^ n) = 2 ^ n := by
      rcases le_total (2 ^ n + 2 * p - i - p) (2 ^ n) with h1 | h1 <;> rcases le_total (i - p) (2 ^ n) with h2 | h2 <;>
        simp only [min_eq_left, min_eq_right, h1, h2] <;> omega
    rw [this]
    push_cast
    rfl
  -- away from the knots
  have off : ∀ y, y ≠ 0 → y ≠ 1 → 0 ≤ y → y ≤ 1 → (∀ i, knotAt (rectKnots n p : List K) i ≠ y) →
      spaced n p L (1 - y) = L - spaced n p L y := by
    intro y y0 y1 hy0 hy1 hk
    have hc := ho.spline_const L hy0 hy1
    have e : L - spaced n p L y = spline (knotAt (rectKnots n p)) (basisSize p (rectKnots n p : List K)) p (fun _ => L) y -
        spaced n p L y := by rw [hc]
    rw [e]
    unfold spaced spline
    rw [hsz]
    rw [← Finset.sum_range_reflect, ← Finset.sum_sub_distrib]
    refine Finset.sum_congr rfl fun j hj => ?_
    have hj' := Finset.mem_range.1 hj
    rw [bspl_reverse hsym y0 y1 hk p (2 ^ n + p - 1 - j) (by omega),
      show 2 ^ n + 2 * p - (2 ^ n + p - 1 - j + p + 1) = j by omega, ← mul_sub]
    congr 1
    have hcast : ((2 ^ n + p - 1 : ℕ) : K) ≠ 0 := by exact_mod_cast (by omega : 2 ^ n + p - 1 ≠ 0)
    rw [linSpaced, linSpaced, if_neg (by omega), if_neg (by omega), Nat.cast_sub (by omega)]
    field_simp
    ring
  -- near the knots
  rcases hx1.eq_or_lt with rfl | hx1
  · rw [sub_self, hC.zero, hC.one, sub_self]
  have hκ : 0 ≤ (p : K) * (L * 2 ^ n / (2 ^ n + p - 1)) :=
    mul_nonneg (by linarith) (div_nonneg (by positivity) (by linarith))
  set κ := (p : K) * (L * 2 ^ n / (2 ^ n + p - 1)) with hκd
  have near : ∀ ε, 0 < ε → |spaced n p L (1 - x) - (L - spaced n p L x)| ≤ 2 * κ * ε := by
    intro ε hε
    have hlt : x < min 1 (x + ε) := lt_min hx1 (by linarith)
    obtain ⟨y, hy, hyk⟩ := (Set.Ioo_infinite hlt).exists_notMem_finset
      ((Finset.range (2 ^ n + p + 1)).image (knotAt (rectKnots n p : List K)))
    have hy1 : y < 1 := hy.2.trans_le (min_le_left _ _)
    have hy2 : y < x + ε := hy.2.trans_le (min_le_right _ _)
    have hyx : x < y := hy.1
    have e := off y (by linarith) hy1.ne (by linarith) hy1.le (fun i hi => hyk (by
      rcases Nat.lt_or_ge i (2 ^ n + p + 1) with h | h
      · exact Finset.mem_image.2 ⟨i, Finset.mem_range.2 h, hi⟩
      · rw [ho.last i (by rw [hsz]; omega)] at hi
        exact absurd hi hy1.ne'))
    have b1 := hC.slope x y hx0 hyx.le hy1.le
    have b2 := hC.slope (1 - y) (1 - x) (by linarith) (by linarith) (by linarith)
    have hlow : 0 ≤ L * 2 ^ n / (2 ^ n + p - 1) := div_nonneg (by positivity) (by linarith)
    have c1 : 0 ≤ L * 2 ^ n / (2 ^ n + (p : K) - 1) * (y - x) := mul_nonneg hlow (by linarith)
    have c2 : κ * (y - x) ≤ κ * ε := mul_le_mul_of_nonneg_left (by linarith) hκ
    have b22 := b2.2
    have b21 := b2.1
    rw [show 1 - x - (1 - y) = y - x by ring] at b22 b21
    rw [e] at b22 b21
    rw [abs_le]
    constructor <;> linarith [b1.1, b1.2]
  by_contra hne
  have habs : 0 < |spaced n p L (1 - x) - (L - spaced n p L x)| := abs_pos.2 (sub_ne_zero.2 hne)
  set A := |spaced n p L (1 - x) - (L - spaced n p L x)| with hA
  have := near (A / (2 * (2 * κ + 1))) (by positivity)
  have h2 : 2 * κ * (A / (2 * (2 * κ + 1))) < A := by
    rw [← mul_div_assoc, div_lt_iff₀ (by positivity)]
    nlinarith [mul_nonneg hκ habs.le]
  linarith

/-- **C146**: the rectangle. Both directions run from one side to the other, with bounded slope and symmetric about
the middle. -/
theorem C146_rectangle (n m : ℕ) {p q : ℕ} (hp : 1 ≤ p) (hq : 1 ≤ q) {L B : K} (hL : 0 ≤ L) (hB : 0 ≤ B) :
    ∃ X Y : K → K,
      Coordinate X L (L * 2 ^ n / (2 ^ n + p - 1)) (p * (L * 2 ^ n / (2 ^ n + p - 1))) ∧
      Coordinate Y B (B * 2 ^ m / (2 ^ m + q - 1)) (q * (B * 2 ^ m / (2 ^ m + q - 1))) ∧
      (∀ x, 0 ≤ x → x ≤ 1 → X (1 - x) = L - X x ∧ Y (1 - x) = B - Y x) ∧
      ∀ u v, 0 ≤ u → u ≤ 1 → 0 ≤ v → v ≤ 1 →
        rectangle (rectKnots n p) (rectKnots m q) p q L B u v = ⟨X u, Y v, 0⟩ := by
  refine ⟨spaced n p L, spaced m q B, spaced_coordinate n hp hL, spaced_coordinate m hq hB,
    fun x h0 h1 => ⟨spaced_symmetric n hp hL h0 h1, spaced_symmetric m hq hB h0 h1⟩, fun u v hu0 hu1 hv0 hv1 => ?_⟩
  rw [rectangle_eval (isOpen_rect n p) (isOpen_rect m q) L B hu0 hu1 hv0 hv1, spaced, spaced, rectKnots_size,
    rectKnots_size]

example : (rectangle (rectKnots 2 2) (rectKnots 0 2) 2 2 3 1 (1 / 2) (1 / 2) : Pt ℚ) = ⟨3 / 2, 1 / 2, 0⟩ := by
  decide +kernel

/-- **C146**: the middle of the parameters is the middle of the rectangle. -/
theorem C146_middle (n m : ℕ) {p q : ℕ} (hp : 1 ≤ p) (hq : 1 ≤ q) {L B : K} (hL : 0 ≤ L) (hB : 0 ≤ B) :
    rectangle (rectKnots n p) (rectKnots m q) p q L B (1 / 2) (1 / 2) = ⟨L / 2, B / 2, 0⟩ := by
  obtain ⟨X, Y, -, -, hs, he⟩ := C146_rectangle n m hp hq hL hB
  have h0 : (0 : K) ≤ 1 / 2 := by norm_num
  have h1 : (1 / 2 : K) ≤ 1 := by norm_num
  have hh := hs (1 / 2) h0 h1
  rw [show (1 : K) - 1 / 2 = 1 / 2 by norm_num] at hh
  rw [he _ _ h0 h1 h0 h1]
  refine Pt.ext ?_ ?_ rfl
  · simp only
    linarith [hh.1]
  · simp only
    linarith [hh.2]

theorem spaced_linear (n : ℕ) {L : K} (hL : 0 ≤ L) {x : K} (h0 : 0 ≤ x) (h1 : x ≤ 1) : spaced n 1 L x = L * x := by
  have h := spaced_coordinate n le_rfl hL
  have hpos : (0 : K) < 2 ^ n := by positivity
  have a := h.slope 0 x le_rfl h0 h1
  rw [h.zero, Nat.cast_one, one_mul, show (2 : K) ^ n + 1 - 1 = 2 ^ n by ring, mul_div_assoc, div_self hpos.ne', mul_one,
    sub_zero, sub_zero] at a
  exact le_antisymm a.2 a.1

/-- **C146**: with degree 1 the rectangle is parametrised linearly. -/
theorem C146_bilinear (n m : ℕ) {L B : K} (hL : 0 ≤ L) (hB : 0 ≤ B) {u v : K} (hu0 : 0 ≤ u) (hu1 : u ≤ 1) (hv0 : 0 ≤ v)
    (hv1 : v ≤ 1) : rectangle (rectKnots n 1) (rectKnots m 1) 1 1 L B u v = ⟨L * u, B * v, 0⟩ := by
  rw [rectangle_eval (isOpen_rect n 1) (isOpen_rect m 1) L B hu0 hu1 hv0 hv1, ← spaced_linear n hL hu0 hu1,
    ← spaced_linear m hB hv0 hv1, spaced, spaced, rectKnots_size, rectKnots_size]

example : (rectangle (rectKnots 2 1) (rectKnots 0 1) 1 1 3 1 (1 / 3) (1 / 2) : Pt ℚ) = ⟨1, 1 / 2, 0⟩ := by
  decide +kernel

theorem Coordinate.onto {X : ℝ → ℝ} {L κ κ' : ℝ} (h : Coordinate X L κ κ') (hκ : 0 ≤ κ) {y : ℝ} (h0 : 0 ≤ y)
    (h1 : y ≤ L) : ∃ x, 0 ≤ x ∧ x ≤ 1 ∧ X x = y := by
  have hpos : 0 ≤ κ' := by
    have := (h.slope 0 1 le_rfl zero_le_one le_rfl)
    linarith [this.1.trans this.2]
  have hc : ContinuousOn X (Set.Icc 0 1) := by
    rw [Metric.continuousOn_iff]
    intro b hb ε hε
    refine ⟨ε / (κ' + 1), by positivity, fun a ha hab => ?_⟩
    have hlip : dist (X a) (X b) ≤ κ' * dist a b := by
      rw [Real.dist_eq, Real.dist_eq]
      rcases le_total a b with hle | hle
      · have s := h.slope a b ha.1 hle hb.2
        have s0 := mul_nonneg hκ (sub_nonneg.2 hle)
        rw [abs_of_nonpos (by linarith), abs_of_nonpos (by linarith)]
        linarith [s.2]
      · have s := h.slope b a hb.1 hle ha.2
        have s0 := mul_nonneg hκ (sub_nonneg.2 hle)
        rw [abs_of_nonneg (by linarith), abs_of_nonneg (by linarith)]
        linarith [s.2]
    rw [lt_div_iff₀ (by linarith)] at hab
    have := dist_nonneg (x := a) (y := b)
    linarith
  have := intermediate_value_Icc (zero_le_one' ℝ) hc
  rw [h.zero, h.one] at this
  obtain ⟨x, hx, e⟩ := this ⟨h0, h1⟩
  exact ⟨x, hx.1, hx.2, e⟩

/-- **C146**: every point of the rectangle is the image of exactly one pair of parameters, and no other point is. -/
theorem C146_covers (n m : ℕ) {p q : ℕ} (hp : 1 ≤ p) (hq : 1 ≤ q) {L B : ℝ} (hL : 0 < L) (hB : 0 < B) (P : Pt ℝ) :
    (0 ≤ P.x ∧ P.x ≤ L ∧ 0 ≤ P.y ∧ P.y ≤ B ∧ P.z = 0) ↔
      ∃! s : ℝ × ℝ, (0 ≤ s.1 ∧ s.1 ≤ 1 ∧ 0 ≤ s.2 ∧ s.2 ≤ 1) ∧
        rectangle (rectKnots n p) (rectKnots m q) p q L B s.1 s.2 = P := by
  obtain ⟨X, Y, hX, hY, -, he⟩ := C146_rectangle n m hp hq hL.le hB.le
  have kpos : ∀ (n : ℕ) {p : ℕ} {L : ℝ}, 1 ≤ p → 0 < L → 0 < L * 2 ^ n / (2 ^ n + p - 1) := by
    intro n p L hp hL
    have : (1 : ℝ) ≤ p := by exact_mod_cast hp
    have : (0 : ℝ) < 2 ^ n := by positivity
    exact div_pos (by positivity) (by linarith)
  have kX := kpos n hp hL
  have kY := kpos m hq hB
  constructor
  · rintro ⟨x0, x1, y0, y1, z0⟩
    obtain ⟨u, u0, u1, eu⟩ := hX.onto kX.le x0 x1
    obtain ⟨v, v0, v1, ev⟩ := hY.onto kY.le y0 y1
    refine ⟨(u, v), ⟨⟨u0, u1, v0, v1⟩, ?_⟩, ?_⟩
    · rw [he u v u0 u1 v0 v1]
      exact Pt.ext eu ev z0.symm
    · rintro ⟨a, b⟩ ⟨⟨a0, a1, b0, b1⟩, e⟩
      simp only at a0 a1 b0 b1 e
      rw [he a b a0 a1 b0 b1] at e
      have e1 := congrArg Pt.x e
      have e2 := congrArg Pt.y e
      simp only at e1 e2
      exact Prod.ext (hX.inj kX a0 a1 u0 u1 (e1.trans eu.symm)) (hY.inj kY b0 b1 v0 v1 (e2.trans ev.symm))
  · rintro ⟨⟨u, v⟩, ⟨⟨u0, u1, v0, v1⟩, e⟩, -⟩
    simp only at u0 u1 v0 v1 e
    rw [he u v u0 u1 v0 v1] at e
    subst e
    exact ⟨(hX.range kX.le u0 u1).1, (hX.range kX.le u0 u1).2, (hY.range kY.le v0 v1).1, (hY.range kY.le v0 v1).2, rfl⟩

example : ∃! s : ℝ × ℝ, (0 ≤ s.1 ∧ s.1 ≤ 1 ∧ 0 ≤ s.2 ∧ s.2 ≤ 1) ∧
    rectangle (rectKnots 3 2) (rectKnots 2 3) 2 3 (5 : ℝ) 1 s.1 s.2 = ⟨2, 1 / 3, 0⟩ :=
  (C146_covers 3 2 (by norm_num) (by norm_num) (by norm_num) (by norm_num) _).1 (by norm_num)

/-- **C146**, violated: with a higher degree the elements of a refined rectangle do not have the same size. -/
theorem C146_violated_uniform :
    (rectangle (rectKnots 2 2) (rectKnots 0 2) 2 2 1 1 (1 / 4) 0 : Pt ℚ) = ⟨3 / 10, 0, 0⟩ ∧
    (rectangle (rectKnots 2 2) (rectKnots 0 2) 2 2 1 1 (1 / 2) 0 : Pt ℚ) = ⟨1 / 2, 0, 0⟩ := by
  decide +kernel

/-- **C146**, violated: with degree 0 (no elevation, `example_DynamicBeamNL.cpp` 112) and one element the rectangle
is a segment. -/
theorem C146_violated_degree (m : ℕ) {q : ℕ} (L B : K) {u v : K} (hu0 : 0 ≤ u) (hu1 : u ≤ 1) (hv0 : 0 ≤ v) (hv1 : v ≤ 1) :
    (rectangle (rectKnots 0 0) (rectKnots m q) 0 q L B u v).x = L := by
  rw [rectangle_eval (isOpen_rect 0 0) (isOpen_rect m q) L B hu0 hu1 hv0 hv1]
  have h := (isOpen_rect (K := K) 0 0).knots.sum_one hu0 hu1
  rw [rectKnots_size, pow_zero, add_zero, Finset.sum_range_one] at h
  simp only [spline, rectKnots_size, pow_zero, add_zero, Finset.sum_range_one, h, one_mul, linSpaced, if_true]

example : (rectangle (rectKnots 0 0) (rectKnots 0 1) 0 1 3 1 0 0 : Pt ℚ) = ⟨3, 0, 0⟩ := by decide +kernel

/-! ### The option `clamped` -/

theorem isOpen_clamp (n p : ℕ) {off : K} (h0 : 0 < off) (h1 : off ≤ 1 / 2) : IsOpen p (clampKnots off (rectKnots n p)) := by
  rw [clampKnots_eq n p h0 h1]
  refine ((isOpen_rect n p).insert (lt_min h0 (by positivity)) ?_).insert (by linarith) (by linarith)
  exact (min_le_left _ _).trans_lt (by linarith)

/-- **C146**: with the option `clamped` the domain is still the rectangle. -/
theorem C146_clamped (n m : ℕ) {p q : ℕ} (hp : 1 ≤ p) (hq : 1 ≤ q) {L B off : K} (hL : 0 ≤ L) (hB : 0 ≤ B) (h0 : 0 < off)
    (h1 : off ≤ 1 / 2) :
    ∃ X Y : K → K, X 0 = 0 ∧ X 1 = L ∧
      (∀ x y, 0 ≤ x → x ≤ y → y ≤ 1 → p * (L / (2 ^ n + p + 1)) * (y - x) ≤ X y - X x) ∧
      Coordinate Y B (B * 2 ^ m / (2 ^ m + q - 1)) (q * (B * 2 ^ m / (2 ^ m + q - 1))) ∧
      ∀ u v, 0 ≤ u → u ≤ 1 → 0 ≤ v → v ≤ 1 →
        rectangle (clampKnots off (rectKnots n p)) (rectKnots m q) p q L B u v = ⟨X u, Y v, 0⟩ := by
  have ho := (isOpen_clamp n p h0 h1).knots
  have hsz : basisSize p (clampKnots off (rectKnots n p)) = 2 ^ n + p + 2 := by
    have len : ∀ (x : K) l, (insertKnot x l).length = l.length + 1 := by
      intro x l
      induction l with
      | nil => rfl
      | cons a l ih =>
        rw [insertKnot]
        split
        · rw [List.length_cons, ih, List.length_cons]
        · rfl
    have := rectKnots_size (K := K) n p
    unfold basisSize at this ⊢
    rw [clampKnots_eq n p h0 h1, len, len]
    have h2 := Nat.one_le_two_pow (n := n)
    generalize 2 ^ n = k at *
    omega
  have hnat := Nat.one_le_two_pow (n := n)
  have hp0 : (0 : K) < p := by exact_mod_cast (by omega : 0 < p)
  refine ⟨spline (knotAt (clampKnots off (rectKnots n p))) (basisSize p (clampKnots off (rectKnots n p))) p
    (linSpaced (2 ^ n + p + 2) 0 L), spaced m q B, ?_, ?_, fun x y hx hxy hy => ?_, spaced_coordinate m hq hB,
    fun u v hu0 hu1 hv0 hv1 => ?_⟩
  · rw [ho.spline_zero, linSpaced_first (by omega)]
  · rw [ho.spline_one, hsz, linSpaced_last (by omega)]
  · have hc : (0 : K) ≤ L / (2 ^ n + p + 1) := div_nonneg hL (by positivity)
    have hd : ∀ i, linSpaced (2 ^ n + p + 2) 0 L (i + 1) - linSpaced (2 ^ n + p + 2) 0 L i = L / (2 ^ n + p + 1) := by
      intro i
      rw [linSpaced_step (by omega), sub_zero]
      push_cast
      rfl
    have m1 := ho.spline_mono (c := fun i => linSpaced (2 ^ n + p + 2) 0 L i -
        (L / (2 ^ n + p + 1)) * knotSum (knotAt (clampKnots off (rectKnots n p))) p i) (fun i hi => by
      have a := knotSum_up (u := knotAt (clampKnots off (rectKnots n p))) p i
      have b := knotSum_down (u := knotAt (clampKnots off (rectKnots n p))) p i
      have c1 := ho.le_one (i + p + 1)
      have c2 := ho.nonneg (i + 1)
      have e : knotSum (knotAt (clampKnots off (rectKnots n p))) p (i + 1) -
          knotSum (knotAt (clampKnots off (rectKnots n p))) p i ≤ 1 := by linarith
      have := mul_le_mul_of_nonneg_left e hc
      have := hd i
      linarith) hx hxy hy
    have lin : ∀ z, 0 ≤ z → z ≤ 1 → spline (knotAt (clampKnots off (rectKnots n p)))
        (basisSize p (clampKnots off (rectKnots n p))) p (fun i => linSpaced (2 ^ n + p + 2) 0 L i -
        (L / (2 ^ n + p + 1)) * knotSum (knotAt (clampKnots off (rectKnots n p))) p i) z =
        spline (knotAt (clampKnots off (rectKnots n p))) (basisSize p (clampKnots off (rectKnots n p))) p
          (linSpaced (2 ^ n + p + 2) 0 L) z - p * (L / (2 ^ n + p + 1)) * z := by
      intro z z0 z1
      have g := ho.greville le_rfl z0 z1
      rw [show (p : K) * (L / (2 ^ n + p + 1)) * z = L / (2 ^ n + p + 1) * (p * z) by ring, ← g, spline, spline, Finset.mul_sum,
        ← Finset.sum_sub_distrib]
      refine Finset.sum_congr rfl fun i _ => ?_
      ring
    rw [lin x hx (hxy.trans hy), lin y (hx.trans hxy) hy] at m1
    linarith
  · rw [rectangle_eval (isOpen_clamp n p h0 h1) (isOpen_rect m q) L B hu0 hu1 hv0 hv1, spaced, hsz, rectKnots_size]

example : (rectangle (clampKnots (1 / 10) (rectKnots 1 2)) (rectKnots 0 2) 2 2 3 1 1 1 : Pt ℚ) = ⟨3, 1, 0⟩ := by
  decide +kernel

/-- **C146**: the knots added by the option are in the first element and at the distance of the offset from the end. -/
theorem C146_clampKnots (n p : ℕ) {off : K} (h0 : 0 < off) (h1 : off ≤ 1 / 2) :
    ∃ a, 0 < a ∧ a < 1 / 2 ^ n ∧ a ≤ off ∧ ∀ x : K, x ∈ clampKnots off (rectKnots n p) ↔
      x = 1 - off ∨ x = a ∨ x ∈ (rectKnots n p : List K) := by
  refine ⟨min off (1 / 2 ^ (n + 1)), lt_min h0 (by positivity), ?_, min_le_left _ _, fun x => ?_⟩
  · refine (min_le_right _ _).trans_lt ?_
    refine one_div_lt_one_div_of_lt (by positivity) ?_
    rw [pow_succ]
    have : (0 : K) < 2 ^ n := by positivity
    linarith
  · rw [clampKnots_eq n p h0 h1, mem_insertKnot, mem_insertKnot]

example : (clampKnots (1 / 10) (rectKnots 1 1) : List ℚ) = [0, 0, 1 / 10, 1 / 2, 9 / 10, 1, 1] := by decide +kernel

/-- **C146**, violated: the last element is left as it is if the offset is not smaller than it. -/
theorem C146_violated_clamped (n p : ℕ) {off : K} (h0 : 0 < off) (h1 : off ≤ 1 / 2) (h : 1 / 2 ^ n ≤ off) :
    ∀ x ∈ clampKnots off (rectKnots n p), x ≤ 1 - 1 / 2 ^ n ∨ x = 1 := by
  have hpos : (0 : K) < 2 ^ n := by positivity
  obtain ⟨a, a0, a1, a2, ha⟩ := C146_clampKnots n p h0 h1
  intro x hx
  have h2 : 1 / 2 ^ n ≤ (1 : K) / 2 := h.trans h1
  rcases (ha x).1 hx with rfl | rfl | hx
  · left; linarith
  · left; linarith
  · rw [rectKnots_eq] at hx
    rcases List.mem_append.1 hx with hx | hx
    · rw [List.eq_of_mem_replicate hx]
      left; linarith
    · rcases List.mem_append.1 hx with hx | hx
      · obtain ⟨i, hi, rfl⟩ := List.mem_map.1 hx
        have hi' := List.mem_range.1 hi
        rcases Nat.lt_or_ge i (2 ^ n) with hl | hl
        · left
          rw [zero_add, le_sub_iff_add_le, ← add_div, div_le_one hpos]
          exact_mod_cast hl
        · right
          rw [show i = 2 ^ n by omega]
          push_cast
          rw [zero_add, div_self hpos.ne']
      · rw [List.eq_of_mem_replicate hx]
        right; rfl

example : (clampKnots (1 / 10) (rectKnots 4 1) : List ℚ).filter (15 / 16 < ·) = [1, 1] ∧
    (clampKnots (1 / 10) (rectKnots 4 1) : List ℚ).filter (· < 1 / 16) = [0, 0, 1 / 32] := by decide +kernel

/-! ### Bricks -/

/-- **C146**: the brick. -/
theorem C146_brick (n0 n1 n2 : ℕ) {p0 p1 p2 : ℕ} (h0 : 1 ≤ p0) (h1 : 1 ≤ p1) (h2 : 1 ≤ p2) {L B H : K} (hL : 0 ≤ L)
    (hB : 0 ≤ B) (hH : 0 ≤ H) :
    ∃ X Y Z : K → K,
      Coordinate X L (L * 2 ^ n0 / (2 ^ n0 + p0 - 1)) (p0 * (L * 2 ^ n0 / (2 ^ n0 + p0 - 1))) ∧
      Coordinate Y B (B * 2 ^ n1 / (2 ^ n1 + p1 - 1)) (p1 * (B * 2 ^ n1 / (2 ^ n1 + p1 - 1))) ∧
      Coordinate Z H (H * 2 ^ n2 / (2 ^ n2 + p2 - 1)) (p2 * (H * 2 ^ n2 / (2 ^ n2 + p2 - 1))) ∧
      (∀ x, 0 ≤ x → x ≤ 1 → X (1 - x) = L - X x ∧ Y (1 - x) = B - Y x ∧ Z (1 - x) = H - Z x) ∧
      ∀ u v w, 0 ≤ u → u ≤ 1 → 0 ≤ v → v ≤ 1 → 0 ≤ w → w ≤ 1 →
        brick n0 n1 n2 p0 p1 p2 L B H u v w = ⟨X u, Y v, Z w⟩ := by
  refine ⟨spaced n0 p0 L, spaced n1 p1 B, spaced n2 p2 H, spaced_coordinate n0 h0 hL, spaced_coordinate n1 h1 hB,
    spaced_coordinate n2 h2 hH, fun x a b => ⟨spaced_symmetric n0 h0 hL a b, spaced_symmetric n1 h1 hB a b,
      spaced_symmetric n2 h2 hH a b⟩, fun u v w hu0 hu1 hv0 hv1 hw0 hw1 => ?_⟩
  have s0 := (isOpen_rect (K := K) n0 p0).knots.sum_one hu0 hu1
  have s1 := (isOpen_rect (K := K) n1 p1).knots.sum_one hv0 hv1
  have s2 := (isOpen_rect (K := K) n2 p2).knots.sum_one hw0 hw1
  unfold spaced brick
  simp only
  simp only [rectKnots_size] at s0 s1 s2 ⊢
  set a := 2 ^ n0 + p0
  set b := 2 ^ n1 + p1
  set c := 2 ^ n2 + p2
  have row : ∀ l k i, k < b → i < a → brickCoefs a b c L B H (k * a + l * a * b + i) =
      ⟨linSpaced a 0 L i, linSpaced b 0 B k, linSpaced c 0 H l⟩ := by
    intro l k i hk hi
    have e : k * a + l * a * b + i = l * (a * b) + (k * a + i) := by ring
    have hlt : k * a + i < a * b := by
      calc k * a + i < k * a + a := by omega
        _ = (k + 1) * a := by ring
        _ ≤ b * a := Nat.mul_le_mul_right _ hk
        _ = a * b := Nat.mul_comm _ _
    unfold brickCoefs
    rw [e, div_row l hlt, mod_row l hlt, div_row k hi, mod_row k hi]
  have e : ∀ (g : Pt K → K), ∑ l ∈ Finset.range c, ∑ k ∈ Finset.range b, ∑ i ∈ Finset.range a,
      bspl (knotAt (rectKnots n0 p0)) 1 p0 i u * bspl (knotAt (rectKnots n1 p1)) 1 p1 k v *
        bspl (knotAt (rectKnots n2 p2)) 1 p2 l w * g (brickCoefs a b c L B H (k * a + l * a * b + i)) =
      ∑ l ∈ Finset.range c, ∑ k ∈ Finset.range b, ∑ i ∈ Finset.range a,
      bspl (knotAt (rectKnots n0 p0)) 1 p0 i u * bspl (knotAt (rectKnots n1 p1)) 1 p1 k v *
        bspl (knotAt (rectKnots n2 p2)) 1 p2 l w * g ⟨linSpaced a 0 L i, linSpaced b 0 B k, linSpaced c 0 H l⟩ := by
    intro g
    refine Finset.sum_congr rfl fun l _ => Finset.sum_congr rfl fun k hk => Finset.sum_congr rfl fun i hi => ?_
    rw [row l k i (Finset.mem_range.1 hk) (Finset.mem_range.1 hi)]
  rw [e Pt.x, e Pt.y, e Pt.z]
  refine Pt.ext ?_ ?_ ?_
  · simp only [spline]
    have : ∀ l k, ∑ i ∈ Finset.range a, bspl (knotAt (rectKnots n0 p0)) 1 p0 i u * bspl (knotAt (rectKnots n1 p1)) 1 p1 k v *
        bspl (knotAt (rectKnots n2 p2)) 1 p2 l w * linSpaced a 0 L i =
        bspl (knotAt (rectKnots n2 p2)) 1 p2 l w * (bspl (knotAt (rectKnots n1 p1)) 1 p1 k v *
          ∑ i ∈ Finset.range a, bspl (knotAt (rectKnots n0 p0)) 1 p0 i u * linSpaced a 0 L i) := by
      intro l k
      rw [Finset.mul_sum, Finset.mul_sum]
      exact Finset.sum_congr rfl fun i _ => by ring
    simp only [this, ← Finset.mul_sum, ← Finset.sum_mul, s1, s2, one_mul]
  · simp only [spline]
    have : ∀ l k, ∑ i ∈ Finset.range a, bspl (knotAt (rectKnots n0 p0)) 1 p0 i u * bspl (knotAt (rectKnots n1 p1)) 1 p1 k v *
        bspl (knotAt (rectKnots n2 p2)) 1 p2 l w * linSpaced b 0 B k =
        bspl (knotAt (rectKnots n2 p2)) 1 p2 l w * (bspl (knotAt (rectKnots n1 p1)) 1 p1 k v * linSpaced b 0 B k) := by
      intro l k
      simp only [← Finset.sum_mul, s0]
      ring
    simp only [this, ← Finset.mul_sum, ← Finset.sum_mul, s2, one_mul]
  · simp only [spline]
    refine Finset.sum_congr rfl fun l _ => ?_
    simp only [← Finset.sum_mul, s0, s1, one_mul]

example : (brick 1 0 0 2 1 1 3 2 1 (1 / 2) (1 / 2) (1 / 4) : Pt ℚ) = ⟨3 / 2, 1, 1 / 4⟩ := by decide +kernel

end GsSA.Tools
