import Verif.Tools.DomainProps

/-!
# C146: the frustrum and the annulus
-/

namespace GsSA.Tools

set_option linter.unusedSectionVars false

variable {K : Type} [Field K] [LinearOrder K] [IsStrictOrderedRing K]

/-- The quadratic basis on one element. -/
theorem bernstein {u : K} (h0 : 0 ≤ u) (h1 : u ≤ 1) :
    bspl (knotAt (openKnots 2 : List K)) 1 2 0 u = (1 - u) ^ 2 ∧
    bspl (knotAt (openKnots 2 : List K)) 1 2 1 u = 2 * u * (1 - u) ∧
    bspl (knotAt (openKnots 2 : List K)) 1 2 2 u = u ^ 2 := by
  have k0 : knotAt (openKnots 2 : List K) 0 = 0 := rfl
  have k1 : knotAt (openKnots 2 : List K) 1 = 0 := rfl
  have k2 : knotAt (openKnots 2 : List K) 2 = 0 := rfl
  have k3 : knotAt (openKnots 2 : List K) 3 = 1 := rfl
  have k4 : knotAt (openKnots 2 : List K) 4 = 1 := rfl
  have k5 : knotAt (openKnots 2 : List K) 5 = 1 := rfl
  have c0 : ¬ ((0 ≤ u ∧ u < 0) ∨ (u = 1 ∧ 0 < u ∧ 0 = u)) := by
    rintro (⟨a, b⟩ | ⟨a, b, c⟩)
    · exact absurd b (not_lt.2 a)
    · exact absurd c b.ne
  have c1 : ¬ ((1 ≤ u ∧ u < 1) ∨ (u = 1 ∧ 1 < u ∧ 1 = u)) := by
    rintro (⟨a, b⟩ | ⟨a, b, c⟩)
    · exact absurd b (not_lt.2 a)
    · exact absurd c b.ne
  have c2 : (0 ≤ u ∧ u < 1) ∨ (u = 1 ∧ 0 < u ∧ 1 = u) := by
    rcases h1.lt_or_eq with h | h
    · exact Or.inl ⟨h0, h⟩
    · exact Or.inr ⟨h, by rw [h]; exact zero_lt_one, h.symm⟩
  refine ⟨?_, ?_, ?_⟩ <;>
  · simp only [bspl, Nat.reduceAdd, k0, k1, k2, k3, k4, k5, if_neg c0, if_neg c1, if_pos c2]
    ring_nf
    try simp
    try ring

/-- The parts of a quarter of a circle of radius 1, as a rational curve whose middle weight is `w`. -/
def arcX (w u : K) : K := ((1 - u) ^ 2 + w * (2 * u * (1 - u))) / ((1 - u) ^ 2 + w * (2 * u * (1 - u)) + u ^ 2)

def arcY (w u : K) : K := (w * (2 * u * (1 - u)) + u ^ 2) / ((1 - u) ^ 2 + w * (2 * u * (1 - u)) + u ^ 2)

theorem arc_den {w u : K} (hw0 : 7 / 10 ≤ w) (h0 : 0 ≤ u) (h1 : u ≤ 1) :
    17 / 20 ≤ (1 - u) ^ 2 + w * (2 * u * (1 - u)) + u ^ 2 := by
  have hu : 0 ≤ u * (1 - u) := mul_nonneg h0 (by linarith)
  nlinarith [mul_nonneg (sub_nonneg.2 hw0) hu, sq_nonneg (2 * u - 1)]

theorem arc_zero (w : K) : arcX w 0 = 1 ∧ arcY w 0 = 0 := by
  constructor
  · unfold arcX; norm_num
  · unfold arcY; norm_num

theorem arc_one (w : K) : arcX w 1 = 0 ∧ arcY w 1 = 1 := by
  constructor
  · unfold arcX; norm_num
  · unfold arcY; norm_num

theorem arc_swap (w u : K) : arcX w (1 - u) = arcY w u := by
  unfold arcX arcY
  congr 1 <;> ring

theorem arc_nonneg {w u : K} (hw0 : 7 / 10 ≤ w) (h0 : 0 ≤ u) (h1 : u ≤ 1) : 0 ≤ arcX w u ∧ 0 ≤ arcY w u := by
  have hu : 0 ≤ u * (1 - u) := mul_nonneg h0 (by linarith)
  have hd := arc_den hw0 h0 h1
  have hw : 0 ≤ w * (2 * u * (1 - u)) := mul_nonneg (by linarith) (by linarith)
  exact ⟨div_nonneg (add_nonneg (sq_nonneg _) hw) (by linarith), div_nonneg (add_nonneg hw (sq_nonneg _)) (by linarith)⟩

theorem arc_circle {w u : K} (hw0 : 7 / 10 ≤ w) (hw : 0 ≤ 4 * w ^ 2 - 2) (h0 : 0 ≤ u) (h1 : u ≤ 1) :
    0 ≤ arcX w u ^ 2 + arcY w u ^ 2 - 1 ∧ arcX w u ^ 2 + arcY w u ^ 2 - 1 ≤ (4 * w ^ 2 - 2) / 16 / (17 / 20) ^ 2 := by
  have hu : 0 ≤ u * (1 - u) := mul_nonneg h0 (by linarith)
  have hd := arc_den hw0 h0 h1
  unfold arcX arcY
  set D := (1 - u) ^ 2 + w * (2 * u * (1 - u)) + u ^ 2 with hD
  have hD0 : 0 < D := by linarith
  have e : (((1 - u) ^ 2 + w * (2 * u * (1 - u))) / D) ^ 2 + ((w * (2 * u * (1 - u)) + u ^ 2) / D) ^ 2 - 1 =
      (4 * w ^ 2 - 2) * (u * (1 - u)) ^ 2 / D ^ 2 := by
    rw [div_pow, div_pow, ← add_div, div_sub_one (pow_pos hD0 2).ne']
    congr 1
    rw [hD]
    ring
  rw [e]
  have q : (u * (1 - u)) ^ 2 ≤ 1 / 16 := by
    have a : u * (1 - u) ≤ 1 / 4 := by nlinarith [sq_nonneg (2 * u - 1)]
    nlinarith
  refine ⟨div_nonneg (mul_nonneg hw (sq_nonneg _)) (sq_nonneg _), ?_⟩
  refine div_le_div₀ (by positivity) ?_ (by positivity) ?_
  · rw [div_eq_mul_one_div (4 * w ^ 2 - 2)]
    exact mul_le_mul_of_nonneg_left q hw
  · exact pow_le_pow_left₀ (by norm_num) hd 2

theorem openKnots_size : basisSize 2 (openKnots 2 : List K) = 3 := rectKnots_size 0 2

theorem frustrum_eval (n : ℕ) (R1 R2 h : K) {u v : K} (hu0 : 0 ≤ u) (hu1 : u ≤ 1) (hv0 : 0 ≤ v) (hv1 : v ≤ 1) :
    frustrum n R1 R2 h u v = ⟨(R1 + (R2 - R1) * spaced n 2 1 v) * arcX (70711 / 100000) u,
      (R1 + (R2 - R1) * spaced n 2 1 v) * arcY (70711 / 100000) u, h * spaced n 2 1 v⟩ := by
  obtain ⟨b0, b1, b2⟩ := bernstein hu0 hu1
  have hD : (1 - u) ^ 2 + 70711 / 100000 * (2 * u * (1 - u)) + u ^ 2 ≠ 0 := by
    have := arc_den (w := (70711 / 100000 : K)) (by norm_num) hu0 hu1
    intro h
    rw [h] at this
    norm_num at this
  have part := (isOpen_rect (K := K) n 2).knots.sum_one hv0 hv1
  rw [rectKnots_size] at part
  unfold frustrum nurbs
  simp only [openKnots_size, rectKnots_size, Finset.sum_range_succ _ 2, Finset.sum_range_succ _ 1, Finset.sum_range_one, b0, b1, b2]
  have d0 : ∀ k, (k * 3 + 0) / 3 = k := fun k => div_row k (by norm_num)
  have d1 : ∀ k, (k * 3 + 1) / 3 = k := fun k => div_row k (by norm_num)
  have d2 : ∀ k, (k * 3 + 2) / 3 = k := fun k => div_row k (by norm_num)
  have m0 : ∀ k, (k * 3 + 0) % 3 = 0 := fun k => mod_row k (by norm_num)
  have m1 : ∀ k, (k * 3 + 1) % 3 = 1 := fun k => mod_row k (by norm_num)
  have m2 : ∀ k, (k * 3 + 2) % 3 = 2 := fun k => mod_row k (by norm_num)
  simp only [frustrumCoefs, frustrumWeights, frustrumRows, d0, d1, d2, m0, m1, m2, reduceIte, zero_ne_one,
    OfNat.ofNat_ne_zero, one_ne_zero, OfNat.ofNat_ne_one]
  obtain ⟨N, hN⟩ : ∃ N : ℕ → K, ∀ k, bspl (knotAt (rectKnots n 2)) 1 2 k v = N k := ⟨_, fun _ => rfl⟩
  simp only [hN] at part ⊢
  have lin : ∀ k : ℕ, linSpaced (2 ^ n + 2) (0 : K) 1 k = k / ((2 ^ n + 2 - 1 : ℕ) : K) := by
    intro k
    unfold linSpaced
    rw [if_neg (by generalize 2 ^ n = m; omega)]
    ring
  have hs : spaced n 2 1 v = ∑ k ∈ Finset.range (2 ^ n + 2), N k * (k / ((2 ^ n + 2 - 1 : ℕ) : K)) := by
    unfold spaced spline
    simp only [rectKnots_size, lin, hN]
  set s := spaced n 2 (1 : K) v
  set M := ((2 ^ n + 2 - 1 : ℕ) : K)
  have den : ∑ k ∈ Finset.range (2 ^ n + 2), ((1 - u) ^ 2 * N k * (1 * 1) + 2 * u * (1 - u) * N k * (70711 / 100000 * 1) +
      u ^ 2 * N k * (1 * 1)) = (1 - u) ^ 2 + 70711 / 100000 * (2 * u * (1 - u)) + u ^ 2 := by
    have e : (1 - u) ^ 2 + 70711 / 100000 * (2 * u * (1 - u)) + u ^ 2 =
        ∑ k ∈ Finset.range (2 ^ n + 2), ((1 - u) ^ 2 + 70711 / 100000 * (2 * u * (1 - u)) + u ^ 2) * N k := by
      rw [← Finset.mul_sum, part, mul_one]
    rw [e]
    exact Finset.sum_congr rfl fun k _ => by ring
  have rad : R1 + (R2 - R1) * s = ∑ k ∈ Finset.range (2 ^ n + 2), N k * (k * (R2 - R1) / M + R1) := by
    have e : R1 = ∑ k ∈ Finset.range (2 ^ n + 2), R1 * N k := by rw [← Finset.mul_sum, part, mul_one]
    calc R1 + (R2 - R1) * s = ∑ k ∈ Finset.range (2 ^ n + 2), R1 * N k + (R2 - R1) * s := by rw [← e]
      _ = _ := by
        rw [hs, Finset.mul_sum, ← Finset.sum_add_distrib]
        exact Finset.sum_congr rfl fun k _ => by ring
  rw [den]
  refine Pt.ext ?_ ?_ ?_
  · simp only [arcX]
    rw [rad, ← mul_div_assoc, Finset.sum_mul]
    congr 1
    exact Finset.sum_congr rfl fun k _ => by ring
  · simp only [arcY]
    rw [rad, ← mul_div_assoc, Finset.sum_mul]
    congr 1
    exact Finset.sum_congr rfl fun k _ => by ring
  · simp only
    rw [div_eq_iff hD, hs, Finset.mul_sum, Finset.sum_mul]
    exact Finset.sum_congr rfl fun k _ => by ring

/-- **C146**: the frustrum. The height runs from 0 to `h` and the radius from `R1` to `R2`, in proportion; each
parallel is a quarter of a circle, up to 2 parts in a million of its radius squared, from the `x` axis to the `y`
axis and symmetric about the diagonal. -/
theorem C146_frustrum (n : ℕ) (R1 R2 h : K) :
    ∃ ζ : K → K, Coordinate ζ 1 (2 ^ n / (2 ^ n + 1)) (2 * (2 ^ n / (2 ^ n + 1))) ∧
      ∀ u v, 0 ≤ u → u ≤ 1 → 0 ≤ v → v ≤ 1 →
        let P := frustrum n R1 R2 h u v
        let Q := frustrum n R1 R2 h (1 - u) v
        let ρ := R1 + (R2 - R1) * ζ v
        P.z = h * ζ v ∧ 0 ≤ P.x ^ 2 + P.y ^ 2 - ρ ^ 2 ∧ P.x ^ 2 + P.y ^ 2 - ρ ^ 2 ≤ 16 / 10 ^ 7 * ρ ^ 2 ∧
        (0 ≤ ρ → 0 ≤ P.x ∧ 0 ≤ P.y) ∧ (u = 0 → P.x = ρ ∧ P.y = 0) ∧ (u = 1 → P.x = 0 ∧ P.y = ρ) ∧
        Q = ⟨P.y, P.x, P.z⟩ := by
  have hc := spaced_coordinate (K := K) n (p := 2) (by norm_num) zero_le_one
  refine ⟨spaced n 2 1, ?_, fun u v hu0 hu1 hv0 hv1 => ?_⟩
  · have e : (1 : K) * 2 ^ n / (2 ^ n + (2 : ℕ) - 1) = 2 ^ n / (2 ^ n + 1) := by
      rw [one_mul]
      congr 1
      push_cast
      ring
    rw [e] at hc
    exact_mod_cast hc
  simp only
  rw [frustrum_eval n R1 R2 h hu0 hu1 hv0 hv1, frustrum_eval n R1 R2 h (u := 1 - u) (by linarith) (by linarith) hv0 hv1]
  set ρ := R1 + (R2 - R1) * spaced n 2 1 v
  have hw : (0 : K) ≤ 4 * (70711 / 100000) ^ 2 - 2 := by norm_num
  have hw0 : (7 / 10 : K) ≤ 70711 / 100000 := by norm_num
  have ci := arc_circle hw0 hw hu0 hu1
  have nn := arc_nonneg hw0 hu0 hu1
  have e : (ρ * arcX (70711 / 100000) u) ^ 2 + (ρ * arcY (70711 / 100000) u) ^ 2 - ρ ^ 2 =
    (arcX (70711 / 100000) u ^ 2 + arcY (70711 / 100000) u ^ 2 - 1) * ρ ^ 2 := by ring
  refine ⟨rfl, ?_, ?_, fun hr => ⟨mul_nonneg hr nn.1, mul_nonneg hr nn.2⟩, ?_, ?_, ?_⟩
  · simp only
    rw [e]
    exact mul_nonneg ci.1 (sq_nonneg _)
  · simp only
    rw [e]
    refine mul_le_mul_of_nonneg_right (ci.2.trans ?_) (sq_nonneg _)
    norm_num
  · rintro rfl
    simp only [(arc_zero _).1, (arc_zero _).2, mul_one, mul_zero, and_self]
  · rintro rfl
    simp only [(arc_one _).1, (arc_one _).2, mul_one, mul_zero, and_self]
  · rw [arc_swap]
    congr 2
    rw [← arc_swap, sub_sub_cancel]

example : (frustrum 1 2 1 1 0 (1 / 2) : Pt ℚ) = ⟨3 / 2, 0, 1 / 2⟩ ∧ (frustrum 1 2 1 1 1 1 : Pt ℚ) = ⟨0, 1, 1⟩ := by
  decide +kernel

theorem annulus_eval (R1 R2 : K) {u v : K} (hu0 : 0 ≤ u) (hu1 : u ≤ 1) (hv0 : 0 ≤ v) (hv1 : v ≤ 1) :
    annulus R1 R2 u v = ⟨(R1 + (R2 - R1) * u) * arcX (707106781186548 / 1000000000000000) v,
      (R1 + (R2 - R1) * u) * arcY (707106781186548 / 1000000000000000) v, 0⟩ := by
  obtain ⟨b0, b1, b2⟩ := bernstein hu0 hu1
  obtain ⟨c0, c1, c2⟩ := bernstein hv0 hv1
  have hD : (1 - v) ^ 2 + 707106781186548 / 1000000000000000 * (2 * v * (1 - v)) + v ^ 2 ≠ 0 := by
    have := arc_den (w := (707106781186548 / 1000000000000000 : K)) (by norm_num) hv0 hv1
    intro h
    rw [h] at this
    norm_num at this
  unfold annulus nurbs
  simp only [openKnots_size, Finset.sum_range_succ _ 2, Finset.sum_range_succ _ 1, Finset.sum_range_one, b0, b1, b2, c0, c1, c2]
  simp only [annulusCoefs, annulusWeights, List.getD_cons_succ, List.getD_cons_zero, Nat.reduceMul, Nat.reduceAdd,
    Nat.reduceDiv, reduceIte, zero_ne_one, OfNat.ofNat_ne_one]
  set w : K := 707106781186548 / 1000000000000000
  refine Pt.ext ?_ ?_ ?_
  · simp only [arcX]
    rw [← mul_div_assoc]
    ring
  · simp only [arcY]
    rw [← mul_div_assoc]
    ring
  · simp

/-- **C146**: the annulus. The radius is linear in the first parameter; each arc is a quarter of a circle up to the
rounding of its weight. -/
theorem C146_annulus (R1 R2 : K) {u v : K} (hu0 : 0 ≤ u) (hu1 : u ≤ 1) (hv0 : 0 ≤ v) (hv1 : v ≤ 1) :
    let P := annulus R1 R2 u v
    let Q := annulus R1 R2 u (1 - v)
    let ρ := R1 + (R2 - R1) * u
    P.z = 0 ∧ 0 ≤ P.x ^ 2 + P.y ^ 2 - ρ ^ 2 ∧ P.x ^ 2 + P.y ^ 2 - ρ ^ 2 ≤ 24 / 10 ^ 17 * ρ ^ 2 ∧
    (0 ≤ ρ → 0 ≤ P.x ∧ 0 ≤ P.y) ∧ (v = 0 → P.x = ρ ∧ P.y = 0) ∧ (v = 1 → P.x = 0 ∧ P.y = ρ) ∧
    Q = ⟨P.y, P.x, P.z⟩ := by
  simp only
  rw [annulus_eval R1 R2 hu0 hu1 hv0 hv1, annulus_eval R1 R2 hu0 hu1 (v := 1 - v) (by linarith) (by linarith)]
  set ρ := R1 + (R2 - R1) * u
  have hw : (0 : K) ≤ 4 * (707106781186548 / 1000000000000000) ^ 2 - 2 := by norm_num
  have hw0 : (7 / 10 : K) ≤ 707106781186548 / 1000000000000000 := by norm_num
  have hb : (4 * (707106781186548 / 1000000000000000) ^ 2 - 2 : K) / 16 / (17 / 20) ^ 2 ≤ 24 / 10 ^ 17 := by norm_num
  set w : K := 707106781186548 / 1000000000000000
  have ci := arc_circle hw0 hw hv0 hv1
  have nn := arc_nonneg hw0 hv0 hv1
  have e : (ρ * arcX w v) ^ 2 + (ρ * arcY w v) ^ 2 - ρ ^ 2 = (arcX w v ^ 2 + arcY w v ^ 2 - 1) * ρ ^ 2 := by ring
  refine ⟨rfl, ?_, ?_, fun hr => ⟨mul_nonneg hr nn.1, mul_nonneg hr nn.2⟩, ?_, ?_, ?_⟩
  · simp only
    rw [e]
    exact mul_nonneg ci.1 (sq_nonneg _)
  · simp only
    rw [e]
    exact mul_le_mul_of_nonneg_right (ci.2.trans hb) (sq_nonneg _)
  · rintro rfl
    simp only [(arc_zero _).1, (arc_zero _).2, mul_one, mul_zero, and_self]
  · rintro rfl
    simp only [(arc_one _).1, (arc_one _).2, mul_one, mul_zero, and_self]
  · rw [arc_swap]
    congr 2
    rw [← arc_swap, sub_sub_cancel]

example : (annulus 1 2 (1 / 4) 0 : Pt ℚ) = ⟨5 / 4, 0, 0⟩ ∧ (annulus 1 2 1 1 : Pt ℚ) = ⟨0, 2, 0⟩ := by decide +kernel

end GsSA.Tools
