import Mathlib.Analysis.Complex.Basic
import Mathlib.Analysis.Complex.Norm
import Verif.ALM.BifurcationFound

/-!
# C143: smooth structures and an example
-/

namespace GsSA.ALM

open GsSA

set_option linter.unusedSectionVars false

variable {V Mat Fac : Type} [NormedAddCommGroup V] [InnerProductSpace ℝ V]
variable {e : Env ℝ V Mat Fac}

/-- A linear map whose kernel is spanned by `φ` is bounded from below on the vectors orthogonal to `φ`. -/
theorem exists_gap [FiniteDimensional ℝ V] {A : V →L[ℝ] V} {φ : V} (hφ : ‖φ‖ = 1)
    (hker : ∀ x, A x = 0 → ∃ c : ℝ, x = c • φ) :
    ∃ μ : ℝ, 0 < μ ∧ ∀ y, inner ℝ φ y = (0 : ℝ) → μ * ‖y‖ ≤ ‖A y‖ := by
  let T : V →ₗ[ℝ] V × ℝ :=
    { toFun := fun y => (A y, inner ℝ φ y)
      map_add' := fun y z => by simp only [map_add, inner_add_right, Prod.mk_add_mk]
      map_smul' := fun c z => by
        simp only [map_smul, inner_smul_right, smul_eq_mul, RingHom.id_apply, Prod.smul_mk] }
  have hT : LinearMap.ker T = ⊥ := by
    rw [LinearMap.ker_eq_bot']
    intro y hy
    simp only [T, LinearMap.coe_mk, AddHom.coe_mk, Prod.mk_eq_zero] at hy
    obtain ⟨c, rfl⟩ := hker y hy.1
    have h1 := hy.2
    rw [inner_smul_right, real_inner_self_eq_norm_sq, hφ, one_pow, mul_one] at h1
    rw [h1, zero_smul]
  obtain ⟨k, hk, hk'⟩ := T.exists_antilipschitzWith hT
  have hk0 : (0 : ℝ) < k := by exact_mod_cast hk
  refine ⟨1 / k, by positivity, fun y hy => ?_⟩
  have h1 := hk'.le_mul_dist y 0
  rw [map_zero, dist_zero_right, dist_zero_right] at h1
  have h2 : ‖T y‖ = max ‖A y‖ |inner ℝ φ y| := rfl
  rw [h2, hy, abs_zero, max_eq_left (norm_nonneg _)] at h1
  rw [one_div_mul_eq_div, div_le_iff₀ hk0]
  linarith

/-- **C143**: smooth structures. There are constants such that `computeSingularPoint` finds the bifurcation whenever the
tolerance of the bisection corresponds to an error `δ ≤ 1` of the load for which `B δ` is a sufficiently good start for
the extended system. -/
theorem C143_smooth [FiniteDimensional ℝ V] {G : V → V} (hG : ContDiff ℝ 3 G) (he : SmoothCallbacks e G)
    {S : Submodule ℝ V} {w φ : V} {σ : ℝ} (hg : e.geo.Laws) (hload : e.forcing ∈ S) (hwS : w ∈ S)
    (hforce : ∀ x ∈ S, G x ∈ S) (hbal : G (σ • w) = σ • e.forcing) (hF : e.forcing ≠ 0) (hw : w ≠ 0)
    (hsym : ∀ x a b, inner ℝ (fderiv ℝ G x a) b = inner ℝ a (fderiv ℝ G x b)) (hunit : ‖φ‖ = 1)
    (hker : fderiv ℝ G (σ • w) φ = 0) (hker' : ∀ x, fderiv ℝ G (σ • w) x = 0 → ∃ c : ℝ, x = c • φ)
    (hreg : ExtendedRegular (fderiv ℝ G (σ • w)) (fderiv ℝ (fderiv ℝ G) (σ • w)) S e.forcing φ)
    (hones : inner ℝ φ e.ones ≠ (0 : ℝ)) :
    ∃ B c d q : ℝ, 0 ≤ B ∧ 0 ≤ c ∧ 0 ≤ d ∧ 0 ≤ q ∧
      ∀ (o : Opts ℝ) (mat : ℝ → Mat) (fac : ℝ → Fac) (spec : ℝ → List ℝ) (s : St ℝ V Mat Fac) (L x₀ ν ν' δ E : ℝ)
        (i k n : ℕ) (sw j : Bool), Straight e o w σ mat fac spec →
      o.quasi = false → 0 < o.tolF → 0 < o.tolU → o.spTolB ≠ 0 → s.initialized = true → s.guess = none →
      0 ≤ L → L < σ → σ - L ≤ 2 * s.len →
      (∀ l, L ≤ l → l < σ → countNegatives (spec l) = k) →
      (∀ l, σ < l → l ≤ σ + s.len → countNegatives (spec l) ≠ k) → 0 < ν' →
      (∀ l x, L ≤ l → l ≤ σ + s.len → minCoeff (spec l) = some x → ν' * |l - σ| ≤ |x| ∧ |x| ≤ ν * |l - σ|) →
      minCoeff (spec L) = some x₀ → x₀ ≠ 0 → ν * (2 * (s.len / 2 ^ i)) < o.spTolB * |x₀| → 2 * i + 2 ≤ o.maxIt →
      o.spTolB * |x₀| ≤ ν' * δ → δ ≤ 1 → B * δ ≤ E → E ≤ 1 / 2 → c * E + d / 10 ^ 8 ≤ 1 / 2 → 0 < n → n ≤ o.maxIt →
      q * newtonBound c (d / 10 ^ 8) E n < o.spTolE →
      ∃ t st, computeSingularPoint e o (loadControl e) (L • w) L sw j false s = (t, .ok st) ∧
        ((st = .solverError ∧ ∃ x, ‖x - σ • w‖ ≤ 1 ∧ SolverFails e x) ∨
          ∃ p < n, |t.L - σ| ≤ newtonBound c (d / 10 ^ 8) E (p + 1) ∧
            (sw = false → ‖t.U - σ • w‖ + |t.L - σ| ≤ newtonBound c (d / 10 ^ 8) E (p + 1)) ∧
            (sw = true → ∃ z : ℝ, |z| = 1 ∧
              ‖t.U - (σ • w + (z / o.tau) • φ)‖ ≤ newtonBound c (d / 10 ^ 8) E (p + 1) + E / |o.tau|)) := by
  have hforce' : ∀ x, x - σ • w ∈ S → G x ∈ S := by
    intro x hx
    refine hforce x ?_
    have := S.add_mem hx (S.smul_mem σ hwS)
    rwa [sub_add_cancel] at this
  obtain ⟨m, κ, h⟩ := exists_singularPt hG he hload hforce' hbal hker hunit hreg
  obtain ⟨μ, hμ, hμ'⟩ := exists_gap hunit hker'
  have h0 : e.ones ≠ 0 := by
    intro h0
    rw [h0, inner_zero_right] at hones
    exact hones rfl
  have hn0 := norm_pos_iff.2 h0
  have hαp := abs_pos.2 hones
  set α := min (1 / 2) (|inner ℝ φ e.ones| / ‖e.ones‖) with hαd
  have hα : 0 < α := lt_min (by norm_num) (by positivity)
  have hα2 : α ≤ 1 / 2 := min_le_left _ _
  have hα3 : α * ‖e.ones‖ ≤ |inner ℝ φ e.ones| := by
    rw [← le_div_iff₀ hn0]
    exact min_le_right _ _
  have pm := h.posm
  have pκ := h.posκ
  set D := fderiv ℝ (fderiv ℝ G) (σ • w) with hD
  have pw := norm_nonneg w
  refine ⟨‖w‖ + 1 + 4 * ((κ * ‖w‖ + ‖D‖) * ‖w‖ * (1 / α + 1) / μ), 2 * m * (4 * κ + 2 * ‖D‖ + 2), 8 * m * κ,
    2 * κ + 2 * ‖D‖ + ‖fderiv ℝ G (σ • w)‖, by positivity, by positivity, by positivity, by positivity, ?_⟩
  intro o mat fac spec s L x₀ ν ν' δ E i k n sw j hs hq htF htU hB hi hgu hL hLσ hd before after hν speed hx hx0 htol
    hmax hδ hδ1 hE hE2 hqE hn hnm htolE
  have hδ0 : 0 ≤ δ := by
    have h1 : 0 ≤ o.spTolB * |x₀| := by
      have hl : 0 < s.len := by linarith
      obtain ⟨h2, h3⟩ := speed L x₀ le_rfl (by linarith) hx
      have h4 : 0 ≤ ν := by
        by_contra hneg
        have := mul_neg_of_neg_of_pos (not_le.1 hneg) (abs_pos.2 (sub_ne_zero.2 hLσ.ne))
        linarith [abs_nonneg x₀]
      have : 0 ≤ ν * (2 * (s.len / 2 ^ i)) := by positivity
      linarith
    by_contra hneg
    have := mul_neg_of_pos_of_neg hν (not_le.1 hneg)
    linarith
  refine C143_singularPoint h hs hwS hg ?_ ?_ hsym hμ hμ' hα hα2 h0 hα3 hq htF htU hB hi hgu hL hLσ hd before after hν speed
    hx hx0 htol hmax hδ (le_trans ?_ hE) hE2 (by linarith) (by linarith) hn hnm htolE sw j
  · rw [he.dot, real_inner_self_eq_norm_sq]
    exact pow_ne_zero _ (norm_ne_zero_iff.2 hF)
  · rw [he.dot, real_inner_self_eq_norm_sq]
    exact pow_ne_zero _ (norm_ne_zero_iff.2 hw)
  · have h1 : κ * (δ * ‖w‖) ≤ κ * ‖w‖ := by
      have := mul_le_mul_of_nonneg_right hδ1 pw
      rw [one_mul] at this
      exact mul_le_mul_of_nonneg_left this pκ
    have h2 : (κ * (δ * ‖w‖) + ‖D‖) * (δ * ‖w‖) * (1 / α + 1) / μ ≤ (κ * ‖w‖ + ‖D‖) * (δ * ‖w‖) * (1 / α + 1) / μ := by
      refine div_le_div_of_nonneg_right (mul_le_mul_of_nonneg_right (mul_le_mul_of_nonneg_right ?_ ?_) ?_) hμ.le
      · linarith
      · positivity
      · positivity
    have e1 : (κ * ‖w‖ + ‖D‖) * (δ * ‖w‖) * (1 / α + 1) / μ = (κ * ‖w‖ + ‖D‖) * ‖w‖ * (1 / α + 1) / μ * δ := by ring
    rw [e1] at h2
    linarith

/-! ## The column with complex numbers -/

namespace RealDemo

/-- The structure `fork` with the factorisation of its tangent and the pivots; matrices as in `column`. -/
noncomputable def forkColumn : Env ℝ ℂ (ℝ × ℝ × ℝ) (ℝ × ℝ × ℝ) where
  geo := realGeo ℂ
  forcing := 1
  numDof := 2
  ones := 1 + Complex.I
  residual _ z l := some (fork z - l • 1)
  jacobian _ z _ := some (1, -z.im, 1 - z.re + 3 * z.im ^ 2)
  factorize _ m := if m.1 * m.2.2 - m.2.1 ^ 2 = 0 then none else some m
  solve _ m x := some (((m.2.2 * x.re - m.2.1 * x.im) / (m.1 * m.2.2 - m.2.1 ^ 2)) • (1 : ℂ) +
    ((m.1 * x.im - m.2.1 * x.re) / (m.1 * m.2.2 - m.2.1 ^ 2)) • Complex.I)
  mul m x := (m.1 * x.re + m.2.1 * x.im) • (1 : ℂ) + (m.2.1 * x.re + m.2.2 * x.im) • Complex.I
  vecD m := [m.1, m.2.2 - m.2.1 ^ 2 / m.1]
  eigs _ _ _ := none

theorem forkColumn_straight {o : Opts ℝ} (ho : o.bifMethod = .determinant) :
    Straight forkColumn o 1 1 (fun l => (1, 0, 1 - l)) (fun l => (1, 0, 1 - l)) (fun l => [1, 1 - l]) where
  residual n l l' := by
    simp only [forkColumn, Option.some.injEq]
    apply Complex.ext <;> simp [fork]
  jacobian n l d := by simp [forkColumn]
  factorize n l hl := by
    have : (1 : ℝ) - l ≠ 0 := sub_ne_zero.2 (Ne.symm hl)
    simp [forkColumn, this]
  singular n := by simp [forkColumn]
  solve n l x := ⟨_, rfl⟩
  load n l c hl := by
    have : (1 : ℝ) - l ≠ 0 := sub_ne_zero.2 (Ne.symm hl)
    simp only [forkColumn, Option.some.injEq]
    apply Complex.ext <;> simp [this]
  vector l hl := Or.inl ⟨ho, by simp [forkColumn]⟩
  filled l := by simp

/-- Derivative of the tangent at the bifurcation. -/
noncomputable def forkD : ℂ →L[ℝ] ℂ →L[ℝ] ℂ :=
  Complex.reCLM.smulRight (-(Complex.imCLM.smulRight Complex.I)) +
    Complex.imCLM.smulRight (-(Complex.imCLM.smulRight (1 : ℂ)) - Complex.reCLM.smulRight Complex.I)

theorem forkD_apply (a b : ℂ) :
    forkD a b = (-(a.im * b.im)) • (1 : ℂ) + (-(a.re * b.im) - a.im * b.re) • Complex.I := by
  apply Complex.ext <;> simp [forkD]
  ring

theorem norm_pair_le (x y : ℝ) : ‖x • (1 : ℂ) + y • Complex.I‖ ≤ |x| + |y| := by
  refine (norm_add_le _ _).trans ?_
  simp

theorem pair_re (x y : ℝ) : (x • (1 : ℂ) + y • Complex.I).re = x := by simp

theorem pair_im (x y : ℝ) : (x • (1 : ℂ) + y • Complex.I).im = y := by simp

theorem forkD_norm : ‖forkD‖ ≤ 3 := by
  refine ContinuousLinearMap.opNorm_le_bound _ (by norm_num) fun a => ?_
  refine ContinuousLinearMap.opNorm_le_bound _ (by positivity) fun b => ?_
  rw [forkD_apply]
  refine (norm_pair_le _ _).trans ?_
  have a1 := Complex.abs_re_le_norm a
  have a2 := Complex.abs_im_le_norm a
  have b1 := Complex.abs_re_le_norm b
  have b2 := Complex.abs_im_le_norm b
  have h1 : |a.im * b.im| ≤ ‖a‖ * ‖b‖ := by
    rw [abs_mul]; exact mul_le_mul a2 b2 (abs_nonneg _) (norm_nonneg _)
  have h2 : |a.re * b.im| ≤ ‖a‖ * ‖b‖ := by
    rw [abs_mul]; exact mul_le_mul a1 b2 (abs_nonneg _) (norm_nonneg _)
  have h3 : |a.im * b.re| ≤ ‖a‖ * ‖b‖ := by
    rw [abs_mul]; exact mul_le_mul a2 b1 (abs_nonneg _) (norm_nonneg _)
  have h4 := abs_sub (-(a.re * b.im)) (a.im * b.re)
  rw [abs_neg] at h4 ⊢
  linarith

theorem forkColumn_bifurcation : SingularPt forkColumn fork forkJ realLine ((1 : ℝ) • (1 : ℂ)) 1 Complex.I forkD 1 3 6 where
  dot _ _ := rfl
  norm x := by
    simp only [Geo.norm, forkColumn, realGeo, real_inner_self_eq_norm_sq]
    exact Real.sqrt_sq (norm_nonneg x)
  residual _ _ _ _ := rfl
  tangent _ z _ _ := by
    refine ⟨_, rfl, fun y => ?_⟩
    rw [forkJ_apply]
    simp only [forkColumn]
    apply Complex.ext <;> simp only [pair_re, pair_im] <;> ring
  solves n z dx m i f j b y _ hm hf hy := by
    simp only [forkColumn, Option.some.injEq] at hm hf hy
    subst hm
    split at hf
    · simp at hf
    rename_i hdet
    obtain rfl := Option.some.inj hf
    simp only at hdet hy
    rw [one_mul, neg_sq] at hdet
    subst hy
    constructor
    · rw [forkJ_apply]
      apply Complex.ext <;> simp only [pair_re, pair_im, one_mul, neg_sq]
      · field_simp
        ring
      · field_simp
        ring
    · intro hz hb
      rw [mem_realLine] at hz hb ⊢
      simp at hz
      rw [pair_im]
      simp [hz, hb]
  balance := by simp [fork, forkColumn]
  kernel := by rw [forkJ_apply]; simp
  unit := by simp
  load := by rw [mem_realLine]; simp [forkColumn]
  force z hz _ := by
    rw [mem_realLine] at hz ⊢
    simp at hz
    simp [fork, hz]
  quad z hz := by
    rw [one_smul] at hz ⊢
    set r := ‖z - 1‖ with hr
    have h1 : |z.re - 1| ≤ r := by simpa using Complex.abs_re_le_norm (z - 1)
    have h2 : |z.im| ≤ r := by simpa using Complex.abs_im_le_norm (z - 1)
    have e1 : fork z - fork 1 - forkJ z (z - 1) =
        (z.im ^ 2 / 2) • (1 : ℂ) + ((z.re - 1) * z.im - 2 * z.im ^ 3) • Complex.I := by
      rw [forkJ_apply]
      apply Complex.ext <;> simp only [fork, pair_re, pair_im, Complex.sub_re, Complex.sub_im, Complex.one_re, Complex.one_im] <;> ring
    rw [e1]
    refine (norm_pair_le _ _).trans ?_
    have r0 : 0 ≤ r := norm_nonneg _
    have h3 : |z.im ^ 2 / 2| ≤ r ^ 2 / 2 := by
      rw [abs_div, abs_pow, abs_two]
      exact div_le_div_of_nonneg_right (pow_le_pow_left₀ (abs_nonneg _) h2 2) (by norm_num)
    have h4 : |(z.re - 1) * z.im| ≤ r ^ 2 := by
      rw [abs_mul, sq]; exact mul_le_mul h1 h2 (abs_nonneg _) r0
    have h5 : |2 * z.im ^ 3| ≤ 2 * r ^ 2 := by
      rw [abs_mul, abs_pow, abs_two]
      refine mul_le_mul_of_nonneg_left ?_ (by norm_num)
      calc |z.im| ^ 3 ≤ r ^ 3 := pow_le_pow_left₀ (abs_nonneg _) h2 3
        _ = r * r ^ 2 := by ring
        _ ≤ 1 * r ^ 2 := mul_le_mul_of_nonneg_right hz (sq_nonneg _)
        _ = r ^ 2 := one_mul _
    have h6 := abs_sub ((z.re - 1) * z.im) (2 * z.im ^ 3)
    nlinarith [sq_nonneg r]
  second z z' hz hz' := by
    rw [one_smul] at hz hz' ⊢
    set r := ‖z - 1‖ with hr
    set q := ‖z' - z‖ with hq
    have h2 : |z.im| ≤ r := by simpa using Complex.abs_im_le_norm (z - 1)
    have h3 : |z'.im - z.im| ≤ q := by simpa using Complex.abs_im_le_norm (z' - z)
    have r0 : 0 ≤ r := norm_nonneg _
    have q0 : 0 ≤ q := norm_nonneg _
    refine ContinuousLinearMap.opNorm_le_bound _ (by positivity) fun a => ?_
    have e1 : (forkJ z' - forkJ z - forkD (z' - z)) a =
        (0 : ℝ) • (1 : ℂ) + (3 * (z'.im - z.im) * (2 * z.im + (z'.im - z.im)) * a.im) • Complex.I := by
      simp only [sub_apply, forkJ_apply, forkD_apply]
      apply Complex.ext <;> simp only [pair_re, pair_im, Complex.sub_re, Complex.sub_im] <;> ring
    rw [e1]
    refine (norm_pair_le _ _).trans ?_
    rw [abs_zero, zero_add, abs_mul, abs_mul, abs_mul, abs_of_pos (by norm_num : (0 : ℝ) < 3)]
    have h4 : |2 * z.im + (z'.im - z.im)| ≤ 2 * r + q := by
      refine (abs_add_le _ _).trans (add_le_add ?_ h3)
      rw [abs_mul, abs_two]
      linarith
    have h5 : 3 * |z'.im - z.im| * |2 * z.im + (z'.im - z.im)| ≤ 6 * (r + q) * q := by
      calc 3 * |z'.im - z.im| * |2 * z.im + (z'.im - z.im)| ≤ 3 * q * (2 * r + q) :=
            mul_le_mul (by linarith) h4 (abs_nonneg _) (by positivity)
        _ ≤ 6 * (r + q) * q := by nlinarith [mul_nonneg q0 q0]
    exact mul_le_mul h5 (Complex.abs_im_le_norm a) (abs_nonneg _) (by positivity)
  symm a b := by
    rw [forkD_apply, forkD_apply]
    apply Complex.ext <;> simp only [pair_re, pair_im] <;> ring
  regular a ha l b := by
    rw [mem_realLine] at ha
    rw [one_smul]
    have e1 : forkJ 1 a - l • forkColumn.forcing = ((a.re - l : ℝ) : ℂ) := by
      rw [forkJ_apply]
      apply Complex.ext <;> simp [forkColumn]
    have e2 : forkJ 1 b + forkD Complex.I a = b.re • (1 : ℂ) + (-a.re) • Complex.I := by
      rw [forkJ_apply, forkD_apply]
      apply Complex.ext <;> simp [ha]
    have e3 : inner ℝ Complex.I b = b.im := by simp [Complex.inner]
    rw [e1, e2, e3, Complex.norm_real, Real.norm_eq_abs]
    set c := ‖b.re • (1 : ℂ) + (-a.re) • Complex.I‖ with hc
    have c1 := Complex.abs_re_le_norm (b.re • (1 : ℂ) + (-a.re) • Complex.I)
    have c2 := Complex.abs_im_le_norm (b.re • (1 : ℂ) + (-a.re) • Complex.I)
    rw [pair_re, ← hc] at c1
    rw [pair_im, abs_neg, ← hc] at c2
    have c3 : ‖a‖ ≤ |a.re| := by
      have := Complex.norm_le_abs_re_add_abs_im a
      rwa [ha, abs_zero, add_zero] at this
    have c4 := Complex.norm_le_abs_re_add_abs_im b
    have c5 : |l| ≤ |a.re - l| + |a.re| := by
      have := abs_sub (a.re) (a.re - l)
      rw [sub_sub_cancel] at this
      linarith
    have p1 := abs_nonneg (a.re - l)
    have p2 := abs_nonneg b.im
    linarith
  posρ := one_pos
  posm := by norm_num
  posκ := by norm_num

/-- From the load 1/2 with steps of the length 1/3, the bifurcation at the load 1 is found up to 1/800. -/
example {o : Opts ℝ} (ho : o.bifMethod = .determinant) (hq : o.quasi = false) (htF : 0 < o.tolF) (htU : 0 < o.tolU)
    (hmax : 30 ≤ o.maxIt) (hB : o.spTolB = 1 / 10000) (hE : 1 / 1000 ≤ o.spTolE)
    {s : St ℝ ℂ (ℝ × ℝ × ℝ) (ℝ × ℝ × ℝ)} (hi : s.initialized = true) (hgu : s.guess = none) (hl : s.len = 1 / 3) :
    ∃ t st, computeSingularPoint forkColumn o (loadControl forkColumn) ((1 / 2 : ℝ) • (1 : ℂ)) (1 / 2) false true false s =
        (t, .ok st) ∧
      ((st = .solverError ∧ ∃ x, ‖x - (1 : ℝ) • (1 : ℂ)‖ ≤ 1 ∧ SolverFails forkColumn x) ∨
        ‖t.U - (1 : ℝ) • (1 : ℂ)‖ + |t.L - 1| ≤ 1 / 1000) := by
  have hmin : ∀ l : ℝ, 1 / 2 ≤ l → min 1 (1 - l) = 1 - l := fun l hl => min_eq_right (by linarith)
  have hD := forkD_norm
  have hD0 := norm_nonneg forkD
  have hq' : 4 * 3 * ((4 * 6 + 2 * ‖forkD‖ + 2) * (1 / 500 : ℝ) + 4 * 6 / 10 ^ 8) ≤ 1 := by linarith
  have hJ : ‖forkJ ((1 : ℝ) • (1 : ℂ))‖ ≤ 1 := by
    refine ContinuousLinearMap.opNorm_le_bound _ (by norm_num) fun a => ?_
    rw [forkJ_apply]
    have := Complex.abs_re_le_norm a
    simpa using this
  have hb := fun k => (C141_extended_rate (D := forkD) (m := 3) (κ := 6) (by norm_num) (by norm_num) (by norm_num) hq' k).1
  have key := C143_singularPoint (s := s) (L := 1 / 2) (x₀ := 1 / 2) (ν := 1) (ν' := 1) (k := 0) (i := 14)
    (δ := 1 / 20000) (E := 1 / 500) (n := 10) (μ := 1) (α := 1 / 2) forkColumn_bifurcation (forkColumn_straight ho)
    (by rw [mem_realLine]; simp) (realGeo_laws ℂ) (by simp [forkColumn, realGeo]) (by simp [forkColumn, realGeo]) ?_ one_pos ?_ (by norm_num) le_rfl
    (by
      intro h
      have := congrArg Complex.re h
      simp [forkColumn] at this) ?_ hq htF htU (by rw [hB]; norm_num) hi hgu (by norm_num) (by norm_num)
    (by rw [hl]; norm_num) ?_ ?_ one_pos ?_ ?_ (by norm_num) ?_ (by omega) ?_ ?_ (by norm_num) (by norm_num) hq'
    (by norm_num) (by omega) ?_ false true
  · obtain ⟨t, st, h1, h2⟩ := key
    refine ⟨t, st, h1, h2.imp_right ?_⟩
    rintro ⟨c, -, -, h3, -⟩
    refine (h3 rfl).trans ((hb (c + 1)).trans ?_)
    have : (1 : ℝ) ≤ 2 ^ c := one_le_pow₀ (by norm_num)
    rw [pow_succ (2 : ℝ), div_div, div_le_div_iff₀ (by positivity) (by norm_num)]
    linarith
  · intro x a b
    rw [forkJ_apply, forkJ_apply]
    simp only [Complex.inner, Complex.mul_re, Complex.conj_re, Complex.conj_im, pair_re, pair_im]
    ring
  · intro y hy
    rw [forkJ_apply]
    simp [Complex.inner] at hy
    have := Complex.norm_le_abs_re_add_abs_im y
    rw [hy, abs_zero, add_zero] at this
    simpa using this
  · have h3 : ‖forkColumn.ones‖ ≤ 2 := by
      refine (norm_add_le _ _).trans ?_
      simp
      norm_num
    have h4 : inner ℝ Complex.I forkColumn.ones = (1 : ℝ) := by simp [Complex.inner, forkColumn]
    rw [h4, abs_one]
    linarith
  · intro l h1 h2
    have : ¬(1 - l < 0) := by linarith
    simp [countNegatives, this]
  · intro l h1 h2
    have : 1 - l < 0 := by linarith
    simp [countNegatives, this]
  · intro l x h1 h2 hx
    simp only [minCoeff, List.foldl_cons, List.foldl_nil, Option.some.injEq] at hx
    rw [hmin l h1] at hx
    rw [← hx, one_mul, abs_sub_comm]
    exact ⟨le_rfl, le_rfl⟩
  · simp only [minCoeff, List.foldl_cons, List.foldl_nil, Option.some.injEq]
    norm_num
  · rw [hl, hB, abs_of_pos (by norm_num)]
    norm_num
  · rw [hB, abs_of_pos (by norm_num)]
    norm_num
  · rw [norm_one]
    norm_num
    linarith
  · have h3 := hb 10
    have h4 := (extendedBound_spec (D := forkD) (m := 3) (κ := 6) (E := 1 / 500) (by norm_num) (by norm_num) (by norm_num)
      (by unfold extendedConst fdStep; linarith) 10).1
    have h5 : 2 * 6 + 2 * ‖forkD‖ + ‖forkJ ((1 : ℝ) • (1 : ℂ))‖ ≤ 19 := by linarith
    have h6 := mul_le_mul_of_nonneg_right h5 h4
    norm_num at h3
    linarith

theorem forkColumn_callbacks : SmoothCallbacks forkColumn fork where
  dot _ _ := rfl
  norm := forkColumn_bifurcation.norm
  residual _ _ _ := rfl
  tangent _ z _ := by
    refine ⟨_, rfl, fun y => ?_⟩
    rw [fderiv_fork, forkJ_apply]
    simp only [forkColumn]
    apply Complex.ext <;> simp only [pair_re, pair_im] <;> ring
  regular n z dx m i f hm hf := by
    simp only [forkColumn, Option.some.injEq] at hm hf
    subst hm
    split at hf
    · simp at hf
    rename_i hdet
    simp only at hdet
    rw [one_mul, neg_sq] at hdet
    rw [fderiv_fork, injective_iff_map_eq_zero]
    intro a ha
    rw [forkJ_apply] at ha
    have h1 := congrArg Complex.re ha
    have h2 := congrArg Complex.im ha
    rw [pair_re, Complex.zero_re] at h1
    rw [pair_im, Complex.zero_im] at h2
    have h3 : (1 - z.re + 3 * z.im ^ 2 - z.im ^ 2) * a.im = 0 := by linear_combination h2 + z.im * h1
    have h4 : a.im = 0 := (mul_eq_zero.1 h3).resolve_left hdet
    rw [h4, mul_zero, sub_zero] at h1
    exact Complex.ext h1 h4
  solves n z dx m i f j b y hm hf hy := by
    simp only [forkColumn, Option.some.injEq] at hm hf hy
    subst hm
    split at hf
    · simp at hf
    rename_i hdet
    obtain rfl := Option.some.inj hf
    simp only at hdet hy
    rw [one_mul, neg_sq] at hdet
    subst hy
    rw [fderiv_fork, forkJ_apply]
    apply Complex.ext <;> simp only [pair_re, pair_im, one_mul, neg_sq]
    · field_simp
      ring
    · field_simp
      ring

/-- The hypotheses of `C143_smooth` on the structure hold for this one. -/
example := C143_smooth (S := realLine) (w := 1) (φ := Complex.I) (σ := 1) contDiff_fork forkColumn_callbacks (realGeo_laws ℂ)
  forkColumn_bifurcation.load (by rw [mem_realLine]; simp)
  (by
    intro x hx
    rw [mem_realLine] at hx ⊢
    simp [fork, hx])
  forkColumn_bifurcation.balance (by simp [forkColumn]) one_ne_zero
  (by
    intro x a b
    rw [fderiv_fork, forkJ_apply, forkJ_apply]
    simp only [Complex.inner, Complex.mul_re, Complex.conj_re, Complex.conj_im, pair_re, pair_im]
    ring)
  (by simp) (by rw [fderiv_fork]; exact forkColumn_bifurcation.kernel)
  (by
    intro x hx
    rw [fderiv_fork, forkJ_apply] at hx
    have := congrArg Complex.re hx
    simp at this
    refine ⟨x.im, ?_⟩
    apply Complex.ext <;> simp [this])
  (by rw [one_smul]; exact fork_regular)
  (by simp [Complex.inner, forkColumn])

end RealDemo

namespace Demo

/-- The column of `columnEnv`: bisection, extended system and switch of branches with rational numbers. -/
example :
    let r := computeSingularPoint columnEnv { columnOpts 18 with spTolB := 1 / 100, spTolE := 1 / 1000 }
      (loadControl columnEnv) (1 / 2, 0) (1 / 2) true false false (columnStart (1 / 3))
    |r.1.L - 1| < 1 / 10 ^ 5 ∧ |r.1.U.1 - 1| < 1 / 10 ^ 5 ∧ r.1.U.2 = 1 / 1000 := by
  decide +kernel

/-- **C143** violated: the extended system improves the mode as well, but the improvement `m_DeltaV` is never added to
`m_V`; `solutionV` and the switch of branches use the vector the extended system started with. -/
theorem C143_violated_mode :
    let r := extendedSolve forkEnv (opts 10 3) (9 / 10, 0) (9 / 10) (1 / 1000) (forkStart (1 / 10, 101 / 100))
    r.2 = .ok true ∧ r.1.v = (1 / 10, 101 / 100) ∧ |(r.1.v + r.1.DV).1| < 1 / 10 ^ 5 ∧
      forkEnv.jacobian 0 (1, 0) 0 = some (1, 0, 0) ∧ forkEnv.mul (1, 0, 0) r.1.v ≠ 0 ∧
      (switchBranch forkEnv (opts 10 3) r.1).1.U.1 ≠ r.1.U.1 := by
  decide +kernel

end Demo

end GsSA.ALM
