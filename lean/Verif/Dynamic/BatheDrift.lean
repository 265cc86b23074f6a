import Verif.Dynamic.ConvergeBatheProps

/-!
# The nonlinear Bathe method with positive tolerances is not of second order (C139)

On the oscillator all small steps are accepted after one iteration, and the method follows an oscillator with a negative
damping of the order of the step.
-/

set_option linter.unusedSectionVars false

namespace GsSA.Dynamic

open GsSA GsSA.Static Set
open GsSA.ALM (Act Err)

/-- The energy of the oscillator, corrected such that it grows all the time. -/
noncomputable def drift (h u v : ℝ) : ℝ := u ^ 2 + v ^ 2 - h / 3 * (u * v)

/-- The numbers of one step. -/
theorem drift_step {h u v κ w p q : ℝ} (h0 : 0 < h) (h1 : h ≤ 1 / 10) (hu : 3 / 4 ≤ u ∧ u ≤ 5 / 4)
    (hv : -(1 / 2) ≤ v ∧ v ≤ 0) (hκ : |κ| ≤ 3) (hw : w = -2 * u + h ^ 2 * (κ - w / 16))
    (hp : p = -u + h / 6 * v + h ^ 2 / 3 * κ - h / 3 * q) (hq : q = v + h / 3 * p + h / 12 * w) :
    (-3 ≤ w ∧ w ≤ 0) ∧ (-2 ≤ p ∧ p ≤ -(1 / 4)) ∧ |q| ≤ 1 ∧ |w / 16 - p / 2| ≤ 3 ∧
      (1 + h ^ 2 / 3) * drift h u v - 100 * h ^ 3 ≤ drift h (u + h * q) (v + h * p) := by
  obtain ⟨hu1, hu2⟩ := hu
  obtain ⟨hv1, hv2⟩ := hv
  obtain ⟨hκ1, hκ2⟩ := abs_le.1 hκ
  have hh : h ^ 2 ≤ 1 / 100 := by nlinarith
  have hh0 : 0 ≤ h ^ 2 := by positivity
  have m1 : |h ^ 2 * κ| ≤ 3 / 100 := by
    rw [abs_mul, abs_of_nonneg hh0]
    calc h ^ 2 * |κ| ≤ 1 / 100 * 3 := mul_le_mul hh hκ (abs_nonneg _) (by norm_num)
      _ = _ := by norm_num
  obtain ⟨m2, m3⟩ := abs_le.1 m1
  have w1 : w * (1 + h ^ 2 / 16) = -2 * u + h ^ 2 * κ := by linear_combination hw
  have hc : 0 < 1 + h ^ 2 / 16 := by positivity
  have w2 : w ≤ 0 := by
    by_contra hn
    have := mul_pos (not_le.1 hn) hc
    linarith
  have w3 : -3 ≤ w := by
    have : w * h ^ 2 ≤ 0 := mul_nonpos_of_nonpos_of_nonneg w2 hh0
    nlinarith
  have hwb : |w| ≤ 3 := abs_le.2 ⟨w3, by linarith⟩
  have p1 : p * (1 + h ^ 2 / 9) = -u - h / 6 * v + h ^ 2 * κ / 3 - h ^ 2 / 36 * w := by
    linear_combination hp - h / 3 * hq
  have m4 : |h * v| ≤ 1 / 20 := by
    rw [abs_mul, abs_of_pos h0]
    calc h * |v| ≤ 1 / 10 * (1 / 2) := mul_le_mul h1 (abs_le.2 ⟨hv1, by linarith⟩) (abs_nonneg _) (by norm_num)
      _ = _ := by norm_num
  obtain ⟨m5, m6⟩ := abs_le.1 m4
  have m7 : |h ^ 2 * w| ≤ 3 / 100 := by
    rw [abs_mul, abs_of_nonneg hh0]
    calc h ^ 2 * |w| ≤ 1 / 100 * 3 := mul_le_mul hh hwb (abs_nonneg _) (by norm_num)
      _ = _ := by norm_num
  obtain ⟨m8, m9⟩ := abs_le.1 m7
  have p2 : p ≤ -(1 / 4) := by
    by_contra hn
    have h3 : -(1 / 4) * (1 + h ^ 2 / 9) < p * (1 + h ^ 2 / 9) :=
      mul_lt_mul_of_pos_right (not_le.1 hn) (by positivity)
    linarith
  have p3 : -2 ≤ p := by
    by_contra hn
    have h3 : p * (1 + h ^ 2 / 9) < -2 * (1 + h ^ 2 / 9) :=
      mul_lt_mul_of_pos_right (not_le.1 hn) (by positivity)
    linarith
  have hpb : |p| ≤ 2 := abs_le.2 ⟨p3, by linarith⟩
  have m10 : |h * p| ≤ 1 / 5 := by
    rw [abs_mul, abs_of_pos h0]
    calc h * |p| ≤ 1 / 10 * 2 := mul_le_mul h1 hpb (abs_nonneg _) (by norm_num)
      _ = _ := by norm_num
  have m11 : |h * w| ≤ 3 / 10 := by
    rw [abs_mul, abs_of_pos h0]
    calc h * |w| ≤ 1 / 10 * 3 := mul_le_mul h1 hwb (abs_nonneg _) (by norm_num)
      _ = _ := by norm_num
  obtain ⟨m12, m13⟩ := abs_le.1 m10
  obtain ⟨m14, m15⟩ := abs_le.1 m11
  have hqb : |q| ≤ 1 := abs_le.2 ⟨by linarith, by linarith⟩
  refine ⟨⟨w3, w2⟩, ⟨p3, p2⟩, hqb, abs_le.2 ⟨by linarith, by linarith⟩, ?_⟩
  -- the growth
  set π := κ / 3 - p / 9 - w / 36 with hπ
  set ω := κ - w / 16 with hω
  set χ := -v / 18 + h * π / 3 + h * ω / 12 with hχ
  have ep : p = -u + h * (-v / 6 + h * π) := by rw [hπ]; linear_combination hp - h / 3 * hq
  have eq : q = v + h * (-u / 2 + h * χ) := by
    rw [hχ]
    linear_combination hq + h / 3 * ep + h / 12 * hw
  set p₁ := -v / 6 + h * π with hp₁
  set q₁ := -u / 2 + h * χ with hq₁
  have key : drift h (u + h * q) (v + h * p) - (1 + h ^ 2 / 3) * drift h u v =
      h ^ 3 * (2 * (u * χ) + 2 * (v * π) - 7 / 3 * (u * p₁) + 5 / 3 * (v * q₁) + h * (p₁ * p₁) + h * (q₁ * q₁) -
        p * q / 3 + u * v / 9) := by
    have e1 : h * χ = q₁ + u / 2 := by rw [hq₁]; ring
    have e2 : h * π = p₁ + v / 6 := by rw [hp₁]; ring
    have e3 : h ^ 3 * (2 * (u * χ) + 2 * (v * π)) = 2 * h ^ 2 * (u * (q₁ + u / 2) + v * (p₁ + v / 6)) := by
      rw [← e1, ← e2]; ring
    have e4 : h ^ 3 * (2 * (u * χ) + 2 * (v * π) - 7 / 3 * (u * p₁) + 5 / 3 * (v * q₁) + h * (p₁ * p₁) + h * (q₁ * q₁) -
        p * q / 3 + u * v / 9) = h ^ 3 * (2 * (u * χ) + 2 * (v * π)) + h ^ 3 * (- 7 / 3 * (u * p₁) + 5 / 3 * (v * q₁) +
        h * (p₁ * p₁) + h * (q₁ * q₁) - p * q / 3 + u * v / 9) := by ring
    rw [e4, e3, ep, eq]
    simp only [drift]
    ring
  obtain ⟨q2, q3⟩ := abs_le.1 hqb
  have bπ : |π| ≤ 2 := abs_le.2 ⟨by linarith, by linarith⟩
  have bω : |ω| ≤ 4 := abs_le.2 ⟨by linarith, by linarith⟩
  have prod : ∀ {x y A B : ℝ}, |x| ≤ A → |y| ≤ B → |x * y| ≤ A * B := fun hx hy => by
    rw [abs_mul]; exact mul_le_mul hx hy (abs_nonneg _) ((abs_nonneg _).trans hx)
  have bh : |h| ≤ 1 / 10 := by rw [abs_of_pos h0]; exact h1
  have bu : |u| ≤ 5 / 4 := abs_le.2 ⟨by linarith, hu2⟩
  have bv : |v| ≤ 1 / 2 := abs_le.2 ⟨hv1, by linarith⟩
  have a1 := abs_le.1 (prod bh bπ)
  have a2 := abs_le.1 (prod bh bω)
  have bχ : |χ| ≤ 1 := abs_le.2 ⟨by linarith, by linarith⟩
  have a3 := abs_le.1 (prod bh bχ)
  have bp : |p₁| ≤ 1 := abs_le.2 ⟨by linarith, by linarith⟩
  have bq : |q₁| ≤ 1 := abs_le.2 ⟨by linarith, by linarith⟩
  have b1 := abs_le.1 (prod bu bχ)
  have b2 := abs_le.1 (prod bv bπ)
  have b3 := abs_le.1 (prod bu bp)
  have b4 := abs_le.1 (prod bv bq)
  have b5 := abs_le.1 (prod bh (prod bp bp))
  have b6 := abs_le.1 (prod bh (prod bq bq))
  have b7 := abs_le.1 (prod hpb hqb)
  have b8 := abs_le.1 (prod bu bv)
  have low : -100 ≤ 2 * (u * χ) + 2 * (v * π) - 7 / 3 * (u * p₁) + 5 / 3 * (v * q₁) + h * (p₁ * p₁) + h * (q₁ * q₁) -
        p * q / 3 + u * v / 9 := by
    linarith [b1.1, b2.1, b3.2, b4.1, b5.1, b6.1, b7.2, b8.1]
  have := mul_le_mul_of_nonneg_left low (by positivity : 0 ≤ h ^ 3)
  linarith [key]

theorem osc_moderate : Moderate (LinearMap.id : ℝ →ₗ[ℝ] ℝ) 0 (fun _ u => -u) (fun _ _ => LinearMap.id) (fun _ => 0) 0 0 0
    1 0 1 1 :=
  ⟨by simp, by simp, fun _ _ u u' _ _ => by
    rw [one_mul, ← norm_neg (u - u')]; simp [neg_add_eq_sub], by simp, by simp, le_rfl, by simp, by simp⟩

theorem osc_exact : ExactSolver osc := duffing_exact

set_option maxHeartbeats 800000 in
/-- One step on the oscillator. -/
theorem osc_bathe_step {o : Opts ℝ} (hα : o.alpha = 1 / 4) (hδ : o.delta = 1 / 2) (hγ : o.gamma = 1 / 2)
    (hz : ¬ o.zeroInterval) (hi : 1 ≤ o.maxIter) {h : ℝ} (h0 : 0 < h) (h1 : h ≤ 1 / 10) (hU : 6 * h < o.tolU)
    (hF : 3 * h < o.tolF) (s : DSt ℝ ℝ) (hu : 3 / 4 ≤ s.u ∧ s.u ≤ 5 / 4) (hv : -(1 / 2) ≤ s.v ∧ s.v ≤ 0)
    (hκ : |s.a + s.u - h / 2 * s.v| ≤ 3 * h ^ 2) :
    ∃ q st, step none (integrate .bathe true osc o) h s = (q, .ok st) ∧ |q.u - s.u| ≤ h ∧
      (s.v - 2 * h ≤ q.v ∧ q.v ≤ s.v) ∧ |q.a + q.u - h / 2 * q.v| ≤ 3 * h ^ 2 ∧
      (1 + h ^ 2 / 3) * drift h s.u s.v - 100 * h ^ 3 ≤ drift h q.u q.v := by
  have hh0 : (0 : ℝ) < h ^ 2 := by positivity
  have hh : h ^ 2 ≤ 1 / 100 := by nlinarith
  -- the first stage
  have inj : ∀ y : ℝ, (LinearMap.id + (o.delta * (h / 2)) • (0 : ℝ →ₗ[ℝ] ℝ) + (h / 2 * (h / 2) * o.alpha) • LinearMap.id :
      ℝ →ₗ[ℝ] ℝ) y = 0 → y = 0 := fun y hy => by
    have : (1 + h ^ 2 / 16) * y = 0 := by
      rw [← hy, hα]
      simp only [LinearMap.add_apply, LinearMap.smul_apply, LinearMap.id_apply, LinearMap.zero_apply, smul_eq_mul]
      ring
    rcases mul_eq_zero.1 this with h2 | h2
    · linarith
    · exact h2
  obtain ⟨as, lg, st, has, hn, -⟩ := newmarkN_linear (t := s.time) (dt := h / 2) osc_linear
    (F := fun _ => 0) (fun _ x _ => by simp [osc]) hz (osc_exact _ inj) inj hi s
  simp only [newmarkNext, LinearMap.add_apply, LinearMap.smul_apply, LinearMap.id_apply, LinearMap.zero_apply, smul_eq_mul,
    hα, hδ] at has hn
  obtain ⟨us, hus⟩ : ∃ us, us = s.u + h / 2 * s.v + h ^ 2 / 16 * (s.a + as) := ⟨_, rfl⟩
  obtain ⟨vs, hvs⟩ : ∃ vs, vs = s.v + h / 4 * (s.a + as) := ⟨_, rfl⟩
  have has' : as = -us := by rw [hus]; linear_combination has
  have hn' : newmarkN osc o s.time (h / 2) s = ({ s with u := us, v := vs, a := as, log := lg }, .ok st) := by
    rw [hn]
    congr 2
    · rw [hus]; ring
    · rw [hvs]; ring
  obtain ⟨lg', hrun⟩ := batheN_run (dt := h) osc_callbacks hγ s hn'
  obtain ⟨n, hmax⟩ : ∃ n, o.maxIter.toNat = n + 1 := ⟨o.maxIter.toNat - 1, by omega⟩
  rw [hmax] at hrun
  -- the second stage
  obtain ⟨S, i, lg₂, hS, h3⟩ := batheLoop_callbacks (o := o) (t := s.time) (dt := h) osc_callbacks hz
    (fun S => S = LinearMap.id) s.u s.v us vs (nz (osc.norm (batheRhs o h LinearMap.id 0 s.u s.v us vs (-s.u) us))) n 0 0 0
    (.inl rfl) (batheRhs o h LinearMap.id 0 s.u s.v us vs (-s.u) us) { s with u := us, v := vs, a := as, log := lg' } rfl
  obtain ⟨h4, h5⟩ := bathe_correct (e := osc) osc_moderate osc_exact hγ h0 (S := S) (by rw [hS]; simp)
    (by linarith) i s.u s.v us vs (-s.u) us
  rw [h3] at hrun
  dsimp only at hrun
  generalize osc.solve i (S + (c3 o h * c3 o h) • LinearMap.id + c3 o h • 0)
    (batheRhs o h LinearMap.id 0 s.u s.v us vs (-s.u) us) = d at hrun h4 h5
  obtain ⟨rhs, hrhs⟩ : ∃ y, y = batheRhs o h LinearMap.id 0 s.u s.v us vs (-s.u) us := ⟨_, rfl⟩
  rw [← hrhs] at hrun h5
  rw [hS] at h4
  obtain ⟨u', hu'⟩ : ∃ u', u' = us + d := ⟨_, rfl⟩
  rw [← hu'] at hrun h4
  rw [batheRhs_bath] at h4 hrun
  have hV := bathV_half hγ h0 s.u us u'
  have hA := bathA_half hγ h0 s.u s.v us vs u'
  generalize bathA o h s.u s.v us vs u' = a' at *
  generalize bathV o h s.u us u' = v' at *
  simp only [LinearMap.zero_apply, LinearMap.id_apply, sub_zero, smul_eq_mul] at h4 hV hA hrun
  -- the numbers
  obtain ⟨κ, hκd⟩ : ∃ κ, s.a = -s.u + h / 2 * s.v + h ^ 2 * κ :=
    ⟨(s.a + s.u - h / 2 * s.v) / h ^ 2, by field_simp; ring⟩
  have hκb : |κ| ≤ 3 := by
    have : s.a + s.u - h / 2 * s.v = h ^ 2 * κ := by rw [hκd]; ring
    rw [this, abs_mul, abs_of_pos hh0] at hκ
    exact le_of_mul_le_mul_left (hκ.trans (le_of_eq (by ring))) hh0
  obtain ⟨w, hw⟩ : ∃ w, w = s.a - us := ⟨_, rfl⟩
  obtain ⟨p, hp⟩ : ∃ p, v' = s.v + h * p := ⟨(v' - s.v) / h, by field_simp; ring⟩
  obtain ⟨q, hq⟩ : ∃ q, u' = s.u + h * q := ⟨(u' - s.u) / h, by field_simp; ring⟩
  have hne : h ≠ 0 := h0.ne'
  have ew : w = -2 * s.u + h ^ 2 * (κ - w / 16) := by
    have : us = s.u + h / 2 * s.v + h ^ 2 / 16 * w := by rw [hw, sub_eq_add_neg, ← has']; exact hus
    linear_combination hw + hκd - this
  have eus : us = s.u + h / 2 * s.v + h ^ 2 / 16 * w := by rw [hw, sub_eq_add_neg, ← has']; exact hus
  have evs : vs = s.v + h / 4 * w := by rw [hw, sub_eq_add_neg, ← has']; exact hvs
  have eq : q = s.v + h / 3 * p + h / 12 * w := by
    apply mul_left_cancel₀ hne
    linear_combination hV - hq + 4 / 3 * eus + h / 3 * hp
  have ea : a' = -s.u - u' + us := by linear_combination -h4 + hu'
  have ep : p = -s.u + h / 6 * s.v + h ^ 2 / 3 * κ - h / 3 * q := by
    apply mul_left_cancel₀ hne
    linear_combination hA - hp + 4 / 3 * evs + h / 3 * ea - h / 3 * hq + h / 3 * hw + h / 3 * hκd
  obtain ⟨⟨w1, w2⟩, ⟨p1, p2⟩, q1, k1, k2⟩ := drift_step h0 h1 hu hv hκb ew ep eq
  obtain ⟨q2, q3⟩ := abs_le.1 q1
  -- the iteration is accepted
  have ed : d = h * (s.v / 2 + h / 3 * p + h / 48 * w) := by
    linear_combination -hu' + hq - eus + h * eq
  have d1 : d ≤ -(h ^ 2 / 12) := by
    rw [ed]
    have i1 : h / 3 * p ≤ h / 3 * (-(1 / 4)) := mul_le_mul_of_nonneg_left p2 (by positivity)
    have i2 : h / 48 * w ≤ 0 := mul_nonpos_of_nonneg_of_nonpos (by positivity) w2
    calc h * (s.v / 2 + h / 3 * p + h / 48 * w) ≤ h * (-(h / 12)) :=
          mul_le_mul_of_nonneg_left (by linarith [hv.2]) h0.le
      _ = _ := by ring
  have d2 : -(2 * h) ≤ d := by
    rw [ed]
    have i1 : h / 3 * (-2) ≤ h / 3 * p := mul_le_mul_of_nonneg_left p1 (by positivity)
    have i2 : h / 48 * (-3) ≤ h / 48 * w := mul_le_mul_of_nonneg_left w1 (by positivity)
    calc -(2 * h) = h * (-2) := by ring
      _ ≤ _ := mul_le_mul_of_nonneg_left (by linarith [hv.1]) h0.le
  have d3 : |d| = -d := abs_of_neg (by linarith)
  have r1 : 3 / 8 ≤ |rhs| := by
    rw [Real.norm_eq_abs, Real.norm_eq_abs, d3] at h5
    have : h ^ 2 * (1 / 12) ≤ h ^ 2 * (2 / 9 * |rhs|) := by
      have e1 : 2 * 1 * (h ^ 2 / 9) * |rhs| = h ^ 2 * (2 / 9 * |rhs|) := by ring
      linarith
    have := le_of_mul_le_mul_left this hh0
    linarith
  have u1 : 1 / 2 ≤ u' := by
    have := mul_le_mul_of_nonneg_left q2 h0.le
    linarith [hu.1]
  have acc : quotLt (osc.norm d) (osc.norm u') o.tolU = true ∧ osc.norm (-u' - a') / nz (osc.norm rhs) < o.tolF := by
    constructor
    · show quotLt |d| |u'| o.tolU = true
      have hpos : 0 < |u'| := by rw [abs_of_pos (by linarith)]; linarith
      rw [quotLt, if_neg hpos.ne']
      refine decide_eq_true (lt_of_le_of_lt ((div_le_iff₀ hpos).2 ?_) hU)
      rw [d3, abs_of_pos (by linarith)]
      have := mul_le_mul_of_nonneg_left u1 (by positivity : 0 ≤ 6 * h)
      linarith
    · show |-u' - a'| / nz |rhs| < o.tolF
      have e1 : -u' - a' = s.u - us := by rw [ea]; ring
      have hpos : 0 < |rhs| := by linarith
      rw [nz, if_neg hpos.ne']
      refine lt_of_le_of_lt ((div_le_iff₀ hpos).2 ?_) hF
      have e2 : |s.u - us| ≤ h := by
        have i1 := mul_le_mul_of_nonneg_left hv.1 h0.le
        have i2 := mul_nonpos_of_nonneg_of_nonpos h0.le hv.2
        have i3 := mul_le_mul_of_nonneg_left w1 hh0.le
        have i4 := mul_nonpos_of_nonneg_of_nonpos hh0.le w2
        have i5 : h ^ 2 ≤ h := by rw [pow_two]; exact mul_le_of_le_one_left h0.le (by linarith)
        rw [eus]
        exact abs_le.2 ⟨by linarith, by linarith⟩
      rw [e1]
      have := mul_le_mul_of_nonneg_left r1 (by positivity : 0 ≤ 3 * h)
      linarith
  rw [if_pos acc] at hrun
  refine ⟨_, _, step_none _ _ _ _ _ hrun, ?_, ⟨?_, ?_⟩, ?_, ?_⟩
  · show |u' - s.u| ≤ h
    rw [hq, add_sub_cancel_left, abs_mul, abs_of_pos h0]
    exact mul_le_of_le_one_right h0.le q1
  · show s.v - 2 * h ≤ v'
    have := mul_le_mul_of_nonneg_left p1 h0.le
    linarith
  · show v' ≤ s.v
    have := mul_nonpos_of_nonneg_of_nonpos h0.le (by linarith : p ≤ 0)
    linarith
  · show |a' + u' - h / 2 * v'| ≤ 3 * h ^ 2
    have : a' + u' - h / 2 * v' = h ^ 2 * (w / 16 - p / 2) := by
      rw [ea, hp]; linear_combination eus
    rw [this, abs_mul, abs_of_pos hh0]
    linarith [mul_le_mul_of_nonneg_left k1 hh0.le]
  · show _ ≤ drift h u' v'
    rw [hq, hp]
    exact k2

/-- Many steps on the oscillator. -/
theorem osc_bathe_steps {o : Opts ℝ} (hα : o.alpha = 1 / 4) (hδ : o.delta = 1 / 2) (hγ : o.gamma = 1 / 2)
    (hz : ¬ o.zeroInterval) (hi : 1 ≤ o.maxIter) {h : ℝ} (h0 : 0 < h) (h1 : h ≤ 1 / 300) (hU : 6 * h < o.tolU)
    (hF : 3 * h < o.tolF) (n : ℕ) : ∀ (j : ℕ) (s : DSt ℝ ℝ) (_ : (j + n) * h ≤ 1 / 4) (_ : |s.u - 1| ≤ j * h)
      (_ : -(2 * (j * h)) ≤ s.v ∧ s.v ≤ 0) (_ : |s.a + s.u - h / 2 * s.v| ≤ 3 * h ^ 2)
      (_ : 1 + j * (h ^ 2 / 3 - 100 * h ^ 3) ≤ drift h s.u s.v),
    let q := (steps none (integrate .bathe true osc o) (List.replicate n h) s).1
    1 + (j + n) * (h ^ 2 / 3 - 100 * h ^ 3) ≤ drift h q.u q.v := by
  have hg : 0 ≤ h ^ 2 / 3 - 100 * h ^ 3 := by
    have : h ^ 2 / 3 - 100 * h ^ 3 = h ^ 2 * (1 / 3 - 100 * h) := by ring
    rw [this]
    exact mul_nonneg (by positivity) (by linarith)
  induction n with
  | zero =>
    intro j s _ _ _ _ h2
    simpa [steps] using h2
  | succ n ih =>
    intro j s a1 a2 a3 a4 a5
    push_cast at a1
    have hj : (0 : ℝ) ≤ j * h := by positivity
    have hn : (0 : ℝ) ≤ n * h := by positivity
    have hjn : j * h ≤ 1 / 4 := by nlinarith
    obtain ⟨b1, b2⟩ := abs_le.1 a2
    obtain ⟨q, st, k1, k2, ⟨k3, k4⟩, k5, k6⟩ := osc_bathe_step hα hδ hγ hz hi h0 (by linarith) hU hF s
      ⟨by linarith, by linarith⟩ ⟨by linarith [a3.1], a3.2⟩ a4
    have e1 : (steps none (integrate .bathe true osc o) (List.replicate (n + 1) h) s).1 =
        (steps none (integrate .bathe true osc o) (List.replicate n h) q).1 := by
      rw [List.replicate_succ]; simp [steps, k1]
    have big : 1 ≤ drift h s.u s.v := by
      have : (0 : ℝ) ≤ j * (h ^ 2 / 3 - 100 * h ^ 3) := by positivity
      linarith
    have := ih (j + 1) q (by push_cast; linarith) (by
        push_cast
        have := abs_add_le (q.u - s.u) (s.u - 1)
        rw [sub_add_sub_cancel] at this
        linarith) ⟨by push_cast; linarith [a3.1], by linarith [a3.2]⟩ k5 (by
        push_cast
        have : h ^ 2 / 3 * 1 ≤ h ^ 2 / 3 * drift h s.u s.v := mul_le_mul_of_nonneg_left big (by positivity)
        linarith)
    dsimp only at this ⊢
    rw [e1]
    push_cast at this ⊢
    linarith

set_option maxHeartbeats 800000 in
/-- **C139**, violated: the nonlinear Bathe method with positive tolerances is not of second order, not even on the
oscillator `u'' = -u` with exact Jacobians, with any number of iterations allowed. The linear method is, see
`C133_bathe`. -/
theorem C139_bathe_violated_second_order (o : Opts ℝ) (hα : o.alpha = 1 / 4) (hδ : o.delta = 1 / 2) (hγ : o.gamma = 1 / 2)
    (hz : ¬ o.zeroInterval) (hi : 1 ≤ o.maxIter) (hU : 0 < o.tolU) (hF : 0 < o.tolF) :
    ¬ ∃ (c : ℝ) (N : ℕ), ∀ n ≥ N,
      let q := (steps none (integrate .bathe true osc o) (List.replicate n (1 / 4 / n)) (DSt.init 1 0 (-1))).1
      ‖(q.u, q.v) - (Real.cos (1 / 4), -Real.sin (1 / 4))‖ ≤ c * (1 / 4 / n) ^ 2 := by
  rintro ⟨c, N, hN⟩
  have lim : Filter.Tendsto (fun n : ℕ => (1 / 4 : ℝ) / (n : ℝ)) Filter.atTop (nhds 0) :=
    tendsto_const_div_atTop_nhds_zero_nat _
  have small : ∀ (f : ℝ → ℝ) (b : ℝ), Continuous f → f 0 < b →
      ∀ᶠ n : ℕ in Filter.atTop, f (1 / 4 / (n : ℝ)) < b := by
    intro f b hf h0
    exact ((hf.tendsto 0).comp lim).eventually_lt_const h0
  set C := Real.cos (1 / 4) with hC
  set S := Real.sin (1 / 4) with hS
  have hS1 : S < 1 / 4 := Real.sin_lt (by norm_num)
  have hS0 : 0 < S := Real.sin_pos_of_pos_of_lt_pi (by norm_num) (by linarith [Real.two_le_pi])
  have hC1 : C ≤ 1 := Real.cos_le_one _
  have hC0 : 0 < C := Real.cos_pos_of_mem_Ioo ⟨by linarith [Real.two_le_pi], by linarith [Real.two_le_pi]⟩
  have hCS : C ^ 2 + S ^ 2 = 1 := by rw [hC, hS]; exact Real.cos_sq_add_sin_sq _
  have hCS' : C * S < 1 / 4 := lt_of_le_of_lt (mul_le_of_le_one_left hS0.le hC1) hS1
  set c' := |c| with hc'
  have hc0 : 0 ≤ c' := abs_nonneg c
  -- the bound of the energy of a solution of second order
  set K := 25 + 12 * c' + 6 * c' ^ 2 with hK
  have g1 := small (fun h => h) (1 / 300) (by fun_prop) (by norm_num)
  have g2 := small (fun h => 6 * h) o.tolU (by fun_prop) (by simpa using hU)
  have g3 := small (fun h => 3 * h) o.tolF (by fun_prop) (by simpa using hF)
  have g4 := small (fun h => K * h) (1 / 3 * (1 / 4 - C * S)) (by fun_prop) (by simp; linarith)
  obtain ⟨N', hN'⟩ := Filter.eventually_atTop.1
    (((((g1.and g2).and g3).and g4).and (Filter.eventually_ge_atTop 1)).and (Filter.eventually_ge_atTop N))
  obtain ⟨⟨⟨⟨⟨k1, k2⟩, k3⟩, k4⟩, k5⟩, k6⟩ := hN' N' le_rfl
  have hN0 : (0 : ℝ) < N' := by exact_mod_cast k5
  set h := (1 / 4 : ℝ) / N' with hh
  have h0 : 0 < h := by positivity
  have hNh : N' * h = 1 / 4 := by rw [hh]; field_simp
  have low := osc_bathe_steps hα hδ hγ hz hi h0 k1.le k2 k3 N' 0 (DSt.init 1 0 (-1)) (by simp [hNh]) (by simp [DSt.init])
    (by simp [DSt.init]) (by simp [DSt.init]; positivity) (by simp [DSt.init, drift])
  have up := hN N' k6
  dsimp only at low up
  rw [← hh] at up
  generalize (steps none (integrate .bathe true osc o) (List.replicate N' h) (DSt.init 1 0 (-1))).1 = q at low up
  have up' : ‖(q.u, q.v) - (C, -S)‖ ≤ c' * h ^ 2 :=
    up.trans (mul_le_mul_of_nonneg_right (le_abs_self c) (by positivity))
  have y1 : |q.u - C| ≤ c' * h ^ 2 := (norm_fst_le ((q.u, q.v) - (C, -S))).trans up'
  have y2 : |q.v + S| ≤ c' * h ^ 2 := by
    have := (norm_snd_le ((q.u, q.v) - (C, -S))).trans up'
    simpa using this
  obtain ⟨x, hx⟩ : ∃ x, q.u = C + h ^ 2 * x := ⟨(q.u - C) / h ^ 2, by field_simp; ring⟩
  obtain ⟨y, hy⟩ : ∃ y, q.v = -S + h ^ 2 * y := ⟨(q.v + S) / h ^ 2, by field_simp; ring⟩
  have hh0 : (0 : ℝ) < h ^ 2 := by positivity
  have bx : |x| ≤ c' := by
    rw [hx, add_sub_cancel_left, abs_mul, abs_of_pos hh0, mul_comm c'] at y1
    exact le_of_mul_le_mul_left y1 hh0
  have by' : |y| ≤ c' := by
    rw [hy, show -S + h ^ 2 * y + S = h ^ 2 * y by ring, abs_mul, abs_of_pos hh0, mul_comm c'] at y2
    exact le_of_mul_le_mul_left y2 hh0
  have prod : ∀ {x y A B : ℝ}, |x| ≤ A → |y| ≤ B → |x * y| ≤ A * B := fun hx hy => by
    rw [abs_mul]; exact mul_le_mul hx hy (abs_nonneg _) ((abs_nonneg _).trans hx)
  have bC : |C| ≤ 1 := abs_le.2 ⟨by linarith, hC1⟩
  have bS : |S| ≤ 1 := abs_le.2 ⟨by linarith, by linarith⟩
  have bh : |h| ≤ 1 := abs_le.2 ⟨by linarith, by linarith⟩
  have bh2 : |h ^ 2| ≤ 1 := by rw [pow_two]; simpa using prod bh bh
  have key : drift h q.u q.v = 1 + h / 3 * (C * S) + h ^ 2 * (2 * (C * x) - 2 * (S * y) + h ^ 2 * (x * x) +
      h ^ 2 * (y * y) - h / 3 * (C * y) + h / 3 * (S * x) - h / 3 * (h ^ 2 * (x * y))) := by
    rw [drift, hx, hy]
    linear_combination hCS
  have z1 := (abs_le.1 (prod bC bx)).2
  have z2 := (abs_le.1 (prod bS by')).1
  have z3 := (abs_le.1 (prod bh2 (prod bx bx))).2
  have z4 := (abs_le.1 (prod bh2 (prod by' by'))).2
  have z5 := (abs_le.1 (prod bh (prod bC by'))).1
  have z6 := (abs_le.1 (prod bh (prod bS bx))).2
  have z7 := (abs_le.1 (prod bh (prod bh2 (prod bx by')))).1
  have z8 : 2 * (C * x) - 2 * (S * y) + h ^ 2 * (x * x) + h ^ 2 * (y * y) - h / 3 * (C * y) + h / 3 * (S * x) -
      h / 3 * (h ^ 2 * (x * y)) ≤ K - 25 := by
    rw [hK]
    have s1 : 0 ≤ c' * c' := mul_self_nonneg c'
    have s2 : c' ^ 2 = c' * c' := pow_two c'
    have e1 : h / 3 * (C * y) = h * (C * y) / 3 := by ring
    have e2 : h / 3 * (S * x) = h * (S * x) / 3 := by ring
    have e3 : h / 3 * (h ^ 2 * (x * y)) = h * (h ^ 2 * (x * y)) / 3 := by ring
    rw [e1, e2, e3, s2]
    linarith only [z1, z2, z3, z4, z5, z6, z7, s1, hc0]
  have z9 := mul_le_mul_of_nonneg_left z8 hh0.le
  have low' : 1 + 1 / 4 * (h / 3 - 100 * h ^ 2) ≤ drift h q.u q.v := by
    refine le_trans (le_of_eq ?_) low
    rw [← hNh]
    push_cast
    ring
  have fin : h * (1 / 3 * (1 / 4 - C * S)) ≤ h * (K * h) := by
    have e1 : h * (K * h) = h ^ 2 * (K - 25) + 25 * h ^ 2 := by ring
    have e2 : h * (1 / 3 * (1 / 4 - C * S)) = h / 12 - h / 3 * (C * S) := by ring
    rw [e1, e2]
    linarith only [key, z9, low']
  exact absurd (le_of_mul_le_mul_left fin h0) (not_le.2 k4)

/-- The default tolerances. -/
example : ¬ ∃ (c : ℝ) (N : ℕ), ∀ n ≥ N,
    let q := (steps none (integrate .bathe true osc oscOpts) (List.replicate n (1 / 4 / n)) (DSt.init 1 0 (-1))).1
    ‖(q.u, q.v) - (Real.cos (1 / 4), -Real.sin (1 / 4))‖ ≤ c * (1 / 4 / n) ^ 2 :=
  C139_bathe_violated_second_order oscOpts rfl rfl rfl (by simp [Opts.zeroInterval, oscOpts]) (by simp [oscOpts])
    (by norm_num [oscOpts]) (by norm_num [oscOpts])

end GsSA.Dynamic
