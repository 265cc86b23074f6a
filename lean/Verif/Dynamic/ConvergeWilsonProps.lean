import Mathlib.Analysis.SpecificLimits.Normed
import Verif.Dynamic.ConvergeWilson
import Verif.Dynamic.ConvergeBatheProps

/-!
# Convergence of the nonlinear Wilson method on smooth structures, and its divergence for small `gamma` (C140)
-/

set_option linter.unusedSectionVars false

namespace GsSA.Dynamic

open GsSA GsSA.Static Set
open GsSA.ALM (Act Err)

variable {V : Type} [NormedAddCommGroup V] [NormedSpace ℝ V]

/-- **C140**: on every nonlinear structure with finitely many degrees of freedom, a mass without kernel, a continuously
differentiable residual and continuous Jacobians, right or wrong, the errors of the displacements, the velocities and the
accelerations of `n` equal nonlinear Wilson steps from the initial values of a smooth motion to time `T` are of order
`(T / n)^2`, whatever the tolerances, the number of iterations and `gamma ≥ 1`. The motion must go on after `T`, since the
last step looks beyond it. -/
theorem C140_wilson_smooth [FiniteDimensional ℝ V] (e : Env ℝ V) (o : Opts ℝ) (M C : V →ₗ[ℝ] V) (R : ℝ → V → V)
    (J : ℝ → V → V →ₗ[ℝ] V) (hcb : Callbacks e M C R J) (he : ExactSolver e) (hα : o.alpha = 1 / 4)
    (hδ : o.delta = 1 / 2) (hγ : 1 ≤ o.gamma) (hz : ¬ o.zeroInterval) (hi : 1 ≤ o.maxIter)
    (hM : ∀ w, M w = 0 → w = 0) (hR : ContDiff ℝ 1 fun p : ℝ × V => R p.1 p.2)
    (hJ : Continuous fun p : ℝ × V => LinearMap.toContinuousLinearMap (J p.1 p.2)) (x : ℕ → ℝ → V) (T T' : ℝ)
    (hT : 0 < T) (hT' : T < T') (hx : Motion M C R x 4 0 T') (hc : ContinuousOn (x 4) (Icc 0 T')) :
    ∃ (c : ℝ) (N : ℕ), ∀ n ≥ N,
      let q := steps none (integrate .wilson true e o) (List.replicate n (T / n)) (DSt.init (x 0 0) (x 1 0) (x 2 0))
      ‖(q.1.u, q.1.v, q.1.a) - (x 0 T, x 1 T, x 2 T)‖ ≤ c * (T / n) ^ 2 ∧ ∀ st ∈ q.2, st = some .success := by
  have hT0 : 0 ≤ T' := by linarith
  obtain ⟨m, d, L, k, ht⟩ := moderate_of_contDiff (C := C) hM hR hJ
    (x := x 0) (a := 0) (b := T') (fun t ht => (hx.smooth 0 (by omega) t ht).continuousAt.continuousWithinAt)
  obtain ⟨Y, hY⟩ := hx.smooth.bounded hc
  have hm := ht.mass_nonneg
  have hLn := ht.lip_nonneg
  have hdn := ht.damp_nonneg
  set ρ : ℝ := 1 / 4 with hρd
  set P := ‖LinearMap.toContinuousLinearMap M‖ * Y 2 + 3 * ((L + d) * ρ) + 1 with hPd
  have hY2 : 0 ≤ Y 2 := (norm_nonneg _).trans (hY 2 (by omega) 0 ⟨le_rfl, hT0⟩)
  have hMY : 0 ≤ ‖LinearMap.toContinuousLinearMap M‖ * Y 2 := by positivity
  have hLρ : 0 ≤ (L + d) * ρ := by positivity
  have hP : ∀ t ∈ Icc 0 T', ‖M (x 2 t)‖ ≤ P := fun t h =>
    ((LinearMap.toContinuousLinearMap M).le_opNorm_of_le (hY 2 (by omega) t h)).trans (by rw [hPd]; linarith)
  set P₄ := ‖LinearMap.toContinuousLinearMap M‖ * Y 4
  have hP₄ : ∀ t ∈ Icc 0 T', ‖M (x 4 t)‖ ≤ P₄ := fun t h =>
    (LinearMap.toContinuousLinearMap M).le_opNorm_of_le (hY 4 (by omega) t h)
  set Z := max (Y 3) (Y 4)
  have hZ : ∀ t ∈ Icc 0 T', ‖(x 3 t, x 4 t)‖ ≤ Z := fun t ht =>
    max_le_max (hY 3 (by omega) t ht) (hY 4 (by omega) t ht)
  set Λ := max 1 (m * (L + d))
  have hΛ1 : 1 ≤ Λ := le_max_left _ _
  set G := wilsonForce m d L k P Z P₄ ρ o.gamma with hG
  set K := wilsonConst m d L k P Z P₄ ρ o.gamma with hK
  -- small steps
  have lim : Filter.Tendsto (fun n : ℕ => T / (n : ℝ)) Filter.atTop (nhds 0) := tendsto_const_div_atTop_nhds_zero_nat T
  have small : ∀ (f : ℝ → ℝ) (b : ℝ), Continuous f → f 0 < b → ∀ᶠ n : ℕ in Filter.atTop, f (T / (n : ℝ)) < b := by
    intro f b hf h0
    exact ((hf.tendsto 0).comp lim).eventually_lt_const h0
  have g1 := small (fun h => m * (L + k + d) * (o.gamma * h)) (1 / 4) (by fun_prop) (by norm_num)
  have g2 := small (fun h => 8 * Λ * (o.gamma * h)) 1 (by fun_prop) (by norm_num)
  have g3 := small (fun h => 3 * ((L + d) * ρ) + 2 * (G * h ^ 2)) P (by fun_prop) (by
    norm_num only [ne_eq, OfNat.ofNat_ne_zero, not_false_eq_true, zero_pow, mul_zero, add_zero]
    rw [hPd]; linarith)
  have g4 := small (fun h => 2 * ρ + 6 * m * (P + (L + d) * ρ) * (o.gamma * h) ^ 2) 1 (by fun_prop)
    (by norm_num [hρd])
  have g5 := small (fun h => Real.exp (8 * Λ * T) * (K * T * h ^ 2)) ρ (by fun_prop) (by norm_num [hρd])
  have g6 := small (fun h => (o.gamma - 1) * h) (T' - T) (by fun_prop) (by simpa using hT')
  obtain ⟨N, hN⟩ := Filter.eventually_atTop.1
    ((((((g1.and g2).and g3).and g4).and g5).and g6).and (Filter.eventually_ge_atTop 1))
  set B := Real.exp (8 * Λ * T) * (K * T) with hB
  refine ⟨max B (m * (3 * ((L + d) * B) + 2 * G)), N, fun n hn => ?_⟩
  obtain ⟨⟨⟨⟨⟨⟨k1, k2⟩, k3⟩, k4⟩, k5⟩, k6⟩, k7⟩ := hN n hn
  obtain ⟨h1, h2⟩ := replicate_steps hT (Nat.lt_of_lt_of_le Nat.zero_lt_one k7)
  have := C140_wilson_near e o M C R J hcb he hα hδ hγ hz hi (LinearMap.toContinuousLinearMap M).continuous x 0 T' 1 m d L k
    P Z P₄ ρ Λ hx ht hP hZ hP₄ (by norm_num [hρd]) hΛ1 (le_max_right _ _) (T / n) _ h1 k1.le k2.le k3.le k4.le
    (DSt.init (x 0 0) (x 1 0) (x 2 0)) (hx.balance 0 ⟨le_rfl, hT0⟩) le_rfl (by positivity)
    (by rw [h2]; simp only [DSt.init, zero_add]; linarith)
    (by rw [h2]; simp only [DSt.init, sub_self, norm_zero, zero_add]; exact k5.le)
  obtain ⟨-, q2, q3, q4⟩ := this
  rw [h2] at q2 q3
  simp only [DSt.init, zero_add, sub_self, norm_zero] at q2 q3
  refine ⟨?_, q4⟩
  have hsq : 0 ≤ (T / n : ℝ) ^ 2 := by positivity
  have b1 : ∀ {y : ℝ}, y ≤ Real.exp (8 * Λ * T) * (K * T * (T / n) ^ 2) →
      y ≤ max B (m * (3 * ((L + d) * B) + 2 * G)) * (T / n) ^ 2 := fun hy =>
    hy.trans (le_trans (le_of_eq (by rw [hB]; ring)) (mul_le_mul_of_nonneg_right (le_max_left _ _) hsq))
  rw [Prod.norm_def] at q2 ⊢
  rw [Prod.norm_def]
  refine max_le (b1 ((le_max_left _ _).trans q2)) (max_le (b1 ((le_max_right _ _).trans q2)) (q3.trans ?_))
  refine le_trans (le_of_eq ?_) (mul_le_mul_of_nonneg_right (le_max_right _ _) hsq)
  rw [hB]
  ring

/-- The Duffing oscillator with the default `gamma`. -/
example : ∃ (c : ℝ) (N : ℕ), ∀ n ≥ N,
    let q := steps none (integrate .wilson true duffing { duffingOpts with gamma := 7 / 5 }) (List.replicate n (2 / n))
      (DSt.init 1 0 (-1))
    ‖(q.1.u, q.1.v, q.1.a) - (Real.cos 2, -Real.sin 2, -Real.cos 2)‖ ≤ c * (2 / n) ^ 2 := by
  obtain ⟨c, N, h⟩ := C140_wilson_smooth duffing { duffingOpts with gamma := 7 / 5 } LinearMap.id 0 _
    (fun _ x => (3 * x ^ 2) • LinearMap.id)
    ⟨fun _ _ => rfl, fun _ _ _ => rfl, fun _ _ _ => rfl, fun _ _ _ => rfl⟩ duffing_exact rfl rfl (by norm_num)
    (by simp [Opts.zeroInterval, duffingOpts]) (by simp [duffingOpts]) (fun w h => h)
    (((contDiff_snd.pow 3).neg.add ((Real.contDiff_cos.comp contDiff_fst).pow 3)).sub
      (Real.contDiff_cos.comp contDiff_fst))
    (by
      simp only [map_smul]
      exact ((continuous_const.mul (continuous_snd.pow 2)).smul continuous_const)) cosine 2 3 (by norm_num) (by norm_num)
    (duffing_motion 4 0 3) (fun t _ => (cosine_deriv 4 t).continuousAt.continuousWithinAt)
  refine ⟨c, N, fun n hn => ?_⟩
  have h0 := (h n hn).1
  rwa [show cosine 0 0 = 1 by simp [cosine], show cosine 1 0 = 0 by simp [cosine],
    show cosine 2 0 = -1 by simp [cosine, mul_div_cancel₀], show cosine 0 2 = Real.cos 2 by simp [cosine],
    show cosine 1 2 = -Real.sin 2 by simp [cosine, Real.cos_add_pi_div_two],
    show cosine 2 2 = -Real.cos 2 by simp [cosine, mul_div_cancel₀, Real.cos_add_pi]] at h0

/-! ## Small `gamma` -/

/-- A mass point with the force `t^2`. -/
noncomputable def pushed : Env ℝ ℝ := { osc with
  jacobian := fun _ _ _ => .value 0
  residual := fun _ _ t => .value (t ^ 2) }

theorem pushed_moderate (x : ℝ → ℝ) (a b r : ℝ) :
    Moderate (LinearMap.id : ℝ →ₗ[ℝ] ℝ) 0 (fun t _ => t ^ 2) (fun _ _ => 0) x a b r 1 0 0 0 :=
  ⟨by simp, by simp, by simp, by simp, by simp, le_rfl, le_rfl, le_rfl⟩

/-- One step. -/
theorem pushed_step {o : Opts ℝ} (hα : o.alpha = 1 / 4) (hδ : o.delta = 1 / 2) (hγ : 0 < o.gamma)
    (hz : ¬ o.zeroInterval) (hi : 1 ≤ o.maxIter) {h : ℝ} (h0 : 0 < h) (s : DSt ℝ ℝ) :
    ∃ q st, step none (integrate .wilson true pushed o) h s = (q, .ok st) ∧ q.time = s.time + h ∧
      q.a = (1 - 1 / o.gamma) * s.a + 1 / o.gamma * (s.time + o.gamma * h) ^ 2 ∧
      q.v = s.v + h / 2 * (s.a + q.a) := by
  obtain ⟨d, lg, st, n1, -, n3, -⟩ := newmarkN_near (e := pushed) (o := o) (t := s.time) (dt := o.gamma * h)
    (R := fun t _ => t ^ 2) (J := fun _ _ => 0)
    ⟨fun _ _ => rfl, fun _ _ _ => rfl, fun _ _ _ => rfl, fun _ _ _ => rfl⟩ hz hi duffing_exact
    (pushed_moderate (fun _ => 0) (s.time + o.gamma * h) (s.time + o.gamma * h) _)
    (by rw [hδ]; positivity) (by rw [hα]; positivity) (by norm_num) (by norm_num) ⟨le_rfl, le_rfl⟩ s le_rfl
  have hd : d = (s.time + o.gamma * h) ^ 2 := by
    simp only [residue, add_zero, mul_zero, zero_mul] at n3
    have := norm_le_zero_iff.1 n3
    simp only [LinearMap.zero_apply, LinearMap.id_apply, sub_zero] at this
    linarith
  refine ⟨_, _, step_none _ _ _ _ _ (wilsonN_run s n1), rfl, ?_, ?_⟩
  · dsimp only
    rw [hd, smul_eq_mul, smul_eq_mul]
  · dsimp only
    rw [hδ]
    simp only [smul_eq_mul]
    ring

/-- The velocities and the accelerations after `n` steps. -/
theorem pushed_steps {o : Opts ℝ} (hα : o.alpha = 1 / 4) (hδ : o.delta = 1 / 2) (hγ : 0 < o.gamma)
    (hz : ¬ o.zeroInterval) (hi : 1 ≤ o.maxIter) {h : ℝ} (h0 : 0 < h) (n : ℕ) :
    let q := (steps none (integrate .wilson true pushed o) (List.replicate n h) (DSt.init 0 0 0)).1
    q.time = n * h ∧
    q.a = (n * h) ^ 2 + o.gamma * (1 - o.gamma) * h ^ 2 * ((1 - 1 / o.gamma) ^ n - 1) ∧
    q.v = (n * h) ^ 3 / 3 + (n * h) * h ^ 2 / 6 + h ^ 3 / 2 * (o.gamma * (1 - o.gamma)) *
      ((1 - 2 * o.gamma) * ((1 - 1 / o.gamma) ^ n - 1) - 2 * n) := by
  induction n with
  | zero => simp [steps, DSt.init]
  | succ n ih =>
    obtain ⟨i1, i2, i3⟩ := ih
    rw [List.replicate_succ', steps_append]
    set s := (steps none (integrate .wilson true pushed o) (List.replicate n h) (DSt.init 0 0 0)).1 with hs
    obtain ⟨q, st, k1, k2, k3, k4⟩ := pushed_step hα hδ hγ hz hi h0 s
    have e1 : (steps none (integrate .wilson true pushed o) [h] s).1 = q := by simp [steps, k1]
    dsimp only
    rw [e1]
    have hne : o.gamma ≠ 0 := hγ.ne'
    have ha : q.a = ((n + 1 : ℕ) * h) ^ 2 + o.gamma * (1 - o.gamma) * h ^ 2 * ((1 - 1 / o.gamma) ^ (n + 1) - 1) := by
      rw [k3, i1, i2, pow_succ (1 - 1 / o.gamma) n]
      generalize (1 - 1 / o.gamma) ^ n = p
      push_cast
      field_simp
      ring
    refine ⟨by rw [k2, i1]; push_cast; ring, ha, ?_⟩
    rw [k4, ha, i2, i3, pow_succ (1 - 1 / o.gamma) n]
    generalize (1 - 1 / o.gamma) ^ n = p
    push_cast
    field_simp
    ring

/-- **C140**: for every `gamma` between `0` and `1 / 2`, in the range that the description of the option gives, the
nonlinear Wilson method diverges: on a mass point with the force `t^2` the errors of the velocities at time one grow to
infinity when the steps become small. -/
theorem C140_wilson_violated_small_gamma (o : Opts ℝ) (hα : o.alpha = 1 / 4) (hδ : o.delta = 1 / 2) (hγ : 0 < o.gamma)
    (hγ2 : o.gamma < 1 / 2) (hz : ¬ o.zeroInterval) (hi : 1 ≤ o.maxIter) :
    Filter.Tendsto (fun n : ℕ => |(steps none (integrate .wilson true pushed o) (List.replicate n (1 / n))
      (DSt.init 0 0 0)).1.v - 1 / 3|) Filter.atTop Filter.atTop := by
  obtain ⟨p, hp⟩ : ∃ p, p = 1 / o.gamma - 1 := ⟨_, rfl⟩
  have hp1 : 1 < p := by
    rw [hp, lt_sub_iff_add_lt, lt_div_iff₀ hγ]
    linarith
  obtain ⟨κ, hκ⟩ : ∃ κ, κ = o.gamma * (1 - o.gamma) * (1 - 2 * o.gamma) / 2 := ⟨_, rfl⟩
  have hκ0 : 0 < κ := by
    rw [hκ]
    have : 0 < 1 - o.gamma := by linarith
    have : 0 < 1 - 2 * o.gamma := by linarith
    positivity
  have hκ1 : κ ≤ 1 := by rw [hκ]; nlinarith [mul_pos hγ (by linarith : 0 < 1 - 2 * o.gamma)]
  have l1 : Filter.Tendsto (fun n : ℕ => ((n : ℝ) ^ 3 / p ^ n)⁻¹) Filter.atTop Filter.atTop := by
    refine Filter.Tendsto.inv_tendsto_nhdsGT_zero (tendsto_nhdsWithin_iff.2
      ⟨tendsto_pow_const_div_const_pow_of_one_lt 3 hp1, ?_⟩)
    filter_upwards [Filter.eventually_ge_atTop 1] with n hn
    have : (0 : ℝ) < n := by exact_mod_cast hn
    have : (0 : ℝ) < (n : ℝ) ^ 3 / p ^ n := by positivity
    exact this
  have l2 : Filter.Tendsto (fun n : ℕ => κ * ((n : ℝ) ^ 3 / p ^ n)⁻¹ + -3) Filter.atTop Filter.atTop :=
    Filter.tendsto_atTop_add_const_right _ _ (l1.const_mul_atTop hκ0)
  refine Filter.tendsto_atTop_mono' _ ?_ l2
  filter_upwards [Filter.eventually_ge_atTop 1] with n hn
  have hn0 : (1 : ℝ) ≤ n := by exact_mod_cast hn
  have hn1 : (0 : ℝ) < n := by linarith
  obtain ⟨-, -, i3⟩ := pushed_steps hα hδ hγ hz hi (h := 1 / n) (by positivity) n
  rw [i3, mul_one_div_cancel hn1.ne']
  have e1 : (1 - 1 / o.gamma) ^ n = (-1) ^ n * p ^ n := by rw [← mul_pow, hp]; congr 1; ring
  rw [e1]
  have hh0 : (0 : ℝ) < 1 / n := by positivity
  have hh1 : (1 : ℝ) / n ≤ 1 := by rw [div_le_one hn1]; exact hn0
  have e2 : ((n : ℝ) ^ 3 / p ^ n)⁻¹ = (1 / n) ^ 3 * p ^ n := by rw [inv_div]; field_simp
  rw [e2]
  obtain ⟨h, hh⟩ : ∃ h : ℝ, h = 1 / n := ⟨_, rfl⟩
  have hnh : (n : ℝ) * h = 1 := by rw [hh]; field_simp
  rw [← hh] at hh0 hh1 ⊢
  have e3 : (1 : ℝ) ^ 3 / 3 + 1 * h ^ 2 / 6 + h ^ 3 / 2 * (o.gamma * (1 - o.gamma)) *
      ((1 - 2 * o.gamma) * ((-1) ^ n * p ^ n - 1) - 2 * n) - 1 / 3 =
      κ * (h ^ 3 * p ^ n) * (-1) ^ n + (h ^ 2 / 6 - κ * h ^ 3 - o.gamma * (1 - o.gamma) * h ^ 2) := by
    rw [hκ]
    linear_combination (-(h ^ 2) * (o.gamma * (1 - o.gamma))) * hnh
  rw [e3]
  have e4 : |κ * (h ^ 3 * p ^ n) * (-1) ^ n| = κ * (h ^ 3 * p ^ n) := by
    rw [abs_mul, abs_pow, abs_neg, abs_one, one_pow, mul_one, abs_of_nonneg (by positivity)]
  have b1 : h ^ 2 ≤ 1 := pow_le_one₀ hh0.le hh1
  have b2 : h ^ 3 ≤ 1 := pow_le_one₀ hh0.le hh1
  have b3 : κ * h ^ 3 ≤ 1 * 1 := mul_le_mul hκ1 b2 (by positivity) zero_le_one
  have b4 : 0 ≤ o.gamma * (1 - o.gamma) := mul_nonneg hγ.le (by linarith)
  have b5 : o.gamma * (1 - o.gamma) ≤ 1 := by nlinarith
  have b6 : o.gamma * (1 - o.gamma) * h ^ 2 ≤ 1 * 1 := mul_le_mul b5 b1 (by positivity) zero_le_one
  have b7 : 0 ≤ o.gamma * (1 - o.gamma) * h ^ 2 := by positivity
  have b8 : 0 ≤ κ * h ^ 3 := by positivity
  have b9 : |h ^ 2 / 6 - κ * h ^ 3 - o.gamma * (1 - o.gamma) * h ^ 2| ≤ 3 :=
    abs_le.2 ⟨by linarith [sq_nonneg h], by linarith⟩
  have b10 := abs_sub_abs_le_abs_add (κ * (h ^ 3 * p ^ n) * (-1) ^ n)
    (h ^ 2 / 6 - κ * h ^ 3 - o.gamma * (1 - o.gamma) * h ^ 2)
  linarith

/-- The motion of the mass point. -/
example : Motion (LinearMap.id : ℝ →ₗ[ℝ] ℝ) 0 (fun t _ => t ^ 2)
    (fun k t => match k with | 0 => t ^ 4 / 12 | 1 => t ^ 3 / 3 | 2 => t ^ 2 | 3 => 2 * t | 4 => 2 | _ => 0) 4 0 1 := by
  refine ⟨fun k hk t _ => ?_, fun t _ => by simp⟩
  interval_cases k
  · exact ((hasDerivAt_pow 4 t).div_const 12).congr_deriv (by norm_num; ring)
  · exact ((hasDerivAt_pow 3 t).div_const 3).congr_deriv (by norm_num)
  · exact (hasDerivAt_pow 2 t).congr_deriv (by norm_num)
  · exact ((hasDerivAt_id t).const_mul 2).congr_deriv (by norm_num)

example : Filter.Tendsto (fun n : ℕ => |(steps none (integrate .wilson true pushed { oscOpts with gamma := 1 / 4 })
    (List.replicate n (1 / n)) (DSt.init 0 0 0)).1.v - 1 / 3|) Filter.atTop Filter.atTop :=
  C140_wilson_violated_small_gamma _ rfl rfl (by norm_num) (by norm_num) (by simp [Opts.zeroInterval, oscOpts])
    (by simp [oscOpts])

end GsSA.Dynamic
