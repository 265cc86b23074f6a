import Verif.Dynamic.ConvergeBathe

/-!
# Convergence of the nonlinear Bathe method on smooth structures (C139)
-/

set_option linter.unusedSectionVars false

namespace GsSA.Dynamic

open GsSA GsSA.Static Set
open GsSA.ALM (Act Err)

variable {V : Type} [NormedAddCommGroup V] [NormedSpace ℝ V]

/-- **C139**: on every nonlinear structure with finitely many degrees of freedom, a mass without kernel, a continuously
differentiable residual and continuous Jacobians, right or wrong, the error of `n` equal nonlinear Bathe steps from the
initial values of a smooth motion to time `T` is of order `T / n`, whatever the tolerances and the number of iterations;
it is of order `(T / n)^2` if two iterations are allowed and one of the tolerances is not positive. -/
theorem C139_bathe_smooth [FiniteDimensional ℝ V] (e : Env ℝ V) (o : Opts ℝ) (M C : V →ₗ[ℝ] V) (R : ℝ → V → V)
    (J : ℝ → V → V →ₗ[ℝ] V) (hcb : Callbacks e M C R J) (he : ExactSolver e) (hα : o.alpha = 1 / 4)
    (hδ : o.delta = 1 / 2) (hγ : o.gamma = 1 / 2) (hz : ¬ o.zeroInterval) (hi : 1 ≤ o.maxIter) (p : ℕ)
    (hp : p = 1 ∨ p = 2 ∧ 2 ≤ o.maxIter ∧ (∀ w, 0 ≤ e.norm w) ∧ (o.tolU ≤ 0 ∨ o.tolF ≤ 0))
    (hM : ∀ w, M w = 0 → w = 0) (hR : ContDiff ℝ 1 fun p : ℝ × V => R p.1 p.2)
    (hJ : Continuous fun p : ℝ × V => LinearMap.toContinuousLinearMap (J p.1 p.2)) (x : ℕ → ℝ → V) (T : ℝ)
    (hT : 0 < T) (hx : Motion M C R x 4 0 T) (hc : ContinuousOn (x 4) (Icc 0 T)) :
    ∃ (c : ℝ) (N : ℕ), ∀ n ≥ N,
      let q := steps none (integrate .bathe true e o) (List.replicate n (T / n)) (DSt.init (x 0 0) (x 1 0) (x 2 0))
      ‖(q.1.u, q.1.v) - (x 0 T, x 1 T)‖ ≤ c * (T / n) ^ p ∧ ∀ st ∈ q.2, ∃ st', st = some st' := by
  obtain ⟨m, d, L, k, ht⟩ := moderate_of_contDiff (C := C) hM hR hJ
    (x := x 0) (a := 0) (b := T) (fun t ht => (hx.smooth 0 (by omega) t ht).continuousAt.continuousWithinAt)
  obtain ⟨Y, hY⟩ := hx.smooth.bounded hc
  set P := ‖LinearMap.toContinuousLinearMap M‖ * Y 2 + 1 with hPd
  have hP : ∀ t ∈ Icc 0 T, ‖M (x 2 t)‖ ≤ P := fun t h =>
    ((LinearMap.toContinuousLinearMap M).le_opNorm_of_le (hY 2 (by omega) t h)).trans (by rw [hPd]; linarith)
  have hY2 : 0 ≤ Y 2 := (norm_nonneg _).trans (hY 2 (by omega) 0 ⟨le_rfl, hT.le⟩)
  have hP1 : 1 ≤ P := by
    have : 0 ≤ ‖LinearMap.toContinuousLinearMap M‖ * Y 2 := by positivity
    linarith
  set Z := max (Y 3) (Y 4)
  have hZ : ∀ t ∈ Icc 0 T, ‖(x 3 t, x 4 t)‖ ≤ Z := fun t ht =>
    max_le_max (hY 3 (by omega) t ht) (hY 4 (by omega) t ht)
  set Λ := max 1 (m * (L + d))
  set ρ : ℝ := 1 / 32 with hρd
  set B : ℝ := 1 / 2 with hBd
  set X := Y 1
  set K := batheConst m d L k P X Z ρ B
  have hLn := ht.lip_nonneg
  have hdn := ht.damp_nonneg
  have hQ : 0 < P + (L + d) * ρ := by positivity
  -- small steps
  have lim : Filter.Tendsto (fun n : ℕ => T / (n : ℝ)) Filter.atTop (nhds 0) := tendsto_const_div_atTop_nhds_zero_nat T
  have small : ∀ (f : ℝ → ℝ) (b : ℝ), Continuous f → f 0 < b → ∀ᶠ n : ℕ in Filter.atTop, f (T / (n : ℝ)) < b := by
    intro f b hf h0
    exact ((hf.tendsto 0).comp lim).eventually_lt_const h0
  have hp0 : p ≠ 0 := by rcases hp with rfl | ⟨rfl, -⟩ <;> norm_num
  have g1 := small (fun h => m * (L + k + d) * h) (1 / 4) (by fun_prop) (by norm_num)
  have g2 := small (fun h => Λ * h) 1 (by fun_prop) (by norm_num)
  have g3 := small (fun h => (L + k) * (m * (P + (L + d) * ρ) + X + B) * h) (P + (L + d) * ρ) (by fun_prop)
    (by simpa using hQ)
  have g4 := small (fun h => 8 * ρ + (4 * m * (P + (L + d) * ρ) + 8 * Z + X) * h) B (by fun_prop)
    (by norm_num [hρd, hBd])
  have g5 := small (fun h => Real.exp (2 * Λ * T) * (K * T * h ^ p)) ρ (by fun_prop) (by
    rw [zero_pow hp0]; norm_num [hρd])
  obtain ⟨N, hN⟩ := Filter.eventually_atTop.1
    (((((g1.and g2).and g3).and g4).and g5).and (Filter.eventually_ge_atTop 1))
  refine ⟨Real.exp (2 * Λ * T) * (K * T), N, fun n hn => ?_⟩
  obtain ⟨⟨⟨⟨⟨k1, k2⟩, k3⟩, k4⟩, k5⟩, k6⟩ := hN n hn
  obtain ⟨h1, h2⟩ := replicate_steps hT (Nat.lt_of_lt_of_le Nat.zero_lt_one k6)
  have := C139_bathe_near e o M C R J hcb he hα hδ hγ hz hi p hp x 0 T 1 m d L k P X Z ρ B Λ hx ht hP
    (hY 1 (by omega)) hZ (by norm_num [hρd]) (le_max_left _ _) (le_max_right _ _) (T / n) _ h1 k1.le k2.le k3.le k4.le
    (by norm_num [hBd]) (DSt.init (x 0 0) (x 1 0) (x 2 0)) (hx.balance 0 ⟨le_rfl, hT.le⟩) le_rfl
    (by rw [h2]; simp [DSt.init])
    (by rw [h2]; simp only [DSt.init, sub_self, norm_zero, zero_add]; exact k5.le)
  obtain ⟨⟨-, q2⟩, q3⟩ := this
  rw [h2] at q2
  simp only [DSt.init, zero_add, sub_self, norm_zero] at q2
  exact ⟨q2.trans (le_of_eq (by ring)), q3⟩

/-- Any number of iterations and any tolerances on the Duffing oscillator. -/
theorem duffing_bathe (o : Opts ℝ) (hα : o.alpha = 1 / 4) (hδ : o.delta = 1 / 2) (hγ : o.gamma = 1 / 2)
    (hz : ¬ o.zeroInterval) (hi : 1 ≤ o.maxIter) (p : ℕ) (hp : p = 1 ∨ p = 2 ∧ 2 ≤ o.maxIter ∧ (o.tolU ≤ 0 ∨ o.tolF ≤ 0)) :
    ∃ (c : ℝ) (N : ℕ), ∀ n ≥ N,
      let q := steps none (integrate .bathe true duffing o) (List.replicate n (2 / n)) (DSt.init 1 0 (-1))
      ‖(q.1.u, q.1.v) - (Real.cos 2, -Real.sin 2)‖ ≤ c * (2 / n) ^ p := by
  obtain ⟨c, N, h⟩ := C139_bathe_smooth duffing o LinearMap.id 0 _ (fun _ x => (3 * x ^ 2) • LinearMap.id)
    ⟨fun _ _ => rfl, fun _ _ _ => rfl, fun _ _ _ => rfl, fun _ _ _ => rfl⟩ duffing_exact hα hδ hγ hz hi p
    (hp.imp id fun ⟨h1, h2, h3⟩ => ⟨h1, h2, fun w => abs_nonneg w, h3⟩) (fun w h => h)
    (((contDiff_snd.pow 3).neg.add ((Real.contDiff_cos.comp contDiff_fst).pow 3)).sub
      (Real.contDiff_cos.comp contDiff_fst))
    (by
      simp only [map_smul]
      exact ((continuous_const.mul (continuous_snd.pow 2)).smul continuous_const)) cosine 2 (by norm_num)
    (duffing_motion 4 0 2) (fun t _ => (cosine_deriv 4 t).continuousAt.continuousWithinAt)
  refine ⟨c, N, fun n hn => ?_⟩
  have h0 := (h n hn).1
  rwa [show cosine 0 0 = 1 by simp [cosine], show cosine 1 0 = 0 by simp [cosine],
    show cosine 2 0 = -1 by simp [cosine, mul_div_cancel₀], show cosine 0 2 = Real.cos 2 by simp [cosine],
    show cosine 1 2 = -Real.sin 2 by simp [cosine, Real.cos_add_pi_div_two]] at h0

/-- With positive tolerances. -/
example : ∃ (c : ℝ) (N : ℕ), ∀ n ≥ N,
    let q := steps none (integrate .bathe true duffing duffingOpts) (List.replicate n (2 / n)) (DSt.init 1 0 (-1))
    ‖(q.1.u, q.1.v) - (Real.cos 2, -Real.sin 2)‖ ≤ c * (2 / n) ^ 1 :=
  duffing_bathe _ rfl rfl rfl (by simp [Opts.zeroInterval, duffingOpts]) (by simp [duffingOpts]) 1 (.inl rfl)

/-- With all iterations. -/
example : ∃ (c : ℝ) (N : ℕ), ∀ n ≥ N,
    let q := steps none (integrate .bathe true duffing { duffingOpts with tolU := 0 }) (List.replicate n (2 / n))
      (DSt.init 1 0 (-1))
    ‖(q.1.u, q.1.v) - (Real.cos 2, -Real.sin 2)‖ ≤ c * (2 / n) ^ 2 :=
  duffing_bathe _ rfl rfl rfl (by simp [Opts.zeroInterval, duffingOpts]) (by simp [duffingOpts]) 2
    (.inr ⟨rfl, by simp [duffingOpts], .inl le_rfl⟩)

end GsSA.Dynamic
