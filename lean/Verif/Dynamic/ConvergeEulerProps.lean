import Verif.Dynamic.EulerLoop

/-!
# Convergence of the nonlinear implicit Euler method on smooth structures (C138)
-/

set_option linter.unusedSectionVars false

namespace GsSA.Dynamic

open GsSA GsSA.Static Set
open GsSA.ALM (Act Err)

variable {V : Type} [NormedAddCommGroup V] [NormedSpace ℝ V]

/-- **C138**: on every nonlinear structure with finitely many degrees of freedom, a mass without kernel, a continuously
differentiable residual and continuous Jacobians, right or wrong, the error of `n` equal nonlinear implicit Euler steps from
the initial values of a smooth motion to time `T` is of order `T / n`, whatever the tolerances and the number of
iterations. -/
theorem C138_euler_smooth [FiniteDimensional ℝ V] (e : Env ℝ V) (o : Opts ℝ) (M C : V →ₗ[ℝ] V) (R : ℝ → V → V)
    (J : ℝ → V → V →ₗ[ℝ] V) (hcb : Callbacks e M C R J) (he : ExactBlocks e) (hz : ¬ o.zeroInterval)
    (hi : 1 ≤ o.maxIter) (hM : ∀ w, M w = 0 → w = 0) (hR : ContDiff ℝ 1 fun p : ℝ × V => R p.1 p.2)
    (hJ : Continuous fun p : ℝ × V => LinearMap.toContinuousLinearMap (J p.1 p.2)) (x : ℕ → ℝ → V) (T : ℝ)
    (hT : 0 < T) (hx : Motion M C R x 3 0 T) (hc : ContinuousOn (x 3) (Icc 0 T)) (a₀ : V) :
    ∃ (c : ℝ) (N : ℕ), ∀ n ≥ N,
      let q := steps none (integrate .implicitEuler true e o) (List.replicate n (T / n)) (DSt.init (x 0 0) (x 1 0) a₀)
      ‖(q.1.u, q.1.v) - (x 0 T, x 1 T)‖ ≤ c * (T / n) ∧ ∀ st ∈ q.2, ∃ st', st = some st' := by
  obtain ⟨m, d, L, k, ht⟩ := moderate_of_contDiff (C := C) hM hR hJ
    (x := x 0) (a := 0) (b := T) (fun t ht => (hx.smooth 0 (by omega) t ht).continuousAt.continuousWithinAt)
  obtain ⟨Y, hY⟩ := hx.smooth.bounded hc
  set μ := ‖LinearMap.toContinuousLinearMap M‖
  have hY3 : 0 ≤ Y 3 := (norm_nonneg _).trans (hY 3 (by omega) 0 ⟨le_rfl, hT.le⟩)
  set ρ : ℝ := 1 / 4
  have hB : EulerBounds M C R J x 0 T 1 m d L k (μ * Y 2) (μ * Y 3) (Y 1) (Y 3) ρ :=
    { motion := hx
      moderate := ht
      inertia := fun t h => (LinearMap.toContinuousLinearMap M).le_opNorm_of_le (hY 2 (by omega) t h)
      jerk := fun t h t' h' => by
        rw [← map_sub, mul_assoc]
        refine (LinearMap.toContinuousLinearMap M).le_opNorm_of_le ?_
        exact (convex_Icc 0 T).norm_image_sub_le_of_norm_hasDerivWithin_le
          (fun s hs => (hx.smooth 2 (by omega) s hs).hasDerivWithinAt) (fun s hs => hY 3 (by omega) s hs) h' h
      third := fun t h => hY 3 (by omega) t h
      jerk_nonneg := mul_nonneg (norm_nonneg _) hY3
      speed := fun t h => hY 1 (by omega) t h
      radius := by norm_num [ρ] }
  set Λ := max 1 (m * (L + d))
  set K := eulerConst m d L k (μ * Y 2) (μ * Y 3) (Y 1) (Y 3) ρ
  set F := eulerForce d L k (μ * Y 2) (Y 1) ρ with hF
  -- small steps
  have lim : Filter.Tendsto (fun n : ℕ => T / (n : ℝ)) Filter.atTop (nhds 0) := tendsto_const_div_atTop_nhds_zero_nat T
  have small : ∀ (p : ℝ → ℝ) (B : ℝ), Continuous p → p 0 < B → ∀ᶠ n : ℕ in Filter.atTop, p (T / (n : ℝ)) < B := by
    intro p B hp h0
    exact ((hp.tendsto 0).comp lim).eventually_lt_const h0
  have g0 := small (fun h => h) 1 (by fun_prop) (by norm_num)
  have g1 := small (fun h => m * h * (d + k * h)) (1 / 2) (by fun_prop) (by norm_num)
  have g2 := small (fun h => m * h ^ 2 * (L + k)) (1 / 4) (by fun_prop) (by norm_num)
  have g3 := small (fun h => Real.exp (Λ * T) * (K * T * h)) ρ (by fun_prop) (by norm_num [ρ])
  have g4 := small (fun h => ρ + h * (4 * m * F * h + ρ + Y 1) + Y 1 * h) 1 (by fun_prop) (by norm_num [ρ])
  obtain ⟨N, hN⟩ := Filter.eventually_atTop.1
    (((((g0.and g1).and g2).and g3).and g4).and (Filter.eventually_ge_atTop 1))
  refine ⟨Real.exp (Λ * T) * (K * T), N, fun n hn => ?_⟩
  obtain ⟨⟨⟨⟨⟨k0, k1⟩, k2⟩, k3⟩, k4⟩, k8⟩ := hN n hn
  obtain ⟨h1, h2⟩ := replicate_steps hT (Nat.lt_of_lt_of_le Nat.zero_lt_one k8)
  have := C138_euler_near e o M C R J hcb he hz hi x 0 T 1 m d L k (μ * Y 2) (μ * Y 3) (Y 1) (Y 3) ρ Λ hB
    (le_max_left _ _) (le_max_right _ _) (T / n) _ h1 k0.le k1.le k2.le (DSt.init (x 0 0) (x 1 0) a₀)
    le_rfl (by rw [h2]; simp [DSt.init])
    (by rw [h2]; simp only [DSt.init, sub_self, norm_zero, zero_add]; exact k3.le) k4.le
  obtain ⟨⟨-, q2⟩, q3⟩ := this
  rw [h2] at q2
  simp only [DSt.init, zero_add, sub_self, norm_zero] at q2
  exact ⟨q2.trans (le_of_eq (by ring)), q3⟩

theorem duffing_blocks : ExactBlocks duffing := by
  intro dt S D hD n p q
  have e1 : ∀ (A : ℝ →ₗ[ℝ] ℝ) (w : ℝ), A w = w * A 1 := fun A w => by
    rw [← smul_eq_mul, ← map_smul, smul_eq_mul, mul_one]
  have h1 : D 1 + dt * dt * S 1 ≠ 0 := fun h => one_ne_zero (hD 1 (by simpa using h))
  set z : ℝ × ℝ := duffing.gmres n LinearMap.id (-(dt • LinearMap.id)) (dt • S) D p q with hz
  have z1 : z.1 = (D 1 * p + dt * q) / (D 1 + dt * dt * S 1) := by
    simp only [hz, duffing, osc, LinearMap.id_apply, LinearMap.neg_apply, LinearMap.smul_apply, smul_eq_mul, mul_one,
      one_mul]
    congr 1 <;> ring
  have z2 : z.2 = (q - dt * S 1 * p) / (D 1 + dt * dt * S 1) := by
    simp only [hz, duffing, osc, LinearMap.id_apply, LinearMap.neg_apply, LinearMap.smul_apply, smul_eq_mul, mul_one,
      one_mul]
    congr 1; ring
  show z.1 - dt • z.2 = p ∧ dt • S z.1 + D z.2 = q
  rw [e1 S, e1 D, z1, z2, smul_eq_mul, smul_eq_mul]
  generalize hw : D 1 + dt * dt * S 1 = w at h1
  constructor
  · rw [show (D 1 * p + dt * q) / w - dt * ((q - dt * S 1 * p) / w) = p * (D 1 + dt * dt * S 1) / w by ring, hw,
      mul_div_cancel_right₀ p h1]
  · rw [show dt * ((D 1 * p + dt * q) / w * S 1) + (q - dt * S 1 * p) / w * D 1 = q * (D 1 + dt * dt * S 1) / w by ring,
      hw, mul_div_cancel_right₀ q h1]

example : ∃ (c : ℝ) (N : ℕ), ∀ n ≥ N,
    let q := steps none (integrate .implicitEuler true duffing duffingOpts) (List.replicate n (2 / n)) (DSt.init 1 0 0)
    ‖(q.1.u, q.1.v) - (Real.cos 2, -Real.sin 2)‖ ≤ c * (2 / n) ∧ ∀ st ∈ q.2, ∃ st', st = some st' := by
  have h := C138_euler_smooth duffing duffingOpts LinearMap.id 0 _ (fun _ x => (3 * x ^ 2) • LinearMap.id)
    ⟨fun _ _ => rfl, fun _ _ _ => rfl, fun _ _ _ => rfl, fun _ _ _ => rfl⟩ duffing_blocks
    (by simp [Opts.zeroInterval, duffingOpts]) (by simp [duffingOpts]) (fun w h => h)
    (((contDiff_snd.pow 3).neg.add ((Real.contDiff_cos.comp contDiff_fst).pow 3)).sub
      (Real.contDiff_cos.comp contDiff_fst))
    (by
      simp only [map_smul]
      exact ((continuous_const.mul (continuous_snd.pow 2)).smul continuous_const)) cosine 2 (by norm_num)
    (duffing_motion 3 0 2) (fun t _ => (cosine_deriv 3 t).continuousAt.continuousWithinAt) 0
  rw [show cosine 0 0 = 1 by simp [cosine], show cosine 1 0 = 0 by simp [cosine], cosine_zero] at h
  exact h

end GsSA.Dynamic
