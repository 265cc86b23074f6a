import Verif.Dynamic.ConvergeNewton

/-!
# Convergence of the nonlinear Newmark method on smooth structures (C138)
-/

set_option linter.unusedSectionVars false

namespace GsSA.Dynamic

open GsSA GsSA.Static Set
open GsSA.ALM (Act Err)

variable {V : Type} [NormedAddCommGroup V] [NormedSpace ℝ V]

/-- With finitely many degrees of freedom, a mass without kernel and a smooth residual are enough. -/
theorem moderate_of_contDiff [FiniteDimensional ℝ V] {M C : V →ₗ[ℝ] V} {R : ℝ → V → V} {J : ℝ → V → V →ₗ[ℝ] V}
    (hM : ∀ w, M w = 0 → w = 0) (hR : ContDiff ℝ 1 fun p : ℝ × V => R p.1 p.2)
    (hJ : Continuous fun p : ℝ × V => LinearMap.toContinuousLinearMap (J p.1 p.2)) {x : ℝ → V} {a b : ℝ}
    (hx : ContinuousOn x (Icc a b)) : ∃ m c L k, Moderate M C R J x a b 1 m c L k := by
  obtain ⟨m, -, hm⟩ := LinearMap.exists_antilipschitzWith M (LinearMap.ker_eq_bot'.2 hM)
  set F : ℝ × V → V := fun p => R p.1 p.2 with hF
  set G : ℝ × V → V →L[ℝ] V := fun p => (fderiv ℝ F p).comp (ContinuousLinearMap.inr ℝ ℝ V) with hG
  have hGc : Continuous G := (hR.continuous_fderiv (by norm_num)).clm_comp continuous_const
  have dF : ∀ s w, HasFDerivAt (R s) (G (s, w)) w := fun s w =>
    ((hR.differentiable (by norm_num)).differentiableAt.hasFDerivAt (x := (s, w))).comp w
      (hasFDerivAt_prodMk_right s w)
  set K : Set (ℝ × V) := (fun p : ℝ × V => (p.1, x p.1 + p.2)) '' (Icc a b ×ˢ Metric.closedBall 0 1) with hK
  have hKc : IsCompact K := by
    refine (isCompact_Icc.prod (isCompact_closedBall 0 1)).image_of_continuousOn ?_
    exact continuousOn_fst.prodMk ((hx.comp continuousOn_fst fun p hp => hp.1).add continuousOn_snd)
  have mem : ∀ s ∈ Icc a b, ∀ w, ‖w - x s‖ ≤ 1 → (s, w) ∈ K := fun s hs w hw =>
    ⟨(s, w - x s), ⟨hs, by simpa using hw⟩, by simp⟩
  obtain ⟨L, hL⟩ := hKc.exists_bound_of_continuousOn hGc.continuousOn
  obtain ⟨k, hk⟩ := hKc.exists_bound_of_continuousOn hJ.continuousOn
  have ball : ∀ (s : ℝ) (w : V), w ∈ Metric.closedBall (x s) 1 ↔ ‖w - x s‖ ≤ 1 := fun s w => by
    rw [Metric.mem_closedBall, dist_eq_norm]
  refine ⟨m, ‖LinearMap.toContinuousLinearMap C‖, max L 0, max k 0, ?_, ?_, ?_, ?_, m.2, norm_nonneg _, le_max_right _ _,
    le_max_right _ _⟩
  · intro w
    simpa [dist_eq_norm] using hm.le_mul_dist w 0
  · intro w
    exact (LinearMap.toContinuousLinearMap C).le_opNorm w
  · intro s hs w w' hw hw'
    exact (convex_closedBall (x s) 1).norm_image_sub_le_of_norm_hasFDerivWithin_le
      (fun w _ => (dF s w).hasFDerivWithinAt)
      (fun w hw => (hL _ (mem s hs w ((ball s w).1 hw))).trans (le_max_left _ _))
      ((ball s w').2 hw') ((ball s w).2 hw)
  · intro s hs u hu w
    exact (LinearMap.toContinuousLinearMap (J s u)).le_of_opNorm_le ((hk _ (mem s hs u hu)).trans (le_max_left _ _)) w

/-- **C138**: on every nonlinear structure with finitely many degrees of freedom, a mass without kernel, a continuously
differentiable residual and continuous Jacobians, right or wrong, the error of `n` equal nonlinear Newmark steps from the
initial values of a smooth motion to time `T` is of order `(T / n)^2`, whatever the tolerances and the number of
iterations; if two iterations are allowed and the tolerances are positive, all steps end with success. -/
theorem C138_newmark_smooth [FiniteDimensional ℝ V] (e : Env ℝ V) (o : Opts ℝ) (M C : V →ₗ[ℝ] V) (R : ℝ → V → V)
    (J : ℝ → V → V →ₗ[ℝ] V) (hcb : Callbacks e M C R J) (he : ExactSolver e) (hα : o.alpha = 1 / 4)
    (hδ : o.delta = 1 / 2) (hz : ¬ o.zeroInterval) (hi : 1 ≤ o.maxIter) (hM : ∀ w, M w = 0 → w = 0)
    (hR : ContDiff ℝ 1 fun p : ℝ × V => R p.1 p.2)
    (hJ : Continuous fun p : ℝ × V => LinearMap.toContinuousLinearMap (J p.1 p.2)) (x : ℕ → ℝ → V) (T : ℝ)
    (hT : 0 < T) (hx : Motion M C R x 4 0 T) (hc : ContinuousOn (x 4) (Icc 0 T)) :
    ∃ (c : ℝ) (N : ℕ), ∀ n ≥ N,
      let q := steps none (integrate .newmark true e o) (List.replicate n (T / n)) (DSt.init (x 0 0) (x 1 0) (x 2 0))
      ‖(q.1.u, q.1.v) - (x 0 T, x 1 T)‖ ≤ c * (T / n) ^ 2 ∧
      ∀ st ∈ q.2, ∃ st', st = some st' ∧
        ((∀ w, e.norm w = ‖w‖) → 2 ≤ o.maxIter → 0 < o.tolU → 0 < o.tolF → st' = .success) := by
  obtain ⟨m, d, L, k, ht⟩ := moderate_of_contDiff (C := C) hM hR hJ
    (x := x 0) (a := 0) (b := T) (fun t ht => (hx.smooth 0 (by omega) t ht).continuousAt.continuousWithinAt)
  obtain ⟨Y, hY⟩ := hx.smooth.bounded hc
  set P := ‖LinearMap.toContinuousLinearMap M‖ * Y 2
  have hP : ∀ t ∈ Icc 0 T, ‖M (x 2 t)‖ ≤ P := fun t h =>
    (LinearMap.toContinuousLinearMap M).le_opNorm_of_le (hY 2 (by omega) t h)
  set Z := max (Y 3) (Y 4)
  have hZ : ∀ t ∈ Icc 0 T, ‖(x 3 t, x 4 t)‖ ≤ Z := fun t ht =>
    max_le_max (hY 3 (by omega) t ht) (hY 4 (by omega) t ht)
  set Λ := max 1 (m * (L + d))
  set ρ : ℝ := 1 / 4
  set K := newmarkConst m d L k P Z ρ
  have hm := ht.mass_nonneg
  have hLn := ht.lip_nonneg
  have hkn := ht.jac_nonneg
  -- small steps
  have lim : Filter.Tendsto (fun n : ℕ => T / (n : ℝ)) Filter.atTop (nhds 0) := tendsto_const_div_atTop_nhds_zero_nat T
  have small : ∀ (p : ℝ → ℝ) (B : ℝ), Continuous p → p 0 < B → ∀ᶠ n : ℕ in Filter.atTop, p (T / (n : ℝ)) < B := by
    intro p B hp h0
    exact ((hp.tendsto 0).comp lim).eventually_lt_const h0
  have g1 := small (fun h => m * (d * h / 2 + k * h ^ 2 / 4)) (1 / 2) (by fun_prop) (by norm_num)
  have g2 := small (fun h => 3 * m * (L + k) * h ^ 2) 1 (by fun_prop) (by norm_num)
  have g3 := small (fun h => Λ * h) 1 (by fun_prop) (by norm_num)
  have g4 := small (fun h => Real.exp (2 * Λ * T) * (K * T * h ^ 2)) ρ (by fun_prop) (by norm_num [ρ])
  have g5 := small (fun h => 2 * ρ + 6 * m * (P + (L + d) * ρ) * h ^ 2) 1 (by fun_prop) (by norm_num [ρ])
  have g6 : ∀ᶠ n : ℕ in Filter.atTop, 0 < o.tolU → m * (L + k) * (T / (n : ℝ)) ^ 2 < o.tolU := by
    by_cases h : 0 < o.tolU
    · filter_upwards [small (fun h => m * (L + k) * h ^ 2) _ (by fun_prop) (by simpa using h)] with n hn _ using hn
    · exact Filter.Eventually.of_forall fun n h' => absurd h' h
  have g7 : ∀ᶠ n : ℕ in Filter.atTop, 0 < o.tolF → (m * (L + k) * (T / (n : ℝ)) ^ 2) ^ 2 < o.tolF := by
    by_cases h : 0 < o.tolF
    · filter_upwards [small (fun h => (m * (L + k) * h ^ 2) ^ 2) _ (by fun_prop) (by simpa using h)] with n hn _ using hn
    · exact Filter.Eventually.of_forall fun n h' => absurd h' h
  obtain ⟨N, hN⟩ := Filter.eventually_atTop.1
    (((((((g1.and g2).and g3).and g4).and g5).and g6).and g7).and (Filter.eventually_ge_atTop 1))
  refine ⟨Real.exp (2 * Λ * T) * (K * T), N, fun n hn => ?_⟩
  obtain ⟨⟨⟨⟨⟨⟨⟨k1, k2⟩, k3⟩, k4⟩, k5⟩, k6⟩, k7⟩, k8⟩ := hN n hn
  obtain ⟨h1, h2⟩ := replicate_steps hT (Nat.lt_of_lt_of_le Nat.zero_lt_one k8)
  have := C138_newmark_near e o M C R J hcb he hα hδ hz hi x 0 T 1 m d L k P Z ρ Λ hx ht hP hZ (by norm_num [ρ])
    (le_max_left _ _) (le_max_right _ _) (T / n) _ h1 k1.le k2.le k3.le (DSt.init (x 0 0) (x 1 0) (x 2 0))
    (hx.balance 0 ⟨le_rfl, hT.le⟩) le_rfl (by rw [h2]; simp [DSt.init])
    (by rw [h2]; simp only [DSt.init, sub_self, norm_zero, zero_add]; exact k4.le) k5.le
  obtain ⟨⟨-, q2⟩, q3⟩ := this
  rw [h2] at q2
  simp only [DSt.init, zero_add, sub_self, norm_zero] at q2
  refine ⟨q2.trans (le_of_eq (by ring)), fun st hst => ?_⟩
  obtain ⟨st', w1, w2⟩ := q3 st hst
  exact ⟨st', w1, fun a1 a2 a3 a4 => w2 a1 a2 (k6 a3) (k7 a4)⟩

theorem duffing_exact : ExactSolver duffing := by
  intro A hA n b
  have h1 : A 1 ≠ 0 := fun h => one_ne_zero (hA 1 h)
  show A (b / A 1) = b
  have : A (b / A 1) = (b / A 1) • A 1 := by rw [← map_smul, smul_eq_mul, mul_one]
  rw [this, smul_eq_mul, div_mul_cancel₀ b h1]

/-- Two iterations, modified Newton and coarse tolerances. -/
noncomputable def duffingOpts : Opts ℝ :=
  { oscOpts with maxIter := 2, quasi := true, quasiIt := 5, tolU := 1 / 10, tolF := 1 / 10 }

example : ∃ (c : ℝ) (N : ℕ), ∀ n ≥ N,
    let q := steps none (integrate .newmark true duffing duffingOpts) (List.replicate n (2 / n)) (DSt.init 1 0 (-1))
    ‖(q.1.u, q.1.v) - (Real.cos 2, -Real.sin 2)‖ ≤ c * (2 / n) ^ 2 ∧ ∀ st ∈ q.2, st = some .success := by
  obtain ⟨c, N, h⟩ := C138_newmark_smooth duffing duffingOpts LinearMap.id 0 _ (fun _ x => (3 * x ^ 2) • LinearMap.id)
    ⟨fun _ _ => rfl, fun _ _ _ => rfl, fun _ _ _ => rfl, fun _ _ _ => rfl⟩ duffing_exact rfl rfl
    (by simp [Opts.zeroInterval, duffingOpts]) (by simp [duffingOpts]) (fun w h => h)
    (((contDiff_snd.pow 3).neg.add ((Real.contDiff_cos.comp contDiff_fst).pow 3)).sub
      (Real.contDiff_cos.comp contDiff_fst))
    (by
      simp only [map_smul]
      exact ((continuous_const.mul (continuous_snd.pow 2)).smul continuous_const)) cosine 2 (by norm_num)
    (duffing_motion 4 0 2) (fun t _ => (cosine_deriv 4 t).continuousAt.continuousWithinAt)
  refine ⟨c, N, fun n hn => ?_⟩
  have h0 := h n hn
  rw [show cosine 0 0 = 1 by simp [cosine], show cosine 1 0 = 0 by simp [cosine],
    show cosine 2 0 = -1 by simp [cosine, mul_div_cancel₀]] at h0
  refine ⟨by have := h0.1; rwa [show cosine 0 2 = Real.cos 2 by simp [cosine],
    show cosine 1 2 = -Real.sin 2 by simp [cosine, Real.cos_add_pi_div_two]] at this, fun st hst => ?_⟩
  obtain ⟨st', w1, w2⟩ := h0.2 st hst
  rw [w1, w2 (fun _ => rfl) (by simp [duffingOpts]) (by norm_num [duffingOpts]) (by norm_num [duffingOpts])]

/-- Ten steps of `1 / 100` on the linear oscillator. -/
example :
    let q := steps none (integrate .newmark true osc duffingOpts) (List.replicate 10 (1 / 100)) (DSt.init 1 0 (-1))
    q.1.time = 1 / 10 ∧ ‖(q.1.u, q.1.v) - (Real.cos (1 / 10), -Real.sin (1 / 10))‖ ≤ 1 / 1000 ∧
      ∀ st ∈ q.2, st = some .success := by
  have hsum : (List.replicate 10 (1 / 100 : ℝ)).sum = 1 / 10 := by norm_num
  have hmem : ∀ dt ∈ List.replicate 10 (1 / 100 : ℝ), 0 < dt ∧ dt ≤ 1 / 100 := by simp
  generalize List.replicate 10 (1 / 100 : ℝ) = l at hsum hmem ⊢
  have hexp : Real.exp (2 * 1 * (1 / 10)) ≤ 3 :=
    (Real.exp_le_exp.2 (by norm_num)).trans Real.exp_one_lt_three.le
  have hK : newmarkConst 1 0 1 1 1 1 1 = 24 + 1 / 6 := by norm_num [newmarkConst]
  have hb : ∀ k τ, ‖cosine k τ‖ ≤ 1 := fun k τ => (norm_fst_le (cosine k τ, cosine (k + 1) τ)).trans (cosine_le k τ)
  obtain ⟨⟨h1, h2⟩, h3⟩ := C138_newmark_near osc duffingOpts LinearMap.id 0 (fun _ u => 0 - (LinearMap.id : ℝ →ₗ[ℝ] ℝ) u)
    (fun _ _ => LinearMap.id) ⟨fun _ _ => rfl, fun _ _ _ => rfl, fun _ x _ => by simp [osc], fun _ _ _ => rfl⟩
    duffing_exact rfl rfl (by simp [Opts.zeroInterval, duffingOpts]) (by simp [duffingOpts]) cosine 0 1 3 1 0 1 1 1 1 1 1
    (cosine_motion 4 0 1) ⟨by simp, by simp, fun _ _ u u' _ _ => by
        rw [one_mul, ← norm_neg (u - u')]; simp [neg_add_eq_sub], by simp, by simp,
      le_rfl, by simp, by simp⟩ (fun t _ => hb 2 t) (fun t _ => cosine_le 3 t) zero_le_one le_rfl (by norm_num) (1 / 100)
    l hmem (by norm_num) (by norm_num) (by norm_num)
    (DSt.init 1 0 (-1)) (by simp [DSt.init]) (by simp [DSt.init]) (by rw [hsum]; norm_num [DSt.init])
    (by
      rw [hsum, hK]
      simp only [DSt.init, cosine_zero, Real.cos_zero, Real.sin_zero, neg_zero, sub_self, norm_zero, zero_add]
      refine (mul_le_mul_of_nonneg_right hexp (by norm_num)).trans (by norm_num))
    (by norm_num)
  rw [hsum, hK] at h2
  rw [hsum] at h1
  simp only [DSt.init, cosine_zero, Real.cos_zero, Real.sin_zero, neg_zero, sub_self, norm_zero, zero_add] at h1 h2
  refine ⟨h1, h2.trans ((mul_le_mul_of_nonneg_right hexp (by norm_num)).trans ?_), fun st hst => ?_⟩
  · norm_num
  obtain ⟨st', w1, w2⟩ := h3 st hst
  rw [w1, w2 (fun _ => rfl) (by simp [duffingOpts]) (by norm_num [duffingOpts]) (by norm_num [duffingOpts])]

end GsSA.Dynamic
