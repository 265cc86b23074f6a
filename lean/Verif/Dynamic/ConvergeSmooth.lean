import Mathlib.Analysis.Calculus.ContDiff.Operations
import Mathlib.Analysis.Calculus.FDeriv.Prod
import Mathlib.Analysis.Calculus.ContDiff.FiniteDimension
import Verif.Dynamic.Tube
import Verif.Dynamic.ConvergeProps

/-!
# The explicit integrators on nonlinear structures with a smooth residual (C133)
-/

set_option linter.unusedSectionVars false

namespace GsSA.Dynamic

open GsSA GsSA.Static Set
open GsSA.ALM (Act Err)

/-! ## A smooth system near a motion -/

section near

variable {E : Type} [NormedAddCommGroup E] [NormedSpace ℝ E]

/-- A system that is twice continuously differentiable has Lipschitz and linearisation constants near every
motion. -/
theorem near_of_contDiff [FiniteDimensional ℝ E] {f : ℝ → E → E} (hf : ContDiff ℝ 2 fun p : ℝ × E => f p.1 p.2)
    {y : ℕ → ℝ → E} {a b Y₁ : ℝ} (hy : Smooth y 1 a b) (hY : ∀ t ∈ Icc a b, ‖y 1 t‖ ≤ Y₁) :
    ∃ (ℓ m q : ℝ) (J : ℝ → E →ₗ[ℝ] E), 0 ≤ ℓ ∧ 0 ≤ m ∧ 0 ≤ q ∧ NearLip f y a b 1 ℓ ∧
      NearLin f y J a b 1 ℓ m q := by
  set F : ℝ × E → E := fun p => f p.1 p.2 with hF
  set G : ℝ × E → E →L[ℝ] E := fun p => (fderiv ℝ F p).comp (ContinuousLinearMap.inr ℝ ℝ E) with hG
  have hG1 : ContDiff ℝ 1 G :=
    (hf.fderiv_right (m := 1) (by norm_num)).clm_comp contDiff_const
  have dF : ∀ s w, HasFDerivAt (f s) (G (s, w)) w := fun s w =>
    ((hf.differentiable (by norm_num)).differentiableAt.hasFDerivAt (x := (s, w))).comp w
      (hasFDerivAt_prodMk_right s w)
  have dG : ∀ p, HasFDerivAt G (fderiv ℝ G p) p := fun p =>
    ((hG1.differentiable (by norm_num)).differentiableAt).hasFDerivAt
  -- the tube
  set K : Set (ℝ × E) := (fun p : ℝ × E => (p.1, y 0 p.1 + p.2)) '' (Icc a b ×ˢ Metric.closedBall 0 1) with hK
  have hKc : IsCompact K := by
    refine (isCompact_Icc.prod (isCompact_closedBall 0 1)).image_of_continuousOn ?_
    have c0 : ContinuousOn (y 0) (Icc a b) := fun t ht => (hy 0 (by omega) t ht).continuousAt.continuousWithinAt
    exact continuousOn_fst.prodMk ((c0.comp continuousOn_fst fun p hp => hp.1).add continuousOn_snd)
  have mem : ∀ s ∈ Icc a b, ∀ w, ‖w - y 0 s‖ ≤ 1 → (s, w) ∈ K := fun s hs w hw =>
    ⟨(s, w - y 0 s), ⟨hs, by simpa using hw⟩, by simp⟩
  obtain ⟨ℓ₀, hℓ₀⟩ := hKc.exists_bound_of_continuousOn hG1.continuous.continuousOn
  obtain ⟨q₀, hq₀⟩ := hKc.exists_bound_of_continuousOn (hG1.continuous_fderiv (by norm_num)).continuousOn
  set ℓ := max ℓ₀ 0
  set q := max q₀ 0
  have hℓ : ∀ p ∈ K, ‖G p‖ ≤ ℓ := fun p hp => (hℓ₀ p hp).trans (le_max_left _ _)
  have hq : ∀ p ∈ K, ‖fderiv ℝ G p‖ ≤ q := fun p hp => (hq₀ p hp).trans (le_max_left _ _)
  have hq0 : 0 ≤ q := le_max_right _ _
  have ball : ∀ (s : ℝ) (w : E), w ∈ Metric.closedBall (y 0 s) 1 ↔ ‖w - y 0 s‖ ≤ 1 := fun s w => by
    rw [Metric.mem_closedBall, dist_eq_norm]
  have lipG : ∀ s ∈ Icc a b, ∀ w, ‖w - y 0 s‖ ≤ 1 → ‖G (s, w) - G (s, y 0 s)‖ ≤ q * ‖w - y 0 s‖ := by
    intro s hs w hw
    refine (convex_closedBall (y 0 s) 1).norm_image_sub_le_of_norm_hasFDerivWithin_le
      (f := fun w => G (s, w)) (f' := fun w => (fderiv ℝ G (s, w)).comp (ContinuousLinearMap.inr ℝ ℝ E))
      (fun w _ => ((dG (s, w)).comp w (hasFDerivAt_prodMk_right s w)).hasFDerivWithinAt) ?_
      (Metric.mem_closedBall_self zero_le_one) ((ball s w).2 hw)
    intro w hw
    refine (ContinuousLinearMap.opNorm_comp_le _ _).trans ?_
    have h1 := hq (s, w) (mem s hs w ((ball s w).1 hw))
    have h2 := ContinuousLinearMap.norm_inr_le_one ℝ ℝ E
    calc _ ≤ q * 1 := mul_le_mul h1 h2 (norm_nonneg _) hq0
      _ = q := mul_one q
  refine ⟨ℓ, q * max 1 Y₁, q, fun s => (G (s, y 0 s) : E →ₗ[ℝ] E), le_max_right _ _, by positivity, hq0, ?_, ?_, ?_, ?_⟩
  · intro s hs w w' hw hw'
    exact (convex_closedBall (y 0 s) 1).norm_image_sub_le_of_norm_hasFDerivWithin_le
      (fun w _ => (dF s w).hasFDerivWithinAt) (fun w hw => hℓ _ (mem s hs w ((ball s w).1 hw)))
      ((ball s w').2 hw') ((ball s w).2 hw)
  · intro s hs d
    exact (G (s, y 0 s)).le_of_opNorm_le (hℓ _ (mem s hs _ (by simp))) d
  · intro s hs s' hs' d
    have h1 : ‖G (s, y 0 s) - G (s', y 0 s')‖ ≤ q * max 1 Y₁ * ‖s - s'‖ := by
      refine (convex_Icc a b).norm_image_sub_le_of_norm_hasDerivWithin_le (f := fun s => G (s, y 0 s))
        (f' := fun s => fderiv ℝ G (s, y 0 s) (1, y 1 s)) ?_ ?_ hs' hs
      · intro s hs
        have hd : HasDerivAt (fun s => (s, y 0 s)) (1, y 1 s) s :=
          (hasDerivAt_id s).prodMk (hy 0 (by omega) s hs)
        exact (HasFDerivAt.comp_hasDerivAt (f := fun s => (s, y 0 s)) s (dG (s, y 0 s)) hd).hasDerivWithinAt
      · intro s hs
        refine ((fderiv ℝ G (s, y 0 s)).le_opNorm _).trans (mul_le_mul (hq _ (mem s hs _ (by simp))) ?_
          (norm_nonneg _) hq0)
        rw [Prod.norm_def]
        exact max_le_max (by simp) (hY s hs)
    have h2 := (G (s, y 0 s) - G (s', y 0 s')).le_of_opNorm_le h1 d
    simpa [Real.norm_eq_abs] using h2
  · intro s hs d hd
    have h1 := (convex_closedBall (y 0 s) ‖d‖).norm_image_sub_le_of_norm_hasFDerivWithin_le
      (f := fun w => f s w - G (s, y 0 s) w) (f' := fun w => G (s, w) - G (s, y 0 s)) (C := q * ‖d‖)
      (fun w _ => ((dF s w).sub (G (s, y 0 s)).hasFDerivAt).hasFDerivWithinAt)
      (fun w hw => by
        rw [Metric.mem_closedBall, dist_eq_norm] at hw
        exact (lipG s hs w (hw.trans hd)).trans (mul_le_mul_of_nonneg_left hw hq0))
      (Metric.mem_closedBall_self (norm_nonneg d)) (y := y 0 s + d) (by simp)
    simp only [add_sub_cancel_left, map_add] at h1
    refine (le_of_eq ?_).trans (h1.trans (le_of_eq (by ring)))
    congr 1
    simp only [ContinuousLinearMap.coe_coe]
    abel

end near

variable {V : Type} [NormedAddCommGroup V] [NormedSpace ℝ V]

/-- Accumulation of errors when the steps are controlled only up to the distance `ρ` from the motion, and
what can be said of the results of the steps. -/
theorem accumulate_results {f : ℝ → ℝ → Act (DSt ℝ V) Status} {Inv : DSt ℝ V → Prop} {Q : Status → Prop}
    {y : ℝ → V × V} {ℓ c h a b ρ : ℝ} {p : ℕ} (hc : 0 ≤ c) (hℓ : 0 ≤ ℓ)
    (l : List ℝ) (hl : ∀ dt ∈ l, 0 < dt ∧ dt ≤ h)
    (hstep : ∀ dt ∈ l, ∀ s, Inv s → a ≤ s.time → s.time + dt ≤ b → ‖(s.u, s.v) - y s.time‖ ≤ ρ →
      ∃ q r, step none f dt s = (q, .ok r) ∧ Q r ∧ Inv q ∧ q.time = s.time + dt ∧
        ‖(q.u, q.v) - y (s.time + dt)‖ ≤
          Real.exp (ℓ * dt) * ‖(s.u, s.v) - y s.time‖ + c * (dt * h ^ p))
    (s : DSt ℝ V) (hs : Inv s) (ha : a ≤ s.time) (hb : s.time + l.sum ≤ b)
    (hρ : Real.exp (ℓ * l.sum) * (‖(s.u, s.v) - y s.time‖ + c * l.sum * h ^ p) ≤ ρ) :
    let q := steps none f l s
    (q.1.time = s.time + l.sum ∧
      ‖(q.1.u, q.1.v) - y (s.time + l.sum)‖ ≤
        Real.exp (ℓ * l.sum) * (‖(s.u, s.v) - y s.time‖ + c * l.sum * h ^ p)) ∧
      ∀ o ∈ q.2, ∃ r, o = some r ∧ Q r := by
  induction l generalizing s with
  | nil => simp [steps]
  | cons dt l ih =>
    have hsum : 0 ≤ l.sum := List.sum_nonneg fun x hx => (hl x (by simp [hx])).1.le
    obtain ⟨hd0, hd1⟩ := hl dt (by simp)
    rw [List.sum_cons] at hb hρ
    have hh : 0 ≤ h ^ p := pow_nonneg (hd0.le.trans hd1) p
    have k5 : 0 ≤ c * (dt + l.sum) * h ^ p := by positivity
    have k0 : 1 ≤ Real.exp (ℓ * (dt + l.sum)) := Real.one_le_exp (by positivity)
    have hn := norm_nonneg ((s.u, s.v) - y s.time)
    obtain ⟨q, r, h1, h0, h2, h3, h4⟩ := hstep dt (by simp) s hs ha (by linarith) (by nlinarith)
    have k3 : 1 ≤ Real.exp (ℓ * dt) := Real.one_le_exp (by positivity)
    have k7 : Real.exp (ℓ * l.sum) * (‖(q.u, q.v) - y (s.time + dt)‖ + c * l.sum * h ^ p) ≤
        Real.exp (ℓ * (dt + l.sum)) * (‖(s.u, s.v) - y s.time‖ + c * (dt + l.sum) * h ^ p) := by
      rw [mul_add ℓ, Real.exp_add, mul_comm (Real.exp (ℓ * dt)), mul_assoc (Real.exp (ℓ * l.sum))]
      refine mul_le_mul_of_nonneg_left ?_ (Real.exp_pos _).le
      nlinarith [mul_le_mul_of_nonneg_right k3 k5]
    have e1 : steps none f (dt :: l) s = ((steps none f l q).1, some r :: (steps none f l q).2) := by simp [steps, h1]
    obtain ⟨⟨m1, m2⟩, m3⟩ := ih (fun x hx => hl x (by simp [hx])) (fun x hx => hstep x (by simp [hx])) q h2
      (by linarith) (by linarith) (by rw [h3]; exact k7.trans hρ)
    rw [e1, List.sum_cons]
    refine ⟨⟨by rw [m1, h3]; ring, ?_⟩, ?_⟩
    · rw [h3, add_assoc] at m2
      exact m2.trans k7
    · intro o ho
      rcases List.mem_cons.1 ho with rfl | ho
      · exact ⟨r, rfl, h0⟩
      · exact m3 o ho

/-- Accumulation of errors when the steps are controlled only up to the distance `ρ` from the motion. -/
theorem accumulate_near {f : ℝ → ℝ → Act (DSt ℝ V) Status} {Inv : DSt ℝ V → Prop}
    {y : ℝ → V × V} {ℓ c h a b ρ : ℝ} {p : ℕ} (hc : 0 ≤ c) (hℓ : 0 ≤ ℓ)
    (l : List ℝ) (hl : ∀ dt ∈ l, 0 < dt ∧ dt ≤ h)
    (hstep : ∀ dt ∈ l, ∀ s, Inv s → a ≤ s.time → s.time + dt ≤ b → ‖(s.u, s.v) - y s.time‖ ≤ ρ →
      ∃ q r, step none f dt s = (q, .ok r) ∧ Inv q ∧ q.time = s.time + dt ∧
        ‖(q.u, q.v) - y (s.time + dt)‖ ≤
          Real.exp (ℓ * dt) * ‖(s.u, s.v) - y s.time‖ + c * dt ^ (p + 1))
    (s : DSt ℝ V) (hs : Inv s) (ha : a ≤ s.time) (hb : s.time + l.sum ≤ b)
    (hρ : Real.exp (ℓ * l.sum) * (‖(s.u, s.v) - y s.time‖ + c * l.sum * h ^ p) ≤ ρ) :
    let q := (steps none f l s).1
    q.time = s.time + l.sum ∧
      ‖(q.u, q.v) - y (s.time + l.sum)‖ ≤
        Real.exp (ℓ * l.sum) * (‖(s.u, s.v) - y s.time‖ + c * l.sum * h ^ p) := by
  refine (accumulate_results (Q := fun _ => True) hc hℓ l hl (fun dt hd s hs ha hb hρ => ?_) s hs ha hb hρ).1
  obtain ⟨q, r, h1, h2, h3, h4⟩ := hstep dt hd s hs ha hb hρ
  obtain ⟨hd0, hd1⟩ := hl dt hd
  refine ⟨q, r, h1, trivial, h2, h3, h4.trans ?_⟩
  rw [pow_succ, mul_comm (dt ^ p)]
  gcongr

/-- **C133**, Runge-Kutta on a nonlinear structure that is known near the motion only: fourth order, if the
steps are small enough. -/
theorem C133_rk4_near (e : Env ℝ V) (o : Opts ℝ) (M C : V →ₗ[ℝ] V) (R : ℝ → V → V)
    (K : ℝ → V → V →ₗ[ℝ] V) (hcb : Callbacks e M C R K) (hX : ∀ v, e.inverse M (M v) = v) (x : ℕ → ℝ → V)
    (a b : ℝ) (hx : Motion M C R x 6 a b) (J : ℝ → V × V →ₗ[ℝ] V × V) (r ℓ m q : ℝ) (Y : ℕ → ℝ)
    (hℓ : 0 ≤ ℓ) (hm : 0 ≤ m) (hq : 0 ≤ q) (hL : NearLip (rate (e.inverse M) C R) (pair x) a b r ℓ)
    (hJ : NearLin (rate (e.inverse M) C R) (pair x) J a b r ℓ m q)
    (hY : ∀ k ≤ 5, ∀ t ∈ Icc a b, ‖(x k t, x (k + 1) t)‖ ≤ Y k)
    (h : ℝ) (l : List ℝ) (hdt : ∀ dt ∈ l, 0 < dt ∧ dt ≤ h) (hh : ℓ * h ≤ 1) (s : DSt ℝ V)
    (hs : s.massInv = none ∨ s.massInv = some (e.inverse M)) (ha : a ≤ s.time) (hb : s.time + l.sum ≤ b)
    (hr : 3 * (Real.exp (ℓ * l.sum) * (‖(s.u, s.v) - (x 0 s.time, x 1 s.time)‖ +
      rkConst ℓ m q Y * l.sum * h ^ 4)) + 2 * (Y 2 * h ^ 2) ≤ r) :
    let q' := (steps none (integrate .rk4 true e o) l s).1
    let T := s.time + l.sum
    q'.time = T ∧ ‖(q'.u, q'.v) - (x 0 T, x 1 T)‖ ≤
      Real.exp (ℓ * l.sum) * (‖(s.u, s.v) - (x 0 s.time, x 1 s.time)‖ + rkConst ℓ m q Y * l.sum * h ^ 4) := by
  have hsum : 0 ≤ l.sum := List.sum_nonneg fun x hx => (hdt x hx).1.le
  have hY0 : ∀ k ≤ 5, 0 ≤ Y k := fun k hk => (norm_nonneg _).trans (hY k hk s.time ⟨ha, by linarith⟩)
  have hc : 0 ≤ rkConst ℓ m q Y := by
    have := hY0 5 (by omega); have := hY0 4 (by omega); have := hY0 3 (by omega); have := hY0 2 (by omega)
    unfold rkConst
    positivity
  have hY2 := hY0 2 (by omega)
  refine accumulate_near (f := integrate .rk4 true e o) (Inv := HasMass e M) (y := pair x 0) (p := 4)
    (b := b) (ρ := (r - 2 * (Y 2 * h ^ 2)) / 3) hc hℓ l hdt ?_ s hs ha hb ?_
  · intro dt hd s hs ha hb hρ
    have hd0 := (hdt dt hd).1.le
    have hd1 := (hdt dt hd).2
    have hsq : Y 2 * dt ^ 2 ≤ Y 2 * h ^ 2 := by gcongr
    have hld : ℓ * dt ≤ 1 := (mul_le_mul_of_nonneg_left hd1 hℓ).trans hh
    have hn := norm_nonneg ((s.u, s.v) - pair x 0 s.time)
    obtain ⟨lg, h1⟩ := rk4N_callbacks hcb s.time dt s
    rw [HasMass.minv hs] at h1
    refine ⟨_, _, step_none _ _ _ _ _ h1, .inr rfl, rfl, ?_⟩
    have hf := fun t ht => hx.rate (t := t) hX ht
    have hsm : Smooth (pair x) 5 a b := hx.smooth.pair
    have g1 := rk_lipschitz_near (hsm.mono (by omega)) hf hL hℓ (hY 2 (by omega)) ha hd0 hb hld (s.u, s.v)
      (by linarith)
    have g2 := rk_local_near hsm hf hL hJ hℓ hm hq hY ha hd0 hb hld (by linarith)
    set Φ := rkStep (rate (e.inverse M) C R)
    have e1 : Φ s.time dt (s.u, s.v) - pair x 0 (s.time + dt) =
        (Φ s.time dt (s.u, s.v) - Φ s.time dt (pair x 0 s.time)) +
        (Φ s.time dt (pair x 0 s.time) - pair x 0 (s.time + dt)) := by abel
    show ‖Φ s.time dt (s.u, s.v) - pair x 0 (s.time + dt)‖ ≤ _
    rw [e1]
    exact (norm_add_le _ _).trans (add_le_add g1 g2)
  · show Real.exp (ℓ * l.sum) * (‖(s.u, s.v) - (x 0 s.time, x 1 s.time)‖ + rkConst ℓ m q Y * l.sum * h ^ 4) ≤ _
    linarith

theorem rate_contDiff [FiniteDimensional ℝ V] (X C : V →ₗ[ℝ] V) {R : ℝ → V → V} {k : WithTop ℕ∞}
    (hR : ContDiff ℝ k fun p : ℝ × V => R p.1 p.2) :
    ContDiff ℝ k fun p : ℝ × (V × V) => rate X C R p.1 p.2 := by
  have hX : ContDiff ℝ k X := (LinearMap.toContinuousLinearMap X).contDiff
  have hC : ContDiff ℝ k C := (LinearMap.toContinuousLinearMap C).contDiff
  have h1 : ContDiff ℝ k fun p : ℝ × (V × V) => p.2.1 := contDiff_fst.comp contDiff_snd
  have h2 : ContDiff ℝ k fun p : ℝ × (V × V) => p.2.2 := contDiff_snd.comp contDiff_snd
  exact h2.prodMk (hX.comp ((hR.comp (contDiff_fst.prodMk h1)).sub (hC.comp h2)))

/-- **C133**: on every nonlinear structure with finitely many degrees of freedom whose residual is twice
continuously differentiable, the error of `n` equal Runge-Kutta steps from the initial values of a smooth
motion to time `T` is of order `(T / n)^4`. -/
theorem C133_rk4_smooth [FiniteDimensional ℝ V] (e : Env ℝ V) (o : Opts ℝ) (M C : V →ₗ[ℝ] V) (R : ℝ → V → V)
    (K : ℝ → V → V →ₗ[ℝ] V) (hcb : Callbacks e M C R K) (hX : ∀ v, e.inverse M (M v) = v)
    (hR : ContDiff ℝ 2 fun p : ℝ × V => R p.1 p.2) (x : ℕ → ℝ → V) (T : ℝ) (hT : 0 < T)
    (hx : Motion M C R x 6 0 T) (hc : ContinuousOn (x 6) (Icc 0 T)) (a : V) :
    ∃ (c : ℝ) (N : ℕ), ∀ n ≥ N,
      let q := (steps none (integrate .rk4 true e o) (List.replicate n (T / n)) (DSt.init (x 0 0) (x 1 0) a)).1
      ‖(q.u, q.v) - (x 0 T, x 1 T)‖ ≤ c * (T / n) ^ 4 := by
  obtain ⟨Y, hY⟩ := hx.smooth.bounded hc
  set Z : ℕ → ℝ := fun k => max (Y k) (Y (k + 1))
  have hZ : ∀ k ≤ 5, ∀ t ∈ Icc 0 T, ‖(x k t, x (k + 1) t)‖ ≤ Z k := fun k hk t ht =>
    max_le_max (hY k (by omega) t ht) (hY (k + 1) (by omega) t ht)
  have hsm : Smooth (pair x) 5 0 T := hx.smooth.pair
  obtain ⟨ℓ, m, q, J, hℓ, hm, hq, hL, hJ⟩ := near_of_contDiff (rate_contDiff (e.inverse M) C hR)
    (hsm.mono (by omega)) (hZ 1 (by omega))
  set c := rkConst ℓ m q Z
  -- small steps
  have lim : Filter.Tendsto (fun n : ℕ => T / (n : ℝ)) Filter.atTop (nhds 0) := tendsto_const_div_atTop_nhds_zero_nat T
  have g1 : ∀ᶠ n : ℕ in Filter.atTop, ℓ * (T / (n : ℝ)) < 1 := by
    have := lim.const_mul ℓ
    rw [mul_zero] at this
    exact this.eventually_lt_const one_pos
  have g2 : ∀ᶠ n : ℕ in Filter.atTop,
      3 * (Real.exp (ℓ * T) * (c * T * (T / (n : ℝ)) ^ 4)) + 2 * (Z 2 * (T / (n : ℝ)) ^ 2) < 1 := by
    have := ((((lim.pow 4).const_mul (c * T)).const_mul (Real.exp (ℓ * T))).const_mul 3).add
      (((lim.pow 2).const_mul (Z 2)).const_mul 2)
    norm_num at this
    exact this.eventually_lt_const one_pos
  obtain ⟨N, hN⟩ := Filter.eventually_atTop.1 ((g1.and g2).and (Filter.eventually_ge_atTop 1))
  refine ⟨Real.exp (ℓ * T) * (c * T), N, fun n hn => ?_⟩
  obtain ⟨⟨k1, k2⟩, k3⟩ := hN n hn
  obtain ⟨h1, h2⟩ := replicate_steps hT (Nat.lt_of_lt_of_le Nat.zero_lt_one k3)
  have := (C133_rk4_near e o M C R K hcb hX x 0 T hx J 1 ℓ m q Z hℓ hm hq hL hJ hZ (T / n) _ h1 k1.le
    (DSt.init (x 0 0) (x 1 0) a) (.inl rfl) (le_refl _) (by rw [h2]; simp [DSt.init])
    (by rw [h2]; simp only [DSt.init, sub_self, norm_zero, zero_add]; exact k2.le)).2
  rw [h2] at this
  simp only [DSt.init, zero_add, sub_self, norm_zero] at this
  refine this.trans (le_of_eq ?_)
  ring

/-! ## Explicit Euler -/

/-- **C133**: the same for explicit Euler, of first order and with the sign of the residual reversed. -/
theorem C133_euler_smooth [FiniteDimensional ℝ V] (e : Env ℝ V) (o : Opts ℝ) (M C : V →ₗ[ℝ] V) (R : ℝ → V → V)
    (K : ℝ → V → V →ₗ[ℝ] V) (hcb : Callbacks e M C R K) (hX : ∀ v, e.inverse M (M v) = v)
    (hR : ContDiff ℝ 2 fun p : ℝ × V => R p.1 p.2) (x : ℕ → ℝ → V) (T : ℝ) (hT : 0 < T)
    (hx : Motion M C (fun t u => -R t u) x 3 0 T) (hc : ContinuousOn (x 3) (Icc 0 T)) (a : V) :
    ∃ (c : ℝ) (N : ℕ), ∀ n ≥ N,
      let q := (steps none (integrate .explicitEuler true e o) (List.replicate n (T / n))
        (DSt.init (x 0 0) (x 1 0) a)).1
      ‖(q.u, q.v) - (x 0 T, x 1 T)‖ ≤ c * (T / n) := by
  obtain ⟨Y, hY⟩ := hx.smooth.bounded hc
  set Z : ℕ → ℝ := fun k => max (Y k) (Y (k + 1))
  have hZ : ∀ k ≤ 2, ∀ t ∈ Icc 0 T, ‖(x k t, x (k + 1) t)‖ ≤ Z k := fun k hk t ht =>
    max_le_max (hY k (by omega) t ht) (hY (k + 1) (by omega) t ht)
  have hZ2 : 0 ≤ Z 2 := (norm_nonneg _).trans (hZ 2 (by omega) 0 ⟨le_rfl, hT.le⟩)
  have hsm : Smooth (pair x) 2 0 T := hx.smooth.pair
  obtain ⟨ℓ, m, q, J, hℓ, hm, hq, hL, hJ⟩ := near_of_contDiff
    (rate_contDiff (R := fun t u => -R t u) (e.inverse M) C hR.neg)
    (hsm.mono (by omega)) (hZ 1 (by omega))
  -- small steps
  have lim : Filter.Tendsto (fun n : ℕ => T / (n : ℝ)) Filter.atTop (nhds 0) := tendsto_const_div_atTop_nhds_zero_nat T
  have g2 : ∀ᶠ n : ℕ in Filter.atTop, Real.exp (ℓ * T) * (Z 2 / 2 * T * (T / (n : ℝ)) ^ 1) < 1 := by
    have := ((lim.pow 1).const_mul (Z 2 / 2 * T)).const_mul (Real.exp (ℓ * T))
    rw [zero_pow one_ne_zero, mul_zero, mul_zero] at this
    exact this.eventually_lt_const one_pos
  obtain ⟨N, hN⟩ := Filter.eventually_atTop.1 (g2.and (Filter.eventually_ge_atTop 1))
  refine ⟨Real.exp (ℓ * T) * (Z 2 / 2 * T), N, fun n hn => ?_⟩
  obtain ⟨k2, k3⟩ := hN n hn
  obtain ⟨h1, h2⟩ := replicate_steps hT (Nat.lt_of_lt_of_le Nat.zero_lt_one k3)
  have := (accumulate_near (f := integrate .explicitEuler true e o) (Inv := HasMass e M) (y := pair x 0) (p := 1)
    (a := 0) (b := T) (ρ := 1) (c := Z 2 / 2) (by positivity) hℓ _ h1
    (fun dt hd s hs ha hb hρ => by
      obtain ⟨lg, g1⟩ := explicitEulerN_callbacks hcb s.time dt s
      rw [HasMass.minv hs] at g1
      exact ⟨_, _, step_none _ _ _ _ _ g1, .inr rfl, rfl,
        euler_error_near hsm (fun t ht => hx.rate hX ht) hL (hZ 2 (by omega)) ha (h1 dt hd).1.le hb (s.u, s.v) hρ⟩)
    (DSt.init (x 0 0) (x 1 0) a) (.inl rfl) (le_refl _) (by rw [h2]; simp [DSt.init])
    (by rw [h2]; simp only [DSt.init, pair, zero_add, sub_self, norm_zero]; exact k2.le)).2
  rw [h2] at this
  simp only [DSt.init, pair, zero_add, sub_self, norm_zero] at this
  refine this.trans (le_of_eq ?_)
  ring

/-! ## The Duffing oscillator -/

/-- A driven oscillator with a cubic spring that moves like the cosine:
`u'' = -u³ + cos³ t - cos t`. Its residual is not Lipschitz. -/
noncomputable def duffing : Env ℝ ℝ := { osc with
  jacobian := fun _ x _ => .value ((3 * x ^ 2) • LinearMap.id)
  residual := fun _ x t => .value (-x ^ 3 + Real.cos t ^ 3 - Real.cos t) }

theorem duffing_motion (p : ℕ) (a b : ℝ) :
    Motion (LinearMap.id : ℝ →ₗ[ℝ] ℝ) 0 (fun t u => -u ^ 3 + Real.cos t ^ 3 - Real.cos t) cosine p a b :=
  ⟨(cosine_motion p a b).smooth, fun t ht => by
    rw [(cosine_motion p a b).balance t ht]; simp [cosine]⟩

example : ∃ (c : ℝ) (N : ℕ), ∀ n ≥ N,
    let q := (steps none (integrate .rk4 true duffing oscOpts) (List.replicate n (2 / n)) (DSt.init 1 0 (-1))).1
    ‖(q.u, q.v) - (Real.cos 2, -Real.sin 2)‖ ≤ c * (2 / n) ^ 4 := by
  have := C133_rk4_smooth duffing oscOpts LinearMap.id 0 _ (fun _ x => (3 * x ^ 2) • LinearMap.id)
    ⟨fun _ _ => rfl, fun _ _ _ => rfl, fun _ _ _ => rfl, fun _ _ _ => rfl⟩ (fun _ => rfl)
    (((contDiff_snd.pow 3).neg.add ((Real.contDiff_cos.comp contDiff_fst).pow 3)).sub
      (Real.contDiff_cos.comp contDiff_fst)) cosine 2 (by norm_num) (duffing_motion 6 0 2)
    (fun t _ => (cosine_deriv 6 t).continuousAt.continuousWithinAt) (-1)
  rw [← cosine_zero]
  simpa [cosine] using this

/-- The residual with the other sign for explicit Euler. -/
noncomputable def duffing' : Env ℝ ℝ := { osc with
  jacobian := fun _ x _ => .value ((3 * x ^ 2) • LinearMap.id)
  residual := fun _ x t => .value (x ^ 3 - Real.cos t ^ 3 + Real.cos t) }

example : ∃ (c : ℝ) (N : ℕ), ∀ n ≥ N,
    let q := (steps none (integrate .explicitEuler true duffing' oscOpts) (List.replicate n (2 / n))
      (DSt.init 1 0 (-1))).1
    ‖(q.u, q.v) - (Real.cos 2, -Real.sin 2)‖ ≤ c * (2 / n) := by
  have := C133_euler_smooth duffing' oscOpts LinearMap.id 0 _ (fun _ x => (3 * x ^ 2) • LinearMap.id)
    ⟨fun _ _ => rfl, fun _ _ _ => rfl, fun _ _ _ => rfl, fun _ _ _ => rfl⟩ (fun _ => rfl)
    (((contDiff_snd.pow 3).sub ((Real.contDiff_cos.comp contDiff_fst).pow 3)).add
      (Real.contDiff_cos.comp contDiff_fst)) cosine 2 (by norm_num)
    ⟨(cosine_motion 3 0 2).smooth, fun t ht => by
      rw [(cosine_motion 3 0 2).balance t ht]; simp [cosine]⟩
    (fun t _ => (cosine_deriv 3 t).continuousAt.continuousWithinAt) (-1)
  rw [← cosine_zero]
  simpa [cosine] using this

end GsSA.Dynamic
