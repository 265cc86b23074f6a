import Mathlib.Analysis.Normed.Module.FiniteDimension
import Verif.Dynamic.NewtonLoop

/-!
# Convergence of the nonlinear Newmark method (C138)

Second order, with the iterations as the code does them: whatever the tolerances, the number of iterations (one or more),
the interval of the Jacobians and the Jacobians.
-/

set_option linter.unusedSectionVars false

namespace GsSA.Dynamic

open GsSA GsSA.Static Set
open GsSA.ALM (Act Err)

variable {V : Type} [NormedAddCommGroup V] [NormedSpace ℝ V]

section

variable {e : Env ℝ V} {o : Opts ℝ} {M C : V →ₗ[ℝ] V} {R : ℝ → V → V} {J : ℝ → V → V →ₗ[ℝ] V} {t dt : ℝ}
variable {x : ℝ → V} {a b r m c L k : ℝ}

/-- The predictor of Newmark. -/
noncomputable def predict (o : Opts ℝ) (dt : ℝ) (s : DSt ℝ V) : DSt ℝ V := { s with
  u := s.u + dt • s.v + ((1 / 2 - o.alpha) * dt * dt) • s.a, v := s.v + ((1 - o.delta) * dt) • s.a, a := 0 }

/-- A step of Newmark near the motion. -/
theorem newmarkN_near (hcb : Callbacks e M C R J) (hz : ¬ o.zeroInterval) (hi : 1 ≤ o.maxIter) (he : ExactSolver e)
    (ht : Moderate M C R J x a b r m c L k) (hζ : 0 ≤ o.delta * dt) (hβ : 0 ≤ o.alpha * dt * dt)
    (hA : m * (o.delta * dt * c + o.alpha * dt * dt * k) ≤ 1 / 2)
    (hθ : 2 * m * (o.alpha * dt * dt * (L + k)) ≤ 1 / 4) (hτ : t + dt ∈ Icc a b) (s : DSt ℝ V)
    (hs : ‖(predict o dt s).u - x (t + dt)‖ +
      4 / 3 * (o.alpha * dt * dt) * (2 * m * ‖residue M C R (t + dt) (predict o dt s)‖) ≤ r) :
    ∃ d lg st, let q : DSt ℝ V := { s with
        a := d, v := (predict o dt s).v + (o.delta * dt) • d, u := (predict o dt s).u + (o.alpha * dt * dt) • d,
        log := lg }
      newmarkN e o t dt s = (q, .ok st) ∧ ‖q.u - x (t + dt)‖ ≤ r ∧
      ‖residue M C R (t + dt) q‖ ≤
        2 * m * (o.alpha * dt * dt * (L + k)) * ‖residue M C R (t + dt) (predict o dt s)‖ ∧
      ((∀ w, e.norm w = ‖w‖) → 2 ≤ o.maxIter → 4 / 3 * (2 * m * (o.alpha * dt * dt * (L + k))) < o.tolU →
        (2 * m * (o.alpha * dt * dt * (L + k))) ^ 2 < o.tolF → st = .success) := by
  obtain ⟨n, hn⟩ : ∃ n, o.maxIter.toNat = n + 1 := ⟨o.maxIter.toNat - 1, by omega⟩
  set p : DSt ℝ V := { predict o dt s with log := (.residual (predict o dt s).u (t + dt), true) ::
        (.damping (predict o dt s).u (t + dt), true) :: (.mass (t + dt), true) :: s.log } with hp
  have hrp : residue M C R (t + dt) p = residue M C R (t + dt) (predict o dt s) := rfl
  have e0 : newmarkN e o t dt s =
      newmarkLoop e o t dt M (nz (e.norm (residue M C R (t + dt) p))) (n + 1) 0 C 0 (residue M C R (t + dt) p) p := by
    simp only [newmarkN, setUVA, computeMass, computeDamping, computeResidual, call, Act.bind_apply,
      Act.get_apply, Act.modify_apply, Act.pure_apply, hcb.mass, hcb.damping, hcb.residual, hn, smul_zero, add_zero,
      hp, residue, predict]
  obtain ⟨d, lg, st, h1, h2, h3⟩ := newmarkLoop_near hcb hz he ht hζ hβ hA hθ hτ
    (nz (e.norm (residue M C R (t + dt) p))) (n + 1) 0 C 0 (.inl rfl) p hs
  have e1 : ({ p with
      a := p.a + d, v := p.v + (o.delta * dt) • d, u := p.u + (o.alpha * dt * dt) • d, log := lg } : DSt ℝ V) =
      { s with
        a := d, v := (predict o dt s).v + (o.delta * dt) • d, u := (predict o dt s).u + (o.alpha * dt * dt) • d,
        log := lg } := by
    have : p.a = 0 := rfl
    rw [this, zero_add]
    rfl
  rw [e1] at h1 h2 h3
  rw [if_neg (Nat.succ_ne_zero n)] at h3
  refine ⟨d, lg, st, e0.trans h1, h2, h3, fun k1 k2 k3 k4 => ?_⟩
  obtain ⟨n', hn'⟩ : ∃ n', n = n' + 1 := ⟨n - 1, by omega⟩
  have g := newmarkLoop_two hcb hz he ht hζ hβ hA hθ hτ k1 k3 k4 n' C 0 p rfl hs
  rw [hn'] at h1
  rw [h1] at g
  simpa using g

end

section

variable {e : Env ℝ V} {o : Opts ℝ} {M C : V →ₗ[ℝ] V} {R : ℝ → V → V} {J : ℝ → V → V →ₗ[ℝ] V} {t dt : ℝ}
variable {x : ℕ → ℝ → V} {a b r m c L k : ℝ}

/-- The error of the accelerations. -/
theorem acceleration_le {p : ℕ} (hx : Motion M C R x p a b) (ht : Moderate M C R J (x 0) a b r m c L k) {τ : ℝ}
    (hτ : τ ∈ Icc a b) (s : DSt ℝ V) (hr : ‖s.u - x 0 τ‖ ≤ r) :
    ‖s.a - x 2 τ‖ ≤ m * ((L + c) * ‖(s.u, s.v) - (x 0 τ, x 1 τ)‖ + ‖residue M C R τ s‖) := by
  have hr0 : ‖x 0 τ - x 0 τ‖ ≤ r := by rw [sub_self, norm_zero]; exact (norm_nonneg _).trans hr
  have h1 := ht.lip τ hτ _ _ hr hr0
  have hL := ht.lip_nonneg
  have hc := ht.damp_nonneg
  have e1 : M (s.a - x 2 τ) = (R τ s.u - R τ (x 0 τ)) - C (s.v - x 1 τ) - residue M C R τ s := by
    have := hx.balance τ hτ
    simp only [residue, map_sub]
    rw [← this]
    abel
  have h2 : ‖s.u - x 0 τ‖ ≤ ‖(s.u, s.v) - (x 0 τ, x 1 τ)‖ := norm_fst_le ((s.u, s.v) - (x 0 τ, x 1 τ))
  have h3 : ‖s.v - x 1 τ‖ ≤ ‖(s.u, s.v) - (x 0 τ, x 1 τ)‖ := norm_snd_le ((s.u, s.v) - (x 0 τ, x 1 τ))
  refine (ht.mass _).trans (mul_le_mul_of_nonneg_left ?_ ht.mass_nonneg)
  rw [e1]
  refine (norm_sub_le _ _).trans (add_le_add ((norm_sub_le _ _).trans ?_) le_rfl)
  have h4 := ht.damp (s.v - x 1 τ)
  nlinarith [mul_le_mul_of_nonneg_left h2 hL, mul_le_mul_of_nonneg_left h3 hc]

/-- The predictor is near the motion. -/
theorem predict_near {P ρ : ℝ} (hα : o.alpha = 1 / 4) (hδ : o.delta = 1 / 2) (hx : Motion M C R x 2 a b)
    (ht : Moderate M C R J (x 0) a b r m c L k) (hP : ∀ τ ∈ Icc a b, ‖M (x 2 τ)‖ ≤ P) (h0 : 0 ≤ dt) (h1 : dt ≤ 1)
    (hm : m * c * dt ≤ 1) (hL : 2 * m * L * dt ^ 2 ≤ 1) (s : DSt ℝ V) (ha : a ≤ s.time) (hb : s.time + dt ≤ b)
    (hρ : ‖(s.u, s.v) - (x 0 s.time, x 1 s.time)‖ ≤ ρ) (hρr : ρ ≤ r)
    (hs : ‖residue M C R s.time s‖ ≤ P + (L + c) * ρ) (hr : 2 * ρ + 2 * m * (P + (L + c) * ρ) * dt ^ 2 ≤ r) :
    ‖(predict o dt s).u - x 0 (s.time + dt)‖ ≤ 2 * ρ + 2 * m * (P + (L + c) * ρ) * dt ^ 2 ∧
    ‖residue M C R (s.time + dt) (predict o dt s)‖ ≤ 6 * (P + (L + c) * ρ) := by
  have hτ : s.time ∈ Icc a b := ⟨ha, by linarith⟩
  have hτ' : s.time + dt ∈ Icc a b := ⟨by linarith, hb⟩
  have hmn := ht.mass_nonneg
  have hLn := ht.lip_nonneg
  have hcn := ht.damp_nonneg
  have hP0 : 0 ≤ P := (norm_nonneg _).trans (hP _ hτ)
  have hρ0 : 0 ≤ ρ := (norm_nonneg _).trans hρ
  have hu : ‖s.u - x 0 s.time‖ ≤ ρ := (norm_fst_le ((s.u, s.v) - (x 0 s.time, x 1 s.time))).trans hρ
  have hv : ‖s.v - x 1 s.time‖ ≤ ρ := (norm_snd_le ((s.u, s.v) - (x 0 s.time, x 1 s.time))).trans hρ
  set Q := P + (L + c) * ρ with hQ
  have hQ0 : 0 ≤ Q := by positivity
  have hx2 : ∀ τ ∈ Icc a b, ‖x 2 τ‖ ≤ m * P := fun τ h =>
    (ht.mass _).trans (mul_le_mul_of_nonneg_left (hP τ h) hmn)
  have hPQ : m * P ≤ m * Q := mul_le_mul_of_nonneg_left (by rw [hQ]; nlinarith) hmn
  have hea : ‖s.a‖ ≤ 2 * m * Q := by
    have g := acceleration_le hx ht hτ s (hu.trans hρr)
    have g2 : m * ((L + c) * ‖(s.u, s.v) - (x 0 s.time, x 1 s.time)‖ + ‖residue M C R s.time s‖) ≤
        m * ((L + c) * ρ + Q) := by gcongr
    have g3 : ‖s.a‖ ≤ ‖s.a - x 2 s.time‖ + ‖x 2 s.time‖ := by simpa using norm_add_le (s.a - x 2 s.time) (x 2 s.time)
    have g4 := hx2 _ hτ
    have : m * ((L + c) * ρ + Q) + m * P = 2 * m * Q := by rw [hQ]; ring
    linarith
  -- Taylor
  have tu := taylor_le (gauge_norm (E := V)) 2 hx.smooth (c := m * P) hx2 ha h0 hb
  have tv := taylor_le (gauge_norm (E := V)) 1 (y := fun i => x (i + 1)) (hx.smooth.tail) (c := m * P)
    (fun τ h => hx2 τ h) ha h0 hb
  simp only [taylor, Finset.sum_range_succ, Finset.range_zero, Finset.sum_empty, zero_add, pow_zero, pow_one,
    Nat.factorial, Nat.cast_one, div_one, one_smul, mul_one] at tu tv
  have eu : (predict o dt s).u - x 0 (s.time + dt) = (s.u - x 0 s.time) + dt • (s.v - x 1 s.time) +
      (dt ^ 2 / 4) • s.a - (x 0 (s.time + dt) - (x 0 s.time + dt • x 1 s.time)) := by
    simp only [predict, hα, show ((1 / 2 - 1 / 4 : ℝ) * dt * dt) = dt ^ 2 / 4 by ring]
    module
  have ev : (predict o dt s).v - x 1 (s.time + dt) = (s.v - x 1 s.time) + (dt / 2) • s.a -
      (x 1 (s.time + dt) - x 1 s.time) := by
    simp only [predict, hδ, show ((1 - 1 / 2 : ℝ) * dt) = dt / 2 by ring]
    module
  have hd2 : (0 : ℝ) ≤ dt ^ 2 := by positivity
  have bu : ‖(predict o dt s).u - x 0 (s.time + dt)‖ ≤ 2 * ρ + 2 * m * Q * dt ^ 2 := by
    rw [eu]
    have n1 : ‖dt • (s.v - x 1 s.time)‖ ≤ 1 * ρ := by
      rw [norm_smul, Real.norm_of_nonneg h0]; exact mul_le_mul h1 hv (norm_nonneg _) zero_le_one
    have n2 : ‖(dt ^ 2 / 4) • s.a‖ ≤ dt ^ 2 / 4 * (2 * m * Q) := by
      rw [norm_smul, Real.norm_of_nonneg (by positivity)]; exact mul_le_mul_of_nonneg_left hea (by positivity)
    refine (norm_sub_le _ _).trans ((add_le_add ((norm_add_le _ _).trans (add_le_add ((norm_add_le _ _).trans
      (add_le_add hu n1)) n2)) tu).trans ?_)
    have := mul_le_mul_of_nonneg_right hPQ hd2
    have h3 : 0 ≤ m * Q * dt ^ 2 := by positivity
    norm_num
    nlinarith
  have bv : ‖(predict o dt s).v - x 1 (s.time + dt)‖ ≤ ρ + 2 * m * Q * dt := by
    rw [ev]
    have n2 : ‖(dt / 2) • s.a‖ ≤ dt / 2 * (2 * m * Q) := by
      rw [norm_smul, Real.norm_of_nonneg (by positivity)]; exact mul_le_mul_of_nonneg_left hea (by positivity)
    refine (norm_sub_le _ _).trans ((add_le_add ((norm_add_le _ _).trans (add_le_add hv n2)) tv).trans ?_)
    have := mul_le_mul_of_nonneg_right hPQ h0
    linarith
  refine ⟨bu, ?_⟩
  have e2 : residue M C R (s.time + dt) (predict o dt s) =
      (R (s.time + dt) (predict o dt s).u - R (s.time + dt) (x 0 (s.time + dt))) -
      C ((predict o dt s).v - x 1 (s.time + dt)) + M (x 2 (s.time + dt)) := by
    have := hx.balance _ hτ'
    have h3 : (predict o dt s).a = 0 := rfl
    simp only [residue, map_sub, h3, map_zero]
    rw [← this]
    abel
  rw [e2]
  have hr0 : ‖x 0 (s.time + dt) - x 0 (s.time + dt)‖ ≤ r := by rw [sub_self, norm_zero]; linarith
  have n1 := ht.lip _ hτ' _ _ (bu.trans hr) hr0
  have n2 := ht.damp ((predict o dt s).v - x 1 (s.time + dt))
  refine (norm_add_le _ _).trans ((add_le_add ((norm_sub_le _ _).trans (add_le_add n1 n2)) (hP _ hτ')).trans ?_)
  have n3 := mul_le_mul_of_nonneg_left bu hLn
  have n4 := mul_le_mul_of_nonneg_left bv hcn
  have n5 := mul_le_mul_of_nonneg_right hm hQ0
  have n6 := mul_le_mul_of_nonneg_right hL hQ0
  have n7 : Q = P + L * ρ + c * ρ := by rw [hQ]; ring
  have n8 : 0 ≤ L * ρ := by positivity
  have n9 : 0 ≤ c * ρ := by positivity
  nlinarith

/-- The error of one step by the error before it and the errors of the accelerations. -/
theorem newmark_growth {Y : ℝ} (hx : Smooth x 4 a b) (hY : ∀ t ∈ Icc a b, ‖(x 3 t, x 4 t)‖ ≤ Y) (h0 : 0 ≤ dt)
    (ha : a ≤ t) (hb : t + dt ≤ b) {u v w u' v' w' : V} (hu : u' = u + dt • v + (dt ^ 2 / 4) • w + (dt ^ 2 / 4) • w')
    (hv : v' = v + (dt / 2) • w + (dt / 2) • w') {Λ ε : ℝ} (hΛ : 1 ≤ Λ) (hd : Λ * dt ≤ 1) (hε : 0 ≤ ε)
    (hw : ‖w - x 2 t‖ ≤ Λ * ‖(u, v) - (x 0 t, x 1 t)‖ + ε)
    (hw' : ‖w' - x 2 (t + dt)‖ ≤ Λ * ‖(u', v') - (x 0 (t + dt), x 1 (t + dt))‖ + ε) :
    ‖(u', v') - (x 0 (t + dt), x 1 (t + dt))‖ ≤
      Real.exp (2 * Λ * dt) * ‖(u, v) - (x 0 t, x 1 t)‖ + 2 * (dt * ε + Y * (dt ^ 3 / 12)) := by
  have tr := trapezoid_le (gauge_norm (E := V × V)) (fun z => norm_neg z) (y := pair x) (hx.pair (p := 3)) (c := Y)
    (fun τ h => hY τ h) ha h0 hb
  simp only [pair] at tr
  norm_num at tr
  set E := ‖(u, v) - (x 0 t, x 1 t)‖ with hE
  set E' := ‖(u', v') - (x 0 (t + dt), x 1 (t + dt))‖ with hE'
  have b1 : ‖(v, w) - (x 1 t, x 2 t)‖ ≤ Λ * E + ε := by
    rw [Prod.norm_def]
    refine max_le ?_ hw
    have : ‖v - x 1 t‖ ≤ E := norm_snd_le ((u, v) - (x 0 t, x 1 t))
    have hn : 0 ≤ E := norm_nonneg _
    show ‖v - x 1 t‖ ≤ _
    nlinarith
  have b2 : ‖(v', w') - (x 1 (t + dt), x 2 (t + dt))‖ ≤ Λ * E' + ε := by
    rw [Prod.norm_def]
    refine max_le ?_ hw'
    have : ‖v' - x 1 (t + dt)‖ ≤ E' := norm_snd_le ((u', v') - (x 0 (t + dt), x 1 (t + dt)))
    have hn : 0 ≤ E' := norm_nonneg _
    show ‖v' - x 1 (t + dt)‖ ≤ _
    nlinarith
  have e1 : (u', v') - (x 0 (t + dt), x 1 (t + dt)) = ((u, v) - (x 0 t, x 1 t)) +
      (dt / 2) • (((v, w) - (x 1 t, x 2 t)) + ((v', w') - (x 1 (t + dt), x 2 (t + dt)))) -
      (((x 0 (t + dt), x 1 (t + dt)) : V × V) - (x 0 t, x 1 t) -
        (dt / 2) • ((x 1 t, x 2 t) + (x 1 (t + dt), x 2 (t + dt)))) := by
    refine Prod.ext ?_ ?_
    · simp only [Prod.fst_sub, Prod.fst_add, Prod.smul_fst]
      rw [hu, hv]
      module
    · simp only [Prod.snd_sub, Prod.snd_add, Prod.smul_snd]
      rw [hv]
      module
  have tr' : ‖((x 0 (t + dt), x 1 (t + dt)) : V × V) - (x 0 t, x 1 t) -
        (dt / 2) • ((x 1 t, x 2 t) + (x 1 (t + dt), x 2 (t + dt)))‖ ≤ Y * (dt ^ 3 / 12) := by
    simpa using tr
  have b3 : E' ≤ E + dt / 2 * ((Λ * E + ε) + (Λ * E' + ε)) + Y * (dt ^ 3 / 12) := by
    conv_lhs => rw [hE', e1]
    refine (norm_sub_le _ _).trans (add_le_add ((norm_add_le _ _).trans (add_le_add le_rfl ?_)) tr')
    rw [norm_smul, Real.norm_of_nonneg (by positivity)]
    exact mul_le_mul_of_nonneg_left ((norm_add_le _ _).trans (add_le_add b1 b2)) (by positivity)
  have hE0 : 0 ≤ E := norm_nonneg _
  have b4 : 1 + 2 * Λ * dt ≤ Real.exp (2 * Λ * dt) := by linarith [Real.add_one_le_exp (2 * Λ * dt)]
  have b5 := mul_le_mul_of_nonneg_right b4 hE0
  refine le_trans ?_ (add_le_add_left b5 _)
  have hY0 : 0 ≤ Y := (norm_nonneg _).trans (hY t ⟨ha, by linarith⟩)
  have hs0 : 0 ≤ dt * ε + Y * (dt ^ 3 / 12) := by positivity
  have hz : 0 ≤ Λ * dt := by positivity
  set z := Λ * dt with hzd
  set g := dt * ε + Y * (dt ^ 3 / 12) with hg
  have b6 : E' * (1 - z / 2) ≤ (1 + z / 2) * E + g := by
    have : dt / 2 * ((Λ * E + ε) + (Λ * E' + ε)) = z / 2 * E + z / 2 * E' + dt * ε := by rw [hzd]; ring
    rw [this] at b3
    rw [hg]
    linarith
  have b7 : (1 + z / 2) * E + g ≤ ((1 + 2 * z) * E + 2 * g) * (1 - z / 2) := by
    have : 0 ≤ z * (1 - z) * E := mul_nonneg (mul_nonneg hz (by linarith)) hE0
    have : 0 ≤ (1 - z) * g := mul_nonneg (by linarith) hs0
    nlinarith
  have b8 := le_of_mul_le_mul_right (b6.trans b7) (by linarith)
  refine b8.trans (le_of_eq ?_)
  rw [hzd]; ring

/-- The constant of `C138`. -/
noncomputable def newmarkConst (m c L k P Y ρ : ℝ) : ℝ := 2 * (3 * m ^ 2 * (L + k) * (P + (L + c) * ρ) + Y / 12)

set_option maxHeartbeats 800000 in
/-- **C138**: the nonlinear Newmark method with the standard parameters converges with second order, on every structure
that is known near the motion, for all small steps. -/
theorem C138_newmark_near (e : Env ℝ V) (o : Opts ℝ) (M C : V →ₗ[ℝ] V) (R : ℝ → V → V) (J : ℝ → V → V →ₗ[ℝ] V)
    (hcb : Callbacks e M C R J) (he : ExactSolver e) (hα : o.alpha = 1 / 4) (hδ : o.delta = 1 / 2)
    (hz : ¬ o.zeroInterval) (hi : 1 ≤ o.maxIter) (x : ℕ → ℝ → V) (a b r m c L k P Y ρ Λ : ℝ)
    (hx : Motion M C R x 4 a b) (ht : Moderate M C R J (x 0) a b r m c L k)
    (hP : ∀ t ∈ Icc a b, ‖M (x 2 t)‖ ≤ P) (hY : ∀ t ∈ Icc a b, ‖(x 3 t, x 4 t)‖ ≤ Y) (hρ0 : 0 ≤ ρ) (hΛ1 : 1 ≤ Λ)
    (hΛ : m * (L + c) ≤ Λ) (h : ℝ) (l : List ℝ) (hdt : ∀ dt ∈ l, 0 < dt ∧ dt ≤ h)
    (h1 : m * (c * h / 2 + k * h ^ 2 / 4) ≤ 1 / 2) (h2 : 3 * m * (L + k) * h ^ 2 ≤ 1) (h3 : Λ * h ≤ 1) (s : DSt ℝ V)
    (hs : M s.a + C s.v = R s.time s.u) (ha : a ≤ s.time) (hb : s.time + l.sum ≤ b)
    (hρ : Real.exp (2 * Λ * l.sum) *
      (‖(s.u, s.v) - (x 0 s.time, x 1 s.time)‖ + newmarkConst m c L k P Y ρ * l.sum * h ^ 2) ≤ ρ)
    (hr : 2 * ρ + 6 * m * (P + (L + c) * ρ) * h ^ 2 ≤ r) :
    let q := steps none (integrate .newmark true e o) l s
    let T := s.time + l.sum
    (q.1.time = T ∧ ‖(q.1.u, q.1.v) - (x 0 T, x 1 T)‖ ≤ Real.exp (2 * Λ * l.sum) *
      (‖(s.u, s.v) - (x 0 s.time, x 1 s.time)‖ + newmarkConst m c L k P Y ρ * l.sum * h ^ 2)) ∧
    ∀ st ∈ q.2, ∃ st', st = some st' ∧
      ((∀ w, e.norm w = ‖w‖) → 2 ≤ o.maxIter → m * (L + k) * h ^ 2 < o.tolU → (m * (L + k) * h ^ 2) ^ 2 < o.tolF →
        st' = .success) := by
  have hsum : 0 ≤ l.sum := List.sum_nonneg fun x hx => (hdt x hx).1.le
  have hmem : s.time ∈ Icc a b := ⟨ha, by linarith⟩
  have hP0 : 0 ≤ P := (norm_nonneg _).trans (hP _ hmem)
  have hY0 : 0 ≤ Y := (norm_nonneg _).trans (hY _ hmem)
  have hm := ht.mass_nonneg
  have hLn := ht.lip_nonneg
  have hcn := ht.damp_nonneg
  have hkn := ht.jac_nonneg
  set Q := P + (L + c) * ρ with hQ
  have hQ0 : 0 ≤ Q := by positivity
  have hc0 : 0 ≤ newmarkConst m c L k P Y ρ := by unfold newmarkConst; positivity
  have hΛ0 : 0 ≤ Λ := by linarith
  refine accumulate_results (f := integrate .newmark true e o) (y := pair x 0) (p := 2) (a := a) (b := b) (ρ := ρ)
    (Inv := fun s => ‖residue M C R s.time s‖ ≤ 3 * m * (L + k) * h ^ 2 * Q)
    (Q := fun st => (∀ w, e.norm w = ‖w‖) → 2 ≤ o.maxIter → m * (L + k) * h ^ 2 < o.tolU →
      (m * (L + k) * h ^ 2) ^ 2 < o.tolF → st = .success) hc0 (by positivity) l hdt ?_ s ?_ ha hb hρ
  · intro dt hd s hs ha hb hE
    obtain ⟨hd0, hd1⟩ := hdt dt hd
    have hh : 0 < h := hd0.trans_le hd1
    have hsq : dt ^ 2 ≤ h ^ 2 := pow_le_pow_left₀ hd0.le hd1 2
    have hτ : s.time ∈ Icc a b := ⟨ha, by linarith⟩
    have hτ' : s.time + dt ∈ Icc a b := ⟨by linarith, hb⟩
    have eβ : o.alpha * dt * dt = dt ^ 2 / 4 := by rw [hα]; ring
    have eζ : o.delta * dt = dt / 2 := by rw [hδ]; ring
    have hsQ : ‖residue M C R s.time s‖ ≤ Q := by
      refine hs.trans ?_
      simpa using mul_le_mul_of_nonneg_right h2 hQ0
    have hLk : m * (L + k) * dt ^ 2 ≤ m * (L + k) * h ^ 2 := by gcongr
    have hmQ : m * Q * dt ^ 2 ≤ m * Q * h ^ 2 := by gcongr
    have hmQ0 : 0 ≤ m * Q * dt ^ 2 := by positivity
    have hΛd : Λ * dt ≤ 1 := (mul_le_mul_of_nonneg_left hd1 hΛ0).trans h3
    have hd1' : dt ≤ 1 := (by simpa using mul_le_mul_of_nonneg_right hΛ1 hd0.le : dt ≤ Λ * dt).trans hΛd
    have hmc : m * c * dt ≤ 1 := by
      have i1 : m * c * dt ≤ m * c * h := by gcongr
      have i2 : 0 ≤ m * k * h ^ 2 := by positivity
      have i3 : m * (c * h / 2 + k * h ^ 2 / 4) = m * c * h / 2 + m * k * h ^ 2 / 4 := by ring
      linarith only [i1, i2, i3, h1]
    have i4 : 0 ≤ m * k * dt ^ 2 := by positivity
    have i5 : 0 ≤ m * L * dt ^ 2 := by positivity
    have i6 : m * (L + k) * dt ^ 2 = m * L * dt ^ 2 + m * k * dt ^ 2 := by ring
    have i7 : 3 * (m * (L + k) * h ^ 2) ≤ 1 := (le_of_eq (by ring)).trans h2
    have hmL : 2 * m * L * dt ^ 2 ≤ 1 := by
      have i8 : 2 * m * L * dt ^ 2 = 2 * (m * L * dt ^ 2) := by ring
      linarith only [i4, i5, i6, i7, i8, hLk]
    have i9 : 6 * m * Q * h ^ 2 = 6 * (m * Q * h ^ 2) := by ring
    have i10 : 2 * m * Q * dt ^ 2 = 2 * (m * Q * dt ^ 2) := by ring
    have hρr : ρ ≤ r := by linarith only [i9, hr, hmQ, hmQ0, hρ0]
    obtain ⟨p1, p2⟩ := predict_near hα hδ ⟨hx.smooth.mono (by omega), hx.balance⟩ ht hP hd0.le hd1' hmc hmL s ha hb
      hE hρr hsQ (by rw [← hQ]; linarith only [i9, i10, hr, hmQ, hmQ0])
    rw [← hQ] at p1 p2
    obtain ⟨w, lg, st, n1, n2, n3, n4⟩ := newmarkN_near (dt := dt) (t := s.time) hcb hz hi he ht (by rw [eζ]; positivity)
      (by rw [eβ]; positivity) (by
        rw [eζ, eβ]
        refine le_trans (mul_le_mul_of_nonneg_left ?_ hm) h1
        have j1 := mul_le_mul_of_nonneg_left hd1 hcn
        have j2 := mul_le_mul_of_nonneg_left hsq hkn
        linarith only [j1, j2]) (by
        rw [eβ, show 2 * m * (dt ^ 2 / 4 * (L + k)) = m * (L + k) * dt ^ 2 / 2 by ring]
        linarith only [i7, hLk, i4, i5, i6]) hτ' s (by
        rw [eβ]
        have : 4 / 3 * (dt ^ 2 / 4) * (2 * m * ‖residue M C R (s.time + dt) (predict o dt s)‖) ≤
            4 / 3 * (dt ^ 2 / 4) * (2 * m * (6 * Q)) := by gcongr
        have j3 : 4 / 3 * (dt ^ 2 / 4) * (2 * m * (6 * Q)) = 4 * (m * Q * dt ^ 2) := by ring
        linarith only [this, j3, p1, i9, i10, hr, hmQ, hmQ0])
    rw [eβ, eζ] at n1 n2 n3
    rw [eβ] at n4
    refine ⟨_, st, step_none _ _ _ _ _ n1, fun k1 k2 k3 k4 => n4 k1 k2 ?_ ?_, ?_, rfl, ?_⟩
    · rw [show 2 * m * (dt ^ 2 / 4 * (L + k)) = m * (L + k) * dt ^ 2 / 2 by ring]
      linarith only [hLk, i4, i5, i6, k3]
    · refine lt_of_le_of_lt (pow_le_pow_left₀ (by positivity) ?_ 2) k4
      rw [show 2 * m * (dt ^ 2 / 4 * (L + k)) = m * (L + k) * dt ^ 2 / 2 by ring]
      linarith only [hLk, i4, i5, i6]
    · refine le_trans n3 ?_
      calc 2 * m * (dt ^ 2 / 4 * (L + k)) * ‖residue M C R (s.time + dt) (predict o dt s)‖
          ≤ 2 * m * (dt ^ 2 / 4 * (L + k)) * (6 * Q) := by gcongr
        _ = 3 * (m * (L + k) * dt ^ 2) * Q := by ring
        _ ≤ 3 * (m * (L + k) * h ^ 2) * Q := by gcongr
        _ = _ := by ring
    · set q : DSt ℝ V := { s with
        a := w, v := (predict o dt s).v + (dt / 2) • w, u := (predict o dt s).u + (dt ^ 2 / 4) • w, log := lg } with hq
      have hres : ‖residue M C R (s.time + dt) q‖ ≤ 3 * m * (L + k) * h ^ 2 * Q := by
        refine le_trans n3 ?_
        calc 2 * m * (dt ^ 2 / 4 * (L + k)) * ‖residue M C R (s.time + dt) (predict o dt s)‖
            ≤ 2 * m * (dt ^ 2 / 4 * (L + k)) * (6 * Q) := by gcongr
          _ = 3 * (m * (L + k) * dt ^ 2) * Q := by ring
          _ ≤ 3 * (m * (L + k) * h ^ 2) * Q := by gcongr
          _ = _ := by ring
      have hE2 : ‖s.u - x 0 s.time‖ ≤ r :=
        ((norm_fst_le ((s.u, s.v) - (x 0 s.time, x 1 s.time))).trans hE).trans hρr
      have a1 := acceleration_le hx ht hτ s hE2
      have a2 := acceleration_le hx ht hτ' q n2
      have bd : ∀ {E R' : ℝ}, 0 ≤ E → R' ≤ 3 * m * (L + k) * h ^ 2 * Q →
          m * ((L + c) * E + R') ≤ Λ * E + m * (3 * m * (L + k) * h ^ 2 * Q) := fun hE0 hR' => by
        have i1 := mul_le_mul_of_nonneg_right hΛ hE0
        have i2 := mul_le_mul_of_nonneg_left hR' hm
        rw [mul_add, ← mul_assoc]
        exact add_le_add i1 i2
      have err := newmark_growth (u := s.u) (v := s.v) (w := s.a) (u' := q.u) (v' := q.v) (w' := q.a) hx.smooth hY
        hd0.le ha hb (by
          simp only [hq, predict, hα, show ((1 / 2 - 1 / 4 : ℝ) * dt * dt) = dt ^ 2 / 4 by ring])
        (by simp only [hq, predict, hδ, show ((1 - 1 / 2 : ℝ) * dt) = dt / 2 by ring])
        hΛ1 hΛd (ε := m * (3 * m * (L + k) * h ^ 2 * Q)) (by positivity)
        (a1.trans (bd (norm_nonneg _) hs)) (a2.trans (bd (norm_nonneg _) hres))
      refine le_trans err (add_le_add le_rfl ?_)
      have hd3 : Y * (dt ^ 3 / 12) ≤ Y / 12 * (dt * h ^ 2) := by
        calc Y * (dt ^ 3 / 12) = Y / 12 * (dt * dt ^ 2) := by ring
          _ ≤ _ := by gcongr
      calc 2 * (dt * (m * (3 * m * (L + k) * h ^ 2 * Q)) + Y * (dt ^ 3 / 12))
          ≤ 2 * (dt * (m * (3 * m * (L + k) * h ^ 2 * Q)) + Y / 12 * (dt * h ^ 2)) := by gcongr
        _ = newmarkConst m c L k P Y ρ * (dt * h ^ 2) := by unfold newmarkConst; rw [← hQ]; ring
  · have : residue M C R s.time s = 0 := by rw [residue, ← hs]; abel
    rw [this, norm_zero]
    positivity

end

end GsSA.Dynamic
