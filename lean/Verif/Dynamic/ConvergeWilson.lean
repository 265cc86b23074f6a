import Verif.Dynamic.ConvergeBathe

/-!
# Convergence of the nonlinear Wilson method (C140)

Second order, for every `gamma ≥ 1`: the step of Newmark goes beyond the step, and the accelerations between are
interpolated. The accelerations are not in equilibrium, their errors are kept in check by the factor `1 - 1 / gamma` of the
interpolation.
-/

set_option linter.unusedSectionVars false

namespace GsSA.Dynamic

open GsSA GsSA.Static Set
open GsSA.ALM (Act Err)

variable {V : Type} [NormedAddCommGroup V] [NormedSpace ℝ V]

/-- Accumulation of errors with a bound `B` of the errors and an invariant that depends on this bound. -/
theorem accumulate_bound {f : ℝ → ℝ → Act (DSt ℝ V) Status} {Inv : ℝ → DSt ℝ V → Prop} {Q : Status → Prop}
    {ℓ c h a b ρ : ℝ} {p : ℕ} (hc : 0 ≤ c) (hℓ : 0 ≤ ℓ) (hmono : ∀ B B' s, B ≤ B' → Inv B s → Inv B' s)
    (l : List ℝ) (hl : ∀ dt ∈ l, 0 < dt ∧ dt ≤ h)
    (hstep : ∀ dt ∈ l, ∀ B s, 0 ≤ B → Inv B s → a ≤ s.time → s.time + dt ≤ b → B ≤ ρ →
      ∃ q r, step none f dt s = (q, .ok r) ∧ Q r ∧ q.time = s.time + dt ∧
        Inv (Real.exp (ℓ * dt) * B + c * (dt * h ^ p)) q)
    (B : ℝ) (hB : 0 ≤ B) (s : DSt ℝ V) (hs : Inv B s) (ha : a ≤ s.time) (hb : s.time + l.sum ≤ b)
    (hρ : Real.exp (ℓ * l.sum) * (B + c * l.sum * h ^ p) ≤ ρ) :
    let q := steps none f l s
    (q.1.time = s.time + l.sum ∧ Inv (Real.exp (ℓ * l.sum) * (B + c * l.sum * h ^ p)) q.1) ∧
      ∀ o ∈ q.2, ∃ r, o = some r ∧ Q r := by
  induction l generalizing s B with
  | nil => simpa [steps] using hs
  | cons dt l ih =>
    have hsum : 0 ≤ l.sum := List.sum_nonneg fun x hx => (hl x (by simp [hx])).1.le
    obtain ⟨hd0, hd1⟩ := hl dt (by simp)
    rw [List.sum_cons] at hb hρ
    have hh : 0 ≤ h ^ p := pow_nonneg (hd0.le.trans hd1) p
    have k5 : 0 ≤ c * (dt + l.sum) * h ^ p := by positivity
    have k0 : 1 ≤ Real.exp (ℓ * (dt + l.sum)) := Real.one_le_exp (by positivity)
    obtain ⟨q, r, h1, h0, h3, h4⟩ := hstep dt (by simp) B s hB hs ha (by linarith) (by nlinarith)
    have k3 : 1 ≤ Real.exp (ℓ * dt) := Real.one_le_exp (by positivity)
    have k7 : Real.exp (ℓ * l.sum) * ((Real.exp (ℓ * dt) * B + c * (dt * h ^ p)) + c * l.sum * h ^ p) ≤
        Real.exp (ℓ * (dt + l.sum)) * (B + c * (dt + l.sum) * h ^ p) := by
      rw [mul_add ℓ, Real.exp_add, mul_comm (Real.exp (ℓ * dt)) (Real.exp (ℓ * l.sum)), mul_assoc (Real.exp (ℓ * l.sum))]
      refine mul_le_mul_of_nonneg_left ?_ (Real.exp_pos _).le
      nlinarith [mul_le_mul_of_nonneg_right k3 k5]
    have e1 : steps none f (dt :: l) s = ((steps none f l q).1, some r :: (steps none f l q).2) := by simp [steps, h1]
    obtain ⟨⟨m1, m2⟩, m3⟩ := ih (fun x hx => hl x (by simp [hx])) (fun x hx => hstep x (by simp [hx]))
      (Real.exp (ℓ * dt) * B + c * (dt * h ^ p)) (by positivity) q h4 (by linarith) (by linarith) (k7.trans hρ)
    rw [e1, List.sum_cons]
    refine ⟨⟨by rw [m1, h3]; ring, hmono _ _ _ k7 m2⟩, ?_⟩
    intro o ho
    rcases List.mem_cons.1 ho with rfl | ho
    · exact ⟨r, rfl, h0⟩
    · exact m3 o ho

section

variable {e : Env ℝ V} {o : Opts ℝ} {M C : V →ₗ[ℝ] V} {R : ℝ → V → V} {J : ℝ → V → V →ₗ[ℝ] V} {t dt : ℝ}
variable {x : ℕ → ℝ → V} {a b r m c L k : ℝ}

/-- The forces of inertia by the residual. -/
theorem inertia_le {p : ℕ} (hx : Motion M C R x p a b) (ht : Moderate M C R J (x 0) a b r m c L k) {τ : ℝ}
    (hτ : τ ∈ Icc a b) (s : DSt ℝ V) (hr : ‖s.u - x 0 τ‖ ≤ r) :
    ‖M (s.a - x 2 τ)‖ ≤ (L + c) * ‖(s.u, s.v) - (x 0 τ, x 1 τ)‖ + ‖residue M C R τ s‖ ∧
    ‖residue M C R τ s‖ ≤ (L + c) * ‖(s.u, s.v) - (x 0 τ, x 1 τ)‖ + ‖M (s.a - x 2 τ)‖ := by
  have hr0 : ‖x 0 τ - x 0 τ‖ ≤ r := by rw [sub_self, norm_zero]; exact (norm_nonneg _).trans hr
  have h1 := ht.lip τ hτ _ _ hr hr0
  have e1 : M (s.a - x 2 τ) = ((R τ s.u - R τ (x 0 τ)) - C (s.v - x 1 τ)) - residue M C R τ s := by
    have := hx.balance τ hτ
    simp only [residue, map_sub]
    rw [← this]
    abel
  have e2 : residue M C R τ s = ((R τ s.u - R τ (x 0 τ)) - C (s.v - x 1 τ)) - M (s.a - x 2 τ) := by rw [e1]; abel
  have h2 : ‖s.u - x 0 τ‖ ≤ ‖(s.u, s.v) - (x 0 τ, x 1 τ)‖ := norm_fst_le ((s.u, s.v) - (x 0 τ, x 1 τ))
  have h3 : ‖s.v - x 1 τ‖ ≤ ‖(s.u, s.v) - (x 0 τ, x 1 τ)‖ := norm_snd_le ((s.u, s.v) - (x 0 τ, x 1 τ))
  have h4 := ht.damp (s.v - x 1 τ)
  have h5 : ‖(R τ s.u - R τ (x 0 τ)) - C (s.v - x 1 τ)‖ ≤ (L + c) * ‖(s.u, s.v) - (x 0 τ, x 1 τ)‖ := by
    refine (norm_sub_le _ _).trans ?_
    have := mul_le_mul_of_nonneg_left h2 ht.lip_nonneg
    have := mul_le_mul_of_nonneg_left h3 ht.damp_nonneg
    linarith
  constructor
  · nth_rewrite 1 [e1]
    exact (norm_sub_le _ _).trans (add_le_add h5 le_rfl)
  · nth_rewrite 1 [e2]
    exact (norm_sub_le _ _).trans (add_le_add h5 le_rfl)

/-- The interpolation of the forces of inertia. -/
theorem interpolate_le {θ P₄ : ℝ} (hM : Smooth (fun i t => M (x i t)) 4 a b)
    (hP : ∀ t ∈ Icc a b, ‖M (x 4 t)‖ ≤ P₄) (hθ : 1 ≤ θ) (h0 : 0 ≤ dt) (ha : a ≤ t) (hb : t + θ * dt ≤ b) :
    ‖M ((1 - 1 / θ) • x 2 t + (1 / θ) • x 2 (t + θ * dt) - x 2 (t + dt))‖ ≤ P₄ * (θ * dt ^ 2) := by
  have hθ0 : 0 < θ := by linarith
  have hd : dt ≤ θ * dt := by nlinarith
  have hs : Smooth (fun i t => M (x (i + 2) t)) 2 a b := hM.tail.tail
  have t1 := taylor_le (gauge_norm (E := V)) 2 hs (c := P₄) hP ha h0 (by linarith)
  have t2 := taylor_le (gauge_norm (E := V)) 2 hs (c := P₄) hP ha (by positivity : 0 ≤ θ * dt) hb
  simp only [taylor, Finset.sum_range_succ, Finset.range_zero, Finset.sum_empty, zero_add, pow_zero, pow_one,
    Nat.factorial, Nat.cast_one, div_one, one_smul, mul_one] at t1 t2
  have e1 : M ((1 - 1 / θ) • x 2 t + (1 / θ) • x 2 (t + θ * dt) - x 2 (t + dt)) =
      (1 / θ) • (M (x 2 (t + θ * dt)) - (M (x 2 t) + (θ * dt) • M (x (1 + 2) t))) -
      (M (x 2 (t + dt)) - (M (x 2 t) + dt • M (x (1 + 2) t))) := by
    rw [map_sub, map_add, map_smul, map_smul, smul_sub, smul_add, smul_smul,
      show 1 / θ * (θ * dt) = dt by field_simp]
    module
  rw [e1]
  refine (norm_sub_le _ _).trans ?_
  rw [norm_smul, Real.norm_of_nonneg (by positivity)]
  have t3 := mul_le_mul_of_nonneg_left t2 (by positivity : 0 ≤ 1 / θ)
  refine (add_le_add t3 t1).trans ?_
  have hP0 : 0 ≤ P₄ := (norm_nonneg _).trans (hP t ⟨ha, by linarith⟩)
  have e2 : 1 / θ * (P₄ * ((θ * dt) ^ 2 / ((1 + 1 : ℕ) : ℝ))) + P₄ * (dt ^ 2 / ((1 + 1 : ℕ) : ℝ)) =
      P₄ * dt ^ 2 * ((θ + 1) / 2) := by
    field_simp
    push_cast
    ring
  have e3 : P₄ * (θ * dt ^ 2) = P₄ * dt ^ 2 * θ := by ring
  rw [e3]
  refine le_trans (le_of_eq ?_) (mul_le_mul_of_nonneg_left (by linarith : (θ + 1) / 2 ≤ θ) (by positivity))
  simpa using e2

/-- The nonlinear Wilson step by the step of Newmark. -/
theorem wilsonN_run (s : DSt ℝ V) {us vs as : V} {lg : List (Call ℝ V × Bool)} {st : Status}
    (h : newmarkN e o s.time (o.gamma * dt) s = ({ s with u := us, v := vs, a := as, log := lg }, .ok st)) :
    wilsonN e o s.time dt s = ({ s with
      a := (1 - 1 / o.gamma) • s.a + (1 / o.gamma) • as
      u := s.u + dt • s.v + ((1 / 2 - o.alpha) * dt * dt) • s.a +
        (o.alpha * dt * dt) • ((1 - 1 / o.gamma) • s.a + (1 / o.gamma) • as)
      v := s.v + ((1 - o.delta) * dt) • s.a + (o.delta * dt) • ((1 - 1 / o.gamma) • s.a + (1 / o.gamma) • as)
      log := lg }, .ok .success) := by
  have hn : newmark true e o s.time (o.gamma * dt) s = ({ s with u := us, v := vs, a := as, log := lg }, .ok st) := h
  simp only [wilsonN]
  rw [Act.bind_ok (onCopy_ok hn)]
  rfl

/-- The numbers of the errors of the forces of inertia: `f` before, `E₁` that of the pairs after the step of Newmark and
`f₁` that of its forces of inertia. -/
theorem wilson_growth {E E₁ f f₁ f' D z W q y θ B g I : ℝ} (hθ : 1 ≤ θ) (hz0 : 0 ≤ z) (hz1 : z ≤ 1 / 8) (hE : 0 ≤ E)
    (hEB : E ≤ B) (hf0 : 0 ≤ f) (hq : 0 ≤ q) (hy : 0 ≤ y) (hW : 0 ≤ W)
    (h1 : E₁ ≤ E + D) (hD : W * D ≤ W * (z / 2 * (E + E₁)) + z * (f + q) + W * y)
    (h2 : f₁ ≤ W * E₁ + q) (h3 : θ * f' ≤ (θ - 1) * f + f₁ + I)
    (hf : f ≤ 3 * (W * B) + 2 * g) (hg : 2 * q + 2 * (W * y) + I ≤ g) : f' ≤ 3 * (W * B) + 2 * g := by
  have i1 : W * E₁ ≤ W * E + W * D := by nlinarith
  have hWE : 0 ≤ W * E := by positivity
  have hWB : W * E ≤ W * B := mul_le_mul_of_nonneg_left hEB hW
  have hWy : 0 ≤ W * y := by positivity
  have i2 : W * E₁ * (1 - z / 2) ≤ W * E * (1 + z / 2) + z * (f + q) + W * y := by nlinarith
  have i3 : W * E * (1 + z / 2) + z * (f + q) + W * y ≤ (2 * (W * E) + f / 4 + q / 2 + 2 * (W * y)) * (1 - z / 2) := by
    have := mul_nonneg (by linarith : 0 ≤ 1 / 8 - z) hWE
    have := mul_nonneg (by linarith : 0 ≤ 1 / 8 - z) hf0
    have := mul_nonneg (by linarith : 0 ≤ 1 / 8 - z) hq
    have := mul_nonneg (by linarith : 0 ≤ 1 / 8 - z) hWy
    nlinarith
  have i4 := le_of_mul_le_mul_right (i2.trans i3) (by linarith)
  have i5 : θ * f' ≤ (θ - 3 / 4) * f + 2 * (W * B) + g := by linarith
  have i6 : (θ - 3 / 4) * f ≤ (θ - 3 / 4) * (3 * (W * B) + 2 * g) := mul_le_mul_of_nonneg_left hf (by linarith)
  have i7 : θ * f' ≤ θ * (3 * (W * B) + 2 * g) := by nlinarith
  exact le_of_mul_le_mul_left i7 (by linarith)

/-- The constant of the errors of the forces of inertia. -/
noncomputable def wilsonForce (m c L k P Y P₄ ρ γ : ℝ) : ℝ :=
  γ ^ 2 * (6 * m * (L + k) * (P + (L + c) * ρ) + (L + c) * Y + P₄)

/-- The constant of `C140`. -/
noncomputable def wilsonConst (m c L k P Y P₄ ρ γ : ℝ) : ℝ := 4 * m * wilsonForce m c L k P Y P₄ ρ γ + Y / 6

set_option maxHeartbeats 1600000 in
/-- **C140**: the nonlinear Wilson method with the default `alpha` and `delta` and any `gamma` of at least one converges
with second order, on every structure that is known near the motion, for all small steps; so do its accelerations. -/
theorem C140_wilson_near (e : Env ℝ V) (o : Opts ℝ) (M C : V →ₗ[ℝ] V) (R : ℝ → V → V) (J : ℝ → V → V →ₗ[ℝ] V)
    (hcb : Callbacks e M C R J) (he : ExactSolver e) (hα : o.alpha = 1 / 4) (hδ : o.delta = 1 / 2)
    (hγ : 1 ≤ o.gamma) (hz : ¬ o.zeroInterval) (hi : 1 ≤ o.maxIter) (hM : Continuous M)
    (x : ℕ → ℝ → V) (a b r m c L k P Y P₄ ρ Λ : ℝ)
    (hx : Motion M C R x 4 a b) (ht : Moderate M C R J (x 0) a b r m c L k)
    (hP : ∀ t ∈ Icc a b, ‖M (x 2 t)‖ ≤ P) (hY : ∀ t ∈ Icc a b, ‖(x 3 t, x 4 t)‖ ≤ Y)
    (hP₄ : ∀ t ∈ Icc a b, ‖M (x 4 t)‖ ≤ P₄) (hρ0 : 0 ≤ ρ) (hΛ1 : 1 ≤ Λ) (hΛ : m * (L + c) ≤ Λ) (h : ℝ) (l : List ℝ)
    (hdt : ∀ dt ∈ l, 0 < dt ∧ dt ≤ h) (h1 : m * (L + k + c) * (o.gamma * h) ≤ 1 / 4) (h2 : 8 * Λ * (o.gamma * h) ≤ 1)
    (h3 : 3 * ((L + c) * ρ) + 2 * (wilsonForce m c L k P Y P₄ ρ o.gamma * h ^ 2) ≤ P)
    (hr : 2 * ρ + 6 * m * (P + (L + c) * ρ) * (o.gamma * h) ^ 2 ≤ r) (s : DSt ℝ V)
    (hs : M s.a + C s.v = R s.time s.u) (ha : a ≤ s.time) (hh : 0 ≤ h) (hb : s.time + l.sum + (o.gamma - 1) * h ≤ b)
    (hρ : Real.exp (8 * Λ * l.sum) *
      (‖(s.u, s.v) - (x 0 s.time, x 1 s.time)‖ + wilsonConst m c L k P Y P₄ ρ o.gamma * l.sum * h ^ 2) ≤ ρ) :
    let q := steps none (integrate .wilson true e o) l s
    let T := s.time + l.sum
    let B := Real.exp (8 * Λ * l.sum) *
      (‖(s.u, s.v) - (x 0 s.time, x 1 s.time)‖ + wilsonConst m c L k P Y P₄ ρ o.gamma * l.sum * h ^ 2)
    q.1.time = T ∧ ‖(q.1.u, q.1.v) - (x 0 T, x 1 T)‖ ≤ B ∧
    ‖q.1.a - x 2 T‖ ≤ m * (3 * ((L + c) * B) + 2 * (wilsonForce m c L k P Y P₄ ρ o.gamma * h ^ 2)) ∧
    ∀ st ∈ q.2, st = some .success := by
  have hsum : 0 ≤ l.sum := List.sum_nonneg fun x hx => (hdt x hx).1.le
  have hγ0 : 0 < o.gamma := by linarith
  have hγh : 0 ≤ (o.gamma - 1) * h := mul_nonneg (by linarith) hh
  have hmem : s.time ∈ Icc a b := ⟨ha, by linarith⟩
  have hP0 : 0 ≤ P := (norm_nonneg _).trans (hP _ hmem)
  have hY0 : 0 ≤ Y := (norm_nonneg _).trans (hY _ hmem)
  have hP40 : 0 ≤ P₄ := (norm_nonneg _).trans (hP₄ _ hmem)
  have hm := ht.mass_nonneg
  have hLn := ht.lip_nonneg
  have hcn := ht.damp_nonneg
  have hkn := ht.jac_nonneg
  have hΛ0 : 0 ≤ Λ := by linarith
  have hMs : Smooth (fun i t => M (x i t)) 4 a b := fun i hi τ hτ =>
    (ContinuousLinearMap.hasFDerivAt (⟨M, hM⟩ : V →L[ℝ] V)).comp_hasDerivAt τ (hx.smooth i hi τ hτ)
  set G := wilsonForce m c L k P Y P₄ ρ o.gamma with hG
  set K := wilsonConst m c L k P Y P₄ ρ o.gamma with hK
  set Q := P + (L + c) * ρ with hQ
  set W := L + c with hW
  have hW0 : 0 ≤ W := by positivity
  have hQ0 : 0 ≤ Q := by positivity
  have hG0 : 0 ≤ G := by rw [hG, wilsonForce]; positivity
  have hKG : K = 4 * m * G + Y / 6 := rfl
  have hK0 : 0 ≤ K := by rw [hKG]; positivity
  have hmQ : 0 ≤ m * Q * (o.gamma * h) ^ 2 := by positivity
  have i8 : 6 * m * Q * (o.gamma * h) ^ 2 = 6 * (m * Q * (o.gamma * h) ^ 2) := by ring
  have hρr : ρ ≤ r := by linarith only [hr, hmQ, i8, hρ0]
  have hexp : 1 ≤ Real.exp (8 * Λ * l.sum) := Real.one_le_exp (by positivity)
  obtain ⟨⟨r1, r2, r3⟩, r4⟩ := accumulate_bound (f := integrate .wilson true e o) (p := 2) (a := a)
    (b := b - (o.gamma - 1) * h) (ρ := ρ) (Q := fun st => st = .success)
    (Inv := fun B s => ‖(s.u, s.v) - (x 0 s.time, x 1 s.time)‖ ≤ B ∧
      ‖M (s.a - x 2 s.time)‖ ≤ 3 * (W * B) + 2 * (G * h ^ 2)) hK0 (by positivity : 0 ≤ 8 * Λ)
    (fun B B' s hB ⟨k1, k2⟩ => ⟨k1.trans hB, k2.trans (by have := mul_le_mul_of_nonneg_left hB hW0; linarith only [this])⟩)
    l hdt (by
    intro dt hd B s hB0 ⟨hE, hf⟩ ha hb hBρ
    obtain ⟨hd0, hd1⟩ := hdt dt hd
    obtain ⟨η, hη⟩ : ∃ η, η = o.gamma * dt := ⟨_, rfl⟩
    have hη0 : 0 < η := by rw [hη]; positivity
    have hηh : η ≤ o.gamma * h := by rw [hη]; gcongr
    have hdη : dt ≤ η := by rw [hη]; exact le_mul_of_one_le_left hd0.le hγ
    have hηb : s.time + η ≤ b := by
      have : (o.gamma - 1) * dt ≤ (o.gamma - 1) * h := mul_le_mul_of_nonneg_left hd1 (by linarith)
      have e1 : η = dt + (o.gamma - 1) * dt := by rw [hη]; ring
      linarith only [this, e1, hb]
    have hzη : Λ * η ≤ 1 / 8 := by
      have := mul_le_mul_of_nonneg_left hηh hΛ0
      have e1 : 8 * Λ * (o.gamma * h) = 8 * (Λ * (o.gamma * h)) := by ring
      linarith only [this, e1, h2]
    have hη1 : η ≤ 1 := by
      have := mul_le_mul_of_nonneg_right hΛ1 hη0.le
      linarith only [this, hzη]
    have hτ : s.time ∈ Icc a b := ⟨ha, by linarith⟩
    have hτ1 : s.time + η ∈ Icc a b := ⟨by linarith, hηb⟩
    have hτ2 : s.time + dt ∈ Icc a b := ⟨by linarith, by linarith⟩
    have hη2 : η ^ 2 ≤ (o.gamma * h) ^ 2 := pow_le_pow_left₀ hη0.le hηh 2
    have hEρ := hE.trans hBρ
    have hE2 : ‖s.u - x 0 s.time‖ ≤ r :=
      ((norm_fst_le ((s.u, s.v) - (x 0 s.time, x 1 s.time))).trans hEρ).trans hρr
    obtain ⟨-, res0⟩ := inertia_le hx ht hτ s hE2
    obtain ⟨us, vs, ws, lg, st, n1, n2, n3, n4, n5⟩ := newmark_stage (dt := η) (ρ := ρ) hcb he hα hδ hz hi hx ht hP
      hη0.le hη1 (le_trans (by gcongr) h1) s ha hηb hEρ (by
        rw [← hW, ← hQ]
        refine res0.trans ?_
        have j1 := mul_le_mul_of_nonneg_left hEρ hW0
        have j2 := mul_le_mul_of_nonneg_left hBρ hW0
        rw [← hW, hQ]
        linarith only [j1, j2, hf, h3]) (by
        rw [← hW, ← hQ]
        have : 6 * m * Q * η ^ 2 ≤ 6 * m * Q * (o.gamma * h) ^ 2 := by gcongr
        linarith only [this, hr])
    rw [← hW, ← hQ] at n5
    obtain ⟨f1, -⟩ := inertia_le hx ht hτ1 (DSt.init us vs ws) n4
    have hmf := ht.mass (s.a - x 2 s.time)
    simp only [DSt.init, residue] at f1
    rw [← hW] at f1
    have hmf1 := ht.mass (ws - x 2 (s.time + η))
    set f := ‖M (s.a - x 2 s.time)‖ with hfd
    set q := ‖R (s.time + η) us - C vs - M ws‖ with hqd
    set f₁ := ‖M (ws - x 2 (s.time + η))‖ with hf₁
    have hf0 : 0 ≤ f := norm_nonneg _
    have hq0 : 0 ≤ q := norm_nonneg _
    have inc := newmark_increment hx.smooth hY hη0.le ha hηb n2 n3 hΛ1 (ε := m * (f + q)) (by positivity) (by
      have : 0 ≤ Λ * ‖(s.u, s.v) - (x 0 s.time, x 1 s.time)‖ := by positivity
      have : 0 ≤ m * q := by positivity
      have e1 : m * (f + q) = m * f + m * q := by ring
      linarith only [this, hmf, e1, (by positivity : 0 ≤ Λ * ‖(s.u, s.v) - (x 0 s.time, x 1 s.time)‖)]) (by
      have j1 := mul_le_mul_of_nonneg_left f1 hm
      have j2 := mul_le_mul_of_nonneg_right hΛ (norm_nonneg ((us, vs) - (x 0 (s.time + η), x 1 (s.time + η))))
      have j3 : 0 ≤ m * f := by positivity
      have e1 : m * (f + q) = m * f + m * q := by ring
      have e2 : m * (W * ‖(us, vs) - (x 0 (s.time + η), x 1 (s.time + η))‖ + q) =
        m * W * ‖(us, vs) - (x 0 (s.time + η), x 1 (s.time + η))‖ + m * q := by ring
      linarith only [j1, j2, j3, hmf1, e1, e2])
    set E := ‖(s.u, s.v) - (x 0 s.time, x 1 s.time)‖ with hEd
    set E₁ := ‖(us, vs) - (x 0 (s.time + η), x 1 (s.time + η))‖ with hE₁
    set D := ‖((us, vs) - (x 0 (s.time + η), x 1 (s.time + η))) - ((s.u, s.v) - (x 0 s.time, x 1 s.time))‖ with hD
    have g1 : E₁ ≤ E + D := by
      have := norm_add_le ((s.u, s.v) - (x 0 s.time, x 1 s.time))
        (((us, vs) - (x 0 (s.time + η), x 1 (s.time + η))) - ((s.u, s.v) - (x 0 s.time, x 1 s.time)))
      rwa [add_sub_cancel] at this
    have hz0 : 0 ≤ Λ * η := by positivity
    have g2 : W * D ≤ W * (Λ * η / 2 * (E + E₁)) + Λ * η * (f + q) + W * (Y * (η ^ 3 / 12)) := by
      have j1 := mul_le_mul_of_nonneg_left inc hW0
      have j2 := mul_le_mul_of_nonneg_right hΛ (by positivity : 0 ≤ η * (f + q))
      have e1 : W * (η / 2 * (Λ * (E + E₁) + 2 * (m * (f + q))) + Y * (η ^ 3 / 12)) =
        W * (Λ * η / 2 * (E + E₁)) + m * W * (η * (f + q)) + W * (Y * (η ^ 3 / 12)) := by ring
      have e2 : Λ * η * (f + q) = Λ * (η * (f + q)) := by ring
      linarith only [j1, j2, e1, e2]
    -- the new accelerations
    obtain ⟨w, hw⟩ : ∃ w, w = (1 - 1 / o.gamma) • s.a + (1 / o.gamma) • ws := ⟨_, rfl⟩
    have hint := interpolate_le (θ := o.gamma) (dt := dt) (t := s.time) hMs hP₄ hγ hd0.le ha (by rw [← hη]; exact hηb)
    rw [← hη] at hint
    have e3 : M (w - x 2 (s.time + dt)) = (1 - 1 / o.gamma) • M (s.a - x 2 s.time) +
        (1 / o.gamma) • M (ws - x 2 (s.time + η)) +
        M ((1 - 1 / o.gamma) • x 2 s.time + (1 / o.gamma) • x 2 (s.time + η) - x 2 (s.time + dt)) := by
      rw [← map_smul, ← map_smul, ← map_add, ← map_add]
      congr 1
      rw [hw]
      module
    have g3 : o.gamma * ‖M (w - x 2 (s.time + dt))‖ ≤ (o.gamma - 1) * f + f₁ + P₄ * η ^ 2 := by
      have j1 : ‖M (w - x 2 (s.time + dt))‖ ≤ (1 - 1 / o.gamma) * f + 1 / o.gamma * f₁ + P₄ * (o.gamma * dt ^ 2) := by
        rw [e3]
        refine (norm_add_le _ _).trans (add_le_add ((norm_add_le _ _).trans (le_of_eq ?_)) hint)
        rw [norm_smul, norm_smul, Real.norm_of_nonneg (by positivity : 0 ≤ 1 / o.gamma), Real.norm_of_nonneg]
        rw [sub_nonneg, div_le_one hγ0]
        exact hγ
      have j2 := mul_le_mul_of_nonneg_left j1 hγ0.le
      refine j2.trans (le_of_eq ?_)
      rw [hη]
      field_simp
    have g4 : ‖M (w - x 2 (s.time + dt))‖ ≤ 3 * (W * B) + 2 * (G * h ^ 2) := by
      refine wilson_growth hγ hz0 hzη (norm_nonneg _) hE hf0 hq0 (by positivity) hW0 g1 g2 f1 g3 hf ?_
      have j1 : 2 * q ≤ 6 * m * (L + k) * Q * (o.gamma * h) ^ 2 := by
        calc 2 * q ≤ 2 * (3 * m * (L + k) * η ^ 2 * Q) := by linarith only [n5]
          _ = 6 * m * (L + k) * Q * η ^ 2 := by ring
          _ ≤ _ := by gcongr
      have j2 : 2 * (W * (Y * (η ^ 3 / 12))) ≤ W * Y * (o.gamma * h) ^ 2 := by
        calc 2 * (W * (Y * (η ^ 3 / 12))) = W * Y * (η ^ 2 * (η / 6)) := by ring
          _ ≤ W * Y * ((o.gamma * h) ^ 2 * 1) := by gcongr; linarith only [hη1, hη0]
          _ = _ := by ring
      have j3 : P₄ * η ^ 2 ≤ P₄ * (o.gamma * h) ^ 2 := by gcongr
      have e1 : G * h ^ 2 = 6 * m * (L + k) * Q * (o.gamma * h) ^ 2 + W * Y * (o.gamma * h) ^ 2 +
          P₄ * (o.gamma * h) ^ 2 := by rw [hG, wilsonForce, ← hW, ← hQ]; ring
      linarith only [j1, j2, j3, e1]
    have hrun := wilsonN_run (dt := dt) s (by rw [← hη]; exact n1)
    rw [← hw] at hrun
    have hBexp : B ≤ Real.exp (8 * Λ * dt) * B + K * (dt * h ^ 2) := by
      have j1 : 1 ≤ Real.exp (8 * Λ * dt) := Real.one_le_exp (by positivity)
      have j2 := mul_le_mul_of_nonneg_right j1 hB0
      have j3 : 0 ≤ K * (dt * h ^ 2) := by positivity
      linarith only [j2, j3]
    refine ⟨_, _, step_none _ _ _ _ _ hrun, rfl, rfl, ?_, ?_⟩
    · dsimp only
      have g5 := newmark_growth (u := s.u) (v := s.v) (w := s.a) (w' := w) hx.smooth hY hd0.le ha hτ2.2
        (u' := s.u + dt • s.v + ((1 / 2 - o.alpha) * dt * dt) • s.a + (o.alpha * dt * dt) • w)
        (v' := s.v + ((1 - o.delta) * dt) • s.a + (o.delta * dt) • w)
        (by rw [hα, show (1 / 2 - 1 / 4 : ℝ) * dt * dt = dt ^ 2 / 4 by ring, show (1 / 4 : ℝ) * dt * dt = dt ^ 2 / 4 by ring])
        (by rw [hδ, show (1 - 1 / 2 : ℝ) * dt = dt / 2 by ring, show (1 / 2 : ℝ) * dt = dt / 2 by ring]) hΛ1
        (ε := m * (3 * (W * B) + 2 * (G * h ^ 2)))
        (by
          have := mul_le_mul_of_nonneg_left hdη hΛ0
          linarith only [this, hzη]) (by positivity)
        (by
          have j1 := mul_le_mul_of_nonneg_left hf hm
          have j2 : 0 ≤ Λ * ‖(s.u, s.v) - (x 0 s.time, x 1 s.time)‖ := by positivity
          linarith only [j1, j2, hmf])
        (by
          have j1 := mul_le_mul_of_nonneg_left g4 hm
          have j3 := ht.mass (w - x 2 (s.time + dt))
          refine (j3.trans j1).trans (le_add_of_nonneg_left ?_)
          positivity)
      refine g5.trans ?_
      have j1 := mul_le_mul_of_nonneg_right hΛ (by positivity : 0 ≤ dt * B)
      have j2 : Real.exp (2 * Λ * dt) * E ≤ Real.exp (2 * Λ * dt) * B := mul_le_mul_of_nonneg_left hE (Real.exp_pos _).le
      have j3 : (1 + 6 * Λ * dt) ≤ Real.exp (6 * Λ * dt) := by linarith only [Real.add_one_le_exp (6 * Λ * dt)]
      have j4 : Real.exp (8 * Λ * dt) = Real.exp (2 * Λ * dt) * Real.exp (6 * Λ * dt) := by rw [← Real.exp_add]; ring_nf
      have j5 : 1 ≤ Real.exp (2 * Λ * dt) := Real.one_le_exp (by positivity)
      have j6 : (Real.exp (2 * Λ * dt) + 6 * Λ * dt) * B ≤ Real.exp (8 * Λ * dt) * B := by
        refine mul_le_mul_of_nonneg_right ?_ hB0
        rw [j4]
        have k1 := mul_le_mul_of_nonneg_left j3 (Real.exp_pos (2 * Λ * dt)).le
        have k2 := mul_le_mul_of_nonneg_right j5 (by positivity : 0 ≤ 6 * Λ * dt)
        linarith only [k1, k2]
      have j7 : Y * (dt ^ 3 / 12) ≤ Y / 12 * (dt * h ^ 2) := by
        have : dt ^ 2 ≤ h ^ 2 := pow_le_pow_left₀ hd0.le hd1 2
        calc Y * (dt ^ 3 / 12) = Y / 12 * (dt * dt ^ 2) := by ring
          _ ≤ _ := by gcongr
      have e1 : 2 * (dt * (m * (3 * (W * B) + 2 * (G * h ^ 2))) + Y * (dt ^ 3 / 12)) =
        6 * (m * W * (dt * B)) + 4 * m * G * (dt * h ^ 2) + 2 * (Y * (dt ^ 3 / 12)) := by ring
      have e2 : K * (dt * h ^ 2) = 4 * m * G * (dt * h ^ 2) + 2 * (Y / 12 * (dt * h ^ 2)) := by rw [hKG]; ring
      have e4 : (Real.exp (2 * Λ * dt) + 6 * Λ * dt) * B = Real.exp (2 * Λ * dt) * B + 6 * (Λ * (dt * B)) := by ring
      linarith only [j1, j2, j6, j7, e1, e2, e4]
    · dsimp only
      have := mul_le_mul_of_nonneg_left hBexp hW0
      linarith only [g4, this]) _ (norm_nonneg _) s ⟨le_rfl, by
      have hE : ‖(s.u, s.v) - (x 0 s.time, x 1 s.time)‖ ≤ ρ := by
        refine le_trans ?_ hρ
        have j1 : 0 ≤ K * l.sum * h ^ 2 := by positivity
        have j2 := norm_nonneg ((s.u, s.v) - (x 0 s.time, x 1 s.time))
        nlinarith only [j1, j2, hexp]
      have := (inertia_le hx ht hmem s
        (((norm_fst_le ((s.u, s.v) - (x 0 s.time, x 1 s.time))).trans hE).trans hρr)).1
      have e0 : residue M C R s.time s = 0 := by rw [residue, ← hs]; abel
      rw [e0, norm_zero, add_zero, ← hW] at this
      have j1 : 0 ≤ W * ‖(s.u, s.v) - (x 0 s.time, x 1 s.time)‖ := by positivity
      have j2 : 0 ≤ G * h ^ 2 := by positivity
      linarith only [this, j1, j2]⟩ ha (by linarith) hρ
  rw [r1] at r2 r3
  refine ⟨r1, r2, (ht.mass _).trans (mul_le_mul_of_nonneg_left r3 hm), fun st hst => ?_⟩
  obtain ⟨st', w1, w2⟩ := r4 st hst
  rw [w1, w2]

end

end GsSA.Dynamic
