import Verif.Dynamic.ConvergeNewtonProps

/-!
# Convergence of the nonlinear implicit Euler method (C138)

First order, although the iterations after the first one look at the residual of the old time.
-/

set_option linter.unusedSectionVars false

namespace GsSA.Dynamic

open GsSA GsSA.Static Set
open GsSA.ALM (Act Err)

variable {V : Type} [NormedAddCommGroup V] [NormedSpace ℝ V]

/-- The solver for the block systems of implicit Euler is exact for all of them without kernel. -/
def ExactBlocks (e : Env ℝ V) : Prop :=
  ∀ (dt : ℝ) (S D : V →ₗ[ℝ] V), (∀ w, (D + (dt * dt) • S) w = 0 → w = 0) → BlockSolves e dt S D

variable {e : Env ℝ V} {o : Opts ℝ} {M C : V →ₗ[ℝ] V} {R : ℝ → V → V} {J : ℝ → V → V →ₗ[ℝ] V} {t dt : ℝ}

/-- One iteration of implicit Euler. -/
theorem implicitEulerLoop_callbacks (hcb : Callbacks e M C R J) (hz : ¬ o.zeroInterval) (P : (V →ₗ[ℝ] V) → Prop)
    (u0 v0 : V) (res0 : ℝ) (n it : ℕ) (C' S' : V →ₗ[ℝ] V) (h : it = 0 ∨ C' = C ∧ P S') (Rv : V) (s : DSt ℝ V)
    (hP : P (J (t + dt) s.u)) :
    ∃ (S : V →ₗ[ℝ] V) (k : ℕ) (lg : List (Call ℝ V × Bool)), P S ∧
      let r1 := s.u - u0 - dt • s.v
      let r2 := M (s.v - v0) + dt • C s.v + dt • (-Rv)
      let d := e.gmres k LinearMap.id (-(dt • LinearMap.id)) (dt • S) (M + dt • C) (-r1) (-r2)
      let s' : DSt ℝ V := { s with u := s.u + d.1, v := s.v + d.2, log := lg }
      implicitEulerLoop e o t dt u0 v0 M res0 (n + 1) it C' S' Rv s =
        if updNorm (e.norm2 d.1 d.2) (e.norm2 s'.u s'.v) < o.tolU ∧
          e.norm2 r1 r2 / res0 < o.tolF then (s', .ok .success)
        else implicitEulerLoop e o t dt u0 v0 M res0 n (it + 1) C S (R t s'.u) s' := by
  obtain ⟨b, hb1, hb2⟩ := refresh_callbacks hz it s h
  obtain ⟨lg, S, hS, hr⟩ := renew_callbacks hcb P (t + dt) b C' S' s hb2 hP
  refine ⟨S, lg.length, (.residual (s.u + (e.gmres lg.length LinearMap.id (-(dt • LinearMap.id)) (dt • S)
    (M + dt • C) (-(s.u - u0 - dt • s.v)) (-(M (s.v - v0) + dt • C s.v + dt • (-Rv)))).1) t, true) :: lg, hS, ?_⟩
  simp only [implicitEulerLoop]
  rw [Act.bind_ok hb1, Act.bind_ok hr]
  simp only [gmresSolve, setUV, computeResidual, call, Act.bind_apply, Act.get_apply, Act.modify_apply,
    Act.pure_apply, hcb.residual]
  split <;> rfl

/-- The bounds of a structure near a motion for implicit Euler. -/
structure EulerBounds (M C : V →ₗ[ℝ] V) (R : ℝ → V → V) (J : ℝ → V → V →ₗ[ℝ] V) (x : ℕ → ℝ → V)
    (a b r m c L k P P₃ X Y ρ : ℝ) : Prop where
  motion : Motion M C R x 3 a b
  moderate : Moderate M C R J (x 0) a b r m c L k
  inertia : ∀ t ∈ Icc a b, ‖M (x 2 t)‖ ≤ P
  jerk : ∀ t ∈ Icc a b, ∀ t' ∈ Icc a b, ‖M (x 2 t) - M (x 2 t')‖ ≤ P₃ * |t - t'|
  third : ∀ t ∈ Icc a b, ‖x 3 t‖ ≤ Y
  jerk_nonneg : 0 ≤ P₃
  speed : ∀ t ∈ Icc a b, ‖x 1 t‖ ≤ X
  radius : 0 ≤ ρ

/-- The force on a structure at the distance `ρ` from the motion. -/
noncomputable def eulerForce (c L k P X ρ : ℝ) : ℝ := 2 * P + (L + c) * ρ + (L + k) * (ρ + X)

/-- The error of the force per length of the step. -/
noncomputable def eulerSlope (m c L k P P₃ X ρ : ℝ) : ℝ :=
  let Q := 4 * m * eulerForce c L k P X ρ
  L * (Q + ρ + X) + P₃ + c * (Q + m * P) + k * (2 * Q + ρ + X)

/-- What holds for the velocities after each iteration: they are near those at the start and nearer to the right ones. -/
def Good (x : ℕ → ℝ → V) (m c L k P P₃ X ρ t dt E : ℝ) (v0 v : V) : Prop :=
  ‖v - v0‖ ≤ 4 * m * eulerForce c L k P X ρ * dt ∧
  ‖v - v0 - dt • x 2 t‖ ≤ m * dt * ((L + c) * E + dt * eulerSlope m c L k P P₃ X ρ)

variable {x : ℕ → ℝ → V} {a b r m c L k P P₃ X Y ρ : ℝ}

/-- Growth on an interval. -/
theorem motion_sub_le {y : ℕ → ℝ → V} (hy : Smooth y 1 a b) {B : ℝ} (hB : ∀ τ ∈ Icc a b, ‖y 1 τ‖ ≤ B) (ha : a ≤ t)
    (hd : 0 ≤ dt) (hb : t + dt ≤ b) : ‖y 0 (t + dt) - y 0 t‖ ≤ B * dt := by
  have := taylor_le (gauge_norm (E := V)) 1 hy (c := B) hB ha hd hb
  simpa [taylor] using this

/-- One iteration makes good velocities, if it starts from the state at the beginning of the step with the residual of the
new time, or from good velocities with the residual of the old time. -/
theorem EulerBounds.good (hB : EulerBounds M C R J x a b r m c L k P P₃ X Y ρ) (ha : a ≤ t) (hd : 0 ≤ dt) (hd1 : dt ≤ 1)
    (hb : t + dt ≤ b) (h1 : m * dt * (c + k * dt) ≤ 1 / 2) (h2 : m * dt ^ 2 * (L + k) ≤ 1 / 4) {u0 v0 : V}
    (hE : ‖(u0, v0) - (x 0 t, x 1 t)‖ ≤ ρ)
    (hr : ρ + dt * (4 * m * eulerForce c L k P X ρ * dt + ρ + X) ≤ r) {S : V →ₗ[ℝ] V} (hS : ∀ w, ‖S w‖ ≤ k * ‖w‖)
    {τ : ℝ} {u v d₁ d₂ : V}
    (hc : τ = t + dt ∧ u = u0 ∨ τ = t ∧ u = u0 + dt • v ∧ ‖v - v0‖ ≤ 4 * m * eulerForce c L k P X ρ * dt)
    (e1 : d₁ - dt • d₂ = -(u - u0 - dt • v))
    (e2 : dt • S d₁ + (M + dt • C) d₂ = -(M (v - v0) + dt • C v + dt • (-R τ u))) :
    u + d₁ = u0 + dt • (v + d₂) ∧
      Good x m c L k P P₃ X ρ t dt ‖(u0, v0) - (x 0 t, x 1 t)‖ v0 (v + d₂) := by
  have ht := hB.moderate
  have hm := ht.mass_nonneg
  have hL := ht.lip_nonneg
  have hcn := ht.damp_nonneg
  have hk := ht.jac_nonneg
  have hρ := hB.radius
  have hmt : t ∈ Icc a b := ⟨ha, by linarith⟩
  have hP : 0 ≤ P := (norm_nonneg _).trans (hB.inertia t hmt)
  have hP₃ := hB.jerk_nonneg
  have hX : 0 ≤ X := (norm_nonneg _).trans (hB.speed t hmt)
  set E := ‖(u0, v0) - (x 0 t, x 1 t)‖ with hEd
  have hE0 : 0 ≤ E := norm_nonneg _
  have hu0 : ‖u0 - x 0 t‖ ≤ E := norm_fst_le ((u0, v0) - (x 0 t, x 1 t))
  have hv0 : ‖v0 - x 1 t‖ ≤ E := norm_snd_le ((u0, v0) - (x 0 t, x 1 t))
  set F := eulerForce c L k P X ρ with hF
  have hF0 : 0 ≤ F := by rw [hF, eulerForce]; positivity
  set Q := 4 * m * F with hQ
  have hQ0 : 0 ≤ Q := by positivity
  have hx2 : ∀ τ ∈ Icc a b, ‖x 2 τ‖ ≤ m * P := fun τ h =>
    (ht.mass _).trans (mul_le_mul_of_nonneg_left (hB.inertia τ h) hm)
  have hτ : τ ∈ Icc a b := by rcases hc with ⟨h, -⟩ | ⟨h, -⟩ <;> rw [h] <;> constructor <;> linarith
  -- the displacements
  have eu : u + d₁ = u0 + dt • (v + d₂) := by
    have : d₁ = dt • d₂ - (u - u0 - dt • v) := by rw [sub_eq_add_neg, ← e1]; abel
    rw [this, smul_add]; abel
  refine ⟨eu, ?_⟩
  set v' := v + d₂ with hv'
  have b1 : ‖u - x 0 τ‖ ≤ E + dt * (Q * dt + ρ + X) := by
    rcases hc with ⟨rfl, rfl⟩ | ⟨rfl, rfl, h3⟩
    · have g := motion_sub_le (hB.motion.smooth.mono (by omega)) hB.speed ha hd hb
      have : u - x 0 (t + dt) = (u - x 0 t) - (x 0 (t + dt) - x 0 t) := by abel
      rw [this]
      refine (norm_sub_le _ _).trans ((add_le_add hu0 g).trans ?_)
      have : 0 ≤ dt * (Q * dt + ρ) := by positivity
      linarith
    · have : u0 + dt • v - x 0 τ = (u0 - x 0 τ) + dt • ((v - v0) + (v0 - x 1 τ) + x 1 τ) := by module
      rw [this]
      refine (norm_add_le _ _).trans (add_le_add hu0 ?_)
      rw [norm_smul, Real.norm_of_nonneg hd]
      refine mul_le_mul_of_nonneg_left ((norm_add_le _ _).trans (add_le_add ((norm_add_le _ _).trans
        (add_le_add h3 (hv0.trans hE))) (hB.speed _ hmt))) hd
  have b2 : ‖d₁‖ ≤ dt * (‖v' - v0‖ + Q * dt + ρ + X) := by
    rcases hc with ⟨rfl, rfl⟩ | ⟨rfl, rfl, h3⟩
    · have : d₁ = dt • ((v' - v0) + (v0 - x 1 t) + x 1 t) := by
        rw [show (v' - v0) + (v0 - x 1 t) + x 1 t = v' by abel]
        exact add_left_cancel eu
      rw [this, norm_smul, Real.norm_of_nonneg hd]
      refine mul_le_mul_of_nonneg_left ((norm_add_le _ _).trans (add_le_add ((norm_add_le _ _).trans ?_)
        (hB.speed _ hmt))) hd
      have : 0 ≤ Q * dt := by positivity
      linarith [hv0.trans hE]
    · have : d₁ = dt • ((v' - v0) - (v - v0)) := by
        have h4 : d₁ = u0 + dt • v' - (u0 + dt • v) := by rw [← eu]; abel
        rw [h4]; module
      rw [this, norm_smul, Real.norm_of_nonneg hd]
      refine mul_le_mul_of_nonneg_left ((norm_sub_le _ _).trans ?_) hd
      linarith
  have b3 : ‖v' - x 1 τ‖ ≤ ‖v' - v0‖ + E + m * P * dt := by
    have g : ‖x 1 τ - x 1 t‖ ≤ m * P * dt := by
      rcases hc with ⟨rfl, -⟩ | ⟨rfl, -⟩
      · exact motion_sub_le (y := fun i => x (i + 1)) (hB.motion.smooth.tail.mono (by omega)) hx2 ha hd hb
      · rw [sub_self, norm_zero]; positivity
    have : v' - x 1 τ = (v' - v0) + (v0 - x 1 t) - (x 1 τ - x 1 t) := by abel
    rw [this]
    exact (norm_sub_le _ _).trans (add_le_add ((norm_add_le _ _).trans (add_le_add le_rfl hv0)) g)
  have b4 : ‖R τ u - R τ (x 0 τ)‖ ≤ L * (E + dt * (Q * dt + ρ + X)) := by
    refine (ht.lip τ hτ _ _ (b1.trans ?_) ?_).trans (mul_le_mul_of_nonneg_left b1 hL)
    · linarith
    · rw [sub_self, norm_zero]
      have : 0 ≤ dt * (Q * dt + ρ + X) := by positivity
      linarith
  have b5 : ‖M (x 2 τ) - M (x 2 t)‖ ≤ P₃ * dt := by
    refine (hB.jerk τ hτ t hmt).trans (mul_le_mul_of_nonneg_left ?_ hP₃)
    rcases hc with ⟨rfl, -⟩ | ⟨rfl, -⟩
    · rw [add_sub_cancel_left, abs_of_nonneg hd]
    · rwa [sub_self, abs_zero]
  -- the velocities
  have ev : M (v' - v0) = dt • ((R τ u - R τ (x 0 τ)) + M (x 2 τ) - C (v' - x 1 τ) - S d₁) := by
    have h3 := hB.motion.balance τ hτ
    have h4 : M (v' - v0) = (dt • S d₁ + (M + dt • C) d₂) + M (v - v0) - dt • S d₁ - dt • C d₂ := by
      simp only [hv', map_add, map_sub, LinearMap.add_apply, LinearMap.smul_apply]; abel
    rw [h4, e2, ← h3]
    simp only [hv', map_add, map_sub]
    module
  set N := ‖v' - v0‖ with hN
  have b6 : N ≤ m * (dt * (L * (E + dt * (Q * dt + ρ + X)) + P + c * (N + E + m * P * dt) +
      k * (dt * (N + Q * dt + ρ + X)))) := by
    refine (ht.mass _).trans (mul_le_mul_of_nonneg_left ?_ hm)
    rw [ev, norm_smul, Real.norm_of_nonneg hd]
    refine mul_le_mul_of_nonneg_left ((norm_sub_le _ _).trans (add_le_add ((norm_sub_le _ _).trans (add_le_add
      ((norm_add_le _ _).trans (add_le_add b4 (hB.inertia τ hτ))) ?_)) ?_)) hd
    · exact (ht.damp _).trans (mul_le_mul_of_nonneg_left b3 hcn)
    · exact (hS _).trans (mul_le_mul_of_nonneg_left b2 hk)
  have b7 : N ≤ Q * dt := by
    have hN0 : 0 ≤ N := norm_nonneg _
    have g1 : m * dt * (c + k * dt) * N ≤ 1 / 2 * N := mul_le_mul_of_nonneg_right h1 hN0
    have g2 : m * dt ^ 2 * (L + k) * (Q * dt) ≤ 1 / 4 * (Q * dt) := mul_le_mul_of_nonneg_right h2 (by positivity)
    have g3 : m * dt * (P + (L + c) * E + c * (m * P * dt) + (L + k) * (dt * (ρ + X))) ≤ m * dt * F := by
      refine mul_le_mul_of_nonneg_left ?_ (by positivity)
      have i1 : (L + c) * E ≤ (L + c) * ρ := by gcongr
      have i2 : c * (m * P * dt) ≤ P := by
        have : m * dt * c ≤ 1 := by
          have : 0 ≤ m * dt * (k * dt) := by positivity
          linarith
        have := mul_le_mul_of_nonneg_right this hP
        linarith
      have i3 : (L + k) * (dt * (ρ + X)) ≤ (L + k) * (1 * (ρ + X)) := by gcongr
      rw [hF, eulerForce]
      linarith
    have g4 : m * (dt * (L * (E + dt * (Q * dt + ρ + X)) + P + c * (N + E + m * P * dt) +
      k * (dt * (N + Q * dt + ρ + X)))) = m * dt * (P + (L + c) * E + c * (m * P * dt) + (L + k) * (dt * (ρ + X))) +
        m * dt * (c + k * dt) * N + m * dt ^ 2 * (L + k) * (Q * dt) := by ring
    have g5 : m * dt * F = Q * dt / 4 := by rw [hQ]; ring
    rw [g4] at b6
    linarith
  refine ⟨b7, ?_⟩
  have e3 : M (v' - v0 - dt • x 2 t) = dt • ((R τ u - R τ (x 0 τ)) + (M (x 2 τ) - M (x 2 t)) - C (v' - x 1 τ) - S d₁) := by
    rw [map_sub, ev, map_smul]; module
  have b8 : ‖M (v' - v0 - dt • x 2 t)‖ ≤ dt * (L * (E + dt * (Q * dt + ρ + X)) + P₃ * dt + c * (N + E + m * P * dt) +
      k * (dt * (N + Q * dt + ρ + X))) := by
    rw [e3, norm_smul, Real.norm_of_nonneg hd]
    refine mul_le_mul_of_nonneg_left ((norm_sub_le _ _).trans (add_le_add ((norm_sub_le _ _).trans (add_le_add
      ((norm_add_le _ _).trans (add_le_add b4 b5)) ?_)) ?_)) hd
    · exact (ht.damp _).trans (mul_le_mul_of_nonneg_left b3 hcn)
    · exact (hS _).trans (mul_le_mul_of_nonneg_left b2 hk)
  refine (ht.mass _).trans ?_
  rw [mul_assoc]
  refine mul_le_mul_of_nonneg_left (b8.trans (mul_le_mul_of_nonneg_left ?_ hd)) hm
  have i0 : Q * dt ≤ Q := by simpa using mul_le_mul_of_nonneg_left hd1 hQ0
  have i1 : L * (dt * (Q * dt + ρ + X)) ≤ L * (dt * (Q + ρ + X)) := by gcongr
  have i2 : c * N ≤ c * (Q * dt) := by gcongr
  have i3 : k * (dt * (N + Q * dt + ρ + X)) ≤ k * (dt * (Q + Q + ρ + X)) := by
    have := b7.trans i0
    gcongr
  simp only [eulerSlope, ← hF, ← hQ]
  nlinarith

/-- The iterations of implicit Euler after the first. -/
theorem EulerBounds.loop (hB : EulerBounds M C R J x a b r m c L k P P₃ X Y ρ) (hcb : Callbacks e M C R J)
    (hz : ¬ o.zeroInterval) (he : ExactBlocks e) (ha : a ≤ t) (hd : 0 ≤ dt) (hd1 : dt ≤ 1)
    (hb : t + dt ≤ b) (h1 : m * dt * (c + k * dt) ≤ 1 / 2) (h2 : m * dt ^ 2 * (L + k) ≤ 1 / 4) {u0 v0 : V}
    (hE : ‖(u0, v0) - (x 0 t, x 1 t)‖ ≤ ρ)
    (hr : ρ + dt * (4 * m * eulerForce c L k P X ρ * dt + ρ + X) + X * dt ≤ r) (res0 : ℝ) (n : ℕ) :
    ∀ (it : ℕ) (C' S' : V →ₗ[ℝ] V) (_ : it = 0 ∨ C' = C ∧ ∀ w, ‖S' w‖ ≤ k * ‖w‖) (s : DSt ℝ V) (τ : ℝ)
      (_ : n ≠ 0 ∧ τ = t + dt ∧ s.u = u0 ∨ τ = t ∧ s.u = u0 + dt • s.v ∧
        Good x m c L k P P₃ X ρ t dt ‖(u0, v0) - (x 0 t, x 1 t)‖ v0 s.v),
    ∃ v lg st, implicitEulerLoop e o t dt u0 v0 M res0 n it C' S' (R τ s.u) s =
        ({ s with u := u0 + dt • v, v := v, log := lg }, .ok st) ∧
      Good x m c L k P P₃ X ρ t dt ‖(u0, v0) - (x 0 t, x 1 t)‖ v0 v := by
  have ht := hB.moderate
  have hm := ht.mass_nonneg
  have hL := ht.lip_nonneg
  have hcn := ht.damp_nonneg
  have hk := ht.jac_nonneg
  have hρ := hB.radius
  have hmt : t ∈ Icc a b := ⟨ha, by linarith⟩
  have hmt' : t + dt ∈ Icc a b := ⟨by linarith, hb⟩
  have hX : 0 ≤ X := (norm_nonneg _).trans (hB.speed t hmt)
  have hP : 0 ≤ P := (norm_nonneg _).trans (hB.inertia t hmt)
  have hF0 : 0 ≤ eulerForce c L k P X ρ := by rw [eulerForce]; positivity
  have hQ0 : 0 ≤ 4 * m * eulerForce c L k P X ρ * dt := by positivity
  induction n with
  | zero =>
    intro it C' S' h s τ hs
    obtain ⟨-, h3, h4⟩ : τ = t ∧ s.u = u0 + dt • s.v ∧ _ := by simpa using hs
    refine ⟨s.v, s.log, .notConverged, ?_, h4⟩
    rw [← h3]
    rfl
  | succ n ih =>
    intro it C' S' h s τ hs
    have near : ‖s.u - x 0 (t + dt)‖ ≤ r := by
      have hu0 : ‖u0 - x 0 t‖ ≤ ρ := (norm_fst_le ((u0, v0) - (x 0 t, x 1 t))).trans hE
      have hv0 : ‖v0 - x 1 t‖ ≤ ρ := (norm_snd_le ((u0, v0) - (x 0 t, x 1 t))).trans hE
      have g := motion_sub_le (hB.motion.smooth.mono (by omega)) hB.speed ha hd hb
      have e1 : s.u - x 0 (t + dt) = (s.u - x 0 t) - (x 0 (t + dt) - x 0 t) := by abel
      have g2 : ‖s.u - x 0 t‖ ≤ ρ + dt * (4 * m * eulerForce c L k P X ρ * dt + ρ + X) := by
        rcases hs with ⟨-, -, h3⟩ | ⟨-, h3, h4⟩
        · have : 0 ≤ dt * (4 * m * eulerForce c L k P X ρ * dt + ρ + X) := by positivity
          rw [h3]; linarith
        · have : s.u - x 0 t = (u0 - x 0 t) + dt • ((s.v - v0) + (v0 - x 1 t) + x 1 t) := by rw [h3]; module
          rw [this]
          refine (norm_add_le _ _).trans (add_le_add hu0 ?_)
          rw [norm_smul, Real.norm_of_nonneg hd]
          exact mul_le_mul_of_nonneg_left ((norm_add_le _ _).trans (add_le_add ((norm_add_le _ _).trans
            (add_le_add h4.1 hv0)) (hB.speed _ hmt))) hd
      rw [e1]
      exact (norm_sub_le _ _).trans ((add_le_add g2 g).trans hr)
    obtain ⟨S, i, lg, hS, h3⟩ := implicitEulerLoop_callbacks (t := t) (dt := dt) hcb hz (fun S => ∀ w, ‖S w‖ ≤ k * ‖w‖)
      u0 v0 res0 n it C' S' h (R τ s.u) s (ht.jac _ hmt' _ near)
    obtain ⟨e1, e2⟩ := he dt S (M + dt • C) (fun w hw => by
      have g := ht.lower hS (ζ := dt) (β := dt * dt) hd (by positivity)
        ((le_of_eq (by ring)).trans h1) w
      rw [hw, norm_zero, mul_zero] at g
      exact norm_le_zero_iff.1 g) i (-(s.u - u0 - dt • s.v)) (-(M (s.v - v0) + dt • C s.v + dt • (-R τ s.u)))
    dsimp only at h3
    generalize e.gmres i LinearMap.id (-(dt • LinearMap.id)) (dt • S) (M + dt • C) (-(s.u - u0 - dt • s.v))
      (-(M (s.v - v0) + dt • C s.v + dt • (-R τ s.u))) = d at h3 e1 e2
    obtain ⟨g1, g2⟩ := hB.good ha hd hd1 hb h1 h2 hE (by
        have : 0 ≤ X * dt := by positivity
        linarith) hS (hs.imp (fun h => ⟨h.2.1, h.2.2⟩) fun h => ⟨h.1, h.2.1, h.2.2.1⟩) e1 e2
    by_cases hc : updNorm (e.norm2 d.1 d.2) (e.norm2 (s.u + d.1) (s.v + d.2)) < o.tolU ∧
        e.norm2 (s.u - u0 - dt • s.v) (M (s.v - v0) + dt • C s.v + dt • (-R τ s.u)) / res0 < o.tolF
    · rw [if_pos hc] at h3
      exact ⟨s.v + d.2, lg, .success, by rw [h3, g1], g2⟩
    · rw [if_neg hc] at h3
      obtain ⟨v, lg', st, k1, k2⟩ := ih (it + 1) C S (.inr ⟨rfl, hS⟩)
        { s with u := s.u + d.1, v := s.v + d.2, log := lg } t (.inr ⟨rfl, g1, g2⟩)
      exact ⟨v, lg', st, h3.trans k1, k2⟩

/-- The constant of `C138` for implicit Euler. -/
noncomputable def eulerConst (m c L k P P₃ X Y ρ : ℝ) : ℝ :=
  m * eulerSlope m c L k P P₃ X ρ + Y / 2 + (4 * m * eulerForce c L k P X ρ + m * P / 2)

/-- **C138**: the nonlinear implicit Euler method converges with first order, on every structure that is known near the
motion, for all small steps. -/
theorem C138_euler_near (e : Env ℝ V) (o : Opts ℝ) (M C : V →ₗ[ℝ] V) (R : ℝ → V → V) (J : ℝ → V → V →ₗ[ℝ] V)
    (hcb : Callbacks e M C R J) (he : ExactBlocks e) (hz : ¬ o.zeroInterval) (hi : 1 ≤ o.maxIter) (x : ℕ → ℝ → V)
    (a b r m c L k P P₃ X Y ρ Λ : ℝ) (hB : EulerBounds M C R J x a b r m c L k P P₃ X Y ρ) (hΛ1 : 1 ≤ Λ)
    (hΛ : m * (L + c) ≤ Λ) (h : ℝ) (l : List ℝ) (hdt : ∀ dt ∈ l, 0 < dt ∧ dt ≤ h) (h0 : h ≤ 1)
    (h1 : m * h * (c + k * h) ≤ 1 / 2) (h2 : m * h ^ 2 * (L + k) ≤ 1 / 4) (s : DSt ℝ V) (ha : a ≤ s.time)
    (hb : s.time + l.sum ≤ b)
    (hρ : Real.exp (Λ * l.sum) * (‖(s.u, s.v) - (x 0 s.time, x 1 s.time)‖ +
      eulerConst m c L k P P₃ X Y ρ * l.sum * h) ≤ ρ)
    (hr : ρ + h * (4 * m * eulerForce c L k P X ρ * h + ρ + X) + X * h ≤ r) :
    let q := steps none (integrate .implicitEuler true e o) l s
    let T := s.time + l.sum
    (q.1.time = T ∧ ‖(q.1.u, q.1.v) - (x 0 T, x 1 T)‖ ≤ Real.exp (Λ * l.sum) *
      (‖(s.u, s.v) - (x 0 s.time, x 1 s.time)‖ + eulerConst m c L k P P₃ X Y ρ * l.sum * h)) ∧
    ∀ st ∈ q.2, ∃ st', st = some st' := by
  have hsum : 0 ≤ l.sum := List.sum_nonneg fun x hx => (hdt x hx).1.le
  have hmem : s.time ∈ Icc a b := ⟨ha, by linarith⟩
  have ht := hB.moderate
  have hm := ht.mass_nonneg
  have hL := ht.lip_nonneg
  have hcn := ht.damp_nonneg
  have hk := ht.jac_nonneg
  have hρ0 := hB.radius
  have hP₃ := hB.jerk_nonneg
  have hX : 0 ≤ X := (norm_nonneg _).trans (hB.speed _ hmem)
  have hY : 0 ≤ Y := (norm_nonneg _).trans (hB.third _ hmem)
  have hP : 0 ≤ P := (norm_nonneg _).trans (hB.inertia _ hmem)
  have hF0 : 0 ≤ eulerForce c L k P X ρ := by rw [eulerForce]; positivity
  have hG0 : 0 ≤ eulerSlope m c L k P P₃ X ρ := by simp only [eulerSlope]; positivity
  have hK0 : 0 ≤ eulerConst m c L k P P₃ X Y ρ := by rw [eulerConst]; positivity
  obtain ⟨n, hn⟩ : ∃ n, o.maxIter.toNat = n + 1 := ⟨o.maxIter.toNat - 1, by omega⟩
  have := accumulate_results (f := integrate .implicitEuler true e o) (y := pair x 0) (p := 1) (a := a) (b := b) (ρ := ρ)
    (Inv := fun _ => True) (Q := fun _ => True) (c := eulerConst m c L k P P₃ X Y ρ) (ℓ := Λ) (h := h) hK0
    (by linarith) l hdt ?_ s trivial ha hb (by rw [pow_one]; exact hρ)
  · simp only [pow_one, and_true] at this
    exact this
  · intro dt hd s _ ha hb hE
    obtain ⟨hd0, hd1⟩ := hdt dt hd
    have hh : 0 < h := hd0.trans_le hd1
    have hmt : s.time ∈ Icc a b := ⟨ha, by linarith⟩
    have e0 : implicitEulerN e o s.time dt s = implicitEulerLoop e o s.time dt s.u s.v M
        (nz (e.norm2 (-(dt • s.v)) (dt • C s.v + dt • (-R (s.time + dt) s.u)))) (n + 1) 0 C 0 (R (s.time + dt) s.u)
        { s with log := (.residual s.u (s.time + dt), true) :: (.damping s.u (s.time + dt), true) ::
          (.mass (s.time + dt), true) :: s.log } := by
      simp only [implicitEulerN, computeMass, computeDamping, computeResidual, call, Act.bind_apply,
        Act.get_apply, Act.modify_apply, Act.pure_apply, hcb.mass, hcb.damping, hcb.residual, hn]
    obtain ⟨v, lg, st, k1, k2, k3⟩ := hB.loop (o := o) hcb hz he ha hd0.le (hd1.trans h0) hb
      (le_trans (by gcongr) h1) (le_trans (by gcongr) h2) hE (le_trans (by gcongr) hr)
      (nz (e.norm2 (-(dt • s.v)) (dt • C s.v + dt • (-R (s.time + dt) s.u)))) (n + 1) 0 C 0 (.inl rfl)
      { s with log := (.residual s.u (s.time + dt), true) :: (.damping s.u (s.time + dt), true) ::
          (.mass (s.time + dt), true) :: s.log } (s.time + dt) (.inl ⟨by omega, rfl, rfl⟩)
    refine ⟨_, st, step_none _ _ _ _ _ (e0.trans k1), trivial, trivial, rfl, ?_⟩
    show ‖(s.u + dt • v, v) - (x 0 (s.time + dt), x 1 (s.time + dt))‖ ≤ _
    change _ ≤ Real.exp (Λ * dt) * ‖(s.u, s.v) - (x 0 s.time, x 1 s.time)‖ + _
    set E := ‖(s.u, s.v) - (x 0 s.time, x 1 s.time)‖ with hEd
    have hE0 : 0 ≤ E := norm_nonneg _
    have hu0 : ‖s.u - x 0 s.time‖ ≤ E := norm_fst_le ((s.u, s.v) - (x 0 s.time, x 1 s.time))
    have hv0 : ‖s.v - x 1 s.time‖ ≤ E := norm_snd_le ((s.u, s.v) - (x 0 s.time, x 1 s.time))
    have hx2 : ∀ τ ∈ Icc a b, ‖x 2 τ‖ ≤ m * P := fun τ h =>
      (ht.mass _).trans (mul_le_mul_of_nonneg_left (hB.inertia τ h) hm)
    have tu := taylor_le (gauge_norm (E := V)) 2 (hB.motion.smooth.mono (by omega)) (c := m * P) hx2 ha hd0.le hb
    have tv := taylor_le (gauge_norm (E := V)) 2 (y := fun i => x (i + 1)) hB.motion.smooth.tail (c := Y)
      (fun τ h => hB.third τ h) ha hd0.le hb
    simp only [taylor, Finset.sum_range_succ, Finset.range_zero, Finset.sum_empty, zero_add, pow_zero, pow_one,
      Nat.factorial, Nat.cast_one, div_one, one_smul, mul_one] at tu tv
    norm_num at tu tv
    set F := eulerForce c L k P X ρ
    set G := eulerSlope m c L k P P₃ X ρ
    have c1 : ‖s.u + dt • v - x 0 (s.time + dt)‖ ≤ E + dt * (E + 4 * m * F * dt) + m * P * (dt ^ 2 / 2) := by
      have : s.u + dt • v - x 0 (s.time + dt) = (s.u - x 0 s.time) + dt • ((s.v - x 1 s.time) + (v - s.v)) -
          (x 0 (s.time + dt) - (x 0 s.time + dt • x 1 s.time)) := by module
      rw [this]
      refine (norm_sub_le _ _).trans (add_le_add ((norm_add_le _ _).trans (add_le_add hu0 ?_)) tu)
      rw [norm_smul, Real.norm_of_nonneg hd0.le]
      exact mul_le_mul_of_nonneg_left ((norm_add_le _ _).trans (add_le_add hv0 k2)) hd0.le
    have c2 : ‖v - x 1 (s.time + dt)‖ ≤ E + m * dt * ((L + c) * E + dt * G) + Y * (dt ^ 2 / 2) := by
      have : v - x 1 (s.time + dt) = (s.v - x 1 s.time) + (v - s.v - dt • x 2 s.time) -
          (x 1 (s.time + dt) - (x 1 s.time + dt • x 2 s.time)) := by abel
      rw [this]
      exact (norm_sub_le _ _).trans (add_le_add ((norm_add_le _ _).trans (add_le_add hv0 k3)) tv)
    have c3 : eulerConst m c L k P P₃ X Y ρ = m * G + Y / 2 + (4 * m * F + m * P / 2) := rfl
    have c4 : (1 + Λ * dt) * E ≤ Real.exp (Λ * dt) * E :=
      mul_le_mul_of_nonneg_right (by linarith [Real.add_one_le_exp (Λ * dt)]) hE0
    have c5 : eulerConst m c L k P P₃ X Y ρ * dt ^ 2 ≤ eulerConst m c L k P P₃ X Y ρ * (dt * h ^ 1) := by
      rw [pow_one, pow_two]
      gcongr
    have c6 : 0 ≤ m * G * dt ^ 2 := by positivity
    have c7 : 0 ≤ Y / 2 * dt ^ 2 := by positivity
    have c8 : 0 ≤ 4 * m * F * dt ^ 2 := by positivity
    have c9 : 0 ≤ m * P / 2 * dt ^ 2 := by positivity
    have c10 : dt * E ≤ Λ * (dt * E) := by
      have : 0 ≤ dt * E := by positivity
      nlinarith
    have c11 : m * (L + c) * (dt * E) ≤ Λ * (dt * E) := mul_le_mul_of_nonneg_right hΛ (by positivity)
    rw [Prod.norm_def]
    rw [c3] at c5 ⊢
    refine max_le (c1.trans ?_) (c2.trans ?_)
    · linarith
    · linarith

end GsSA.Dynamic
