import Verif.Dynamic.ConvergeNewtonProps

/-!
# The iteration of the nonlinear Bathe method (C139)

The second stage starts from the displacements of the first one, but with the residual of the displacements at the
beginning of the step.
-/

set_option linter.unusedSectionVars false

namespace GsSA.Dynamic

open GsSA GsSA.Static Set
open GsSA.ALM (Act Err)

variable {V : Type} [NormedAddCommGroup V] [NormedSpace ℝ V]

/-- The velocities of the second stage. -/
noncomputable def bathV (o : Opts ℝ) (dt : ℝ) (u0 us u : V) : V := c1 o dt • u0 + c2 o dt • us + c3 o dt • u

/-- The accelerations of the second stage. -/
noncomputable def bathA (o : Opts ℝ) (dt : ℝ) (u0 v0 us vs u : V) : V :=
  c1 o dt • v0 + c2 o dt • vs + c3 o dt • bathV o dt u0 us u

theorem batheRhs_bath (o : Opts ℝ) (dt : ℝ) (M C : V →ₗ[ℝ] V) (u0 v0 us vs g u : V) :
    batheRhs o dt M C u0 v0 us vs g u = g - C (bathV o dt u0 us u) - M (bathA o dt u0 v0 us vs u) := by
  have : bathA o dt u0 v0 us vs u = c1 o dt • v0 + c2 o dt • vs + (c1 o dt * c3 o dt) • u0 + (c3 o dt * c2 o dt) • us
      + (c3 o dt * c3 o dt) • u := by
    simp only [bathA, bathV]; module
  rw [this, batheRhs]
  simp only [bathV]
  abel

section

variable {e : Env ℝ V} {o : Opts ℝ} {M C : V →ₗ[ℝ] V} {R : ℝ → V → V} {J : ℝ → V → V →ₗ[ℝ] V} {t dt : ℝ}

/-- One iteration of Bathe. -/
theorem batheLoop_callbacks (hcb : Callbacks e M C R J) (hz : ¬ o.zeroInterval) (P : (V →ₗ[ℝ] V) → Prop)
    (u0 v0 us vs : V) (res0 : ℝ) (n it : ℕ) (C' S' : V →ₗ[ℝ] V) (h : it = 0 ∨ C' = C ∧ P S') (rhs : V) (s : DSt ℝ V)
    (hP : P (J (t + dt) s.u)) :
    ∃ (S : V →ₗ[ℝ] V) (k : ℕ) (lg : List (Call ℝ V × Bool)), P S ∧
      let d := e.solve k (S + (c3 o dt * c3 o dt) • M + c3 o dt • C) rhs
      let u' := s.u + d
      let rhs' := batheRhs o dt M C u0 v0 us vs (R (t + dt) u') u'
      batheLoop e o t dt M u0 v0 us vs res0 (n + 1) it C' S' rhs s =
        if quotLt (e.norm d) (e.norm u') o.tolU = true ∧ e.norm rhs' / res0 < o.tolF then
          ({ s with u := u', v := bathV o dt u0 us u', a := bathA o dt u0 v0 us vs u', log := lg }, .ok .success)
        else batheLoop e o t dt M u0 v0 us vs res0 n (it + 1) C S rhs' { s with u := u', log := lg } := by
  obtain ⟨b, hb1, hb2⟩ := refresh_callbacks hz it s h
  obtain ⟨lg, S, hS, hr⟩ := renew_callbacks hcb P (t + dt) b C' S' s hb2 hP
  refine ⟨S, lg.length, (.residual (s.u +
    e.solve lg.length (S + (c3 o dt * c3 o dt) • M + c3 o dt • C) rhs) (t + dt), true) :: lg, hS, ?_⟩
  simp only [batheLoop]
  rw [Act.bind_ok hb1, Act.bind_ok hr]
  simp only [linSolve, computeResidual, call, Act.bind_apply, Act.get_apply, Act.modify_apply,
    Act.pure_apply, hcb.residual]
  split <;> rfl

variable {x : ℝ → V} {a b r m c L k : ℝ}

theorem c1_half (hγ : o.gamma = 1 / 2) (hd : 0 < dt) : c1 o dt = 1 / dt := by
  rw [c1, hγ]; field_simp; norm_num

theorem c2_half (hγ : o.gamma = 1 / 2) (hd : 0 < dt) : c2 o dt = -(4 / dt) := by
  rw [c2, hγ]; field_simp; norm_num

theorem c3_half (hγ : o.gamma = 1 / 2) (hd : 0 < dt) : c3 o dt = 3 / dt := by
  rw [c3, hγ]; field_simp; norm_num

/-- The displacements from the velocities. -/
theorem bathV_half (hγ : o.gamma = 1 / 2) (hd : 0 < dt) (u0 us u : V) :
    u = (dt / 3) • bathV o dt u0 us u - (1 / 3 : ℝ) • u0 + (4 / 3 : ℝ) • us := by
  rw [bathV, c1_half hγ hd, c2_half hγ hd, c3_half hγ hd]
  simp only [smul_add, smul_smul]
  rw [show dt / 3 * (1 / dt) = 1 / 3 by field_simp, show dt / 3 * -(4 / dt) = -(4 / 3) by field_simp,
    show dt / 3 * (3 / dt) = 1 by field_simp]
  module

/-- The velocities from the accelerations. -/
theorem bathA_half (hγ : o.gamma = 1 / 2) (hd : 0 < dt) (u0 v0 us vs u : V) :
    bathV o dt u0 us u = (dt / 3) • bathA o dt u0 v0 us vs u - (1 / 3 : ℝ) • v0 + (4 / 3 : ℝ) • vs := by
  rw [bathA, c1_half hγ hd, c2_half hγ hd, c3_half hγ hd]
  simp only [smul_add, smul_smul]
  rw [show dt / 3 * (1 / dt) = 1 / 3 by field_simp, show dt / 3 * -(4 / dt) = -(4 / 3) by field_simp,
    show dt / 3 * (3 / dt) = 1 by field_simp]
  module

/-- The equation of the correction: the new state solves the equation of motion with the old residual up to the linear
change of the forces. -/
theorem bathe_correct (ht : Moderate M C R J x a b r m c L k) (he : ExactSolver e) (hγ : o.gamma = 1 / 2) (hd : 0 < dt)
    {S : V →ₗ[ℝ] V} (hS : ∀ w, ‖S w‖ ≤ k * ‖w‖) (hA : m * (dt / 3 * c + dt ^ 2 / 9 * k) ≤ 1 / 2) (n : ℕ)
    (u0 v0 us vs g u : V) :
    let d := e.solve n (S + (c3 o dt * c3 o dt) • M + c3 o dt • C) (batheRhs o dt M C u0 v0 us vs g u)
    batheRhs o dt M C u0 v0 us vs g (u + d) = S d ∧
      ‖d‖ ≤ 2 * m * (dt ^ 2 / 9) * ‖batheRhs o dt M C u0 v0 us vs g u‖ := by
  intro d
  have e3 := c3_half hγ hd
  have key : ∀ w, (dt ^ 2 / 9) • (S + (c3 o dt * c3 o dt) • M + c3 o dt • C) w =
      (M + (dt / 3) • C + (dt ^ 2 / 9) • S) w := by
    intro w
    rw [e3]
    simp only [LinearMap.add_apply, LinearMap.smul_apply, smul_add, smul_smul]
    rw [show dt ^ 2 / 9 * (3 / dt * (3 / dt)) = 1 by field_simp; norm_num,
      show dt ^ 2 / 9 * (3 / dt) = dt / 3 by field_simp; norm_num]
    module
  have low : ∀ w, ‖w‖ ≤ 2 * m * (dt ^ 2 / 9) * ‖(S + (c3 o dt * c3 o dt) • M + c3 o dt • C) w‖ := by
    intro w
    have h1 := ht.lower hS (ζ := dt / 3) (β := dt ^ 2 / 9) (by positivity) (by positivity) hA w
    rw [← key, norm_smul, Real.norm_of_nonneg (by positivity)] at h1
    linarith
  have hdd : (S + (c3 o dt * c3 o dt) • M + c3 o dt • C) d = batheRhs o dt M C u0 v0 us vs g u :=
    he _ (fun w hw => by
      have := low w
      rw [hw, norm_zero, mul_zero] at this
      exact norm_le_zero_iff.1 this) n _
  refine ⟨?_, by rw [← hdd]; exact low d⟩
  have h2 : batheRhs o dt M C u0 v0 us vs g (u + d) =
      batheRhs o dt M C u0 v0 us vs g u - ((c3 o dt * c3 o dt) • M d + c3 o dt • C d) := by
    simp only [batheRhs, map_add, map_smul, smul_add]
    abel
  rw [h2, ← hdd]
  simp only [LinearMap.add_apply, LinearMap.smul_apply]
  abel

end

section

variable {e : Env ℝ V} {o : Opts ℝ} {M C : V →ₗ[ℝ] V} {R : ℝ → V → V} {J : ℝ → V → V →ₗ[ℝ] V} {t dt : ℝ}
variable {x : ℕ → ℝ → V} {a b r m c L k : ℝ}

/-- The defect of a motion in the second stage. -/
theorem bdf_le {Y : ℝ} (hx : Smooth x 4 a b) (hY : ∀ t ∈ Icc a b, ‖(x 3 t, x 4 t)‖ ≤ Y) (h0 : 0 ≤ dt)
    (ha : a ≤ t) (hb : t + dt ≤ b) :
    ‖pair x 0 (t + dt) - (4 / 3 : ℝ) • pair x 0 (t + dt / 2) + (1 / 3 : ℝ) • pair x 0 t -
      (dt / 3) • pair x 1 (t + dt)‖ ≤ 13 / 36 * Y * dt ^ 3 := by
  have hp := hx.pair (p := 3)
  have b1 := taylor_le (gauge_norm (E := V × V)) 3 hp (c := Y) hY ha h0 hb
  have b2 := taylor_le (gauge_norm (E := V × V)) 3 hp (c := Y) hY ha (by linarith : 0 ≤ dt / 2) (by linarith)
  have b3 := taylor_le (gauge_norm (E := V × V)) 2 hp.tail (c := Y) hY ha h0 hb
  have e1 : pair x 0 (t + dt) - (4 / 3 : ℝ) • pair x 0 (t + dt / 2) + (1 / 3 : ℝ) • pair x 0 t -
      (dt / 3) • pair x 1 (t + dt) =
      (pair x 0 (t + dt) - taylor (pair x) 3 t dt) - (4 / 3 : ℝ) • (pair x 0 (t + dt / 2) - taylor (pair x) 3 t (dt / 2)) -
        (dt / 3) • (pair x (0 + 1) (t + dt) - taylor (fun i => pair x (i + 1)) 2 t dt) := by
    simp only [taylor, Finset.sum_range_succ, Finset.sum_range_zero, Nat.factorial]
    push_cast
    module
  rw [e1]
  refine (norm_sub_le _ _).trans ((add_le_add (norm_sub_le _ _) le_rfl).trans ?_)
  rw [norm_smul, norm_smul, Real.norm_of_nonneg (by norm_num : (0 : ℝ) ≤ 4 / 3),
    Real.norm_of_nonneg (by linarith : 0 ≤ dt / 3)]
  simp only [Nat.factorial] at b1 b2 b3
  push_cast at b1 b2 b3
  have d3 := mul_le_mul_of_nonneg_left b3 (by linarith : 0 ≤ dt / 3)
  refine (add_le_add (add_le_add b1 (mul_le_mul_of_nonneg_left b2 (by norm_num))) d3).trans (le_of_eq ?_)
  ring

/-- The data of the second stage: the states at the beginning and in the middle of the step are near the motion. -/
structure Stage (x : ℕ → ℝ → V) (t dt X σ B : ℝ) (u0 v0 us vs : V) : Prop where
  start : ‖(u0, v0) - (x 0 t, x 1 t)‖ ≤ σ
  middle : ‖(us, vs) - (x 0 (t + dt / 2), x 1 (t + dt / 2))‖ ≤ σ
  first : us - u0 = (dt / 4) • (v0 + vs)
  old : ‖u0 - x 0 (t + dt)‖ ≤ B
  new : ‖us - x 0 (t + dt)‖ ≤ B
  speed : ‖v0‖ ≤ X + B ∧ ‖vs‖ ≤ X + B

/-- The errors of the second stage. -/
theorem bathe_errors {Y : ℝ} (hx : Smooth x 4 a b) (hY : ∀ t ∈ Icc a b, ‖(x 3 t, x 4 t)‖ ≤ Y)
    (hγ : o.gamma = 1 / 2) (hd : 0 < dt) (ha : a ≤ t) (hb : t + dt ≤ b) (u0 v0 us vs u : V) :
    ∃ δ : V × V, ‖δ‖ ≤ 13 / 36 * Y * dt ^ 3 ∧
      (u, bathV o dt u0 us u) - (x 0 (t + dt), x 1 (t + dt)) =
        (dt / 3) • ((bathV o dt u0 us u, bathA o dt u0 v0 us vs u) - (x 1 (t + dt), x 2 (t + dt))) +
        (4 / 3 : ℝ) • ((us, vs) - (x 0 (t + dt / 2), x 1 (t + dt / 2))) -
        (1 / 3 : ℝ) • ((u0, v0) - (x 0 t, x 1 t)) - δ := by
  refine ⟨_, bdf_le hx hY hd.le ha hb, ?_⟩
  have h1 := bathV_half hγ hd u0 us u
  have h2 := bathA_half hγ hd u0 v0 us vs u
  generalize bathA o dt u0 v0 us vs u = A at *
  generalize bathV o dt u0 us u = W at *
  refine Prod.ext ?_ ?_
  · simp only [pair, Prod.fst_sub, Prod.fst_add, Prod.smul_fst]
    conv_lhs => rw [h1]
    module
  · simp only [pair, Prod.snd_sub, Prod.snd_add, Prod.smul_snd]
    conv_lhs => rw [h2]
    module

/-- An iteration stays near the motion, with the residual of any displacements near it. -/
theorem bathe_stay {Y X σ B : ℝ} (hx : Motion M C R x 4 a b) (ht : Moderate M C R J (x 0) a b r m c L k)
    (hY : ∀ t ∈ Icc a b, ‖(x 3 t, x 4 t)‖ ≤ Y) (hγ : o.gamma = 1 / 2) (hd : 0 < dt) (hd1 : dt ≤ 1) (ha : a ≤ t)
    (hb : t + dt ≤ b) (hm : m * (L + k + c) * dt ≤ 1 / 4) (hB : 4 * (σ + Y * dt ^ 3) ≤ B) (hr : B ≤ r)
    {u0 v0 us vs : V} (hs : Stage x t dt X σ B u0 v0 us vs) {S : V →ₗ[ℝ] V} (hS : ∀ w, ‖S w‖ ≤ k * ‖w‖) {z u d : V}
    (hz : ‖z - x 0 (t + dt)‖ ≤ B) (hu : ‖u - x 0 (t + dt)‖ ≤ B)
    (heq : batheRhs o dt M C u0 v0 us vs (R (t + dt) z) (u + d) = S d) :
    ‖u + d - x 0 (t + dt)‖ ≤ B ∧ ‖bathV o dt u0 us (u + d) - x 1 (t + dt)‖ ≤ B := by
  have hτ : t + dt ∈ Icc a b := ⟨by linarith, hb⟩
  have hmn := ht.mass_nonneg
  have hLn := ht.lip_nonneg
  have hcn := ht.damp_nonneg
  have hkn := ht.jac_nonneg
  have hY0 : 0 ≤ Y := (norm_nonneg _).trans (hY _ hτ)
  have hσ0 : 0 ≤ σ := (norm_nonneg _).trans hs.start
  have hB0 : 0 ≤ B := (norm_nonneg _).trans hu
  obtain ⟨δ, hδ, he⟩ := bathe_errors hx.smooth hY hγ hd ha hb u0 v0 us vs (u + d)
  rw [batheRhs_bath] at heq
  set W := bathV o dt u0 us (u + d) with hW
  set A := bathA o dt u0 v0 us vs (u + d) with hA
  -- the accelerations
  have e1 : M (A - x 2 (t + dt)) = (R (t + dt) z - R (t + dt) (x 0 (t + dt))) - S d - C (W - x 1 (t + dt)) := by
    have := hx.balance _ hτ
    rw [map_sub, map_sub, ← heq, ← this]
    abel
  have h0 : ‖x 0 (t + dt) - x 0 (t + dt)‖ ≤ r := by rw [sub_self, norm_zero]; linarith
  have n1 : ‖R (t + dt) z - R (t + dt) (x 0 (t + dt))‖ ≤ L * B :=
    (ht.lip _ hτ _ _ (hz.trans hr) h0).trans (mul_le_mul_of_nonneg_left hz hLn)
  set nu := ‖u + d - x 0 (t + dt)‖ with hnu
  set nv := ‖W - x 1 (t + dt)‖ with hnv
  have nu0 : 0 ≤ nu := norm_nonneg _
  have nv0 : 0 ≤ nv := norm_nonneg _
  have n2 : ‖S d‖ ≤ k * (nu + B) := by
    refine (hS d).trans (mul_le_mul_of_nonneg_left ?_ hkn)
    have : d = (u + d - x 0 (t + dt)) - (u - x 0 (t + dt)) := by abel
    rw [this]
    exact (norm_sub_le _ _).trans (add_le_add le_rfl hu)
  have n3 : ‖A - x 2 (t + dt)‖ ≤ m * (L * B + k * (nu + B) + c * nv) := by
    refine (ht.mass _).trans (mul_le_mul_of_nonneg_left ?_ hmn)
    rw [e1]
    exact (norm_sub_le _ _).trans (add_le_add ((norm_sub_le _ _).trans (add_le_add n1 n2)) (ht.damp _))
  -- the components
  have f1 := congrArg Prod.fst he
  have f2 := congrArg Prod.snd he
  simp only [Prod.fst_sub, Prod.fst_add, Prod.smul_fst, Prod.snd_sub, Prod.snd_add, Prod.smul_snd] at f1 f2
  have s1 := (norm_fst_le ((u0, v0) - (x 0 t, x 1 t))).trans hs.start
  have s2 := (norm_snd_le ((u0, v0) - (x 0 t, x 1 t))).trans hs.start
  have s3 := (norm_fst_le ((us, vs) - (x 0 (t + dt / 2), x 1 (t + dt / 2)))).trans hs.middle
  have s4 := (norm_snd_le ((us, vs) - (x 0 (t + dt / 2), x 1 (t + dt / 2)))).trans hs.middle
  simp only [Prod.fst_sub, Prod.snd_sub] at s1 s2 s3 s4
  have s5 := (norm_fst_le δ).trans hδ
  have s6 := (norm_snd_le δ).trans hδ
  have tri : ∀ {p q w y : V} {ε : ℝ}, ‖q‖ ≤ σ → ‖w‖ ≤ σ → ‖y‖ ≤ ε →
      ‖(dt / 3) • p + (4 / 3 : ℝ) • q - (1 / 3 : ℝ) • w - y‖ ≤ dt / 3 * ‖p‖ + 5 / 3 * σ + ε := by
    intro p q w y ε hq hw hy
    refine (norm_sub_le _ _).trans (add_le_add ((norm_sub_le _ _).trans ?_) hy)
    have i1 : ‖(dt / 3) • p + (4 / 3 : ℝ) • q‖ ≤ dt / 3 * ‖p‖ + 4 / 3 * σ := by
      refine (norm_add_le _ _).trans ?_
      rw [norm_smul, norm_smul, Real.norm_of_nonneg (by positivity), Real.norm_of_nonneg (by norm_num : (0 : ℝ) ≤ 4 / 3)]
      linarith
    have i2 : ‖(1 / 3 : ℝ) • w‖ ≤ 1 / 3 * σ := by
      rw [norm_smul, Real.norm_of_nonneg (by norm_num)]
      linarith
    linarith
  have hd3 : 0 ≤ Y * dt ^ 3 := by positivity
  have g1 : nu ≤ dt / 3 * nv + 5 / 3 * σ + 13 / 36 * Y * dt ^ 3 := by
    conv_lhs => rw [hnu, f1]
    exact tri s3 s1 s5
  have g2 : nv ≤ dt / 3 * (m * (L * B + k * (nu + B) + c * nv)) + 5 / 3 * σ + 13 / 36 * Y * dt ^ 3 := by
    have : nv ≤ dt / 3 * ‖A - x 2 (t + dt)‖ + 5 / 3 * σ + 13 / 36 * Y * dt ^ 3 := by
      conv_lhs => rw [hnv, f2]
      exact tri s4 s2 s6
    have := mul_le_mul_of_nonneg_left n3 (by positivity : 0 ≤ dt / 3)
    linarith
  -- solve for the bounds
  have hmL : 0 ≤ m * L * dt := by positivity
  have hmk : 0 ≤ m * k * dt := by positivity
  have hmc : 0 ≤ m * c * dt := by positivity
  have hsum : m * L * dt + m * k * dt + m * c * dt ≤ 1 / 4 := (le_of_eq (by ring)).trans hm
  set p := m * L * dt
  set q := m * k * dt
  set w := m * c * dt
  set N := max nu nv with hN
  have N1 : nu ≤ N := le_max_left _ _
  have N2 : nv ≤ N := le_max_right _ _
  have N0 : 0 ≤ N := nu0.trans N1
  have g3 : dt / 3 * (m * (L * B + k * (nu + B) + c * nv)) = ((p + q) * B + q * nu + w * nv) / 3 := by
    simp only [p, q, w]; ring
  have g4 : dt / 3 * nv ≤ 1 / 3 * nv := mul_le_mul_of_nonneg_right (by linarith) nv0
  have g5 : (p + q) * B ≤ 1 / 4 * B := mul_le_mul_of_nonneg_right (by linarith) hB0
  have g6 : q * nu + w * nv ≤ 1 / 4 * N := by
    have j1 := mul_le_mul_of_nonneg_left N1 hmk
    have j2 := mul_le_mul_of_nonneg_left N2 hmc
    have j3 := mul_le_mul_of_nonneg_right (show q + w ≤ 1 / 4 by linarith) N0
    linarith
  have g7 : 5 / 3 * σ + 13 / 36 * Y * dt ^ 3 ≤ 5 / 12 * B := by linarith
  rw [g3] at g2
  have g8 : nu ≤ 1 / 3 * N + 5 / 12 * B := by linarith only [g1, g4, N2, g7]
  have g9 : nv ≤ 1 / 3 * N + 1 / 2 * B := by linarith only [g2, g5, g6, g7, N0]
  have g10 : N ≤ 1 / 3 * N + 1 / 2 * B := max_le (by linarith) g9
  have g11 : N ≤ B := by linarith
  exact ⟨N1.trans g11, N2.trans g11⟩

/-- The iterations after the first one. -/
theorem batheLoop_near {Y X σ B : ℝ} (hcb : Callbacks e M C R J) (hz : ¬ o.zeroInterval) (he : ExactSolver e)
    (hx : Motion M C R x 4 a b) (ht : Moderate M C R J (x 0) a b r m c L k)
    (hY : ∀ t ∈ Icc a b, ‖(x 3 t, x 4 t)‖ ≤ Y) (hγ : o.gamma = 1 / 2) (hd : 0 < dt) (hd1 : dt ≤ 1) (ha : a ≤ t)
    (hb : t + dt ≤ b) (hm : m * (L + k + c) * dt ≤ 1 / 4) (hB : 4 * (σ + Y * dt ^ 3) ≤ B) (hr : B ≤ r)
    (hA : m * (dt / 3 * c + dt ^ 2 / 9 * k) ≤ 1 / 2) (hθ : 2 * m * (dt ^ 2 / 9) * (L + k) ≤ 1)
    {u0 v0 us vs : V} (hs : Stage x t dt X σ B u0 v0 us vs) (res0 : ℝ) (n : ℕ) :
    ∀ (it : ℕ) (C' S' : V →ₗ[ℝ] V) (_ : it = 0 ∨ C' = C ∧ ∀ w, ‖S' w‖ ≤ k * ‖w‖) (s : DSt ℝ V)
      (_ : ‖s.u - x 0 (t + dt)‖ ≤ B) (_ : ‖bathV o dt u0 us s.u - x 1 (t + dt)‖ ≤ B),
    ∃ u lg st,
      batheLoop e o t dt M u0 v0 us vs res0 n it C' S' (batheRhs o dt M C u0 v0 us vs (R (t + dt) s.u) s.u) s =
        ({ s with u := u, v := bathV o dt u0 us u, a := bathA o dt u0 v0 us vs u, log := lg }, .ok st) ∧
      ‖u - x 0 (t + dt)‖ ≤ B ∧ ‖bathV o dt u0 us u - x 1 (t + dt)‖ ≤ B ∧
      ‖batheRhs o dt M C u0 v0 us vs (R (t + dt) u) u‖ ≤
        (if n = 0 then 1 else 2 * m * (dt ^ 2 / 9) * (L + k)) *
          ‖batheRhs o dt M C u0 v0 us vs (R (t + dt) s.u) s.u‖ := by
  have hτ : t + dt ∈ Icc a b := ⟨by linarith, hb⟩
  have hLn := ht.lip_nonneg
  have hkn := ht.jac_nonneg
  induction n with
  | zero =>
    intro it C' S' h s h1 h2
    exact ⟨s.u, s.log, .notConverged, by simp [batheLoop, bathV, bathA, Act.bind_apply, Act.modify_apply, Act.pure_apply],
      h1, h2, by simp⟩
  | succ n ih =>
    intro it C' S' h s h1 h2
    obtain ⟨S, i, lg, hS, h3⟩ := batheLoop_callbacks (o := o) (t := t) (dt := dt) hcb hz (fun S => ∀ w, ‖S w‖ ≤ k * ‖w‖)
      u0 v0 us vs res0 n it C' S' h (batheRhs o dt M C u0 v0 us vs (R (t + dt) s.u) s.u) s
      (ht.jac _ hτ _ (h1.trans hr))
    obtain ⟨h4, h5⟩ := bathe_correct ht he hγ hd hS hA i u0 v0 us vs (R (t + dt) s.u) s.u
    dsimp only at h3
    generalize e.solve i (S + (c3 o dt * c3 o dt) • M + c3 o dt • C)
      (batheRhs o dt M C u0 v0 us vs (R (t + dt) s.u) s.u) = d at h3 h4 h5
    obtain ⟨h6, h7⟩ := bathe_stay hx ht hY hγ hd hd1 ha hb hm hB hr hs hS h1 h1 h4
    have h8 : ‖batheRhs o dt M C u0 v0 us vs (R (t + dt) (s.u + d)) (s.u + d)‖ ≤
        2 * m * (dt ^ 2 / 9) * (L + k) * ‖batheRhs o dt M C u0 v0 us vs (R (t + dt) s.u) s.u‖ := by
      have e1 : batheRhs o dt M C u0 v0 us vs (R (t + dt) (s.u + d)) (s.u + d) =
          (R (t + dt) (s.u + d) - R (t + dt) s.u) + S d := by
        rw [← h4]; simp only [batheRhs]; abel
      have l1 := ht.lip _ hτ _ _ (h6.trans hr) (h1.trans hr)
      rw [add_sub_cancel_left] at l1
      rw [e1]
      calc _ ≤ L * ‖d‖ + k * ‖d‖ := (norm_add_le _ _).trans (add_le_add l1 (hS d))
        _ = (L + k) * ‖d‖ := by ring
        _ ≤ (L + k) * (2 * m * (dt ^ 2 / 9) * ‖batheRhs o dt M C u0 v0 us vs (R (t + dt) s.u) s.u‖) :=
          mul_le_mul_of_nonneg_left h5 (add_nonneg hLn hkn)
        _ = _ := by ring
    rw [if_neg (Nat.succ_ne_zero n)]
    split at h3
    · exact ⟨s.u + d, lg, .success, h3, h6, h7, h8⟩
    · obtain ⟨u, lg', st, k1, k2, k3, k4⟩ := ih (it + 1) C S (.inr ⟨rfl, hS⟩) { s with u := s.u + d, log := lg } h6 h7
      refine ⟨u, lg', st, h3.trans k1, k2, k3, k4.trans ?_⟩
      split
      · rw [one_mul]; exact h8
      · refine (mul_le_mul_of_nonneg_right hθ (norm_nonneg _)).trans ?_
        rw [one_mul]; exact h8

/-- With a tolerance that no quotient of norms falls below, the loop is not left after an iteration. -/
theorem bathe_refuses (hn : ∀ w, 0 ≤ e.norm w) (htol : o.tolU ≤ 0 ∨ o.tolF ≤ 0) (d u g g0 : V) :
    ¬ (quotLt (e.norm d) (e.norm u) o.tolU = true ∧ e.norm g / nz (e.norm g0) < o.tolF) := by
  rintro ⟨h1, h2⟩
  rcases htol with h | h
  · unfold quotLt at h1
    split at h1
    · exact absurd (of_decide_eq_true h1) (not_lt.2 (hn d))
    · exact absurd (of_decide_eq_true h1) (not_lt.2 (h.trans (div_nonneg (hn d) (hn u))))
  · refine absurd h2 (not_lt.2 (h.trans (div_nonneg (hn g) ?_)))
    unfold nz
    split
    · exact zero_le_one
    · exact hn g0

/-- All iterations: the first one leaves a residual of the order of the step, because it looks at the residual of the
displacements at the beginning of the step; the next ones reduce it. -/
theorem batheLoop_first {Y X σ B : ℝ} (hcb : Callbacks e M C R J) (hz : ¬ o.zeroInterval) (he : ExactSolver e)
    (hx : Motion M C R x 4 a b) (ht : Moderate M C R J (x 0) a b r m c L k)
    (hY : ∀ t ∈ Icc a b, ‖(x 3 t, x 4 t)‖ ≤ Y) (hX : ∀ t ∈ Icc a b, ‖x 1 t‖ ≤ X) (hγ : o.gamma = 1 / 2) (hd : 0 < dt)
    (hd1 : dt ≤ 1) (ha : a ≤ t) (hb : t + dt ≤ b) (hm : m * (L + k + c) * dt ≤ 1 / 4)
    (hB : 4 * (σ + Y * dt ^ 3) ≤ B) (hr : B ≤ r) (hA : m * (dt / 3 * c + dt ^ 2 / 9 * k) ≤ 1 / 2)
    (hθ : 2 * m * (dt ^ 2 / 9) * (L + k) ≤ 1) {u0 v0 us vs : V} (hs : Stage x t dt X σ B u0 v0 us vs) (n : ℕ)
    (C' S' : V →ₗ[ℝ] V) (s : DSt ℝ V) (hsu : s.u = us) :
    ∃ u lg st,
      batheLoop e o t dt M u0 v0 us vs (nz (e.norm (batheRhs o dt M C u0 v0 us vs (R (t + dt) u0) us))) (n + 1) 0 C' S'
          (batheRhs o dt M C u0 v0 us vs (R (t + dt) u0) us) s =
        ({ s with u := u, v := bathV o dt u0 us u, a := bathA o dt u0 v0 us vs u, log := lg }, .ok st) ∧
      ‖u - x 0 (t + dt)‖ ≤ B ∧
      ‖batheRhs o dt M C u0 v0 us vs (R (t + dt) u) u‖ ≤ (L + k) * (dt * (X + B)) ∧
      (1 ≤ n → (∀ w, 0 ≤ e.norm w) → o.tolU ≤ 0 ∨ o.tolF ≤ 0 →
        ‖batheRhs o dt M C u0 v0 us vs (R (t + dt) u) u‖ ≤
          2 * m * (dt ^ 2 / 9) * (L + k) * ((L + k) * (dt * (X + B)))) := by
  have hτ : t + dt ∈ Icc a b := ⟨by linarith, hb⟩
  have hmn := ht.mass_nonneg
  have hLn := ht.lip_nonneg
  have hkn := ht.jac_nonneg
  have hθ0 : 0 ≤ 2 * m * (dt ^ 2 / 9) * (L + k) := by positivity
  have hB0 : 0 ≤ B := (norm_nonneg _).trans hs.old
  have hX0 : 0 ≤ X := (norm_nonneg _).trans (hX _ hτ)
  have h1 : ‖s.u - x 0 (t + dt)‖ ≤ B := by rw [hsu]; exact hs.new
  obtain ⟨S, i, lg, hS, h3⟩ := batheLoop_callbacks (o := o) (t := t) (dt := dt) hcb hz (fun S => ∀ w, ‖S w‖ ≤ k * ‖w‖)
    u0 v0 us vs (nz (e.norm (batheRhs o dt M C u0 v0 us vs (R (t + dt) u0) us))) n 0 C' S' (.inl rfl)
    (batheRhs o dt M C u0 v0 us vs (R (t + dt) u0) us) s (ht.jac _ hτ _ (h1.trans hr))
  obtain ⟨h4, -⟩ := bathe_correct ht he hγ hd hS hA i u0 v0 us vs (R (t + dt) u0) us
  dsimp only at h3
  rw [hsu] at h3
  generalize e.solve i (S + (c3 o dt * c3 o dt) • M + c3 o dt • C)
    (batheRhs o dt M C u0 v0 us vs (R (t + dt) u0) us) = d at h3 h4
  obtain ⟨h6, h7⟩ := bathe_stay hx ht hY hγ hd hd1 ha hb hm hB hr hs hS hs.old hs.new h4
  -- the changes of the displacements
  have w1 : ‖bathV o dt u0 us (us + d)‖ ≤ X + B := by
    have := norm_add_le (x 1 (t + dt)) (bathV o dt u0 us (us + d) - x 1 (t + dt))
    rw [add_sub_cancel] at this
    linarith [hX _ hτ]
  have w2 : ‖us - u0‖ ≤ dt * (X + B) / 2 := by
    rw [hs.first, norm_smul, Real.norm_of_nonneg (by positivity)]
    have := mul_le_mul_of_nonneg_left ((norm_add_le v0 vs).trans (add_le_add hs.speed.1 hs.speed.2))
      (by positivity : 0 ≤ dt / 4)
    linarith
  have w3 : ‖d‖ ≤ dt * (X + B) / 2 := by
    have e1 : d = (1 / 3 : ℝ) • (dt • bathV o dt u0 us (us + d) + (us - u0)) := by
      have := bathV_half hγ hd u0 us (us + d)
      have e2 : d = (us + d) - us := by abel
      generalize bathV o dt u0 us (us + d) = W at *
      rw [e2, this]
      module
    have e2 : ‖dt • bathV o dt u0 us (us + d) + (us - u0)‖ ≤ dt * (X + B) + dt * (X + B) / 2 := by
      refine (norm_add_le _ _).trans (add_le_add ?_ w2)
      rw [norm_smul, Real.norm_of_nonneg hd.le]
      exact mul_le_mul_of_nonneg_left w1 hd.le
    calc ‖d‖ = 1 / 3 * ‖dt • bathV o dt u0 us (us + d) + (us - u0)‖ := by
          conv_lhs => rw [e1, norm_smul, Real.norm_of_nonneg (by norm_num)]
      _ ≤ 1 / 3 * (dt * (X + B) + dt * (X + B) / 2) := mul_le_mul_of_nonneg_left e2 (by norm_num)
      _ = dt * (X + B) / 2 := by ring
  have w4 : ‖us + d - u0‖ ≤ dt * (X + B) := by
    rw [add_sub_right_comm]
    refine (norm_add_le _ _).trans ((add_le_add w2 w3).trans (le_of_eq (by ring)))
  have hW0 : 0 ≤ dt * (X + B) := by positivity
  have h8 : ‖batheRhs o dt M C u0 v0 us vs (R (t + dt) (us + d)) (us + d)‖ ≤ (L + k) * (dt * (X + B)) := by
    have e1 : batheRhs o dt M C u0 v0 us vs (R (t + dt) (us + d)) (us + d) =
        (R (t + dt) (us + d) - R (t + dt) u0) + S d := by
      rw [← h4]; simp only [batheRhs]; abel
    have l1 := ht.lip _ hτ _ _ (h6.trans hr) (hs.old.trans hr)
    rw [e1]
    calc _ ≤ L * ‖us + d - u0‖ + k * ‖d‖ := (norm_add_le _ _).trans (add_le_add l1 (hS d))
      _ ≤ L * (dt * (X + B)) + k * (dt * (X + B)) := by
        refine add_le_add (mul_le_mul_of_nonneg_left w4 hLn) (mul_le_mul_of_nonneg_left (w3.trans ?_) hkn)
        linarith
      _ = _ := by ring
  by_cases hc : quotLt (e.norm d) (e.norm (us + d)) o.tolU = true ∧
      e.norm (batheRhs o dt M C u0 v0 us vs (R (t + dt) (us + d)) (us + d)) /
        nz (e.norm (batheRhs o dt M C u0 v0 us vs (R (t + dt) u0) us)) < o.tolF
  · rw [if_pos hc] at h3
    exact ⟨us + d, lg, .success, h3, h6, h8, fun _ hn htol => absurd hc (bathe_refuses hn htol _ _ _ _)⟩
  · rw [if_neg hc] at h3
    obtain ⟨u, lg', st, k1, k2, k3, k4⟩ := batheLoop_near hcb hz he hx ht hY hγ hd hd1 ha hb hm hB hr hA hθ hs
      (nz (e.norm (batheRhs o dt M C u0 v0 us vs (R (t + dt) u0) us))) n (0 + 1) C S (.inr ⟨rfl, hS⟩)
      { s with u := us + d, log := lg } h6 h7
    refine ⟨u, lg', st, h3.trans k1, k2, k4.trans ?_, fun hn _ _ => k4.trans ?_⟩
    · refine le_trans (mul_le_mul_of_nonneg_right ?_ (norm_nonneg _)) ((one_mul _).le.trans h8)
      split
      · exact le_rfl
      · exact hθ
    · rw [if_neg (by omega)]
      exact mul_le_mul_of_nonneg_left h8 hθ0

end

end GsSA.Dynamic
