import Verif.ALM.CrisfieldNewton
import Verif.ALM.CrisfieldWalk
import Verif.ALM.NewtonDemo

/-!
# Examples for C135
-/

namespace GsSA.ALM.NewtonDemo

open GsSA GsSA.ALM.RealDemo

theorem spring_dot (x y : ℝ) : spring.geo.dot x y = x * y := by simp [spring, realGeo, mul_comm]

theorem spring_size (x : ℝ × ℝ) : size spring x = ‖x‖ := by
  rw [size, spring_norm, Prod.norm_def, Real.norm_eq_abs, Real.norm_eq_abs]

theorem spring_weight : loadWeight spring 1 = 1 := by
  rw [loadWeight, spring_dot]; norm_num [spring]

/-- The first predictor of Crisfield's method. -/
theorem begin_crisfield (len : ℝ) : ∃ p, beginStep spring (crisfield spring linOpts) (rest len 1) = (p, .ok ()) ∧
    p.DU = len / Real.sqrt 2 ∧ p.DL = len / Real.sqrt 2 ∧ p.phi = 1 ∧ p.DUold = 0 ∧ p.DLold = 0 := by
  rw [begin_eq (s1 := { rest len 1 with converged := false, numIt := 0, DU := 0, Ubar := 0, Ut := 0, DL := 0, dL := 0 })
    rfl rfl rfl]
  obtain ⟨m, f, l, h1, h2⟩ := Solvable.assemble (e := spring) (J := tangent)
    (s := { rest len 1 with converged := false, numIt := 0, DU := 0, Ubar := 0, Ut := 0, DL := 0, dL := 0 })
    (by norm_num [rest, linStart]; exact spring_solvable (by norm_num))
  obtain ⟨y, l', h3, h4⟩ := solve_ut (e := spring) (s := { rest len 1 with
    converged := false, numIt := 0, DU := 0, Ubar := 0, Ut := 0, DL := 0, dL := 0, jac := m, fac := some f, log := l })
    rfl h2
  have hy : y = 1 := by simpa [tangent_apply, rest, linStart, spring] using h4
  subst hy
  change ∃ p, crPredictor spring linOpts _ = _ ∧ _
  unfold crPredictor
  rw [Act.bind_ok h1, Act.bind_ok h3, Act.bind_ok (Act.get_apply _)]
  have h0 : spring.geo.dot (rest len 1).DUold (rest len 1).DUold = 0 ∧ (rest len 1).DLold * (rest len 1).DLold = 0 := by
    simp [spring_dot, rest]
  simp only [h0, and_self, if_true]
  unfold firstPredictor
  rw [Act.bind_ok (Act.modify_apply _ _), Act.bind_ok (Act.modify_apply _ _), Act.modify_apply]
  refine ⟨_, rfl, ?_⟩
  simp [linOpts, rest, spring_dot, tangentPhi]
  simp [spring, realGeo]

/-- The equilibrium is regular for Crisfield's method. -/
theorem regular_crisfield {len : ℝ} (hlen : len ^ 2 = 1 / 100 + 121 / 10000) :
    CrRegular spring (fun u l => u + u ^ 2 - l) tangent 1 len 0 0 (1 / 10, 11 / 100) 1 (1 / 100) 1 1 1 (19 / 100) where
  residual _ _ _ := rfl
  solvable x hx := spring_solvable (by rw [spring_size] at hx; have := near hx; nlinarith)
  inv x hx v := by
    rw [spring_size] at hx
    obtain ⟨h1, h2, -, -⟩ := near hx
    rw [spring_norm, spring_norm, tangent_apply, abs_mul, zero_add, abs_of_pos (by linarith : 0 < 1 + 2 * x.1)]
    have := abs_nonneg v
    nlinarith
  quad x hx := by
    rw [spring_size, spring_norm]
    have e1 : 0 + x.1 + (0 + x.1) ^ 2 - (0 + x.2) + (tangent (0 + x.1) ((1 / 10, 11 / 100) - x : ℝ × ℝ).1 -
        ((1 / 10, 11 / 100) - x : ℝ × ℝ).2 • spring.forcing) = -(x.1 - 1 / 10) ^ 2 := by
      simp only [tangent_apply, spring, smul_eq_mul, mul_one, Prod.fst_sub, Prod.snd_sub, zero_add]
      ring
    rw [e1, abs_neg, abs_of_nonneg (sq_nonneg _), one_mul, ← sq_abs (x.1 - 1 / 10)]
    exact pow_le_pow_left₀ (abs_nonneg _) (norm_fst_le (x - ((1 / 10 : ℝ), (11 / 100 : ℝ)))) 2
  length := by
    rw [crForm, spring_weight, spring_dot, hlen]; norm_num
  tangent x hx w hw := by
    rw [spring_size] at hx
    obtain ⟨h1, h2, -, -⟩ := near hx
    rw [tangent_apply, zero_add] at hw
    have hw1 : (1 + 2 * x.1) * w = 1 := hw
    rw [spring_norm, spring_weight, spring_dot]
    have hw0 : 0 < w := by
      by_contra hc
      rw [not_lt] at hc
      nlinarith
    refine ⟨?_, ?_⟩
    · rw [abs_of_pos hw0]; nlinarith
    · have : 4 / 5 ≤ w := by nlinarith
      norm_num
      linarith
  sign := .inl rfl
  step := by norm_num
  real := by
    rw [spring_weight, spring_norm, abs_of_pos (by norm_num)]; norm_num
  posb := zero_le_one
  posg := zero_le_one
  posW := zero_le_one
  posμ := by norm_num

/-- `C135_crisfield`. -/
example : ∃ len t, step spring linOpts (crisfield spring linOpts) (rest len 1) = (t, .ok .success) ∧ t.numIt ≤ 3 ∧
    |t.U - 1 / 10| ≤ 16 / 10000 := by
  set len := Real.sqrt (1 / 100 + 121 / 10000) with hl
  have hlen : len ^ 2 = 1 / 100 + 121 / 10000 := Real.sq_sqrt (by norm_num)
  have h0 : 0 ≤ len := Real.sqrt_nonneg _
  obtain ⟨p, p1, p2, p3, p4, p5, p6⟩ := begin_crisfield len
  have hq0 : 0 ≤ len / Real.sqrt 2 := by positivity
  have hq : (len / Real.sqrt 2) ^ 2 = 221 / 20000 := by
    rw [div_pow, hlen, Real.sq_sqrt (by norm_num)]; norm_num
  have hd : ‖(p.DU, p.DL) - ((1 / 10 : ℝ), (11 / 100 : ℝ))‖ ≤ 1 / 100 := by
    rw [p2, p3]
    simp only [Prod.norm_def, Real.norm_eq_abs, Prod.mk_sub_mk]
    refine max_le (abs_le.2 ⟨?_, ?_⟩) (abs_le.2 ⟨?_, ?_⟩) <;> nlinarith
  have hrate : crRate spring (1 / 10, 11 / 100) (1 / 100) 1 1 1 (19 / 100) ≤ 6 := by
    rw [crRate, spring_norm, abs_of_pos (by norm_num)]; norm_num
  have hrate0 := (regular_crisfield hlen).rate_nonneg (realGeo_laws ℝ)
  have h := C135_crisfield (o := linOpts) (s := rest len 1) (p := p) (realGeo_laws ℝ) rfl rfl (by norm_num [linOpts]) p1
    rfl (by rw [p4]; exact regular_crisfield hlen)
    (fun x _ w _ => .inl ⟨rfl, by rw [p5, p6, spring_dot]; norm_num⟩) (by simp [linOpts])
    (by rw [spring_size]; exact hd)
    (by
      rw [spring_size]
      have := mul_le_mul hrate hd (norm_nonneg _) (by norm_num)
      linarith)
  have hs : size spring = fun x : ℝ × ℝ => ‖x‖ := funext spring_size
  rw [hs] at h
  exact ⟨len, spring_converges rfl rfl hrate0 zero_le_one (by linarith) hd h⟩

theorem spring_fderiv (x : ℝ) : fderiv ℝ (fun u : ℝ => u + u ^ 2) x = (1 + 2 * x) • (1 : ℝ →L[ℝ] ℝ) := by
  have h1 : HasDerivAt (fun u : ℝ => u + u ^ 2) (1 + 2 * x) x := by
    simpa using (hasDerivAt_id x).fun_add ((hasDerivAt_id x).fun_pow 2)
  rw [h1.hasFDerivAt.fderiv]
  ext
  simp

theorem spring_jac : (fun x => (fderiv ℝ (fun u : ℝ => u + u ^ 2) x : ℝ →ₗ[ℝ] ℝ)) = tangent := by
  funext x
  rw [spring_fderiv]
  rfl

theorem spring_balance {l : ℝ} (hl : 0 ≤ l) : springPath l + springPath l ^ 2 = l • spring.forcing := by
  have h1 := Real.sq_sqrt (show (0 : ℝ) ≤ 1 + 4 * l by linarith)
  simp only [springPath, spring, smul_eq_mul, mul_one]
  linear_combination h1 / 4

theorem spring_unit {l : ℝ} (hl : 0 ≤ l) : IsUnit (fderiv ℝ (fun u : ℝ => u + u ^ 2) (springPath l)) := by
  rw [spring_fderiv]
  have h1 : (0 : ℝ) < Real.sqrt (1 + 4 * l) := Real.sqrt_pos.2 (by linarith)
  have h2 : 1 + 2 * springPath l ≠ 0 := by unfold springPath; linarith
  refine ⟨⟨_, (1 + 2 * springPath l)⁻¹ • 1, ?_, ?_⟩, rfl⟩ <;> ext <;> simp [h2]

theorem spring_solves (x : ℝ) (hx : IsUnit (fderiv ℝ (fun u : ℝ => u + u ^ 2) x)) :
    Solvable spring (fun x => (fderiv ℝ (fun u : ℝ => u + u ^ 2) x : ℝ →ₗ[ℝ] ℝ)) x := by
  have h2 : 1 + 2 * x ≠ 0 := by
    intro h0
    rw [spring_fderiv, h0, zero_smul] at hx
    exact not_isUnit_zero hx
  rw [spring_jac]
  exact spring_solvable h2

/-- `C135_crisfield_smooth`: from rest up to the load 10, with the default scaling. -/
example : ∃ C h₀ c₂ : ℝ, 0 ≤ C ∧ 0 < h₀ ∧ 0 < c₂ ∧ ∀ len : ℝ, 0 < len → len ≤ h₀ →
    let o : Opts ℝ := { linOpts with phiUser := false }
    let at' := fun k => (fun s => (ALM.step spring o (crisfield spring o) s).1)^[k] (rest len 0)
    ∃ n, 10 - c₂ * len < (at' n).L ∧ (at' n).L ≤ 10 ∧
      (∀ k < n, (ALM.step spring o (crisfield spring o) (at' k)).2 = .ok .success ∧ (at' (k + 1)).numIt = 1 ∧
        (at' k).L < (at' (k + 1)).L ∧ (at' (k + 1)).L ≤ (at' k).L + c₂ * len) ∧
      ∀ k ≤ n, ‖(at' k).U - springPath (at' k).L‖ ≤ C * len ^ 4 := by
  obtain ⟨C, h₀, c₂, k1, k2, k3, key⟩ := C135_crisfield_smooth (e := spring) (f := fun u => u + u ^ 2) (w := springPath)
    (b := 10) (tF := 1 / 1000) (tU := 1 / 1000) (by fun_prop) (by unfold springPath; fun_prop) (by norm_num [springPath])
    (by norm_num) (fun l hl => spring_balance hl.1) (fun l hl => spring_unit hl.1) (realGeo_laws ℝ)
    (fun x => by rw [spring_norm, Real.norm_eq_abs]) (fun n x l => by simp [spring]) spring_solves
    (by norm_num [spring]) (by norm_num) (by norm_num)
  refine ⟨C, h₀, c₂, k1, k2, k3, fun len h1 h2 => ?_⟩
  exact key _ (rest len 0) rfl rfl (by norm_num [linOpts]) rfl rfl rfl rfl rfl rfl h1 h2 rfl rfl rfl rfl

/-- `C135_crisfield_path`: a given scaling, from the load 1 with a stored increment. -/
example : ∃ C h₀ c₁ c₂ : ℝ, 0 ≤ C ∧ 0 < h₀ ∧ 0 < c₁ ∧ 0 < c₂ ∧ ∀ len : ℝ, 0 < len → len ≤ h₀ →
    let s : St ℝ ℝ ℝ ℝ := { rest len 1 with U := springPath 1, L := 1, DUold := 1 }
    let at' := fun k => (fun s => (ALM.step spring linOpts (crisfield spring linOpts) s).1)^[k] s
    ∃ n, 10 < (at' n).L + c₂ * len ∧
      ∀ k < n, (ALM.step spring linOpts (crisfield spring linOpts) (at' k)).2 = .ok .success ∧
        (at' k).L + c₁ * len ≤ (at' (k + 1)).L ∧ ‖(at' k).U - springPath (at' k).L‖ ≤ C * len ^ 4 := by
  obtain ⟨ρ, β, γ, μ, Λ, h⟩ := exists_path (e := spring) (f := fun u => u + u ^ 2) (w := springPath) (a := 1) (b := 10)
    (by fun_prop) (by unfold springPath; fun_prop) (fun l hl => spring_balance (by linarith [hl.1]))
    (fun l hl => spring_unit (by linarith [hl.1])) (fun x => by rw [spring_norm, Real.norm_eq_abs])
    (fun n x l => by simp [spring]) spring_solves
  rw [spring_jac] at h
  obtain ⟨C, r, h₀, c₁, c₂, k1, k2, k3, k4, k5, key⟩ := C135_crisfield_path (B := 0) (phi₀ := 1) (tF := 1 / 1000)
    (tU := 1 / 1000) h (realGeo_laws ℝ) zero_le_one (by norm_num [spring]) (by norm_num) (by norm_num)
  refine ⟨C, min h₀ (1 / (2 * r)), c₁, c₂, k1, by positivity, k4, k5, fun len h1 h2 => ?_⟩
  have h3 : r * len ≤ 1 / 2 := by
    have := h2.trans (min_le_right _ _)
    rw [le_div_iff₀ (by positivity)] at this
    linarith
  obtain ⟨a1, n, a2, a3⟩ := key linOpts { rest len 1 with U := springPath 1, L := 1, DUold := 1 } rfl rfl
    (by norm_num [linOpts]) rfl rfl (by simp [linOpts]) rfl rfl rfl h1 (h2.trans (min_le_left _ _)) le_rfl
    (by simp only [sub_self, norm_zero]; positivity) (.inr ⟨⟨le_rfl, fun X y hX hy => by
      have hX' := hX.trans h3
      have h4 : (0 : ℝ) < springPath 1 := by
        have : 1 < Real.sqrt (1 + 4 * 1) := (Real.lt_sqrt zero_le_one).2 (by norm_num)
        exact div_pos (sub_pos.2 this) two_pos
      have h5 := (abs_le.1 hX').1
      have h6 : (1 + 2 * X) * y = 1 := by simpa [tangent_apply, spring] using hy
      have h7 : 0 < 1 + 2 * X := by
        simp only at h5
        linarith
      rw [spring_dot]
      simp only [one_mul]
      by_contra hc
      nlinarith [mul_nonneg h7.le (neg_nonneg.2 (not_lt.1 hc))]⟩, .inl ⟨rfl, rfl⟩⟩)
  obtain ⟨b1, b2⟩ := a1 n a2
  exact ⟨n, a3, fun k hk => ⟨(b1 k hk).1, (b1 k hk).2.2.1, b2 k hk.le⟩⟩

end GsSA.ALM.NewtonDemo
