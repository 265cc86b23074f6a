import Mathlib.Analysis.Calculus.Deriv.Pow
import Verif.ALM.LoadSmooth
import Verif.ALM.RealDemo

/-!
# Examples for C134

A spring with the internal force `u + u ^ 2` under the load 1. The first step of the methods from rest, to the
equilibrium `u = 1/10` at the load `11/100`.
-/

namespace GsSA.ALM.NewtonDemo

open GsSA GsSA.ALM.RealDemo
open GsSA.Static.Newton (IsNorm)

/-- The spring. -/
noncomputable def spring : Env ℝ ℝ ℝ ℝ where
  geo := realGeo ℝ
  forcing := 1
  numDof := 1
  ones := 1
  residual _ u l := some (u + u ^ 2 - l)
  jacobian _ u _ := some (1 + 2 * u)
  factorize _ m := if m = 0 then none else some m
  solve _ f b := some (b / f)
  mul m u := m * u
  vecD f := [f]
  eigs _ m _ := some [m]

/-- Its tangent. -/
noncomputable def tangent (u : ℝ) : ℝ →ₗ[ℝ] ℝ := (1 + 2 * u) • LinearMap.id

theorem tangent_apply (u y : ℝ) : tangent u y = (1 + 2 * u) * y := rfl

/-- The state at rest. -/
noncomputable def rest (len phi : ℝ) : St ℝ ℝ ℝ ℝ := { linStart with DUold := 0, DLold := 0, len := len, phi := phi }

theorem spring_solvable {u : ℝ} (h : 1 + 2 * u ≠ 0) : Solvable spring tangent u := fun n du =>
  ⟨1 + 2 * u, rfl, fun j => ⟨1 + 2 * u, by simp [spring, h], fun i b => ⟨b / (1 + 2 * u), rfl, by
    rw [tangent_apply, mul_div_cancel₀ _ h]⟩⟩⟩

theorem isNorm_norm : IsNorm (K := ℝ) (fun x : ℝ × ℝ => ‖x‖) where
  nonneg := norm_nonneg
  zero _ := norm_eq_zero
  add := norm_add_le
  smul c x := by rw [norm_smul, Real.norm_eq_abs]

theorem spring_norm (x : ℝ) : spring.geo.norm x = |x| := by
  simp [spring, Geo.norm, realGeo, Real.sqrt_mul_self_eq_abs]

theorem near {x : ℝ × ℝ} (h : ‖x - (1 / 10, 11 / 100)‖ ≤ 1 / 100) :
    9 / 100 ≤ x.1 ∧ x.1 ≤ 11 / 100 ∧ 1 / 10 ≤ x.2 ∧ x.2 ≤ 12 / 100 := by
  simp only [Prod.norm_def, Prod.fst_sub, Prod.snd_sub, Real.norm_eq_abs, max_le_iff, abs_le] at h
  obtain ⟨⟨h1, h2⟩, h3, h4⟩ := h
  refine ⟨?_, ?_, ?_, ?_⟩ <;> linarith

/-- Residuals near the equilibrium. -/
theorem spring_residual (x : ℝ × ℝ) (h : ‖x - (1 / 10, 11 / 100)‖ ≤ 1 / 100) :
    spring.geo.norm (0 + x.1 + (0 + x.1) ^ 2 - (0 + x.2)) ≤ 3 * ‖x - (1 / 10, 11 / 100)‖ := by
  obtain ⟨h1, h2, h3, h4⟩ := near h
  rw [spring_norm]
  have k1 : |x.1 - 1 / 10| ≤ ‖x - (1 / 10, 11 / 100)‖ := by
    exact norm_fst_le (x - ((1 / 10 : ℝ), (11 / 100 : ℝ)))
  have k2 : |x.2 - 11 / 100| ≤ ‖x - (1 / 10, 11 / 100)‖ := by
    exact norm_snd_le (x - ((1 / 10 : ℝ), (11 / 100 : ℝ)))
  have e1 : 0 + x.1 + (0 + x.1) ^ 2 - (0 + x.2) = (x.1 - 1 / 10) * (1 + x.1 + 1 / 10) - (x.2 - 11 / 100) := by ring
  rw [e1]
  refine (abs_sub _ _).trans ?_
  rw [abs_mul, abs_of_pos (by linarith : 0 < 1 + x.1 + 1 / 10)]
  have := abs_nonneg (x.1 - 1 / 10)
  nlinarith

/-- The equilibrium is regular for load control. -/
theorem regular_loadControl : Regular spring (fun u l => u + u ^ 2 - l) tangent (lcConstraint (11 / 100))
    (fun _ y => y.2) (fun x => ‖x‖) (fun x => ‖x‖) 0 0 (1 / 10, 11 / 100) (1 / 100) 2 1 where
  residual _ _ _ := rfl
  norm := isNorm_norm
  norm' := isNorm_norm
  dom y := by rw [spring_norm]; exact norm_fst_le y
  solvable x hx := spring_solvable (by have := near hx; nlinarith)
  inv x hx y := by
    obtain ⟨h1, h2, -, -⟩ := near hx
    simp only [tangent_apply, spring, smul_eq_mul, mul_one, Prod.norm_def, Real.norm_eq_abs, zero_add]
    have k1 := le_max_left |(1 + 2 * x.1) * y.1 - y.2| |y.2|
    have k2 := le_max_right |(1 + 2 * x.1) * y.1 - y.2| |y.2|
    set M := max |(1 + 2 * x.1) * y.1 - y.2| |y.2|
    rw [abs_le] at k1 k2
    refine max_le (abs_le.2 ⟨?_, ?_⟩) (abs_le.2 ⟨?_, ?_⟩)
    · by_contra hc; rw [not_le] at hc; nlinarith
    · by_contra hc; rw [not_le] at hc; nlinarith
    · nlinarith
    · nlinarith
  quad x hx := by
    simp only [tangent_apply, spring, smul_eq_mul, mul_one, Prod.norm_def, Real.norm_eq_abs, zero_add, lcConstraint,
      Prod.fst_sub, Prod.snd_sub, one_mul]
    have k1 := le_max_left |x.1 - 1 / 10| |x.2 - 11 / 100|
    set M := max |x.1 - 1 / 10| |x.2 - 11 / 100|
    have k2 : (x.1 - 1 / 10) ^ 2 ≤ M ^ 2 := by
      rw [← sq_abs (x.1 - 1 / 10)]; exact pow_le_pow_left₀ (abs_nonneg _) k1 2
    refine max_le ?_ ?_
    · have e1 : x.1 + x.1 ^ 2 - x.2 + ((1 + 2 * x.1) * (1 / 10 - x.1) - (11 / 100 - x.2)) =
          -(x.1 - 1 / 10) ^ 2 := by ring
      rw [e1, abs_neg, abs_of_nonneg (sq_nonneg _)]
      exact k2
    · have e1 : x.2 - 11 / 100 + (11 / 100 - x.2) = 0 := by ring
      rw [e1, abs_zero]; exact sq_nonneg M
  pos := by norm_num

/-- The equilibrium is regular for quadratic constraints. -/
theorem regular_quadratic {A B len : ℝ} (hA : 99 / 100 ≤ A) (hA' : A ≤ 1) (hB : 0 ≤ B) (hB' : B ≤ 1 / 100)
    (hlen : A * (1 / 10) ^ 2 + B * (11 / 100) ^ 2 = len ^ 2) {c : ℝ × ℝ → ℝ} {c' : ℝ × ℝ → ℝ × ℝ → ℝ}
    (hc : ∀ x, c x = A * x.1 ^ 2 + B * x.2 ^ 2 - len ^ 2)
    (hc' : ∀ x y, c' x y = 2 * A * x.1 * y.1 + 2 * B * x.2 * y.2) :
    Regular spring (fun u l => u + u ^ 2 - l) tangent c c' (fun x => ‖x‖) (fun x => ‖x‖) 0 0 (1 / 10, 11 / 100)
      (1 / 100) 8 2 where
  residual _ _ _ := rfl
  norm := isNorm_norm
  norm' := isNorm_norm
  dom y := by rw [spring_norm]; exact norm_fst_le y
  solvable x hx := spring_solvable (by have := near hx; nlinarith)
  inv x hx y := by
    obtain ⟨h1, h2, h3, h4⟩ := near hx
    simp only [tangent_apply, spring, smul_eq_mul, mul_one, Prod.norm_def, Real.norm_eq_abs, zero_add, hc']
    have k1 := le_max_left |(1 + 2 * x.1) * y.1 - y.2| |2 * A * x.1 * y.1 + 2 * B * x.2 * y.2|
    have k2 := le_max_right |(1 + 2 * x.1) * y.1 - y.2| |2 * A * x.1 * y.1 + 2 * B * x.2 * y.2|
    set M := max |(1 + 2 * x.1) * y.1 - y.2| |2 * A * x.1 * y.1 + 2 * B * x.2 * y.2|
    have hM : 0 ≤ M := (abs_nonneg _).trans k1
    have hden : 178 / 1000 ≤ 2 * A * x.1 + 2 * B * x.2 * (1 + 2 * x.1) := by
      have : 0 ≤ B * x.2 * (1 + 2 * x.1) := by
        have : 0 ≤ x.2 := by linarith
        have : 0 ≤ 1 + 2 * x.1 := by linarith
        positivity
      nlinarith
    have hBx : 2 * B * x.2 ≤ 24 / 10000 := by nlinarith
    have hBx' : 0 ≤ 2 * B * x.2 := by nlinarith
    have e1 : (2 * A * x.1 + 2 * B * x.2 * (1 + 2 * x.1)) * y.1 =
        (2 * A * x.1 * y.1 + 2 * B * x.2 * y.2) + 2 * B * x.2 * ((1 + 2 * x.1) * y.1 - y.2) := by ring
    have k3 : (2 * A * x.1 + 2 * B * x.2 * (1 + 2 * x.1)) * |y.1| ≤ M + 24 / 10000 * M := by
      rw [← abs_of_nonneg (by linarith : 0 ≤ 2 * A * x.1 + 2 * B * x.2 * (1 + 2 * x.1)), ← abs_mul, e1]
      refine (abs_add_le _ _).trans (add_le_add k2 ?_)
      rw [abs_mul, abs_of_nonneg hBx']
      exact mul_le_mul hBx k1 (abs_nonneg _) (by norm_num)
    have k4 : |y.1| ≤ 57 / 10 * M := by
      have := mul_le_mul_of_nonneg_right hden (abs_nonneg y.1)
      linarith
    refine max_le (k4.trans (by linarith)) ?_
    have e2 : y.2 = (1 + 2 * x.1) * y.1 - ((1 + 2 * x.1) * y.1 - y.2) := by ring
    rw [e2]
    refine (abs_sub _ _).trans ?_
    rw [abs_mul, abs_of_pos (by linarith : 0 < 1 + 2 * x.1)]
    have k5 : (1 + 2 * x.1) * |y.1| ≤ 122 / 100 * |y.1| := mul_le_mul_of_nonneg_right (by linarith) (abs_nonneg _)
    linarith
  quad x hx := by
    simp only [tangent_apply, spring, smul_eq_mul, mul_one, Prod.norm_def, Real.norm_eq_abs, zero_add, hc, hc',
      Prod.fst_sub, Prod.snd_sub]
    have k1 := le_max_left |x.1 - 1 / 10| |x.2 - 11 / 100|
    have k2 := le_max_right |x.1 - 1 / 10| |x.2 - 11 / 100|
    set M := max |x.1 - 1 / 10| |x.2 - 11 / 100|
    have k3 : (x.1 - 1 / 10) ^ 2 ≤ M ^ 2 := by
      rw [← sq_abs (x.1 - 1 / 10)]; exact pow_le_pow_left₀ (abs_nonneg _) k1 2
    have k4 : (x.2 - 11 / 100) ^ 2 ≤ M ^ 2 := by
      rw [← sq_abs (x.2 - 11 / 100)]; exact pow_le_pow_left₀ (abs_nonneg _) k2 2
    have hM := sq_nonneg M
    refine max_le ?_ ?_
    · have e1 : x.1 + x.1 ^ 2 - x.2 + ((1 + 2 * x.1) * (1 / 10 - x.1) - (11 / 100 - x.2)) =
          -(x.1 - 1 / 10) ^ 2 := by ring
      rw [e1, abs_neg, abs_of_nonneg (sq_nonneg _)]
      linarith
    · have e1 : A * x.1 ^ 2 + B * x.2 ^ 2 - len ^ 2 + (2 * A * x.1 * (1 / 10 - x.1) + 2 * B * x.2 * (11 / 100 - x.2)) =
          -(A * (x.1 - 1 / 10) ^ 2 + B * (x.2 - 11 / 100) ^ 2) := by rw [← hlen]; ring
      rw [e1, abs_neg, abs_of_nonneg (by positivity)]
      have j1 := mul_le_mul_of_nonneg_left k3 (by linarith : 0 ≤ A)
      have j2 := mul_le_mul_of_nonneg_left k4 hB
      nlinarith
  pos := by norm_num

/-- What the theorems give for the spring. -/
theorem spring_converges {M : Method ℝ ℝ ℝ ℝ} {s p : St ℝ ℝ ℝ ℝ} {b g : ℝ} (hU : s.U = 0) (hL : s.L = 0)
    (hb : 0 ≤ b) (hg : 0 ≤ g) (hbg : b * g ≤ 16) (hd : ‖(p.DU, p.DL) - ((1 / 10 : ℝ), (11 / 100 : ℝ))‖ ≤ 1 / 100)
    (h : Converges spring linOpts M (fun u l => u + u ^ 2 - l) (fun x => ‖x‖) (1 / 10, 11 / 100) (1 / 100) b g s p) :
    ∃ t, step spring linOpts M s = (t, .ok .success) ∧ t.numIt ≤ 3 ∧ |t.U - 1 / 10| ≤ 16 / 10000 := by
  obtain ⟨h1, h2, h3, h4⟩ := near hd
  simp only at h1 h2 h3 h4
  have hE : ∀ k, quadError b g ‖(p.DU, p.DL) - ((1 / 10 : ℝ), (11 / 100 : ℝ))‖ k ≤ (16 / 100) ^ (2 ^ k - 1) * (1 / 100) := by
    intro k
    have n0 := norm_nonneg ((p.DU, p.DL) - ((1 / 10 : ℝ), (11 / 100 : ℝ)))
    refine mul_le_mul (pow_le_pow_left₀ (by positivity) ?_ _) hd n0 (by positivity)
    have := mul_le_mul hbg hd n0 (by norm_num)
    linarith
  have e2 := hE 2
  have e3 := hE 3
  have e0 : ∀ k, 0 ≤ quadError b g ‖(p.DU, p.DL) - ((1 / 10 : ℝ), (11 / 100 : ℝ))‖ k := fun k => by
    rw [quadError]; positivity
  norm_num at e2 e3
  obtain ⟨t, t1, t2⟩ := h.success 3 3 (fun x hx => by rw [hU, hL]; exact spring_residual x hx) (by norm_num)
    ⟨by norm_num, by norm_num [linOpts], by
      rw [hL, spring_norm]
      simp only [spring, smul_eq_mul, mul_one, zero_add, linOpts]
      rw [abs_of_pos (by linarith)]
      norm_num at e3 ⊢
      linarith, by
      rw [spring_norm, abs_of_pos (by linarith)]
      simp only [linOpts]
      norm_num at e2 e3 ⊢
      linarith, by
      rw [hL, spring_norm]
      simp only [spring, smul_eq_mul, mul_one, zero_add]
      rw [abs_of_pos (by linarith)]
      linarith, by
      rw [spring_norm, abs_of_pos (by linarith)]
      linarith⟩
  refine ⟨t, t1, t2, ?_⟩
  obtain ⟨c1, -, c2⟩ := h.close t t1
  rw [hU, hL] at c2
  have c3 := (norm_fst_le _).trans c2
  simp only [sub_zero, Prod.fst_sub, Real.norm_eq_abs] at c3
  refine c3.trans ((hE t.numIt).trans ?_)
  have : ((16 : ℝ) / 100) ^ (2 ^ t.numIt - 1) ≤ (16 / 100) ^ 1 := by
    refine pow_le_pow_of_le_one (by norm_num) (by norm_num) ?_
    have := Nat.pow_le_pow_right (show 0 < 2 by norm_num) c1
    omega
  linarith

/-- `C134_loadControl`. -/
example : ∃ t, step spring linOpts (loadControl spring) (rest (11 / 100) 0) = (t, .ok .success) ∧ t.numIt ≤ 3 ∧
    |t.U - 1 / 10| ≤ 16 / 10000 := by
  obtain ⟨p, y, h1, h2, h3, h4, -⟩ := begin_loadControl (s := rest (11 / 100) 0) (e := spring) (J := tangent) rfl rfl
    (spring_solvable (by norm_num [rest, linStart]))
  have hy : y = 1 := by simpa [tangent_apply, rest, linStart, spring] using h2
  rw [hy] at h3
  simp only [rest, smul_eq_mul, mul_one] at h3 h4
  have hd : ‖(p.DU, p.DL) - ((1 / 10 : ℝ), (11 / 100 : ℝ))‖ ≤ 1 / 100 := by
    rw [h3, h4]
    simp only [Prod.norm_def, Prod.fst_sub, Prod.snd_sub, Real.norm_eq_abs]
    norm_num [abs_of_pos]
  refine spring_converges (b := 2) (g := 1) rfl rfl (by norm_num) (by norm_num) (by norm_num) hd
    (C134_loadControl rfl (by norm_num [linOpts]) h1 rfl (by rw [h4]; exact regular_loadControl) (by norm_num) hd ?_)
  linarith

/-- The tangent at rest. -/
theorem spring_tangent {s : St ℝ ℝ ℝ ℝ} {f : ℝ} (hf : s.fac = some f) (hL : s.DL = 0)
    (h : ∀ i b, ∃ y, spring.solve i f b = some y ∧ tangent 0 y = b) :
    ∃ t, unitTangent spring s = (t, .ok ()) ∧ t.dU = 1 ∧ t.dL = 1 ∧ t.DU = s.DU ∧ t.DL = s.DL ∧ t.len = s.len ∧
      t.phi = s.phi := by
  obtain ⟨y, l', h3, h4⟩ := solve_ut (e := spring) (s := s) hf h
  have hy : y = 1 := by simpa [tangent_apply, spring] using h4
  unfold unitTangent
  rw [Act.bind_ok h3, Act.modify_apply]
  refine ⟨_, rfl, ?_, ?_, rfl, rfl, rfl, rfl⟩ <;> simp [hy, hL, spring, realGeo]

theorem spring_nearby : nearby spring 0 0 0 0 = true := by
  simp [nearby, spring_norm]

theorem begin_riks (len phi : ℝ) : ∃ p, beginStep spring (riks spring) (rest len phi) = (p, .ok ()) ∧
    p.DU = len ∧ p.DL = len ∧ p.phi = 99999999999 / 100000000000 := by
  rw [begin_eq (s1 := { rest len phi with converged := false, numIt := 0, DU := 0, dU := 0, DL := 0, dL := 0 }) rfl
    rfl rfl]
  obtain ⟨m, f, l, h1, h2⟩ := Solvable.assemble (e := spring) (J := tangent)
    (s := { rest len phi with converged := false, numIt := 0, DU := 0, dU := 0, DL := 0, dL := 0 })
    (by norm_num [rest, linStart]; exact spring_solvable (by norm_num))
  obtain ⟨t, t1, t2, t3, t4, t5, t6, t7⟩ := spring_tangent (f := f) (s := { rest len phi with
    converged := false, numIt := 0, DU := 0, dU := 0, DL := 0, dL := 0, jac := m, fac := some f, log := l,
    phi := 99999999999 / 100000000000 }) rfl rfl (by simpa [rest, linStart] using h2)
  refine ⟨{ t with dL := len, dU := len, DU := len, DL := len }, ?_, rfl, rfl, t7⟩
  change rkPredictor spring _ = _
  unfold rkPredictor
  rw [Act.bind_ok h1, Act.bind_ok (Act.modify_apply _ _), Act.bind_ok (Act.get_apply _)]
  have hn : nearby spring (rest len phi).U (rest len phi).Uprev (rest len phi).L (rest len phi).Lprev = true :=
    spring_nearby
  simp only [hn, if_true]
  have hphi : (if spring.numDof = 1 then (99999999999 / 100000000000 : ℝ) else 1 / (spring.numDof : ℝ)) =
    99999999999 / 100000000000 := if_pos rfl
  simp only [hphi]
  rw [Act.bind_ok t1]
  unfold scaleByLength
  rw [Act.bind_ok (Act.modify_apply _ _), Act.modify_apply]
  simp [t2, t3, t4, t5, t6, rest]

theorem begin_consistent (len phi : ℝ) :
    ∃ p, beginStep spring (consistentCrisfield spring linOpts) (rest len phi) = (p, .ok ()) ∧
    p.DU = len ∧ p.DL = len ∧ p.phi = phi := by
  rw [begin_eq (s1 := { rest len phi with converged := false, numIt := 0, DU := 0, dU := 0, DL := 0, dL := 0 }) rfl
    rfl rfl]
  obtain ⟨m, f, l, h1, h2⟩ := Solvable.assemble (e := spring) (J := tangent)
    (s := { rest len phi with converged := false, numIt := 0, DU := 0, dU := 0, DL := 0, dL := 0 })
    (by norm_num [rest, linStart]; exact spring_solvable (by norm_num))
  obtain ⟨t, t1, t2, t3, t4, t5, t6, t7⟩ := spring_tangent (f := f) (s := { rest len phi with
    converged := false, numIt := 0, DU := 0, dU := 0, DL := 0, dL := 0, jac := m, fac := some f, log := l })
    rfl rfl (by simpa [rest, linStart] using h2)
  refine ⟨{ t with dL := len, dU := len, DU := len, DL := len }, ?_, rfl, rfl, t7⟩
  change ccPredict spring linOpts (fun s => ((s.U, s.L), (s.Uprev, s.Lprev))) _ = _
  unfold ccPredict
  rw [Act.bind_ok h1, Act.bind_ok (Act.get_apply _)]
  have hn : nearby spring (rest len phi).U (rest len phi).Uprev (rest len phi).L (rest len phi).Lprev = true :=
    spring_nearby
  simp only [hn, if_true]
  rw [Act.bind_ok t1, Act.bind_ok (Act.modify_apply _ _)]
  unfold scaleByLength
  rw [Act.bind_ok (Act.modify_apply _ _), Act.modify_apply]
  simp [t2, t3, t4, t5, t6, rest, tangentPhi, linOpts]

/-- The predictor is near the equilibrium. -/
theorem predictor_near {A B len : ℝ} (hA' : A ≤ 1)
    (hB' : B ≤ 1 / 100) (hlen : A * (1 / 10) ^ 2 + B * (11 / 100) ^ 2 = len ^ 2) (h0 : 0 ≤ len)
    (h1 : 1 / 10 ≤ len) : ‖(len, len) - ((1 / 10 : ℝ), (11 / 100 : ℝ))‖ ≤ 1 / 100 := by
  have h2 : len ≤ 101 / 1000 := by
    by_contra hc
    rw [not_le] at hc
    nlinarith
  simp only [Prod.norm_def, Real.norm_eq_abs, Prod.mk_sub_mk]
  refine max_le (abs_le.2 ⟨?_, ?_⟩) (abs_le.2 ⟨?_, ?_⟩) <;> linarith

/-- `C134_riks`. -/
example : ∃ len t, step spring linOpts (riks spring) (rest len 0) = (t, .ok .success) ∧ t.numIt ≤ 3 ∧
    |t.U - 1 / 10| ≤ 16 / 10000 := by
  set len := Real.sqrt (99999999999 / 100000000000 * (1 / 10) ^ 2 + 1 / 100000000000 * (11 / 100) ^ 2) with hl
  have hlen : 99999999999 / 100000000000 * (1 / 10) ^ 2 + 1 / 100000000000 * (11 / 100) ^ 2 = len ^ 2 :=
    (Real.sq_sqrt (by positivity)).symm
  have h0 : 0 ≤ len := Real.sqrt_nonneg _
  have h1 : 1 / 10 ≤ len := Real.le_sqrt_of_sq_le (by norm_num)
  obtain ⟨p, p1, p2, p3, p4⟩ := begin_riks len 0
  have hd := predictor_near (by norm_num) (by norm_num) hlen h0 h1
  refine ⟨len, spring_converges (b := 8) (g := 2) (p := p) rfl rfl (by norm_num) (by norm_num) (by norm_num)
    (by rw [p2, p3]; exact hd) (C134_riks (J := tangent) (N' := fun x => ‖x‖) (realGeo_laws ℝ) rfl (by norm_num [linOpts]) p1 rfl ?_ (by norm_num)
    (by rw [p2, p3]; exact hd) (by rw [p2, p3]; linarith))⟩
  rw [p4]
  refine regular_quadratic (A := 99999999999 / 100000000000) (B := 1 / 100000000000) (by norm_num) (by norm_num)
    (by norm_num) (by norm_num) hlen (fun x => ?_) (fun x y => ?_)
  · simp only [rkForm, spring, realGeo, rest, real_inner_self_eq_norm_sq, Real.norm_eq_abs, sq_abs]
    ring
  · simp only [rkSlope, spring, realGeo, RCLike.inner_apply, conj_trivial]
    norm_num
    ring

/-- `C134_consistent`. -/
example : ∃ len t, step spring linOpts (consistentCrisfield spring linOpts) (rest len (1 / 10)) = (t, .ok .success) ∧
    t.numIt ≤ 3 ∧ |t.U - 1 / 10| ≤ 16 / 10000 := by
  set len := Real.sqrt (1 * (1 / 10) ^ 2 + 1 / 100 * (11 / 100) ^ 2) with hl
  have hlen : 1 * (1 / 10) ^ 2 + 1 / 100 * (11 / 100) ^ 2 = len ^ 2 := (Real.sq_sqrt (by positivity)).symm
  have h0 : 0 ≤ len := Real.sqrt_nonneg _
  have h1 : 1 / 10 ≤ len := Real.le_sqrt_of_sq_le (by norm_num)
  obtain ⟨p, p1, p2, p3, p4⟩ := begin_consistent len (1 / 10)
  have hd := predictor_near (by norm_num) (by norm_num) hlen h0 h1
  refine ⟨len, spring_converges (b := 8) (g := 2) (p := p) rfl rfl (by norm_num) (by norm_num) (by norm_num)
    (by rw [p2, p3]; exact hd) (C134_consistent (J := tangent) (N' := fun x => ‖x‖) (realGeo_laws ℝ) rfl (by norm_num [linOpts]) p1 rfl ?_ (by norm_num)
    (by rw [p2, p3]; exact hd) (by rw [p2, p3]; linarith))⟩
  rw [p4]
  refine regular_quadratic (A := 1) (B := 1 / 100) (by norm_num) (by norm_num)
    (by norm_num) (by norm_num) hlen (fun x => ?_) (fun x y => ?_)
  · simp only [crForm, loadWeight, spring, realGeo, rest, real_inner_self_eq_norm_sq, Real.norm_eq_abs, sq_abs]
    norm_num
  · simp only [ccSlope, loadWeight, spring, realGeo, RCLike.inner_apply, conj_trivial]
    norm_num
    ring

/-- The path of equilibria of the spring. -/
noncomputable def springPath (l : ℝ) : ℝ := (Real.sqrt (1 + 4 * l) - 1) / 2

/-- `C134_loadControl_smooth`: any number of steps up to the load 10. -/
example : ∃ C h₀ : ℝ, 0 ≤ C ∧ 0 < h₀ ∧ ∀ len : ℝ, 0 < len → len ≤ h₀ → ∀ n : ℕ, n * len ≤ 10 →
    let at' := fun k => (fun s => (ALM.step spring linOpts (loadControl spring) s).1)^[k] (rest len 0)
    (∀ k < n, (ALM.step spring linOpts (loadControl spring) (at' k)).2 = .ok .success ∧ (at' (k + 1)).numIt = 1) ∧
    ∀ k ≤ n, (at' k).L = k * len ∧ ‖(at' k).U - springPath (at' k).L‖ ≤ C * len ^ 4 := by
  have hder : ∀ x : ℝ, fderiv ℝ (fun u : ℝ => u + u ^ 2) x = (1 + 2 * x) • (1 : ℝ →L[ℝ] ℝ) := by
    intro x
    have h1 : HasDerivAt (fun u : ℝ => u + u ^ 2) (1 + 2 * x) x := by
      simpa using (hasDerivAt_id x).fun_add ((hasDerivAt_id x).fun_pow 2)
    rw [h1.hasFDerivAt.fderiv]
    ext
    simp
  obtain ⟨C, h₀, hC, hh, key⟩ := C134_loadControl_smooth (e := spring) (f := fun u => u + u ^ 2) (w := springPath)
    (a := 0) (b := 10) (tF := 1 / 1000) (tU := 1 / 1000) (by fun_prop)
    (by unfold springPath; fun_prop)
    (fun l hl => by
      have h1 := Real.sq_sqrt (show (0 : ℝ) ≤ 1 + 4 * l by linarith [hl.1])
      simp only [springPath, spring, smul_eq_mul, mul_one]
      linear_combination h1 / 4)
    (fun l hl => by
      rw [hder]
      have h1 : (0 : ℝ) < Real.sqrt (1 + 4 * l) := Real.sqrt_pos.2 (by linarith [hl.1])
      have h2 : 1 + 2 * springPath l ≠ 0 := by unfold springPath; linarith
      refine ⟨⟨_, (1 + 2 * springPath l)⁻¹ • 1, ?_, ?_⟩, rfl⟩ <;> ext <;> simp [h2])
    (fun x => by rw [spring_norm, Real.norm_eq_abs]) (fun n x l => by simp [spring])
    (fun x hx => by
      have h2 : 1 + 2 * x ≠ 0 := by
        intro h0
        rw [hder, h0, zero_smul] at hx
        exact not_isUnit_zero hx
      have h3 : (fun x => (fderiv ℝ (fun u : ℝ => u + u ^ 2) x : ℝ →ₗ[ℝ] ℝ)) = tangent := by
        funext x
        rw [hder]
        rfl
      rw [h3]
      exact spring_solvable h2)
    le_rfl (by norm_num [spring]) (by norm_num) (by norm_num)
  refine ⟨C, h₀, hC, hh, fun len h1 h2 n hn => ?_⟩
  have := key linOpts (rest len 0) rfl (by norm_num [linOpts]) rfl rfl rfl rfl rfl h1 h2 le_rfl
    (by norm_num [rest, linStart, springPath]) n (by simpa [rest, linStart] using hn)
  simpa [rest, linStart] using this

end GsSA.ALM.NewtonDemo
