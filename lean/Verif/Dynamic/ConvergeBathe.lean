import Verif.Dynamic.AgreeProps
import Verif.Dynamic.BatheLoop
import Verif.Dynamic.EulerLoop

/-!
# Convergence of the nonlinear Bathe method (C139)

First order in general. Second order if the tolerances never stop the iterations before the second one.
-/

set_option linter.unusedSectionVars false

namespace GsSA.Dynamic

open GsSA GsSA.Static Set
open GsSA.ALM (Act Err)

variable {V : Type} [NormedAddCommGroup V] [NormedSpace ℝ V]

section

variable {e : Env ℝ V} {o : Opts ℝ} {M C : V →ₗ[ℝ] V} {R : ℝ → V → V} {J : ℝ → V → V →ₗ[ℝ] V} {t dt : ℝ}
variable {x : ℕ → ℝ → V} {a b r m c L k : ℝ}

/-- A step of Newmark from a state that need not be in equilibrium. -/
theorem newmark_stage {P ρ : ℝ} (hcb : Callbacks e M C R J) (he : ExactSolver e) (hα : o.alpha = 1 / 4)
    (hδ : o.delta = 1 / 2) (hz : ¬ o.zeroInterval) (hi : 1 ≤ o.maxIter) (hx : Motion M C R x 4 a b)
    (ht : Moderate M C R J (x 0) a b r m c L k) (hP : ∀ t ∈ Icc a b, ‖M (x 2 t)‖ ≤ P) (h0 : 0 ≤ dt) (h1 : dt ≤ 1)
    (hm : m * (L + k + c) * dt ≤ 1 / 4) (s : DSt ℝ V) (ha : a ≤ s.time) (hb : s.time + dt ≤ b)
    (hρ : ‖(s.u, s.v) - (x 0 s.time, x 1 s.time)‖ ≤ ρ) (hs : ‖residue M C R s.time s‖ ≤ P + (L + c) * ρ)
    (hr : 2 * ρ + 6 * m * (P + (L + c) * ρ) * dt ^ 2 ≤ r) :
    ∃ (u v w : V) (lg : List (Call ℝ V × Bool)) (st : Status),
      newmarkN e o s.time dt s = ({ s with u := u, v := v, a := w, log := lg }, .ok st) ∧
      u = s.u + dt • s.v + (dt ^ 2 / 4) • s.a + (dt ^ 2 / 4) • w ∧ v = s.v + (dt / 2) • s.a + (dt / 2) • w ∧
      ‖u - x 0 (s.time + dt)‖ ≤ r ∧
      ‖R (s.time + dt) u - C v - M w‖ ≤ 3 * m * (L + k) * dt ^ 2 * (P + (L + c) * ρ) := by
  have hτ : s.time ∈ Icc a b := ⟨ha, by linarith⟩
  have hτ' : s.time + dt ∈ Icc a b := ⟨by linarith, hb⟩
  have hP0 : 0 ≤ P := (norm_nonneg _).trans (hP _ hτ)
  have hρ0 : 0 ≤ ρ := (norm_nonneg _).trans hρ
  have hmn := ht.mass_nonneg
  have hLn := ht.lip_nonneg
  have hcn := ht.damp_nonneg
  have hkn := ht.jac_nonneg
  set Q := P + (L + c) * ρ with hQ
  have hQ0 : 0 ≤ Q := by positivity
  have eβ : o.alpha * dt * dt = dt ^ 2 / 4 := by rw [hα]; ring
  have eζ : o.delta * dt = dt / 2 := by rw [hδ]; ring
  have i1 : 0 ≤ m * L * dt := by positivity
  have i2 : 0 ≤ m * k * dt := by positivity
  have i3 : 0 ≤ m * c * dt := by positivity
  have i4 : m * L * dt + m * k * dt + m * c * dt ≤ 1 / 4 := (le_of_eq (by ring)).trans hm
  have i5 : m * L * dt * dt ≤ m * L * dt := mul_le_of_le_one_right i1 h1
  have i6 : m * k * dt * dt ≤ m * k * dt := mul_le_of_le_one_right i2 h1
  have i7 : 0 ≤ m * Q * dt ^ 2 := by positivity
  have i8 : 6 * m * Q * dt ^ 2 = 6 * (m * Q * dt ^ 2) := by ring
  have i9 : 2 * m * Q * dt ^ 2 = 2 * (m * Q * dt ^ 2) := by ring
  obtain ⟨p1, p2⟩ := predict_near hα hδ ⟨hx.smooth.mono (by omega), hx.balance⟩ ht hP h0 h1 (by linarith only [i1, i2, i4])
    (by
      have : 2 * m * L * dt ^ 2 = 2 * (m * L * dt * dt) := by ring
      linarith only [this, i5, i4, i2, i3]) s ha hb hρ (by linarith only [hr, i7, i8, hρ0]) hs
    (by rw [← hQ]; linarith only [hr, i7, i8, i9])
  rw [← hQ] at p1 p2
  obtain ⟨w, lg, st, n1, n2, n3, -⟩ := newmarkN_near (dt := dt) (t := s.time) hcb hz hi he ht (by rw [eζ]; positivity)
    (by rw [eβ]; positivity) (by
      rw [eζ, eβ]
      have : m * (dt / 2 * c + dt ^ 2 / 4 * k) = m * c * dt / 2 + m * k * dt * dt / 4 := by ring
      linarith only [this, i1, i2, i3, i4, i6]) (by
      rw [eβ, show 2 * m * (dt ^ 2 / 4 * (L + k)) = (m * L * dt * dt + m * k * dt * dt) / 2 by ring]
      linarith only [i4, i5, i6, i3]) hτ' s (by
      rw [eβ]
      have : 4 / 3 * (dt ^ 2 / 4) * (2 * m * ‖residue M C R (s.time + dt) (predict o dt s)‖) ≤
          4 / 3 * (dt ^ 2 / 4) * (2 * m * (6 * Q)) := by gcongr
      have j3 : 4 / 3 * (dt ^ 2 / 4) * (2 * m * (6 * Q)) = 4 * (m * Q * dt ^ 2) := by ring
      linarith only [this, j3, p1, i8, i9, hr, i7])
  rw [eβ, eζ] at n1 n2 n3
  refine ⟨_, _, w, lg, st, n1, ?_, ?_, n2, n3.trans ?_⟩
  · simp only [predict, hα, show ((1 / 2 - 1 / 4 : ℝ) * dt * dt) = dt ^ 2 / 4 by ring]
  · simp only [predict, hδ, show ((1 - 1 / 2 : ℝ) * dt) = dt / 2 by ring]
  · calc 2 * m * (dt ^ 2 / 4 * (L + k)) * ‖residue M C R (s.time + dt) (predict o dt s)‖
        ≤ 2 * m * (dt ^ 2 / 4 * (L + k)) * (6 * Q) := by gcongr
      _ = _ := by ring

/-- The change of the error in a step of Newmark. -/
theorem newmark_increment {Y : ℝ} (hx : Smooth x 4 a b) (hY : ∀ t ∈ Icc a b, ‖(x 3 t, x 4 t)‖ ≤ Y) (h0 : 0 ≤ dt)
    (ha : a ≤ t) (hb : t + dt ≤ b) {u v w u' v' w' : V} (hu : u' = u + dt • v + (dt ^ 2 / 4) • w + (dt ^ 2 / 4) • w')
    (hv : v' = v + (dt / 2) • w + (dt / 2) • w') {Λ ε : ℝ} (hΛ : 1 ≤ Λ) (hε : 0 ≤ ε)
    (hw : ‖w - x 2 t‖ ≤ Λ * ‖(u, v) - (x 0 t, x 1 t)‖ + ε)
    (hw' : ‖w' - x 2 (t + dt)‖ ≤ Λ * ‖(u', v') - (x 0 (t + dt), x 1 (t + dt))‖ + ε) :
    ‖((u', v') - (x 0 (t + dt), x 1 (t + dt))) - ((u, v) - (x 0 t, x 1 t))‖ ≤
      dt / 2 * (Λ * (‖(u, v) - (x 0 t, x 1 t)‖ + ‖(u', v') - (x 0 (t + dt), x 1 (t + dt))‖) + 2 * ε) +
        Y * (dt ^ 3 / 12) := by
  have tr := trapezoid_le (gauge_norm (E := V × V)) (fun z => norm_neg z) (y := pair x) (hx.pair (p := 3)) (c := Y)
    (fun τ h => hY τ h) ha h0 hb
  simp only [pair] at tr
  norm_num at tr
  set E := ‖(u, v) - (x 0 t, x 1 t)‖ with hE
  set E' := ‖(u', v') - (x 0 (t + dt), x 1 (t + dt))‖ with hE'
  have b1 : ‖(v, w) - (x 1 t, x 2 t)‖ ≤ Λ * E + ε := by
    rw [Prod.norm_def]
    refine max_le ?_ hw
    have : ‖v - x 1 t‖ ≤ E := norm_snd_le ((u, v) - (x 0 t, x 1 t))
    have hn : 0 ≤ E := norm_nonneg _
    show ‖v - x 1 t‖ ≤ _
    nlinarith
  have b2 : ‖(v', w') - (x 1 (t + dt), x 2 (t + dt))‖ ≤ Λ * E' + ε := by
    rw [Prod.norm_def]
    refine max_le ?_ hw'
    have : ‖v' - x 1 (t + dt)‖ ≤ E' := norm_snd_le ((u', v') - (x 0 (t + dt), x 1 (t + dt)))
    have hn : 0 ≤ E' := norm_nonneg _
    show ‖v' - x 1 (t + dt)‖ ≤ _
    nlinarith
  have e1 : ((u', v') - (x 0 (t + dt), x 1 (t + dt))) - ((u, v) - (x 0 t, x 1 t)) =
      (dt / 2) • (((v, w) - (x 1 t, x 2 t)) + ((v', w') - (x 1 (t + dt), x 2 (t + dt)))) -
      (((x 0 (t + dt), x 1 (t + dt)) : V × V) - (x 0 t, x 1 t) -
        (dt / 2) • ((x 1 t, x 2 t) + (x 1 (t + dt), x 2 (t + dt)))) := by
    refine Prod.ext ?_ ?_
    · simp only [Prod.fst_sub, Prod.fst_add, Prod.smul_fst]
      rw [hu, hv]
      module
    · simp only [Prod.snd_sub, Prod.snd_add, Prod.smul_snd]
      rw [hv]
      module
  have tr' : ‖((x 0 (t + dt), x 1 (t + dt)) : V × V) - (x 0 t, x 1 t) -
        (dt / 2) • ((x 1 t, x 2 t) + (x 1 (t + dt), x 2 (t + dt)))‖ ≤ Y * (dt ^ 3 / 12) := by
    simpa using tr
  rw [e1]
  refine (norm_sub_le _ _).trans (add_le_add ?_ tr')
  rw [norm_smul, Real.norm_of_nonneg (by positivity)]
  refine mul_le_mul_of_nonneg_left ((norm_add_le _ _).trans ((add_le_add b1 b2).trans (le_of_eq ?_))) (by positivity)
  ring

/-- The growth of the error in a step of Bathe, from that in its stages. -/
theorem bathe_growth {E₀ E₁ E₂ D z ε y : ℝ} (hz0 : 0 ≤ z) (hz1 : z ≤ 1) (hE₀ : 0 ≤ E₀) (hε : 0 ≤ ε) (hy : 0 ≤ y)
    (h1 : E₁ ≤ E₀ + D) (hD : D ≤ z / 4 * (E₀ + E₁) + ε / 2 + y / 96)
    (h2 : E₂ ≤ E₀ + 4 / 3 * D + (z * E₂ + ε) / 3 + 13 / 36 * y) :
    E₁ ≤ 5 / 3 * E₀ + 2 / 3 * ε + y / 72 ∧ E₂ ≤ Real.exp (2 * z) * E₀ + (2 * ε + y) := by
  have i1 : E₁ * (1 - z / 4) ≤ (1 + z / 4) * E₀ + ε / 2 + y / 96 := by linarith
  have g1 : E₁ ≤ 5 / 3 * E₀ + 2 / 3 * ε + y / 72 := by
    have h3 : (1 + z / 4) * E₀ + ε / 2 + y / 96 ≤ (5 / 3 * E₀ + 2 / 3 * ε + y / 72) * (1 - z / 4) := by
      have := mul_nonneg (by linarith : 0 ≤ 1 - z) hE₀
      have := mul_nonneg (by linarith : 0 ≤ 1 - z) hε
      have := mul_nonneg (by linarith : 0 ≤ 1 - z) hy
      nlinarith
    exact le_of_mul_le_mul_right (i1.trans h3) (by linarith)
  refine ⟨g1, ?_⟩
  have b4 : 1 + 2 * z ≤ Real.exp (2 * z) := by linarith [Real.add_one_le_exp (2 * z)]
  have b5 := mul_le_mul_of_nonneg_right b4 hE₀
  refine le_trans ?_ (add_le_add_left b5 _)
  have g2 := mul_le_mul_of_nonneg_left g1 hz0
  have hzE := mul_nonneg hz0 hE₀
  have hzε : z * ε ≤ ε := mul_le_of_le_one_left hε hz1
  have hzy : z * y ≤ y := mul_le_of_le_one_left hy hz1
  have hzy0 := mul_nonneg hz0 hy
  have hze0 := mul_nonneg hz0 hε
  have hzz : 0 ≤ z * (1 - z) * E₀ := mul_nonneg (mul_nonneg hz0 (by linarith)) hE₀
  have i2 : E₂ * (1 - z / 3) ≤ (1 + 8 / 9 * z) * E₀ + 11 / 9 * ε + 1 / 2 * y := by
    nlinarith only [h2, hD, g2, hzε, hzy, hy, hε]
  have i3 : (1 + 8 / 9 * z) * E₀ + 11 / 9 * ε + 1 / 2 * y ≤ ((1 + 2 * z) * E₀ + (2 * ε + y)) * (1 - z / 3) := by
    nlinarith only [hzε, hzy, hzz, hzE, hy, hε]
  exact le_of_mul_le_mul_right (i2.trans i3) (by linarith)

/-- The constant of `C139`. -/
noncomputable def batheConst (m c L k P X Y ρ B : ℝ) : ℝ :=
  2 * m * ((L + k) * (m * (P + (L + c) * ρ) + X + B)) + Y

/-- The nonlinear Bathe step is a Newmark step of half the size and the loop. -/
theorem batheN_run (hcb : Callbacks e M C R J) (hγ : o.gamma = 1 / 2) (s : DSt ℝ V) {us vs as : V}
    {lg : List (Call ℝ V × Bool)} {st : Status}
    (h : newmarkN e o s.time (dt / 2) s = ({ s with u := us, v := vs, a := as, log := lg }, .ok st)) :
    ∃ lg' : List (Call ℝ V × Bool), batheN e o s.time dt s =
      batheLoop e o s.time dt M s.u s.v us vs
        (nz (e.norm (batheRhs o dt M C s.u s.v us vs (R (s.time + dt) s.u) us))) o.maxIter.toNat 0 C 0
        (batheRhs o dt M C s.u s.v us vs (R (s.time + dt) s.u) us) { s with u := us, v := vs, a := as, log := lg' } := by
  have hn : newmark true e o s.time (o.gamma * dt) s = ({ s with u := us, v := vs, a := as, log := lg }, .ok st) := by
    rw [show o.gamma * dt = dt / 2 by rw [hγ]; ring]; exact h
  refine ⟨(.residual s.u (s.time + dt), true) :: (.damping s.u (s.time + dt), true) :: (.mass (s.time + dt), true) :: lg, ?_⟩
  simp only [batheN, Act.bind_apply, Act.get_apply, onCopy_ok hn, computeMass, computeDamping, computeResidual, call, setUVA,
    Act.modify_apply, Act.pure_apply, hcb.mass, hcb.damping, hcb.residual]

set_option maxHeartbeats 1600000 in
/-- **C139**: the nonlinear Bathe method with the default parameters converges with first order, on every structure that is
known near the motion, for all small steps; and with second order, if two iterations are allowed and one of the
tolerances is not positive, so that no step is accepted after one iteration. -/
theorem C139_bathe_near (e : Env ℝ V) (o : Opts ℝ) (M C : V →ₗ[ℝ] V) (R : ℝ → V → V) (J : ℝ → V → V →ₗ[ℝ] V)
    (hcb : Callbacks e M C R J) (he : ExactSolver e) (hα : o.alpha = 1 / 4) (hδ : o.delta = 1 / 2)
    (hγ : o.gamma = 1 / 2) (hz : ¬ o.zeroInterval) (hi : 1 ≤ o.maxIter) (p : ℕ)
    (hp : p = 1 ∨ p = 2 ∧ 2 ≤ o.maxIter ∧ (∀ w, 0 ≤ e.norm w) ∧ (o.tolU ≤ 0 ∨ o.tolF ≤ 0))
    (x : ℕ → ℝ → V) (a b r m c L k P X Y ρ B Λ : ℝ)
    (hx : Motion M C R x 4 a b) (ht : Moderate M C R J (x 0) a b r m c L k)
    (hP : ∀ t ∈ Icc a b, ‖M (x 2 t)‖ ≤ P) (hX : ∀ t ∈ Icc a b, ‖x 1 t‖ ≤ X)
    (hY : ∀ t ∈ Icc a b, ‖(x 3 t, x 4 t)‖ ≤ Y) (hρ0 : 0 ≤ ρ) (hΛ1 : 1 ≤ Λ) (hΛ : m * (L + c) ≤ Λ) (h : ℝ) (l : List ℝ)
    (hdt : ∀ dt ∈ l, 0 < dt ∧ dt ≤ h) (h1 : m * (L + k + c) * h ≤ 1 / 4) (h2 : Λ * h ≤ 1)
    (h3 : (L + k) * (m * (P + (L + c) * ρ) + X + B) * h ≤ P + (L + c) * ρ)
    (hB : 8 * ρ + (4 * m * (P + (L + c) * ρ) + 8 * Y + X) * h ≤ B) (hr : B ≤ r) (s : DSt ℝ V)
    (hs : M s.a + C s.v = R s.time s.u) (ha : a ≤ s.time) (hb : s.time + l.sum ≤ b)
    (hρ : Real.exp (2 * Λ * l.sum) *
      (‖(s.u, s.v) - (x 0 s.time, x 1 s.time)‖ + batheConst m c L k P X Y ρ B * l.sum * h ^ p) ≤ ρ) :
    let q := steps none (integrate .bathe true e o) l s
    let T := s.time + l.sum
    (q.1.time = T ∧ ‖(q.1.u, q.1.v) - (x 0 T, x 1 T)‖ ≤ Real.exp (2 * Λ * l.sum) *
      (‖(s.u, s.v) - (x 0 s.time, x 1 s.time)‖ + batheConst m c L k P X Y ρ B * l.sum * h ^ p)) ∧
    ∀ st ∈ q.2, ∃ st', st = some st' := by
  have hsum : 0 ≤ l.sum := List.sum_nonneg fun x hx => (hdt x hx).1.le
  have hmem : s.time ∈ Icc a b := ⟨ha, by linarith⟩
  have hP0 : 0 ≤ P := (norm_nonneg _).trans (hP _ hmem)
  have hX0 : 0 ≤ X := (norm_nonneg _).trans (hX _ hmem)
  have hY0 : 0 ≤ Y := (norm_nonneg _).trans (hY _ hmem)
  have hm := ht.mass_nonneg
  have hLn := ht.lip_nonneg
  have hcn := ht.damp_nonneg
  have hkn := ht.jac_nonneg
  rcases l with _ | ⟨d0, l0⟩
  · simp only [List.sum_nil, mul_zero, Real.exp_zero, zero_mul, add_zero, one_mul, steps]
    simp
  have hh : 0 < h := (hdt d0 (by simp)).1.trans_le (hdt d0 (by simp)).2
  generalize d0 :: l0 = l at *
  set Q := P + (L + c) * ρ with hQ
  have hQ0 : 0 ≤ Q := by positivity
  have hB0 : 0 ≤ B := le_trans (by positivity) hB
  set G := (L + k) * (m * Q + X + B) with hG
  have hG0 : 0 ≤ G := by positivity
  have hΛ0 : 0 ≤ Λ := by linarith
  have hh1 : h ≤ 1 := (by simpa using mul_le_mul_of_nonneg_right hΛ1 hh.le : h ≤ Λ * h).trans h2
  have hc0 : 0 ≤ batheConst m c L k P X Y ρ B := by unfold batheConst; positivity
  have hp1 : h ^ p ≤ h := by
    rcases hp with rfl | ⟨rfl, -⟩
    · rw [pow_one]
    · rw [pow_two]; exact mul_le_of_le_one_left hh.le hh1
  have hp2 : h ^ 2 ≤ h ^ p := by
    rcases hp with rfl | ⟨rfl, -⟩
    · rw [pow_one, pow_two]; exact mul_le_of_le_one_left hh.le hh1
    · exact le_rfl
  have hhp : 0 < h ^ p := by positivity
  have hGQ : G * h ^ p ≤ Q := (mul_le_mul_of_nonneg_left hp1 hG0).trans h3
  obtain ⟨⟨r1, r2⟩, r3⟩ := accumulate_results (f := integrate .bathe true e o) (y := pair x 0) (p := p) (a := a) (b := b)
    (ρ := ρ) (Inv := fun s => ‖residue M C R s.time s‖ ≤ G * h ^ p) (Q := fun _ => True) hc0
    (by positivity : 0 ≤ 2 * Λ) l hdt (by
    intro dt hd s hs ha hb hE
    obtain ⟨hd0, hd1⟩ := hdt dt hd
    have hdd : dt ≤ 1 := hd1.trans hh1
    have hτ : s.time ∈ Icc a b := ⟨ha, by linarith⟩
    have hτ1 : s.time + dt / 2 ∈ Icc a b := ⟨by linarith, by linarith⟩
    have hτ2 : s.time + dt ∈ Icc a b := ⟨by linarith, hb⟩
    have hmd : m * (L + k + c) * dt ≤ 1 / 4 := le_trans (by gcongr) h1
    have i1 : 0 ≤ m * L * dt := by positivity
    have i2 : 0 ≤ m * k * dt := by positivity
    have i3 : 0 ≤ m * c * dt := by positivity
    have i4 : m * L * dt + m * k * dt + m * c * dt ≤ 1 / 4 := (le_of_eq (by ring)).trans hmd
    have i6 : m * k * dt * dt ≤ m * k * dt := mul_le_of_le_one_right i2 hdd
    have hsq : dt ^ 2 ≤ h ^ 2 := pow_le_pow_left₀ hd0.le hd1 2
    have hcu : dt ^ 3 ≤ dt * h ^ p := by
      calc dt ^ 3 = dt * dt ^ 2 := by ring
        _ ≤ dt * h ^ p := mul_le_mul_of_nonneg_left (hsq.trans hp2) hd0.le
    have hcu1 : dt ^ 3 ≤ h := by
      refine hcu.trans ?_
      calc dt * h ^ p ≤ 1 * h := mul_le_mul hdd hp1 hhp.le zero_le_one
        _ = h := one_mul h
    have hYd : Y * dt ^ 3 ≤ Y * h := mul_le_mul_of_nonneg_left hcu1 hY0
    have hYd0 : 0 ≤ Y * dt ^ 3 := by positivity
    have hmQ : 0 ≤ m * Q * h := by positivity
    have hXh : 0 ≤ X * h := by positivity
    have hYh : 0 ≤ Y * h := by positivity
    have hB' : 8 * ρ + 4 * (m * Q * h) + 8 * (Y * h) + X * h ≤ B := (le_of_eq (by ring)).trans hB
    -- the first stage
    have hd2h : (dt / 2) ^ 2 ≤ h / 4 := by
      have : (dt / 2) ^ 2 = dt * dt / 4 := by ring
      rw [this]
      have := mul_le_mul hdd hd1 hd0.le zero_le_one
      linarith only [this]
    obtain ⟨us, vs, ws, lg, st, n1, n2, n3, n4, n5⟩ := newmark_stage (dt := dt / 2) (ρ := ρ) hcb he hα hδ hz hi hx ht hP
      (by positivity) (by linarith only [hdd, hd0]) (by
        have : m * (L + k + c) * (dt / 2) = m * (L + k + c) * dt / 2 := by ring
        have : 0 ≤ m * (L + k + c) * dt := by positivity
        linarith only [this, hmd]) s ha (by linarith only [hb, hd0]) hE (by rw [← hQ]; exact hs.trans hGQ) (by
        rw [← hQ]
        have j1 : 6 * m * Q * (dt / 2) ^ 2 ≤ 6 * m * Q * (h / 4) := by gcongr
        have j2 : 6 * m * Q * (h / 4) = 3 / 2 * (m * Q * h) := by ring
        linarith only [j1, j2, hB', hr, hmQ, hYh, hXh, hρ0])
    rw [← hQ] at n5
    have hE2 : ‖s.u - x 0 s.time‖ ≤ r := by
      refine (norm_fst_le ((s.u, s.v) - (x 0 s.time, x 1 s.time))).trans (hE.trans ?_)
      linarith only [hB', hr, hmQ, hYh, hXh, hρ0]
    have hres1 : ‖R (s.time + dt / 2) us - C vs - M ws‖ ≤ G * h ^ p := by
      refine n5.trans ?_
      calc 3 * m * (L + k) * (dt / 2) ^ 2 * Q = 3 / 4 * ((L + k) * (m * Q) * dt ^ 2) := by ring
        _ ≤ 1 * ((L + k) * (m * Q) * dt ^ 2) := mul_le_mul_of_nonneg_right (by norm_num) (by positivity)
        _ = (L + k) * (m * Q) * dt ^ 2 := one_mul _
        _ ≤ (L + k) * (m * Q + X + B) * h ^ p := by
          refine mul_le_mul (mul_le_mul_of_nonneg_left ?_ (by positivity)) (hsq.trans hp2) (by positivity) (by positivity)
          linarith only [hX0, hB0]
    have bd : ∀ {E R' : ℝ}, 0 ≤ E → R' ≤ G * h ^ p → m * ((L + c) * E + R') ≤ Λ * E + m * (G * h ^ p) :=
      fun hE0 hR' => by
        have i1 := mul_le_mul_of_nonneg_right hΛ hE0
        have i2 := mul_le_mul_of_nonneg_left hR' hm
        rw [mul_add, ← mul_assoc]
        exact add_le_add i1 i2
    set ε := m * (G * h ^ p) with hε
    have hε0 : 0 ≤ ε := by positivity
    have hεQ : ε ≤ m * Q := mul_le_mul_of_nonneg_left hGQ hm
    have a0 := (acceleration_le hx ht hτ s hE2).trans (bd (norm_nonneg _) hs)
    have a1 := (acceleration_le hx ht hτ1 (DSt.init us vs ws) n4).trans (bd (norm_nonneg _) hres1)
    have inc := newmark_increment hx.smooth hY (by positivity : 0 ≤ dt / 2) ha (by linarith only [hb, hd0]) n2 n3 hΛ1 hε0
      a0 a1
    simp only [DSt.init] at a1
    set E₀ := ‖(s.u, s.v) - (x 0 s.time, x 1 s.time)‖ with hE₀
    set E₁ := ‖(us, vs) - (x 0 (s.time + dt / 2), x 1 (s.time + dt / 2))‖ with hE₁
    set D := ‖((us, vs) - (x 0 (s.time + dt / 2), x 1 (s.time + dt / 2))) -
      ((s.u, s.v) - (x 0 s.time, x 1 s.time))‖ with hD
    have hE₀0 : 0 ≤ E₀ := norm_nonneg _
    have hz0 : 0 ≤ Λ * dt := by positivity
    have hz1 : Λ * dt ≤ 1 := (mul_le_mul_of_nonneg_left hd1 hΛ0).trans h2
    have g1 : E₁ ≤ E₀ + D := by
      have := norm_add_le ((s.u, s.v) - (x 0 s.time, x 1 s.time))
        (((us, vs) - (x 0 (s.time + dt / 2), x 1 (s.time + dt / 2))) - ((s.u, s.v) - (x 0 s.time, x 1 s.time)))
      rwa [add_sub_cancel] at this
    have g2 : D ≤ Λ * dt / 4 * (E₀ + E₁) + dt * ε / 2 + Y * dt ^ 3 / 96 := by
      refine inc.trans (le_of_eq ?_)
      ring
    -- the middle of the step is near the motion
    have g3 := (bathe_growth (E₂ := 0) hz0 hz1 hE₀0 (by positivity : 0 ≤ dt * ε) hYd0 g1 g2 (by
      have : 0 ≤ D := norm_nonneg _
      have : 0 ≤ dt * ε := by positivity
      linarith only [this, hE₀0, hYd0, norm_nonneg (((us, vs) - (x 0 (s.time + dt / 2), x 1 (s.time + dt / 2))) -
        ((s.u, s.v) - (x 0 s.time, x 1 s.time))), hD])).1
    set σ := 2 * ρ + m * Q * h + Y * h with hσ
    have hdε : dt * ε ≤ m * Q * h := by
      calc dt * ε ≤ h * (m * Q) := mul_le_mul hd1 hεQ hε0 hh.le
        _ = _ := by ring
    have hdε0 : 0 ≤ dt * ε := by positivity
    have hE' : E₀ ≤ ρ := hE
    have g4 : E₁ ≤ σ := by linarith only [g3, hE', hdε, hYd, hmQ, hYh, hρ0, hσ, hdε0]
    have g5 : E₀ ≤ σ := by linarith only [hE', hmQ, hYh, hρ0, hσ]
    have hσB : 4 * (σ + Y * dt ^ 3) ≤ B := by linarith only [hB', hσ, hYd, hXh]
    have hσB' : σ + X * h ≤ B := by linarith only [hB', hσ, hYh, hmQ, hρ0]
    have sm1 := hx.smooth.mono (by omega : 1 ≤ 4)
    have stage : Stage x s.time dt X σ B s.u s.v us vs := by
      have v1 : ‖s.u - x 0 s.time‖ ≤ σ := (norm_fst_le ((s.u, s.v) - (x 0 s.time, x 1 s.time))).trans g5
      have v2 : ‖s.v - x 1 s.time‖ ≤ σ := (norm_snd_le ((s.u, s.v) - (x 0 s.time, x 1 s.time))).trans g5
      have v3 : ‖us - x 0 (s.time + dt / 2)‖ ≤ σ :=
        (norm_fst_le ((us, vs) - (x 0 (s.time + dt / 2), x 1 (s.time + dt / 2)))).trans g4
      have v4 : ‖vs - x 1 (s.time + dt / 2)‖ ≤ σ :=
        (norm_snd_le ((us, vs) - (x 0 (s.time + dt / 2), x 1 (s.time + dt / 2)))).trans g4
      have m1 := motion_sub_le sm1 hX ha hd0.le hb
      have m2 := motion_sub_le sm1 hX (by linarith only [ha, hd0] : a ≤ s.time + dt / 2) (by positivity : 0 ≤ dt / 2)
        (by linarith only [hb])
      rw [show s.time + dt / 2 + dt / 2 = s.time + dt by ring] at m2
      have m3 : X * dt ≤ X * h := mul_le_mul_of_nonneg_left hd1 hX0
      have m4 : X * (dt / 2) ≤ X * h := mul_le_mul_of_nonneg_left (by linarith only [hd0, hd1]) hX0
      refine ⟨g5, g4, ?_, ?_, ?_, ?_, ?_⟩
      · rw [n3]
        nth_rewrite 1 [n2]
        module
      · have := norm_sub_le (s.u - x 0 s.time) (x 0 (s.time + dt) - x 0 s.time)
        rw [sub_sub_sub_cancel_right] at this
        linarith only [this, m1, m3, v1, hσB']
      · have := norm_sub_le (us - x 0 (s.time + dt / 2)) (x 0 (s.time + dt) - x 0 (s.time + dt / 2))
        rw [sub_sub_sub_cancel_right] at this
        linarith only [this, m2, m4, v3, hσB']
      · have := norm_add_le (x 1 s.time) (s.v - x 1 s.time)
        rw [add_sub_cancel] at this
        linarith only [this, hX _ hτ, v2, hσB', hXh]
      · have := norm_add_le (x 1 (s.time + dt / 2)) (vs - x 1 (s.time + dt / 2))
        rw [add_sub_cancel] at this
        linarith only [this, hX _ hτ1, v4, hσB', hXh]
    -- the second stage
    obtain ⟨lg', hrun⟩ := batheN_run (dt := dt) hcb hγ s n1
    obtain ⟨n, hn⟩ : ∃ n, o.maxIter.toNat = n + 1 := ⟨o.maxIter.toNat - 1, by omega⟩
    rw [hn] at hrun
    have e9 : 2 * m * (dt ^ 2 / 9) * (L + k) = 2 / 9 * dt * (m * L * dt + m * k * dt) := by ring
    have e10 : 2 / 9 * dt * (m * L * dt + m * k * dt) ≤ 2 / 9 * dt * 1 :=
      mul_le_mul_of_nonneg_left (by linarith only [i4, i3]) (by positivity)
    obtain ⟨u, lg₂, st₂, k1, k2, k3, k4⟩ := batheLoop_first hcb hz he hx ht hY hX hγ hd0 hdd ha hb hmd hσB hr
      (by
        have : m * (dt / 3 * c + dt ^ 2 / 9 * k) = m * c * dt / 3 + m * k * dt * dt / 9 := by ring
        linarith only [this, i1, i2, i3, i4, i6])
      (by rw [e9]; linarith only [e10, hdd]) stage n C 0 { s with u := us, v := vs, a := ws, log := lg' } rfl
    rw [batheRhs_bath] at k3 k4
    have hres2 : ‖R (s.time + dt) u - C (bathV o dt s.u us u) - M (bathA o dt s.u s.v us vs u)‖ ≤ G * h ^ p := by
      have hW : (L + k) * (X + B) ≤ G := mul_le_mul_of_nonneg_left (by nlinarith only [hm, hQ0]) (by positivity)
      rcases hp with rfl | ⟨rfl, q1, q2, q3⟩
      · refine k3.trans ?_
        calc (L + k) * (dt * (X + B)) = (L + k) * (X + B) * dt := by ring
          _ ≤ G * h := mul_le_mul hW hd1 hd0.le hG0
          _ = _ := by rw [pow_one]
      · refine (k4 (by omega) q2 q3).trans ?_
        rw [e9]
        calc 2 / 9 * dt * (m * L * dt + m * k * dt) * ((L + k) * (dt * (X + B)))
            ≤ 2 / 9 * dt * 1 * ((L + k) * (dt * (X + B))) := mul_le_mul_of_nonneg_right e10 (by positivity)
          _ = 2 / 9 * ((L + k) * (X + B) * dt ^ 2) := by ring
          _ ≤ 1 * ((L + k) * (X + B) * dt ^ 2) := mul_le_mul_of_nonneg_right (by norm_num) (by positivity)
          _ = (L + k) * (X + B) * dt ^ 2 := one_mul _
          _ ≤ G * h ^ 2 := mul_le_mul hW hsq (by positivity) hG0
    refine ⟨_, st₂, step_none _ _ _ _ _ (hrun.trans k1), trivial, hres2, rfl, ?_⟩
    -- the error
    obtain ⟨δ, f1, f2⟩ := bathe_errors (o := o) hx.smooth hY hγ hd0 ha hb s.u s.v us vs u
    have a2 := (acceleration_le hx ht hτ2 (DSt.init u (bathV o dt s.u us u) (bathA o dt s.u s.v us vs u))
      (k2.trans hr)).trans (bd (norm_nonneg _) hres2)
    simp only [DSt.init] at a2
    show ‖(u, bathV o dt s.u us u) - (x 0 (s.time + dt), x 1 (s.time + dt))‖ ≤
      Real.exp (2 * Λ * dt) * E₀ + batheConst m c L k P X Y ρ B * (dt * h ^ p)
    set E₂ := ‖(u, bathV o dt s.u us u) - (x 0 (s.time + dt), x 1 (s.time + dt))‖ with hE₂
    have b2 : ‖(bathV o dt s.u us u, bathA o dt s.u s.v us vs u) - (x 1 (s.time + dt), x 2 (s.time + dt))‖ ≤
        Λ * E₂ + ε := by
      rw [Prod.norm_def]
      refine max_le ?_ a2
      have v1 : ‖bathV o dt s.u us u - x 1 (s.time + dt)‖ ≤ E₂ :=
        norm_snd_le ((u, bathV o dt s.u us u) - (x 0 (s.time + dt), x 1 (s.time + dt)))
      have v2 := mul_le_mul_of_nonneg_right hΛ1 (norm_nonneg _ : 0 ≤ E₂)
      show ‖bathV o dt s.u us u - x 1 (s.time + dt)‖ ≤ _
      linarith only [v1, v2, hε0]
    have g6 : E₂ ≤ E₀ + 4 / 3 * D + (Λ * dt * E₂ + dt * ε) / 3 + 13 / 36 * (Y * dt ^ 3) := by
      have e1 : (u, bathV o dt s.u us u) - (x 0 (s.time + dt), x 1 (s.time + dt)) =
          ((s.u, s.v) - (x 0 s.time, x 1 s.time)) +
          (4 / 3 : ℝ) • (((us, vs) - (x 0 (s.time + dt / 2), x 1 (s.time + dt / 2))) -
            ((s.u, s.v) - (x 0 s.time, x 1 s.time))) +
          (dt / 3) • ((bathV o dt s.u us u, bathA o dt s.u s.v us vs u) - (x 1 (s.time + dt), x 2 (s.time + dt))) - δ := by
        rw [f2]
        generalize (bathV o dt s.u us u, bathA o dt s.u s.v us vs u) - (x 1 (s.time + dt), x 2 (s.time + dt)) = z1
        generalize (us, vs) - (x 0 (s.time + dt / 2), x 1 (s.time + dt / 2)) = z2
        generalize (s.u, s.v) - (x 0 s.time, x 1 s.time) = z3
        module
      conv_lhs => rw [hE₂, e1]
      refine (norm_sub_le _ _).trans ((add_le_add ((norm_add_le _ _).trans (add_le_add (norm_add_le _ _) le_rfl)) f1).trans ?_)
      rw [norm_smul, norm_smul, Real.norm_of_nonneg (by norm_num : (0 : ℝ) ≤ 4 / 3),
        Real.norm_of_nonneg (by positivity : 0 ≤ dt / 3), ← hD, ← hE₀]
      have := mul_le_mul_of_nonneg_left b2 (by positivity : 0 ≤ dt / 3)
      have e2 : dt / 3 * (Λ * E₂ + ε) = (Λ * dt * E₂ + dt * ε) / 3 := by ring
      have e3 : 13 / 36 * Y * dt ^ 3 = 13 / 36 * (Y * dt ^ 3) := by ring
      linarith only [this, e2, e3]
    have g7 := (bathe_growth hz0 hz1 hE₀0 hdε0 hYd0 g1 g2 g6).2
    rw [← mul_assoc] at g7
    refine g7.trans (add_le_add le_rfl ?_)
    have g8 : Y * dt ^ 3 ≤ Y * (dt * h ^ p) := mul_le_mul_of_nonneg_left hcu hY0
    have g9 : batheConst m c L k P X Y ρ B * (dt * h ^ p) = 2 * (dt * ε) + Y * (dt * h ^ p) := by
      rw [batheConst, hε, hG, hQ]; ring
    linarith only [g8, g9]) s (by
      have : residue M C R s.time s = 0 := by rw [residue, ← hs]; abel
      rw [this, norm_zero]
      positivity) ha hb hρ
  refine ⟨⟨r1, r2⟩, fun st hst => ?_⟩
  obtain ⟨st', w1, -⟩ := r3 st hst
  exact ⟨st', w1⟩

end

end GsSA.Dynamic
