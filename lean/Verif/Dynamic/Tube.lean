import Verif.Dynamic.Converge

/-!
# Runge-Kutta near a motion of a nonlinear system (used for C133)

Nothing is assumed about the system away from the motion.
-/

set_option linter.unusedSectionVars false

namespace GsSA.Dynamic

open Set

variable {E : Type} [NormedAddCommGroup E] [NormedSpace ℝ E]

/-- Up to the distance `r` from the motion `y 0`, the system `f` has the Lipschitz constant `ℓ`. -/
def NearLip (f : ℝ → E → E) (y : ℕ → ℝ → E) (a b r ℓ : ℝ) : Prop :=
  ∀ s ∈ Icc a b, ∀ w w', ‖w - y 0 s‖ ≤ r → ‖w' - y 0 s‖ ≤ r → ‖f s w - f s w'‖ ≤ ℓ * ‖w - w'‖

/-- Up to the distance `r` from the motion `y 0`, the system `f` agrees with its linearisation `J` up to
squares; `J` is bounded and changes along the motion with bounded speed. -/
structure NearLin (f : ℝ → E → E) (y : ℕ → ℝ → E) (J : ℝ → E →ₗ[ℝ] E) (a b r ℓ m q : ℝ) : Prop where
  bound : ∀ s ∈ Icc a b, ∀ d, ‖J s d‖ ≤ ℓ * ‖d‖
  time : ∀ s ∈ Icc a b, ∀ s' ∈ Icc a b, ∀ d, ‖J s d - J s' d‖ ≤ m * |s - s'| * ‖d‖
  rest : ∀ s ∈ Icc a b, ∀ d, ‖d‖ ≤ r → ‖f s (y 0 s + d) - f s (y 0 s) - J s d‖ ≤ q * ‖d‖ ^ 2

variable {f : ℝ → E → E} {y : ℕ → ℝ → E} {a b r ℓ t h : ℝ}

/-- One explicit Euler step near the motion. -/
theorem euler_error_near {c : ℝ} (hy : Smooth y 2 a b) (hf : ∀ t ∈ Icc a b, y 1 t = f t (y 0 t))
    (hL : NearLip f y a b r ℓ) (hc : ∀ τ ∈ Icc a b, ‖y 2 τ‖ ≤ c)
    (ha : a ≤ t) (hh : 0 ≤ h) (hb : t + h ≤ b) (w : E) (hw : ‖w - y 0 t‖ ≤ r) :
    ‖w + h • f t w - y 0 (t + h)‖ ≤ Real.exp (ℓ * h) * ‖w - y 0 t‖ + c / 2 * h ^ 2 := by
  have ht : t ∈ Icc a b := ⟨ha, by linarith⟩
  have h1 := taylor_le gauge_norm 2 hy hc ha hh hb
  have e1 : w + h • f t w - y 0 (t + h) = (w - y 0 t) + h • (f t w - f t (y 0 t)) -
      (y 0 (t + h) - taylor y 2 t h) := by
    rw [← hf t ht]
    simp only [taylor, Finset.sum_range_succ, Finset.sum_range_zero, Nat.factorial]
    module
  have h2 : ‖h • (f t w - f t (y 0 t))‖ ≤ h * (ℓ * ‖w - y 0 t‖) := by
    rw [norm_smul, Real.norm_of_nonneg hh]
    exact mul_le_mul_of_nonneg_left (hL t ht _ _ hw (by simpa using (norm_nonneg _).trans hw)) hh
  have h3 : ℓ * h + 1 ≤ Real.exp (ℓ * h) := Real.add_one_le_exp _
  rw [e1]
  refine (norm_sub_le _ _).trans (add_le_add ((norm_add_le _ _).trans ?_) (h1.trans (le_of_eq ?_)))
  · nlinarith [mul_le_mul_of_nonneg_right h3 (norm_nonneg (w - y 0 t))]
  · simp [Nat.factorial]; ring

/-- The stages stay near the motion. -/
theorem stages_near {Y₂ : ℝ} (hy : Smooth y 2 a b) (hf : ∀ t ∈ Icc a b, y 1 t = f t (y 0 t))
    (hL : NearLip f y a b r ℓ) (hℓ : 0 ≤ ℓ) (hY : ∀ τ ∈ Icc a b, ‖y 2 τ‖ ≤ Y₂)
    (ha : a ≤ t) (hh : 0 ≤ h) (hb : t + h ≤ b) (hℓh : ℓ * h ≤ 1) {w : E} {ε : ℝ} (hw : ‖w - y 0 t‖ ≤ ε)
    (hr : 3 * ε + 2 * (Y₂ * h ^ 2) ≤ r) :
    let k1 := f t w
    let k2 := f (t + h / 2) (w + (h / 2) • k1)
    let k3 := f (t + h / 2) (w + (h / 2) • k2)
    ‖w + (h / 2) • k1 - y 0 (t + h / 2)‖ ≤ 3 / 2 * ε + Y₂ * h ^ 2 / 8 ∧
    ‖w + (h / 2) • k2 - y 0 (t + h / 2)‖ ≤ 7 / 4 * ε + 3 / 16 * (Y₂ * h ^ 2) ∧
    ‖w + h • k3 - y 0 (t + h)‖ ≤ 11 / 4 * ε + 19 / 16 * (Y₂ * h ^ 2) := by
  intro k1 k2 k3
  have h2 : 0 ≤ h / 2 := by linarith
  have hb2 : t + h / 2 ≤ b := by linarith
  have hε : 0 ≤ ε := (norm_nonneg _).trans hw
  have hY0 : 0 ≤ Y₂ := (norm_nonneg _).trans (hY t ⟨ha, by linarith⟩)
  have hP : 0 ≤ Y₂ * h ^ 2 := by positivity
  have f0 := hf t ⟨ha, by linarith⟩
  have f1 := hf (t + h / 2) ⟨by linarith, hb2⟩
  have zero : ∀ s, ‖y 0 s - y 0 s‖ ≤ r := fun s => by rw [sub_self, norm_zero]; linarith
  have d2 : ‖y 0 t + (h / 2) • y 1 t - y 0 (t + h / 2)‖ ≤ Y₂ * h ^ 2 / 8 := by
    have := taylor_le (N := fun x : E => ‖x‖) gauge_norm 2 hy hY ha h2 hb2
    rw [norm_sub_rev]
    refine (le_of_eq ?_).trans (this.trans (le_of_eq ?_))
    · congr 1
      simp only [taylor, Finset.sum_range_succ, Finset.sum_range_zero, Nat.factorial]
      push_cast
      module
    · simp only [Nat.factorial]; push_cast; ring
  have d3 : ‖y 0 t + (h / 2) • y 1 (t + h / 2) - y 0 (t + h / 2)‖ ≤ Y₂ * h ^ 2 / 8 := by
    have := backward_le (N := fun x : E => ‖x‖) gauge_norm norm_neg hy hY ha h2 hb2
    rw [norm_sub_rev]
    refine (le_of_eq ?_).trans (this.trans (le_of_eq (by ring)))
    congr 1
    module
  have d4 : ‖y 0 t + h • y 1 (t + h / 2) - y 0 (t + h)‖ ≤ Y₂ * h ^ 2 := by
    have g1 := taylor_le (N := fun x : E => ‖x‖) gauge_norm 2 hy hY ha hh hb
    have g2 := taylor_le (N := fun x : E => ‖x‖) (y := fun k => y (k + 1)) gauge_norm 1
      (fun k hk t ht => hy (k + 1) (by omega) t ht) hY ha h2 hb2
    refine (le_of_eq ?_).trans (((norm_sub_le _ _).trans (add_le_add (norm_smul_le_of hh g2) g1)).trans
      (le_of_eq ?_))
    · congr 1
      simp only [taylor, Finset.sum_range_succ, Finset.sum_range_zero, Nat.factorial]
      push_cast
      module
    · simp only [Nat.factorial]; push_cast; ring
  have mono : ∀ x : ℝ, 0 ≤ x → h * (ℓ * x) ≤ x := fun x hx => by nlinarith
  have e1 : ‖k1 - y 1 t‖ ≤ ℓ * ε := by
    rw [f0]
    exact (hL t ⟨ha, by linarith⟩ _ _ (hw.trans (by linarith)) (zero t)).trans
      (mul_le_mul_of_nonneg_left hw hℓ)
  have s2 : ‖w + (h / 2) • k1 - y 0 (t + h / 2)‖ ≤ 3 / 2 * ε + Y₂ * h ^ 2 / 8 := by
    have e : w + (h / 2) • k1 - y 0 (t + h / 2) =
      (w - y 0 t) + (h / 2) • (k1 - y 1 t) + (y 0 t + (h / 2) • y 1 t - y 0 (t + h / 2)) := by module
    rw [e]
    refine ((norm_add_le _ _).trans (add_le_add ((norm_add_le _ _).trans (add_le_add hw
      (norm_smul_le_of h2 e1))) d2)).trans ?_
    linarith [mono ε hε]
  have e2 : ‖k2 - y 1 (t + h / 2)‖ ≤ ℓ * (3 / 2 * ε + Y₂ * h ^ 2 / 8) := by
    rw [f1]
    exact (hL _ ⟨by linarith, hb2⟩ _ _ (s2.trans (by linarith)) (zero _)).trans
      (mul_le_mul_of_nonneg_left s2 hℓ)
  have s3 : ‖w + (h / 2) • k2 - y 0 (t + h / 2)‖ ≤ 7 / 4 * ε + 3 / 16 * (Y₂ * h ^ 2) := by
    have e : w + (h / 2) • k2 - y 0 (t + h / 2) =
      (w - y 0 t) + (h / 2) • (k2 - y 1 (t + h / 2)) +
        (y 0 t + (h / 2) • y 1 (t + h / 2) - y 0 (t + h / 2)) := by module
    rw [e]
    refine ((norm_add_le _ _).trans (add_le_add ((norm_add_le _ _).trans (add_le_add hw
      (norm_smul_le_of h2 e2))) d3)).trans ?_
    linarith [mono (3 / 2 * ε + Y₂ * h ^ 2 / 8) (by positivity)]
  have e3 : ‖k3 - y 1 (t + h / 2)‖ ≤ ℓ * (7 / 4 * ε + 3 / 16 * (Y₂ * h ^ 2)) := by
    rw [f1]
    exact (hL _ ⟨by linarith, hb2⟩ _ _ (s3.trans (by linarith)) (zero _)).trans
      (mul_le_mul_of_nonneg_left s3 hℓ)
  refine ⟨s2, s3, ?_⟩
  have e : w + h • k3 - y 0 (t + h) =
    (w - y 0 t) + h • (k3 - y 1 (t + h / 2)) + (y 0 t + h • y 1 (t + h / 2) - y 0 (t + h)) := by module
  rw [e]
  refine ((norm_add_le _ _).trans (add_le_add ((norm_add_le _ _).trans (add_le_add hw
    (norm_smul_le_of hh e3))) d4)).trans ?_
  linarith [mono (7 / 4 * ε + 3 / 16 * (Y₂ * h ^ 2)) (by positivity)]

/-- A Runge-Kutta step near the motion amplifies the distance by `exp (ℓ h)` at most. -/
theorem rk_lipschitz_near {Y₂ : ℝ} (hy : Smooth y 2 a b) (hf : ∀ t ∈ Icc a b, y 1 t = f t (y 0 t))
    (hL : NearLip f y a b r ℓ) (hℓ : 0 ≤ ℓ) (hY : ∀ τ ∈ Icc a b, ‖y 2 τ‖ ≤ Y₂)
    (ha : a ≤ t) (hh : 0 ≤ h) (hb : t + h ≤ b) (hℓh : ℓ * h ≤ 1) (w : E)
    (hr : 3 * ‖w - y 0 t‖ + 2 * (Y₂ * h ^ 2) ≤ r) :
    ‖rkStep f t h w - rkStep f t h (y 0 t)‖ ≤ Real.exp (ℓ * h) * ‖w - y 0 t‖ := by
  have hY0 : 0 ≤ Y₂ := (norm_nonneg _).trans (hY t ⟨ha, by linarith⟩)
  have hP : 0 ≤ Y₂ * h ^ 2 := by positivity
  obtain ⟨s2, s3, s4⟩ := stages_near hy hf hL hℓ hY ha hh hb hℓh (le_refl ‖w - y 0 t‖) hr
  set w' := y 0 t with hw'
  set d := ‖w - w'‖
  have hd : 0 ≤ d := norm_nonneg _
  obtain ⟨z2, z3, z4⟩ := stages_near (w := w') (ε := 0) hy hf hL hℓ hY ha hh hb hℓh (by simp [hw'])
    (by linarith)
  have stage : ∀ (τ c m : ℝ) (k k' : E), τ ∈ Icc a b → 0 ≤ c → ‖k - k'‖ ≤ m * d →
      ‖w + c • k - y 0 τ‖ ≤ r → ‖w' + c • k' - y 0 τ‖ ≤ r →
      ‖f τ (w + c • k) - f τ (w' + c • k')‖ ≤ (ℓ * (1 + c * m)) * d := by
    intro τ c m k k' hτ hc hk r1 r2
    refine (hL τ hτ _ _ r1 r2).trans ?_
    rw [mul_assoc]
    refine mul_le_mul_of_nonneg_left ?_ hℓ
    have e : w + c • k - (w' + c • k') = (w - w') + c • (k - k') := by module
    rw [e]
    refine (norm_add_le _ _).trans ?_
    rw [norm_smul, Real.norm_of_nonneg hc]
    have := mul_le_mul_of_nonneg_left hk hc
    linarith
  unfold rkStep
  extract_lets k1 k2 k3 k4 k1' k2' k3' k4'
  have h2 : 0 ≤ h / 2 := by linarith
  have t0 : t ∈ Icc a b := ⟨ha, by linarith⟩
  have t1 : t + h / 2 ∈ Icc a b := ⟨by linarith, by linarith⟩
  have t2 : t + h ∈ Icc a b := ⟨by linarith, hb⟩
  have b1 : ‖k1 - k1'‖ ≤ ℓ * d := hL t t0 _ _ (by show d ≤ r; linarith) (by simp [← hw']; linarith)
  have b2 : ‖k2 - k2'‖ ≤ _ * d :=
    stage (t + h / 2) (h / 2) _ k1 k1' t1 h2 b1 (s2.trans (by linarith)) (z2.trans (by linarith))
  have b3 : ‖k3 - k3'‖ ≤ _ * d :=
    stage (t + h / 2) (h / 2) _ k2 k2' t1 h2 b2 (s3.trans (by linarith)) (z3.trans (by linarith))
  have b4 : ‖k4 - k4'‖ ≤ _ * d :=
    stage (t + h) h _ k3 k3' t2 hh b3 (s4.trans (by linarith)) (z4.trans (by linarith))
  have e1 : w + (1 / 6 * h) • (k1 + (2 : ℝ) • k2 + (2 : ℝ) • k3 + k4) -
      (w' + (1 / 6 * h) • (k1' + (2 : ℝ) • k2' + (2 : ℝ) • k3' + k4')) =
      (w - w') + (1 / 6 * h) • ((k1 - k1') + (2 : ℝ) • (k2 - k2') + (2 : ℝ) • (k3 - k3') + (k4 - k4')) := by
    module
  rw [e1]
  have n1 : ‖(k1 - k1') + (2 : ℝ) • (k2 - k2') + (2 : ℝ) • (k3 - k3') + (k4 - k4')‖ ≤
      ‖k1 - k1'‖ + 2 * ‖k2 - k2'‖ + 2 * ‖k3 - k3'‖ + ‖k4 - k4'‖ := by
    refine (norm_add_le _ _).trans (add_le_add ((norm_add_le _ _).trans (add_le_add
      ((norm_add_le _ _).trans (add_le_add le_rfl ?_)) ?_)) le_rfl)
    · rw [norm_smul]; norm_num
    · rw [norm_smul]; norm_num
  have h6 : 0 ≤ 1 / 6 * h := by linarith
  have n2 : ‖(1 / 6 * h) • ((k1 - k1') + (2 : ℝ) • (k2 - k2') + (2 : ℝ) • (k3 - k3') + (k4 - k4'))‖ ≤
      (1 / 6 * h) * (ℓ * d + 2 * (ℓ * (1 + h / 2 * ℓ) * d) +
        2 * (ℓ * (1 + h / 2 * (ℓ * (1 + h / 2 * ℓ))) * d) +
        ℓ * (1 + h * (ℓ * (1 + h / 2 * (ℓ * (1 + h / 2 * ℓ))))) * d) := by
    rw [norm_smul, Real.norm_of_nonneg h6]
    exact mul_le_mul_of_nonneg_left (n1.trans (by linarith)) h6
  refine (norm_add_le _ _).trans ((add_le_add le_rfl n2).trans ?_)
  have hz : 0 ≤ ℓ * h := mul_nonneg hℓ hh
  have hexp := Real.sum_le_exp_of_nonneg hz 5
  simp only [Finset.sum_range_succ, Finset.sum_range_zero, Nat.factorial] at hexp
  have := mul_le_mul_of_nonneg_right hexp hd
  refine le_trans (le_of_eq ?_) this
  push_cast
  ring

/-- The constant of the local error. -/
noncomputable def rkConst (ℓ m q : ℝ) (Y : ℕ → ℝ) : ℝ :=
  49 / 2880 * Y 5 + (m * (Y 3 / 48 + ℓ * Y 2 / 16) + ℓ * Y 4 / 192 +
    3 * (ℓ * Y 4 / 64 + ℓ ^ 2 * Y 3 / 96 + q * Y 2 ^ 2 / 128) + ℓ * Y 4 / 16 + ℓ ^ 2 * Y 3 / 24 +
    ℓ ^ 3 * Y 2 / 16 + 396 / 256 * (q * Y 2 ^ 2)) / 6

/-- The exact motion inserted in a Runge-Kutta step of a nonlinear system: fourth order. -/
theorem rk_local_near {J : ℝ → E →ₗ[ℝ] E} {m q : ℝ} {Y : ℕ → ℝ} (hy : Smooth y 5 a b)
    (hf : ∀ t ∈ Icc a b, y 1 t = f t (y 0 t)) (hL : NearLip f y a b r ℓ) (hJ : NearLin f y J a b r ℓ m q)
    (hℓ : 0 ≤ ℓ) (hm : 0 ≤ m) (hq : 0 ≤ q) (hY : ∀ k ≤ 5, ∀ τ ∈ Icc a b, ‖y k τ‖ ≤ Y k)
    (ha : a ≤ t) (hh : 0 ≤ h) (hb : t + h ≤ b) (hℓh : ℓ * h ≤ 1) (hr : 2 * (Y 2 * h ^ 2) ≤ r) :
    ‖rkStep f t h (y 0 t) - y 0 (t + h)‖ ≤ rkConst ℓ m q Y * h ^ 5 := by
  have h2 : 0 ≤ h / 2 := by linarith
  have hb2 : t + h / 2 ≤ b := by linarith
  have t0 : t ∈ Icc a b := ⟨ha, by linarith⟩
  have t1 : t + h / 2 ∈ Icc a b := ⟨by linarith, by linarith⟩
  have t2 : t + h ∈ Icc a b := ⟨by linarith, hb⟩
  have hY0 : ∀ k ≤ 5, 0 ≤ Y k := fun k hk => (norm_nonneg _).trans (hY k hk t t0)
  have Y2 := hY0 2 (by omega)
  have Y3 := hY0 3 (by omega)
  have Y4 := hY0 4 (by omega)
  have hP : 0 ≤ Y 2 * h ^ 2 := by positivity
  obtain ⟨z2, z3, z4⟩ := stages_near (w := y 0 t) (ε := 0) (hy.mono (by omega)) hf hL hℓ (hY 2 (by omega)) ha hh hb
    hℓh (by simp) (by linarith)
  have bound := rem_le hy hY ha
  set T := rem y t with hT
  unfold rkStep
  extract_lets k1 k2 k3 k4
  have e1 : k1 = y 1 t := (hf t t0).symm
  -- defects of the stages
  set d2 := y 0 t + (h / 2) • k1 - y 0 (t + h / 2) with hd2
  set d3 := y 0 t + (h / 2) • k2 - y 0 (t + h / 2) with hd3
  set d4 := y 0 t + h • k3 - y 0 (t + h) with hd4
  have n2 : ‖d2‖ ≤ Y 2 * h ^ 2 / 8 := z2.trans (le_of_eq (by ring))
  have n3 : ‖d3‖ ≤ 3 / 16 * (Y 2 * h ^ 2) := z3.trans (le_of_eq (by ring))
  have n4 : ‖d4‖ ≤ 19 / 16 * (Y 2 * h ^ 2) := z4.trans (le_of_eq (by ring))
  set J1 := J (t + h / 2)
  set J2 := J (t + h)
  -- squares
  set θ2 := k2 - y 1 (t + h / 2) - J1 d2 with hθ2
  set θ3 := k3 - y 1 (t + h / 2) - J1 d3 with hθ3
  set θ4 := k4 - y 1 (t + h) - J2 d4 with hθ4
  have rest : ∀ (s : ℝ) (x d : E) (c : ℝ), s ∈ Icc a b → d = x - y 0 s → ‖d‖ ≤ c * (Y 2 * h ^ 2) →
      c * (Y 2 * h ^ 2) ≤ r → ‖f s x - y 1 s - J s d‖ ≤ c ^ 2 * (q * Y 2 ^ 2) * h ^ 4 := by
    intro s x d c hs hd hdc hcr
    have := hJ.rest s hs d (hdc.trans hcr)
    rw [show y 0 s + d = x by rw [hd]; abel, ← hf s hs] at this
    refine this.trans ((mul_le_mul_of_nonneg_left (pow_le_pow_left₀ (norm_nonneg _) hdc 2) hq).trans
      (le_of_eq ?_))
    ring
  have o2 : ‖θ2‖ ≤ (1 / 8) ^ 2 * (q * Y 2 ^ 2) * h ^ 4 :=
    rest (t + h / 2) _ d2 (1 / 8) t1 rfl (n2.trans (le_of_eq (by ring))) (by linarith)
  have o3 : ‖θ3‖ ≤ (3 / 16) ^ 2 * (q * Y 2 ^ 2) * h ^ 4 := rest (t + h / 2) _ d3 (3 / 16) t1 rfl n3 (by linarith)
  have o4 : ‖θ4‖ ≤ (19 / 16) ^ 2 * (q * Y 2 ^ 2) * h ^ 4 := rest (t + h) _ d4 (19 / 16) t2 rfl n4 (by linarith)
  -- Taylor
  have r1 := bound 1 3 (h / 2) (by omega) h2 hb2
  have r2 := bound 0 4 (h / 2) (by omega) h2 hb2
  have r4 := bound 0 4 h (by omega) hh hb
  have q1 := bound 0 5 h (by omega) hh hb
  have q2 := norm_smul_le_of (c := (4 * h / 6)) (by positivity) (bound 1 4 (h / 2) (by omega) h2 hb2)
  have q3 := norm_smul_le_of (c := (h / 6)) (by positivity) (bound 1 4 h (by omega) hh hb)
  simp only [Nat.factorial] at r1 r2 r4 q1 q2 q3
  push_cast at r1 r2 r4 q1 q2 q3
  have x2 : d2 = -((h ^ 2 / 8) • y 2 t + (h ^ 3 / 48) • y 3 t) - T 0 4 (h / 2) := by
    rw [hd2, e1]
    simp only [hT, rem, taylor, Finset.sum_range_succ, Finset.sum_range_zero, Nat.factorial]
    push_cast
    module
  set ε3 := (h / 2) • T 1 3 (h / 2) - T 0 4 (h / 2) - (h ^ 4 / 96) • J1 (y 3 t) - (h / 2) • J1 (T 0 4 (h / 2)) +
    (h / 2) • θ2 with hε3
  have k2e : k2 = y 1 (t + h / 2) + J1 d2 + θ2 := by rw [hθ2]; abel
  have x3 : d3 = (h ^ 2 / 8) • y 2 t + (h ^ 3 / 24) • y 3 t - (h ^ 3 / 16) • J1 (y 2 t) + ε3 := by
    rw [hd3, k2e, x2, hε3]
    simp only [hT, rem, taylor, Finset.sum_range_succ, Finset.sum_range_zero, Nat.factorial, map_add, map_sub,
      map_smul, map_neg]
    push_cast
    module
  set ε4 := h • T 1 3 (h / 2) - T 0 4 h + (h ^ 4 / 24) • J1 (y 3 t) - (h ^ 4 / 16) • J1 (J1 (y 2 t)) +
    h • J1 ε3 + h • θ3 with hε4
  have k3e : k3 = y 1 (t + h / 2) + J1 d3 + θ3 := by rw [hθ3]; abel
  have x4 : d4 = -((h ^ 3 / 24) • y 3 t) + (h ^ 3 / 8) • J1 (y 2 t) + ε4 := by
    have e : d4 = (y 0 t + h • y 1 (t + h / 2) - y 0 (t + h)) + h • J1 d3 + h • θ3 := by
      rw [hd4, k3e]; module
    rw [e, x3, hε4]
    simp only [hT, rem, taylor, Finset.sum_range_succ, Finset.sum_range_zero, Nat.factorial, map_add, map_sub,
      map_smul]
    push_cast
    module
  have k4e : k4 = y 1 (t + h) + J2 d4 + θ4 := by rw [hθ4]; abel
  set g := -((h ^ 3 / 24) • y 3 t) + (h ^ 3 / 8) • J1 (y 2 t) with hg
  have key : y 0 t + (1 / 6 * h) • (k1 + (2 : ℝ) • k2 + (2 : ℝ) • k3 + k4) - y 0 (t + h) =
      -(T 0 5 h - (4 * h / 6) • T 1 4 (h / 2) - (h / 6) • T 1 4 h) +
      (h / 6) • ((J2 g - J1 g) + (2 : ℝ) • J1 (ε3 - T 0 4 (h / 2)) + J2 ε4 + (2 : ℝ) • θ2 + (2 : ℝ) • θ3 + θ4) := by
    have e : J1 d2 + J1 d3 = J1 ((h ^ 3 / 48) • y 3 t - (h ^ 3 / 16) • J1 (y 2 t)) + J1 (ε3 - T 0 4 (h / 2)) := by
      rw [← map_add, ← map_add, x2, x3]
      congr 1
      module
    have e' : J1 g = -((2 : ℝ) • J1 ((h ^ 3 / 48) • y 3 t - (h ^ 3 / 16) • J1 (y 2 t))) := by
      rw [← map_smul, ← map_neg, hg]
      congr 1
      module
    have e2 : J2 d4 = J2 g + J2 ε4 := by rw [← map_add, x4]
    have e3 : (2 : ℝ) • k2 + (2 : ℝ) • k3 = (4 : ℝ) • y 1 (t + h / 2) + (2 : ℝ) • (J1 d2 + J1 d3) +
        (2 : ℝ) • θ2 + (2 : ℝ) • θ3 := by
      rw [k2e, k3e]; module
    have e4 : k1 + (2 : ℝ) • k2 + (2 : ℝ) • k3 + k4 = (y 1 t + (4 : ℝ) • y 1 (t + h / 2) + y 1 (t + h)) +
        ((J2 g - J1 g) + (2 : ℝ) • J1 (ε3 - T 0 4 (h / 2)) + J2 ε4 + (2 : ℝ) • θ2 + (2 : ℝ) • θ3 + θ4) := by
      rw [add_assoc k1, e3, e, e', k4e, e2, e1]
      module
    rw [e4]
    simp only [hT, rem, taylor, Finset.sum_range_succ, Finset.sum_range_zero, Nat.factorial]
    push_cast
    module
  -- bounds
  have hJ1 : ∀ {v : E} {c : ℝ}, ‖v‖ ≤ c → ‖J1 v‖ ≤ ℓ * c :=
    fun hv => (hJ.bound _ t1 _).trans (mul_le_mul_of_nonneg_left hv hℓ)
  have hJ2 : ∀ {v : E} {c : ℝ}, ‖v‖ ≤ c → ‖J2 v‖ ≤ ℓ * c :=
    fun hv => (hJ.bound _ t2 _).trans (mul_le_mul_of_nonneg_left hv hℓ)
  have hz : 0 ≤ ℓ * h := mul_nonneg hℓ hh
  set Q := q * Y 2 ^ 2 with hQ
  have hQ0 : 0 ≤ Q := by positivity
  have v2 := hY 2 (by omega) t t0
  have v3 := hY 3 (by omega) t t0
  have less : ∀ x : ℝ, 0 ≤ x → (ℓ * h) * x ≤ x := fun x hx => by nlinarith
  have m3 : ℓ * ‖ε3‖ ≤ (ℓ * Y 4 / 64 + ℓ ^ 2 * Y 3 / 96 + Q / 128) * h ^ 4 := by
    have := (norm_add_le _ _).trans (add_le_add ((norm_sub_le _ _).trans (add_le_add ((norm_sub_le _ _).trans
      (add_le_add ((norm_sub_le _ _).trans (add_le_add (norm_smul_le_of h2 r1) r2))
        (norm_smul_le_of (c := h ^ 4 / 96) (by positivity) (hJ1 v3)))) (norm_smul_le_of h2 (hJ1 r2))))
      (norm_smul_le_of h2 o2))
    refine (mul_le_mul_of_nonneg_left this hℓ).trans ?_
    have l1 := less (ℓ * Y 4 * h ^ 4) (by positivity)
    have l2 := less (Q * h ^ 4) (by positivity)
    have l3 : 0 ≤ ℓ * Y 4 * h ^ 4 := by positivity
    refine le_trans (le_of_eq ?_) (le_trans (add_le_add (add_le_add (le_refl (ℓ * Y 4 * h ^ 4 * (5 / 384) +
      ℓ ^ 2 * Y 3 * h ^ 4 / 96)) (mul_le_mul_of_nonneg_right l1 (by norm_num : (0 : ℝ) ≤ 1 / 768)))
      (mul_le_mul_of_nonneg_right l2 (by norm_num : (0 : ℝ) ≤ 1 / 128))) ?_)
    · ring
    · linarith
  have m4 : ℓ * ‖ε4‖ ≤ (ℓ * Y 4 / 16 + ℓ ^ 2 * Y 3 / 24 + ℓ ^ 3 * Y 2 / 16 +
      (ℓ * Y 4 / 64 + ℓ ^ 2 * Y 3 / 96 + Q / 128) + 9 / 256 * Q) * h ^ 4 := by
    have := (norm_add_le _ _).trans (add_le_add ((norm_add_le _ _).trans (add_le_add ((norm_sub_le _ _).trans
      (add_le_add ((norm_add_le _ _).trans (add_le_add ((norm_sub_le _ _).trans
        (add_le_add (norm_smul_le_of hh r1) r4))
        (norm_smul_le_of (c := h ^ 4 / 24) (by positivity) (hJ1 v3))))
        (norm_smul_le_of (c := h ^ 4 / 16) (by positivity) (hJ1 (hJ1 v2)))))
      (norm_smul_le_of hh (hJ1 (le_refl ‖ε3‖))))) (norm_smul_le_of hh o3))
    refine (mul_le_mul_of_nonneg_left this hℓ).trans ?_
    have l1 := (less (ℓ * ‖ε3‖) (by positivity)).trans m3
    have l2 := less (Q * h ^ 4) (by positivity)
    refine le_trans (le_of_eq ?_) (le_trans (add_le_add (add_le_add (le_refl (ℓ * Y 4 * h ^ 4 / 16 +
      ℓ ^ 2 * Y 3 * h ^ 4 / 24 + ℓ ^ 3 * Y 2 * h ^ 4 / 16)) l1)
      (mul_le_mul_of_nonneg_right l2 (by norm_num : (0 : ℝ) ≤ 9 / 256))) (le_of_eq ?_))
    · ring
    · ring
  have mg : ‖J2 g - J1 g‖ ≤ m * (Y 3 / 48 + ℓ * Y 2 / 16) * h ^ 4 := by
    have g1 : ‖g‖ ≤ h ^ 3 / 24 * Y 3 + h ^ 3 / 8 * (ℓ * Y 2) := by
      refine (norm_add_le _ _).trans (add_le_add ?_ (norm_smul_le_of (by positivity) (hJ1 v2)))
      rw [norm_neg]
      exact norm_smul_le_of (by positivity) v3
    have g2 := hJ.time _ t2 _ t1 g
    rw [show t + h - (t + h / 2) = h / 2 by ring, abs_of_nonneg h2] at g2
    refine g2.trans ((mul_le_mul_of_nonneg_left g1 (by positivity)).trans (le_of_eq ?_))
    ring
  have mt : ‖J1 (ε3 - T 0 4 (h / 2))‖ ≤
      (ℓ * Y 4 / 64 + ℓ ^ 2 * Y 3 / 96 + Q / 128) * h ^ 4 + ℓ * (Y 4 * ((h / 2) ^ 4 / 24)) := by
    refine (hJ1 ((norm_sub_le _ _).trans (add_le_add (le_refl ‖ε3‖) r2))).trans ?_
    rw [mul_add]
    refine add_le_add m3 (le_of_eq ?_)
    ring
  have me : ‖J2 ε4‖ ≤ _ := (hJ2 (le_refl ‖ε4‖)).trans m4
  have two : (0 : ℝ) ≤ 2 := by norm_num
  have s1 := (norm_sub_le _ _).trans (add_le_add ((norm_sub_le _ _).trans (add_le_add q1 q2)) q3)
  have s2 := (norm_add_le _ _).trans (add_le_add ((norm_add_le _ _).trans (add_le_add ((norm_add_le _ _).trans
    (add_le_add ((norm_add_le _ _).trans (add_le_add ((norm_add_le _ _).trans (add_le_add mg
      (norm_smul_le_of two mt))) me)) (norm_smul_le_of two o2))) (norm_smul_le_of two o3))) o4)
  rw [key]
  refine ((norm_add_le _ _).trans (add_le_add ((norm_neg _).le.trans s1)
    (norm_smul_le_of (c := h / 6) (by positivity) s2))).trans (le_of_eq ?_)
  rw [rkConst, ← hQ]
  ring

end GsSA.Dynamic
