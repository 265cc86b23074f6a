import Mathlib.Topology.Order.IntermediateValue
import Verif.ALM.LoadPath
import Verif.ALM.CrisfieldNewton
import Verif.ALM.CrisfieldMore

/-!
# Crisfield's method along a path of equilibria (C135)
-/

namespace GsSA.ALM

open GsSA Set

set_option linter.unusedSectionVars false

variable {V Mat Fac : Type} [NormedAddCommGroup V] [NormedSpace ℝ V]
variable {e : Env ℝ V Mat Fac} {o : Opts ℝ}

/-! ## The predictor -/

section

variable {K V Mat Fac : Type} [Field K] [LinearOrder K] [IsStrictOrderedRing K] [AddCommGroup V]
variable [Module K V]
variable {e : Env K V Mat Fac} {o : Opts K}

/-- The predictor after a first step. -/
theorem begin_crisfield_later {J : V → V →ₗ[K] V} {s : St K V Mat Fac} (hi : s.initialized = true)
    (hgu : s.guess = none) (hs : Solvable e J s.U) (h0 : e.geo.dot s.DUold s.DUold ≠ 0) :
    ∃ p y, beginStep e (crisfield e o) s = (p, .ok ()) ∧ J s.U y = e.forcing ∧ p.phi = laterPhi e o s ∧
      p.DL = muIncrement e p.phi s.len y s.DUold s.DLold ∧ p.DU = p.DL • y ∧
      (o.angle = .step → p.DUold = s.DUold ∧ p.DLold = s.DLold) ∧
      (o.angle ≠ .step → p.DUold = p.DU ∧ p.DLold = p.DL) ∧
      p.guess = none ∧ p.U = s.U ∧ p.L = s.L ∧ p.numIt = 0 ∧ p.len = s.len ∧ p.adaptive = s.adaptive ∧
      p.initialized = s.initialized := by
  obtain ⟨s1, hs1⟩ : ∃ s1 : St K V Mat Fac, s1 = { s with
    converged := false, numIt := 0, DU := 0, Ubar := 0, Ut := 0, DL := 0, dL := 0 } := ⟨_, rfl⟩
  obtain ⟨m, f, l, h1, h2⟩ := Solvable.assemble (s := s1) (by rw [hs1]; simpa using hs)
  obtain ⟨y, l', h3, h4⟩ := solve_ut (e := e) (s := { s1 with jac := m, fac := some f, log := l }) rfl h2
  rw [begin_eq (s1 := s1) hi (by rw [hs1]; rfl) (by rw [hs1]; exact hgu)]
  have hU : s1.U + s1.DU = s.U := by rw [hs1]; simp
  rw [hU] at h4
  change ∃ p y, crPredictor e o s1 = _ ∧ _
  unfold crPredictor
  rw [Act.bind_ok h1, Act.bind_ok h3, Act.bind_ok (Act.get_apply _)]
  have h0' : ¬(e.geo.dot s1.DUold s1.DUold = 0 ∧ s1.DLold * s1.DLold = 0) := fun h => h0 (by rw [hs1] at h; exact h.1)
  simp only [h0', if_false]
  have hl : laterPredictor e o { s1 with jac := m, fac := some f, Ut := y, log := l' } = ({ s1 with
      jac := m, fac := some f, Ut := y, log := l', phi := laterPhi e o s1,
      dL := muIncrement e (laterPhi e o s1) s1.len y s1.DUold s1.DLold,
      dU := muIncrement e (laterPhi e o s1) s1.len y s1.DUold s1.DLold • y }, .ok ()) := rfl
  rw [Act.bind_ok hl, Act.bind_ok (Act.modify_apply _ _), Act.modify_apply]
  have hphi : laterPhi e o s1 = laterPhi e o s := by rw [hs1]; rfl
  obtain ⟨a1, a2, a3, a4, a5, a6, a7, a8, a9, a10, a11⟩ : s1.DUold = s.DUold ∧ s1.DLold = s.DLold ∧ s1.len = s.len ∧
      s1.DU = 0 ∧ s1.DL = 0 ∧ s1.guess = s.guess ∧ s1.U = s.U ∧ s1.L = s.L ∧ s1.numIt = 0 ∧ s1.adaptive = s.adaptive ∧
      s1.initialized = s.initialized := by subst hs1; simp
  simp only [hphi, a1, a2, a3, a4, a5, zero_add]
  refine ⟨_, y, rfl, h4, ?_⟩
  cases hang : o.angle
  all_goals
    simp only [reduceCtorEq, or_true, true_or, or_self, if_true, if_false, a6, a7, a8, a9, a10, a11, hgu,
      ne_eq, not_true_eq_false, not_false_eq_true, and_self, false_implies, true_implies]

end

/-! ## Constants -/

/-- The constants of a path with load `F`, `φ = ‖F‖`, and a bound `Ā` of the weight of the load. -/
structure PathData where
  (ρ β γ μ Λ φ Ā : ℝ)

namespace PathData

variable (c : PathData)

/-- Internal forces change at most at this rate. -/
noncomputable def M : ℝ := c.μ + c.γ * c.ρ
/-- The load changes by at most `κ` times the length. -/
noncomputable def κ : ℝ := 2 * c.M / c.φ
/-- Bound of tangents. -/
noncomputable def W : ℝ := c.β * c.φ
/-- Lower bound of tangents. -/
noncomputable def ν : ℝ := c.φ / c.μ
/-- A bound of the root of the weight. -/
noncomputable def S : ℝ := 1 + c.Ā
/-- The load changes by at least `θ` times the length. -/
noncomputable def θ : ℝ := 1 / (2 * (c.Λ + c.S))
/-- Second order error of the tangent. -/
noncomputable def Q : ℝ := c.β * (c.M + c.γ * (c.Λ * c.κ + 1) ^ 2)
/-- Error of the predictor. -/
noncomputable def A₀ : ℝ := c.Q * (1 + (c.W + 1) / c.ν)
/-- Distance of points of a step to its start. -/
noncomputable def R : ℝ := c.Λ * c.κ + 1
/-- Second order error of tangents at points of a step and of the next one. -/
noncomputable def Q₂ : ℝ := c.β * (c.M + 2 * c.γ * (1 + c.Λ * c.κ + (c.R + 1)) ^ 2)
/-- Speed at which tangents leave spheres. -/
noncomputable def m : ℝ := c.θ * c.ν ^ 2 / 2
/-- Rate of the corrections. -/
noncomputable def rate : ℝ := c.β * c.γ * (1 + 6 / c.m * (c.W + 1))
/-- Error after one correction. -/
noncomputable def C₁ : ℝ := c.rate * c.A₀ ^ 2
/-- Distance to the path. -/
noncomputable def C : ℝ := c.C₁ * (1 + c.Λ)

/-- The constants of a path. -/
structure Valid : Prop where
  ρ : 0 < c.ρ
  β : 0 < c.β
  γ : 0 ≤ c.γ
  μ : 0 < c.μ
  Λ : 0 ≤ c.Λ
  φ : 0 < c.φ
  Ā : 0 ≤ c.Ā

variable {c}

theorem Valid.signs (h : c.Valid) : 0 < c.M ∧ 0 < c.κ ∧ 0 < c.W ∧ 0 < c.ν ∧ 0 < c.S ∧ 0 < c.θ ∧ 0 < c.Q ∧ 0 < c.A₀ ∧
    0 < c.R ∧ 0 < c.Q₂ ∧ 0 < c.m ∧ 0 ≤ c.rate ∧ 0 ≤ c.C₁ ∧ 0 ≤ c.C := by
  have := h.ρ; have := h.β; have := h.γ; have := h.μ; have := h.Λ; have := h.φ; have := h.Ā
  have h1 : 0 < c.M := by unfold M; positivity
  have h2 : 0 < c.κ := by unfold κ; positivity
  have h3 : 0 < c.W := by unfold W; positivity
  have h4 : 0 < c.ν := by unfold ν; positivity
  have h5 : 0 < c.S := by unfold S; positivity
  have h6 : 0 < c.θ := by unfold θ; positivity
  have h7 : 0 < c.Q := by unfold Q; positivity
  have h8 : 0 < c.A₀ := by unfold A₀; positivity
  have h9 : 0 < c.R := by unfold R; positivity
  have h10 : 0 < c.Q₂ := by unfold Q₂; positivity
  have h11 : 0 < c.m := by unfold m; positivity
  have h12 : 0 ≤ c.rate := by unfold rate; positivity
  have h13 : 0 ≤ c.C₁ := by unfold C₁; positivity
  exact ⟨h1, h2, h3, h4, h5, h6, h7, h8, h9, h10, h11, h12, h13, by unfold C; positivity⟩

variable (c)

/-- The length `h` is short enough. -/
structure Short (tF tU h : ℝ) : Prop where
  pos : 0 < h
  half : h ≤ 1 / 2
  start : c.C * h ^ 2 ≤ 1
  tube : (c.R + 1) * h ≤ c.ρ
  near : c.A₀ * h ≤ 1
  drift : c.Λ * (c.A₀ * h) ≤ 1
  slope : c.Q₂ * h * c.W ≤ c.m
  step : c.β * c.γ * c.A₀ ^ 2 * h ^ 3 * c.W ≤ c.m / 2
  real : (c.W ^ 2 + c.Ā) * (3 * (c.β * c.γ * c.A₀ ^ 2 * h ^ 3)) ≤ c.m ^ 2 / 4
  small : c.β * c.γ * c.A₀ ^ 2 * h ^ 3 ≤ 1
  contract : c.rate * (c.A₀ * h ^ 2) ≤ 1
  force : (c.M + c.φ) * (c.C₁ * h ^ 3) < tF * (1 / (c.W + c.S) * c.φ)
  disp : c.A₀ * h + c.C₁ * h ^ 3 < tU * (1 / (c.W + c.S) * c.ν)
  side : c.A₀ * h * c.W < c.m
  ahead : c.A₀ * h ≤ c.θ / 2
  weight : c.C * h ^ 3 ≤ c.θ / 2

variable {c} {tF tU h : ℝ}

/-- All short enough lengths are. -/
theorem Valid.exists_short (hc : c.Valid) {tF tU : ℝ} (hF : 0 < tF) (hU : 0 < tU) :
    ∃ h₀, 0 < h₀ ∧ ∀ h, 0 < h → h ≤ h₀ → c.Short tF tU h := by
  obtain ⟨s1, s2, s3, s4, s5, s6, s7, s8, s9, s10, s11, s12, s13, s14⟩ := hc.signs
  have := hc.ρ
  have hφ := hc.φ
  have p1 : 0 < tF * (1 / (c.W + c.S) * c.φ) := by positivity
  have p2 : 0 < tU * (1 / (c.W + c.S) * c.ν) := by positivity
  have e1 := ever_lt (p := fun h => h) (by fun_prop) rfl (half_pos (one_pos : (0 : ℝ) < 1))
  have e2 := ever_lt (p := fun h => c.C * h ^ 2) (by fun_prop) (by simp) one_pos
  have e3 := ever_lt (p := fun h => (c.R + 1) * h) (by fun_prop) (by simp) hc.ρ
  have e4 := ever_lt (p := fun h => c.A₀ * h) (by fun_prop) (by simp) one_pos
  have e5 := ever_lt (p := fun h => c.Λ * (c.A₀ * h)) (by fun_prop) (by simp) one_pos
  have e6 := ever_lt (p := fun h => c.Q₂ * h * c.W) (by fun_prop) (by simp) s11
  have e7 := ever_lt (p := fun h => c.β * c.γ * c.A₀ ^ 2 * h ^ 3 * c.W) (by fun_prop) (by simp) (half_pos s11)
  have e8 := ever_lt (p := fun h => (c.W ^ 2 + c.Ā) * (3 * (c.β * c.γ * c.A₀ ^ 2 * h ^ 3))) (by fun_prop) (by simp)
    (show 0 < c.m ^ 2 / 4 by positivity)
  have e9 := ever_lt (p := fun h => c.β * c.γ * c.A₀ ^ 2 * h ^ 3) (by fun_prop) (by simp) one_pos
  have e10 := ever_lt (p := fun h => c.rate * (c.A₀ * h ^ 2)) (by fun_prop) (by simp) one_pos
  have e11 := ever_lt (p := fun h => (c.M + c.φ) * (c.C₁ * h ^ 3)) (by fun_prop) (by simp) p1
  have e12 := ever_lt (p := fun h => c.A₀ * h + c.C₁ * h ^ 3) (by fun_prop) (by simp) p2
  have e13 := ever_lt (p := fun h => c.A₀ * h * c.W) (by fun_prop) (by simp) s11
  have e14 := ever_lt (p := fun h => c.A₀ * h) (by fun_prop) (by simp) (half_pos s6)
  have e15 := ever_lt (p := fun h => c.C * h ^ 3) (by fun_prop) (by simp) (half_pos s6)
  obtain ⟨ε, hε, key⟩ := Metric.eventually_nhds_iff.1
    ((((e1.and e2).and (e3.and e4)).and ((e5.and e6).and (e7.and e8))).and
      (((e9.and e10).and (e11.and e12)).and ((e13.and e14).and e15)))
  refine ⟨ε / 2, half_pos hε, fun h h0 h1 => ?_⟩
  obtain ⟨⟨⟨⟨k1, k2⟩, k3, k4⟩, ⟨k5, k6⟩, k7, k8⟩, ⟨⟨k9, k10⟩, k11, k12⟩, ⟨k13, k14⟩, k15⟩ := @key h (by
    rw [Real.dist_eq, sub_zero, abs_of_pos h0]; linarith)
  exact ⟨h0, k1.le, k2.le, k3.le, k4.le, k5.le, k6.le, k7.le, k8.le, k9.le, k10.le, k11, k12, k13, k14.le, k15.le⟩

theorem Valid.weight_le (hc : c.Valid) {A : ℝ} (hA : A ≤ c.Ā) : A ≤ c.S ^ 2 := by
  have := hc.Ā
  unfold S
  nlinarith

theorem Short.within (hs : c.Short tF tU h) (hc : c.Valid) : h ≤ c.ρ ∧ (c.Λ * c.κ + 1) * h ≤ c.ρ := by
  obtain ⟨-, s2, -⟩ := hc.signs
  have h1 := hs.tube
  have h2 := mul_nonneg (mul_nonneg hc.Λ s2.le) hs.pos.le
  have := hs.pos
  unfold R at h1
  constructor <;> linarith

theorem Short.sizes (hs : c.Short tF tU h) (hc : c.Valid) : c.C * h ^ 4 ≤ h ^ 2 ∧ h ^ 2 ≤ h / 2 ∧ c.A₀ * h ^ 2 ≤ h ∧
    c.C₁ * h ^ 4 ≤ c.A₀ * h ^ 2 ∧ c.Λ * (c.C₁ * h ^ 4) ≤ h := by
  obtain ⟨s1, s2, s3, s4, s5, s6, s7, s8, s9, s10, s11, s12, s13, s14⟩ := hc.signs
  have hp := hs.pos
  have h1 : c.A₀ * h ^ 2 ≤ h := by
    have := mul_le_mul_of_nonneg_right hs.near hp.le
    linarith
  have h2 : c.C₁ * h ^ 4 ≤ c.A₀ * h ^ 2 := by
    have := mul_le_mul_of_nonneg_right hs.contract (show 0 ≤ c.A₀ * h ^ 2 by positivity)
    unfold C₁
    linarith
  refine ⟨?_, ?_, h1, h2, ?_⟩
  · have := mul_le_mul_of_nonneg_right hs.start (sq_nonneg h)
    linarith
  · have := mul_le_mul_of_nonneg_right hs.half hp.le
    linarith
  · have h3 := mul_le_mul_of_nonneg_left h2 hc.Λ
    have h4 := mul_le_mul_of_nonneg_right hs.drift hp.le
    linarith

end PathData

variable {c : PathData} {f : V → V} {J : V → V →ₗ[ℝ] V} {w : ℝ → V} {a b : ℝ}

/-- A path with these constants. -/
abbrev PathData.On (c : PathData) (e : Env ℝ V Mat Fac) (f : V → V) (J : V → V →ₗ[ℝ] V) (w : ℝ → V) (a b : ℝ) : Prop :=
  EqPath e f J w a b c.ρ c.β c.γ c.μ c.Λ

theorem EqPath.dot_self (h : c.On e f J w a b) (hg : e.geo.Laws) (x : V) : e.geo.dot x x = ‖x‖ ^ 2 := by
  rw [← h.geo, hg.norm_sq]

theorem EqPath.dot_le (h : c.On e f J w a b) (hg : e.geo.Laws) (x y : V) : |e.geo.dot x y| ≤ ‖x‖ * ‖y‖ := by
  rw [← h.geo, ← h.geo]; exact hg.cauchy x y

/-- The path moves with the load. -/
theorem EqPath.moves (h : c.On e f J w a b) (hφ : c.φ = ‖e.forcing‖) {l l' : ℝ} (hl : l ∈ Icc a b) (hl' : l' ∈ Icc a b)
    (hw : ‖w l' - w l‖ ≤ c.ρ) : c.φ * |l' - l| ≤ c.M * ‖w l' - w l‖ := by
  have h1 := h.force hl hw
  rw [h.balance _ hl', ← sub_smul, norm_smul, Real.norm_eq_abs, ← hφ, mul_comm] at h1
  exact h1

/-- The equilibrium at the length. -/
theorem EqPath.target (h : c.On e f J w a b) (hc : c.Valid) (hφ : c.φ = ‖e.forcing‖) {U : V} {l A tF tU h' : ℝ}
    (hs : c.Short tF tU h') (hl : a ≤ l) (hl' : l + c.κ * h' ≤ b) (hU : ‖U - w l‖ ≤ c.C * h' ^ 4) (hA : 0 ≤ A)
    (hA' : A ≤ c.Ā) : ∃ D, c.θ * h' ≤ D ∧ D ≤ c.κ * h' ∧ ‖w (l + D) - U‖ ^ 2 + A * D ^ 2 = h' ^ 2 := by
  obtain ⟨s1, s2, s3, s4, s5, s6, s7, s8, s9, s10, s11, s12, s13, s14⟩ := hc.signs
  obtain ⟨z1, z2, z3, z4, z5⟩ := hs.sizes hc
  have hp := hs.pos
  have hκ : 0 ≤ c.κ * h' := by positivity
  have hl0 : l ∈ Icc a b := ⟨hl, by linarith⟩
  have hδ : ‖U - w l‖ ≤ h' / 2 := by linarith
  have hcont : ContinuousOn (fun t => ‖w (l + t) - U‖ ^ 2 + A * t ^ 2) (Icc 0 (c.κ * h')) := by
    have hw : ContinuousOn w (Icc a b) := by
      have : LipschitzOnWith ⟨c.Λ, h.posΛ⟩ w (Icc a b) := LipschitzOnWith.of_dist_le_mul fun x hx y hy => by
        rw [dist_eq_norm, Real.dist_eq]
        exact h.lip y hy x hx
      exact this.continuousOn
    have hw' : ContinuousOn (fun t => w (l + t)) (Icc 0 (c.κ * h')) :=
      hw.comp (by fun_prop) (fun t ht => ⟨by linarith [ht.1], by linarith [ht.2]⟩)
    exact ((hw'.sub continuousOn_const).norm.pow 2).add (by fun_prop)
  have h0 : ‖w (l + 0) - U‖ ^ 2 + A * 0 ^ 2 ≤ h' ^ 2 := by
    rw [add_zero, norm_sub_rev]
    have := pow_le_pow_left₀ (norm_nonneg _) (hδ.trans (by linarith : h' / 2 ≤ h')) 2
    linarith
  have h1 : h' ^ 2 ≤ ‖w (l + c.κ * h') - U‖ ^ 2 + A * (c.κ * h') ^ 2 := by
    have hle : l + c.κ * h' ∈ Icc a b := ⟨by linarith, hl'⟩
    have hlip := h.lip l hl0 _ hle
    rw [add_sub_cancel_left, abs_of_nonneg hκ] at hlip
    have hρ : ‖w (l + c.κ * h') - w l‖ ≤ c.ρ := by
      have := hs.tube
      unfold PathData.R at this
      nlinarith
    have hm := h.moves hφ hl0 hle hρ
    rw [add_sub_cancel_left, abs_of_nonneg hκ] at hm
    have e1 : c.φ * (c.κ * h') = c.M * (2 * h') := by
      have := hc.φ.ne'
      unfold PathData.κ
      field_simp
    rw [e1] at hm
    have h2 := le_of_mul_le_mul_left hm s1
    have h3 : ‖w (l + c.κ * h') - w l‖ ≤ ‖w (l + c.κ * h') - U‖ + ‖U - w l‖ := norm_sub_le_norm_sub_add_norm_sub _ _ _
    have h4 : h' ≤ ‖w (l + c.κ * h') - U‖ := by linarith
    have h5 := pow_le_pow_left₀ hp.le h4 2
    have h6 : 0 ≤ A * (c.κ * h') ^ 2 := by positivity
    linarith
  obtain ⟨D, hD, hD'⟩ := intermediate_value_Icc hκ hcont ⟨h0, h1⟩
  simp only at hD'
  refine ⟨D, ?_, hD.2, hD'⟩
  have hlD : l + D ∈ Icc a b := ⟨by linarith [hD.1], by linarith [hD.2]⟩
  have hlip := h.lip l hl0 _ hlD
  rw [add_sub_cancel_left, abs_of_nonneg hD.1] at hlip
  have h3 : ‖w (l + D) - U‖ ≤ h' / 2 + c.Λ * D := by
    have : ‖w (l + D) - U‖ ≤ ‖w (l + D) - w l‖ + ‖w l - U‖ := norm_sub_le_norm_sub_add_norm_sub _ _ _
    rw [norm_sub_rev (w l) U] at this
    linarith
  have hΛ := hc.Λ
  have h4 : h' ≤ h' / 2 + c.Λ * D + c.S * D := by
    have q1 : 0 ≤ c.Λ * D := mul_nonneg hΛ hD.1
    have q2 : 0 ≤ c.S * D := mul_nonneg s5.le hD.1
    refine le_of_sq_le_sq ?_ (by linarith)
    have q3 := pow_le_pow_left₀ (norm_nonneg _) h3 2
    have q4 : A * D ^ 2 ≤ (c.S * D) ^ 2 := by
      rw [mul_pow]
      refine mul_le_mul_of_nonneg_right ?_ (sq_nonneg D)
      have := hc.Ā
      unfold PathData.S
      nlinarith
    have q5 : 0 ≤ (h' / 2 + c.Λ * D) * (c.S * D) := by positivity
    nlinarith
  have hsum : 0 < c.Λ + c.S := by linarith
  unfold PathData.θ
  rw [div_mul_eq_mul_div, one_mul, div_le_iff₀ (by linarith)]
  linarith

/-- Tangents leave the sphere. -/
theorem EqPath.slope (h : c.On e f J w a b) (hg : e.geo.Laws) (hc : c.Valid) (hφ : c.φ = ‖e.forcing‖) {U : V} {l D tF tU h' : ℝ}
    (hs : c.Short tF tU h') (hl : l ∈ Icc a b) (hl' : l + D ∈ Icc a b) (hU : ‖U - w l‖ ≤ c.C * h' ^ 4)
    (hD : c.θ * h' ≤ D) (hz : ‖w (l + D) - U‖ ≤ h') {X y : V} (hX : ‖X - w (l + D)‖ ≤ (c.R + 1) * h')
    (hy : J X y = e.forcing) :
    ‖y‖ ≤ c.W ∧ c.m * h' ≤ e.geo.dot (w (l + D) - U) y := by
  obtain ⟨s1, s2, s3, s4, s5, s6, s7, s8, s9, s10, s11, s12, s13, s14⟩ := hc.signs
  obtain ⟨z1, z2, z3, z4, z5⟩ := hs.sizes hc
  have hp := hs.pos
  have hXρ := hX.trans hs.tube
  have hUρ : ‖U - w (l + D)‖ ≤ c.ρ := by
    rw [norm_sub_rev]
    refine hz.trans (le_trans ?_ hs.tube)
    nlinarith
  have hUl : ‖U - w l‖ ≤ c.ρ := by
    refine hU.trans (le_trans ?_ hs.tube)
    nlinarith
  have hyW : ‖y‖ ≤ c.W := by
    have := h.inv _ hl' X hXρ y
    rwa [hy, ← hφ] at this
  have hyν : c.ν ≤ ‖y‖ := by
    have := h.bdd _ hl' X hXρ y
    rw [hy, ← hφ] at this
    unfold PathData.ν
    rwa [div_le_iff₀ hc.μ, mul_comm]
  refine ⟨hyW, ?_⟩
  set z := w (l + D) - U with hzd
  have hwρ : ‖w (l + D) - w (l + D)‖ ≤ c.ρ := by simpa using hc.ρ.le
  have q1 := h.quad _ hl' X hXρ (w (l + D)) hwρ
  have q2 := h.quad _ hl' X hXρ U hUρ
  have q3 := h.force hl hUl
  have q4 := h.inv _ hl' X hXρ (z - D • y)
  have e1 : J X (z - D • y) = -(f U - l • e.forcing) - (f (w (l + D)) - f X - J X (w (l + D) - X)) +
      (f U - f X - J X (U - X)) := by
    rw [h.balance _ hl', hzd]
    simp only [map_sub, map_smul, hy, add_smul]
    abel
  have hM' : c.μ + c.γ * c.ρ = c.M := rfl
  have hdiff : ‖z - D • y‖ ≤ c.Q₂ * h' ^ 2 := by
    refine q4.trans ?_
    unfold PathData.Q₂
    rw [mul_assoc]
    refine mul_le_mul_of_nonneg_left ?_ hc.β.le
    rw [e1]
    refine (norm_add_le _ _).trans ((add_le_add ((norm_sub_le _ _).trans (add_le_add (norm_neg _).le le_rfl)) le_rfl).trans ?_)
    have k1 : ‖f U - l • e.forcing‖ ≤ c.M * h' ^ 2 := by
      refine q3.trans ?_
      rw [hM']
      exact mul_le_mul_of_nonneg_left (hU.trans z1) s1.le
    have hΛκ : 0 ≤ c.Λ * c.κ := mul_nonneg hc.Λ s2.le
    set T := 1 + c.Λ * c.κ + (c.R + 1) with hT
    have k2 : ‖w (l + D) - X‖ ≤ T * h' := by
      rw [norm_sub_rev]
      refine hX.trans (mul_le_mul_of_nonneg_right ?_ hp.le)
      rw [hT]; linarith
    have k3 : ‖U - X‖ ≤ T * h' := by
      have : ‖U - X‖ ≤ ‖U - w (l + D)‖ + ‖w (l + D) - X‖ := norm_sub_le_norm_sub_add_norm_sub _ _ _
      rw [norm_sub_rev U (w (l + D)), ← hzd, norm_sub_rev (w (l + D)) X] at this
      have k4 : (1 + (c.R + 1)) * h' ≤ T * h' := mul_le_mul_of_nonneg_right (by rw [hT]; linarith) hp.le
      linarith
    have k4 := mul_le_mul_of_nonneg_left (pow_le_pow_left₀ (norm_nonneg _) k2 2) hc.γ
    have k5 := mul_le_mul_of_nonneg_left (pow_le_pow_left₀ (norm_nonneg _) k3 2) hc.γ
    rw [mul_pow] at k4 k5
    linarith
  have e2 : e.geo.dot z y = D * ‖y‖ ^ 2 + e.geo.dot (z - D • y) y := by
    rw [hg.sub_left z (D • y), hg.smul_left, h.dot_self hg]; ring
  have h1 := h.dot_le hg (z - D • y) y
  have h2 : ‖z - D • y‖ * ‖y‖ ≤ c.Q₂ * h' ^ 2 * c.W :=
    mul_le_mul hdiff hyW (norm_nonneg _) (by positivity)
  have h3 := mul_le_mul_of_nonneg_right hs.slope hp.le
  have h4 : c.θ * h' * c.ν ^ 2 ≤ D * ‖y‖ ^ 2 :=
    mul_le_mul hD (pow_le_pow_left₀ s4.le hyν 2) (by positivity) ((mul_pos s6 hp).le.trans hD)
  have h5 : c.θ * h' * c.ν ^ 2 = 2 * (c.m * h') := by unfold PathData.m; ring
  rw [e2]
  have h6 := neg_abs_le (e.geo.dot (z - D • y) y)
  linarith

/-- The state after the predictor of a step near the path. -/
structure Started (e : Env ℝ V Mat Fac) (o : Opts ℝ) (c : PathData) (J : V → V →ₗ[ℝ] V) (w : ℝ → V)
    (s p : St ℝ V Mat Fac) (y : V) : Prop where
  run : beginStep e (crisfield e o) s = (p, .ok ())
  tangent : J s.U y = e.forcing
  load : p.DL = s.len / e.geo.sqrt (e.geo.dot y y + loadWeight e p.phi)
  disp : p.DU = p.DL • y
  weight : loadWeight e p.phi ≤ c.Ā
  old : o.angle = .step → 0 ≤ p.DLold ∧
    ∀ X v, ‖X - w s.L‖ ≤ c.R * s.len → J X v = e.forcing → 0 ≤ e.geo.dot p.DUold v
  new : o.angle ≠ .step → p.DUold = p.DU ∧ p.DLold = p.DL
  guess : p.guess = none
  atU : p.U = s.U
  atL : p.L = s.L
  numIt : p.numIt = 0
  len : p.len = s.len
  adaptive : p.adaptive = s.adaptive
  initialized : p.initialized = s.initialized

/-- The predictor is close to the equilibrium. -/
theorem Started.near {s p : St ℝ V Mat Fac} {y : V} (hp : Started e o c J w s p y) (h : c.On e f J w a b)
    (hg : e.geo.Laws) (hc : c.Valid) (hφ : c.φ = ‖e.forcing‖) {tF tU D : ℝ} (hs : c.Short tF tU s.len)
    (hl : s.L ∈ Icc a b) (hl' : s.L + D ∈ Icc a b) (hU : ‖s.U - w s.L‖ ≤ c.C * s.len ^ 4)
    (hD : 0 ≤ D) (hD' : D ≤ c.κ * s.len)
    (hlen : ‖w (s.L + D) - s.U‖ ^ 2 + loadWeight e p.phi * D ^ 2 = s.len ^ 2) :
    size e ((p.DU, p.DL) - (w (s.L + D) - s.U, D)) ≤ c.A₀ * s.len ^ 2 ∧ s.len / (c.W + c.S) ≤ p.DL ∧ c.ν ≤ ‖y‖ ∧
      ‖y‖ ≤ c.W := by
  obtain ⟨s1, s2, s3, s4, s5, s6, s7, s8, s9, s10, s11, s12, s13, s14⟩ := hc.signs
  obtain ⟨z1, z2, z3, z4, z5⟩ := hs.sizes hc
  have hp0 := hs.pos
  set h' := s.len with hh
  set A := loadWeight e p.phi with hA
  have hA0 : 0 ≤ A := loadWeight_nonneg hg _
  set z := w (s.L + D) - s.U with hz
  have hUl : ‖s.U - w s.L‖ ≤ c.ρ := by
    linarith [(hs.within hc).1]
  have hyW : ‖y‖ ≤ c.W := by
    have := h.inv _ hl s.U hUl y
    rwa [hp.tangent, ← hφ] at this
  have hyν : c.ν ≤ ‖y‖ := by
    have := h.bdd _ hl s.U hUl y
    rw [hp.tangent, ← hφ] at this
    unfold PathData.ν
    rwa [div_le_iff₀ hc.μ, mul_comm]
  have hΛD : c.Λ * D ≤ c.Λ * c.κ * h' := by
    rw [mul_assoc]; exact mul_le_mul_of_nonneg_left hD' hc.Λ
  have hΛκ : 0 ≤ c.Λ * c.κ := mul_nonneg hc.Λ s2.le
  have hq : ‖D • y - z‖ ≤ c.Q * h' ^ 2 := by
    have h1 := h.predictor hl hl' hD hU hp.tangent (by
      linarith [(hs.within hc).2])
    have e1 : s.U + D • y - w (s.L + D) = D • y - z := by rw [hz]; abel
    rw [e1] at h1
    refine h1.trans ?_
    unfold PathData.Q
    rw [mul_assoc]
    refine mul_le_mul_of_nonneg_left ?_ hc.β.le
    have k1 : (c.μ + c.γ * c.ρ) * (c.C * h' ^ 4) ≤ c.M * h' ^ 2 := mul_le_mul_of_nonneg_left z1 s1.le
    have k2 : c.C * h' ^ 4 + c.Λ * D ≤ (c.Λ * c.κ + 1) * h' := by linarith
    have k3 : 0 ≤ c.C * h' ^ 4 + c.Λ * D := by
      have := mul_nonneg hc.Λ hD
      positivity
    have k4 := mul_le_mul_of_nonneg_left (pow_le_pow_left₀ k3 k2 2) hc.γ
    rw [mul_pow] at k4
    linarith
  set a₀ := e.geo.sqrt (e.geo.dot y y + A) with ha₀
  have hq0 : 0 ≤ e.geo.dot y y + A := add_nonneg (hg.nonneg _) hA0
  have ha0 : 0 ≤ a₀ := hg.sqrt_nonneg _
  have ha2 : a₀ ^ 2 = ‖y‖ ^ 2 + A := by rw [ha₀, hg.sqrt_sq _ hq0, h.dot_self hg]
  have haν : c.ν ≤ a₀ := by
    refine le_trans hyν (le_of_sq_le_sq ?_ ha0)
    rw [ha2]; linarith
  have haW : a₀ ≤ c.W + c.S := by
    refine le_of_sq_le_sq ?_ (by linarith)
    rw [ha2]
    have k1 := pow_le_pow_left₀ (norm_nonneg y) hyW 2
    have k2 := hc.weight_le hp.weight
    rw [← hA] at k2
    have k3 : 0 ≤ c.W * c.S := by positivity
    have k4 : (c.W + c.S) ^ 2 = c.W ^ 2 + c.S ^ 2 + 2 * (c.W * c.S) := by ring
    linarith
  have hapos : 0 < a₀ := s4.trans_le haν
  have hDL : p.DL = h' / a₀ := hp.load
  -- both have the length of the step, up to the error of the tangent
  have hpsd := crForm_psd hg p.phi
  have hz' : e.geo.sqrt (crForm e p.phi z D) = h' := by
    refine hg.sqrt_eq hp0.le ?_
    rw [crForm, h.dot_self hg, ← hA]
    linarith
  have hy' : e.geo.sqrt (crForm e p.phi (D • y) D) = D * a₀ := by
    refine hg.sqrt_eq (mul_nonneg hD ha0) ?_
    rw [crForm, h.dot_self hg, ← hA, norm_smul, Real.norm_eq_abs, mul_pow, mul_pow, sq_abs, ha2]
    ring
  have hn : ∀ x : V, e.geo.sqrt (crForm e p.phi x 0) = ‖x‖ := fun x => by
    rw [← h.geo]
    refine hg.sqrt_eq (hg.norm_nonneg _) ?_
    rw [crForm, hg.norm_sq]; ring
  have t1 := hpsd.triangle hg z D (D • y - z) 0
  have t2 := hpsd.triangle hg (D • y) D (z - D • y) 0
  rw [add_zero, add_sub_cancel, hy', hz', hn] at t1
  rw [add_zero, add_sub_cancel, hy', hz', hn, norm_sub_rev] at t2
  have hdl : |p.DL - D| ≤ c.Q * h' ^ 2 / c.ν := by
    have e1 : p.DL - D = (h' - D * a₀) / a₀ := by rw [hDL]; field_simp
    rw [e1, abs_div, abs_of_pos hapos]
    exact div_le_div₀ (by positivity) ((abs_le.2 ⟨by linarith, by linarith⟩).trans hq) s4 haν
  have e2 : c.A₀ * h' ^ 2 = c.Q * h' ^ 2 + c.Q * h' ^ 2 / c.ν * c.W + c.Q * h' ^ 2 / c.ν := by
    unfold PathData.A₀; field_simp; ring
  have q1 : 0 ≤ c.Q * h' ^ 2 / c.ν * c.W := by positivity
  have q2 : 0 ≤ c.Q * h' ^ 2 := by positivity
  have q3 : 0 ≤ c.Q * h' ^ 2 / c.ν := by positivity
  refine ⟨max_le ?_ ?_, ?_, hyν, hyW⟩
  · have e3 : ((p.DU, p.DL) - (z, D)).1 = (D • y - z) + (p.DL - D) • y := by
      rw [Prod.fst_sub, hp.disp]; module
    rw [e3, h.geo, e2]
    refine (norm_add_le _ _).trans ?_
    rw [norm_smul, Real.norm_eq_abs]
    have := mul_le_mul hdl hyW (norm_nonneg _) q3
    linarith
  · rw [Prod.snd_sub, e2]
    simp only
    linarith
  · rw [hDL]
    exact div_le_div_of_nonneg_left hp0.le hapos haW

theorem EqPath.size_le (h : c.On e f J w a b) {U z : V} {D d : ℝ} {x : V × ℝ} (hx : size e (x - (z - U, D)) ≤ d) :
    ‖U + x.1 - z‖ ≤ d ∧ |x.2 - D| ≤ d := by
  have h1 := (le_max_left _ _).trans hx
  have h2 := (le_max_right _ _).trans hx
  refine ⟨?_, by simpa using h2⟩
  rw [h.geo] at h1
  have e1 : (x - (z - U, D)).1 = U + x.1 - z := by change x.1 - (z - U) = _; abel
  rwa [e1] at h1

theorem EqPath.length_le (hg : e.geo.Laws) {z : V} {D phi h' : ℝ} (hp : 0 < h')
    (hlen : ‖z‖ ^ 2 + loadWeight e phi * D ^ 2 = h' ^ 2) : ‖z‖ ≤ h' := by
  refine le_of_sq_le_sq ?_ hp.le
  have := mul_nonneg (loadWeight_nonneg hg phi) (sq_nonneg D)
  linarith

/-- The equilibrium is regular. -/
theorem EqPath.regular (h : c.On e f J w a b) (hg : e.geo.Laws) (hc : c.Valid) (hφ : c.φ = ‖e.forcing‖) {U : V}
    {l D phi tF tU h' : ℝ} (hs : c.Short tF tU h') (hl : l ∈ Icc a b) (hl' : l + D ∈ Icc a b)
    (hU : ‖U - w l‖ ≤ c.C * h' ^ 4) (hA : loadWeight e phi ≤ c.Ā) (hD : c.θ * h' ≤ D)
    (hlen : ‖w (l + D) - U‖ ^ 2 + loadWeight e phi * D ^ 2 = h' ^ 2) :
    CrRegular e (fun x l => f x - l • e.forcing) J phi h' U l (w (l + D) - U, D) 1 (c.A₀ * h' ^ 2) c.β c.γ c.W
      (c.m * h') := by
  obtain ⟨s1, s2, s3, s4, s5, s6, s7, s8, s9, s10, s11, s12, s13, s14⟩ := hc.signs
  obtain ⟨z1, z2, z3, z4, z5⟩ := hs.sizes hc
  obtain ⟨w1, w2⟩ := hs.within hc
  have hp := hs.pos
  have hz := EqPath.length_le hg hp hlen
  have hA0 : 0 ≤ loadWeight e phi := loadWeight_nonneg hg _
  have hD0 : 0 ≤ D := (mul_pos s6 hp).le.trans hD
  have hη : c.β * c.γ * (c.A₀ * h' ^ 2) ^ 2 = c.β * c.γ * c.A₀ ^ 2 * h' ^ 3 * h' := by ring
  have hη0 : 0 ≤ c.β * c.γ * c.A₀ ^ 2 * h' ^ 3 := by
    have := hc.β; have := hc.γ
    positivity
  refine ⟨h.residual, ?_, ?_, ?_, ?_, ?_, .inl rfl, ?_, ?_, hc.β.le, hc.γ, s3.le, mul_pos s11 hp⟩
  · intro x hx
    exact h.solvable _ hl' _ ((h.size_le hx).1.trans (by linarith))
  · intro x hx v
    rw [h.geo, h.geo]
    exact h.inv _ hl' _ ((h.size_le hx).1.trans (by linarith)) v
  · intro x hx
    have k1 := (h.size_le hx).1
    have k2 := (h.size_le (le_refl (size e (x - (w (l + D) - U, D))))).1
    have hwρ : ‖w (l + D) - w (l + D)‖ ≤ c.ρ := by simpa using hc.ρ.le
    have q1 := h.quad _ hl' (U + x.1) (k1.trans (by linarith)) _ hwρ
    have e1 : f (U + x.1) - (l + x.2) • e.forcing + (J (U + x.1) ((w (l + D) - U, D) - x).1 -
        ((w (l + D) - U, D) - x).2 • e.forcing) =
        -(f (w (l + D)) - f (U + x.1) - J (U + x.1) (w (l + D) - (U + x.1))) := by
      have e2 : ((w (l + D) - U, D) - x).1 = w (l + D) - (U + x.1) := by
        change w (l + D) - U - x.1 = _; abel
      have e3 : ((w (l + D) - U, D) - x).2 = D - x.2 := rfl
      rw [e2, e3, h.balance _ hl', add_smul, add_smul, sub_smul]
      abel
    rw [e1, h.geo, norm_neg]
    refine q1.trans (mul_le_mul_of_nonneg_left ?_ hc.γ)
    rw [norm_sub_rev]
    exact pow_le_pow_left₀ (norm_nonneg _) k2 2
  · rw [crForm, h.dot_self hg, hlen]
  · intro x hx y hy
    have hR : h' ≤ (c.R + 1) * h' := by
      have := mul_pos s9 hp
      linarith
    obtain ⟨k1, k2⟩ := h.slope hg hc hφ hs hl hl' hU hD hz ((h.size_le hx).1.trans (z3.trans hR)) hy
    rw [h.geo]
    refine ⟨k1, ?_⟩
    have := mul_nonneg hA0 hD0
    linarith
  · rw [hη]
    have := mul_le_mul_of_nonneg_right hs.step hp.le
    linarith
  · rw [hη, h.geo]
    simp only
    set η := c.β * c.γ * c.A₀ ^ 2 * h' ^ 3 with hηd
    have k1 : η * h' ≤ h' := mul_le_of_le_one_left hp.le hs.small
    have k2 : (2 * ‖w (l + D) - U‖ + η * h') * (η * h') ≤ 3 * η * h' ^ 2 := by
      have k3 : 2 * ‖w (l + D) - U‖ + η * h' ≤ 3 * h' := by linarith
      have := mul_le_mul_of_nonneg_right k3 (mul_nonneg hη0 hp.le)
      linarith
    have k4 : c.W ^ 2 + loadWeight e phi ≤ c.W ^ 2 + c.Ā := by linarith
    have k5 : 0 ≤ 3 * η * h' ^ 2 := by positivity
    have k6 : 0 ≤ c.W ^ 2 + loadWeight e phi := by positivity
    refine (mul_le_mul_of_nonneg_left k2 k6).trans ((mul_le_mul_of_nonneg_right k4 k5).trans ?_)
    have := mul_le_mul_of_nonneg_right hs.real (sq_nonneg h')
    linarith

/-- The rate of the corrections. -/
theorem EqPath.rate (h : c.On e f J w a b) (hc : c.Valid) {z : V} {D tF tU h' : ℝ} (hs : c.Short tF tU h')
    (hz : ‖z‖ ≤ h') : crRate e (z, D) (c.A₀ * h' ^ 2) c.β c.γ c.W (c.m * h') ≤ c.rate := by
  obtain ⟨s1, s2, s3, s4, s5, s6, s7, s8, s9, s10, s11, s12, s13, s14⟩ := hc.signs
  have hp := hs.pos
  have hη : c.β * c.γ * (c.A₀ * h' ^ 2) ^ 2 = c.β * c.γ * c.A₀ ^ 2 * h' ^ 3 * h' := by ring
  unfold crRate PathData.rate
  rw [hη, h.geo]
  refine mul_le_mul_of_nonneg_left ?_ (mul_nonneg hc.β.le hc.γ)
  have k1 : c.β * c.γ * c.A₀ ^ 2 * h' ^ 3 * h' ≤ h' := mul_le_of_le_one_left hp.le hs.small
  have k2 : 2 * (2 * ‖z‖ + c.β * c.γ * c.A₀ ^ 2 * h' ^ 3 * h') / (c.m * h') ≤ 6 / c.m := by
    rw [div_le_div_iff₀ (mul_pos s11 hp) s11]
    have : 2 * (2 * ‖z‖ + c.β * c.γ * c.A₀ ^ 2 * h' ^ 3 * h') ≤ 6 * h' := by linarith
    have := mul_le_mul_of_nonneg_right this s11.le
    linarith
  have := mul_le_mul_of_nonneg_right k2 (show 0 ≤ c.W + 1 by linarith)
  simp only
  linarith

/-- Increments near those of the equilibrium lead forward. -/
theorem EqPath.forward (h : c.On e f J w a b) (hg : e.geo.Laws) (hc : c.Valid) (hφ : c.φ = ‖e.forcing‖) {U : V}
    {l D tF tU h' : ℝ} (hs : c.Short tF tU h') (hl : l ∈ Icc a b) (hl' : l + D ∈ Icc a b)
    (hU : ‖U - w l‖ ≤ c.C * h' ^ 4) (hD : c.θ * h' ≤ D) (hz : ‖w (l + D) - U‖ ≤ h') {x : V × ℝ}
    (hx : size e (x - (w (l + D) - U, D)) ≤ c.A₀ * h' ^ 2) : c.θ * h' / 2 ≤ x.2 ∧
    ∀ X y, ‖X - w (l + D)‖ ≤ (c.R + 1) * h' → J X y = e.forcing → 0 < e.geo.dot x.1 y := by
  have hp := hs.pos
  obtain ⟨k1, k2⟩ := h.size_le hx
  refine ⟨?_, fun X y hX hy => ?_⟩
  · have k3 := mul_le_mul_of_nonneg_right hs.ahead hp.le
    have k4 := neg_le_of_abs_le k2
    linarith
  · obtain ⟨k3, k4⟩ := h.slope hg hc hφ hs hl hl' hU hD hz hX hy
    have e1 : e.geo.dot x.1 y = e.geo.dot (w (l + D) - U) y + e.geo.dot (U + x.1 - w (l + D)) y := by
      rw [← hg.add_left]
      congr 1
      abel
    have k5 := neg_le_of_abs_le (h.dot_le hg (U + x.1 - w (l + D)) y)
    have k6 := mul_le_mul k1 k3 (norm_nonneg _) ((norm_nonneg _).trans k1)
    have k7 := mul_lt_mul_of_pos_right hs.side hp
    rw [e1]
    linarith

/-- The increments of the previous step lead forward. -/
def Sided (e : Env ℝ V Mat Fac) (J : V → V →ₗ[ℝ] V) (w : ℝ → V) (r : ℝ) (s : St ℝ V Mat Fac) : Prop :=
  0 ≤ s.DLold ∧ ∀ X y, ‖X - w s.L‖ ≤ r → J X y = e.forcing → 0 < e.geo.dot s.DUold y

theorem Started.points {s p : St ℝ V Mat Fac} {y : V} (hp : Started e o c J w s p y) (h : c.On e f J w a b)
    (hg : e.geo.Laws) (hc : c.Valid) (hφ : c.φ = ‖e.forcing‖) {tF tU D : ℝ} (hs : c.Short tF tU s.len)
    (hl : s.L ∈ Icc a b) (hl' : s.L + D ∈ Icc a b) (hU : ‖s.U - w s.L‖ ≤ c.C * s.len ^ 4)
    (hD : c.θ * s.len ≤ D) (hD' : D ≤ c.κ * s.len)
    (hlen : ‖w (s.L + D) - s.U‖ ^ 2 + loadWeight e p.phi * D ^ 2 = s.len ^ 2) :
    Points e J p.phi s.U (w (s.L + D) - s.U, D) 1 (c.A₀ * s.len ^ 2) p.DUold p.DLold ∧
    ∀ x : V × ℝ, size e (x - (w (s.L + D) - s.U, D)) ≤ c.A₀ * s.len ^ 2 →
      Points e J p.phi s.U (w (s.L + D) - s.U, D) 1 (c.A₀ * s.len ^ 2) x.1 x.2 := by
  obtain ⟨s1, s2, s3, s4, s5, s6, s7, s8, s9, s10, s11, s12, s13, s14⟩ := hc.signs
  obtain ⟨z1, z2, z3, z4, z5⟩ := hs.sizes hc
  have hp0 := hs.pos
  have hz := EqPath.length_le hg hp0 hlen
  have hD0 : 0 ≤ D := (mul_pos s6 hp0).le.trans hD
  have hR : s.len ≤ (c.R + 1) * s.len := by
    have := mul_pos s9 hp0
    linarith
  have key : ∀ x : V × ℝ, size e (x - (w (s.L + D) - s.U, D)) ≤ c.A₀ * s.len ^ 2 →
      Points e J p.phi s.U (w (s.L + D) - s.U, D) 1 (c.A₀ * s.len ^ 2) x.1 x.2 := by
    intro x hx x' hx' v hv
    obtain ⟨k1, k2⟩ := h.forward hg hc hφ hs hl hl' hU hD hz hx
    refine .inl ⟨rfl, add_nonneg (k2 _ v ((h.size_le hx').1.trans (z3.trans hR)) hv).le ?_⟩
    exact mul_nonneg (sq_nonneg _) (le_trans (by positivity) k1)
  refine ⟨?_, key⟩
  by_cases ha : o.angle = .step
  · obtain ⟨o1, o2⟩ := hp.old ha
    intro x hx v hv
    refine .inl ⟨rfl, add_nonneg (o2 _ v ?_ hv) (mul_nonneg (sq_nonneg _) o1)⟩
    have k1 := (h.size_le hx).1
    have k2 := h.lip _ hl _ hl'
    rw [add_sub_cancel_left, abs_of_nonneg hD0] at k2
    have k3 : ‖s.U + x.1 - w s.L‖ ≤ ‖s.U + x.1 - w (s.L + D)‖ + ‖w (s.L + D) - w s.L‖ :=
      norm_sub_le_norm_sub_add_norm_sub _ _ _
    have k4 := mul_le_mul_of_nonneg_left hD' hc.Λ
    unfold PathData.R
    linarith
  · obtain ⟨o1, o2⟩ := hp.new ha
    rw [o1, o2]
    exact key (p.DU, p.DL) (hp.near h hg hc hφ hs hl hl' hU hD0 hD' hlen).1

set_option maxHeartbeats 800000 in
/-- A step along the path. -/
theorem Started.step {s p : St ℝ V Mat Fac} {y : V} (hp : Started e o c J w s p y) (h : c.On e f J w a b)
    (hg : e.geo.Laws) (hc : c.Valid) (hφ : c.φ = ‖e.forcing‖) (ha : 0 ≤ a) (hF : 0 < o.tolF) (hU' : 0 < o.tolU)
    (hq : o.quasi = false) (hr : o.relax = 1) (hmax : 2 ≤ o.maxIt)
    (hs : c.Short o.tolF o.tolU s.len) (hgu : s.guess = none) (had : s.adaptive = false) (hi : s.initialized = true)
    (hl : a ≤ s.L) (hl' : s.L + (c.κ + 1) * s.len ≤ b) (hU : ‖s.U - w s.L‖ ≤ c.C * s.len ^ 4) :
    ∃ t, ALM.step e o (crisfield e o) s = (t, .ok .success) ∧ t.numIt = 1 ∧ ‖t.U - w t.L‖ ≤ c.C * s.len ^ 4 ∧
      s.L + c.θ / 2 * s.len ≤ t.L ∧ t.L ≤ s.L + (c.κ + 1) * s.len ∧ Sided e J w (c.R * s.len) t ∧ t.phi = p.phi ∧
      t.guess = none ∧ t.adaptive = false ∧ t.initialized = true ∧ t.len = s.len := by
  obtain ⟨s1, s2, s3, s4, s5, s6, s7, s8, s9, s10, s11, s12, s13, s14⟩ := hc.signs
  obtain ⟨z1, z2, z3, z4, z5⟩ := hs.sizes hc
  have hp0 := hs.pos
  obtain ⟨D, hD, hD', hlen⟩ := h.target hc hφ hs hl (by linarith) hU (loadWeight_nonneg hg _) hp.weight
  have hD0 : 0 ≤ D := (mul_pos s6 hp0).le.trans hD
  have hls : s.L ∈ Icc a b := ⟨hl, by nlinarith⟩
  have hlD : s.L + D ∈ Icc a b := ⟨by linarith, by nlinarith⟩
  have hz := EqPath.length_le hg hp0 hlen
  obtain ⟨n1, n2, n3, n4⟩ := hp.near h hg hc hφ hs hls hlD hU hD0 hD' hlen
  obtain ⟨p1, p2⟩ := hp.points h hg hc hφ hs hls hlD hU hD hD' hlen
  have hreg := h.regular hg hc hφ hs hls hlD hU hp.weight hD hlen
  have hrate := h.rate (D := D) hc hs hz
  have hA0 : 0 ≤ c.A₀ * s.len ^ 2 := by positivity
  have hE := quadError_bounds (d := c.A₀ * s.len ^ 2) s12 zero_le_one hA0 le_rfl (by rw [mul_one]; exact hs.contract)
  have hE' : QuadBounds (c.A₀ * s.len ^ 2) (crRate e (w (s.L + D) - s.U, D) (c.A₀ * s.len ^ 2) c.β c.γ c.W (c.m * s.len))
      1 (quadError c.rate 1 (c.A₀ * s.len ^ 2)) :=
    { hE with next := fun k => le_trans (by
        rw [mul_one, mul_one]; exact mul_le_mul_of_nonneg_right hrate (sq_nonneg _)) (hE.next k) }
  have hE1 : quadError c.rate 1 (c.A₀ * s.len ^ 2) 1 = c.C₁ * s.len ^ 4 := by
    rw [quadError_succ, quadError_zero]; unfold PathData.C₁; ring
  obtain ⟨t, st, c1, c2, c3, c4, c5⟩ := (hreg.contracts hg hq hr (fun _ => p2) hE' none).step (lawful_crisfield e o) hq
    hmax hp.run hp.numIt hp.atU hp.atL ⟨rfl, hp.len, p1, hp.guess⟩ (by rw [quadError_zero]; exact n1)
  have hL0 : 0 ≤ s.L := ha.trans hl
  have hWS : 0 < s.len / (c.W + c.S) := by positivity
  have hDL : 0 < p.DL := hWS.trans_le n2
  have hnormF : s.len / (c.W + c.S) * c.φ ≤ e.geo.norm ((s.L + p.DL) • e.forcing) := by
    rw [h.geo, norm_smul, Real.norm_eq_abs, abs_of_pos (by linarith), ← hφ]
    exact mul_le_mul_of_nonneg_right (by linarith) hc.φ.le
  have hnormU : s.len / (c.W + c.S) * c.ν ≤ e.geo.norm p.DU := by
    rw [h.geo, hp.disp, norm_smul, Real.norm_eq_abs, abs_of_pos hDL]
    exact mul_le_mul n2 n3 s4.le hDL.le
  obtain ⟨rfl, d2⟩ := c5 (c.M + c.φ) 1 le_rfl (by omega) (by
    refine ⟨fun t _ ht => ?_, ?_, ?_, ?_, ?_⟩
    · obtain ⟨k1, k2⟩ := h.size_le ht
      have k3 := h.force hlD (k1.trans (by rw [hE1]; linarith [(hs.within hc).1]))
      have e1 : f (s.U + t.DU) - (s.L + t.DL) • e.forcing =
          (f (s.U + t.DU) - (s.L + D) • e.forcing) - (t.DL - D) • e.forcing := by module
      rw [h.geo, e1]
      refine (norm_sub_le _ _).trans ?_
      rw [norm_smul, Real.norm_eq_abs, ← hφ, add_mul, mul_comm c.φ]
      exact add_le_add (k3.trans (mul_le_mul_of_nonneg_left k1 s1.le)) (mul_le_mul_of_nonneg_right k2 hc.φ.le)
    · rw [hE1]
      refine lt_of_lt_of_le ?_ (mul_le_mul_of_nonneg_left hnormF hF.le)
      have := mul_lt_mul_of_pos_right hs.force hp0
      have e1 : o.tolF * (1 / (c.W + c.S) * c.φ) * s.len = o.tolF * (s.len / (c.W + c.S) * c.φ) := by ring
      rw [e1] at this
      linarith
    · rw [hE1, Nat.sub_self, quadError_zero]
      refine lt_of_lt_of_le ?_ (mul_le_mul_of_nonneg_left hnormU hU'.le)
      have := mul_lt_mul_of_pos_right hs.disp hp0
      have e1 : o.tolU * (1 / (c.W + c.S) * c.ν) * s.len = o.tolU * (s.len / (c.W + c.S) * c.ν) := by ring
      rw [e1] at this
      linarith
    · exact lt_of_lt_of_le (mul_pos hWS hc.φ) hnormF
    · exact lt_of_lt_of_le (mul_pos hWS s4) hnormU)
  obtain ⟨g1, g2, g3, g4, g5, g6, g7, g8, g9, g10, g11, u, g12, g13, g14, g15, g16⟩ := c3 rfl
  have hn : t.numIt = 1 := by omega
  rw [hn, hE1] at g3
  obtain ⟨k1, k2⟩ := h.size_le g3
  rw [← g1] at k1
  have k2' : |t.L - (s.L + D)| ≤ c.C₁ * s.len ^ 4 := by
    rw [g2]
    have : s.L + t.DL - (s.L + D) = t.DL - D := by ring
    rwa [this]
  obtain ⟨k3, k4⟩ := abs_le.1 k2'
  have k5 := mul_le_mul_of_nonneg_right hs.ahead hp0.le
  have hlow : s.L + c.θ / 2 * s.len ≤ t.L := by linarith
  have hup : t.L ≤ s.L + (c.κ + 1) * s.len := by linarith
  have htl : t.L ∈ Icc a b := ⟨by nlinarith, hup.trans hl'⟩
  have hw := h.lip _ htl _ hlD
  rw [abs_sub_comm] at hw
  have hw' := hw.trans (mul_le_mul_of_nonneg_left k2' hc.Λ)
  refine ⟨t, c1, hn, ?_, hlow, hup, ?_, g14.trans g12.1, g13.trans g12.2.2.2, g9.trans (hp.adaptive.trans had),
    g11.trans (hp.initialized.trans hi), ?_⟩
  · have : ‖t.U - w t.L‖ ≤ ‖t.U - w (s.L + D)‖ + ‖w (s.L + D) - w t.L‖ := norm_sub_le_norm_sub_add_norm_sub _ _ _
    unfold PathData.C
    linarith
  · have key : ∃ x : V × ℝ, size e (x - (w (s.L + D) - s.U, D)) ≤ c.A₀ * s.len ^ 2 ∧ t.DUold = x.1 ∧ t.DLold = x.2 := by
      obtain ⟨m1, m2⟩ := C38_stored hmax c1
      by_cases hang : o.angle = .predictor
      · obtain ⟨p', q1, q2, q3⟩ := m2 hang (by simp [usesGuess, hgu])
        rw [hp.run, Prod.mk.injEq] at q1
        obtain ⟨rfl, -⟩ := q1
        exact ⟨(p.DU, p.DL), n1, q2, q3⟩
      · obtain ⟨q2, q3⟩ := m1 hang
        refine ⟨(t.DU, t.DL), g3.trans z4, ?_, ?_⟩
        · rw [q2, g1, add_sub_cancel_left]
        · rw [q3, g2, add_sub_cancel_left]
    obtain ⟨x, x1, x2, x3⟩ := key
    obtain ⟨q1, q2⟩ := h.forward hg hc hφ hs hls hlD hU hD hz x1
    refine ⟨?_, fun X v hX hv => ?_⟩
    · rw [x3]; exact le_trans (by positivity) q1
    · rw [x2]
      refine q2 X v ?_ hv
      have : ‖X - w (s.L + D)‖ ≤ ‖X - w t.L‖ + ‖w t.L - w (s.L + D)‖ := norm_sub_le_norm_sub_add_norm_sub _ _ _
      rw [norm_sub_rev (w t.L)] at this
      linarith
  · rw [g10, hp.adaptive, had, hp.len]; rfl

end GsSA.ALM
