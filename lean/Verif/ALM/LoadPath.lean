import Mathlib.Analysis.Normed.Module.Basic
import Mathlib.Topology.MetricSpace.Pseudo.Basic
import Verif.ALM.NewtonProps
import Verif.ALM.LinearProps

/-!
# Load control along a path of equilibria (C134)
-/

namespace GsSA.ALM

open GsSA Set

set_option linter.unusedSectionVars false

variable {V Mat Fac : Type} [NormedAddCommGroup V] [NormedSpace ℝ V]
variable {e : Env ℝ V Mat Fac} {o : Opts ℝ}

/-- `w` is a path of equilibria of a structure with internal forces `f`, for loads from `a` to `b`. Up to the
distance `ρ` from the path the linear solver works, the tangent `J` and its inverse are bounded by `μ` and `β`,
and it approximates the internal forces to second order with constant `γ`. The path moves with speed at most
`Λ`. -/
structure EqPath (e : Env ℝ V Mat Fac) (f : V → V) (J : V → V →ₗ[ℝ] V) (w : ℝ → V) (a b ρ β γ μ Λ : ℝ) : Prop where
  geo : ∀ x, e.geo.norm x = ‖x‖
  residual : ∀ n x l, e.residual n x l = some (f x - l • e.forcing)
  balance : ∀ l ∈ Icc a b, f (w l) = l • e.forcing
  solvable : ∀ l ∈ Icc a b, ∀ x, ‖x - w l‖ ≤ ρ → Solvable e J x
  inv : ∀ l ∈ Icc a b, ∀ x, ‖x - w l‖ ≤ ρ → ∀ y, ‖y‖ ≤ β * ‖J x y‖
  bdd : ∀ l ∈ Icc a b, ∀ x, ‖x - w l‖ ≤ ρ → ∀ y, ‖J x y‖ ≤ μ * ‖y‖
  quad : ∀ l ∈ Icc a b, ∀ x, ‖x - w l‖ ≤ ρ → ∀ x', ‖x' - w l‖ ≤ ρ →
    ‖f x' - f x - J x (x' - x)‖ ≤ γ * ‖x' - x‖ ^ 2
  lip : ∀ l ∈ Icc a b, ∀ l' ∈ Icc a b, ‖w l' - w l‖ ≤ Λ * |l' - l|
  posρ : 0 < ρ
  posβ : 0 < β
  posγ : 0 ≤ γ
  posμ : 0 < μ
  posΛ : 0 ≤ Λ

variable {f : V → V} {J : V → V →ₗ[ℝ] V} {w : ℝ → V} {a b ρ β γ μ Λ : ℝ}

/-- Internal forces near the path. -/
theorem EqPath.force (h : EqPath e f J w a b ρ β γ μ Λ) {l : ℝ} (hl : l ∈ Icc a b) {x : V} (hx : ‖x - w l‖ ≤ ρ) :
    ‖f x - l • e.forcing‖ ≤ (μ + γ * ρ) * ‖x - w l‖ := by
  have h0 : ‖w l - w l‖ ≤ ρ := by simpa using h.posρ.le
  have h1 := h.quad l hl (w l) h0 x hx
  have h2 := h.bdd l hl (w l) h0 (x - w l)
  rw [← h.balance l hl]
  have e1 : f x - f (w l) = (f x - f (w l) - J (w l) (x - w l)) + J (w l) (x - w l) := by abel
  rw [e1]
  refine (norm_add_le _ _).trans ((add_le_add h1 h2).trans ?_)
  have h3 := mul_le_mul_of_nonneg_left hx (mul_nonneg h.posγ (norm_nonneg (x - w l)))
  nlinarith

/-- The error of the predictor. -/
theorem EqPath.predictor (h : EqPath e f J w a b ρ β γ μ Λ) {l len δ : ℝ} (hl : l ∈ Icc a b) (hl' : l + len ∈ Icc a b)
    (hlen : 0 ≤ len) {x y : V} (hx : ‖x - w l‖ ≤ δ) (hy : J x y = e.forcing) (hρ : δ + Λ * len ≤ ρ) :
    ‖x + len • y - w (l + len)‖ ≤ β * ((μ + γ * ρ) * δ + γ * (δ + Λ * len) ^ 2) := by
  have p1 : 0 ≤ Λ * len := mul_nonneg h.posΛ hlen
  have hδ : 0 ≤ δ := (norm_nonneg _).trans hx
  have hxρ : ‖x - w l‖ ≤ ρ := by linarith
  have hz : ‖w (l + len) - w l‖ ≤ Λ * len := by
    have := h.lip l hl _ hl'
    rwa [add_sub_cancel_left, abs_of_nonneg hlen] at this
  have hq := h.quad l hl x hxρ (w (l + len)) (by linarith)
  have hi := h.inv l hl x hxρ (x + len • y - w (l + len))
  have hd : ‖w (l + len) - x‖ ≤ δ + Λ * len := by
    have : w (l + len) - x = (w (l + len) - w l) - (x - w l) := by abel
    rw [this]
    exact (norm_sub_le _ _).trans (by linarith)
  refine hi.trans (mul_le_mul_of_nonneg_left ?_ h.posβ.le)
  have e1 : J x (x + len • y - w (l + len)) =
      (f x - l • e.forcing) + (f (w (l + len)) - f x - J x (w (l + len) - x)) := by
    rw [h.balance _ hl', map_sub, map_add, map_smul, hy, map_sub, add_smul]
    abel
  rw [e1]
  refine (norm_add_le _ _).trans (add_le_add ?_ (hq.trans ?_))
  · refine (h.force hl hxρ).trans (mul_le_mul_of_nonneg_left hx ?_)
    exact add_nonneg h.posμ.le (mul_nonneg h.posγ h.posρ.le)
  · exact mul_le_mul_of_nonneg_left (pow_le_pow_left₀ (norm_nonneg _) hd 2) h.posγ

/-- The corrections contract. -/
theorem EqPath.contracts (h : EqPath e f J w a b ρ β γ μ Λ) (hq : o.quasi = false) {U : V} {l len : ℝ}
    (hl : l + len ∈ Icc a b) {E : ℕ → ℝ} (hE : QuadBounds ρ β γ E) :
    Contracts e o (loadControl e) (fun x l => f x - l • e.forcing) U l (fun x _ => ‖U + x - w (l + len)‖)
      (fun s => s.DL = len ∧ s.guess = none) E where
  residual := h.residual
  correct s k hU hL hr hP hk := by
    have hx := hk.trans (hE.le k)
    have hN := newtonian_loadControl (e := e) (o := o) hq J len none
    obtain ⟨t, dl, h1, h2, h3, h4, h5, -⟩ := hN.correct s (by rw [hU]; exact h.solvable _ hl _ hx) hP
      (fun _ _ => one_ne_zero)
    have hdl : dl = 0 := by
      have := h2.1
      rw [h4, hP.1] at this
      linarith
    have hJ : J (U + s.DU) t.dU = (l + len) • e.forcing - f (U + s.DU) := by
      rw [hdl, zero_smul, sub_zero, hU, hr, hP.1] at h5
      rw [h5]; abel
    have hnext : ‖U + t.DU - w (l + len)‖ ≤ E (k + 1) := by
      have hz : ‖w (l + len) - w (l + len)‖ ≤ ρ := by simpa using h.posρ.le
      have h6 := h.quad _ hl (U + s.DU) hx (w (l + len)) hz
      have h7 := h.inv _ hl (U + s.DU) hx (U + t.DU - w (l + len))
      have e1 : J (U + s.DU) (U + t.DU - w (l + len)) =
          f (w (l + len)) - f (U + s.DU) - J (U + s.DU) (w (l + len) - (U + s.DU)) := by
        have e2 : U + t.DU - w (l + len) = t.dU - (w (l + len) - (U + s.DU)) := by rw [h3]; abel
        rw [e2, map_sub, hJ, h.balance _ hl]
      rw [e1] at h7
      refine h7.trans ((mul_le_mul_of_nonneg_left h6 h.posβ.le).trans (le_trans ?_ (hE.next k)))
      rw [← mul_assoc, norm_sub_rev]
      exact mul_le_mul_of_nonneg_left (pow_le_pow_left₀ (norm_nonneg _) hk 2) (mul_nonneg h.posβ.le h.posγ)
    refine ⟨t, h1, h2, hnext, ?_⟩
    rw [h.geo]
    have e3 : t.dU = (U + t.DU - w (l + len)) - (U + s.DU - w (l + len)) := by rw [h3]; abel
    rw [e3]
    exact (norm_sub_le _ _).trans (by rw [add_comm]; exact add_le_add hk hnext)
  frame s t _ _ _ _ _ h6 _ _ h9 hP := ⟨h6.trans hP.1, h9.trans hP.2⟩

/-- The predictor of load control. -/
theorem begin_loadControl {s : St ℝ V Mat Fac} (hi : s.initialized = true) (hgu : s.guess = none)
    (hs : Solvable e J s.U) :
    ∃ p y, beginStep e (loadControl e) s = (p, .ok ()) ∧ J s.U y = e.forcing ∧ p.DU = s.len • y ∧ p.DL = s.len ∧
      p.guess = none ∧ p.U = s.U ∧ p.L = s.L ∧ p.numIt = 0 ∧ p.len = s.len ∧ p.adaptive = s.adaptive ∧
      p.initialized = s.initialized := by
  obtain ⟨m, f, l, h1, h2⟩ := Solvable.assemble (s := { s with
    converged := false, numIt := 0, DU := 0, dU := 0, DL := 0, dL := 0 }) (by simpa using hs)
  obtain ⟨y, l', h3, h4⟩ := solve_ut (e := e) (s := { s with
    converged := false, numIt := 0, DU := 0, dU := 0, jac := m, fac := some f, log := l,
    DL := s.len, dL := s.len }) rfl h2
  refine ⟨{ s with
    converged := false, numIt := 0, dU := 0, jac := m, fac := some f, Ut := y, log := l', DL := s.len, dL := s.len,
    DU := s.len • y }, y, ?_, by simpa using h4, rfl, rfl, hgu, rfl, rfl, rfl, rfl, rfl, rfl⟩
  rw [begin_eq (s1 := { s with
    converged := false, numIt := 0, DU := 0, dU := 0, DL := 0, dL := 0 }) hi rfl hgu]
  change lcPredict e (fun s => s.len) _ = _
  unfold lcPredict
  rw [Act.bind_ok h1, Act.bind_ok (Act.modify_apply _ _), Act.bind_ok h3]
  rfl

/-- The length `h` is short enough for one iteration to suffice, when the error at the start is at most
`C h ^ 4` and that of the predictor `A h ^ 2`. -/
structure Short (ρ β γ μ Λ φ tF tU A C h : ℝ) : Prop where
  pos : 0 < h
  start : C * h ^ 4 + Λ * h ≤ ρ
  pred : β * ((μ + γ * ρ) * (C * h ^ 4) + γ * (C * h ^ 4 + Λ * h) ^ 2) ≤ A * h ^ 2
  near : A * h ^ 2 ≤ ρ
  small : β * γ * (A * h ^ 2) ≤ 1
  last : β * γ * (A * h ^ 2) ^ 2 ≤ C * h ^ 4
  force : (μ + γ * ρ) * (C * h ^ 4) < tF * (h * φ)
  step : A * h ^ 2 + C * h ^ 4 < tU * (h * (φ / μ))

theorem ever_lt {p : ℝ → ℝ} (hp : Continuous p) (h0 : p 0 = 0) {c : ℝ} (hc : 0 < c) :
    ∀ᶠ h in nhds (0 : ℝ), p h < c :=
  (hp.tendsto' 0 0 h0).eventually (gt_mem_nhds hc)

/-- All short enough lengths are. -/
theorem exists_short (hρ : 0 < ρ) (hβ : 0 < β) (hγ : 0 ≤ γ) (hμ : 0 < μ) {φ tF tU : ℝ} (hφ : 0 < φ)
    (hF : 0 < tF) (hU : 0 < tU) :
    ∃ A C h₀, 0 ≤ A ∧ 0 ≤ C ∧ 0 < h₀ ∧ ∀ h, 0 < h → h ≤ h₀ → Short ρ β γ μ Λ φ tF tU A C h := by
  set A := 4 * β * γ * Λ ^ 2 + 1 + 4 * β * γ with hA
  have hA1 : 0 < A := by positivity
  set C := β * γ * A ^ 2 with hC
  have hC0 : 0 ≤ C := by positivity
  set M := μ + γ * ρ with hM
  have hM0 : 0 ≤ M := by positivity
  have e1 := ever_lt (p := fun h => C * h ^ 4 + Λ * h) (by fun_prop) (by simp) hρ
  have e2 := ever_lt (p := fun h => A * h ^ 2) (by fun_prop) (by simp) hρ
  have e3 := ever_lt (p := fun h => β * γ * (A * h ^ 2)) (by fun_prop) (by simp) one_pos
  have e4 := ever_lt (p := fun h => M * (C * h ^ 3)) (by fun_prop) (by simp) (mul_pos hF hφ)
  have e5 := ever_lt (p := fun h => A * h + C * h ^ 3) (by fun_prop) (by simp) (mul_pos hU (div_pos hφ hμ))
  have e6 := ever_lt (p := fun h => β * M * C * h ^ 2) (by fun_prop) (by simp) one_pos
  have e7 := ever_lt (p := fun h => C * h ^ 3) (by fun_prop) (by simp) one_pos
  have e8 := ever_lt (p := fun h => h) (by fun_prop) rfl one_pos
  obtain ⟨ε, hε, key⟩ := Metric.eventually_nhds_iff.1 (((e1.and e2).and (e3.and e4)).and ((e5.and e6).and (e7.and e8)))
  refine ⟨A, C, ε / 2, hA1.le, hC0, by positivity, fun h hh0 hh => ?_⟩
  obtain ⟨⟨⟨k1, k2⟩, k3, k4⟩, ⟨k5, k6⟩, k7, k8⟩ := key (y := h) (by
    rw [Real.dist_eq, sub_zero, abs_of_pos hh0]; linarith)
  refine ⟨hh0, k1.le, ?_, k2.le, k3.le, ?_, ?_, ?_⟩
  · have q1 : C * h ^ 4 ≤ h := by
      have := mul_le_mul_of_nonneg_right k7.le hh0.le
      linarith
    have q2 : (C * h ^ 4 + Λ * h) ^ 2 ≤ (2 + 2 * Λ ^ 2) * h ^ 2 := by
      have q3 : 0 ≤ C * h ^ 4 := by positivity
      have q4 : (C * h ^ 4) ^ 2 ≤ h ^ 2 := pow_le_pow_left₀ q3 q1 2
      nlinarith [sq_nonneg (C * h ^ 4 - Λ * h)]
    have q5 : β * (M * (C * h ^ 4)) ≤ h ^ 2 := by
      have : β * (M * (C * h ^ 4)) = β * M * C * h ^ 2 * h ^ 2 := by ring
      rw [this]
      exact mul_le_of_le_one_left (by positivity) k6.le
    have q6 := mul_le_mul_of_nonneg_left q2 (mul_nonneg hβ.le hγ)
    have q7 : 0 ≤ β * γ * h ^ 2 := by positivity
    have q8 : 0 ≤ β * γ * Λ ^ 2 * h ^ 2 := by positivity
    rw [hA, mul_add, ← mul_assoc β γ]
    linarith
  · rw [hC]; ring_nf; exact le_rfl
  · have : M * (C * h ^ 4) = M * (C * h ^ 3) * h := by ring
    rw [this]
    have := mul_lt_mul_of_pos_right k4 hh0
    linarith
  · have : A * h ^ 2 + C * h ^ 4 = (A * h + C * h ^ 3) * h := by ring
    rw [this]
    have := mul_lt_mul_of_pos_right k5 hh0
    linarith

/-- One short step along the path: it succeeds in one iteration and ends as close to the path as it began. -/
theorem EqPath.step (h : EqPath e f J w a b ρ β γ μ Λ) (hq : o.quasi = false) (hmax : 2 ≤ o.maxIt) (ha : 0 ≤ a)
    {s : St ℝ V Mat Fac} (hi : s.initialized = true) (hgu : s.guess = none) (had : s.adaptive = false)
    {A C : ℝ} (hs : Short ρ β γ μ Λ ‖e.forcing‖ o.tolF o.tolU A C s.len) (hA : 0 ≤ A) (hC : 0 ≤ C) (hF : e.forcing ≠ 0)
    (hl : s.L ∈ Icc a b) (hl' : s.L + s.len ∈ Icc a b) (hU : ‖s.U - w s.L‖ ≤ C * s.len ^ 4) :
    ∃ t, ALM.step e o (loadControl e) s = (t, .ok .success) ∧ t.numIt = 1 ∧ t.L = s.L + s.len ∧
      ‖t.U - w t.L‖ ≤ C * s.len ^ 4 ∧ t.initialized = true ∧ t.guess = none ∧ t.adaptive = false ∧
      t.len = s.len := by
  have hlen := hs.pos
  have hM : 0 ≤ μ + γ * ρ := add_nonneg h.posμ.le (mul_nonneg h.posγ h.posρ.le)
  have hφ : 0 < ‖e.forcing‖ := norm_pos_iff.2 hF
  have hUρ : ‖s.U - w s.L‖ ≤ ρ := by
    have := mul_nonneg h.posΛ hlen.le
    linarith [hs.start]
  obtain ⟨p, y, b1, b2, b3, b4, b5, b6, b7, b8, b9, b10, b11⟩ := begin_loadControl hi hgu (h.solvable _ hl _ hUρ)
  have hE := quadError_bounds (d := ρ) h.posβ.le h.posγ (mul_nonneg hA (sq_nonneg s.len)) hs.near hs.small
  have hE1 : quadError β γ (A * s.len ^ 2) 1 ≤ C * s.len ^ 4 := by
    rw [quadError_succ, quadError_zero]
    exact hs.last
  have hpred := h.predictor hl hl' hlen.le hU b2 hs.start
  obtain ⟨t, st, c1, c2, c3, c4, c5⟩ := (h.contracts (o := o) (U := s.U) hq hl' hE).step (lawful_loadControl e) hq hmax
    b1 b8 b6 b7 ⟨b4, b5⟩ (by
      rw [quadError_zero, b3]
      exact hpred.trans hs.pred)
  have hy : ‖e.forcing‖ / μ ≤ ‖y‖ := by
    rw [div_le_iff₀ h.posμ, ← b2, mul_comm]
    exact h.bdd _ hl _ hUρ y
  have hnormU : e.geo.norm p.DU = s.len * ‖y‖ := by
    rw [h.geo, b3, norm_smul, Real.norm_eq_abs, abs_of_pos hlen]
  have hnormF : e.geo.norm ((s.L + p.DL) • e.forcing) = (s.L + s.len) * ‖e.forcing‖ := by
    have : 0 ≤ s.L := ha.trans hl.1
    rw [h.geo, b4, norm_smul, Real.norm_eq_abs, abs_of_nonneg (by linarith)]
  have hL0 : 0 ≤ s.L := ha.trans hl.1
  have htF : 0 < o.tolF := by
    by_contra hneg
    have k1 := hs.force
    have k2 : 0 ≤ (μ + γ * ρ) * (C * s.len ^ 4) := by positivity
    have k3 := mul_nonneg (sub_nonneg.2 (not_lt.1 hneg)) (mul_pos hlen hφ).le
    linarith
  have htU : 0 < o.tolU := by
    by_contra hneg
    have k1 := hs.step
    have k2 : 0 ≤ A * s.len ^ 2 + C * s.len ^ 4 := by positivity
    have k3 := mul_nonneg (sub_nonneg.2 (not_lt.1 hneg)) (mul_pos hlen (div_pos hφ h.posμ)).le
    linarith
  obtain ⟨rfl, d2⟩ := c5 (μ + γ * ρ) 1 le_rfl (by omega) (by
    refine ⟨fun t hP ht => ?_, ?_, ?_, ?_, ?_⟩
    · rw [h.geo, hP.1]
      exact (h.force hl' (ht.trans (hE.le 1))).trans (mul_le_mul_of_nonneg_left ht hM)
    · rw [hnormF]
      have k1 := mul_le_mul_of_nonneg_left hE1 hM
      have k2 : o.tolF * (s.len * ‖e.forcing‖) ≤ o.tolF * ((s.L + s.len) * ‖e.forcing‖) := by
        refine mul_le_mul_of_nonneg_left (mul_le_mul_of_nonneg_right (by linarith) hφ.le) htF.le
      linarith [hs.force]
    · rw [hnormU]
      have k2 : o.tolU * (s.len * (‖e.forcing‖ / μ)) ≤ o.tolU * (s.len * ‖y‖) :=
        mul_le_mul_of_nonneg_left (mul_le_mul_of_nonneg_left hy hlen.le) htU.le
      simp only [Nat.sub_self, quadError_zero]
      linarith [hs.step]
    · rw [hnormF]; exact mul_pos (by linarith) hφ
    · rw [hnormU]; exact mul_pos hlen ((div_pos hφ h.posμ).trans_le hy))
  obtain ⟨g1, g2, g3, g4, g5, g6, g7, g8, g9, g10, g11, u, g12, g13, -, g14, g15⟩ := c3 rfl
  have hn : t.numIt = 1 := by omega
  have htL : t.L = s.L + s.len := by rw [g2, g15, g12.1]
  refine ⟨t, c1, hn, htL, ?_, g11.trans (b11.trans hi), g13.trans g12.2, g9.trans (b10.trans had), ?_⟩
  · rw [htL, g1]
    rw [hn] at g3
    exact g3.trans hE1
  · rw [g10, b10, had, b9]; rfl

/-- **C134**: load control along a path of equilibria. For all lengths that are short enough, any number of
steps along the path succeeds, each in one iteration, and every point reached is within `C len ^ 4` of the
path at its load. How short is enough does not depend on the number of steps. -/
theorem C134_loadControl_path (h : EqPath e f J w a b ρ β γ μ Λ) (ha : 0 ≤ a) (hF : e.forcing ≠ 0) {tF tU : ℝ}
    (hF' : 0 < tF) (hU' : 0 < tU) :
    ∃ C h₀, 0 ≤ C ∧ 0 < h₀ ∧ ∀ (o : Opts ℝ) (s : St ℝ V Mat Fac), o.quasi = false → 2 ≤ o.maxIt → o.tolF = tF →
      o.tolU = tU → s.initialized = true → s.guess = none → s.adaptive = false → 0 < s.len → s.len ≤ h₀ →
      a ≤ s.L → ‖s.U - w s.L‖ ≤ C * s.len ^ 4 → ∀ n : ℕ, s.L + n * s.len ≤ b →
      let at' := fun k => (fun s => (ALM.step e o (loadControl e) s).1)^[k] s
      (∀ k < n, (ALM.step e o (loadControl e) (at' k)).2 = .ok .success ∧ (at' (k + 1)).numIt = 1) ∧
      ∀ k ≤ n, (at' k).L = s.L + k * s.len ∧ ‖(at' k).U - w (at' k).L‖ ≤ C * s.len ^ 4 := by
  obtain ⟨A, C, h₀, hA, hC, hh, key⟩ := exists_short (ρ := ρ) (β := β) (γ := γ) (μ := μ) (Λ := Λ) h.posρ h.posβ
    h.posγ h.posμ (norm_pos_iff.2 hF) hF' hU'
  refine ⟨C, h₀, hC, hh, ?_⟩
  intro o s hq hmax h1 h2 hi hgu had hl0 hl1 hsa hs n hn at'
  have hlen := key s.len hl0 hl1
  have inv : ∀ k ≤ n, (at' k).initialized = true ∧ (at' k).guess = none ∧ (at' k).adaptive = false ∧
      (at' k).len = s.len ∧ (at' k).L = s.L + k * s.len ∧ ‖(at' k).U - w (at' k).L‖ ≤ C * s.len ^ 4 ∧
      (∀ j, k = j + 1 → (ALM.step e o (loadControl e) (at' j)).2 = .ok .success ∧ (at' k).numIt = 1) := by
    intro k
    induction k with
    | zero => exact fun _ => ⟨hi, hgu, had, rfl, by simp [at'], hs, by simp⟩
    | succ k ih =>
      intro hk
      obtain ⟨i1, i2, i3, i4, i5, i6, -⟩ := ih (by omega)
      have hkn : ((k : ℝ) + 1) * s.len ≤ n * s.len :=
        mul_le_mul_of_nonneg_right (by exact_mod_cast hk) hl0.le
      have hk0 : 0 ≤ (k : ℝ) * s.len := by positivity
      obtain ⟨t, c1, c2, c3, c4, c5, c6, c7, c8⟩ := h.step (o := o) hq hmax ha i1 i2 i3 (A := A) (C := C)
        (by rw [i4, h1, h2]; exact hlen) hA hC hF (by rw [i5]; constructor <;> nlinarith)
        (by rw [i5, i4]; constructor <;> nlinarith) (by rw [i4]; exact i6)
      have hat : at' (k + 1) = t := by
        simp only [at', Function.iterate_succ_apply'] at c1 ⊢
        rw [c1]
      rw [hat]
      rw [i4] at c3 c4 c8
      refine ⟨c5, c6, c7, c8, ?_, c4, fun j hj => ?_⟩
      · rw [c3, i5]; push_cast; ring
      · obtain rfl : j = k := by omega
        exact ⟨by rw [c1], c2⟩
  refine ⟨fun k hk => (inv (k + 1) (by omega)).2.2.2.2.2.2 k rfl, fun k hk => ?_⟩
  obtain ⟨-, -, -, -, i5, i6, -⟩ := inv k hk
  exact ⟨i5, i6⟩

end GsSA.ALM
