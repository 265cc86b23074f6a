import Mathlib.Analysis.SpecialFunctions.Trigonometric.Deriv
import Mathlib.Analysis.SpecialFunctions.Trigonometric.Bounds
import Mathlib.Analysis.Complex.ExponentialBounds
import Mathlib.Analysis.SpecialFunctions.Trigonometric.DerivHyp
import Verif.Dynamic.Converge
import Verif.Dynamic.StepProps

/-!
# The explicit integrators converge to the motion of the structure (C133)
-/

set_option linter.unusedSectionVars false

namespace GsSA.Dynamic

open GsSA GsSA.Static Set
open GsSA.ALM (Act Err)

variable {V : Type} [NormedAddCommGroup V] [NormedSpace ℝ V]

section steps

variable {e : Env ℝ V} {o : Opts ℝ} {M C S : V →ₗ[ℝ] V} {F : ℝ → V} {R : ℝ → V → V}
  {J : ℝ → V → V →ₗ[ℝ] V} {t dt : ℝ} {s : DSt ℝ V}

theorem rkNext_eq (X C S : V →ₗ[ℝ] V) (F : ℝ → V) (t dt : ℝ) (w : V × V) :
    rkNext X C S F t dt w = rkStep (rate X C fun t u => F t - S u) t dt w := rfl

theorem rate_linear (X C S : V →ₗ[ℝ] V) (F : ℝ → V) :
    (rate X C fun t u => F t - S u) = fun t w => firstOrder X C S w + ((0 : V), X (F t)) := by
  funext t w
  have e1 : firstOrder X C S w = (w.2, X (-(S w.1) - C w.2)) := rfl
  rw [e1]
  refine Prod.ext (by simp [rate]) ?_
  simp only [rate, Prod.snd_add, map_sub, map_neg]
  abel

theorem rate_lipschitz {X C S : V →ₗ[ℝ] V} {ℓ : ℝ} (F : ℝ → V) (hL : ∀ w, ‖firstOrder X C S w‖ ≤ ℓ * ‖w‖)
    (t : ℝ) (w w' : V × V) :
    ‖rate X C (fun t u => F t - S u) t w - rate X C (fun t u => F t - S u) t w'‖ ≤ ℓ * ‖w - w'‖ := by
  rw [rate_linear]
  refine le_trans (le_of_eq ?_) (hL (w - w'))
  rw [map_sub, add_sub_add_right_eq_sub]

theorem rk4N_callbacks (hc : Callbacks e M C R J) (t dt : ℝ) (s : DSt ℝ V) :
    ∃ lg, rk4N e t dt s =
      let X := minvOf e M s
      let w := rkStep (rate X C R) t dt (s.u, s.v)
      ({ s with u := w.1, v := w.2, massInv := some X, log := lg },
        .ok (finiteStatus e (e.norm2 w.1 w.2))) := by
  have h : ∃ lg, rk4N e t dt s = ((rk4N e t dt s).1, (rk4N e t dt s).2) ∧ lg = (rk4N e t dt s).1.log :=
    ⟨_, rfl, rfl⟩
  obtain ⟨lg, -, hlg⟩ := h
  refine ⟨lg, ?_⟩
  rw [hlg]
  simp only [rk4N, computeMass, computeResidual, computeDamping, computeJacobian, setUV, Act.bind_apply,
    Act.get_apply, Act.modify_apply, Act.pure_apply,
    call, hc.mass, hc.damping, hc.jacobian, hc.residual, computeMassInverse_apply, minvOf, rkStep, rate]
  rfl

theorem explicitEulerN_callbacks (hc : Callbacks e M C R J) (t dt : ℝ) (s : DSt ℝ V) :
    ∃ lg, explicitEulerN e t dt s =
      let X := minvOf e M s
      let w := (s.u, s.v) + dt • rate X C (fun t u => -R t u) t (s.u, s.v)
      ({ s with u := w.1, v := w.2, massInv := some X, log := lg },
        .ok (finiteStatus e (e.norm2 w.1 w.2))) := by
  refine ⟨(.residual s.u t, true) :: (.damping s.u t, true) :: (.mass t, true) :: s.log, ?_⟩
  simp [explicitEulerN, computeMass, computeResidual, computeDamping, setUV, Act.bind_apply,
    call, hc.mass, hc.damping, hc.residual, computeMassInverse_apply, minvOf, rate]

/-- The mass inverse is not there yet, or it is the right one. -/
def HasMass (e : Env ℝ V) (M : V →ₗ[ℝ] V) (s : DSt ℝ V) : Prop :=
  s.massInv = none ∨ s.massInv = some (e.inverse M)

theorem HasMass.minv (h : HasMass e M s) : minvOf e M s = e.inverse M := by
  rcases h with h | h <;> simp [minvOf, h]

/-- The accumulation of errors for the explicit methods. -/
theorem explicit_converge {f : ℝ → ℝ → Act (DSt ℝ V) Status} {Φ : ℝ → ℝ → V × V → V × V} {y : ℝ → V × V}
    {ℓ c h a b : ℝ} {p : ℕ} (hc : 0 ≤ c) (hℓ : 0 ≤ ℓ) (l : List ℝ) (hl : ∀ dt ∈ l, 0 < dt ∧ dt ≤ h)
    (hf : ∀ t dt s, HasMass e M s → ∃ lg r, f t dt s =
      ({ s with u := (Φ t dt (s.u, s.v)).1, v := (Φ t dt (s.u, s.v)).2, massInv := some (e.inverse M), log := lg },
        .ok r))
    (herr : ∀ dt ∈ l, ∀ t w, a ≤ t → t + dt ≤ b →
      ‖Φ t dt w - y (t + dt)‖ ≤ Real.exp (ℓ * dt) * ‖w - y t‖ + c * dt ^ (p + 1))
    (s : DSt ℝ V) (hs : HasMass e M s) (ha : a ≤ s.time) (hb : s.time + l.sum ≤ b) :
    let q := (steps none f l s).1
    q.time = s.time + l.sum ∧
      ‖(q.u, q.v) - y (s.time + l.sum)‖ ≤
        Real.exp (ℓ * l.sum) * (‖(s.u, s.v) - y s.time‖ + c * l.sum * h ^ p) := by
  refine accumulate (Inv := HasMass e M) (N := fun x => ‖x‖) (b := b) hc hℓ l hl ?_ s hs ha hb
  intro dt hdt s hs ha hb
  obtain ⟨lg, r, h1⟩ := hf s.time dt s hs
  exact ⟨_, r, step_none _ _ _ _ _ h1, .inr rfl, rfl, herr dt hdt s.time (s.u, s.v) ha hb⟩

end steps

/-- **C133**, explicit Euler on a linear structure: the error at the end is of first order in the largest
step. -/
theorem C133_euler (e : Env ℝ V) (o : Opts ℝ) (M C S : V →ₗ[ℝ] V) (F : ℝ → V) (hl : Linear e M C S)
    (hf : Forced e F) (hX : ∀ v, e.inverse M (M v) = v) (x : ℕ → ℝ → V) (a b : ℝ)
    (hx : Motion M C (fun t u => F t - S u) x 3 a b) (ℓ Y : ℝ) (hℓ : 0 ≤ ℓ)
    (hL : ∀ w, ‖firstOrder (e.inverse M) C S w‖ ≤ ℓ * ‖w‖) (hY : ∀ t ∈ Icc a b, ‖(x 2 t, x 3 t)‖ ≤ Y)
    (h : ℝ) (l : List ℝ) (hdt : ∀ dt ∈ l, 0 < dt ∧ dt ≤ h) (s : DSt ℝ V)
    (hs : s.massInv = none ∨ s.massInv = some (e.inverse M)) (ha : a ≤ s.time) (hb : s.time + l.sum ≤ b) :
    let q := (steps none (integrate .explicitEuler false e o) l s).1
    let T := s.time + l.sum
    q.time = T ∧ ‖(q.u, q.v) - (x 0 T, x 1 T)‖ ≤
      Real.exp (ℓ * l.sum) * (‖(s.u, s.v) - (x 0 s.time, x 1 s.time)‖ + Y / 2 * l.sum * h) := by
  have hsum : 0 ≤ l.sum := List.sum_nonneg fun x hx => (hdt x hx).1.le
  have hY0 : 0 ≤ Y := (norm_nonneg _).trans (hY s.time ⟨ha, by linarith⟩)
  have := explicit_converge (e := e) (M := M) (f := integrate .explicitEuler false e o)
    (Φ := fun t dt w => w + dt • rate (e.inverse M) C (fun t u => F t - S u) t w) (y := pair x 0) (p := 1)
    (c := Y / 2) (by linarith) hℓ l hdt
    (fun t dt s hs => by
      obtain ⟨lg, h1⟩ := explicitEulerL_linear hl hf t dt s
      rw [hs.minv] at h1
      exact ⟨lg, _, h1⟩)
    (fun dt hd t w ha hb => euler_error hx.smooth.pair (fun t ht => hx.rate hX ht)
      (rate_lipschitz F hL) hY ha (hdt dt hd).1.le hb w)
    s hs ha hb
  simpa [pair] using this

/-- **C133**, Runge-Kutta on a linear structure: the error at the end is of fourth order in the largest
step. -/
theorem C133_rk4 (e : Env ℝ V) (o : Opts ℝ) (M C S : V →ₗ[ℝ] V) (F : ℝ → V) (hl : Linear e M C S)
    (hf : Forced e F) (hX : ∀ v, e.inverse M (M v) = v) (x : ℕ → ℝ → V) (a b : ℝ)
    (hx : Motion M C (fun t u => F t - S u) x 6 a b) (ℓ : ℝ) (Y : ℕ → ℝ) (hℓ : 0 ≤ ℓ)
    (hL : ∀ w, ‖firstOrder (e.inverse M) C S w‖ ≤ ℓ * ‖w‖)
    (hY : ∀ k ≤ 5, ∀ t ∈ Icc a b, ‖(x k t, x (k + 1) t)‖ ≤ Y k)
    (h : ℝ) (l : List ℝ) (hdt : ∀ dt ∈ l, 0 < dt ∧ dt ≤ h) (s : DSt ℝ V)
    (hs : s.massInv = none ∨ s.massInv = some (e.inverse M)) (ha : a ≤ s.time) (hb : s.time + l.sum ≤ b) :
    let q := (steps none (integrate .rk4 false e o) l s).1
    let T := s.time + l.sum
    let c := 49 / 2880 * Y 5 + 1 / 64 * ℓ * Y 4 + 5 / 288 * ℓ ^ 2 * Y 3 + 1 / 96 * ℓ ^ 3 * Y 2
    q.time = T ∧ ‖(q.u, q.v) - (x 0 T, x 1 T)‖ ≤
      Real.exp (ℓ * l.sum) * (‖(s.u, s.v) - (x 0 s.time, x 1 s.time)‖ + c * l.sum * h ^ 4) := by
  intro q T c
  have hsum : 0 ≤ l.sum := List.sum_nonneg fun x hx => (hdt x hx).1.le
  have hY0 : ∀ k ≤ 5, 0 ≤ Y k := fun k hk => (norm_nonneg _).trans (hY k hk s.time ⟨ha, by linarith⟩)
  have hc : 0 ≤ c := by
    have := hY0 5 (by omega); have := hY0 4 (by omega); have := hY0 3 (by omega); have := hY0 2 (by omega)
    positivity
  have hrate := rate_linear (e.inverse M) C S F
  have hLip := rate_lipschitz F hL
  have := explicit_converge (e := e) (M := M) (f := integrate .rk4 false e o)
    (Φ := fun t dt w => rkStep (rate (e.inverse M) C fun t u => F t - S u) t dt w) (y := pair x 0) (p := 4)
    hc hℓ l hdt
    (fun t dt s hs => by
      obtain ⟨lg, h1⟩ := rk4L_linear hl hf t dt s
      rw [hs.minv] at h1
      exact ⟨lg, _, h1⟩)
    (fun dt hd t w ha hb => by
      have h1 := rk_lipschitz (t := t) hLip hℓ (hdt dt hd).1.le w (pair x 0 t)
      have h2 := rk_local (G := fun t => ((0 : V), e.inverse M (F t))) hx.smooth.pair
        (fun t ht => by rw [hx.rate hX ht, hrate]) hL hℓ hY ha (hdt dt hd).1.le hb
      rw [← hrate] at h2
      have e1 : rkStep (rate (e.inverse M) C fun t u => F t - S u) t dt w - pair x 0 (t + dt) =
          (rkStep (rate (e.inverse M) C fun t u => F t - S u) t dt w -
            rkStep (rate (e.inverse M) C fun t u => F t - S u) t dt (pair x 0 t)) +
          (rkStep (rate (e.inverse M) C fun t u => F t - S u) t dt (pair x 0 t) - pair x 0 (t + dt)) := by
        abel
      rw [e1]
      exact (norm_add_le _ _).trans (add_le_add h1 h2))
    s hs ha hb
  exact this

/-- **C133**, Runge-Kutta on a nonlinear structure with a Lipschitz residual: the limit is the motion with
`M u'' + C u' = R t u`, of second order at least. -/
theorem C133_rk4_nonlinear (e : Env ℝ V) (o : Opts ℝ) (M C : V →ₗ[ℝ] V) (R : ℝ → V → V)
    (J : ℝ → V → V →ₗ[ℝ] V) (hcb : Callbacks e M C R J) (hX : ∀ v, e.inverse M (M v) = v) (x : ℕ → ℝ → V)
    (a b : ℝ) (hx : Motion M C R x 4 a b) (ℓ : ℝ) (Y : ℕ → ℝ) (hℓ : 0 ≤ ℓ)
    (hL : ∀ t w w', ‖rate (e.inverse M) C R t w - rate (e.inverse M) C R t w'‖ ≤ ℓ * ‖w - w'‖)
    (hY : ∀ k ≤ 3, ∀ t ∈ Icc a b, ‖(x k t, x (k + 1) t)‖ ≤ Y k)
    (h : ℝ) (l : List ℝ) (hdt : ∀ dt ∈ l, 0 < dt ∧ dt ≤ h) (hh : 0 ≤ h) (s : DSt ℝ V)
    (hs : s.massInv = none ∨ s.massInv = some (e.inverse M)) (ha : a ≤ s.time) (hb : s.time + l.sum ≤ b) :
    let q := (steps none (integrate .rk4 true e o) l s).1
    let T := s.time + l.sum
    let c := 1 / 3 * Y 3 + ℓ * Y 2 * (1 / 4 + ℓ * h / 24 + (ℓ * h) ^ 2 / 96)
    q.time = T ∧ ‖(q.u, q.v) - (x 0 T, x 1 T)‖ ≤
      Real.exp (ℓ * l.sum) * (‖(s.u, s.v) - (x 0 s.time, x 1 s.time)‖ + c * l.sum * h ^ 2) := by
  intro q T c
  have hsum : 0 ≤ l.sum := List.sum_nonneg fun x hx => (hdt x hx).1.le
  have hY0 : ∀ k ≤ 3, 0 ≤ Y k := fun k hk => (norm_nonneg _).trans (hY k hk s.time ⟨ha, by linarith⟩)
  have hY2 := hY0 2 (by omega)
  have hY3 := hY0 3 (by omega)
  have hc : 0 ≤ c := by positivity
  have := explicit_converge (e := e) (M := M) (f := integrate .rk4 true e o)
    (Φ := fun t dt w => rkStep (rate (e.inverse M) C R) t dt w) (y := pair x 0) (p := 2)
    hc hℓ l hdt
    (fun t dt s hs => by
      obtain ⟨lg, h1⟩ := rk4N_callbacks hcb t dt s
      rw [hs.minv] at h1
      exact ⟨lg, _, h1⟩)
    (fun dt hd t w ha hb => by
      have hd0 := (hdt dt hd).1.le
      have h1 := rk_lipschitz (t := t) hL hℓ hd0 w (pair x 0 t)
      have h2 := rk_local_two hx.smooth.pair (fun t ht => hx.rate hX ht) hL hℓ hY ha hd0 hb
      have e1 : rkStep (rate (e.inverse M) C R) t dt w - pair x 0 (t + dt) =
          (rkStep (rate (e.inverse M) C R) t dt w - rkStep (rate (e.inverse M) C R) t dt (pair x 0 t)) +
          (rkStep (rate (e.inverse M) C R) t dt (pair x 0 t) - pair x 0 (t + dt)) := by abel
      rw [e1]
      refine (norm_add_le _ _).trans (add_le_add h1 (h2.trans ?_))
      have hd1 := (hdt dt hd).2
      show _ ≤ (1 / 3 * Y 3 + ℓ * Y 2 * (1 / 4 + ℓ * h / 24 + (ℓ * h) ^ 2 / 96)) * dt ^ 3
      have : ℓ * dt ≤ ℓ * h := mul_le_mul_of_nonneg_left hd1 hℓ
      gcongr)
    s hs ha hb
  exact this

/-- **C133**, explicit Euler on a nonlinear structure: the limit is the motion with
`M u'' + C u' = -R t u`, of first order. -/
theorem C133_euler_nonlinear (e : Env ℝ V) (o : Opts ℝ) (M C : V →ₗ[ℝ] V) (R : ℝ → V → V)
    (J : ℝ → V → V →ₗ[ℝ] V) (hcb : Callbacks e M C R J) (hX : ∀ v, e.inverse M (M v) = v) (x : ℕ → ℝ → V)
    (a b : ℝ) (hx : Motion M C (fun t u => -R t u) x 3 a b) (ℓ Y : ℝ) (hℓ : 0 ≤ ℓ)
    (hL : ∀ t w w', ‖rate (e.inverse M) C (fun t u => -R t u) t w -
      rate (e.inverse M) C (fun t u => -R t u) t w'‖ ≤ ℓ * ‖w - w'‖)
    (hY : ∀ t ∈ Icc a b, ‖(x 2 t, x 3 t)‖ ≤ Y)
    (h : ℝ) (l : List ℝ) (hdt : ∀ dt ∈ l, 0 < dt ∧ dt ≤ h) (s : DSt ℝ V)
    (hs : s.massInv = none ∨ s.massInv = some (e.inverse M)) (ha : a ≤ s.time) (hb : s.time + l.sum ≤ b) :
    let q := (steps none (integrate .explicitEuler true e o) l s).1
    let T := s.time + l.sum
    q.time = T ∧ ‖(q.u, q.v) - (x 0 T, x 1 T)‖ ≤
      Real.exp (ℓ * l.sum) * (‖(s.u, s.v) - (x 0 s.time, x 1 s.time)‖ + Y / 2 * l.sum * h) := by
  have hsum : 0 ≤ l.sum := List.sum_nonneg fun x hx => (hdt x hx).1.le
  have hY0 : 0 ≤ Y := (norm_nonneg _).trans (hY s.time ⟨ha, by linarith⟩)
  have := explicit_converge (e := e) (M := M) (f := integrate .explicitEuler true e o)
    (Φ := fun t dt w => w + dt • rate (e.inverse M) C (fun t u => -R t u) t w) (y := pair x 0) (p := 1)
    (c := Y / 2) (by linarith) hℓ l hdt
    (fun t dt s hs => by
      obtain ⟨lg, h1⟩ := explicitEulerN_callbacks hcb t dt s
      rw [hs.minv] at h1
      exact ⟨lg, _, h1⟩)
    (fun dt hd t w ha hb => euler_error hx.smooth.pair (fun t ht => hx.rate hX ht) hL hY ha
      (hdt dt hd).1.le hb w)
    s hs ha hb
  simpa [pair] using this

/-! ## Limits -/

theorem tendsto_of_rate {E : Type} [NormedAddCommGroup E] {z : ℕ → E} {w : E} {K T : ℝ} {p : ℕ} (hp : p ≠ 0)
    (h : ∀ n, ‖z n - w‖ ≤ K * (T / (n + 1 : ℕ)) ^ p) : Filter.Tendsto z Filter.atTop (nhds w) := by
  rw [tendsto_iff_norm_sub_tendsto_zero]
  have h1 : Filter.Tendsto (fun n : ℕ => K * (T / (n + 1 : ℕ)) ^ p) Filter.atTop (nhds 0) := by
    have a : Filter.Tendsto (fun n : ℕ => T / ((n + 1 : ℕ) : ℝ)) Filter.atTop (nhds 0) :=
      (tendsto_const_div_atTop_nhds_zero_nat T).comp (Filter.tendsto_add_atTop_nat 1)
    have b := (a.pow p).const_mul K
    rwa [zero_pow hp, mul_zero] at b
  exact squeeze_zero (fun n => norm_nonneg _) h h1

theorem Smooth.bounded {E : Type} [NormedAddCommGroup E] [NormedSpace ℝ E] {y : ℕ → ℝ → E} {p : ℕ} {a b : ℝ}
    (h : Smooth y p a b) (hp : ContinuousOn (y p) (Icc a b)) :
    ∃ Y : ℕ → ℝ, ∀ k ≤ p, ∀ t ∈ Icc a b, ‖y k t‖ ≤ Y k := by
  have : ∀ k, ∃ c : ℝ, k ≤ p → ∀ t ∈ Icc a b, ‖y k t‖ ≤ c := by
    intro k
    by_cases hk : k ≤ p
    · have hc : ContinuousOn (y k) (Icc a b) := by
        rcases Nat.lt_or_eq_of_le hk with hk | rfl
        · exact fun t ht => (h k hk t ht).continuousAt.continuousWithinAt
        · exact hp
      obtain ⟨c, h1⟩ := isCompact_Icc.exists_bound_of_continuousOn hc
      exact ⟨c, fun _ => h1⟩
    · exact ⟨0, fun hk' => absurd hk' hk⟩
  choose Y hY using this
  exact ⟨Y, fun k hk => hY k hk⟩

theorem replicate_steps {T : ℝ} (hT : 0 < T) {n : ℕ} (hn : 0 < n) :
    (∀ dt ∈ List.replicate n (T / n), 0 < dt ∧ dt ≤ T / n) ∧ (List.replicate n (T / n)).sum = T := by
  have hn' : (0 : ℝ) < n := by exact_mod_cast hn
  refine ⟨fun dt hd => ?_, ?_⟩
  · rw [List.eq_of_mem_replicate hd]
    exact ⟨by positivity, le_refl _⟩
  · rw [List.sum_replicate, nsmul_eq_mul]
    field_simp

theorem firstOrder_bounded [FiniteDimensional ℝ V] (X C S : V →ₗ[ℝ] V) :
    ∃ ℓ : ℝ, 0 ≤ ℓ ∧ ∀ w, ‖firstOrder X C S w‖ ≤ ℓ * ‖w‖ :=
  ⟨‖LinearMap.toContinuousLinearMap (firstOrder X C S : V × V →ₗ[ℝ] V × V)‖, norm_nonneg _,
    fun w => (LinearMap.toContinuousLinearMap (firstOrder X C S : V × V →ₗ[ℝ] V × V)).le_opNorm w⟩

/-- **C133**: on every linear structure with finitely many degrees of freedom, `n` equal steps of explicit
Euler from the initial values to time `T` tend to the motion at `T`. -/
theorem C133_euler_limit [FiniteDimensional ℝ V] (e : Env ℝ V) (o : Opts ℝ) (M C S : V →ₗ[ℝ] V) (F : ℝ → V)
    (hl : Linear e M C S) (hf : Forced e F) (hX : ∀ v, e.inverse M (M v) = v) (x : ℕ → ℝ → V) (T : ℝ)
    (hT : 0 < T) (hx : Motion M C (fun t u => F t - S u) x 3 0 T) (hc : ContinuousOn (x 3) (Icc 0 T)) (a : V) :
    Filter.Tendsto (fun n : ℕ =>
      let q := (steps none (integrate .explicitEuler false e o) (List.replicate (n + 1) (T / (n + 1 : ℕ)))
        (DSt.init (x 0 0) (x 1 0) a)).1
      (q.u, q.v)) Filter.atTop (nhds (x 0 T, x 1 T)) := by
  obtain ⟨ℓ, hℓ, hL⟩ := firstOrder_bounded (e.inverse M) C S
  obtain ⟨Y, hY⟩ := hx.smooth.bounded hc
  refine tendsto_of_rate (p := 1) one_ne_zero
    (K := Real.exp (ℓ * T) * (max (Y 2) (Y 3) / 2 * T)) (T := T) fun n => ?_
  obtain ⟨h1, h2⟩ := replicate_steps hT (Nat.succ_pos n)
  have := (C133_euler e o M C S F hl hf hX x 0 T hx ℓ (max (Y 2) (Y 3)) hℓ hL
    (fun t ht => max_le_max (hY 2 (by omega) t ht) (hY 3 (by omega) t ht)) (T / (n + 1 : ℕ)) _ h1
    (DSt.init (x 0 0) (x 1 0) a) (.inl rfl) (le_refl _) (by rw [h2]; simp [DSt.init])).2
  rw [h2] at this
  simp only [DSt.init, zero_add, sub_self, norm_zero] at this
  refine this.trans (le_of_eq ?_)
  ring

/-- The same for Runge-Kutta. -/
theorem C133_rk4_limit [FiniteDimensional ℝ V] (e : Env ℝ V) (o : Opts ℝ) (M C S : V →ₗ[ℝ] V) (F : ℝ → V)
    (hl : Linear e M C S) (hf : Forced e F) (hX : ∀ v, e.inverse M (M v) = v) (x : ℕ → ℝ → V) (T : ℝ)
    (hT : 0 < T) (hx : Motion M C (fun t u => F t - S u) x 6 0 T) (hc : ContinuousOn (x 6) (Icc 0 T)) (a : V) :
    ∃ c : ℝ, ∀ n : ℕ,
      let q := (steps none (integrate .rk4 false e o) (List.replicate (n + 1) (T / (n + 1 : ℕ)))
        (DSt.init (x 0 0) (x 1 0) a)).1
      ‖(q.u, q.v) - (x 0 T, x 1 T)‖ ≤ c * (T / (n + 1 : ℕ)) ^ 4 := by
  obtain ⟨ℓ, hℓ, hL⟩ := firstOrder_bounded (e.inverse M) C S
  obtain ⟨Y, hY⟩ := hx.smooth.bounded hc
  set Z : ℕ → ℝ := fun k => max (Y k) (Y (k + 1))
  refine ⟨Real.exp (ℓ * T) * ((49 / 2880 * Z 5 + 1 / 64 * ℓ * Z 4 + 5 / 288 * ℓ ^ 2 * Z 3 +
    1 / 96 * ℓ ^ 3 * Z 2) * T), fun n => ?_⟩
  obtain ⟨h1, h2⟩ := replicate_steps hT (Nat.succ_pos n)
  have := (C133_rk4 e o M C S F hl hf hX x 0 T hx ℓ Z hℓ hL
    (fun k hk t ht => max_le_max (hY k (by omega) t ht) (hY (k + 1) (by omega) t ht)) (T / (n + 1 : ℕ)) _ h1
    (DSt.init (x 0 0) (x 1 0) a) (.inl rfl) (le_refl _) (by rw [h2]; simp [DSt.init])).2
  rw [h2] at this
  simp only [DSt.init, zero_add, sub_self, norm_zero] at this
  refine this.trans (le_of_eq ?_)
  ring

/-! ## The oscillator -/

/-- The oscillator `u'' = -u`; the callback for the residual returns `-u`. -/
noncomputable def osc : Env ℝ ℝ where
  norm x := |x|
  norm2 x y := |x| + |y|
  nonfinite _ := false
  constMass := true
  mass _ _ := .value LinearMap.id
  damping _ _ _ := .value 0
  jacobian _ _ _ := .value LinearMap.id
  force _ _ := .value 0
  residual _ x _ := .value (-x)
  inverse _ := LinearMap.id
  solve _ m b := b / m 1
  gmres _ a b c d x y := ((d 1 * x - b 1 * y) / (a 1 * d 1 - b 1 * c 1),
    (a 1 * y - c 1 * x) / (a 1 * d 1 - b 1 * c 1))

theorem osc_linear : Linear osc LinearMap.id 0 LinearMap.id := ⟨fun _ _ => rfl, fun _ _ _ => rfl, fun _ _ _ => rfl⟩

theorem osc_forced : Forced osc fun _ => 0 := fun _ _ => rfl

theorem osc_callbacks : Callbacks osc LinearMap.id 0 (fun _ u => -u) (fun _ _ => LinearMap.id) :=
  ⟨fun _ _ => rfl, fun _ _ _ => rfl, fun _ _ _ => rfl, fun _ _ _ => rfl⟩

/-- The derivatives of the cosine. -/
noncomputable def cosine (k : ℕ) (t : ℝ) : ℝ := Real.cos (t + k * (Real.pi / 2))

theorem cosine_deriv (k : ℕ) (t : ℝ) : HasDerivAt (cosine k) (cosine (k + 1) t) t := by
  have h1 := ((hasDerivAt_id t).add_const ((k : ℝ) * (Real.pi / 2))).cos
  refine h1.congr_deriv ?_
  simp only [cosine, id_eq, mul_one]
  push_cast
  rw [add_mul, one_mul, ← add_assoc, Real.cos_add_pi_div_two]

theorem cosine_motion (p : ℕ) (a b : ℝ) :
    Motion (LinearMap.id : ℝ →ₗ[ℝ] ℝ) 0 (fun _ u => 0 - (LinearMap.id : ℝ →ₗ[ℝ] ℝ) u) cosine p a b where
  smooth := fun k _ t _ => cosine_deriv k t
  balance := fun t _ => by
    simp only [cosine, LinearMap.id_apply, LinearMap.zero_apply, add_zero]
    push_cast
    rw [show t + 2 * (Real.pi / 2) = t + Real.pi by ring, Real.cos_add_pi]
    simp

theorem cosine_le (k : ℕ) (t : ℝ) : ‖(cosine k t, cosine (k + 1) t)‖ ≤ 1 :=
  (max_le (Real.abs_cos_le_one _) (Real.abs_cos_le_one _) : max |cosine k t| |cosine (k + 1) t| ≤ 1)

theorem cosine_zero (t : ℝ) : (cosine 0 t, cosine 1 t) = (Real.cos t, -Real.sin t) := by
  simp [cosine, Real.cos_add_pi_div_two]

theorem osc_bound (w : ℝ × ℝ) : ‖firstOrder (osc.inverse LinearMap.id) 0 LinearMap.id w‖ ≤ 1 * ‖w‖ := by
  have e1 : firstOrder (osc.inverse LinearMap.id) 0 LinearMap.id w = (w.2, -w.1) := by
    simp [firstOrder, osc]
  rw [e1, one_mul, Prod.norm_def, Prod.norm_def, norm_neg, max_comm]

/-- Default options of the integrators. -/
noncomputable def oscOpts : Opts ℝ where
  maxIter := 100
  tolF := 1 / 1000
  tolU := 1 / 1000000
  quasi := false
  quasiIt := 1
  alpha := 1 / 4
  delta := 1 / 2
  gamma := 1 / 2

/-- The oscillator released at 1: `n` steps of explicit Euler up to time `T`. -/
theorem osc_euler {T : ℝ} (hT : 0 < T) {n : ℕ} (hn : 0 < n) :
    let q := (steps none (integrate .explicitEuler false osc oscOpts) (List.replicate n (T / n))
      (DSt.init 1 0 (-1))).1
    ‖(q.u, q.v) - (Real.cos T, -Real.sin T)‖ ≤ Real.exp T * T ^ 2 / 2 * (1 / n) := by
  obtain ⟨h1, h2⟩ := replicate_steps hT hn
  have := (C133_euler osc oscOpts LinearMap.id 0 LinearMap.id _ osc_linear osc_forced (fun _ => rfl) cosine 0 T
    (cosine_motion 3 0 T) 1 1 (by norm_num) osc_bound (fun t _ => cosine_le 2 t) (T / n) _ h1
    (DSt.init 1 0 (-1)) (.inl rfl) (le_refl _) (by rw [h2]; simp [DSt.init])).2
  rw [h2] at this
  simp only [DSt.init, zero_add, one_mul, cosine_zero, Real.cos_zero, Real.sin_zero, neg_zero, sub_self,
    norm_zero] at this
  refine this.trans (le_of_eq ?_)
  ring

/-- The same with Runge-Kutta: an error of `exp(T) T^5 / n^4` at most. -/
theorem osc_rk4 {T : ℝ} (hT : 0 < T) {n : ℕ} (hn : 0 < n) :
    let q := (steps none (integrate .rk4 false osc oscOpts) (List.replicate n (T / n))
      (DSt.init 1 0 (-1))).1
    ‖(q.u, q.v) - (Real.cos T, -Real.sin T)‖ ≤ Real.exp T * T ^ 5 * (29 / 480) * (1 / n) ^ 4 := by
  obtain ⟨h1, h2⟩ := replicate_steps hT hn
  have := (C133_rk4 osc oscOpts LinearMap.id 0 LinearMap.id _ osc_linear osc_forced (fun _ => rfl) cosine 0 T
    (cosine_motion 6 0 T) 1 (fun _ => 1) (by norm_num) osc_bound (fun k _ t _ => cosine_le k t) (T / n) _ h1
    (DSt.init 1 0 (-1)) (.inl rfl) (le_refl _) (by rw [h2]; simp [DSt.init])).2
  rw [h2] at this
  simp only [DSt.init, zero_add, one_mul, cosine_zero, Real.cos_zero, Real.sin_zero, neg_zero, sub_self,
    norm_zero] at this
  refine this.trans (le_of_eq ?_)
  ring

/-- Ten Runge-Kutta steps to time 1: three correct digits at least. -/
example :
    let q := (steps none (integrate .rk4 false osc oscOpts) (List.replicate 10 (1 / (10 : ℕ)))
      (DSt.init 1 0 (-1))).1
    |q.u - Real.cos 1| ≤ 1 / 50000 := by
  intro q
  have h1 := osc_rk4 (T := 1) (by norm_num) (n := 10) (by norm_num)
  have h2 : |q.u - Real.cos 1| ≤ ‖(q.u, q.v) - (Real.cos 1, -Real.sin 1)‖ :=
    norm_fst_le ((q.u, q.v) - (Real.cos 1, -Real.sin 1))
  have h3 : Real.exp 1 < 3 := by linarith [Real.exp_one_lt_d9]
  refine h2.trans (h1.trans ?_)
  norm_num
  linarith

/-- The limits for the oscillator. -/
example : Filter.Tendsto (fun n : ℕ =>
    let q := (steps none (integrate .explicitEuler false osc oscOpts) (List.replicate (n + 1) (2 / (n + 1 : ℕ)))
      (DSt.init (cosine 0 0) (cosine 1 0) (-1))).1
    (q.u, q.v)) Filter.atTop (nhds (Real.cos 2, -Real.sin 2)) := by
  rw [← cosine_zero]
  exact C133_euler_limit osc oscOpts LinearMap.id 0 LinearMap.id _ osc_linear osc_forced (fun _ => rfl) cosine 2
    (by norm_num) (cosine_motion 3 0 2) (fun t _ => (cosine_deriv 3 t).continuousAt.continuousWithinAt) (-1)

example : ∃ c : ℝ, ∀ n : ℕ,
    let q := (steps none (integrate .rk4 false osc oscOpts) (List.replicate (n + 1) (2 / (n + 1 : ℕ)))
      (DSt.init (cosine 0 0) (cosine 1 0) (-1))).1
    ‖(q.u, q.v) - (Real.cos 2, -Real.sin 2)‖ ≤ c * (2 / (n + 1 : ℕ)) ^ 4 := by
  rw [← cosine_zero]
  exact C133_rk4_limit osc oscOpts LinearMap.id 0 LinearMap.id _ osc_linear osc_forced (fun _ => rfl) cosine 2
    (by norm_num) (cosine_motion 6 0 2) (fun t _ => (cosine_deriv 6 t).continuousAt.continuousWithinAt) (-1)

/-- A pendulum driven such that it moves like the cosine: `u'' = sin u - sin (cos t) - cos t`. -/
noncomputable def driven : Env ℝ ℝ := { osc with
  jacobian := fun _ x _ => .value (-Real.cos x • LinearMap.id)
  residual := fun _ x t => .value (Real.sin x - Real.sin (Real.cos t) - Real.cos t) }

example {T : ℝ} (hT : 0 < T) {n : ℕ} (hn : 0 < n) :
    let q := (steps none (integrate .rk4 true driven oscOpts) (List.replicate n (T / n)) (DSt.init 1 0 (-1))).1
    ‖(q.u, q.v) - (Real.cos T, -Real.sin T)‖ ≤
      Real.exp T * (1 / 3 + (1 / 4 + T / n / 24 + (T / n) ^ 2 / 96)) * T * (T / n) ^ 2 := by
  obtain ⟨h1, h2⟩ := replicate_steps hT hn
  have hm : Motion (LinearMap.id : ℝ →ₗ[ℝ] ℝ) 0 (fun t u => Real.sin u - Real.sin (Real.cos t) - Real.cos t)
      cosine 4 0 T := ⟨(cosine_motion 4 0 T).smooth, fun t ht => by
        rw [(cosine_motion 4 0 T).balance t ht]; simp [cosine]⟩
  have := (C133_rk4_nonlinear driven oscOpts LinearMap.id 0 _ (fun _ x => -Real.cos x • LinearMap.id)
    ⟨fun _ _ => rfl, fun _ _ _ => rfl, fun _ _ _ => rfl, fun _ _ _ => rfl⟩ (fun _ => rfl) cosine 0 T hm 1
    (fun _ => 1) zero_le_one
    (fun t w w' => by
      have e1 : rate (driven.inverse LinearMap.id) 0
            (fun t u => Real.sin u - Real.sin (Real.cos t) - Real.cos t) t w -
          rate (driven.inverse LinearMap.id) 0
            (fun t u => Real.sin u - Real.sin (Real.cos t) - Real.cos t) t w' =
          (w.2 - w'.2, Real.sin w.1 - Real.sin w'.1) := by
        simp [rate, driven, osc]
      rw [e1, one_mul]
      have hs : |Real.sin w.1 - Real.sin w'.1| ≤ |w.1 - w'.1| := by
        simpa [Real.dist_eq] using Real.lipschitzWith_sin.dist_le_mul w.1 w'.1
      exact max_le (le_max_right _ _) (hs.trans (le_max_left _ _)))
    (fun k _ t _ => cosine_le k t) (T / n) _ h1 (by positivity)
    (DSt.init 1 0 (-1)) (.inl rfl) (le_refl _) (by rw [h2]; simp [DSt.init])).2
  rw [h2] at this
  simp only [DSt.init, zero_add, one_mul, mul_one, cosine_zero, Real.cos_zero, Real.sin_zero, neg_zero,
    sub_self, norm_zero] at this
  refine this.trans (le_of_eq ?_)
  ring

/-! ## The sign of the residual -/

/-- The derivatives of the hyperbolic cosine. -/
noncomputable def hyper (k : ℕ) (t : ℝ) : ℝ := (Real.exp t + (-1) ^ k * Real.exp (-t)) / 2

theorem hyper_deriv (k : ℕ) (t : ℝ) : HasDerivAt (hyper k) (hyper (k + 1) t) t := by
  have h1 := (((Real.hasDerivAt_exp t).add ((hasDerivAt_neg t).exp.const_mul ((-1 : ℝ) ^ k))).div_const 2)
  refine h1.congr_deriv ?_
  simp only [hyper, pow_succ]
  ring

theorem hyper_le (k : ℕ) {t : ℝ} (ht : t ∈ Icc (0 : ℝ) 1) :
    ‖(hyper k t, hyper (k + 1) t)‖ ≤ Real.exp 1 := by
  have h : ∀ k, |hyper k t| ≤ Real.exp 1 := by
    intro k
    have a1 : Real.exp t ≤ Real.exp 1 := Real.exp_le_exp.2 ht.2
    have a2 : Real.exp (-t) ≤ Real.exp 1 := Real.exp_le_exp.2 (by linarith [ht.1])
    have a3 := Real.exp_pos t
    have a4 := Real.exp_pos (-t)
    rw [abs_le]
    rcases neg_one_pow_eq_or ℝ k with hk | hk <;> simp only [hyper, hk] <;> constructor <;> linarith
  exact (max_le (h k) (h (k + 1)) : max |hyper k t| |hyper (k + 1) t| ≤ _)

/-- C133 fails for the nonlinear methods as a whole: with one and the same callback for the residual of the
oscillator released at 1, Runge-Kutta tends to `cos 1`, explicit Euler to `cosh 1`, at time 1. -/
theorem C133_violated_sign :
    Filter.Tendsto (fun n : ℕ => (steps none (integrate .rk4 true osc oscOpts)
        (List.replicate (n + 1) (1 / (n + 1 : ℕ))) (DSt.init 1 0 (-1))).1.u)
      Filter.atTop (nhds (Real.cos 1)) ∧
    Filter.Tendsto (fun n : ℕ => (steps none (integrate .explicitEuler true osc oscOpts)
        (List.replicate (n + 1) (1 / (n + 1 : ℕ))) (DSt.init 1 0 (-1))).1.u)
      Filter.atTop (nhds (Real.cosh 1)) ∧ Real.cos 1 < 1 ∧ 1 < Real.cosh 1 := by
  have hsmall : ∀ n : ℕ, (1 : ℝ) / (n + 1 : ℕ) ≤ 1 := fun n => by
    rw [div_le_one (by positivity)]
    push_cast
    linarith [(Nat.cast_nonneg n : (0 : ℝ) ≤ n)]
  refine ⟨?_, ?_, ?_, ?_⟩
  · refine tendsto_of_rate (p := 2) two_ne_zero (K := Real.exp 1 * (1 / 3 + (1 / 4 + 1 / 24 + 1 / 96)))
      (T := 1) fun n => ?_
    obtain ⟨h1, h2⟩ := replicate_steps one_pos (Nat.succ_pos n)
    have hn := hsmall n
    have hn0 : (0 : ℝ) ≤ 1 / (n + 1 : ℕ) := by positivity
    have hm : Motion (LinearMap.id : ℝ →ₗ[ℝ] ℝ) 0 (fun _ u => -u) cosine 4 0 1 :=
      ⟨(cosine_motion 4 0 1).smooth, fun t ht => by
        rw [(cosine_motion 4 0 1).balance t ht]; simp⟩
    have := (C133_rk4_nonlinear osc oscOpts LinearMap.id 0 _ _ osc_callbacks (fun _ => rfl) cosine 0 1 hm 1
      (fun _ => 1) zero_le_one
      (fun t w w' => by
        have := rate_lipschitz (fun _ => 0) osc_bound t w w'
        simpa using this)
      (fun k _ t _ => cosine_le k t) (1 / (n + 1 : ℕ)) _ h1 (by positivity)
      (DSt.init 1 0 (-1)) (.inl rfl) (le_refl _) (by rw [h2]; simp [DSt.init])).2
    rw [h2] at this
    simp only [DSt.init, zero_add, one_mul, mul_one, cosine_zero, Real.cos_zero, Real.sin_zero, neg_zero,
      sub_self, norm_zero] at this
    refine (norm_fst_le _).trans (this.trans ?_)
    rw [mul_assoc (Real.exp 1)]
    gcongr
    nlinarith
  · refine tendsto_of_rate (p := 1) one_ne_zero (K := Real.exp 1 * (Real.exp 1 / 2)) (T := 1) fun n => ?_
    obtain ⟨h1, h2⟩ := replicate_steps one_pos (Nat.succ_pos n)
    have hm : Motion (LinearMap.id : ℝ →ₗ[ℝ] ℝ) 0 (fun _ u => -(-u)) hyper 3 0 1 :=
      ⟨fun k _ t _ => hyper_deriv k t, fun t ht => by simp [hyper]⟩
    have := (C133_euler_nonlinear osc oscOpts LinearMap.id 0 _ _ osc_callbacks (fun _ => rfl) hyper 0 1 hm 1
      (Real.exp 1) zero_le_one
      (fun t w w' => by
        have e1 : rate (osc.inverse LinearMap.id) 0 (fun _ u : ℝ => -(-u)) t w -
            rate (osc.inverse LinearMap.id) 0 (fun _ u : ℝ => -(-u)) t w' = ((w - w').2, (w - w').1) := by
          simp [rate, osc]
        rw [e1, one_mul, Prod.norm_def, Prod.norm_def, max_comm])
      (fun t ht => hyper_le 2 ht) (1 / (n + 1 : ℕ)) _ h1
      (DSt.init 1 0 (-1)) (.inl rfl) (le_refl _) (by rw [h2]; simp [DSt.init])).2
    rw [h2] at this
    have e0 : hyper 0 0 = 1 := by simp [hyper]
    have e1 : hyper 1 0 = 0 := by simp [hyper]
    have e2 : hyper 0 1 = Real.cosh 1 := by simp [hyper, Real.cosh_eq]
    simp only [DSt.init, zero_add, mul_one, e0, e1, e2, sub_self, norm_zero] at this
    refine (norm_fst_le _).trans (this.trans (le_of_eq ?_))
    ring
  · linarith [Real.cos_one_le]
  · exact Real.one_lt_cosh.2 one_ne_zero

end GsSA.Dynamic
