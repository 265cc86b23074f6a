import Mathlib.Analysis.Complex.Exponential
import Mathlib.Analysis.Normed.Group.Constructions
import Mathlib.Analysis.SpecificLimits.Basic
import Mathlib.Topology.Algebra.Module.FiniteDimension
import Verif.Dynamic.LinearProps
import Verif.Dynamic.Taylor

/-!
# Convergence of the explicit integrators (C133)

The motion of the structure is given by its derivatives `x 0`, `x 1`, ... (displacements, velocities,
accelerations, and so on). Steps may have different sizes.
-/

set_option linter.unusedSectionVars false

namespace GsSA.Dynamic

open GsSA GsSA.Static Set
open GsSA.ALM (Act Err)

/-! ## Accumulation of errors -/

section accumulate

variable {V : Type} [AddCommGroup V] [Module ℝ V]

/-- If each step amplifies the error by `exp (ℓ dt)` at most and adds `c dt^(p+1)`, the error after
steps of sizes up to `h` is of order `h^p`. -/
theorem accumulate {f : ℝ → ℝ → Act (DSt ℝ V) Status} {Inv : DSt ℝ V → Prop} {N : V × V → ℝ}
    {y : ℝ → V × V} {ℓ c h a b : ℝ} {p : ℕ} (hc : 0 ≤ c) (hℓ : 0 ≤ ℓ)
    (l : List ℝ) (hl : ∀ dt ∈ l, 0 < dt ∧ dt ≤ h)
    (hstep : ∀ dt ∈ l, ∀ s, Inv s → a ≤ s.time → s.time + dt ≤ b →
      ∃ q r, step none f dt s = (q, .ok r) ∧ Inv q ∧ q.time = s.time + dt ∧
        N ((q.u, q.v) - y (s.time + dt)) ≤
          Real.exp (ℓ * dt) * N ((s.u, s.v) - y s.time) + c * dt ^ (p + 1))
    (s : DSt ℝ V) (hs : Inv s) (ha : a ≤ s.time) (hb : s.time + l.sum ≤ b) :
    let q := (steps none f l s).1
    q.time = s.time + l.sum ∧
      N ((q.u, q.v) - y (s.time + l.sum)) ≤
        Real.exp (ℓ * l.sum) * (N ((s.u, s.v) - y s.time) + c * l.sum * h ^ p) := by
  induction l generalizing s with
  | nil => simp [steps]
  | cons dt l ih =>
    have hsum : 0 ≤ l.sum := List.sum_nonneg fun x hx => (hl x (by simp [hx])).1.le
    obtain ⟨hd0, hd1⟩ := hl dt (by simp)
    rw [List.sum_cons] at hb
    obtain ⟨q, r, h1, h2, h3, h4⟩ := hstep dt (by simp) s hs ha (by linarith)
    have e1 : (steps none f (dt :: l) s).1 = (steps none f l q).1 := by simp [steps, h1]
    intro q'
    have e2 : q' = (steps none f l q).1 := e1
    obtain ⟨k1, k2⟩ := ih (fun x hx => hl x (by simp [hx])) (fun x hx => hstep x (by simp [hx])) q h2
      (by linarith) (by linarith)
    rw [e2, List.sum_cons]
    refine ⟨by rw [k1, h3]; ring, ?_⟩
    rw [h3, add_assoc] at k2
    refine k2.trans ?_
    rw [mul_add ℓ, Real.exp_add, mul_comm (Real.exp (ℓ * dt)), mul_assoc (Real.exp (ℓ * l.sum))]
    refine mul_le_mul_of_nonneg_left ?_ (Real.exp_pos _).le
    have k3 : 1 ≤ Real.exp (ℓ * dt) := Real.one_le_exp (by positivity)
    have k4 : dt ^ (p + 1) ≤ dt * h ^ p := by
      rw [pow_succ, mul_comm]
      exact mul_le_mul_of_nonneg_left (pow_le_pow_left₀ hd0.le hd1 p) hd0.le
    have hh : 0 ≤ h ^ p := pow_nonneg (hd0.le.trans hd1) p
    have k5 : 0 ≤ c * (dt + l.sum) * h ^ p := by positivity
    have k6 : c * dt ^ (p + 1) ≤ c * (dt * h ^ p) := mul_le_mul_of_nonneg_left k4 hc
    nlinarith [mul_le_mul_of_nonneg_right k3 k5]

end accumulate

variable {V : Type} [NormedAddCommGroup V] [NormedSpace ℝ V]

/-- The rate of change of (displacements, velocities) when `M u'' + C u' = R t u`, `X` being the inverse
of the mass. -/
def rate (X C : V →ₗ[ℝ] V) (R : ℝ → V → V) (t : ℝ) (w : V × V) : V × V := (w.2, X (R t w.1 - C w.2))

/-- The classical Runge-Kutta step. -/
noncomputable def rkStep {E : Type} [AddCommGroup E] [Module ℝ E] (f : ℝ → E → E) (t dt : ℝ) (w : E) : E :=
  let k1 := f t w
  let k2 := f (t + dt / 2) (w + (dt / 2) • k1)
  let k3 := f (t + dt / 2) (w + (dt / 2) • k2)
  let k4 := f (t + dt) (w + dt • k3)
  w + (1 / 6 * dt) • (k1 + (2 : ℝ) • k2 + (2 : ℝ) • k3 + k4)

/-- The callbacks of a nonlinear structure with constant mass and damping matrices. -/
structure Callbacks (e : Env ℝ V) (M C : V →ₗ[ℝ] V) (R : ℝ → V → V) (J : ℝ → V → V →ₗ[ℝ] V) : Prop where
  mass : ∀ n t, e.mass n t = .value M
  damping : ∀ n x t, e.damping n x t = .value C
  residual : ∀ n x t, e.residual n x t = .value (R t x)
  jacobian : ∀ n x t, e.jacobian n x t = .value (J t x)

/-- `x 0` is a motion with `M u'' + C u' = R t u`; `x k` are its derivatives up to `p`. -/
structure Motion (M C : V →ₗ[ℝ] V) (R : ℝ → V → V) (x : ℕ → ℝ → V) (p : ℕ) (a b : ℝ) : Prop where
  smooth : Smooth x p a b
  balance : ∀ t ∈ Icc a b, M (x 2 t) + C (x 1 t) = R t (x 0 t)

/-- The pairs (displacements, velocities) of a motion and their derivatives. -/
def pair (x : ℕ → ℝ → V) (k : ℕ) (t : ℝ) : V × V := (x k t, x (k + 1) t)

theorem Smooth.pair {x : ℕ → ℝ → V} {p : ℕ} {a b : ℝ} (h : Smooth x (p + 1) a b) : Smooth (pair x) p a b :=
  fun k hk t ht => (h k (by omega) t ht).prodMk (h (k + 1) (by omega) t ht)

theorem Motion.rate {M C X : V →ₗ[ℝ] V} {R : ℝ → V → V} {x : ℕ → ℝ → V} {p : ℕ} {a b t : ℝ}
    (h : Motion M C R x p a b) (hX : ∀ v, X (M v) = v) (ht : t ∈ Icc a b) :
    pair x 1 t = rate X C R t (pair x 0 t) := by
  refine Prod.ext rfl ?_
  show x 2 t = X (R t (x 0 t) - C (x 1 t))
  rw [← h.balance t ht, add_sub_cancel_right, hX]

section explicit

variable {E : Type} [NormedAddCommGroup E] [NormedSpace ℝ E] {f : ℝ → E → E} {y : ℕ → ℝ → E}
  {ℓ a b t h : ℝ}

/-- One explicit Euler step. -/
theorem euler_error {c : ℝ} (hy : Smooth y 2 a b) (hf : ∀ t ∈ Icc a b, y 1 t = f t (y 0 t))
    (hL : ∀ t w w', ‖f t w - f t w'‖ ≤ ℓ * ‖w - w'‖) (hc : ∀ τ ∈ Icc a b, ‖y 2 τ‖ ≤ c)
    (ha : a ≤ t) (hh : 0 ≤ h) (hb : t + h ≤ b) (w : E) :
    ‖w + h • f t w - y 0 (t + h)‖ ≤ Real.exp (ℓ * h) * ‖w - y 0 t‖ + c / 2 * h ^ 2 := by
  have h1 := taylor_le gauge_norm 2 hy hc ha hh hb
  have e1 : w + h • f t w - y 0 (t + h) = (w - y 0 t) + h • (f t w - f t (y 0 t)) -
      (y 0 (t + h) - taylor y 2 t h) := by
    rw [← hf t ⟨ha, by linarith⟩]
    simp only [taylor, Finset.sum_range_succ, Finset.sum_range_zero, Nat.factorial]
    module
  have h2 : ‖h • (f t w - f t (y 0 t))‖ ≤ h * (ℓ * ‖w - y 0 t‖) := by
    rw [norm_smul, Real.norm_of_nonneg hh]
    exact mul_le_mul_of_nonneg_left (hL _ _ _) hh
  have h3 : ℓ * h + 1 ≤ Real.exp (ℓ * h) := Real.add_one_le_exp _
  rw [e1]
  refine (norm_sub_le _ _).trans (add_le_add ((norm_add_le _ _).trans ?_) (h1.trans (le_of_eq ?_)))
  · nlinarith [mul_le_mul_of_nonneg_right h3 (norm_nonneg (w - y 0 t))]
  · simp [Nat.factorial]; ring

/-- A Runge-Kutta step amplifies differences by `exp (ℓ h)` at most. -/
theorem rk_lipschitz (hL : ∀ t w w', ‖f t w - f t w'‖ ≤ ℓ * ‖w - w'‖) (hℓ : 0 ≤ ℓ) (hh : 0 ≤ h) (w w' : E) :
    ‖rkStep f t h w - rkStep f t h w'‖ ≤ Real.exp (ℓ * h) * ‖w - w'‖ := by
  set d := ‖w - w'‖
  have hd : 0 ≤ d := norm_nonneg _
  have stage : ∀ (τ c m : ℝ) (k k' : E), 0 ≤ c → ‖k - k'‖ ≤ m * d →
      ‖f τ (w + c • k) - f τ (w' + c • k')‖ ≤ (ℓ * (1 + c * m)) * d := by
    intro τ c m k k' hc hk
    refine (hL _ _ _).trans ?_
    rw [mul_assoc]
    refine mul_le_mul_of_nonneg_left ?_ hℓ
    have e : w + c • k - (w' + c • k') = (w - w') + c • (k - k') := by module
    rw [e]
    refine (norm_add_le _ _).trans ?_
    rw [norm_smul, Real.norm_of_nonneg hc]
    have := mul_le_mul_of_nonneg_left hk hc
    linarith
  unfold rkStep
  extract_lets k1 k2 k3 k4 k1' k2' k3' k4'
  have h2 : 0 ≤ h / 2 := by linarith
  have b1 : ‖k1 - k1'‖ ≤ ℓ * d := hL _ _ _
  have b2 : ‖k2 - k2'‖ ≤ _ * d := stage (t + h / 2) (h / 2) _ k1 k1' h2 b1
  have b3 : ‖k3 - k3'‖ ≤ _ * d := stage (t + h / 2) (h / 2) _ k2 k2' h2 b2
  have b4 : ‖k4 - k4'‖ ≤ _ * d := stage (t + h) h _ k3 k3' hh b3
  have e1 : w + (1 / 6 * h) • (k1 + (2 : ℝ) • k2 + (2 : ℝ) • k3 + k4) -
      (w' + (1 / 6 * h) • (k1' + (2 : ℝ) • k2' + (2 : ℝ) • k3' + k4')) =
      (w - w') + (1 / 6 * h) • ((k1 - k1') + (2 : ℝ) • (k2 - k2') + (2 : ℝ) • (k3 - k3') + (k4 - k4')) := by
    module
  rw [e1]
  have n1 : ‖(k1 - k1') + (2 : ℝ) • (k2 - k2') + (2 : ℝ) • (k3 - k3') + (k4 - k4')‖ ≤
      ‖k1 - k1'‖ + 2 * ‖k2 - k2'‖ + 2 * ‖k3 - k3'‖ + ‖k4 - k4'‖ := by
    refine (norm_add_le _ _).trans (add_le_add ((norm_add_le _ _).trans (add_le_add
      ((norm_add_le _ _).trans (add_le_add le_rfl ?_)) ?_)) le_rfl)
    · rw [norm_smul]; norm_num
    · rw [norm_smul]; norm_num
  have h6 : 0 ≤ 1 / 6 * h := by linarith
  have n2 : ‖(1 / 6 * h) • ((k1 - k1') + (2 : ℝ) • (k2 - k2') + (2 : ℝ) • (k3 - k3') + (k4 - k4'))‖ ≤
      (1 / 6 * h) * (ℓ * d + 2 * (ℓ * (1 + h / 2 * ℓ) * d) +
        2 * (ℓ * (1 + h / 2 * (ℓ * (1 + h / 2 * ℓ))) * d) +
        ℓ * (1 + h * (ℓ * (1 + h / 2 * (ℓ * (1 + h / 2 * ℓ))))) * d) := by
    rw [norm_smul, Real.norm_of_nonneg h6]
    exact mul_le_mul_of_nonneg_left (n1.trans (by linarith)) h6
  refine (norm_add_le _ _).trans ((add_le_add le_rfl n2).trans ?_)
  have hz : 0 ≤ ℓ * h := mul_nonneg hℓ hh
  have hexp := Real.sum_le_exp_of_nonneg hz 5
  simp only [Finset.sum_range_succ, Finset.sum_range_zero, Nat.factorial] at hexp
  have := mul_le_mul_of_nonneg_right hexp hd
  refine le_trans (le_of_eq ?_) this
  push_cast
  ring

/-- The remainder of the Taylor expansion of the `j`-th derivative. -/
noncomputable def rem (y : ℕ → ℝ → E) (t : ℝ) (j k : ℕ) (s : ℝ) : E :=
  y j (t + s) - taylor (fun i => y (i + j)) k t s

theorem rem_le {Y : ℕ → ℝ} {p : ℕ} (hy : Smooth y p a b) (hY : ∀ k ≤ p, ∀ τ ∈ Icc a b, ‖y k τ‖ ≤ Y k)
    (ha : a ≤ t) (j k : ℕ) (s : ℝ) (hjk : j + k ≤ p) (hs : 0 ≤ s) (hsb : t + s ≤ b) :
    ‖rem y t j k s‖ ≤ Y (k + j) * (s ^ k / k.factorial) := by
  have hsm : Smooth (fun i => y (i + j)) k a b := by
    intro i hi τ hτ
    have e : i + 1 + j = i + j + 1 := by omega
    show HasDerivAt (y (i + j)) (y (i + 1 + j) τ) τ
    rw [e]
    exact hy (i + j) (by omega) τ hτ
  have := taylor_le (N := fun x : E => ‖x‖) gauge_norm k hsm (c := Y (k + j)) (hY (k + j) (by omega)) ha hs hsb
  simpa [rem] using this

theorem norm_smul_le_of {c m : ℝ} {w : E} (hc : 0 ≤ c) (hw : ‖w‖ ≤ m) : ‖c • w‖ ≤ c * m := by
  rw [norm_smul, Real.norm_of_nonneg hc]
  exact mul_le_mul_of_nonneg_left hw hc

/-- The exact motion inserted in a Runge-Kutta step of a linear system: fourth order. -/
theorem rk_local {L : E →ₗ[ℝ] E} {G : ℝ → E} {Y : ℕ → ℝ} (hy : Smooth y 5 a b)
    (hf : ∀ t ∈ Icc a b, y 1 t = L (y 0 t) + G t)
    (hL : ∀ w, ‖L w‖ ≤ ℓ * ‖w‖) (hℓ : 0 ≤ ℓ) (hY : ∀ k ≤ 5, ∀ τ ∈ Icc a b, ‖y k τ‖ ≤ Y k)
    (ha : a ≤ t) (hh : 0 ≤ h) (hb : t + h ≤ b) :
    ‖rkStep (fun τ w => L w + G τ) t h (y 0 t) - y 0 (t + h)‖ ≤
      (49 / 2880 * Y 5 + 1 / 64 * ℓ * Y 4 + 5 / 288 * ℓ ^ 2 * Y 3 + 1 / 96 * ℓ ^ 3 * Y 2) * h ^ 5 := by
  have h2 : 0 ≤ h / 2 := by linarith
  have hb2 : t + h / 2 ≤ b := by linarith
  have bound := rem_le hy hY ha
  set T := rem y t with hT
  have f0 := hf t ⟨ha, by linarith⟩
  have f1 := hf (t + h / 2) ⟨by linarith, hb2⟩
  have f2 := hf (t + h) ⟨by linarith, hb⟩
  have key : rkStep (fun τ w => L w + G τ) t h (y 0 t) - y 0 (t + h) =
      -((T 0 5 h - (4 * h / 6) • T 1 4 (h / 2) - (h / 6) • T 1 4 h) +
        (h / 6) • L ((4 : ℝ) • T 0 4 (h / 2) + T 0 4 h - (2 * h) • T 1 3 (h / 2)) +
        (h ^ 2 / 6) • L (L ((2 : ℝ) • T 0 3 (h / 2) - (h / 2) • T 1 2 (h / 2))) +
        (h ^ 3 / 12) • L (L (L (T 0 2 (h / 2))))) := by
    have g0 : G t = y 1 t - L (y 0 t) := by rw [f0]; abel
    have g1 : G (t + h / 2) = y 1 (t + h / 2) - L (y 0 (t + h / 2)) := by rw [f1]; abel
    have g2 : G (t + h) = y 1 (t + h) - L (y 0 (t + h)) := by rw [f2]; abel
    simp only [rkStep, g0, g1, g2, hT, rem, taylor, Finset.sum_range_succ, Finset.sum_range_zero, Nat.factorial,
      map_add, map_sub, map_smul, add_zero, zero_add, Nat.reduceAdd, pow_zero, Nat.cast_one, div_one,
      one_smul]
    module
  rw [key, norm_neg]
  have hLs : ∀ (c : ℝ) (w : E) (m : ℝ), 0 ≤ c → ‖w‖ ≤ m → ‖c • L w‖ ≤ c * (ℓ * m) := by
    intro c w m hc hw
    rw [norm_smul, Real.norm_of_nonneg hc]
    exact mul_le_mul_of_nonneg_left ((hL w).trans (mul_le_mul_of_nonneg_left hw hℓ)) hc
  have n1 := bound 0 5 h (by omega) hh hb
  have n2 := norm_smul_le_of (c := (4 * h / 6)) (by positivity) (bound 1 4 (h / 2) (by omega) h2 hb2)
  have n3 := norm_smul_le_of (c := (h / 6)) (by positivity) (bound 1 4 h (by omega) hh hb)
  have m1 := norm_smul_le_of (c := 4) (by norm_num) (bound 0 4 (h / 2) (by omega) h2 hb2)
  have m2 := bound 0 4 h (by omega) hh hb
  have m3 := norm_smul_le_of (c := (2 * h)) (by positivity) (bound 1 3 (h / 2) (by omega) h2 hb2)
  have m4 := hLs (h / 6) _ _ (by positivity)
    ((norm_sub_le _ _).trans (add_le_add ((norm_add_le _ _).trans (add_le_add m1 m2)) m3))
  have p1 := norm_smul_le_of (c := 2) (by norm_num) (bound 0 3 (h / 2) (by omega) h2 hb2)
  have p2 := norm_smul_le_of (c := (h / 2)) (by positivity) (bound 1 2 (h / 2) (by omega) h2 hb2)
  have p3 := hLs (h ^ 2 / 6) _ _ (by positivity)
    ((hL _).trans (mul_le_mul_of_nonneg_left ((norm_sub_le _ _).trans (add_le_add p1 p2)) hℓ))
  have r1 := hLs (h ^ 3 / 12) _ _ (by positivity) ((hL _).trans (mul_le_mul_of_nonneg_left ((hL _).trans
    (mul_le_mul_of_nonneg_left (bound 0 2 (h / 2) (by omega) h2 hb2) hℓ)) hℓ))
  have s1 := (norm_sub_le _ _).trans (add_le_add ((norm_sub_le _ _).trans (add_le_add n1 n2)) n3)
  refine ((norm_add_le _ _).trans (add_le_add ((norm_add_le _ _).trans (add_le_add ((norm_add_le _ _).trans
    (add_le_add s1 m4)) p3)) r1)).trans (le_of_eq ?_)
  simp only [Nat.factorial]
  push_cast
  ring

/-- The exact motion inserted in a Runge-Kutta step of any system: second order at least. -/
theorem rk_local_two {Y : ℕ → ℝ} (hy : Smooth y 3 a b) (hf : ∀ t ∈ Icc a b, y 1 t = f t (y 0 t))
    (hL : ∀ t w w', ‖f t w - f t w'‖ ≤ ℓ * ‖w - w'‖) (hℓ : 0 ≤ ℓ)
    (hY : ∀ k ≤ 3, ∀ τ ∈ Icc a b, ‖y k τ‖ ≤ Y k) (ha : a ≤ t) (hh : 0 ≤ h) (hb : t + h ≤ b) :
    ‖rkStep f t h (y 0 t) - y 0 (t + h)‖ ≤
      (1 / 3 * Y 3 + ℓ * Y 2 * (1 / 4 + ℓ * h / 24 + (ℓ * h) ^ 2 / 96)) * h ^ 3 := by
  have h2 : 0 ≤ h / 2 := by linarith
  have hb2 : t + h / 2 ≤ b := by linarith
  have f0 := hf t ⟨ha, by linarith⟩
  have f1 := hf (t + h / 2) ⟨by linarith, hb2⟩
  have f2 := hf (t + h) ⟨by linarith, hb⟩
  -- defects of the stages
  have bound := rem_le hy hY ha
  have d2 := bound 0 2 (h / 2) (by omega) h2 hb2
  have d3 : ‖y 0 (t + h / 2) - y 0 t - (h / 2) • y 1 (t + h / 2)‖ ≤ Y 2 * (h ^ 2 / 8) :=
    (backward_le (N := fun x : E => ‖x‖) gauge_norm norm_neg (hy.mono (by omega)) (hY 2 (by omega)) ha h2
      hb2).trans (le_of_eq (by ring))
  have d4 := (norm_sub_le _ _).trans (add_le_add (bound 0 2 h (by omega) hh hb)
    (norm_smul_le_of (c := h) hh (bound 1 1 (h / 2) (by omega) h2 hb2)))
  have d5 := (norm_sub_le _ _).trans (add_le_add ((norm_sub_le _ _).trans (add_le_add
    (bound 0 3 h (by omega) hh hb)
    (norm_smul_le_of (c := 4 * h / 6) (by positivity) (bound 1 2 (h / 2) (by omega) h2 hb2))))
    (norm_smul_le_of (c := h / 6) (by positivity) (bound 1 2 h (by omega) hh hb)))
  unfold rkStep
  extract_lets k1 k2 k3 k4
  have e1 : k1 = y 1 t := f0.symm
  have e2 : ‖k2 - y 1 (t + h / 2)‖ ≤ ℓ * (Y 2 * (h ^ 2 / 8)) := by
    rw [f1]
    refine (hL _ _ _).trans (mul_le_mul_of_nonneg_left ?_ hℓ)
    rw [norm_sub_rev, e1]
    refine (le_of_eq ?_).trans (d2.trans (le_of_eq ?_))
    · congr 1
      simp only [rem, taylor, Finset.sum_range_succ, Finset.sum_range_zero, Nat.factorial]
      push_cast
      module
    · simp only [Nat.factorial]; push_cast; ring
  have e3 : ‖k3 - y 1 (t + h / 2)‖ ≤ ℓ * (Y 2 * (h ^ 2 / 8) + h / 2 * (ℓ * (Y 2 * (h ^ 2 / 8)))) := by
    rw [f1]
    refine (hL _ _ _).trans (mul_le_mul_of_nonneg_left ?_ hℓ)
    rw [norm_sub_rev]
    refine (le_of_eq ?_).trans ((norm_sub_le _ _).trans (add_le_add d3 (norm_smul_le_of h2 e2)))
    congr 1
    module
  have e4 : ‖k4 - y 1 (t + h)‖ ≤ ℓ * (Y 2 * h ^ 2 +
      h * (ℓ * (Y 2 * (h ^ 2 / 8) + h / 2 * (ℓ * (Y 2 * (h ^ 2 / 8)))))) := by
    rw [f2]
    refine (hL _ _ _).trans (mul_le_mul_of_nonneg_left ?_ hℓ)
    rw [norm_sub_rev]
    refine (le_of_eq ?_).trans (((norm_sub_le _ _).trans (add_le_add d4 (norm_smul_le_of hh e3))).trans
      (le_of_eq ?_))
    · congr 1
      simp only [rem, taylor, Finset.sum_range_succ, Finset.sum_range_zero, Nat.factorial]
      push_cast
      module
    · simp only [Nat.factorial]; push_cast; ring
  have h6 : 0 ≤ h / 6 := by linarith
  have e5 := norm_smul_le_of h6 ((norm_add_le _ _).trans (add_le_add ((norm_add_le _ _).trans (add_le_add
    (norm_smul_le_of (c := 2) (by norm_num) e2) (norm_smul_le_of (c := 2) (by norm_num) e3))) e4))
  refine (le_of_eq ?_).trans (((norm_sub_le _ _).trans (add_le_add e5 d5)).trans (le_of_eq ?_))
  · congr 1
    rw [e1]
    simp only [rem, taylor, Finset.sum_range_succ, Finset.sum_range_zero, Nat.factorial]
    push_cast
    module
  · simp only [Nat.factorial]; push_cast; ring

end explicit

end GsSA.Dynamic
