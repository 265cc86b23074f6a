import Mathlib.Analysis.Calculus.MeanValue
import Mathlib.Analysis.Calculus.Deriv.Pow
import Mathlib.Analysis.Calculus.Deriv.Shift
import Mathlib.Analysis.Normed.Module.HahnBanach
import Mathlib.Analysis.SpecialFunctions.Exp
import Mathlib.Data.Nat.Factorial.Basic

/-!
# Taylor expansions in norms and energy norms (used for C133)

Nothing in this file refers to the code: it bounds remainders of Taylor expansions of the exact motion.
-/

namespace GsSA.Dynamic

open Set

variable {E : Type} [NormedAddCommGroup E] [NormedSpace ℝ E]

/-- A function that is the supremum of the continuous linear functionals below it, the supremum being
attained: norms, and square roots of semidefinite forms. -/
def Gauge (N : E → ℝ) : Prop := ∀ z, ∃ φ : E →L[ℝ] ℝ, φ z = N z ∧ ∀ x, φ x ≤ N x

theorem gauge_norm : Gauge (fun x : E => ‖x‖) := by
  intro z
  obtain ⟨g, h1, h2⟩ := exists_dual_vector'' ℝ z
  refine ⟨g, by simpa using h2, fun x => ?_⟩
  calc g x ≤ ‖g x‖ := Real.le_norm_self _
    _ ≤ ‖g‖ * ‖x‖ := g.le_opNorm x
    _ ≤ 1 * ‖x‖ := by gcongr
    _ = ‖x‖ := one_mul _

namespace Gauge

variable {N : E → ℝ} (hN : Gauge N)
include hN

theorem add_le (x y : E) : N (x + y) ≤ N x + N y := by
  obtain ⟨φ, h1, h2⟩ := hN (x + y)
  rw [← h1, map_add]
  exact add_le_add (h2 x) (h2 y)

theorem smul_le {c : ℝ} (hc : 0 ≤ c) (x : E) : N (c • x) ≤ c * N x := by
  obtain ⟨φ, h1, h2⟩ := hN (c • x)
  rw [← h1, map_smul, smul_eq_mul]
  exact mul_le_mul_of_nonneg_left (h2 x) hc

theorem zero_le : N 0 = 0 := by
  obtain ⟨φ, h1, -⟩ := hN 0
  rw [← h1, map_zero]

/-- A function that starts at 0 is bounded by the integral of a bound of its derivative. -/
theorem le_of_deriv {r r' : ℝ → E} {g g' : ℝ → ℝ} {h : ℝ} (hh : 0 ≤ h)
    (hr : ∀ s ∈ Icc 0 h, HasDerivAt r (r' s) s) (hg : ∀ s, HasDerivAt g (g' s) s)
    (hb : ∀ s ∈ Icc 0 h, N (r' s) ≤ g' s) (hr0 : r 0 = 0) (hg0 : g 0 = 0) : N (r h) ≤ g h := by
  obtain ⟨φ, h1, h2⟩ := hN (r h)
  rw [← h1]
  refine image_le_of_deriv_right_le_deriv_boundary (f := fun s => φ (r s)) (f' := fun s => φ (r' s))
    (a := 0) (b := h) (B := g) (B' := g') ?_ ?_ ?_ ?_ ?_ ?_ ⟨hh, le_refl h⟩
  · exact fun s hs => (φ.continuous.continuousAt.comp (hr s hs).continuousAt).continuousWithinAt
  · exact fun s hs => ((φ.hasFDerivAt.comp_hasDerivAt s (hr s ⟨hs.1, hs.2.le⟩))).hasDerivWithinAt
  · simp [hr0, hg0]
  · exact fun s _ => (hg s).continuousAt.continuousWithinAt
  · exact fun s _ => (hg s).hasDerivWithinAt
  · exact fun s hs => (h2 _).trans (hb s ⟨hs.1, hs.2.le⟩)

theorem le_pow {r r' : ℝ → E} {c h : ℝ} (k : ℕ) (hh : 0 ≤ h)
    (hr : ∀ s ∈ Icc 0 h, HasDerivAt r (r' s) s)
    (hb : ∀ s ∈ Icc 0 h, N (r' s) ≤ c * s ^ k) (hr0 : r 0 = 0) : N (r h) ≤ c * (h ^ (k + 1) / (k + 1)) := by
  refine hN.le_of_deriv (g := fun s => c * (s ^ (k + 1) / (k + 1))) hh hr (fun s => ?_) hb hr0 (by simp)
  have h1 := ((hasDerivAt_pow (k + 1) s).div_const ((k : ℝ) + 1)).const_mul c
  have h2 : (k : ℝ) + 1 ≠ 0 := by positivity
  refine h1.congr_deriv ?_
  push_cast
  rw [mul_div_cancel_left₀ _ h2]

end Gauge

/-- `y k` is the `k`-th derivative of `y 0` for `k ≤ p`, between the times `a` and `b`. -/
def Smooth (y : ℕ → ℝ → E) (p : ℕ) (a b : ℝ) : Prop :=
  ∀ k < p, ∀ t ∈ Icc a b, HasDerivAt (y k) (y (k + 1) t) t

theorem Smooth.tail {y : ℕ → ℝ → E} {p : ℕ} {a b : ℝ} (h : Smooth y (p + 1) a b) :
    Smooth (fun k => y (k + 1)) p a b := fun k hk t ht => h (k + 1) (by omega) t ht

theorem Smooth.mono {y : ℕ → ℝ → E} {p q : ℕ} {a b : ℝ} (h : Smooth y p a b) (hq : q ≤ p) :
    Smooth y q a b := fun k hk t ht => h k (by omega) t ht

/-- The Taylor polynomial of degree below `k` at `t`. -/
noncomputable def taylor (y : ℕ → ℝ → E) (k : ℕ) (t s : ℝ) : E :=
  ∑ i ∈ Finset.range k, (s ^ i / i.factorial) • y i t

theorem taylor_deriv (y : ℕ → ℝ → E) (k : ℕ) (t s : ℝ) :
    HasDerivAt (fun s => taylor y (k + 1) t s) (taylor (fun i => y (i + 1)) k t s) s := by
  induction k with
  | zero => simpa [taylor] using hasDerivAt_const s _
  | succ k ih =>
    have e1 : (fun s => taylor y (k + 1 + 1) t s) =
        fun s => taylor y (k + 1) t s + (s ^ (k + 1) / (k + 1).factorial) • y (k + 1) t := by
      funext s; simp [taylor, Finset.sum_range_succ]
    have e2 : taylor (fun i => y (i + 1)) (k + 1) t s =
        taylor (fun i => y (i + 1)) k t s + (s ^ k / k.factorial) • y (k + 1) t := by
      simp [taylor, Finset.sum_range_succ]
    rw [e1, e2]
    refine ih.add ?_
    have h1 := ((hasDerivAt_pow (k + 1) s).div_const ((k + 1).factorial : ℝ)).smul_const (y (k + 1) t)
    refine h1.congr_deriv ?_
    congr 1
    have h2 : (k.factorial : ℝ) ≠ 0 := by positivity
    have h3 : (k : ℝ) + 1 ≠ 0 := by positivity
    rw [Nat.factorial_succ, add_tsub_cancel_right]
    push_cast
    field_simp

variable {N : E → ℝ} {y : ℕ → ℝ → E} {a b c t h : ℝ}

theorem shift_deriv {f : ℝ → E} {f' : E} {s : ℝ} (h : HasDerivAt f f' (t + s)) :
    HasDerivAt (fun s => f (t + s)) f' s := h.comp_const_add t s

/-- The remainder of the Taylor expansion. -/
theorem taylor_le (hN : Gauge N) (k : ℕ) (hy : Smooth y k a b) (hc : ∀ τ ∈ Icc a b, N (y k τ) ≤ c)
    (ha : a ≤ t) (hh : 0 ≤ h) (hb : t + h ≤ b) :
    N (y 0 (t + h) - taylor y k t h) ≤ c * (h ^ k / k.factorial) := by
  induction k generalizing y h with
  | zero => simpa [taylor] using hc (t + h) ⟨by linarith, hb⟩
  | succ k ih =>
    have h1 := hN.le_pow (r := fun s => y 0 (t + s) - taylor y (k + 1) t s)
      (r' := fun s => y 1 (t + s) - taylor (fun i => y (i + 1)) k t s) (c := c / k.factorial) k hh
      (fun s hs => (shift_deriv (hy 0 (by omega) (t + s) ⟨by linarith [hs.1], by linarith [hs.2]⟩)).sub
        (taylor_deriv y k t s))
      (fun s hs => by
        have := ih hy.tail hc hs.1 (by linarith [hs.2])
        refine this.trans (le_of_eq ?_)
        ring)
      (by simp [taylor, Finset.sum_range_succ'])
    refine h1.trans (le_of_eq ?_)
    rw [Nat.factorial_succ]
    have h2 : (k.factorial : ℝ) ≠ 0 := by positivity
    have h3 : (k : ℝ) + 1 ≠ 0 := by positivity
    push_cast
    field_simp

/-- The remainder of the backward formula. -/
theorem backward_le (hN : Gauge N) (hs : ∀ x, N (-x) = N x) (hy : Smooth y 2 a b)
    (hc : ∀ τ ∈ Icc a b, N (y 2 τ) ≤ c) (ha : a ≤ t) (hh : 0 ≤ h) (hb : t + h ≤ b) :
    N (y 0 (t + h) - y 0 t - h • y 1 (t + h)) ≤ c * (h ^ 2 / 2) := by
  have h1 := hN.le_pow (r := fun s => y 0 (t + s) - y 0 t - s • y 1 (t + s))
    (r' := fun s => -(s • y 2 (t + s))) (c := c) 1 hh
    (fun s hs => by
      have hm : t + s ∈ Icc a b := ⟨by linarith [hs.1], by linarith [hs.2]⟩
      have d0 := shift_deriv (hy 0 (by omega) _ hm)
      have d1 := shift_deriv (hy 1 (by omega) _ hm)
      have d2 := (d0.sub_const (y 0 t)).sub ((hasDerivAt_id s).smul d1)
      refine d2.congr_deriv ?_
      simp only [id_eq, one_smul, zero_add, Nat.reduceAdd]
      module)
    (fun s hs' => by
      have hm : t + s ∈ Icc a b := ⟨by linarith [hs'.1], by linarith [hs'.2]⟩
      rw [hs]
      have := hN.smul_le hs'.1 (y 2 (t + s))
      have := mul_le_mul_of_nonneg_left (hc _ hm) hs'.1
      linarith)
    (by simp)
  norm_num at h1
  exact h1

/-- The error of the trapezoidal rule. -/
theorem trapezoid_le (hN : Gauge N) (hs : ∀ x, N (-x) = N x) (hy : Smooth y 3 a b)
    (hc : ∀ τ ∈ Icc a b, N (y 3 τ) ≤ c) (ha : a ≤ t) (hh : 0 ≤ h) (hb : t + h ≤ b) :
    N (y 0 (t + h) - y 0 t - (h / 2) • (y 1 t + y 1 (t + h))) ≤ c * (h ^ 3 / 12) := by
  have k2 : ∀ h', 0 ≤ h' → h' ≤ h →
      N ((1 / 2 : ℝ) • (y 1 (t + h') - y 1 t) - (h' / 2) • y 2 (t + h')) ≤ c * (h' ^ 2 / 4) := by
    intro h' hh' hle
    have h1 := hN.le_pow (r := fun s => (1 / 2 : ℝ) • (y 1 (t + s) - y 1 t) - (s / 2) • y 2 (t + s))
      (r' := fun s => -((s / 2) • y 3 (t + s))) (c := c / 2) 1 hh'
      (fun s hs => by
        have hm : t + s ∈ Icc a b := ⟨by linarith [hs.1], by linarith [hs.2]⟩
        have d1 := shift_deriv (hy 1 (by omega) _ hm)
        have d2 := shift_deriv (hy 2 (by omega) _ hm)
        have d3 := ((d1.sub_const (y 1 t)).const_smul (1 / 2 : ℝ)).sub
          (((hasDerivAt_id s).div_const 2).smul d2)
        refine d3.congr_deriv ?_
        simp only [id_eq, Nat.reduceAdd]
        module)
      (fun s hs' => by
        have hm : t + s ∈ Icc a b := ⟨by linarith [hs'.1], by linarith [hs'.2]⟩
        rw [hs]
        have h0 : 0 ≤ s / 2 := by linarith [hs'.1]
        have := hN.smul_le h0 (y 3 (t + s))
        have := mul_le_mul_of_nonneg_left (hc _ hm) h0
        linarith)
      (by simp)
    norm_num at h1
    refine (le_of_eq ?_).trans (h1.trans (le_of_eq (by ring)))
    norm_num
  have h1 := hN.le_pow (r := fun s => y 0 (t + s) - y 0 t - (s / 2) • (y 1 t + y 1 (t + s)))
    (r' := fun s => (1 / 2 : ℝ) • (y 1 (t + s) - y 1 t) - (s / 2) • y 2 (t + s)) (c := c / 4) 2 hh
    (fun s hs => by
      have hm : t + s ∈ Icc a b := ⟨by linarith [hs.1], by linarith [hs.2]⟩
      have d0 := shift_deriv (hy 0 (by omega) _ hm)
      have d1 := shift_deriv (hy 1 (by omega) _ hm)
      have d2 := (d0.sub_const (y 0 t)).sub (((hasDerivAt_id s).div_const 2).smul (d1.const_add (y 1 t)))
      refine d2.congr_deriv ?_
      simp only [id_eq, zero_add, Nat.reduceAdd]
      module)
    (fun s hs' => (k2 s hs'.1 hs'.2).trans (le_of_eq (by ring)))
    (by simp)
  refine h1.trans (le_of_eq ?_)
  norm_num
  ring

end GsSA.Dynamic
