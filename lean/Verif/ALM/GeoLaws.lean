import Mathlib.Algebra.Order.Field.Basic
import Mathlib.Algebra.Order.Ring.Abs
import Mathlib.Analysis.InnerProductSpace.Basic
import Mathlib.Tactic.LinearCombination
import Mathlib.Tactic.Linarith
import Mathlib.Tactic.Positivity
import Verif.ALM.Base

/-!
# Laws of the inner product and of the square root

Every real inner product space of any dimension is an instance. The laws do not ask for a definite
form, so semi-definite ones are covered as well.
-/

namespace GsSA.ALM

set_option linter.unusedSectionVars false

variable {K V : Type} [Field K] [LinearOrder K] [IsStrictOrderedRing K] [AddCommGroup V] [Module K V]

/-- A positive semidefinite symmetric bilinear form and a square root. -/
structure Geo.Laws (g : Geo K V) : Prop where
  add_left : ∀ x y z, g.dot (x + y) z = g.dot x z + g.dot y z
  smul_left : ∀ (a : K) x y, g.dot (a • x) y = a * g.dot x y
  comm : ∀ x y, g.dot x y = g.dot y x
  nonneg : ∀ x, 0 ≤ g.dot x x
  sqrt_nonneg : ∀ x, 0 ≤ g.sqrt x
  sqrt_sq : ∀ x, 0 ≤ x → g.sqrt x ^ 2 = x

/-- The geometry of a real inner product space. -/
noncomputable def realGeo (V : Type) [NormedAddCommGroup V] [InnerProductSpace ℝ V] : Geo ℝ V where
  dot x y := inner ℝ x y
  sqrt := Real.sqrt

theorem realGeo_laws (V : Type) [NormedAddCommGroup V] [InnerProductSpace ℝ V] :
    (realGeo V).Laws where
  add_left x y z := inner_add_left x y z
  smul_left a x y := by simp [realGeo, inner_smul_left]
  comm x y := real_inner_comm y x
  nonneg x := real_inner_self_nonneg
  sqrt_nonneg x := Real.sqrt_nonneg x
  sqrt_sq x h := Real.sq_sqrt h

namespace Geo.Laws

variable {g : Geo K V}

theorem add_right (h : g.Laws) (x y z : V) : g.dot x (y + z) = g.dot x y + g.dot x z := by
  rw [h.comm, h.add_left, h.comm y, h.comm z]

theorem smul_right (h : g.Laws) (a : K) (x y : V) : g.dot x (a • y) = a * g.dot x y := by
  rw [h.comm, h.smul_left, h.comm]

theorem zero_left (h : g.Laws) (x : V) : g.dot 0 x = 0 := by
  have := h.smul_left 0 0 x
  simpa using this

theorem zero_right (h : g.Laws) (x : V) : g.dot x 0 = 0 := by rw [h.comm, h.zero_left]

theorem neg_left (h : g.Laws) (x y : V) : g.dot (-x) y = -g.dot x y := by
  have := h.smul_left (-1) x y
  simpa using this

theorem neg_right (h : g.Laws) (x y : V) : g.dot x (-y) = -g.dot x y := by
  rw [h.comm, h.neg_left, h.comm]

theorem sub_left (h : g.Laws) (x y z : V) : g.dot (x - y) z = g.dot x z - g.dot y z := by
  rw [sub_eq_add_neg, h.add_left, h.neg_left]; ring

theorem sub_right (h : g.Laws) (x y z : V) : g.dot x (y - z) = g.dot x y - g.dot x z := by
  rw [h.comm, h.sub_left, h.comm y, h.comm z]

theorem sqrt_eq (h : g.Laws) {x y : K} (hy : 0 ≤ y) (hx : x = y ^ 2) : g.sqrt x = y := by
  have h1 := h.sqrt_sq x (by rw [hx]; positivity)
  have h2 := h.sqrt_nonneg x
  rw [hx] at h1 h2 ⊢
  exact (pow_left_inj₀ h2 hy (by norm_num)).1 h1

theorem sqrt_abs (h : g.Laws) {x y : K} (hx : x = y ^ 2) : g.sqrt x = |y| :=
  h.sqrt_eq (abs_nonneg y) (by rw [hx, sq_abs])

theorem sqrt_mono (h : g.Laws) {x y : K} (hx : 0 ≤ x) (hxy : x ≤ y) : g.sqrt x ≤ g.sqrt y := by
  have h1 := h.sqrt_sq x hx
  have h2 := h.sqrt_sq y (hx.trans hxy)
  exact le_of_sq_le_sq (by rw [h1, h2]; exact hxy) (h.sqrt_nonneg y)
where
  le_of_sq_le_sq {a b : K} (hab : a ^ 2 ≤ b ^ 2) (hb : 0 ≤ b) : a ≤ b := by
    by_contra hlt
    push Not at hlt
    nlinarith

theorem sqrt_zero (h : g.Laws) : g.sqrt 0 = 0 := h.sqrt_eq le_rfl (by ring)

theorem sqrt_pos (h : g.Laws) {x : K} (hx : 0 < x) : 0 < g.sqrt x := by
  rcases (h.sqrt_nonneg x).eq_or_lt with h0 | h0
  · have := h.sqrt_sq x hx.le
    rw [← h0] at this
    linarith [this, hx, (by ring : (0 : K) ^ 2 = 0)]
  · exact h0

theorem norm_nonneg (h : g.Laws) (x : V) : 0 ≤ g.norm x := h.sqrt_nonneg _

theorem norm_sq (h : g.Laws) (x : V) : g.norm x ^ 2 = g.dot x x := h.sqrt_sq _ (h.nonneg x)

end Geo.Laws

end GsSA.ALM
