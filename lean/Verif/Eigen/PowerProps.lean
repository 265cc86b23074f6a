import Mathlib.Algebra.Module.LinearMap.End
import Mathlib.Data.Fin.VecNotation
import Mathlib.Tactic.Linarith
import Mathlib.Tactic.Positivity
import Mathlib.Tactic.NormNum
import Verif.Eigen.Props

/-!
# Properties of the power method

C69. The vectors have a scalar product whose norm is the one used by the loop.
-/

namespace GsSA.Eigen

open GsSA

set_option linter.unusedSectionVars false

variable {K V : Type} [Field K] [LinearOrder K] [IsStrictOrderedRing K] [AddCommGroup V] [Module K V]

/-- `dot` is a scalar product and `norm` its norm. -/
structure Euclid (e : Lib K V) : Prop where
  add_left : ∀ x y z, e.dot (x + y) z = e.dot x z + e.dot y z
  smul_left : ∀ (c : K) x y, e.dot (c • x) y = c * e.dot x y
  comm : ∀ x y, e.dot x y = e.dot y x
  self_nonneg : ∀ x, 0 ≤ e.dot x x
  self_zero : ∀ x, e.dot x x = 0 → x = 0
  norm_nonneg : ∀ x, 0 ≤ e.norm x
  norm_sq : ∀ x, e.norm x * e.norm x = e.dot x x

namespace Euclid

variable {e : Lib K V} (E : Euclid e)
include E

theorem smul_right (c : K) (x y : V) : e.dot x (c • y) = c * e.dot x y := by
  rw [E.comm, E.smul_left, E.comm]

theorem add_right (x y z : V) : e.dot x (y + z) = e.dot x y + e.dot x z := by
  rw [E.comm, E.add_left, E.comm y, E.comm z]

theorem zero_left (x : V) : e.dot 0 x = 0 := by
  have := E.smul_left 0 0 x
  rwa [zero_smul, zero_mul] at this

theorem self_pos (x : V) : 0 < e.dot x x ↔ x ≠ 0 := by
  constructor
  · rintro h rfl
    rw [E.zero_left] at h
    exact lt_irrefl _ h
  · intro h
    exact lt_of_le_of_ne (E.self_nonneg x) fun h0 => h (E.self_zero x h0.symm)

theorem norm_zero : e.norm 0 = 0 := by
  have := E.norm_sq 0
  rw [E.zero_left] at this
  exact mul_self_eq_zero.1 this

theorem norm_pos (x : V) : 0 < e.norm x ↔ x ≠ 0 := by
  constructor
  · rintro h rfl
    rw [E.norm_zero] at h
    exact lt_irrefl _ h
  · intro h
    refine lt_of_le_of_ne (E.norm_nonneg x) fun h0 => h (E.self_zero x ?_)
    rw [← E.norm_sq, ← h0, mul_zero]

theorem norm_smul (c : K) (x : V) : e.norm (c • x) = |c| * e.norm x := by
  have h1 : e.norm (c • x) * e.norm (c • x) = (|c| * e.norm x) * (|c| * e.norm x) := by
    rw [E.norm_sq, E.smul_left, E.smul_right, ← E.norm_sq x]
    have := abs_mul_abs_self c
    linear_combination (-(e.norm x * e.norm x)) * this
  exact (mul_self_inj (E.norm_nonneg _) (mul_nonneg (abs_nonneg _) (E.norm_nonneg _))).1 h1

theorem normalize_eq (x : V) : normalize e x = (e.norm x)⁻¹ • x := by
  unfold normalize
  split
  · rfl
  · rename_i h
    rw [E.self_pos, not_not] at h
    rw [h, smul_zero]

theorem normalize_zero : normalize e 0 = 0 := by
  rw [E.normalize_eq, smul_zero]

theorem norm_normalize (x : V) (h : x ≠ 0) : e.norm (normalize e x) = 1 := by
  have hp := (E.norm_pos x).2 h
  rw [E.normalize_eq, E.norm_smul, abs_of_pos (inv_pos.2 hp), inv_mul_cancel₀ hp.ne']

theorem normalize_smul_pos (c : K) (x : V) (h : 0 < c) : normalize e (c • x) = normalize e x := by
  rw [E.normalize_eq, E.normalize_eq, E.norm_smul, abs_of_pos h, mul_inv, smul_smul]
  congr 1
  field_simp

theorem normalize_smul_neg (c : K) (x : V) (h : c < 0) : normalize e (c • x) = -normalize e x := by
  rw [E.normalize_eq, E.normalize_eq, E.norm_smul, abs_of_neg h, mul_inv, smul_smul, ← neg_smul]
  congr 1
  have := h.ne
  field_simp

theorem normalize_unit (x : V) (h : e.norm x = 1) : normalize e x = x := by
  rw [E.normalize_eq, h, inv_one, one_smul]

theorem norm_neg (x : V) : e.norm (-x) = e.norm x := by
  rw [← neg_one_smul K, E.norm_smul]
  simp

end Euclid

/-- **C69**: the power method reports success or that it has not converged, nothing else. -/
theorem C69_status (e : Lib K V) (s : ESt K V) (hs : s.status ≠ .assemblyError) :
    ((computePower e s).2 = .success ∨ (computePower e s).2 = .notConverged) ∧
      (computePower e s).1.status = (computePower e s).2 := by
  simp only [computePower, if_neg hs]
  exact ⟨powerLoop_status e _ _ 99 _ _ _, trivial⟩

theorem powerLoop_krylov {e : Lib K V} (E : Euclid e) (D : V →ₗ[K] V) (tol : K) (n : ℕ) (v old : V)
    (st : Status) : ∃ (k : ℕ) (c : K), (n ≠ 0 → 1 ≤ k) ∧ k ≤ n ∧ 0 < c ∧
      (powerLoop e D tol n v old st).1 = c • (D ^ k) v := by
  have hn : ∀ x : V, ∃ c : K, 0 < c ∧ normalize e x = c • x := by
    intro x
    by_cases h : x = 0
    · exact ⟨1, one_pos, by rw [h, E.normalize_zero, smul_zero]⟩
    · exact ⟨_, inv_pos.2 ((E.norm_pos x).2 h), E.normalize_eq x⟩
  induction n generalizing v old st with
  | zero => exact ⟨0, 1, fun h => absurd rfl h, le_rfl, one_pos, by simp [powerLoop]⟩
  | succ n ih =>
    obtain ⟨c, hc, h1⟩ := hn (D v)
    rw [powerLoop]
    split
    · exact ⟨1, c, fun _ => le_rfl, Nat.le_add_left _ _, hc, by rw [pow_one]; exact h1⟩
    · obtain ⟨k, d, _, h3, h4, h5⟩ := ih (normalize e (D v)) (normalize e (D v))
        (if n = 0 then .notConverged else st)
      refine ⟨k + 1, d * c, fun _ => Nat.le_add_left _ _, Nat.succ_le_succ h3, mul_pos h4 hc, ?_⟩
      rw [h5, h1, map_smul, smul_smul, pow_succ, Module.End.mul_apply]

/-- **C69**: the vector is a positive multiple of `D^k` applied to the vector of ones, with `1 <= k <= 100`
and `D = A^-1 B`. -/
theorem C69_krylov (e : Lib K V) (E : Euclid e) (s : ESt K V) (hs : s.status ≠ .assemblyError) :
    ∃ (k : ℕ) (c : K), 1 ≤ k ∧ k ≤ 100 ∧ 0 < c ∧
      (computePower e s).1.vectors = [c • ((e.inverse s.a ∘ₗ s.b) ^ k) e.ones] := by
  obtain ⟨k, c, h1, h2, h3, h4⟩ :=
    powerLoop_krylov E (e.inverse s.a ∘ₗ s.b) s.opts.tolerance 100 e.ones 0 s.status
  refine ⟨k, c, h1 (by decide), h2, h3, ?_⟩
  simp only [computePower, if_neg hs, h4]

/-- **C69**: whenever the final vector is an eigenvector of `A^-1 B` with a value `mu` other than 0, the value
is `1 / mu`, and with it the vector is an eigenvector of the given matrices. -/
theorem C69_value (e : Lib K V) (E : Euclid e) (s : ESt K V) (hs : s.status ≠ .assemblyError)
    (hinv : ∀ x, s.a (e.inverse s.a x) = x) (v : V) (hv : (computePower e s).1.vectors = [v]) (h0 : v ≠ 0)
    (mu : K) (hmu : mu ≠ 0) (h : (e.inverse s.a ∘ₗ s.b) v = mu • v) :
    (computePower e s).1.values = [some (1 / mu)] ∧ s.a v = (1 / mu) • s.b v := by
  have hd := ((E.self_pos v).2 h0).ne'
  have h2 : quotient e (e.inverse s.a ∘ₗ s.b) v = some (1 / mu) := by
    rw [quotient, h, E.smul_right, if_neg (mul_ne_zero hmu hd)]
    congr 1
    field_simp
  simp only [computePower, if_neg hs, List.cons.injEq, and_true] at hv ⊢
  rw [hv]
  refine ⟨h2, ?_⟩
  have h3 := congrArg s.a h
  rw [LinearMap.comp_apply, hinv, map_smul] at h3
  rw [h3, smul_smul, one_div, inv_mul_cancel₀ hmu, one_smul]

/-- **C69**: if the vector of ones is an eigenvector with a positive value, the method finds it. -/
theorem C69_positive (e : Lib K V) (E : Euclid e) (s : ESt K V) (hs : s.status ≠ .assemblyError)
    (htol : 0 < s.opts.tolerance) (h1 : e.ones ≠ 0) (mu : K) (hmu : 0 < mu)
    (h : (e.inverse s.a ∘ₗ s.b) e.ones = mu • e.ones) :
    (computePower e s).2 = .success ∧ (computePower e s).1.vectors = [normalize e e.ones] ∧
      (computePower e s).1.values = [some (1 / mu)] := by
  have hn : e.norm (normalize e e.ones) = 1 := E.norm_normalize _ h1
  have hd : normalize e ((e.inverse s.a ∘ₗ s.b) (normalize e e.ones)) = normalize e e.ones := by
    nth_rewrite 2 [E.normalize_eq]
    rw [map_smul, h, smul_comm, ← E.normalize_eq, E.normalize_smul_pos _ _ hmu, E.normalize_unit _ hn]
  have hloop : powerLoop e (e.inverse s.a ∘ₗ s.b) s.opts.tolerance 100 e.ones 0 s.status =
      (normalize e e.ones, .success) := by
    rw [powerLoop]
    simp only [h, E.normalize_smul_pos _ _ hmu]
    split
    · rfl
    · rw [powerLoop]
      simp only [hd, sub_self, E.norm_zero, if_pos htol]
  have hne : normalize e e.ones ≠ 0 := by
    intro h0
    rw [h0, E.norm_zero] at hn
    exact zero_ne_one hn
  have hq : quotient e (e.inverse s.a ∘ₗ s.b) (normalize e e.ones) = some (1 / mu) := by
    have hdd : (e.inverse s.a ∘ₗ s.b) (normalize e e.ones) = mu • normalize e e.ones := by
      rw [E.normalize_eq, map_smul, h, smul_comm]
    have := ((E.self_pos _).2 hne).ne'
    rw [quotient, hdd, E.smul_right, if_neg (mul_ne_zero hmu.ne' this)]
    congr 1
    field_simp
  simp only [computePower, if_neg hs, hloop, hq]
  exact ⟨trivial, trivial, trivial⟩

theorem powerLoop_negative {e : Lib K V} (E : Euclid e) (D : V →ₗ[K] V) (tol : K) (htol : tol ≤ 1) (mu : K)
    (hmu : mu < 0) (n : ℕ) (v : V) (hv : e.norm v = 1) (hD : D v = mu • v) (st : Status) :
    (powerLoop e D tol (n + 1) v v st).2 = .notConverged ∧
      e.norm (powerLoop e D tol (n + 1) v v st).1 = 1 ∧
      D (powerLoop e D tol (n + 1) v v st).1 = mu • (powerLoop e D tol (n + 1) v v st).1 := by
  have hstep : ∀ v : V, e.norm v = 1 → D v = mu • v → normalize e (D v) = -v := by
    intro v hv hD
    rw [hD, E.normalize_smul_neg _ _ hmu, E.normalize_unit _ hv]
  have herr : ∀ v : V, e.norm v = 1 → ¬ e.norm (-v - v) < tol := by
    intro v hv
    have : -v - v = (-2 : K) • v := by module
    rw [this, E.norm_smul, hv]
    norm_num
    linarith
  induction n generalizing v st with
  | zero =>
    have hv' : e.norm (-v) = 1 := by rw [E.norm_neg, hv]
    have hl : powerLoop e D tol (0 + 1) v v st = (-v, .notConverged) := by
      rw [powerLoop]
      simp only [hstep v hv hD]
      rw [if_neg (herr v hv)]
      rfl
    rw [hl]
    exact ⟨rfl, hv', by simp only; rw [map_neg, hD, smul_neg]⟩
  | succ n ih =>
    rw [powerLoop]
    simp only [hstep v hv hD]
    rw [if_neg (herr v hv)]
    exact ih (-v) (by rw [E.norm_neg, hv]) (by rw [map_neg, hD, smul_neg]) _

/-- **C69**: if the vector of ones is an eigenvector with a negative value, the method reports that it has not
converged, although the vector and the value are exact. -/
theorem C69_negative (e : Lib K V) (E : Euclid e) (s : ESt K V) (hs : s.status ≠ .assemblyError)
    (htol : s.opts.tolerance ≤ 1) (h1 : e.ones ≠ 0) (mu : K) (hmu : mu < 0)
    (h : (e.inverse s.a ∘ₗ s.b) e.ones = mu • e.ones) :
    (computePower e s).2 = .notConverged ∧ (computePower e s).1.values = [some (1 / mu)] ∧
      ∃ v, (computePower e s).1.vectors = [v] ∧ v ≠ 0 ∧ (e.inverse s.a ∘ₗ s.b) v = mu • v := by
  have hn : e.norm (-normalize e e.ones) = 1 := by rw [E.norm_neg, E.norm_normalize _ h1]
  have hD : (e.inverse s.a ∘ₗ s.b) (-normalize e e.ones) = mu • (-normalize e e.ones) := by
    rw [E.normalize_eq, map_neg, map_smul, h, smul_comm, smul_neg]
  obtain ⟨k1, k2, k3⟩ := powerLoop_negative E _ s.opts.tolerance htol mu hmu 98 _ hn hD s.status
  have hloop : powerLoop e (e.inverse s.a ∘ₗ s.b) s.opts.tolerance 100 e.ones 0 s.status =
      powerLoop e (e.inverse s.a ∘ₗ s.b) s.opts.tolerance (98 + 1) (-normalize e e.ones)
        (-normalize e e.ones) s.status := by
    rw [powerLoop]
    simp only [h, E.normalize_smul_neg _ _ hmu, sub_zero, hn]
    rw [if_neg (not_lt.2 htol), if_neg (by decide)]
  have hne : (powerLoop e (e.inverse s.a ∘ₗ s.b) s.opts.tolerance (98 + 1) (-normalize e e.ones)
        (-normalize e e.ones) s.status).1 ≠ 0 := by
    intro h0
    rw [h0, E.norm_zero] at k2
    exact zero_ne_one k2
  refine ⟨?_, ?_, _, ?_, hne, k3⟩
  · simp only [computePower, if_neg hs, hloop, k1]
  · have hq : quotient e (e.inverse s.a ∘ₗ s.b) (powerLoop e (e.inverse s.a ∘ₗ s.b) s.opts.tolerance (98 + 1)
        (-normalize e e.ones) (-normalize e e.ones) s.status).1 = some (1 / mu) := by
      have := ((E.self_pos _).2 hne).ne'
      rw [quotient, k3, E.smul_right, if_neg (mul_ne_zero hmu.ne this)]
      congr 1
      have := hmu.ne
      field_simp
    simp only [computePower, if_neg hs, hloop, hq]
  · simp only [computePower, if_neg hs, hloop]

theorem powerLoop_success {e : Lib K V} (E : Euclid e) (D : V →ₗ[K] V) (tol : K) (n : ℕ)
    (w : V) (hw : w = 0 ∨ e.norm w = 1) (st : Status)
    (h : (powerLoop e D tol (n + 1) w w st).2 = .success) :
    ∃ w' : V, (w' = 0 ∨ e.norm w' = 1) ∧ (powerLoop e D tol (n + 1) w w st).1 = normalize e (D w') ∧
      e.norm (normalize e (D w') - w') < tol := by
  have hnorm : ∀ x : V, normalize e x = 0 ∨ e.norm (normalize e x) = 1 := by
    intro x
    by_cases hx : x = 0
    · left; rw [hx, E.normalize_zero]
    · right; exact E.norm_normalize x hx
  induction n generalizing w st with
  | zero =>
    rw [powerLoop] at h ⊢
    split at h
    · rename_i hc
      exact ⟨w, hw, by rw [if_pos hc], hc⟩
    · simp [powerLoop] at h
  | succ n ih =>
    rw [powerLoop] at h ⊢
    split at h
    · rename_i hc
      exact ⟨w, hw, by rw [if_pos hc], hc⟩
    · rename_i hc
      rw [if_neg hc]
      exact ih _ (hnorm _) _ h

/-- **C69**: at success the vector is 0, or it is the normalised image of a unit vector `w` that is an
approximate eigenvector: the residual of `w` is less than the tolerance times the norm of its image, and
its Rayleigh quotient is positive. So no pair with a negative value is ever reported as found. -/
theorem C69_residual (e : Lib K V) (E : Euclid e) (s : ESt K V) (hs : s.status ≠ .assemblyError)
    (htol : s.opts.tolerance ≤ 1) (h : (computePower e s).2 = .success) :
    (computePower e s).1.vectors = [0] ∨ ∃ w, e.norm w = 1 ∧
      (computePower e s).1.vectors = [normalize e ((e.inverse s.a ∘ₗ s.b) w)] ∧
      0 < e.norm ((e.inverse s.a ∘ₗ s.b) w) ∧
      e.norm ((e.inverse s.a ∘ₗ s.b) w - e.norm ((e.inverse s.a ∘ₗ s.b) w) • w) <
        s.opts.tolerance * e.norm ((e.inverse s.a ∘ₗ s.b) w) ∧
      0 < e.dot w ((e.inverse s.a ∘ₗ s.b) w) := by
  set D := e.inverse s.a ∘ₗ s.b with hD
  simp only [computePower, if_neg hs, ← hD] at h ⊢
  rw [powerLoop] at h ⊢
  simp only [sub_zero] at h ⊢
  split at h
  · rename_i hc
    rw [if_pos hc]
    left
    by_cases h0 : D e.ones = 0
    · rw [h0, E.normalize_zero]
    · rw [E.norm_normalize _ h0] at hc
      exact absurd hc (not_lt.2 htol)
  · rename_i hc
    rw [if_neg hc]
    rw [if_neg (by decide)] at h ⊢
    have hw : normalize e (D e.ones) = 0 ∨ e.norm (normalize e (D e.ones)) = 1 := by
      by_cases hx : D e.ones = 0
      · left; rw [hx, E.normalize_zero]
      · right; exact E.norm_normalize _ hx
    obtain ⟨w, h1, h2, h3⟩ := powerLoop_success E D s.opts.tolerance 98 _ hw s.status h
    rcases h1 with rfl | h1
    · left
      rw [h2, map_zero, E.normalize_zero]
    · right
      have hp : D w ≠ 0 := by
        intro h0
        rw [h0, E.normalize_zero, zero_sub, E.norm_neg, h1] at h3
        exact absurd h3 (not_lt.2 htol)
      have hm := (E.norm_pos _).2 hp
      refine ⟨w, h1, by rw [h2], hm, ?_, ?_⟩
      · have he : D w - e.norm (D w) • w = e.norm (D w) • (normalize e (D w) - w) := by
          rw [E.normalize_eq, smul_sub, smul_smul, mul_inv_cancel₀ hm.ne', one_smul]
        rw [he, E.norm_smul, abs_of_pos hm, mul_comm]
        exact mul_lt_mul_of_pos_right h3 hm
      · have hexp : ∀ x y : V, e.dot (x - y) (x - y) = e.dot x x - 2 * e.dot y x + e.dot y y := by
          intro x y
          have : x - y = x + (-1 : K) • y := by module
          rw [this]
          simp only [E.add_left, E.add_right, E.smul_left, E.smul_right, E.comm x y]
          ring
        have hx := hexp (normalize e (D w)) w
        rw [← E.norm_sq (normalize e (D w)), E.norm_normalize _ hp, ← E.norm_sq w, h1, ← E.norm_sq] at hx
        have hnn := E.norm_nonneg (normalize e (D w) - w)
        have hdot : 0 < e.dot w (normalize e (D w)) := by nlinarith
        rw [E.normalize_eq, E.smul_right] at hdot
        exact (mul_pos_iff_of_pos_left (inv_pos.2 hm)).1 hdot

/-- **C69** violated: if `B` maps the vector of ones to 0 (its rows sum to 0), the method reports success
with the zero vector and a value that is not a number. -/
theorem C69_violated_zero (e : Lib K V) (E : Euclid e) (s : ESt K V) (hs : s.status ≠ .assemblyError)
    (htol : 0 < s.opts.tolerance) (h : s.b e.ones = 0) :
    (computePower e s).2 = .success ∧ (computePower e s).1.vectors = [0] ∧
      (computePower e s).1.values = [none] := by
  have hloop : powerLoop e (e.inverse s.a ∘ₗ s.b) s.opts.tolerance 100 e.ones 0 s.status =
      (0, .success) := by
    rw [powerLoop]
    simp only [LinearMap.comp_apply, h, map_zero, E.normalize_zero, sub_zero, E.norm_zero, if_pos htol]
  simp only [computePower, if_neg hs, hloop, quotient, E.zero_left, if_pos]
  exact ⟨trivial, trivial, trivial⟩

/-! ### Examples -/

theorem euclid1 : Euclid lib1 where
  add_left := add_mul
  smul_left := mul_assoc
  comm := mul_comm
  self_nonneg := mul_self_nonneg
  self_zero _ := mul_self_eq_zero.1
  norm_nonneg := abs_nonneg
  norm_sq := abs_mul_abs_self

/-- `C69_positive`, `C69_value`, `C69_residual`: `A = 6`, `B = 2`. -/
example : (computePower lib1 (modal (opts1 0 3 0) (mul1 6) (mul1 2))).2 = .success ∧
    (computePower lib1 (modal (opts1 0 3 0) (mul1 6) (mul1 2))).1.values = [some 3] ∧
    (computePower lib1 (modal (opts1 0 3 0) (mul1 6) (mul1 2))).1.vectors = [1] := by
  decide +kernel

/-- `C69_negative`: a buckling problem with a compressive load. -/
example : (computePower lib1 (bucklingOf (opts1 0 3 0) (mul1 6) (mul1 4))).2 = .notConverged ∧
    (computePower lib1 (bucklingOf (opts1 0 3 0) (mul1 6) (mul1 4))).1.values = [some (-3)] := by
  decide +kernel

/-- `C69_violated_zero`: no geometric stiffness. -/
example : (computePower lib1 (bucklingOf (opts1 0 3 0) (mul1 6) (mul1 6))).2 = .success ∧
    (computePower lib1 (bucklingOf (opts1 0 3 0) (mul1 6) (mul1 6))).1.values = [none] ∧
    (computePower lib1 (bucklingOf (opts1 0 3 0) (mul1 6) (mul1 6))).1.vectors = [0] := by
  decide +kernel

/-- The hypotheses of `C69_positive` are met by the first example. -/
example : (lib1.inverse (modal (opts1 0 3 0) (mul1 6) (mul1 2)).a ∘ₗ
    (modal (opts1 0 3 0) (mul1 6) (mul1 2)).b) lib1.ones = (1 / 3 : ℚ) • lib1.ones := by
  decide +kernel

end GsSA.Eigen
