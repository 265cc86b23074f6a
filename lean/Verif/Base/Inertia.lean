import Mathlib.LinearAlgebra.QuadraticForm.Signature
import Mathlib.Algebra.BigOperators.Fin
import Mathlib.Tactic.Linarith
import Mathlib.Tactic.Positivity

/-!
# Diagonal forms of a symmetric matrix

The vector `D` of a decomposition `A = L D Lᵀ` and the eigenvalues of `A` both write `xᵀAx` as a weighted sum
of squares of coordinates.
-/

namespace GsSA

variable {K V : Type} [Field K] [LinearOrder K] [AddCommGroup V] [Module K V]

/-- `q x = ∑ dᵢ yᵢ²` with coordinates `y = φ x`. With `q x = xᵀAx`: for `A = L D Lᵀ` take `φ = Lᵀ`, for
`A = Q Λ Qᵀ` take `φ = Qᵀ`. -/
def Diagonal (q : V → K) (d : List K) : Prop :=
  ∃ φ : V ≃ₗ[K] (Fin d.length → K), ∀ x, q x = ∑ i, d.get i * (φ x i * φ x i)

variable [IsStrictOrderedRing K] {q : V → K} {d d' : List K}

theorem Diagonal.at (h : Diagonal q d) {a : K} (ha : a ∈ d) : ∃ x, x ≠ 0 ∧ q x = a := by
  obtain ⟨φ, h⟩ := h
  obtain ⟨i, rfl⟩ := List.get_of_mem ha
  refine ⟨φ.symm (Pi.single i 1), fun h0 => ?_, ?_⟩
  · have : (Pi.single i 1 : Fin d.length → K) = 0 := by simpa using congrArg φ h0
    have := congrFun this i
    simp at this
  · rw [h, LinearEquiv.apply_symm_apply, Finset.sum_eq_single i]
    · simp
    · intro j _ hj
      simp [hj]
    · simp

theorem Diagonal.bound (h : Diagonal q d) {m : K} (hm : ∀ a ∈ d, m ≤ a) :
    ∃ s : V → K, (∀ x, 0 ≤ s x) ∧ (∀ x, x ≠ 0 → 0 < s x) ∧ ∀ x, m * s x ≤ q x := by
  obtain ⟨φ, h⟩ := h
  refine ⟨fun x => ∑ i, φ x i * φ x i, fun x => Finset.sum_nonneg fun i _ => mul_self_nonneg _,
    fun x hx => ?_, fun x => ?_⟩
  · refine lt_of_le_of_ne (Finset.sum_nonneg fun i _ => mul_self_nonneg _) fun h0 => hx ?_
    have h1 := (Finset.sum_eq_zero_iff_of_nonneg fun i _ => mul_self_nonneg (φ x i)).1 h0.symm
    have h2 : φ x = 0 := funext fun i => mul_self_eq_zero.1 (h1 i (Finset.mem_univ i))
    exact (map_eq_zero_iff φ φ.injective).1 h2
  · rw [h, Finset.mul_sum]
    exact Finset.sum_le_sum fun i _ =>
      mul_le_mul_of_nonneg_right (hm _ (List.get_mem d i)) (mul_self_nonneg _)

/-- Negative entries mean negative values. -/
theorem Diagonal.neg_iff (h : Diagonal q d) : (∃ x, q x < 0) ↔ ∃ a ∈ d, a < 0 := by
  constructor
  · rintro ⟨x, hx⟩
    by_contra hc
    push Not at hc
    obtain ⟨s, -, -, h2⟩ := h.bound hc
    have := h2 x
    linarith
  · rintro ⟨a, ha, h0⟩
    obtain ⟨x, -, hx⟩ := h.at ha
    exact ⟨x, by rw [hx]; exact h0⟩

/-- Positive entries mean positive definiteness. -/
theorem Diagonal.pos_iff (h : Diagonal q d) : (∀ x, x ≠ 0 → 0 < q x) ↔ ∀ a ∈ d, 0 < a := by
  constructor
  · intro hp a ha
    obtain ⟨x, h1, hx⟩ := h.at ha
    rw [← hx]
    exact hp x h1
  · intro hp x hx
    obtain ⟨φ, h⟩ := h
    rw [h]
    have hne : φ x ≠ 0 := fun h0 => hx ((map_eq_zero_iff φ φ.injective).1 h0)
    obtain ⟨i, hi⟩ := Function.ne_iff.1 hne
    refine Finset.sum_pos' (fun j _ => mul_nonneg (hp _ (List.get_mem d j)).le (mul_self_nonneg _))
      ⟨i, Finset.mem_univ i, mul_pos (hp _ (List.get_mem d i)) (mul_self_pos.2 hi)⟩

set_option linter.unusedSectionVars false in
theorem ncard_get (p : K → Prop) [DecidablePred p] (d : List K) :
    {i : Fin d.length | p (d.get i)}.ncard = (d.filter p).length := by
  induction d with
  | nil =>
    rw [Set.eq_empty_of_forall_notMem (s := {i : Fin ([] : List K).length | p (([] : List K).get i)})
      fun i => i.elim0]
    simp
  | cons a d ih =>
    have h1 : {i : Fin (a :: d).length | p ((a :: d).get i)} =
        (if p a then {0} else ∅) ∪ Fin.succ '' {i : Fin d.length | p (d.get i)} := by
      ext i
      refine Fin.cases ?_ (fun j => ?_) i
      · by_cases h : p a <;> simp [h]
      · by_cases h : p a <;> simp [h]
    rw [h1, Set.ncard_union_eq]
    · rw [Set.ncard_image_of_injective _ (Fin.succ_injective _), ih]
      by_cases h : p a <;> simp [h, Nat.add_comm]
    · rw [Set.disjoint_left]
      intro i hi
      by_cases h : p a
      · simp only [h, if_true, Set.mem_singleton_iff] at hi
        subst hi
        simp
      · simp [h] at hi

/-- Sylvester's law of inertia: two diagonal forms have the same number of negative entries. -/
theorem Diagonal.negatives (h : Diagonal q d) (h' : Diagonal q d') :
    (d.filter fun x => decide (x < 0)).length = (d'.filter fun x => decide (x < 0)).length := by
  obtain ⟨φ, h⟩ := h
  obtain ⟨φ', h'⟩ := h'
  have e : QuadraticMap.Equivalent (QuadraticMap.weightedSumSquares K d.get)
      (QuadraticMap.weightedSumSquares K d'.get) := by
    refine ⟨⟨φ.symm.trans φ', fun y => ?_⟩⟩
    have h1 := h (φ.symm y)
    have h2 := h' (φ.symm y)
    simp only [QuadraticMap.weightedSumSquares_apply, smul_eq_mul]
    rw [LinearEquiv.apply_symm_apply] at h1
    rw [← h1, h2]
    rfl
  have h3 := e.sigNeg_eq
  rw [QuadraticForm.sigNeg_weightedSumSquares, QuadraticForm.sigNeg_weightedSumSquares] at h3
  rw [← ncard_get (fun x => x < 0) d, ← ncard_get (fun x => x < 0) d', h3]

end GsSA
