import Mathlib.Algebra.Order.Field.Basic
import Mathlib.Algebra.Order.Ring.Rat
import Mathlib.Tactic.Linarith
import Mathlib.Tactic.NormNum
import Verif.Base.Status

/-!
# The nearest parameter on a fitted curve

`gsSolutionFitter::nearestParam`, `src/gsStructuralAnalysisTools/gsSolutionFitter.h` 93-146. The curve enters
by three functions: the squared distance to the given solution as a function of the parameter and its
first and second derivative as computed in lines 120-125. `none` is NaN.
-/

namespace GsSA.Tools

open GsSA

set_option linter.unusedSectionVars false

variable {K : Type} [Field K] [LinearOrder K]

/-- The squared distance, its derivatives, the support `[a,b]` of the curve and the tolerance. -/
structure Target (K : Type) where
  dist : K → K
  d1 : K → K
  d2 : K → K
  a : K
  b : K
  tol : K

/-- `gsSolutionFitter.h` 134. -/
def Target.clamp (c : Target K) (u : K) : K := if u < c.a then c.a else if c.b < u then c.b else u

/-- The test of `gsSolutionFitter.h` 131; a quotient with denominator 0 is infinite or NaN and the test
fails. -/
def Target.stops (c : Target K) (du u : K) : Prop := u ≠ 0 ∧ |du| / |u| < c.tol

instance (c : Target K) (du u : K) : Decidable (c.stops du u) := by unfold Target.stops; infer_instance

/-- The Newton iterations, `gsSolutionFitter.h` 114-135. If the second derivative is 0, the step is infinite
and the parameter is moved to an end of the support, or it is NaN and remains so. -/
def Target.newton (c : Target K) : ℕ → K → Option K
  | 0, u => some u
  | n + 1, u =>
    if c.d2 u ≠ 0 then
      let du := c.d1 u / c.d2 u
      let u' := u - du
      if c.stops du u' then some u' else c.newton n (c.clamp u')
    else if 0 < c.d1 u then c.newton n c.a
    else if c.d1 u < 0 then c.newton n c.b
    else none

/-- The comparison `<` with NaN. -/
def optLt : Option K → Option K → Bool
  | some x, some y => decide (x < y)
  | _, _ => false

/-- The loop over the trial points, `gsSolutionFitter.h` 105-144, with the best parameter so far. -/
def Target.search (c : Target K) (nIter : ℕ) : List K → Option (Option K) → Option (Option K)
  | [], best => best
  | u :: l, best =>
    let r := c.newton nIter u
    match best with
    | none => c.search nIter l (some r)
    | some p => c.search nIter l (some (if optLt (r.map c.dist) (p.map c.dist) then r else p))

/-- `nearestParam`; `value()` of an empty matrix is undefined behaviour. -/
def Target.nearest (c : Target K) (trials : List K) (nIter : ℕ) : Except Fail (Option K) :=
  match c.search nIter trials none with
  | none => .error .ub
  | some r => .ok r

/-- The parameters at which the iterations end. -/
def Target.ends (c : Target K) (trials : List K) (nIter : ℕ) : List (Option K) := trials.map (c.newton nIter)

theorem search_some (c : Target K) (nIter : ℕ) (l : List K) (p : K) :
    ∃ q, c.search nIter l (some (some p)) = some (some q) ∧ c.dist q ≤ c.dist p ∧
      (q = p ∨ some q ∈ c.ends l nIter) ∧ ∀ x, some x ∈ c.ends l nIter → c.dist q ≤ c.dist x := by
  induction l generalizing p with
  | nil => exact ⟨p, rfl, le_rfl, .inl rfl, by simp [Target.ends]⟩
  | cons u l ih =>
    rw [Target.search]
    cases hr : c.newton nIter u with
    | none =>
      obtain ⟨q, h1, h2, h3, h4⟩ := ih p
      refine ⟨q, by simpa [optLt] using h1, h2, ?_, ?_⟩
      · exact h3.imp id fun h => by simp only [Target.ends, List.map_cons]; exact List.mem_cons_of_mem _ h
      · intro x hx
        simp only [Target.ends, List.map_cons, hr, List.mem_cons, reduceCtorEq, false_or] at hx
        exact h4 x hx
    | some r =>
      by_cases hlt : c.dist r < c.dist p
      · obtain ⟨q, h1, h2, h3, h4⟩ := ih r
        refine ⟨q, by simpa [optLt, hlt] using h1, h2.trans hlt.le, .inr ?_, ?_⟩
        · simp only [Target.ends, List.map_cons, hr, List.mem_cons, Option.some.injEq]
          exact h3
        · intro x hx
          simp only [Target.ends, List.map_cons, hr, List.mem_cons, Option.some.injEq] at hx
          rcases hx with rfl | hx
          · exact h2
          · exact h4 x hx
      · obtain ⟨q, h1, h2, h3, h4⟩ := ih p
        refine ⟨q, by simpa [optLt, hlt] using h1, h2, ?_, ?_⟩
        · exact h3.imp id fun h => by simp only [Target.ends, List.map_cons]; exact List.mem_cons_of_mem _ h
        · intro x hx
          simp only [Target.ends, List.map_cons, hr, List.mem_cons, Option.some.injEq] at hx
          rcases hx with rfl | hx
          · exact h2.trans (not_lt.1 hlt)
          · exact h4 x hx

/-- **C102**: if the iterations from the first trial point end at a number, the result is one of the
parameters at which the iterations end, and none of the others is closer to the solution. -/
theorem C102_best (c : Target K) (u : K) (l : List K) (nIter : ℕ) (h : c.newton nIter u ≠ none) :
    ∃ q, c.nearest (u :: l) nIter = .ok (some q) ∧ some q ∈ c.ends (u :: l) nIter ∧
      ∀ x, some x ∈ c.ends (u :: l) nIter → c.dist q ≤ c.dist x := by
  obtain ⟨p, hp⟩ := Option.ne_none_iff_exists'.1 h
  obtain ⟨q, h1, h2, h3, h4⟩ := search_some c nIter l p
  refine ⟨q, by simp only [Target.nearest, Target.search, hp, h1], ?_, ?_⟩
  · simp only [Target.ends, List.map_cons, hp, List.mem_cons, Option.some.injEq]
    exact h3
  · intro x hx
    simp only [Target.ends, List.map_cons, hp, List.mem_cons, Option.some.injEq] at hx
    rcases hx with rfl | hx
    · exact h2
    · exact h4 x hx

/-- **C102** violated: if the iterations from the first trial point end with NaN, the result is NaN, whatever
the other trial points give. -/
theorem C102_violated_nan (c : Target K) (u : K) (l : List K) (nIter : ℕ) (h : c.newton nIter u = none) :
    c.nearest (u :: l) nIter = .ok none := by
  have key : ∀ l, c.search nIter l (some none) = some none := by
    intro l
    induction l with
    | nil => rfl
    | cons u l ih =>
      rw [Target.search]
      have : ∀ x, optLt x (Option.map c.dist none) = false := by intro x; cases x <;> rfl
      simp only [this]
      exact ih
  simp only [Target.nearest, Target.search, h, key]

section

variable [IsStrictOrderedRing K]

theorem clamp_mem (c : Target K) (hab : c.a ≤ c.b) (u : K) : c.a ≤ c.clamp u ∧ c.clamp u ≤ c.b := by
  unfold Target.clamp
  split
  · exact ⟨le_rfl, hab⟩
  · rename_i h1
    split
    · exact ⟨hab, le_rfl⟩
    · rename_i h2
      exact ⟨not_lt.1 h1, not_lt.1 h2⟩

/-- **C102**: the iterations stay in the support but for the last step, which may leave it by less than the
tolerance times the parameter. -/
theorem C102_support (c : Target K) (hab : c.a ≤ c.b) (n : ℕ) (u q : K) (hu : c.a ≤ u ∧ u ≤ c.b)
    (h : c.newton n u = some q) :
    (c.a ≤ q ∧ q ≤ c.b) ∨ (c.a - c.tol * |q| < q ∧ q < c.b + c.tol * |q|) := by
  induction n generalizing u with
  | zero =>
    rw [Target.newton, Option.some.injEq] at h
    exact .inl (h ▸ hu)
  | succ n ih =>
    rw [Target.newton] at h
    split at h
    · simp only at h
      split at h
      · rename_i hs
        rw [Option.some.injEq] at h
        right
        obtain ⟨h1, h2⟩ := hs
        rw [h] at h1 h2
        have h3 : |c.d1 u / c.d2 u| < c.tol * |q| := (div_lt_iff₀ (abs_pos.2 h1)).1 h2
        have h4 := abs_lt.1 h3
        constructor <;> linarith [hu.1, hu.2, h4.1, h4.2, h]
      · exact ih _ (clamp_mem c hab _) h
    · split at h
      · exact ih _ ⟨le_rfl, hab⟩ h
      · split at h
        · exact ih _ ⟨hab, le_rfl⟩ h
        · cases h

/-- **C102**: a stationary parameter in the support, with second derivative other than 0, is kept. -/
theorem C102_stationary (c : Target K) (u : K) (hu : c.a ≤ u ∧ u ≤ c.b) (h1 : c.d1 u = 0)
    (h2 : c.d2 u ≠ 0) (n : ℕ) : c.newton n u = some u := by
  induction n with
  | zero => rfl
  | succ n ih =>
    rw [Target.newton, if_pos h2]
    simp only [h1, zero_div, sub_zero]
    split
    · rfl
    · have : c.clamp u = u := by
        rw [Target.clamp, if_neg (not_lt.2 hu.1), if_neg (not_lt.2 hu.2)]
      rw [this, ih]

end

/-- **C102**: with no trial points the result is undefined. -/
theorem C102_empty (c : Target K) (nIter : ℕ) : c.nearest [] nIter = .error .ub := rfl

/-! ### Examples -/

/-- The line `x(u) = u` on `[0,4]` and the point 3. -/
def line3 : Target ℚ := ⟨fun u => (u - 3) * (u - 3), fun u => 2 * (u - 3), fun _ => 2, 0, 4, 1 / 100⟩

/-- `C102_best`, `C102_stationary`. -/
example : line3.nearest [0, 1, 2, 3, 4] 5 = .ok (some 3) ∧ line3.newton 5 3 = some 3 := by
  decide +kernel

/-- The curve that rests for `u <= 1` and then is a line, and a point that the line meets at 3. -/
def rest3 : Target ℚ :=
  ⟨fun u => if u ≤ 1 then 4 else (u - 3) * (u - 3), fun u => if u ≤ 1 then 0 else 2 * (u - 3),
    fun u => if u ≤ 1 then 0 else 2, 0, 4, 1 / 100⟩

/-- `C102_violated_nan`: the trial points 2 and 3 give 3, the result is NaN. -/
example : rest3.nearest [0, 2, 3] 5 = .ok none ∧ rest3.newton 5 2 = some 3 := by
  decide +kernel

/-- `C102_support`: the last step leaves the support `[0,4]`. -/
example : (⟨fun u => (u - 401 / 100) * (u - 401 / 100), fun u => 2 * (u - 401 / 100), fun _ => 2, 0, 4,
    1 / 100⟩ : Target ℚ).newton 5 4 = some (401 / 100) := by
  decide +kernel

end GsSA.Tools
