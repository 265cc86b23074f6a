import Verif.Driver.Container
import Verif.Data.Props2

/-!
# `_finalize` and the views of the result

`src/gsALMSolvers/gsAPALM.hpp` 474-504, `gsAPALM.h` 163-260. A pointer into `m_solutions[b]`,
`m_times[b]` is modelled by its index.
-/

namespace GsSA.APALM

open GsSA

variable {K S : Type*} [Field K] [LinearOrder K]

/-- `std::vector::resize`. -/
def resize {α : Type*} (l : List α) (n : ℕ) (x : α) : List α := l.take n ++ List.replicate (n - l.length) x

/-- Members written by `_finalize`: `m_times`, `m_solutions`, `m_levels` (per branch), and
`m_lvlSolutions`, `m_lvlTimes` (per branch and level, pointers; both get the same indices). -/
structure Views (K S : Type*) where
  flats : List (List (FlatPoint K S))
  lvl : List (List (List ℕ))

/-- `gsAPALM.hpp` 498-501: pointers to point `k` of a branch with the given levels. `m_levels[b][k]` is not
checked. -/
def pushPoint (levels : List ℕ) (lv : List (List ℕ)) (k : ℕ) : Except Fail (List (List ℕ)) :=
  match levels[k]? with
  | none => .error .ub
  | some ℓ => if ℓ < lv.length then .ok (lv.modify ℓ (· ++ [k])) else .error .assert

/-- The loop of `gsAPALM.hpp` 496-502 over the given values of `k`. -/
def pushPoints (levels : List ℕ) : List (List ℕ) → List ℕ → Except Fail (List (List ℕ))
  | lv, [] => .ok lv
  | lv, k :: ks =>
    match pushPoint levels lv k with
    | .error e => .error e
    | .ok lv' => pushPoints levels lv' ks

/-- `gsAPALM.hpp` 487-502 for one branch: the loop bound `m_solutions.size()` is the number `n` of
branches; `old` is what is left from the previous call. -/
def finalizeBranch (n : ℕ) (old : List (List ℕ)) (d : Data K S) : Except Fail (List (List ℕ)) :=
  pushPoints ((flat d).map (·.level)) (resize old (d.maxLevel + 1) []) (List.range n)

/-- The loop over the branches. -/
def finalizeLoop (n : ℕ) : List (List (List ℕ)) → List (Data K S) → Except Fail (List (List (List ℕ)))
  | _, [] => .ok []
  | old, d :: ds =>
    match finalizeBranch n (old.headD []) d with
    | .error e => .error e
    | .ok lv =>
      match finalizeLoop n old.tail ds with
      | .error e => .error e
      | .ok lvs => .ok (lv :: lvs)

/-- `_finalize`, `gsAPALM.hpp` 474-504. -/
def finalize (c : Container K S) (old : List (List (List ℕ))) : Except Fail (Views K S) :=
  match finalizeLoop c.length (resize old c.length []) c with
  | .error e => .error e
  | .ok lvs => .ok ⟨c.map flat, lvs⟩

/-- `getSolutionsPerLevel(b)[l]` and `getTimesPerLevel(b)[l]`, `gsAPALM.h` 219-226, 253-260: the points
referred to. -/
def Views.perLevel (v : Views K S) (b ℓ : ℕ) : List (Option (FlatPoint K S)) :=
  ((v.lvl.getD b []).getD ℓ []).map fun k => (v.flats.getD b [])[k]?

end GsSA.APALM
