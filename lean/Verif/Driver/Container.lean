import Verif.Data.Model

/-!
# Model of `gsAPALMDataContainer`

`src/gsALMSolvers/gsAPALMDataContainer.h`: the list of branches.
-/

namespace GsSA.APALM

open GsSA

variable {K S : Type*} [Field K] [LinearOrder K]

/-- `m_container`, `gsAPALMDataContainer.h` 130-133. -/
abbrev Container (K S : Type*) := List (Data K S)

namespace Container

/-- `empty`, `gsAPALMDataContainer.h` 40-46. -/
def empty (c : Container K S) : Bool := c.foldl (fun r d => r && isEmpty d) true

/-- `nBranches`, `gsAPALMDataContainer.h` 48-51. -/
def nBranches (c : Container K S) : ℕ := c.length

/-- `add`, `gsAPALMDataContainer.h` 55-59. -/
def add (c : Container K S) (d : Data K S) : ℕ × Container K S := (c.length, c ++ [d])

/-- `branch(k)`, `gsAPALMDataContainer.h` 61-64; `at` throws. -/
def branch (c : Container K S) (k : ℕ) : Except Fail (Data K S) :=
  match c[k]? with
  | some d => .ok d
  | none => .error .exc

/-- Loop of `getFirstNonEmptyBranch`: `m_container[k].empty()` is evaluated before the bound, so
running past the last branch is undefined behaviour. -/
def firstFrom : List (Data K S) → ℕ → Except Fail ℕ
  | [], _ => .error .ub
  | d :: l, k => if isEmpty d then firstFrom l (k + 1) else .ok k

/-- `getFirstNonEmptyBranch`, `gsAPALMDataContainer.h` 66-72. -/
def getFirstNonEmptyBranch (c : Container K S) : Except Fail ℕ := firstFrom c 0

/-- `nActive`, `gsAPALMDataContainer.h` 107-113. -/
def nActive (c : Container K S) : ℕ := c.foldl (fun k d => k + APALM.nActive d) 0

/-- `nWaiting`, `gsAPALMDataContainer.h` 114-120. -/
def nWaiting (c : Container K S) : ℕ := c.foldl (fun k d => k + APALM.nWaiting d) 0

/-- `maxLevel`, `gsAPALMDataContainer.h` 122-128. -/
def maxLevel (c : Container K S) : ℕ :=
  c.foldl (fun k d => if k < d.maxLevel then d.maxLevel else k) 0

end Container

end GsSA.APALM
