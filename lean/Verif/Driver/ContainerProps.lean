import Verif.Driver.Container
import Verif.Data.Check

/-!
# Property C16: the container of branches
-/

set_option linter.unusedSectionVars false

namespace GsSA.APALM

open GsSA

variable {K S : Type*} [Field K] [LinearOrder K]

theorem firstFrom_ok {l : List (Data K S)} {k i : ℕ} :
    Container.firstFrom l k = .ok i ↔
      ∃ j, i = k + j ∧ (∃ d, l[j]? = some d ∧ d.queue ≠ []) ∧
        ∀ j' < j, ∀ d, l[j']? = some d → d.queue = [] := by
  induction l generalizing k with
  | nil => simp [Container.firstFrom]
  | cons d l ih =>
    simp only [Container.firstFrom]
    by_cases hd : d.queue = []
    · have : isEmpty d = true := by simp [isEmpty, hd]
      rw [if_pos this, ih]
      constructor
      · rintro ⟨j, rfl, h1, h2⟩
        refine ⟨j + 1, by omega, by simpa using h1, ?_⟩
        intro j' hj' d' hd'
        cases j' with
        | zero => simp at hd'; rw [← hd']; exact hd
        | succ j' => exact h2 j' (by omega) d' (by simpa using hd')
      · rintro ⟨j, rfl, ⟨d', h1, h1'⟩, h2⟩
        cases j with
        | zero => simp at h1; rw [← h1] at h1'; exact absurd hd h1'
        | succ j =>
          refine ⟨j, by omega, ⟨d', by simpa using h1, h1'⟩, ?_⟩
          intro j' hj' e he
          exact h2 (j' + 1) (by omega) e (by simpa using he)
    · have : ¬ (isEmpty d = true) := by simp [isEmpty, hd]
      rw [if_neg this]
      constructor
      · intro h
        injection h with h
        subst h
        exact ⟨0, rfl, ⟨d, rfl, hd⟩, by omega⟩
      · rintro ⟨j, rfl, h1, h2⟩
        cases j with
        | zero => rfl
        | succ j => exact absurd (h2 0 (by omega) d rfl) hd

theorem firstFrom_error {l : List (Data K S)} {k : ℕ} {e : Fail} :
    Container.firstFrom l k = .error e ↔ e = .ub ∧ ∀ d ∈ l, d.queue = [] := by
  induction l generalizing k with
  | nil => simp [Container.firstFrom, eq_comm]
  | cons d l ih =>
    simp only [Container.firstFrom]
    by_cases hd : d.queue = []
    · have : isEmpty d = true := by simp [isEmpty, hd]
      rw [if_pos this, ih]
      simp [hd]
    · have : ¬ (isEmpty d = true) := by simp [isEmpty, hd]
      rw [if_neg this]
      simp [hd]

/-- **C16** `getFirstNonEmptyBranch` returns `i` iff branch `i` has waiting jobs and no earlier one
has. -/
theorem C16_first_non_empty (c : Container K S) (i : ℕ) :
    c.getFirstNonEmptyBranch = .ok i ↔
      (∃ d, c[i]? = some d ∧ d.queue ≠ []) ∧ ∀ j < i, ∀ d, c[j]? = some d → d.queue = [] := by
  rw [Container.getFirstNonEmptyBranch, firstFrom_ok]
  constructor
  · rintro ⟨j, rfl, h⟩
    simpa using h
  · intro h
    exact ⟨i, by omega, h⟩

/-- **C16** It runs past the end exactly if no branch has waiting jobs. -/
theorem C16_past_the_end (c : Container K S) :
    c.getFirstNonEmptyBranch = .error .ub ↔ ∀ d ∈ c, d.queue = [] := by
  rw [Container.getFirstNonEmptyBranch, firstFrom_error]
  simp

/-- **C16** `empty` holds iff no branch has waiting jobs; then no call of
`getFirstNonEmptyBranch` guarded by `!empty()` runs past the end. -/
theorem C16_empty (c : Container K S) :
    (c.empty = true ↔ ∀ d ∈ c, d.queue = []) ∧
    (c.empty = false → ∃ i, c.getFirstNonEmptyBranch = .ok i ∧ i < c.nBranches) := by
  have key : ∀ (l : List (Data K S)) (b : Bool),
      l.foldl (fun r d => r && isEmpty d) b = true ↔ b = true ∧ ∀ d ∈ l, d.queue = [] := by
    intro l
    induction l with
    | nil => simp
    | cons d l ih =>
      intro b
      rw [List.foldl_cons, ih]
      simp [isEmpty, and_assoc]
  have h1 : c.empty = true ↔ ∀ d ∈ c, d.queue = [] := by
    rw [Container.empty, key]
    simp
  refine ⟨h1, fun he => ?_⟩
  cases hf : c.getFirstNonEmptyBranch with
  | error e =>
    rw [Container.getFirstNonEmptyBranch, firstFrom_error] at hf
    rw [h1.2 hf.2] at he
    simp at he
  | ok i =>
    obtain ⟨⟨d, hd, -⟩, -⟩ := (C16_first_non_empty c i).1 hf
    exact ⟨i, rfl, (List.getElem?_eq_some_iff.1 hd).1⟩

/-- **C16** `add` returns the index under which the new branch is found and keeps the others. -/
theorem C16_add (c : Container K S) (d : Data K S) :
    (c.add d).2.branch (c.add d).1 = .ok d ∧ (c.add d).2.nBranches = c.nBranches + 1 ∧
      ∀ i < c.nBranches, (c.add d).2.branch i = c.branch i := by
  refine ⟨by simp [Container.add, Container.branch], by simp [Container.add, Container.nBranches],
    ?_⟩
  intro i hi
  rw [Container.nBranches] at hi
  simp [Container.add, Container.branch, List.getElem?_append_left hi]

/-- **C16** The counters are sums, the level is the maximum over the branches. -/
theorem C16_counters (c : Container K S) :
    c.nActive = (c.map (fun d => d.jobs.length)).sum ∧
    c.nWaiting = (c.map (fun d => d.queue.length)).sum ∧
    (∀ d ∈ c, d.maxLevel ≤ c.maxLevel) ∧
    (c ≠ [] → ∃ d ∈ c, d.maxLevel = c.maxLevel) := by
  have hsum : ∀ (f : Data K S → ℕ) (l : List (Data K S)) (k : ℕ),
      l.foldl (fun k d => k + f d) k = k + (l.map f).sum := by
    intro f l
    induction l with
    | nil => simp
    | cons d l ih => intro k; rw [List.foldl_cons, ih]; simp [add_assoc]
  have hmax : ∀ (l : List (Data K S)) (k : ℕ),
      k ≤ l.foldl (fun k d => if k < d.maxLevel then d.maxLevel else k) k ∧
      (∀ d ∈ l, d.maxLevel ≤ l.foldl (fun k d => if k < d.maxLevel then d.maxLevel else k) k) ∧
      (k = l.foldl (fun k d => if k < d.maxLevel then d.maxLevel else k) k ∨
        ∃ d ∈ l, d.maxLevel = l.foldl (fun k d => if k < d.maxLevel then d.maxLevel else k) k) := by
    intro l
    induction l with
    | nil => simp
    | cons d l ih =>
      intro k
      rw [List.foldl_cons]
      obtain ⟨h1, h2, h3⟩ := ih (if k < d.maxLevel then d.maxLevel else k)
      have hk : k ≤ (if k < d.maxLevel then d.maxLevel else k) ∧
          d.maxLevel ≤ (if k < d.maxLevel then d.maxLevel else k) := by split <;> omega
      refine ⟨hk.1.trans h1, ?_, ?_⟩
      · intro e he
        rcases List.mem_cons.1 he with rfl | he
        · exact hk.2.trans h1
        · exact h2 e he
      · rcases h3 with h3 | ⟨e, he, h3⟩
        · by_cases hlt : k < d.maxLevel
          · rw [if_pos hlt] at h3 ⊢
            exact Or.inr ⟨d, by simp, h3⟩
          · rw [if_neg hlt] at h3 ⊢
            exact Or.inl h3
        · exact Or.inr ⟨e, by simp [he], h3⟩
  refine ⟨?_, ?_, (hmax c 0).2.1, ?_⟩
  · rw [Container.nActive, hsum]
    rw [Nat.zero_add]; rfl
  · rw [Container.nWaiting, hsum]
    rw [Nat.zero_add]; rfl
  · intro hne
    rcases (hmax c 0).2.2 with h | h
    · obtain ⟨d, hd⟩ := List.exists_mem_of_ne_nil c hne
      refine ⟨d, hd, ?_⟩
      have := (hmax c 0).2.1 d hd
      rw [← h] at this
      rw [Container.maxLevel, ← h]
      omega
    · exact h

/-- **C16**: `branch` gives the branch with the number, and an exception exactly for the other numbers; it is never
undefined behaviour. -/
theorem C16_branch (c : Container K S) (k : ℕ) :
    (∀ d, c.branch k = .ok d ↔ c[k]? = some d) ∧ (c.branch k = .error .exc ↔ c.length ≤ k) := by
  rcases h : c[k]? with _ | d
  · have := List.getElem?_eq_none_iff.1 h
    simp [Container.branch, this]
  · obtain ⟨hk, hd⟩ := List.getElem?_eq_some_iff.1 h
    simp [Container.branch, hk, hd]

/-- `C16_branch`: one branch, the second is asked for. -/
example : Container.branch ([Data.fresh 5 1 1] : Container ℚ ℕ) 1 = .error .exc := rfl

/-- A container with an exhausted and a waiting branch (`C16_first_non_empty`, `C16_empty`, `C16_counters`,
`C16_add`). -/
example : ∃ (c : Container ℚ ℕ), c.getFirstNonEmptyBranch = .ok 1 ∧ c.nBranches = 3 ∧
    c.nWaiting = 3 ∧ c.maxLevel = 7 := by
  refine ⟨[Data.fresh 5 1 1, { Data.fresh 7 1 1 with queue := [⟨0, 1, 1⟩, ⟨1, 2, 1⟩] },
    { Data.fresh 3 1 1 with queue := [⟨0, 1, 1⟩] }], ?_, ?_, ?_, ?_⟩ <;> decide +kernel

end GsSA.APALM
