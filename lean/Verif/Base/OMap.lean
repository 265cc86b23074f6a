import Mathlib.Order.Defs.LinearOrder
import Mathlib.Order.Basic
import Mathlib.Data.List.Sort
import Mathlib.Tactic.Common
import Mathlib.Tactic.Linarith

/-!
# Ordered maps

A model of `std::map` by key-sorted association lists, with exactly the operations used in
`src/gsALMSolvers/gsAPALMData.hpp`: `find`/`count`, `insert` (keeps an existing value),
`m[k] = v` (overwrites), `m[k]` as an rvalue (default-inserts), `erase`.
-/

namespace GsSA

/-- `std::map<κ,ν>`: list of (key, value), sorted by key. -/
abbrev OMap (κ ν : Type*) := List (κ × ν)

namespace OMap

variable {κ ν : Type*} [LinearOrder κ]

/-- `m.find(k)` / `m.count(k)`. -/
def get? : OMap κ ν → κ → Option ν
  | [], _ => none
  | (a, b) :: m, k => if a = k then some b else get? m k

/-- `m.insert({k,v})`: does nothing if the key is present. -/
def insertNew : OMap κ ν → κ → ν → OMap κ ν
  | [], k, v => [(k, v)]
  | (a, b) :: m, k, v =>
    if k < a then (k, v) :: (a, b) :: m
    else if k = a then (a, b) :: m
    else (a, b) :: insertNew m k v

/-- `m[k] = v`: overwrites. -/
def set : OMap κ ν → κ → ν → OMap κ ν
  | [], k, v => [(k, v)]
  | (a, b) :: m, k, v =>
    if k < a then (k, v) :: (a, b) :: m
    else if k = a then (k, v) :: m
    else (a, b) :: set m k v

/-- `m[k]` as an rvalue: value and the possibly extended map (`dflt` is the value-initialised
`ν`). -/
def index (m : OMap κ ν) (k : κ) (dflt : ν) : ν × OMap κ ν :=
  match get? m k with
  | some v => (v, m)
  | none => (dflt, set m k dflt)

/-- `m.erase(k)`. -/
def erase : OMap κ ν → κ → OMap κ ν
  | [], _ => []
  | (a, b) :: m, k => if a = k then m else (a, b) :: erase m k

/-- The keys in iteration order. -/
def keys (m : OMap κ ν) : List κ := m.map Prod.fst

/-- The values in iteration order. -/
def vals (m : OMap κ ν) : List ν := m.map Prod.snd

/-- Well-formedness of a `std::map`: strictly increasing keys. -/
def Sorted (m : OMap κ ν) : Prop := m.Pairwise (fun x y => x.1 < y.1)

/-! ## Lemmas -/

@[simp] theorem get?_nil (k : κ) : get? ([] : OMap κ ν) k = none := rfl

theorem get?_cons (a : κ) (b : ν) (m : OMap κ ν) (k : κ) :
    get? ((a, b) :: m) k = if a = k then some b else get? m k := rfl

theorem get?_append (m₁ m₂ : OMap κ ν) (k : κ) :
    get? (m₁ ++ m₂) k = (get? m₁ k).or (get? m₂ k) := by
  induction m₁ with
  | nil => simp
  | cons p m ih =>
    obtain ⟨a, b⟩ := p
    simp only [List.cons_append, get?_cons]
    split <;> simp_all

theorem get?_eq_none {m : OMap κ ν} {k : κ} : get? m k = none ↔ ∀ p ∈ m, p.1 ≠ k := by
  induction m with
  | nil => simp
  | cons p m ih =>
    obtain ⟨a, b⟩ := p
    simp only [get?_cons]
    split <;> simp_all

theorem mem_of_get? {m : OMap κ ν} {k : κ} {v : ν} (h : get? m k = some v) : (k, v) ∈ m := by
  induction m with
  | nil => simp at h
  | cons p m ih =>
    obtain ⟨a, b⟩ := p
    simp only [get?_cons] at h
    split at h
    · simp_all
    · exact List.mem_cons_of_mem _ (ih h)

theorem get?_of_mem {m : OMap κ ν} (hs : Sorted m) {k : κ} {v : ν} (h : (k, v) ∈ m) :
    get? m k = some v := by
  induction m with
  | nil => simp at h
  | cons p m ih =>
    obtain ⟨a, b⟩ := p
    rw [Sorted, List.pairwise_cons] at hs
    simp only [get?_cons]
    rcases List.mem_cons.1 h with h | h
    · simp_all
    · have := hs.1 _ h
      rw [if_neg (ne_of_lt this)]
      exact ih hs.2 h

theorem get?_isSome_iff {m : OMap κ ν} {k : κ} : (get? m k).isSome ↔ k ∈ keys m := by
  rw [← not_iff_not, Bool.not_eq_true, Option.isSome_eq_false_iff, Option.isNone_iff_eq_none,
    get?_eq_none]
  simp only [keys, List.mem_map, not_exists, not_and]

/-- Appending at the end of the map. -/
theorem insertNew_last (m : OMap κ ν) (k : κ) (v : ν) (h : ∀ p ∈ m, p.1 < k) :
    insertNew m k v = m ++ [(k, v)] := by
  induction m with
  | nil => rfl
  | cons p m ih =>
    obtain ⟨a, b⟩ := p
    have ha : a < k := h (a, b) (by simp)
    simp only [insertNew, not_lt_of_gt ha, if_false, ne_of_gt ha, List.cons_append]
    rw [ih (fun p hp => h p (by simp [hp]))]

/-- Writing a new key between two parts of the map. -/
theorem set_between (m₁ m₂ : OMap κ ν) (k : κ) (v : ν) (h₁ : ∀ p ∈ m₁, p.1 < k)
    (h₂ : ∀ p ∈ m₂, k < p.1) : set (m₁ ++ m₂) k v = m₁ ++ (k, v) :: m₂ := by
  induction m₁ with
  | nil =>
    cases m₂ with
    | nil => rfl
    | cons p m =>
      obtain ⟨a, b⟩ := p
      have : k < a := h₂ (a, b) (by simp)
      simp [set, this]
  | cons p m ih =>
    obtain ⟨a, b⟩ := p
    have ha : a < k := h₁ (a, b) (by simp)
    simp only [List.cons_append, set, not_lt_of_gt ha, if_false, ne_of_gt ha]
    rw [ih (fun p hp => h₁ p (by simp [hp]))]

theorem set_last (m : OMap κ ν) (k : κ) (v : ν) (h : ∀ p ∈ m, p.1 < k) :
    set m k v = m ++ [(k, v)] := by
  simpa using set_between m [] k v h (by simp)

theorem index_of_get? {m : OMap κ ν} {k : κ} {v : ν} (h : get? m k = some v) (d : ν) :
    index m k d = (v, m) := by
  simp [index, h]

theorem index_of_none {m : OMap κ ν} {k : κ} (h : get? m k = none) (d : ν) :
    index m k d = (d, set m k d) := by
  simp [index, h]

theorem length_set_of_none {m : OMap κ ν} {k : κ} (h : get? m k = none) (v : ν) :
    (set m k v).length = m.length + 1 := by
  induction m with
  | nil => rfl
  | cons p m ih =>
    obtain ⟨a, b⟩ := p
    rw [get?_cons] at h
    split at h
    · simp at h
    · rename_i hne
      simp only [set]
      split
      · simp
      · split
        · rename_i he; exact absurd he.symm hne
        · simp [ih h]

theorem erase_of_not_mem {m : OMap κ ν} {k : κ} (h : get? m k = none) : erase m k = m := by
  induction m with
  | nil => rfl
  | cons p m ih =>
    obtain ⟨a, b⟩ := p
    simp only [get?_cons] at h
    split at h
    · simp at h
    · simp_all [erase]

theorem erase_append {m₁ m₂ : OMap κ ν} {k : κ} {v : ν} (h : ∀ p ∈ m₁, p.1 ≠ k) :
    erase (m₁ ++ (k, v) :: m₂) k = m₁ ++ m₂ := by
  induction m₁ with
  | nil => simp [erase]
  | cons p m ih =>
    obtain ⟨a, b⟩ := p
    have ha : a ≠ k := h (a, b) (by simp)
    simp only [List.cons_append, erase, ha, if_false]
    rw [ih (fun p hp => h p (by simp [hp]))]

theorem sorted_erase {m : OMap κ ν} (h : Sorted m) (k : κ) : Sorted (erase m k) := by
  induction m with
  | nil => exact h
  | cons p m ih =>
    obtain ⟨a, b⟩ := p
    rw [Sorted, List.pairwise_cons] at h
    simp only [erase]
    split
    · exact h.2
    · rw [Sorted, List.pairwise_cons]
      refine ⟨fun q hq => h.1 q ?_, ih h.2⟩
      clear ih
      have : ∀ m : OMap κ ν, ∀ q, q ∈ erase m k → q ∈ m := by
        intro m
        induction m with
        | nil => intro q hq; simp [erase] at hq
        | cons p m ih =>
          obtain ⟨a, b⟩ := p
          intro q hq
          simp only [erase] at hq
          split at hq
          · exact List.mem_cons_of_mem _ hq
          · rcases List.mem_cons.1 hq with h | h
            · simp [h]
            · exact List.mem_cons_of_mem _ (ih _ h)
      exact this _ _ hq

theorem mem_of_mem_erase {m : OMap κ ν} {k : κ} {q : κ × ν} (hq : q ∈ erase m k) : q ∈ m := by
  induction m with
  | nil => simp [erase] at hq
  | cons p m ih =>
    obtain ⟨a, b⟩ := p
    simp only [erase] at hq
    split at hq
    · exact List.mem_cons_of_mem _ hq
    · rcases List.mem_cons.1 hq with h | h
      · simp [h]
      · exact List.mem_cons_of_mem _ (ih h)

/-- Splitting a sorted map at a present key. -/
theorem exists_split {m : OMap κ ν} {k : κ} {v : ν} (hs : Sorted m) (h : get? m k = some v) :
    ∃ m₁ m₂, m = m₁ ++ (k, v) :: m₂ ∧ (∀ p ∈ m₁, p.1 < k) ∧ ∀ p ∈ m₂, k < p.1 := by
  obtain ⟨m₁, m₂, rfl⟩ := List.append_of_mem (mem_of_get? h)
  rw [Sorted, List.pairwise_append, List.pairwise_cons] at hs
  exact ⟨m₁, m₂, rfl, fun p hp => hs.2.2 p hp (k, v) (by simp), fun p hp => hs.2.1.1 p hp⟩

theorem get?_erase_self {m : OMap κ ν} (hs : Sorted m) (k : κ) : get? (erase m k) k = none := by
  cases h : get? m k with
  | none => rwa [erase_of_not_mem h]
  | some v =>
    obtain ⟨m₁, m₂, rfl, h₁, h₂⟩ := exists_split hs h
    rw [erase_append (fun p hp => ne_of_lt (h₁ p hp)), get?_eq_none]
    intro p hp
    rcases List.mem_append.1 hp with hp | hp
    · exact ne_of_lt (h₁ p hp)
    · exact ne_of_gt (h₂ p hp)

theorem get?_erase_ne {m : OMap κ ν} {k k' : κ} (hk : k' ≠ k) :
    get? (erase m k) k' = get? m k' := by
  induction m with
  | nil => rfl
  | cons p m ih =>
    obtain ⟨a, b⟩ := p
    simp only [erase]
    split
    · rename_i h
      subst h
      simp [get?_cons, hk.symm]
    · simp only [get?_cons, ih]

theorem get?_set {m : OMap κ ν} (k k' : κ) (v : ν) (hs : Sorted m) :
    get? (set m k v) k' = if k = k' then some v else get? m k' := by
  induction m with
  | nil => simp [set, get?_cons]
  | cons p m ih =>
    obtain ⟨a, b⟩ := p
    rw [Sorted, List.pairwise_cons] at hs
    simp only [set]
    split
    · simp only [get?_cons]
    · split
      · rename_i h; subst h
        simp only [get?_cons]; split <;> rfl
      · simp only [get?_cons, ih hs.2]
        split <;> split <;> simp_all

end OMap

end GsSA
