import Verif.Data.Model

/-!
# Abstract curve

A branch seen as a list of points with a status for the gap before each point, and the
representation relation between the concrete members of `gsAPALMData` and such a list.
Everything here is proof machinery; the property statements are in `Verif/Data/Props*.lean`.
-/

set_option linter.unusedSectionVars false

namespace GsSA.APALM

open GsSA

/-- A point of the curve. `pend = some ℓ` means that the gap between the preceding point and this
one is waiting or being worked on at level `ℓ`. -/
structure Pt (K S : Type*) where
  xi : K
  t : K
  sol : S
  level : ℕ
  prev : S
  pend : Option ℕ

variable {K S : Type*} [Field K] [LinearOrder K]

/-- The job of one gap. -/
def gapJob (a b : Pt K S) : List (Job K) :=
  match b.pend with
  | some ℓ => [⟨a.xi, b.xi, ℓ⟩]
  | none => []

/-- The jobs of all pending gaps, in order. -/
def gaps : List (Pt K S) → List (Job K)
  | a :: b :: l => gapJob a b ++ gaps (b :: l)
  | _ => []

/-- All jobs of a data set: waiting and active. -/
def allJobs (d : Data K S) : List (Job K) := d.queue ++ OMap.vals d.jobs

/-- The time map is either built or not yet touched after `addStartPoint` at time 0. -/
def TimeMapOK (tm : OMap K K) (ps : List (Pt K S)) : Prop :=
  tm = ps.map (fun p => (p.xi, p.t)) ∨ ∃ p, ps = [p] ∧ p.t = 0 ∧ p.xi = 0 ∧ tm = []

/-- The parameter map is either built or empty for a single point. -/
def ParMapOK (xm : OMap K K) (ps : List (Pt K S)) : Prop :=
  xm = ps.map (fun p => (p.t, p.xi)) ∨ ∃ p, ps = [p] ∧ p.t = 0 ∧ p.xi = 0 ∧ xm = []

/-- Representation relation. -/
structure Rep (d : Data K S) (ps : List (Pt K S)) : Prop where
  xi : d.xi = ps.map (·.xi)
  t : d.t = ps.map (·.t)
  sols : d.sols = ps.map (fun p => (p.xi, p.sol))
  levels : d.levels = ps.map (fun p => (p.xi, p.level))
  prevs : d.prevs = ps.map (fun p => (p.xi, p.prev))
  tmap : TimeMapOK d.tmap ps
  ximap : ParMapOK d.ximap ps
  sortedXi : ps.Pairwise (fun p q => p.xi < q.xi)
  sortedT : ps.Pairwise (fun p q => p.t < q.t)
  head0 : ∀ p ∈ ps.head?, p.xi = 0 ∧ p.pend = none
  jobs : ((allJobs d).filter (fun j => 0 < j.level)).Perm (gaps ps)
  zero : ∀ j ∈ allJobs d, j.level = 0 → j.lo = j.hi ∧ ∃ p ∈ ps, p.xi = j.lo
  jobsSorted : OMap.Sorted d.jobs
  ids : ∀ q ∈ d.jobs, q.1 < d.nextID
  init : d.queue ≠ [] ∨ d.jobs ≠ [] → d.initialized = true
  pendPos : ∀ p ∈ ps, ∀ ℓ, p.pend = some ℓ → 0 < ℓ

/-! ## List lemmas -/

theorem knotInsert_between (l₁ l₂ : List K) (x : K) (h₁ : ∀ a ∈ l₁, a < x) (h₂ : ∀ a ∈ l₂, x < a) :
    knotInsert (l₁ ++ l₂) x = l₁ ++ x :: l₂ := by
  induction l₁ with
  | nil =>
    cases l₂ with
    | nil => rfl
    | cons a l => simp [knotInsert, (h₂ a (by simp)).le]
  | cons a l ih =>
    have ha : a < x := h₁ a (by simp)
    simp only [List.cons_append, knotInsert, not_le.2 ha, if_false]
    rw [ih (fun b hb => h₁ b (by simp [hb]))]

theorem foldl_knotInsert (xs l₁ l₂ : List K) (hx : xs.Pairwise (· < ·))
    (h₁ : ∀ a ∈ l₁, ∀ x ∈ xs, a < x) (h₂ : ∀ a ∈ l₂, ∀ x ∈ xs, x < a) :
    xs.foldl knotInsert (l₁ ++ l₂) = l₁ ++ xs ++ l₂ := by
  induction xs generalizing l₁ with
  | nil => simp
  | cons x xs ih =>
    rw [List.pairwise_cons] at hx
    simp only [List.foldl_cons]
    rw [knotInsert_between l₁ l₂ x (fun a ha => h₁ a ha x (by simp))
      (fun a ha => h₂ a ha x (by simp))]
    have := ih (l₁ ++ [x]) hx.2 (by
      intro a ha y hy
      rcases List.mem_append.1 ha with ha | ha
      · exact h₁ a ha y (by simp [hy])
      · simp at ha; subst ha; exact hx.1 y hy) (fun a ha y hy => h₂ a ha y (by simp [hy]))
    simpa using this

theorem foldl_insertNew {κ ν : Type*} [LinearOrder κ] {α : Type*} (f : α → κ) (g : α → ν)
    (l : List α) (m : OMap κ ν) (hl : l.Pairwise (fun a b => f a < f b))
    (hm : ∀ p ∈ m, ∀ a ∈ l, p.1 < f a) :
    l.foldl (fun m a => OMap.insertNew m (f a) (g a)) m = m ++ l.map (fun a => (f a, g a)) := by
  induction l generalizing m with
  | nil => simp
  | cons a l ih =>
    rw [List.pairwise_cons] at hl
    simp only [List.foldl_cons]
    rw [OMap.insertNew_last m (f a) (g a) (fun p hp => hm p hp a (by simp)), ih _ hl.2]
    · simp
    · intro p hp b hb
      rcases List.mem_append.1 hp with hp | hp
      · exact hm p hp b (by simp [hb])
      · simp at hp; subst hp; exact hl.1 b hb

theorem submitStore_eq (level : ℕ) (l : List (K × S)) (ms₁ ms₂ : OMap K S) (ml₁ ml₂ : OMap K ℕ)
    (hl : l.Pairwise (fun a b => a.1 < b.1))
    (h₁ : ∀ p ∈ ms₁, ∀ a ∈ l, p.1 < a.1) (h₂ : ∀ p ∈ ms₂, ∀ a ∈ l, a.1 < p.1)
    (h₃ : ∀ p ∈ ml₁, ∀ a ∈ l, p.1 < a.1) (h₄ : ∀ p ∈ ml₂, ∀ a ∈ l, a.1 < p.1) :
    submitStore level l (ms₁ ++ ms₂) (ml₁ ++ ml₂) =
      (ms₁ ++ l ++ ms₂, ml₁ ++ l.map (fun a => (a.1, level)) ++ ml₂) := by
  induction l generalizing ms₁ ml₁ with
  | nil => simp [submitStore]
  | cons a l ih =>
    obtain ⟨x, s⟩ := a
    rw [List.pairwise_cons] at hl
    simp only [submitStore]
    rw [OMap.set_between ms₁ ms₂ x s (fun p hp => h₁ p hp (x, s) (by simp))
      (fun p hp => h₂ p hp (x, s) (by simp)),
      OMap.set_between ml₁ ml₂ x level (fun p hp => h₃ p hp (x, s) (by simp))
      (fun p hp => h₄ p hp (x, s) (by simp))]
    have := ih (ms₁ ++ [(x, s)]) (ml₁ ++ [(x, level)]) hl.2 (by
      intro p hp b hb
      rcases List.mem_append.1 hp with hp | hp
      · exact h₁ p hp b (by simp [hb])
      · simp at hp; subst hp; exact hl.1 b hb) (fun p hp b hb => h₂ p hp b (by simp [hb])) (by
      intro p hp b hb
      rcases List.mem_append.1 hp with hp | hp
      · exact h₃ p hp b (by simp [hb])
      · simp at hp; subst hp; exact hl.1 b hb) (fun p hp b hb => h₄ p hp b (by simp [hb]))
    simpa using this

/-- `l.zip l.tail`: adjacent pairs. -/
theorem submitPush_range (xi : List K) (level : ℕ) (k n : ℕ) (hk : 1 ≤ k)
    (hn : k + n ≤ xi.length) :
    (List.range' k n).mapM (pushAt xi level) =
    .ok (((((xi.zip xi.tail).drop (k - 1)).take n)).map fun p => ⟨p.1, p.2, level + 1⟩) := by
  induction n generalizing k with
  | zero => simp [List.range'_zero]; rfl
  | succ n ih =>
    have h1 : k - 1 < xi.length := by omega
    have h2 : k < xi.length := by omega
    rw [List.range'_succ, List.mapM_cons, ih (k + 1) (by omega) (by omega)]
    rw [pushAt, List.getElem?_eq_getElem h1, List.getElem?_eq_getElem h2]
    have hlen : (xi.zip xi.tail).length = xi.length - 1 := by simp
    have h3 : k - 1 < (xi.zip xi.tail).length := by omega
    have : (xi.zip xi.tail).drop (k - 1) =
        (xi[k-1], xi[k]) :: (xi.zip xi.tail).drop (k + 1 - 1) := by
      rw [List.drop_eq_getElem_cons h3]
      congr 1
      · simp [List.getElem_zip, show k - 1 + 1 = k by omega]
      · congr 1; omega
    rw [this]
    rfl

/-- The three cases of the push loop. -/
theorem submitPush_eq (xi : List K) (level maxLevel : ℕ) (lowSmall uppSmall : Prop)
    [Decidable lowSmall] [Decidable uppSmall] (hl : 2 ≤ xi.length) :
    submitPush xi level maxLevel (if lowSmall then xi.length - 1 else 1)
      (if uppSmall then xi.length - 1 else xi.length) =
    .ok (if level < maxLevel then
      ((if lowSmall then [] else (xi.zip xi.tail).dropLast) ++
        (if uppSmall then [] else (xi.zip xi.tail).drop (xi.length - 2))).map
        (fun p => ⟨p.1, p.2, level + 1⟩)
      else []) := by
  have hz : (xi.zip xi.tail).length = xi.length - 1 := by simp
  unfold submitPush
  rw [if_neg (by split <;> split <;> omega)]
  by_cases hlev : level < maxLevel
  · simp only [hlev, if_true]
    rw [submitPush_range]
    · congr 2
      by_cases h1 : lowSmall <;> by_cases h2 : uppSmall <;> simp only [h1, h2, if_true, if_false]
      · simp
      · rw [List.take_of_length_le (by rw [List.length_drop]; omega)]
        simp [Nat.sub_sub]
      · simp only [Nat.sub_self, List.drop_zero, List.append_nil]
        rw [List.dropLast_eq_take, hz]
      · simp only [Nat.sub_self, List.drop_zero]
        rw [List.take_of_length_le (by omega), List.dropLast_eq_take, hz]
        rw [show xi.length - 1 - 1 = xi.length - 2 by omega, List.take_append_drop]
    · split <;> omega
    · split <;> split <;> omega
  · simp [hlev]

theorem scanl_tail_dropLast (x : K) (ds : List K) (δ : K) :
    (submitTimes x (ds ++ [δ])).tail.dropLast = (submitTimes x ds).tail := by
  unfold submitTimes
  induction ds generalizing x with
  | nil => simp
  | cons a l ih =>
    have := ih (x + a)
    simp only [List.cons_append, List.scanl_cons, List.tail_cons] at this ⊢
    cases l with
    | nil => simp
    | cons b l =>
      simp only [List.cons_append, List.scanl_cons, List.tail_cons] at this ⊢
      rw [List.dropLast_cons_of_ne_nil (by simp), this]

end GsSA.APALM
