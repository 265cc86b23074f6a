import Mathlib.Algebra.Order.Round
import Mathlib.Algebra.Order.Field.Rat
import Mathlib.Data.Rat.Floor
import Mathlib.Tactic.FieldSimp
import Mathlib.Tactic.Linarith
import Mathlib.Tactic.NormNum
import Verif.Tools.Steps

/-!
# Every step has its row in the tables of the benchmarks (C131)
-/

set_option linter.unusedSectionVars false

namespace GsSA.Tools

open GsSA

variable {K : Type}

/-! ### Lines and fields -/

theorem split_joined (l : List Text) (hl : l ≠ []) (h : ∀ x ∈ l, ',' ∉ x) : split (joined l) = l := by
  induction l with
  | nil => exact absurd rfl hl
  | cons a l ih =>
    cases l with
    | nil =>
      rw [joined, split, fieldsOf, pieces_append _ _ _ (h a (by simp))]
      rfl
    | cons b l =>
      have := ih (by simp) fun x hx => h x (List.mem_cons_of_mem _ hx)
      rw [split, fieldsOf] at this
      rw [joined, split, fieldsOf, List.append_assoc, List.cons_append, pieces_append _ _ _ (h a (by simp)), this]

theorem split_cells (a : List Text) (t : Text) (h : ∀ x ∈ a, ',' ∉ x) : split (cells a ++ t) = a ++ split t := by
  induction a with
  | nil => rfl
  | cons x a ih =>
    have hc : cells (x :: a) ++ t = x ++ ',' :: (cells a ++ t) := by simp [cells]
    have := ih fun y hy => h y (List.mem_cons_of_mem _ hy)
    rw [split, fieldsOf] at this
    rw [hc, split, fieldsOf, List.append_assoc, List.cons_append, pieces_append _ _ _ (h x (by simp)), this]
    rfl

theorem joined_comma (l : List Text) (hl : l ≠ []) : joined l ++ [','] = cells l := by
  induction l with
  | nil => exact absurd rfl hl
  | cons a l ih =>
    cases l with
    | nil => simp [joined, cells]
    | cons b l =>
      rw [joined, List.append_assoc, List.cons_append, ih (by simp)]
      simp [cells]

theorem not_mem_joined (l : List Text) (h : ∀ x ∈ l, '\n' ∉ x) : '\n' ∉ joined l := by
  by_cases hl : l = []
  · simp [hl, joined]
  · have := not_mem_cells '\n' (by decide) l h
    rw [← joined_comma l hl] at this
    intro hm
    exact this (List.mem_append_left _ hm)

/-- Lines written one after the other. -/
theorem linesOf_lines (l : List Text) (h : ∀ x ∈ l, '\n' ∉ x) : linesOf ((l.map fun x => x ++ ['\n']).flatten) = l := by
  induction l with
  | nil => rfl
  | cons a l ih =>
    have := ih fun x hx => h x (List.mem_cons_of_mem _ hx)
    rw [linesOf] at this
    rw [List.map_cons, List.flatten_cons, List.append_assoc, linesOf, List.singleton_append,
      pieces_append _ _ _ (h a (by simp)), this]

theorem layout_clean (p : StepProg) :
    (∀ x ∈ (layout p).front, Clean x) ∧ (∀ x ∈ (layout p).coords, Clean x) ∧ ∀ x ∈ (layout p).back, Clean x := by
  unfold Clean
  cases p <;> decide

theorem layout_back (p : StepProg) : (layout p).back ≠ [] := by cases p <;> decide

theorem stepNames_clean (n : ℕ) (c : List Text) (h : ∀ x ∈ c, Clean x) : ∀ x ∈ stepNames n c, Clean x := by
  intro x hx
  simp only [stepNames, List.mem_flatMap, List.mem_map] at hx
  obtain ⟨k, _, y, hy, rfl⟩ := hx
  have h1 := digits_clean k
  have h2 := h y hy
  have h3 : Clean "point ".toList := by unfold Clean; decide
  have h4 : Clean " - ".toList := by unfold Clean; decide
  constructor
  · simp only [List.mem_append, not_or]
    exact ⟨⟨⟨h3.1, h1.1⟩, h4.1⟩, h2.1⟩
  · simp only [List.mem_append, not_or]
    exact ⟨⟨⟨h3.2, h1.2⟩, h4.2⟩, h2.2⟩

section

variable [Field K] [LinearOrder K]

theorem backValues_ne (p : StepProg) (v : StepVals K) : backValues p v ≠ [] := by
  unfold backValues
  split <;> simp

/-- The row without the end of the line. -/
def rowLine (p : StepProg) (fmt : ℤ → K → Text) (v : StepVals K) (cs : List (List K)) : Text :=
  cells ((frontValues p v).map (fmt (layout p).precision)) ++ cells (cs.flatten.map (fmt (layout p).precision)) ++
    joined ((backValues p v).map (fmt (layout p).precision)) ++ (if (layout p).trailing then [','] else [])

/-- The fields of a row. -/
def rowFields (p : StepProg) (fmt : ℤ → K → Text) (v : StepVals K) (cs : List (List K)) : List Text :=
  (frontValues p v ++ cs.flatten ++ backValues p v).map (fmt (layout p).precision) ++
    if (layout p).trailing then [[]] else []

theorem rowLine_split (p : StepProg) (fmt : ℤ → K → Text) (hfmt : ∀ q x, Clean (fmt q x)) (v : StepVals K)
    (cs : List (List K)) : split (rowLine p fmt v cs) = rowFields p fmt v cs := by
  have hc : ∀ l : List K, ∀ x ∈ l.map (fmt (layout p).precision), ',' ∉ x := by
    intro l x hx
    obtain ⟨y, _, rfl⟩ := List.mem_map.1 hx
    exact (hfmt _ _).1
  have hb : (backValues p v).map (fmt (layout p).precision) ≠ [] := by
    simpa using backValues_ne p v
  unfold rowLine rowFields
  rw [List.append_assoc, List.append_assoc, split_cells _ _ (hc _), split_cells _ _ (hc _)]
  cases (layout p).trailing with
  | false =>
    simp only [Bool.false_eq_true, if_false, List.append_nil, List.map_append]
    rw [split_joined _ hb (hc _), List.append_assoc]
  | true =>
    simp only [if_true, List.map_append]
    rw [joined_comma _ hb]
    have := split_cells _ [] (hc (backValues p v))
    rw [List.append_nil] at this
    rw [this]
    simp [split, fieldsOf, pieces]

theorem rowLine_line (p : StepProg) (fmt : ℤ → K → Text) (hfmt : ∀ q x, Clean (fmt q x)) (v : StepVals K)
    (cs : List (List K)) : '\n' ∉ rowLine p fmt v cs := by
  have hc : ∀ l : List K, ∀ x ∈ l.map (fmt (layout p).precision), '\n' ∉ x := by
    intro l x hx
    obtain ⟨y, _, rfl⟩ := List.mem_map.1 hx
    exact (hfmt _ _).2
  unfold rowLine
  simp only [List.mem_append, not_or]
  refine ⟨⟨⟨not_mem_cells _ (by decide) _ (hc _), not_mem_cells _ (by decide) _ (hc _)⟩,
    not_mem_joined _ (hc _)⟩, ?_⟩
  cases (layout p).trailing <;> simp

theorem header_split (p : StepProg) (n : ℕ) : ∃ t : Text, (layout p).header n = t ++ ['\n'] ∧ '\n' ∉ t ∧
    split t = (layout p).front ++ stepNames n (layout p).coords ++ (layout p).back := by
  obtain ⟨h1, h2, h3⟩ := layout_clean p
  have h4 := stepNames_clean n _ h2
  refine ⟨_, rfl, ?_, ?_⟩
  · simp only [List.mem_append, not_or]
    exact ⟨⟨not_mem_cells _ (by decide) _ fun x hx => (h1 x hx).2, not_mem_cells _ (by decide) _ fun x hx => (h4 x hx).2⟩,
      not_mem_joined _ fun x hx => (h3 x hx).2⟩
  · rw [List.append_assoc, split_cells _ _ fun x hx => (h1 x hx).1, split_cells _ _ fun x hx => (h4 x hx).1,
      split_joined _ (layout_back p) fun x hx => (h3 x hx).1, List.append_assoc]

theorem stepRows_ok (asserts : Bool) (p : StepProg) (fmt : ℤ → K → Text) (patch : ℕ → ℕ) (pts : List (K × K))
    (steps : List (Shape K × StepVals K)) (V : Shape K → List (List K))
    (h : ∀ s ∈ steps, pointValues asserts (outRows p) s.1 patch pts (extremeArg p) kmaxArg = .ok (V s.1)) :
    stepRows asserts p fmt patch pts steps =
      .ok ((steps.map fun s => rowLine p fmt s.2 (V s.1)).map fun x => x ++ ['\n']).flatten := by
  induction steps with
  | nil => rfl
  | cons s steps ih =>
    obtain ⟨d, v⟩ := s
    have hd := h (d, v) (by simp)
    simp only at hd
    rw [stepRows, hd]
    simp only
    rw [ih fun s hs => h s (List.mem_cons_of_mem _ hs)]
    rfl

theorem stepTable_ok (asserts : Bool) (p : StepProg) (fmt : ℤ → K → Text) (hfmt : ∀ q x, Clean (fmt q x))
    (patch : ℕ → ℕ) (pts : List (K × K)) (steps : List (Shape K × StepVals K)) (V : Shape K → List (List K))
    (h : ∀ s ∈ steps, pointValues asserts (outRows p) s.1 patch pts (extremeArg p) kmaxArg = .ok (V s.1))
    (old : Text) : ∃ t, stepTable asserts true p fmt patch pts steps old = .ok t ∧ (linesOf t).map split =
      ((layout p).front ++ stepNames pts.length (layout p).coords ++ (layout p).back) ::
        steps.map fun s => rowFields p fmt s.2 (V s.1) := by
  obtain ⟨x, h1, h2, h3⟩ := header_split p pts.length
  refine ⟨((x :: steps.map fun s => rowLine p fmt s.2 (V s.1)).map fun x => x ++ ['\n']).flatten, ?_, ?_⟩
  · rw [stepTable, if_pos rfl, stepRows_ok asserts p fmt patch pts steps V h, h1]
    rfl
  · rw [linesOf_lines, List.map_cons, h3, List.map_map]
    · congr 1
      apply List.map_congr_left
      intro s _
      exact rowLine_split p fmt hfmt _ _
    · intro y hy
      rcases List.mem_cons.1 hy with rfl | hy
      · exact h2
      · obtain ⟨s, _, rfl⟩ := List.mem_map.1 hy
        exact rowLine_line p fmt hfmt _ _

/-! ### The numbers of the points -/

theorem columns_ok (asserts : Bool) (rows : ℕ) (d : Shape K)
    (hd : d.dim = rows ∨ asserts = false ∧ rows ≤ d.dim) (patch : ℕ → ℕ) (k : ℕ) (pts : List (K × K)) :
    d.columns asserts rows patch k pts =
      .ok ((pts.zipIdx k).map fun q => (List.range rows).map (d.value (patch q.2) q.1.1 q.1.2)) := by
  induction pts generalizing k with
  | nil => rfl
  | cons p pts ih =>
    rw [Shape.columns, Shape.column, if_pos hd, ih]
    rfl

/-- **C131** The programs which print all coordinates: the table has its header and one row for each step, in order,
with the coordinates of the points on their patches. -/
theorem C131_coordinates (asserts : Bool) (p : StepProg) (hp : p = .material ∨ p = .wrinkling ∨ p = .roofDWR)
    (fmt : ℤ → K → Text) (hfmt : ∀ q x, Clean (fmt q x)) (patch : ℕ → ℕ) (pts : List (K × K))
    (steps : List (Shape K × StepVals K)) (n : ℕ) (hn : n = if p = .roofDWR then 3 else 2)
    (hd : ∀ s ∈ steps, s.1.dim = n ∨ asserts = false ∧ n ≤ s.1.dim) (old : Text) :
    ∃ t, stepTable asserts true p fmt patch pts steps old = .ok t ∧ (linesOf t).map split =
      ((layout p).front ++ stepNames pts.length (layout p).coords ++ (layout p).back) ::
        steps.map fun s => (frontValues p s.2 ++
          ((pts.zipIdx).map fun q => (List.range n).map (s.1.value (patch q.2) q.1.1 q.1.2)).flatten ++
            backValues p s.2).map (fmt (if p = .material then 12 else 6)) ++ [[]] := by
  have ho : outRows p = n := by
    rcases hp with rfl | rfl | rfl <;> simp [outRows, hn]
  have he : extremeArg p = -1 := by rcases hp with rfl | rfl | rfl <;> rfl
  obtain ⟨t, h1, h2⟩ := stepTable_ok asserts p fmt hfmt patch pts steps
    (fun d => (pts.zipIdx).map fun q => (List.range n).map (d.value (patch q.2) q.1.1 q.1.2))
    (by
      intro s hs
      rw [pointValues, ho, columns_ok asserts n s.1 (hd s hs), he]
      rfl) old
  refine ⟨t, h1, h2.trans ?_⟩
  congr 1
  apply List.map_congr_left
  intro s _
  rcases hp with rfl | rfl | rfl <;> rfl

end

section Order

variable [Field K] [LinearOrder K] [IsStrictOrderedRing K]

theorem foldl_max (x : K) (l : List K) :
    (∀ z ∈ x :: l, z ≤ l.foldl max x) ∧ l.foldl max x ∈ x :: l := by
  induction l generalizing x with
  | nil => simp
  | cons y l ih =>
    obtain ⟨h1, h2⟩ := ih (max x y)
    rw [List.foldl_cons]
    have h3 := h1 (max x y) (by simp)
    refine ⟨fun z hz => ?_, ?_⟩
    · rcases List.mem_cons.1 hz with rfl | hz
      · exact (le_max_left _ _).trans h3
      · rcases List.mem_cons.1 hz with rfl | hz
        · exact (le_max_right _ _).trans h3
        · exact h1 z (List.mem_cons_of_mem _ hz)
    · rcases List.mem_cons.1 h2 with h | h
      · rw [h]
        rcases max_choice x y with h' | h' <;> rw [h'] <;> simp
      · exact List.mem_cons_of_mem _ (List.mem_cons_of_mem _ h)

theorem foldl_min (x : K) (l : List K) :
    (∀ z ∈ x :: l, l.foldl min x ≤ z) ∧ l.foldl min x ∈ x :: l := by
  induction l generalizing x with
  | nil => simp
  | cons y l ih =>
    obtain ⟨h1, h2⟩ := ih (min x y)
    rw [List.foldl_cons]
    have h3 := h1 (min x y) (by simp)
    refine ⟨fun z hz => ?_, ?_⟩
    · rcases List.mem_cons.1 hz with rfl | hz
      · exact h3.trans (min_le_left _ _)
      · rcases List.mem_cons.1 hz with rfl | hz
        · exact h3.trans (min_le_right _ _)
        · exact h1 z (List.mem_cons_of_mem _ hz)
    · rcases List.mem_cons.1 h2 with h | h
      · rw [h]
        rcases min_choice x y with h' | h' <;> rw [h'] <;> simp
      · exact List.mem_cons_of_mem _ (List.mem_cons_of_mem _ h)

theorem extremeOf_spec (l : List K) (hl : l ≠ []) :
    ∃ e, extremeOf l = some e ∧ (∀ z ∈ l, |z| ≤ e) ∧ ∃ z ∈ l, |z| = e := by
  cases l with
  | nil => exact absurd rfl hl
  | cons x l =>
    obtain ⟨h1, h2⟩ := foldl_max x l
    obtain ⟨h3, h4⟩ := foldl_min x l
    refine ⟨_, rfl, fun z hz => ?_, ?_⟩
    · exact (abs_le_max_abs_abs (h3 z hz) (h1 z hz)).trans (le_of_eq (max_comm _ _))
    · rcases max_choice |l.foldl max x| |l.foldl min x| with h | h
      · exact ⟨_, h2, h.symm⟩
      · exact ⟨_, h4, h.symm⟩

/-- The heights `z` at `n` points of the section through `p`, in the direction of the second parameter. -/
def heights (d : Shape K) (n : ℕ) (p : K × K) : List K :=
  (List.range n).map fun k : ℕ => d.value 0 p.1 (k / ((n : K) - 1)) 2

/-- The largest absolute value in a list. -/
def Largest (l : List K) (e : K) : Prop := (∀ z ∈ l, |z| ≤ e) ∧ ∃ z ∈ l, |z| = e

theorem sectionZ_heights (d : Shape K) (n : ℕ) (p : K × K) : d.sectionZ 1 n p = heights d n p := by
  simp [Shape.sectionZ, onSection, sample, heights]

theorem withExtremes_ok (d : Shape K) (n : ℕ) (hn : n ≠ 0) : ∃ E : K × K → K, (∀ p, Largest (heights d n p) (E p)) ∧
    ∀ (pts : List (K × K)) (cs : List (List K)), cs.length = pts.length →
      withExtremes d 1 n pts cs = .ok ((cs.zip pts).map fun c => c.1.take 2 ++ [E c.2]) := by
  have hne : ∀ p, d.sectionZ 1 n p ≠ [] := by
    intro p
    simp [Shape.sectionZ, hn]
  choose E hE using fun p => extremeOf_spec (d.sectionZ 1 n p) (hne p)
  refine ⟨E, fun p => by rw [← sectionZ_heights]; exact (hE p).2, fun pts => ?_⟩
  induction pts with
  | nil => intro cs hcs; cases cs <;> simp_all [withExtremes]
  | cons p pts ih =>
    intro cs hcs
    cases cs with
    | nil => simp at hcs
    | cons c cs =>
      rw [withExtremes, (hE p).1]
      simp only
      rw [ih cs (by simpa using hcs)]
      rfl

theorem pointValues_extreme (asserts : Bool) (d : Shape K) (hd : d.dim = 3) (patch : ℕ → ℕ) (n : ℕ) (hn : n ≠ 0) :
    ∃ E : K × K → K, (∀ p, Largest (heights d n p) (E p)) ∧ ∀ pts,
      pointValues asserts 3 d patch pts 1 n = .ok ((pts.zipIdx).map fun q =>
        [d.value (patch q.2) q.1.1 q.1.2 0, d.value (patch q.2) q.1.1 q.1.2 1, E q.1]) := by
  obtain ⟨E, h1, h2⟩ := withExtremes_ok d n hn
  refine ⟨E, h1, fun pts => ?_⟩
  rw [pointValues, columns_ok asserts 3 d (.inl hd)]
  simp only [show ¬ (1 : ℤ) = -1 by decide, if_false, or_true, if_true]
  rw [h2 _ _ (by simp)]
  congr 1
  apply List.ext_getElem?
  intro k
  simp only [List.getElem?_map, List.zip_map_left]
  by_cases hk : k < pts.length
  · simp [hk, List.getElem_zipIdx, List.range_succ]
  · have h3 : (pts.zipIdx.zip pts)[k]? = none := by simp; omega
    have h4 : pts.zipIdx[k]? = none := by simp; omega
    rw [h3, h4]
    rfl

/-- **C131** The programs which print an extreme: the table has its header and one row for each step, in order. Of each
point there are two coordinates, and the largest distance from the plane `z = 0` among 201 points on the line through
it. -/
theorem C131_extremes (asserts : Bool) (p : StepProg) (hp : p ≠ .material ∧ p ≠ .wrinkling ∧ p ≠ .roofDWR)
    (fmt : ℤ → K → Text) (hfmt : ∀ q x, Clean (fmt q x)) (pts : List (K × K))
    (steps : List (Shape K × StepVals K)) (hd : ∀ s ∈ steps, s.1.dim = 3) (old : Text) :
    ∃ (E : Shape K → K × K → K) (t : Text), (∀ s ∈ steps, ∀ q, Largest (heights s.1 201 q) (E s.1 q)) ∧
      stepTable asserts true p fmt (fun _ => 0) pts steps old = .ok t ∧ (linesOf t).map split =
      ((layout p).front ++ stepNames pts.length (layout p).coords ++ (layout p).back) ::
        steps.map fun s => (frontValues p s.2 ++
          (pts.map fun q => [s.1.value 0 q.1 q.2 0, s.1.value 0 q.1 q.2 1, E s.1 q]).flatten ++
            backValues p s.2).map (fmt 6) ++ if p = .shear then [] else [[]] := by
  classical
  have ho : outRows p = 3 := by
    unfold outRows
    rw [if_neg]
    exact fun h => h.elim hp.2.1 hp.1
  have he : extremeArg p = 1 := by
    cases p <;> first | rfl | (exfalso; revert hp; decide)
  have hE : ∀ d : Shape K, ∃ E : K × K → K, d.dim = 3 → (∀ q, Largest (heights d 201 q) (E q)) ∧ ∀ pts,
      pointValues asserts 3 d (fun _ => 0) pts 1 201 = .ok ((pts.zipIdx).map fun q =>
        [d.value 0 q.1.1 q.1.2 0, d.value 0 q.1.1 q.1.2 1, E q.1]) := by
    intro d
    by_cases h : d.dim = 3
    · obtain ⟨E, h1, h2⟩ := pointValues_extreme asserts d h (fun _ => 0) 201 (by decide)
      exact ⟨E, fun _ => ⟨h1, h2⟩⟩
    · exact ⟨fun _ => 0, fun h' => absurd h' h⟩
  choose E hE using hE
  obtain ⟨t, h1, h2⟩ := stepTable_ok asserts p fmt hfmt (fun _ => 0) pts steps
    (fun d => (pts.zipIdx).map fun q => [d.value 0 q.1.1 q.1.2 0, d.value 0 q.1.1 q.1.2 1, E d q.1])
    (by
      intro s hs
      rw [ho, he]
      exact (hE s.1 (hd s hs)).2 pts) old
  refine ⟨E, t, fun s hs => (hE s.1 (hd s hs)).1, h1, h2.trans ?_⟩
  congr 1
  apply List.map_congr_left
  intro s _
  have hz : ((pts.zipIdx).map fun q : (K × K) × ℕ =>
        [s.1.value 0 q.1.1 q.1.2 0, s.1.value 0 q.1.1 q.1.2 1, E s.1 q.1]) =
      pts.map fun q => [s.1.value 0 q.1 q.2 0, s.1.value 0 q.1 q.2 1, E s.1 q] := by
    have := congrArg (List.map fun q : K × K => [s.1.value 0 q.1 q.2 0, s.1.value 0 q.1 q.2 1, E s.1 q])
      (List.zipIdx_map_fst 0 pts)
    rw [List.map_map] at this
    exact this
  rw [rowFields, hz]
  revert hp
  cases p <;> simp [layout, commonLayout]

/-! ### The extreme -/

/-- **C131** The points on the line: the first and the last are its ends, and they are equally far apart. -/
theorem C131_samples (n : ℕ) (hn : 2 ≤ n) : (sample n 0 : K) = 0 ∧ (sample n (n - 1) : K) = 1 ∧
    ∀ k, (sample n (k + 1) : K) - sample n k = 1 / ((n : K) - 1) ∧ (sample n k : K) < sample n (k + 1) := by
  have h1 : (0 : K) < (n : K) - 1 := by
    have : (2 : K) ≤ n := by exact_mod_cast hn
    linarith
  refine ⟨by simp [sample], ?_, fun k => ?_⟩
  · rw [sample, Nat.cast_sub (by omega), Nat.cast_one, div_self h1.ne']
  · have h2 : (sample n (k + 1) : K) - sample n k = 1 / ((n : K) - 1) := by
      rw [sample, sample, ← sub_div]
      push_cast
      ring
    refine ⟨h2, ?_⟩
    have : (0 : K) < 1 / ((n : K) - 1) := by positivity
    linarith

/-- **C131** How far the extreme may be from the largest distance on the whole line: half a step times the slope. -/
theorem C131_resolution [FloorRing K] (d : Shape K) (p : K × K) (n : ℕ) (hn : 2 ≤ n) {e : K}
    (he : Largest (heights d n p) e) (L : K)
    (hL : ∀ s t, 0 ≤ s → s ≤ 1 → 0 ≤ t → t ≤ 1 → |d.value 0 p.1 s 2 - d.value 0 p.1 t 2| ≤ L * |s - t|) (t : K)
    (h0 : 0 ≤ t) (h1 : t ≤ 1) : |d.value 0 p.1 t 2| ≤ e + L / (2 * ((n : K) - 1)) := by
  have hm : (0 : K) < (n : K) - 1 := by
    have : (2 : K) ≤ n := by exact_mod_cast hn
    linarith
  have hL0 : 0 ≤ L := by
    have := hL 0 1 le_rfl zero_le_one zero_le_one le_rfl
    have h2 := abs_nonneg (d.value 0 p.1 0 2 - d.value 0 p.1 1 2)
    simp only [zero_sub, abs_neg, abs_one, mul_one] at this
    linarith
  have hr := abs_sub_round (t * ((n : K) - 1))
  have hnn : 0 ≤ round (t * ((n : K) - 1)) := by
    rw [round_eq]
    apply Int.floor_nonneg.2
    have : 0 ≤ t * ((n : K) - 1) := mul_nonneg h0 hm.le
    linarith
  obtain ⟨k, hk⟩ := Int.eq_ofNat_of_zero_le hnn
  have hkn : k < n := by
    have h2 : round (t * ((n : K) - 1)) < (n : ℤ) := by
      rw [round_eq]
      apply Int.floor_lt.2
      have : t * ((n : K) - 1) ≤ 1 * ((n : K) - 1) := mul_le_mul_of_nonneg_right h1 hm.le
      push_cast
      linarith
    omega
  rw [hk, Int.cast_natCast] at hr
  have hs0 : (0 : K) ≤ k / ((n : K) - 1) := div_nonneg (Nat.cast_nonneg k) hm.le
  have hs1 : (k : K) / ((n : K) - 1) ≤ 1 := by
    rw [div_le_one hm]
    have : (k : K) + 1 ≤ n := by exact_mod_cast hkn
    linarith
  have hd : |t - k / ((n : K) - 1)| ≤ 1 / (2 * ((n : K) - 1)) := by
    have h2 : t - k / ((n : K) - 1) = (t * ((n : K) - 1) - k) / ((n : K) - 1) := by
      field_simp
    rw [h2, abs_div, abs_of_pos hm, div_le_iff₀ hm]
    have h3 : 1 / (2 * ((n : K) - 1)) * ((n : K) - 1) = 1 / 2 := by field_simp
    rw [h3]
    exact hr
  have hz := he.1 (d.value 0 p.1 (k / ((n : K) - 1)) 2)
    (List.mem_map.2 ⟨k, List.mem_range.2 hkn, rfl⟩)
  have hl := hL t _ h0 h1 hs0 hs1
  have hb : L * |t - k / ((n : K) - 1)| ≤ L / (2 * ((n : K) - 1)) := by
    calc _ ≤ L * (1 / (2 * ((n : K) - 1))) := mul_le_mul_of_nonneg_left hd hL0
      _ = _ := by ring
  have ha := abs_sub_abs_le_abs_sub (d.value 0 p.1 t 2) (d.value 0 p.1 (k / ((n : K) - 1)) 2)
  linarith

/-- **C131** violated: the column with the name `point k - z` does not show the coordinate `z` of the point: what it
shows is never negative, does not depend on the second parameter of the point, and is the same for the deformation mirrored
at the plane `z = 0`. -/
theorem C131_violated_sign (asserts : Bool) (d : Shape K) (hd : d.dim = 3) (patch : ℕ → ℕ) (n : ℕ) (hn : n ≠ 0) :
    ∃ E : K → K, (∀ x, 0 ≤ E x ∧ ∀ y, d.value 0 x y 2 < 0 → E x ≠ d.value 0 x y 2) ∧ ∀ pts : List (K × K),
      pointValues asserts 3 d patch pts 1 n = .ok ((pts.zipIdx).map fun q =>
        [d.value (patch q.2) q.1.1 q.1.2 0, d.value (patch q.2) q.1.1 q.1.2 1, E q.1.1]) ∧
      pointValues asserts 3 ⟨3, fun k x y i => if i = 2 then - d.value k x y 2 else d.value k x y i⟩ patch pts 1 n =
        pointValues asserts 3 d patch pts 1 n := by
  obtain ⟨E, h1, h2⟩ := pointValues_extreme asserts d hd patch n hn
  obtain ⟨E', h1', h2'⟩ := pointValues_extreme asserts
    (⟨3, fun k x y i => if i = 2 then - d.value k x y 2 else d.value k x y i⟩ : Shape K) rfl patch n hn
  have hE : ∀ p q : K × K, p.1 = q.1 → E p = E q := by
    intro p q hpq
    have hh : heights d n p = heights d n q := by
      unfold heights
      rw [hpq]
    obtain ⟨z, hz, hze⟩ := (h1 p).2
    obtain ⟨w, hw, hwe⟩ := (h1 q).2
    rw [hh] at hz
    rw [← hh] at hw
    have h3 := (h1 q).1 z hz
    have h4 := (h1 p).1 w hw
    linarith
  have hE' : ∀ p, E' p = E p := by
    intro p
    obtain ⟨z, hz, hze⟩ := (h1 p).2
    obtain ⟨w, hw, hwe⟩ := (h1' p).2
    obtain ⟨k, hk, rfl⟩ := List.mem_map.1 hz
    obtain ⟨j, hj, rfl⟩ := List.mem_map.1 hw
    have h3 := (h1' p).1 _ (List.mem_map.2 ⟨k, hk, rfl⟩)
    have h4 := (h1 p).1 _ (List.mem_map.2 ⟨j, hj, rfl⟩)
    simp only [if_true, abs_neg] at h3 hwe
    linarith
  have h0 : ∀ x, 0 ≤ E (x, 0) := by
    intro x
    obtain ⟨z, -, hz⟩ := (h1 (x, 0)).2
    rw [← hz]
    exact abs_nonneg z
  refine ⟨fun x => E (x, 0), fun x => ⟨h0 x, fun y hy he => absurd ((h0 x).trans_eq he) (not_le.2 hy)⟩,
    fun pts => ⟨?_, ?_⟩⟩
  · rw [h2 pts]
    congr 1
    apply List.map_congr_left
    intro q _
    rw [hE q.1 (q.1.1, 0) rfl]
  · rw [h2 pts, h2' pts]
    congr 1
    apply List.map_congr_left
    intro q _
    rw [hE' q.1]
    simp

/-- **C131** Another value of `extreme` is an error. -/
theorem C131_unknown (asserts : Bool) (rows : ℕ) (d : Shape K) (hd : d.dim = rows) (patch : ℕ → ℕ)
    (pts : List (K × K)) (x : ℤ) (hx : x ≠ -1 ∧ x ≠ 0 ∧ x ≠ 1) (n : ℕ) :
    pointValues asserts rows d patch pts x n = .error .exc := by
  rw [pointValues, columns_ok asserts rows d (.inl hd)]
  simp only
  rw [if_neg hx.1, if_neg fun h => h.elim hx.2.1 hx.2.2]

/-- **C131** violated: each row has one field more than the header, except in `example_ShearWrinkling.cpp`. -/
theorem C131_violated_trailing (p : StepProg) (fmt : ℤ → K → Text) (v : StepVals K) (cs : List (List K))
    (hcs : ∀ c ∈ cs, c.length = (layout p).coords.length) :
    (rowFields p fmt v cs).length =
      ((layout p).front ++ stepNames cs.length (layout p).coords ++ (layout p).back).length +
        if p = .shear then 0 else 1 := by
  have h1 : cs.flatten.length = cs.length * (layout p).coords.length := by
    rw [List.length_flatten, List.map_congr_left hcs]
    simp
  have h2 : (stepNames cs.length (layout p).coords).length = cs.length * (layout p).coords.length := by
    simp [stepNames, List.length_flatMap]
  simp only [rowFields, List.length_append, List.length_map, h1, h2]
  cases p <;> simp [layout, commonLayout, frontValues, backValues]

/-- **C131** violated: the deformation in `benchmark_Wrinkling.cpp` has three coordinates, but two are expected: with
assertions the program stops at the first step. -/
theorem C131_violated_wrinkling (fmt : ℤ → K → Text) (patch : ℕ → ℕ) (p : K × K) (pts : List (K × K)) (d : Shape K)
    (hd : d.dim = 3) (v : StepVals K) (steps : List (Shape K × StepVals K)) (old : Text) :
    stepTable true true .wrinkling fmt patch (p :: pts) ((d, v) :: steps) old = .error .assert := by
  have h : d.column true 2 (patch 0) p = .error .assert := by
    rw [Shape.column, hd]
    rfl
  rw [stepTable, if_pos rfl, stepRows, pointValues, show outRows .wrinkling = 2 from rfl, Shape.columns, h]

/-- **C131** The columns of each table, and whether a row ends with a comma, and the number of digits. -/
theorem C131_columns (p : StepProg) :
    (layout p).front = "Deformation norm".toList ::
        (if p = .roofDWR then ["DU norm".toList, "DU old norm".toList] else []) ∧
      (layout p).coords = "x".toList :: "y".toList ::
        (if p = .wrinkling ∨ p = .material then [] else ["z".toList]) ∧
      (layout p).back = "Lambda".toList :: "Indicator".toList ::
        (if p = .wrinklingDWR ∨ p = .roofDWR then ["NumDofs".toList, "Error".toList] else []) ∧
      ((layout p).trailing = false ↔ p = .shear) ∧ (layout p).precision = if p = .material then 12 else 6 := by
  cases p <;> refine ⟨by simp [layout, commonLayout], by simp [layout, commonLayout], by simp [layout, commonLayout],
    by simp [layout, commonLayout], rfl⟩

/-- **C131** Without `--write` no table is touched. -/
theorem C131_nowrite (asserts : Bool) (p : StepProg) (fmt : ℤ → K → Text) (patch : ℕ → ℕ) (pts : List (K × K))
    (steps : List (Shape K × StepVals K)) (old : Text) :
    stepTable asserts false p fmt patch pts steps old = .ok old := rfl

/-! ### Cross sections -/

theorem sectionName_inj (dir : Text) {u u' : Bool} {c c' : Char}
    (h : sectionName dir u c = sectionName dir u' c') : u = u' ∧ c = c' := by
  unfold sectionName at h
  rw [List.append_assoc, List.append_assoc, List.append_assoc, List.append_assoc, List.append_assoc,
    List.append_assoc] at h
  have h := List.append_cancel_left (List.append_cancel_left h)
  rw [List.singleton_append, List.singleton_append, List.cons.injEq] at h
  refine ⟨?_, h.1⟩
  cases u <;> cases u' <;> simp_all

/-- **C131** The six files have different names. -/
theorem C131_names (dir : Text) (u u' : Bool) (c c' : Char) :
    sectionName dir u c = sectionName dir u' c' ↔ u = u' ∧ c = c' :=
  ⟨sectionName_inj dir, fun h => by rw [h.1, h.2]⟩

theorem foldl_update (nm : Char → Text) (hnm : Function.Injective nm) (g : ℕ → Text → Text) (fs : Files) :
    (∀ x ∈ sectionLetters, sectionLetters.foldl (fun fs c => Function.update fs (nm c.2) (g c.1 (fs (nm c.2)))) fs
      (nm x.2) = g x.1 (fs (nm x.2))) ∧
    ∀ y, (∀ x ∈ sectionLetters, y ≠ nm x.2) →
      sectionLetters.foldl (fun fs c => Function.update fs (nm c.2) (g c.1 (fs (nm c.2)))) fs y = fs y := by
  have h1 : nm 'X' ≠ nm 'Y' := fun h => absurd (hnm h) (by decide)
  have h2 : nm 'X' ≠ nm 'Z' := fun h => absurd (hnm h) (by decide)
  have h3 : nm 'Y' ≠ nm 'Z' := fun h => absurd (hnm h) (by decide)
  constructor
  · intro x hx
    simp only [sectionLetters, List.mem_cons, List.not_mem_nil, or_false] at hx
    rcases hx with rfl | rfl | rfl <;>
      simp [sectionLetters, Function.update_of_ne, h1, h2, h3, h1.symm, h2.symm, h3.symm]
  · intro y hy
    have a := hy (0, 'X') (by simp [sectionLetters])
    have b := hy (1, 'Y') (by simp [sectionLetters])
    have c := hy (2, 'Z') (by simp [sectionLetters])
    simp only at a b c
    simp [sectionLetters, Function.update_of_ne, a, b, c]

/-- The fields of the line for one coordinate. -/
def crossFields (str : K → Text) (c : ℕ) (val : K) (n i : ℕ) (d : Shape K) : List Text :=
  (List.range n).map fun k : ℕ =>
    str (if c = 0 then d.value 0 val (k / ((n : K) - 1)) i else d.value 0 (k / ((n : K) - 1)) val i)

theorem sectionLine_eq (str : K → Text) (d : Shape K) (c : ℕ) (val : K) (n i : ℕ) :
    sectionLine str d c val n i = joined (crossFields str c val n i d) ++ ['\n'] := by
  unfold sectionLine crossFields crossPoint sample
  congr 2
  apply List.map_congr_left
  intro k _
  by_cases h : c = 0 <;> simp [h]

theorem sectionSteps_ok (str : K → Text) (dir : Text) (c : ℕ) (hc : c < 2) (val : K) (n : ℕ) (l : List (Shape K))
    (hl : ∀ d ∈ l, d.dim = 3) (fs : Files) : ∃ gs, sectionSteps str dir c val n l fs = .ok gs ∧
      (∀ x ∈ sectionLetters, gs (sectionName dir false x.2) = fs (sectionName dir false x.2) ++
        ((l.map fun d => joined (crossFields str c val n x.1 d)).map fun t => t ++ ['\n']).flatten) ∧
      ∀ y, (∀ x ∈ sectionLetters, y ≠ sectionName dir false x.2) → gs y = fs y := by
  induction l generalizing fs with
  | nil => exact ⟨fs, rfl, by simp, by simp⟩
  | cons d l ih =>
    have hw : writeSection str d dir c val n false fs = .ok (sectionLetters.foldl
        (fun fs c' => Function.update fs (sectionName dir false c'.2)
          (fs (sectionName dir false c'.2) ++ sectionLine str d c val n c'.1)) fs) := by
      rw [writeSection, if_neg (by omega), if_neg (by simp [hl d (by simp)])]
    obtain ⟨h1, h2⟩ := foldl_update (sectionName dir false) (fun _ _ h => (sectionName_inj dir h).2)
      (fun i t => t ++ sectionLine str d c val n i) fs
    obtain ⟨gs, h3, h4, h5⟩ := ih (fun d' hd' => hl d' (List.mem_cons_of_mem _ hd')) (sectionLetters.foldl
      (fun fs c' => Function.update fs (sectionName dir false c'.2)
        (fs (sectionName dir false c'.2) ++ sectionLine str d c val n c'.1)) fs)
    refine ⟨gs, by rw [sectionSteps, hw]; exact h3, fun x hx => ?_, fun y hy => ?_⟩
    · rw [h4 x hx, h1 x hx, sectionLine_eq]
      simp
    · rw [h5 y hy, h2 y hy]

theorem cross_lines (str : K → Text) (hstr : ∀ x, Clean (str x)) (c : ℕ) (val : K) (i : ℕ) (l : List (Shape K)) :
    (linesOf ((l.map fun d => joined (crossFields str c val 201 i d)).map fun t => t ++ ['\n']).flatten).map split =
      l.map (crossFields str c val 201 i) := by
  have hc : ∀ d, ∀ x ∈ crossFields str c val 201 i d, Clean x := by
    intro d x hx
    obtain ⟨k, _, rfl⟩ := List.mem_map.1 hx
    exact hstr _
  rw [linesOf_lines, List.map_map]
  · apply List.map_congr_left
    intro d _
    exact split_joined _ (by intro h; have := congrArg List.length h; simp [crossFields] at this) fun x hx => (hc d x hx).1
  · intro t ht
    obtain ⟨d, _, rfl⟩ := List.mem_map.1 ht
    exact not_mem_joined _ fun x hx => (hc d x hx).2

/-- **C131** With cross sections the three files of the undeformed geometry have one line and the three others have one
line for each step, with 201 numbers each; whatever was in these files before is gone, and no other file is touched. -/
theorem C131_sections (str : K → Text) (hstr : ∀ x, Clean (str x)) (dir : Text) (c : ℕ) (hc : c < 2) (val : K)
    (mp : Shape K) (hmp : mp.dim = 3) (steps : List (Shape K)) (hs : ∀ d ∈ steps, d.dim = 3) (fs : Files) :
    ∃ gs, sectionRun true str dir (some c) val mp steps fs = .ok gs ∧
      (∀ i ch, (i, ch) ∈ [(0, 'X'), (1, 'Y'), (2, 'Z')] →
        (linesOf (gs (sectionName dir true ch))).map split = [crossFields str c val 201 i mp] ∧
        (linesOf (gs (sectionName dir false ch))).map split = steps.map (crossFields str c val 201 i)) ∧
      ∀ y, (∀ u, ∀ ch ∈ ['X', 'Y', 'Z'], y ≠ sectionName dir u ch) → gs y = fs y := by
  have hinj : ∀ u, Function.Injective (sectionName dir u) := fun u _ _ h => (sectionName_inj dir h).2
  have hno : ∀ (u u' : Bool) (ch : Char), u ≠ u' → ∀ x ∈ sectionLetters, sectionName dir u ch ≠ sectionName dir u' x.2 :=
    fun u u' ch hu x _ h => hu (sectionName_inj dir h).1
  obtain ⟨a1, a2⟩ := foldl_update (sectionName dir false) (hinj _) (fun _ _ => []) fs
  obtain ⟨b1, b2⟩ := foldl_update (sectionName dir true) (hinj _) (fun _ _ => []) (initSection dir false fs)
  obtain ⟨c1, c2⟩ := foldl_update (sectionName dir true) (hinj _) (fun i t => t ++ sectionLine str mp c val 201 i)
    (initSection dir true (initSection dir false fs))
  obtain ⟨gs, h1, h2, h3⟩ := sectionSteps_ok str dir c hc val 201 steps hs (sectionLetters.foldl
      (fun fs c' => Function.update fs (sectionName dir true c'.2)
        (fs (sectionName dir true c'.2) ++ sectionLine str mp c val 201 c'.1))
      (initSection dir true (initSection dir false fs)))
  refine ⟨gs, ?_, ?_, ?_⟩
  · rw [sectionRun, writeSection, if_neg (by omega), if_neg (by simp [hmp])]
    exact h1
  · intro i ch hch
    have hm : (i, ch) ∈ sectionLetters := hch
    constructor
    · rw [h3 _ (hno true false ch (by decide)), c1 _ hm, initSection, b1 _ hm, List.nil_append, sectionLine_eq]
      have := cross_lines str hstr c val i [mp]
      simpa using this
    · rw [h2 _ hm, c2 _ (hno false true ch (by decide)), initSection, b2 _ (hno false true ch (by decide)),
        initSection, a1 _ hm, List.nil_append]
      exact cross_lines str hstr c val i steps
  · intro y hy
    have hy' : ∀ u, ∀ x ∈ sectionLetters, y ≠ sectionName dir u x.2 := by
      intro u x hx
      apply hy u
      simp only [sectionLetters, List.mem_cons, List.not_mem_nil, or_false] at hx
      rcases hx with rfl | rfl | rfl <;> simp
    rw [h3 y (hy' false), c2 y (hy' true), initSection, b2 y (hy' true), initSection, a2 y (hy' false)]

/-- **C131** Without the option, or without a coordinate, no file is touched. -/
theorem C131_nosections (str : K → Text) (dir : Text) (c : Option ℕ) (b : Bool) (h : b = false ∨ c = none) (val : K)
    (mp : Shape K) (steps : List (Shape K)) (fs : Files) : sectionRun b str dir c val mp steps fs = .ok fs := by
  rcases h with rfl | rfl
  · rfl
  · cases b <;> rfl

end Order

/-! ### Examples -/

/-- A number as a row of strokes, with a sign. -/
def bars (q : ℤ) (x : ℚ) : Text := (if x < 0 then ['-'] else []) ++ List.replicate (x.num.natAbs * q.toNat) 'i'

theorem bars_clean (q : ℤ) (x : ℚ) : Clean (bars q x) := by
  unfold bars Clean
  constructor <;> split <;> simp [List.mem_replicate]

/-- An arch over the second parameter, with height `h` in the middle. -/
def arch (h : ℚ) : Shape ℚ := ⟨3, fun _ x y i => if i = 0 then x else if i = 1 then y else 4 * h * y * (1 - y)⟩

/-- A plane deformation. -/
def plane : Shape ℚ := ⟨2, fun k x y i => if i = 0 then x + k else 2 * y⟩

/-- The numbers of a step. -/
def someVals : StepVals ℚ := ⟨1, 2, 3, 4, -1, 50, 6⟩

/-- `C131_coordinates`: two steps of the material test with two points. -/
example (old : Text) : ∃ t, stepTable true true .material bars (fun k => k) [(1, 2), (3, 4)]
      [(plane, someVals), (plane, { someVals with lam := 5 })] old = .ok t ∧
    (linesOf t).map split = [
      ["Deformation norm", "point 0 - x", "point 0 - y", "point 1 - x", "point 1 - y", "Lambda",
        "Indicator"].map String.toList,
      [1, 1, 4, 4, 8, 4, -1].map (bars 12) ++ [[]], [1, 1, 4, 4, 8, 5, -1].map (bars 12) ++ [[]]] := by
  obtain ⟨t, h1, h2⟩ := C131_coordinates true .material (.inl rfl) bars bars_clean (fun k => k) [(1, 2), (3, 4)]
    [(plane, someVals), (plane, { someVals with lam := 5 })] 2 rfl
    (by
      intro s hs
      simp only [List.mem_cons, List.not_mem_nil, or_false] at hs
      rcases hs with rfl | rfl <;> simp [plane]) old
  exact ⟨t, h1, h2.trans (by decide +kernel)⟩

/-- `C131_coordinates`: one step of the adaptive roof. -/
example (old : Text) : ∃ t, stepTable true true .roofDWR bars (fun _ => 0) [(1, 1 / 2)] [(arch (-3), someVals)] old =
      .ok t ∧
    (linesOf t).map split = [
      ["Deformation norm", "DU norm", "DU old norm", "point 0 - x", "point 0 - y", "point 0 - z", "Lambda", "Indicator",
        "NumDofs", "Error"].map String.toList,
      [1, 2, 3, 1, 1 / 2, -3, 4, -1, 50, 6].map (bars 6) ++ [[]]] := by
  obtain ⟨t, h1, h2⟩ := C131_coordinates true .roofDWR (.inr (.inr rfl)) bars bars_clean (fun _ => 0) [(1, 1 / 2)]
    [(arch (-3), someVals)] 3 rfl (by intro s hs; rw [List.mem_singleton.1 hs]; exact .inl rfl) old
  exact ⟨t, h1, h2.trans (by decide +kernel)⟩

/-- `C131_extremes`: the roof that has snapped through to -3 is shown with 3, though the point is at 0. -/
example (old : Text) : ∃ (E : Shape ℚ → ℚ × ℚ → ℚ) (t : Text),
    Largest (heights (arch (-3)) 201 (1, 0)) (E (arch (-3)) (1, 0)) ∧
    stepTable true true .roof bars (fun _ => 0) [(1, 0)] [(arch (-3), someVals)] old = .ok t ∧
    (linesOf t).map split = [
      ["Deformation norm", "point 0 - x", "point 0 - y", "point 0 - z", "Lambda", "Indicator"].map String.toList,
      [1, 1, 0, E (arch (-3)) (1, 0), 4, -1].map (bars 6) ++ [[]]] := by
  obtain ⟨E, t, h0, h1, h2⟩ := C131_extremes true .roof (by decide) bars bars_clean [(1, 0)] [(arch (-3), someVals)]
    (by intro s hs; rw [List.mem_singleton.1 hs]; rfl) old
  exact ⟨E, t, h0 _ (List.mem_singleton_self _) _, h1, h2.trans rfl⟩

/-- `C131_violated_sign`: with five points on the line. -/
example : pointValues true 3 (arch (-3)) (fun _ => 0) [(1, 0), (2, 1 / 2)] 1 5 = .ok [[1, 0, 3], [2, 1 / 2, 3]] ∧
    pointValues true 3 (arch 3) (fun _ => 0) [(1, 0), (2, 1 / 2)] 1 5 = .ok [[1, 0, 3], [2, 1 / 2, 3]] ∧
    pointValues true 3 (arch (-3)) (fun _ => 0) [(1, 0), (2, 1 / 2)] (-1) 5 = .ok [[1, 0, 0], [2, 1 / 2, -3]] ∧
    pointValues true 3 (arch (-3)) (fun _ => 0) [(1, 1 / 2)] 0 5 = .ok [[1, 1 / 2, 3]] ∧
    pointValues true 3 (arch (-3)) (fun _ => 0) [(1, 1 / 2)] 2 5 = .error .exc := by
  decide +kernel

/-- `C131_samples`. -/
example : (List.range 5).map (sample 5) = [0, 1 / 4, 1 / 2, 3 / 4, (1 : ℚ)] := by
  decide +kernel

/-- `C131_resolution`: with four points the top of the arch is missed by 1/9, with slope 4 and half a step of 1/6. -/
example : Largest (heights (arch 1) 4 (0, 0)) (8 / 9) ∧
    ∀ t, 0 ≤ t → t ≤ 1 → |(arch 1).value 0 0 t 2| ≤ 8 / 9 + 4 / (2 * ((4 : ℕ) - 1)) := by
  have he : Largest (heights (arch 1) 4 (0, 0)) (8 / 9) := by
    unfold Largest
    decide +kernel
  refine ⟨he, fun t h0 h1 => C131_resolution (arch 1) (0, 0) 4 (by decide) he 4 (fun s t hs hs' ht ht' => ?_) t h0 h1⟩
  have : (arch 1).value 0 (0 : ℚ) s 2 - (arch 1).value 0 (0 : ℚ) t 2 = 4 * ((1 - s - t) * (s - t)) := by
    simp only [arch]
    norm_num
    ring
  show |(arch 1).value 0 (0 : ℚ) s 2 - (arch 1).value 0 (0 : ℚ) t 2| ≤ _
  rw [this, abs_mul, abs_mul, abs_of_pos (by norm_num : (0 : ℚ) < 4)]
  have h2 : |1 - s - t| ≤ 1 := abs_le.2 ⟨by linarith, by linarith⟩
  have h3 := mul_le_mul_of_nonneg_right h2 (abs_nonneg (s - t))
  linarith

/-- `C131_unknown`. -/
example : pointValues true 3 (arch 1) (fun _ => 0) [(1, 1 / 2)] 7 5 = .error .exc :=
  C131_unknown true 3 _ rfl _ _ 7 (by decide) 5

/-- `C131_violated_trailing`: seven fields under six names. -/
example : (rowFields .roof bars someVals [[1, 2, 3]]).length = 7 ∧
    (rowFields .shear bars someVals [[1, 2, 3]]).length = 6 := by
  refine ⟨?_, ?_⟩
  · rw [C131_violated_trailing .roof bars someVals [[1, 2, 3]] (by simp [layout, commonLayout])]
    decide
  · rw [C131_violated_trailing .shear bars someVals [[1, 2, 3]] (by simp [layout, commonLayout])]
    decide

/-- `C131_columns`: five names in `benchmark_MaterialTest.cpp`, for one point, and ten in `benchmark_Roof_DWR.cpp`. -/
example : ((layout .material).front ++ stepNames 1 (layout .material).coords ++ (layout .material).back) =
      ["Deformation norm", "point 0 - x", "point 0 - y", "Lambda", "Indicator"].map String.toList ∧
    ((layout .roofDWR).front ++ stepNames 1 (layout .roofDWR).coords ++ (layout .roofDWR).back).length = 10 := by
  obtain ⟨h1, h2, h3, -⟩ := C131_columns .material
  obtain ⟨g1, g2, g3, -⟩ := C131_columns .roofDWR
  rw [h1, h2, h3, g1, g2, g3]
  decide +kernel

/-- `C131_violated_wrinkling`. -/
example (old : Text) :
    stepTable true true .wrinkling bars (fun _ => 0) [(1, 1)] [(arch 1, someVals)] old = .error .assert :=
  C131_violated_wrinkling bars _ _ _ _ rfl _ _ _

/-- `C131_sections`: two steps; the file `d/pointdataZ.txt` has two lines. -/
example (fs : Files) : ∃ gs, sectionRun true (bars 1) "d".toList (some 0) 1 (arch 2) [arch 3, arch (-4)] fs = .ok gs ∧
    (linesOf (gs "d/pointdataZ0.txt".toList)).length = 1 ∧
    (linesOf (gs "d/pointdataZ.txt".toList)).map (fun l => (split l)[100]?) =
      [some (bars 1 3), some (bars 1 (-4))] ∧ gs "d/other.txt".toList = fs "d/other.txt".toList := by
  obtain ⟨gs, h1, h2, h3⟩ := C131_sections (bars 1) (bars_clean 1) "d".toList 0 (by decide) 1 (arch 2) rfl
    [arch 3, arch (-4)] (by
      intro d hd
      simp only [List.mem_cons, List.not_mem_nil, or_false] at hd
      rcases hd with rfl | rfl <;> rfl) fs
  obtain ⟨h4, h5⟩ := h2 2 'Z' (by simp)
  refine ⟨gs, h1, ?_, ?_, h3 _ (by decide)⟩
  · have := congrArg List.length h4
    rw [List.length_map] at this
    exact this
  · have h6 := congrArg (List.map (·[100]?)) h5
    rw [List.map_map] at h6
    exact h6.trans (by decide +kernel)

end GsSA.Tools
