import Mathlib.Tactic.Linarith
import Mathlib.Tactic.Ring
import Mathlib.Tactic.FieldSimp
import Mathlib.Tactic.Positivity
import Mathlib.Algebra.Order.Ring.Rat
import Mathlib.Data.Rat.Cast.Order
import Mathlib.Logic.Relation
import Mathlib.Tactic.NormNum
import Verif.Tools.Lattice

/-!
# C147: the lattice of the snapping programs
-/

namespace GsSA.Tools

set_option linter.unusedSectionVars false

variable {K : Type} [Field K] [LinearOrder K] [IsStrictOrderedRing K]

/-- What is asked of the dimensions: positive thicknesses, a length of at least two widths, and a curve that does not
reach the flat sides. -/
structure Dims.Fits (d : Dims K) (f : K → K) : Prop where
  tw : 0 < d.tw
  tg : 0 < d.tg
  tb : 0 < d.tb
  ts : 0 < d.ts
  l : 2 * d.tw ≤ d.l
  low : ∀ ξ, 0 ≤ ξ → ξ ≤ 1 → -(d.a + 5 * d.tg) < f ξ
  high : ∀ ξ, 0 ≤ ξ → ξ ≤ 1 → f ξ < d.a + 5 * d.tg + d.tb

variable {d : Dims K} {f : K → K}

theorem Dims.Fits.pos (h : d.Fits f) : 0 < d.l := by linarith [h.tw, h.l]

theorem Dims.Fits.width (h : d.Fits f) : 0 < d.tw / 2 / d.l ∧ d.tw / 2 / d.l ≤ 1 / 4 := by
  have := h.pos
  refine ⟨div_pos (by linarith [h.tw]) this, ?_⟩
  rw [div_le_iff₀ this]
  linarith [h.l]

theorem cuts_mono (h : d.Fits f) : Monotone (cuts d) := by
  have := h.width
  refine monotone_nat_of_le_succ fun n => ?_
  rcases n with _ | _ | _ | _ | _ | n <;> simp only [cuts] <;> linarith

theorem cuts_nonneg (h : d.Fits f) (n : ℕ) : 0 ≤ cuts d n := (cuts_mono h (Nat.zero_le n))

theorem cuts_le_one (h : d.Fits f) (n : ℕ) : cuts d n ≤ 1 := by
  rcases Nat.lt_or_ge n 5 with hn | hn
  · exact cuts_mono h hn.le
  · obtain ⟨m, rfl⟩ := Nat.exists_eq_add_of_le' hn
    exact le_rfl

/-- The two patches have no interior point in common. -/
def Apart (d : Dims K) (f : K → K) (p q : Strip K) : Prop :=
  ∀ ξ η ξ' η', cuts d p.col < ξ → ξ < cuts d (p.col + 1) → 0 < η → η < 1 →
    cuts d q.col < ξ' → ξ' < cuts d (q.col + 1) → 0 < η' → η' < 1 → p.point d f ξ η ≠ q.point d f ξ' η'

theorem apart_x (h : d.Fits f) {p q : Strip K} (hx : d.l * cuts d (p.col + 1) + p.dx ≤ d.l * cuts d q.col + q.dx) :
    Apart d f p q := by
  intro ξ η ξ' η' _ h2 _ _ h5 _ _ _ e
  have e1 := congrArg Prod.fst e
  simp only [Strip.point] at e1
  have := h.pos
  have a1 := mul_lt_mul_of_pos_left h2 this
  have a2 := mul_lt_mul_of_pos_left h5 this
  linarith

theorem Apart.symm {p q : Strip K} (h : Apart d f p q) : Apart d f q p :=
  fun ξ η ξ' η' a b c e g i j k hh => h ξ' η' ξ η g i j k a b c e hh.symm

theorem apart_col (h : d.Fits f) {p q : Strip K} (hx : p.dx = q.dx) (hc : p.col ≠ q.col) : Apart d f p q := by
  rcases Nat.lt_or_ge p.col q.col with hl | hl
  · refine apart_x h ?_
    have := mul_le_mul_of_nonneg_left (cuts_mono h (Nat.succ_le_of_lt hl)) h.pos.le
    rw [hx]
    linarith
  · refine (apart_x h ?_).symm
    have := mul_le_mul_of_nonneg_left (cuts_mono h (Nat.succ_le_of_lt (lt_of_le_of_ne hl (Ne.symm hc)))) h.pos.le
    rw [hx]
    linarith

theorem apart_y (h : d.Fits f) {p q : Strip K} (hx : p.dx = q.dx) (g : K → K)
    (hp : ∀ ξ η, 0 ≤ ξ → ξ ≤ 1 → 0 < η → η < 1 → (p.point d f ξ η).2 < g ξ)
    (hq : ∀ ξ η, 0 ≤ ξ → ξ ≤ 1 → 0 < η → η < 1 → g ξ < (q.point d f ξ η).2) : Apart d f p q := by
  intro ξ η ξ' η' h1 h2 h3 h4 h5 h6 h7 h8 e
  have e1 := congrArg Prod.fst e
  have e2 := congrArg Prod.snd e
  simp only [Strip.point] at e1
  have hl := h.pos
  have hxi : ξ = ξ' := by
    rw [hx] at e1
    exact mul_left_cancel₀ hl.ne' (add_right_cancel e1)
  subst hxi
  have x0 : 0 ≤ ξ := (cuts_nonneg h _).trans h1.le
  have x1 : ξ ≤ 1 := h2.le.trans (cuts_le_one h _)
  have a := hp ξ η x0 x1 h3 h4
  have b := hq ξ η' x0 x1 h7 h8
  rw [e2] at a
  exact absurd (a.trans b) (lt_irrefl _)

/-! ### The strips by piece and level -/

/-- The heights of an element, without the curve. -/
def level (d : Dims K) : ℕ → K
  | 0 => d.tg / 2 - d.a - d.tg
  | 1 => d.tg / 2 - d.a
  | 2 => d.tg / 2 - d.a + d.ts
  | 3 => d.tg / 2 - d.a + d.ts + d.tg
  | _ => d.tg / 2 - d.a + d.ts + d.tg + d.tb

def elementStrip (d : Dims K) (c : ℕ × ℕ) : Strip K := ⟨c.1, .curve (level d c.2), .curve (level d (c.2 + 1)), 0, 0⟩

def topStrip (d : Dims K) (c : ℕ × ℕ) : Strip K :=
  ⟨c.1, .curve (level d c.2), if c.2 = 3 then .flat (d.tg / 2 + d.ts + d.tg + d.tb + 5 * d.tg)
    else .curve (level d (c.2 + 1)), 0, 0⟩

def bottomStrip (d : Dims K) (c : ℕ) : Strip K :=
  ⟨c, .curve (-d.tg / 2 - d.a), .flat (-d.tg / 2 - 2 * d.a - 5 * d.tg), 0, 0⟩

def places : List (ℕ × ℕ) :=
  [(2, 0), (0, 1), (1, 1), (2, 1), (3, 1), (4, 1), (0, 2), (4, 2), (0, 3), (1, 3), (2, 3), (3, 3), (4, 3)]

theorem makeElement_eq (d : Dims K) : makeElement d = places.map (elementStrip d) := rfl

theorem makeTop_eq (d : Dims K) : makeTop d = places.map (topStrip d) := rfl

theorem makeBottom_eq (d : Dims K) : makeBottom d = (List.range 5).map (bottomStrip d) := rfl

theorem level_lt (h : d.Fits f) {k : ℕ} (hk : k < 4) : level d k < level d (k + 1) := by
  have h1 := h.tg
  have h2 := h.ts
  have h3 := h.tb
  obtain rfl | rfl | rfl | rfl : k = 0 ∨ k = 1 ∨ k = 2 ∨ k = 3 := by omega
  all_goals simp only [level]; linarith

theorem level_mono (h : d.Fits f) : Monotone (level d) := by
  refine monotone_nat_of_le_succ fun n => ?_
  rcases Nat.lt_or_ge n 4 with hn | hn
  · exact (level_lt h hn).le
  · obtain ⟨m, rfl⟩ := Nat.exists_eq_add_of_le' hn
    exact le_rfl

theorem level_top (d : Dims K) : level d 4 = level d 0 + rowHeight d := by
  simp only [level, rowHeight]
  ring

theorem places_le {c : ℕ × ℕ} (hc : c ∈ places) : c.1 ≤ 4 ∧ c.2 ≤ 3 := by
  have : ∀ c ∈ places, c.1 ≤ 4 ∧ c.2 ≤ 3 := by decide
  exact this c hc

theorem between {s n η g : K} (h0 : 0 < η) (h1 : η < 1) (hs : s ≤ g) (hn : n ≤ g) (hne : s < g ∨ n < g) :
    (1 - η) * s + η * n < g := by
  have e : g - ((1 - η) * s + η * n) = (1 - η) * (g - s) + η * (g - n) := by ring
  have h1' : 0 < 1 - η := by linarith
  have : 0 < (1 - η) * (g - s) + η * (g - n) := by
    rcases hne with h | h
    · exact add_pos_of_pos_of_nonneg (mul_pos h1' (by linarith)) (mul_nonneg h0.le (by linarith))
    · exact add_pos_of_nonneg_of_pos (mul_nonneg h1'.le (by linarith)) (mul_pos h0 (by linarith))
  linarith

theorem between' {s n η g : K} (h0 : 0 < η) (h1 : η < 1) (hs : g ≤ s) (hn : g ≤ n) (hne : g < s ∨ g < n) :
    g < (1 - η) * s + η * n := by
  have := between (g := -g) (s := -s) (n := -n) h0 h1 (by linarith) (by linarith)
    (hne.imp (fun h => by linarith) (fun h => by linarith))
  linarith

/-- A strip of an element lies between the two levels. -/
theorem element_band (h : d.Fits f) {c : ℕ × ℕ} (hc : c ∈ places) (x y : K) {ξ η : K} (h0 : 0 < η) (h1 : η < 1) :
    f ξ + level d c.2 + y < (((elementStrip d c).shift x y).point d f ξ η).2 ∧
    (((elementStrip d c).shift x y).point d f ξ η).2 < f ξ + level d (c.2 + 1) + y := by
  have lt := level_lt h (Nat.lt_succ_of_le (places_le hc).2)
  simp only [Strip.point, Strip.shift, elementStrip, Edge.at, zero_add]
  have a := between (s := f ξ + level d c.2) (n := f ξ + level d (c.2 + 1)) h0 h1 (by linarith) le_rfl
    (Or.inl (by linarith : f ξ + level d c.2 < f ξ + level d (c.2 + 1)))
  have b := between' (g := f ξ + level d c.2) (s := f ξ + level d c.2) (n := f ξ + level d (c.2 + 1)) h0 h1 le_rfl
    (by linarith) (Or.inr (by linarith))
  constructor <;> linarith

theorem top_band (h : d.Fits f) {c : ℕ × ℕ} (hc : c ∈ places) (x y : K) {ξ η : K} (x0 : 0 ≤ ξ) (x1 : ξ ≤ 1) (h0 : 0 < η)
    (h1 : η < 1) : f ξ + level d c.2 + y < (((topStrip d c).shift x y).point d f ξ η).2 ∧
    (c.2 < 3 → (((topStrip d c).shift x y).point d f ξ η).2 < f ξ + level d (c.2 + 1) + y) := by
  by_cases h3 : c.2 = 3
  · refine ⟨?_, fun hl => absurd h3 hl.ne⟩
    have hi := h.high ξ x0 x1
    have ts := h.ts
    simp only [Strip.point, Strip.shift, topStrip, Edge.at, h3, if_true, zero_add, level]
    have b := between' (g := f ξ + (d.tg / 2 - d.a + d.ts + d.tg)) (s := f ξ + (d.tg / 2 - d.a + d.ts + d.tg))
      (n := d.tg / 2 + d.ts + d.tg + d.tb + 5 * d.tg) h0 h1 le_rfl (by linarith) (Or.inr (by linarith))
    linarith
  · have e : topStrip d c = elementStrip d c := by simp only [topStrip, elementStrip, if_neg h3]
    rw [e]
    have := element_band (ξ := ξ) h hc x y h0 h1
    exact ⟨this.1, fun _ => this.2⟩

theorem bottom_band (h : d.Fits f) (c : ℕ) (x : K) {ξ η : K} (x0 : 0 ≤ ξ) (x1 : ξ ≤ 1) (h0 : 0 < η) (h1 : η < 1) :
    (((bottomStrip d c).shift x 0).point d f ξ η).2 < f ξ + level d 0 := by
  have lo := h.low ξ x0 x1
  simp only [Strip.point, Strip.shift, bottomStrip, Edge.at, zero_add, level]
  have := between (g := f ξ + (d.tg / 2 - d.a - d.tg)) (s := f ξ + (-d.tg / 2 - d.a))
    (n := -d.tg / 2 - 2 * d.a - 5 * d.tg) h0 h1 (by linarith) (by linarith) (Or.inr (by linarith))
  linarith

theorem places_order : places.Pairwise (fun a b => a.1 ≠ b.1 ∨ a.2 < b.2) := by decide

/-- One column, `kx` fixed. -/
def latticeColumn (d : Dims K) (Ny : ℕ) (x : K) : List (Strip K) :=
  (makeBottom d).map (Strip.shift x 0) ++
    (List.range Ny).flatMap (fun ky : ℕ => (makeElement d).map (Strip.shift x (ky * rowHeight d))) ++
    (makeTop d).map (Strip.shift x (Ny * rowHeight d))

theorem lattice_eq (d : Dims K) (Nx Ny n : ℕ) :
    (lattice d Nx Ny n).1 = (List.range n).flatMap (fun kx : ℕ => latticeColumn d Ny (kx * d.l)) := by
  induction n with
  | zero => rfl
  | succ n ih =>
    rw [List.range_succ, List.flatMap_append, ← ih]
    simp only [lattice, latticeColumn, List.flatMap_cons, List.flatMap_nil, List.append_nil, List.append_assoc]

theorem mem_column {Ny : ℕ} {x : K} {p : Strip K} : p ∈ latticeColumn d Ny x ↔
    (∃ c < 5, p = (bottomStrip d c).shift x 0) ∨
    (∃ ky < Ny, ∃ c ∈ places, p = (elementStrip d c).shift x (ky * rowHeight d)) ∨
    ∃ c ∈ places, p = (topStrip d c).shift x (Ny * rowHeight d) := by
  simp only [latticeColumn, makeElement_eq, makeTop_eq, makeBottom_eq, List.mem_append, List.mem_map, List.mem_flatMap,
    List.mem_range, exists_exists_and_eq_and, or_assoc]
  constructor
  · rintro (⟨c, hc, rfl⟩ | ⟨k, hk, c, hc, rfl⟩ | ⟨c, hc, rfl⟩)
    · exact Or.inl ⟨c, hc, rfl⟩
    · exact Or.inr (Or.inl ⟨k, hk, c, hc, rfl⟩)
    · exact Or.inr (Or.inr ⟨c, hc, rfl⟩)
  · rintro (⟨c, hc, rfl⟩ | ⟨k, hk, c, hc, rfl⟩ | ⟨c, hc, rfl⟩)
    · exact Or.inl ⟨c, hc, rfl⟩
    · exact Or.inr (Or.inl ⟨k, hk, c, hc, rfl⟩)
    · exact Or.inr (Or.inr ⟨c, hc, rfl⟩)

theorem mem_column_place {Ny : ℕ} {x : K} {p : Strip K} (h : p ∈ latticeColumn d Ny x) : p.col ≤ 4 ∧ p.dx = x := by
  rcases mem_column.1 h with ⟨c, hc, rfl⟩ | ⟨k, hk, c, hc, rfl⟩ | ⟨c, hc, rfl⟩
  · exact ⟨Nat.le_of_lt_succ hc, zero_add _⟩
  · exact ⟨(places_le hc).1, zero_add _⟩
  · exact ⟨(places_le hc).1, zero_add _⟩

theorem column_apart (h : d.Fits f) (Ny : ℕ) (x : K) : (latticeColumn d Ny x).Pairwise (Apart d f) := by
  have hH : 0 ≤ rowHeight d := by
    have := h.tg
    have := h.ts
    have := h.tb
    unfold rowHeight
    linarith
  have bot : ∀ c y, ∀ ξ η, 0 ≤ ξ → ξ ≤ 1 → 0 < η → η < 1 → 0 ≤ y →
      (((bottomStrip d c).shift x 0).point d f ξ η).2 < f ξ + level d 0 + y := by
    intro c y ξ η x0 x1 h0 h1 hy
    linarith [bottom_band h c x x0 x1 h0 h1]
  unfold latticeColumn
  rw [List.pairwise_append, List.pairwise_append]
  refine ⟨⟨?_, ?_, ?_⟩, ?_, ?_⟩
  · rw [makeBottom_eq, List.map_map, List.pairwise_map]
    refine List.pairwise_lt_range.imp fun {a b} hab => ?_
    refine apart_col h (p := (bottomStrip d a).shift x 0) (q := (bottomStrip d b).shift x 0) rfl ?_
    exact hab.ne
  · rw [List.pairwise_flatMap]
    refine ⟨fun ky _ => ?_, ?_⟩
    · rw [makeElement_eq, List.map_map, List.pairwise_map]
      refine places_order.imp_of_mem fun {a b} ha hb hab => ?_
      rcases hab with hab | hab
      · exact apart_col h rfl hab
      · refine apart_y h rfl (fun ξ => f ξ + level d (a.2 + 1) + ky * rowHeight d) (fun ξ η _ _ h0 h1 => ?_)
          (fun ξ η _ _ h0 h1 => ?_)
        · exact (element_band h ha _ _ h0 h1).2
        · have := (element_band (ξ := ξ) h hb x (ky * rowHeight d) h0 h1).1
          have := level_mono h (Nat.succ_le_of_lt hab)
          simp only [Function.comp_apply]
          simp only [Nat.succ_eq_add_one] at this
          linarith
    · refine List.pairwise_lt_range.imp fun {i j} hij => ?_
      intro p hp q hq
      rw [makeElement_eq, List.map_map, List.mem_map] at hp hq
      obtain ⟨a, ha, rfl⟩ := hp
      obtain ⟨b, hb, rfl⟩ := hq
      refine apart_y h rfl (fun ξ => f ξ + level d 0 + j * rowHeight d) (fun ξ η _ _ h0 h1 => ?_)
        (fun ξ η _ _ h0 h1 => ?_)
      · have e1 := (element_band (ξ := ξ) h ha x (i * rowHeight d) h0 h1).2
        have e2 := level_mono h (Nat.succ_le_succ (places_le ha).2)
        have e3 : ((i : K) + 1) * rowHeight d ≤ j * rowHeight d :=
          mul_le_mul_of_nonneg_right (by exact_mod_cast hij) hH
        have e4 := level_top d
        simp only [Function.comp_apply]
        simp only [Nat.succ_eq_add_one, Nat.reduceAdd] at e2
        linarith
      · have e1 := (element_band (ξ := ξ) h hb x (j * rowHeight d) h0 h1).1
        have e2 := level_mono h (Nat.zero_le b.2)
        simp only [Function.comp_apply]
        linarith
  · intro p hp q hq
    rw [makeBottom_eq, List.map_map, List.mem_map] at hp
    obtain ⟨c, -, rfl⟩ := hp
    rw [List.mem_flatMap] at hq
    obtain ⟨ky, -, hq⟩ := hq
    rw [makeElement_eq, List.map_map, List.mem_map] at hq
    obtain ⟨b, hb, rfl⟩ := hq
    have hy : 0 ≤ (ky : K) * rowHeight d := mul_nonneg (by positivity) hH
    refine apart_y h rfl (fun ξ => f ξ + level d 0 + ky * rowHeight d) (fun ξ η a0 a1 h0 h1 => bot c _ ξ η a0 a1 h0 h1 hy)
      (fun ξ η _ _ h0 h1 => ?_)
    have e1 := (element_band (ξ := ξ) h hb x (ky * rowHeight d) h0 h1).1
    have e2 := level_mono h (Nat.zero_le b.2)
    simp only [Function.comp_apply]
    linarith
  · rw [makeTop_eq, List.map_map, List.pairwise_map]
    refine places_order.imp_of_mem fun {a b} ha hb hab => ?_
    rcases hab with hab | hab
    · exact apart_col h rfl hab
    · refine apart_y h rfl (fun ξ => f ξ + level d (a.2 + 1) + Ny * rowHeight d) (fun ξ η a0 a1 h0 h1 => ?_)
        (fun ξ η a0 a1 h0 h1 => ?_)
      · exact (top_band h ha _ _ a0 a1 h0 h1).2 (lt_of_lt_of_le hab (places_le hb).2)
      · have := (top_band (ξ := ξ) h hb x (Ny * rowHeight d) a0 a1 h0 h1).1
        have := level_mono h (Nat.succ_le_of_lt hab)
        simp only [Function.comp_apply]
        simp only [Nat.succ_eq_add_one] at this
        linarith
  · intro p hp q hq
    rw [makeTop_eq, List.map_map, List.mem_map] at hq
    obtain ⟨b, hb, rfl⟩ := hq
    have hq : ∀ ξ η, 0 ≤ ξ → ξ ≤ 1 → 0 < η → η < 1 → f ξ + level d 0 + Ny * rowHeight d <
        (((topStrip d b).shift x (Ny * rowHeight d)).point d f ξ η).2 := by
      intro ξ η a0 a1 h0 h1
      have e1 := (top_band (ξ := ξ) h hb x (Ny * rowHeight d) a0 a1 h0 h1).1
      have e2 := level_mono h (Nat.zero_le b.2)
      linarith
    rcases List.mem_append.1 hp with hp | hp
    · rw [makeBottom_eq, List.map_map, List.mem_map] at hp
      obtain ⟨c, -, rfl⟩ := hp
      have hy : 0 ≤ (Ny : K) * rowHeight d := mul_nonneg (by positivity) hH
      exact apart_y h rfl _ (fun ξ η a0 a1 h0 h1 => bot c _ ξ η a0 a1 h0 h1 hy) hq
    · rw [List.mem_flatMap] at hp
      obtain ⟨ky, hk, hp⟩ := hp
      rw [makeElement_eq, List.map_map, List.mem_map] at hp
      obtain ⟨a, ha, rfl⟩ := hp
      refine apart_y h rfl _ (fun ξ η _ _ h0 h1 => ?_) hq
      have e1 := (element_band (ξ := ξ) h ha x (ky * rowHeight d) h0 h1).2
      have e2 := level_mono h (Nat.succ_le_succ (places_le ha).2)
      have e3 : ((ky : K) + 1) * rowHeight d ≤ Ny * rowHeight d :=
        mul_le_mul_of_nonneg_right (by exact_mod_cast List.mem_range.1 hk) hH
      have e4 := level_top d
      simp only [Function.comp_apply]
      simp only [Nat.succ_eq_add_one, Nat.reduceAdd] at e2
      linarith

/-- **C147**: no two patches of the lattice overlap. -/
theorem C147_apart (h : d.Fits f) (Nx Ny : ℕ) : (latticePatches d Nx Ny).Pairwise (Apart d f) := by
  rw [latticePatches, lattice_eq, List.pairwise_flatMap]
  refine ⟨fun kx _ => column_apart h Ny _, List.pairwise_lt_range.imp fun {i j} hij => ?_⟩
  intro p hp q hq
  obtain ⟨hp1, hp2⟩ := mem_column_place hp
  obtain ⟨hq1, hq2⟩ := mem_column_place hq
  refine apart_x h ?_
  have hl := h.pos
  have a1 := mul_le_mul_of_nonneg_left (cuts_le_one h (p.col + 1)) hl.le
  have a2 := mul_nonneg hl.le (cuts_nonneg h q.col)
  have a3 : ((i : K) + 1) * d.l ≤ j * d.l := mul_le_mul_of_nonneg_right (by exact_mod_cast hij) hl.le
  rw [hp2, hq2]
  linarith

/-- **C147**: the number of patches. -/
theorem C147_number (d : Dims K) (Nx Ny : ℕ) : (latticePatches d Nx Ny).length = Nx * (13 * Ny + 18) := by
  have hc : ∀ x : K, (latticeColumn d Ny x).length = 13 * Ny + 18 := by
    intro x
    simp only [latticeColumn, makeElement_eq, makeTop_eq, makeBottom_eq, List.length_append, List.length_map,
      List.length_flatMap, List.map_const', List.length_range, List.sum_replicate, places, List.length_cons, List.length_nil,
      nsmul_eq_mul, Nat.cast_id]
    omega
  simp only [latticePatches, lattice_eq, List.length_flatMap, hc, List.map_const', List.length_range, List.sum_replicate,
    nsmul_eq_mul, Nat.cast_id]

/-! ### Connection -/

/-- The two patches have a whole side in common. -/
def SharesSide (d : Dims K) (f : K → K) (p q : Strip K) : Prop :=
  ∃ s t : Side, ∀ τ, 0 ≤ τ → τ ≤ 1 → p.side d f s τ = q.side d f t τ

theorem SharesSide.symm {p q : Strip K} (h : SharesSide d f p q) : SharesSide d f q p := by
  obtain ⟨s, t, h⟩ := h
  exact ⟨t, s, fun τ h0 h1 => (h τ h0 h1).symm⟩

/-- From one patch to another through common sides of patches in the list. -/
def Linked (d : Dims K) (f : K → K) (S : List (Strip K)) : Strip K → Strip K → Prop :=
  Relation.ReflTransGen fun p q => p ∈ S ∧ q ∈ S ∧ SharesSide d f p q

theorem Linked.add {S : List (Strip K)} {p q r : Strip K} (h : Linked d f S p q) (hq : q ∈ S) (hr : r ∈ S)
    (hj : SharesSide d f q r) : Linked d f S p r := h.tail ⟨hq, hr, hj⟩

theorem join_up {c k : ℕ} (x y : K) : SharesSide d f ((elementStrip d (c, k)).shift x y) ((elementStrip d (c, k + 1)).shift x y) := by
  refine ⟨.north, .south, fun τ _ _ => ?_⟩
  simp only [Strip.side, Strip.point, Strip.shift, elementStrip, Edge.at]
  refine Prod.ext rfl ?_
  simp only
  ring

theorem join_top {c k : ℕ} (hk : k ≠ 3) (x y : K) :
    SharesSide d f ((topStrip d (c, k)).shift x y) ((topStrip d (c, k + 1)).shift x y) := by
  refine ⟨.north, .south, fun τ _ _ => ?_⟩
  simp only [Strip.side, Strip.point, Strip.shift, topStrip, Edge.at, if_neg hk]
  refine Prod.ext rfl ?_
  simp only
  ring

theorem join_east {p q : Strip K} (hc : q.col = p.col + 1) (hs : p.south = q.south) (hn : p.north = q.north)
    (hx : p.dx = q.dx) (hy : p.dy = q.dy) : SharesSide d f p q := by
  refine ⟨.east, .west, fun τ _ _ => ?_⟩
  simp only [Strip.side, Strip.point, hc, hs, hn, hx, hy]

theorem join_stack (x : K) (ky : ℕ) : SharesSide d f ((elementStrip d (2, 3)).shift x (ky * rowHeight d))
    ((elementStrip d (2, 0)).shift x ((ky + 1 : ℕ) * rowHeight d)) := by
  refine ⟨.north, .south, fun τ _ _ => ?_⟩
  simp only [Strip.side, Strip.point, Strip.shift, elementStrip, Edge.at, level, rowHeight]
  refine Prod.ext rfl ?_
  simp only
  push_cast
  ring

theorem join_bottom (x : K) : SharesSide d f ((bottomStrip d 2).shift x 0) ((elementStrip d (2, 0)).shift x ((0 : ℕ) * rowHeight d)) := by
  refine ⟨.south, .south, fun τ _ _ => ?_⟩
  simp only [Strip.side, Strip.point, Strip.shift, elementStrip, bottomStrip, Edge.at, level]
  refine Prod.ext rfl ?_
  simp only
  push_cast
  ring

theorem join_next (hper : f 0 = f 1) (kx : ℕ) :
    SharesSide d f ((bottomStrip d 4).shift (kx * d.l) 0) ((bottomStrip d 0).shift ((kx + 1 : ℕ) * d.l) 0) := by
  refine ⟨.east, .west, fun τ _ _ => ?_⟩
  simp only [Strip.side, Strip.point, Strip.shift, bottomStrip, Edge.at, cuts, hper]
  refine Prod.ext ?_ rfl
  simp only
  push_cast
  ring

theorem block_linked {S : List (Strip K)} {b : Strip K} {g : ℕ × ℕ → Strip K} (hS : ∀ c ∈ places, g c ∈ S)
    (up : ∀ c k, k ≠ 3 → SharesSide d f (g (c, k)) (g (c, k + 1))) (east : ∀ c k, SharesSide d f (g (c, k)) (g (c + 1, k)))
    (h : Linked d f S b (g (2, 0))) : ∀ c ∈ places, Linked d f S b (g c) := by
  have m : ∀ c ∈ places, g c ∈ S := hS
  have m20 := m (2, 0) (by decide)
  have m01 := m (0, 1) (by decide)
  have m11 := m (1, 1) (by decide)
  have m21 := m (2, 1) (by decide)
  have m31 := m (3, 1) (by decide)
  have m41 := m (4, 1) (by decide)
  have m02 := m (0, 2) (by decide)
  have m42 := m (4, 2) (by decide)
  have m03 := m (0, 3) (by decide)
  have m13 := m (1, 3) (by decide)
  have m23 := m (2, 3) (by decide)
  have m33 := m (3, 3) (by decide)
  have m43 := m (4, 3) (by decide)
  have l21 := h.add m20 m21 (up 2 0 (by decide))
  have l11 := l21.add m21 m11 (east 1 1).symm
  have l01 := l11.add m11 m01 (east 0 1).symm
  have l31 := l21.add m21 m31 (east 2 1)
  have l41 := l31.add m31 m41 (east 3 1)
  have l02 := l01.add m01 m02 (up 0 1 (by decide))
  have l42 := l41.add m41 m42 (up 4 1 (by decide))
  have l03 := l02.add m02 m03 (up 0 2 (by decide))
  have l13 := l03.add m03 m13 (east 0 3)
  have l23 := l13.add m13 m23 (east 1 3)
  have l33 := l23.add m23 m33 (east 2 3)
  have l43 := l33.add m33 m43 (east 3 3)
  intro c hc
  simp only [places, List.mem_cons, List.not_mem_nil, or_false] at hc
  rcases hc with rfl | rfl | rfl | rfl | rfl | rfl | rfl | rfl | rfl | rfl | rfl | rfl | rfl <;> assumption

theorem column_linked {S : List (Strip K)} {b : Strip K} {Ny : ℕ} {x : K} (hS : ∀ p ∈ latticeColumn d Ny x, p ∈ S)
    (h : Linked d f S b ((bottomStrip d 0).shift x 0)) : ∀ p ∈ latticeColumn d Ny x, Linked d f S b p := by
  have mb : ∀ c < 5, (bottomStrip d c).shift x 0 ∈ S := fun c hc => hS _ (mem_column.2 (Or.inl ⟨c, hc, rfl⟩))
  have lb : ∀ c < 5, Linked d f S b ((bottomStrip d c).shift x 0) := by
    intro c
    induction c with
    | zero => exact fun _ => h
    | succ c ih =>
      intro hc
      exact (ih (by omega)).add (mb c (by omega)) (mb (c + 1) hc) (join_east rfl rfl rfl rfl rfl)
  have me : ∀ ky < Ny, ∀ c ∈ places, (elementStrip d c).shift x (ky * rowHeight d) ∈ S :=
    fun ky hk c hc => hS _ (mem_column.2 (Or.inr (Or.inl ⟨ky, hk, c, hc, rfl⟩)))
  have mt : ∀ c ∈ places, (topStrip d c).shift x (Ny * rowHeight d) ∈ S :=
    fun c hc => hS _ (mem_column.2 (Or.inr (Or.inr ⟨c, hc, rfl⟩)))
  have first : ∀ ky, ky ≤ Ny → (elementStrip d (2, 0)).shift x (ky * rowHeight d) ∈ S := by
    intro ky hk
    rcases Nat.lt_or_ge ky Ny with hl | hl
    · exact me ky hl _ (by decide)
    · have : ky = Ny := le_antisymm hk hl
      subst this
      exact mt (2, 0) (by decide)
  have le : ∀ ky, ky ≤ Ny → Linked d f S b ((elementStrip d (2, 0)).shift x (ky * rowHeight d)) ∧
      ∀ j < ky, ∀ c ∈ places, Linked d f S b ((elementStrip d c).shift x (j * rowHeight d)) := by
    intro ky
    induction ky with
    | zero => exact fun h0 => ⟨(lb 2 (by norm_num)).add (mb 2 (by norm_num)) (first 0 h0) (join_bottom x), by
        intro j hj
        exact absurd hj (Nat.not_lt_zero j)⟩
    | succ ky ih =>
      intro hk
      obtain ⟨ih1, ih2⟩ := ih (by omega)
      have blk := block_linked (g := fun c => (elementStrip d c).shift x (ky * rowHeight d)) (me ky (by omega))
        (fun c k _ => join_up x _) (fun c k => join_east rfl rfl rfl rfl rfl) ih1
      refine ⟨(blk (2, 3) (by decide)).add (me ky (by omega) _ (by decide)) (first (ky + 1) hk) (join_stack x ky), ?_⟩
      intro j hj
      rcases Nat.lt_succ_iff_lt_or_eq.1 hj with hj | rfl
      · exact ih2 j hj
      · exact blk
  obtain ⟨le1, le2⟩ := le Ny le_rfl
  have lt := block_linked (g := fun c => (topStrip d c).shift x (Ny * rowHeight d)) mt
    (fun c k hk => join_top hk x _) (fun c k => join_east rfl rfl rfl rfl rfl) le1
  intro p hp
  rcases mem_column.1 hp with ⟨c, hc, rfl⟩ | ⟨k, hk, c, hc, rfl⟩ | ⟨c, hc, rfl⟩
  · exact lb c hc
  · exact le2 k hk c hc
  · exact lt c hc

/-- **C147**: if the curve ends at the height at which it starts, the lattice is connected: from the first patch every
other one is reached through whole sides that two patches have in common. -/
theorem C147_connected (hper : f 0 = f 1) (Nx Ny : ℕ) :
    ∀ p ∈ latticePatches d Nx Ny, Linked d f (latticePatches d Nx Ny) ((bottomStrip d 0).shift 0 0) p := by
  have hS : ∀ kx < Nx, ∀ p ∈ latticeColumn d Ny (kx * d.l), p ∈ latticePatches d Nx Ny := by
    intro kx hk p hp
    rw [latticePatches, lattice_eq, List.mem_flatMap]
    exact ⟨kx, List.mem_range.2 hk, hp⟩
  have key : ∀ kx < Nx, ∀ p ∈ latticeColumn d Ny (kx * d.l),
      Linked d f (latticePatches d Nx Ny) ((bottomStrip d 0).shift 0 0) p := by
    intro kx
    induction kx with
    | zero =>
      intro h0
      refine column_linked (hS 0 h0) ?_
      rw [show ((0 : ℕ) : K) * d.l = 0 by push_cast; ring]
      exact Relation.ReflTransGen.refl
    | succ kx ih =>
      intro hk
      refine column_linked (hS _ hk) ?_
      have m4 : (bottomStrip d 4).shift (kx * d.l) 0 ∈ latticeColumn d Ny (kx * d.l) :=
        mem_column.2 (Or.inl ⟨4, by norm_num, rfl⟩)
      have m0 : (bottomStrip d 0).shift ((kx + 1 : ℕ) * d.l) 0 ∈ latticeColumn d Ny ((kx + 1 : ℕ) * d.l) :=
        mem_column.2 (Or.inl ⟨0, by norm_num, rfl⟩)
      exact (ih (by omega) _ m4).add (hS kx (by omega) _ m4) (hS _ hk _ m0) (join_next hper kx)
  intro p hp
  rw [latticePatches, lattice_eq, List.mem_flatMap] at hp
  obtain ⟨kx, hk, hp⟩ := hp
  exact key kx (List.mem_range.1 hk) p hp

/-! ### The point of the output -/

theorem lattice_mid (d : Dims K) (Nx Ny n : ℕ) (hn : Nx / 2 < n) :
    ∃ id, (lattice d Nx Ny n).2 = some id ∧ (lattice d Nx Ny n).1[id]? =
      some ((topStrip d (if Nx % 2 = 0 then 0 else 2, 3)).shift ((Nx / 2 : ℕ) * d.l) (Ny * rowHeight d)) := by
  induction n with
  | zero => exact absurd hn (Nat.not_lt_zero _)
  | succ n ih =>
    by_cases he : n = Nx / 2
    · simp only [lattice, if_pos he]
      refine ⟨_, rfl, ?_⟩
      rw [List.getElem?_append_right (Nat.le_add_right _ _), Nat.add_sub_cancel_left, makeTop_eq, he]
      split
      · rfl
      · rfl
    · obtain ⟨id, h1, h2⟩ := ih (by omega)
      simp only [lattice, if_neg he]
      refine ⟨id, h1, ?_⟩
      have hlt : id < (lattice d Nx Ny n).1.length := (List.getElem?_eq_some_iff.1 h2).1
      rw [List.append_assoc, List.append_assoc, List.getElem?_append_left hlt, h2]

/-- **C147**: the patch and the parameter of the output (and of the load of the shell) give the middle of the upper side
of the lattice, for even and odd numbers of columns. -/
theorem C147_middle (d : Dims K) (f : K → K) {Nx : ℕ} (Ny : ℕ) (hN : 0 < Nx) :
    ∃ id p, latticeMid d Nx Ny = some id ∧ (latticePatches d Nx Ny)[id]? = some p ∧
      p.point d f (outputParam d Nx p) 1 = (Nx * d.l / 2, latticeMax d Ny) := by
  obtain ⟨id, h1, h2⟩ := lattice_mid d Nx Ny Nx (by omega)
  refine ⟨id, _, h1, h2, ?_⟩
  simp only [Strip.point, Strip.shift, topStrip, Edge.at, if_true, outputParam, latticeMax]
  refine Prod.ext ?_ ?_
  · rcases Nat.mod_two_eq_zero_or_one Nx with hm | hm
    · have e : (Nx : K) = 2 * (Nx / 2 : ℕ) := by exact_mod_cast (by omega : Nx = 2 * (Nx / 2))
      simp only [hm, if_true, cuts]
      rw [e]
      ring
    · have e : (Nx : K) = 2 * (Nx / 2 : ℕ) + 1 := by exact_mod_cast (by omega : Nx = 2 * (Nx / 2) + 1)
      simp only [hm, if_neg one_ne_zero, cuts]
      rw [e]
      ring
  · simp only
    ring

/-! ### Boundary conditions -/

theorem strip_heights (h : d.Fits f) {Nx Ny : ℕ} {p : Strip K} (hp : p ∈ latticePatches d Nx Ny) :
    (∀ ξ η, 0 ≤ ξ → ξ ≤ 1 → 0 ≤ η → η ≤ 1 →
      (p.point d f ξ η).2 = latticeMin d + (1 - η) * (f ξ + d.a + 5 * d.tg) ∧
      d.a + 5 * d.tg + d.tb - f ξ ≤ latticeMax d Ny - (p.point d f ξ η).2) ∨
    (∀ ξ η, 0 ≤ ξ → ξ ≤ 1 → 0 ≤ η → η ≤ 1 →
      (p.point d f ξ η).2 = latticeMax d Ny - (1 - η) * (d.a + 5 * d.tg + d.tb - f ξ) ∧
      f ξ + d.a + 5 * d.tg ≤ (p.point d f ξ η).2 - latticeMin d) ∨
    (∀ ξ η, 0 ≤ ξ → ξ ≤ 1 → 0 ≤ η → η ≤ 1 →
      d.a + 5 * d.tg + d.tb - f ξ ≤ latticeMax d Ny - (p.point d f ξ η).2 ∧
      f ξ + d.a + 5 * d.tg ≤ (p.point d f ξ η).2 - latticeMin d) := by
  have tg := h.tg
  have ts := h.ts
  have tb := h.tb
  have hH : 0 ≤ rowHeight d := by
    unfold rowHeight
    linarith
  have hN : 0 ≤ (Ny : K) * rowHeight d := mul_nonneg (by positivity) hH
  have el : ∀ c ∈ places, ∀ (y : K) ξ η, 0 ≤ η → η ≤ 1 → f ξ + level d c.2 + y ≤
      (1 - η) * (f ξ + level d c.2) + η * (f ξ + level d (c.2 + 1)) + y ∧
      (1 - η) * (f ξ + level d c.2) + η * (f ξ + level d (c.2 + 1)) + y ≤ f ξ + level d (c.2 + 1) + y := by
    intro c hc y ξ η h0 h1
    have := level_lt h (Nat.lt_succ_of_le (places_le hc).2)
    have a := mul_nonneg h0 (sub_nonneg.2 this.le)
    have b := mul_nonneg (sub_nonneg.2 h1) (sub_nonneg.2 this.le)
    constructor
    · linarith
    · linarith
  rw [latticePatches, lattice_eq, List.mem_flatMap] at hp
  obtain ⟨kx, -, hp⟩ := hp
  rcases mem_column.1 hp with ⟨c, hc, rfl⟩ | ⟨k, hk, c, hc, rfl⟩ | ⟨c, hc, rfl⟩
  · refine Or.inl fun ξ η x0 x1 h0 h1 => ?_
    have lo := h.low ξ x0 x1
    simp only [Strip.point, Strip.shift, bottomStrip, Edge.at, latticeMin, latticeMax]
    have := mul_nonneg h0 (show 0 ≤ f ξ + d.a + 5 * d.tg by linarith)
    constructor
    · ring
    · linarith
  · refine Or.inr (Or.inr fun ξ η x0 x1 h0 h1 => ?_)
    obtain ⟨e1, e2⟩ := el c hc (k * rowHeight d) ξ η h0 h1
    have l0 := level_mono h (Nat.zero_le c.2)
    have l1 := level_mono h (Nat.succ_le_succ (places_le hc).2)
    simp only [Nat.succ_eq_add_one, Nat.reduceAdd] at l1
    have e3 : ((k : K) + 1) * rowHeight d ≤ Ny * rowHeight d :=
      mul_le_mul_of_nonneg_right (by exact_mod_cast hk) hH
    have e4 : 0 ≤ (k : K) * rowHeight d := mul_nonneg (by positivity) hH
    simp only [Strip.point, Strip.shift, elementStrip, Edge.at, latticeMin, latticeMax, zero_add]
    have v0 : level d 0 = d.tg / 2 - d.a - d.tg := rfl
    have v4 : level d 4 = d.tg / 2 - d.a + d.ts + d.tg + d.tb := by simp only [level]
    rw [add_mul, one_mul] at e3
    have eH : rowHeight d = 2 * d.tg + d.ts + d.tb := rfl
    constructor
    · linarith
    · linarith
  · by_cases h3 : c.2 = 3
    · refine Or.inr (Or.inl fun ξ η x0 x1 h0 h1 => ?_)
      have hi := h.high ξ x0 x1
      simp only [Strip.point, Strip.shift, topStrip, Edge.at, h3, if_true, latticeMin, latticeMax, level]
      have := mul_nonneg h0 (show 0 ≤ d.a + 5 * d.tg + d.tb - f ξ by linarith)
      constructor
      · ring
      · linarith
    · refine Or.inr (Or.inr fun ξ η x0 x1 h0 h1 => ?_)
      obtain ⟨e1, e2⟩ := el c hc (Ny * rowHeight d) ξ η h0 h1
      have l0 := level_mono h (Nat.zero_le c.2)
      have l1 := level_mono h (show c.2 + 1 ≤ 3 by have := (places_le hc).2; omega)
      simp only [Strip.point, Strip.shift, topStrip, Edge.at, latticeMin, latticeMax, zero_add, if_neg h3]
      have v0 : level d 0 = d.tg / 2 - d.a - d.tg := rfl
      have v3 : level d 3 = d.tg / 2 - d.a + d.ts + d.tg := by simp only [level]
      constructor
      · linarith
      · linarith

/-- **C147**: as long as the band is narrow, the sides that are fixed are those at the lower end of the lattice, and
the loaded ones are those at the upper end. -/
theorem C147_supports (h : d.Fits f) {Nx Ny : ℕ} (hlow : ∀ ξ, 0 ≤ ξ → ξ ≤ 1 →
      1 / 50 * (latticeMax d Ny - latticeMin d) < f ξ + d.a + 5 * d.tg)
    (hhigh : ∀ ξ, 0 ≤ ξ → ξ ≤ 1 → 1 / 50 * (latticeMax d Ny - latticeMin d) < d.a + 5 * d.tg + d.tb - f ξ)
    {p : Strip K} (hp : p ∈ latticePatches d Nx Ny) (s : Side) :
    (support (latticeMin d) (latticeMax d Ny) (p.side d f s (1 / 2)).2 = .fixed ↔
      ∀ τ, 0 ≤ τ → τ ≤ 1 → (p.side d f s τ).2 = latticeMin d) ∧
    (support (latticeMin d) (latticeMax d Ny) (p.side d f s (1 / 2)).2 = .loaded ↔
      ∀ τ, 0 ≤ τ → τ ≤ 1 → (p.side d f s τ).2 = latticeMax d Ny) := by
  have tg := h.tg
  have ts := h.ts
  have tb := h.tb
  have hD : 0 < latticeMax d Ny - latticeMin d := by
    have hN : 0 ≤ (Ny : K) * rowHeight d := mul_nonneg (by positivity) (by unfold rowHeight; linarith)
    have a1 := h.low 0 le_rfl zero_le_one
    have a2 := h.high 0 le_rfl zero_le_one
    simp only [latticeMax, latticeMin]
    linarith
  -- a side is given by its parameters
  obtain ⟨X, Y, hX, hY, hs⟩ : ∃ X Y : K → K, (∀ τ, 0 ≤ τ → τ ≤ 1 → 0 ≤ X τ ∧ X τ ≤ 1) ∧
      ((∀ τ, Y τ = τ) ∨ (∀ τ, Y τ = 0) ∨ ∀ τ, Y τ = 1) ∧ ∀ τ, p.side d f s τ = p.point d f (X τ) (Y τ) := by
    have c0 := cuts_nonneg h
    have c1 := cuts_le_one h
    have cm := cuts_mono h (Nat.le_succ p.col)
    have mid : ∀ τ, 0 ≤ τ → τ ≤ 1 → 0 ≤ cuts d p.col + τ * (cuts d (p.col + 1) - cuts d p.col) ∧
        cuts d p.col + τ * (cuts d (p.col + 1) - cuts d p.col) ≤ 1 := by
      intro τ h0 h1
      have a := mul_nonneg h0 (sub_nonneg.2 cm)
      have b := mul_nonneg (sub_nonneg.2 h1) (sub_nonneg.2 cm)
      simp only [Nat.succ_eq_add_one] at a b
      have := c0 p.col
      have := c1 (p.col + 1)
      constructor <;> linarith
    cases s with
    | west => exact ⟨fun _ => cuts d p.col, id, fun _ _ _ => ⟨c0 _, c1 _⟩, Or.inl fun _ => rfl, fun _ => rfl⟩
    | east => exact ⟨fun _ => cuts d (p.col + 1), id, fun _ _ _ => ⟨c0 _, c1 _⟩, Or.inl fun _ => rfl, fun _ => rfl⟩
    | south => exact ⟨_, fun _ => 0, mid, Or.inr (Or.inl fun _ => rfl), fun _ => rfl⟩
    | north => exact ⟨_, fun _ => 1, mid, Or.inr (Or.inr fun _ => rfl), fun _ => rfl⟩
  have hY' : ∀ τ, 0 ≤ τ → τ ≤ 1 → 0 ≤ Y τ ∧ Y τ ≤ 1 := by
    intro τ h0 h1
    rcases hY with hy | hy | hy <;> rw [hy] <;> constructor <;> first | assumption | norm_num
  have half0 : (0 : K) ≤ 1 / 2 := by norm_num
  have half1 : (1 / 2 : K) ≤ 1 := by norm_num
  have sup : ∀ y, (support (latticeMin d) (latticeMax d Ny) y = .fixed ↔
        |y - latticeMin d| ≤ 1 / 100 * (latticeMax d Ny - latticeMin d)) ∧
      (support (latticeMin d) (latticeMax d Ny) y = .loaded ↔
        ¬ |y - latticeMin d| ≤ 1 / 100 * (latticeMax d Ny - latticeMin d) ∧
        |y - latticeMax d Ny| ≤ 1 / 100 * (latticeMax d Ny - latticeMin d)) := by
    intro y
    have e : ∀ m b : K, (y ≤ m + b ∧ y ≥ m - b) ↔ |y - m| ≤ b := by
      intro m b
      rw [abs_le]
      constructor
      · rintro ⟨a, b⟩; constructor <;> linarith
      · rintro ⟨a, b⟩; constructor <;> linarith
    simp only [support, e]
    split_ifs with a b
    · exact ⟨⟨fun _ => a, fun _ => rfl⟩, ⟨nofun, fun hh => absurd a hh.1⟩⟩
    · exact ⟨⟨nofun, fun hh => absurd hh a⟩, ⟨fun _ => ⟨a, b⟩, fun _ => rfl⟩⟩
    · exact ⟨⟨nofun, fun hh => absurd hh a⟩, ⟨nofun, fun hh => absurd hh.2 b⟩⟩
  simp only [hs]
  obtain ⟨xh0, xh1⟩ := hX (1 / 2) half0 half1
  obtain ⟨yh0, yh1⟩ := hY' (1 / 2) half0 half1
  have lo := hlow _ xh0 xh1
  have hi := hhigh _ xh0 xh1
  rw [(sup _).1, (sup _).2]
  rcases strip_heights h hp with hh | hh | hh
  · obtain ⟨e1, e2⟩ := hh _ _ xh0 xh1 yh0 yh1
    have notmax : ¬ |(p.point d f (X (1 / 2)) (Y (1 / 2))).2 - latticeMax d Ny| ≤
        1 / 100 * (latticeMax d Ny - latticeMin d) := by
      intro hb
      have := (abs_le.1 hb).1
      linarith
    have ne : ¬ ∀ τ, 0 ≤ τ → τ ≤ 1 → (p.point d f (X τ) (Y τ)).2 = latticeMax d Ny := by
      intro ha
      rw [ha _ half0 half1, sub_self, abs_zero] at notmax
      exact notmax (by linarith)
    refine ⟨⟨fun hb τ h0 h1 => ?_, fun ha => ?_⟩, ⟨fun hb => absurd hb.2 notmax, fun ha => absurd ha ne⟩⟩
    · have hb2 := (abs_le.1 hb).2
      rw [(hh _ _ (hX τ h0 h1).1 (hX τ h0 h1).2 (hY' τ h0 h1).1 (hY' τ h0 h1).2).1]
      rcases hY with hy | hy | hy
      · rw [e1, hy] at hb2
        linarith
      · rw [e1, hy] at hb2
        linarith
      · rw [hy]
        ring
    · rw [ha _ half0 half1, sub_self, abs_zero]
      linarith
  · obtain ⟨e1, e2⟩ := hh _ _ xh0 xh1 yh0 yh1
    have notmin : ¬ |(p.point d f (X (1 / 2)) (Y (1 / 2))).2 - latticeMin d| ≤
        1 / 100 * (latticeMax d Ny - latticeMin d) := by
      intro hb
      have := (abs_le.1 hb).2
      linarith
    have ne : ¬ ∀ τ, 0 ≤ τ → τ ≤ 1 → (p.point d f (X τ) (Y τ)).2 = latticeMin d := by
      intro ha
      rw [ha _ half0 half1, sub_self, abs_zero] at notmin
      exact notmin (by linarith)
    refine ⟨⟨fun hb => absurd hb notmin, fun ha => absurd ha ne⟩, ⟨fun hb τ h0 h1 => ?_, fun ha => ⟨notmin, ?_⟩⟩⟩
    · have hb2 := (abs_le.1 hb.2).1
      rw [(hh _ _ (hX τ h0 h1).1 (hX τ h0 h1).2 (hY' τ h0 h1).1 (hY' τ h0 h1).2).1]
      rcases hY with hy | hy | hy
      · rw [e1, hy] at hb2
        linarith
      · rw [e1, hy] at hb2
        linarith
      · rw [hy]
        ring
    · rw [ha _ half0 half1, sub_self, abs_zero]
      linarith
  · obtain ⟨e1, e2⟩ := hh _ _ xh0 xh1 yh0 yh1
    have notmax : ¬ |(p.point d f (X (1 / 2)) (Y (1 / 2))).2 - latticeMax d Ny| ≤
        1 / 100 * (latticeMax d Ny - latticeMin d) := by
      intro hb
      have := (abs_le.1 hb).1
      linarith
    have notmin : ¬ |(p.point d f (X (1 / 2)) (Y (1 / 2))).2 - latticeMin d| ≤
        1 / 100 * (latticeMax d Ny - latticeMin d) := by
      intro hb
      have := (abs_le.1 hb).2
      linarith
    have ne : ¬ ∀ τ, 0 ≤ τ → τ ≤ 1 → (p.point d f (X τ) (Y τ)).2 = latticeMax d Ny := by
      intro ha
      rw [ha _ half0 half1, sub_self, abs_zero] at notmax
      exact notmax (by linarith)
    have ne' : ¬ ∀ τ, 0 ≤ τ → τ ≤ 1 → (p.point d f (X τ) (Y τ)).2 = latticeMin d := by
      intro ha
      rw [ha _ half0 half1, sub_self, abs_zero] at notmin
      exact notmin (by linarith)
    exact ⟨⟨fun hb => absurd hb notmin, fun ha => absurd ha ne'⟩, ⟨fun hb => absurd hb.2 notmax, fun ha => absurd ha ne⟩⟩

/-- **C147**, violated: in a lattice with many rows the band reaches the middle of the left side of the first patch, which
is then fixed as well, although it is not at the lower end. -/
theorem C147_violated_supports (h : d.Fits f) {Nx Ny : ℕ} (hN : 0 < Nx)
    (hb : f 0 + d.a + 5 * d.tg ≤ 1 / 50 * (latticeMax d Ny - latticeMin d)) :
    ∃ p, (latticePatches d Nx Ny)[0]? = some p ∧
      support (latticeMin d) (latticeMax d Ny) (p.side d f .west (1 / 2)).2 = .fixed ∧
      (p.side d f .west 0).2 ≠ latticeMin d := by
  refine ⟨(bottomStrip d 0).shift ((0 : ℕ) * d.l) 0, ?_, ?_, ?_⟩
  · obtain ⟨n, rfl⟩ : ∃ n, Nx = n + 1 := ⟨Nx - 1, by omega⟩
    rw [latticePatches, lattice_eq, List.range_succ_eq_map, List.flatMap_cons]
    rfl
  · have lo := h.low 0 le_rfl zero_le_one
    have e : (((bottomStrip d 0).shift ((0 : ℕ) * d.l) 0).side d f .west (1 / 2)).2 =
        latticeMin d + (f 0 + d.a + 5 * d.tg) / 2 := by
      simp only [Strip.side, Strip.point, Strip.shift, bottomStrip, Edge.at, cuts, latticeMin]
      ring
    rw [e, support]
    rw [if_pos]
    constructor <;> linarith
  · have lo := h.low 0 le_rfl zero_le_one
    have e : (((bottomStrip d 0).shift ((0 : ℕ) * d.l) 0).side d f .west 0).2 =
        latticeMin d + (f 0 + d.a + 5 * d.tg) := by
      simp only [Strip.side, Strip.point, Strip.shift, bottomStrip, Edge.at, cuts, latticeMin]
      ring
    rw [e]
    intro he
    linarith

/-- **C147**, violated: in the program for a single element the sides with the load, `north` of the patches 13 and 14, are
the upper sides of the patches 8 and 12 inside the structure; the free sides `south` are the upper end. -/
theorem C147_violated_element (d : Dims K) (f : K → K) :
    ∃ p8 p12 p13 p14, (singleElement d)[8]? = some p8 ∧ (singleElement d)[12]? = some p12 ∧
      (singleElement d)[13]? = some p13 ∧ (singleElement d)[14]? = some p14 ∧ (singleElement d).length = 15 ∧
      ∀ τ, p13.side d f .north τ = p8.side d f .north τ ∧ p14.side d f .north τ = p12.side d f .north τ ∧
        (p13.side d f .south τ).2 = 2 * d.tg + d.ts + d.tb ∧ (p14.side d f .south τ).2 = 2 * d.tg + d.ts + d.tb := by
  refine ⟨_, _, _, _, rfl, rfl, rfl, rfl, rfl, fun τ => ?_⟩
  simp only [Strip.side, Strip.point, Edge.at]
  refine ⟨Prod.ext rfl ?_, Prod.ext rfl ?_, ?_, ?_⟩ <;> ring

/-! ### The single element -/

def singleStrip (d : Dims K) (c : ℕ × ℕ) : Strip K :=
  ⟨c.1, if c.2 = 0 then .flat 0 else if c.2 = 4 then .flat (d.tg / 2 + d.ts + d.tg + d.tb + d.tg / 2)
    else .curve (level d c.2), if c.2 = 4 then .curve (level d 4) else .curve (level d (c.2 + 1)), 0, 0⟩

def singlePlaces : List (ℕ × ℕ) :=
  [(0, 0), (4, 0), (0, 1), (1, 1), (2, 1), (3, 1), (4, 1), (2, 2), (0, 3), (1, 3), (2, 3), (3, 3), (4, 3), (0, 4), (4, 4)]

theorem singleElement_eq (d : Dims K) : singleElement d = singlePlaces.map (singleStrip d) := rfl

theorem single_band (h : d.Fits f) (hf : ∀ c, c = 0 ∨ c = 4 → ∀ ξ, cuts d c < ξ → ξ < cuts d (c + 1) →
      d.a - d.tg / 2 < f ξ ∧ f ξ < d.a + d.tg / 2) {c : ℕ × ℕ} (hc : c ∈ singlePlaces) {ξ η : K}
    (x0 : cuts d c.1 < ξ) (x1 : ξ < cuts d (c.1 + 1)) (h0 : 0 < η) (h1 : η < 1) :
    (1 ≤ c.2 → f ξ + level d c.2 < ((singleStrip d c).point d f ξ η).2) ∧
      (c.2 ≤ 3 → ((singleStrip d c).point d f ξ η).2 < f ξ + level d (c.2 + 1)) := by
  have h1' := sub_pos.2 h1
  have v1 : level d 1 = d.tg / 2 - d.a := rfl
  have v4 : level d 4 = d.tg / 2 - d.a + d.ts + d.tg + d.tb := by simp only [level]
  have mid : c.2 ≠ 0 → c.2 ≠ 4 → (1 ≤ c.2 → f ξ + level d c.2 < ((singleStrip d c).point d f ξ η).2) ∧
      (c.2 ≤ 3 → ((singleStrip d c).point d f ξ η).2 < f ξ + level d (c.2 + 1)) := by
    intro n0 n4
    have hle : c.2 ≤ 4 := (by decide : ∀ c ∈ singlePlaces, c.2 ≤ 4) c hc
    have := level_lt h (show c.2 < 4 by omega)
    have a := mul_pos h0 (sub_pos.2 this)
    have b := mul_pos h1' (sub_pos.2 this)
    simp only [Strip.point, singleStrip, if_neg n0, if_neg n4, Edge.at]
    exact ⟨fun _ => by linarith, fun _ => by linarith⟩
  have ends : c.2 = 0 ∨ c.2 = 4 → c.1 = 0 ∨ c.1 = 4 :=
    (by decide : ∀ c ∈ singlePlaces, c.2 = 0 ∨ c.2 = 4 → c.1 = 0 ∨ c.1 = 4) c hc
  by_cases n0 : c.2 = 0
  · have fb := hf _ (ends (Or.inl n0)) ξ x0 x1
    refine ⟨fun hh => absurd hh (by omega), fun _ => ?_⟩
    simp only [Strip.point, singleStrip, n0, if_true, Edge.at, zero_add, v1]
    have := mul_pos h1' (show 0 < f ξ + (d.tg / 2 - d.a) by linarith [fb.1])
    rw [if_neg (by decide)]
    linarith
  · by_cases n4 : c.2 = 4
    · have fb := hf _ (ends (Or.inr n4)) ξ x0 x1
      refine ⟨fun _ => ?_, fun hh => absurd hh (by omega)⟩
      simp only [Strip.point, singleStrip, n4, if_true, Edge.at, v4]
      have := mul_pos h1' (show 0 < d.a + d.tg / 2 - f ξ by linarith [fb.2])
      rw [if_neg (by decide)]
      linarith
    · exact mid n0 n4

/-- **C147**: the 15 patches of the program for one element have no interior point in common, if the curve stays
between the ends of the blocks over the outer pieces. -/
theorem C147_element (h : d.Fits f) (hf : ∀ c, c = 0 ∨ c = 4 → ∀ ξ, cuts d c < ξ → ξ < cuts d (c + 1) →
      d.a - d.tg / 2 < f ξ ∧ f ξ < d.a + d.tg / 2) : (singleElement d).Pairwise (Apart d f) := by
  rw [singleElement_eq, List.pairwise_map]
  have key : ∀ c ∈ singlePlaces, ∀ c' ∈ singlePlaces, c.1 = c'.1 → c.2 < c'.2 →
      Apart d f (singleStrip d c) (singleStrip d c') := by
    intro c hc c' hc' e1 e2 ξ η ξ' η' x0 x1 y0 y1 x0' x1' y0' y1' e
    have ex := congrArg Prod.fst e
    have ey := congrArg Prod.snd e
    have hxi : ξ = ξ' := by
      simp only [Strip.point, singleStrip] at ex
      exact mul_left_cancel₀ h.pos.ne' (add_right_cancel ex)
    subst hxi
    have hle : c'.2 ≤ 4 := (by decide : ∀ c ∈ singlePlaces, c.2 ≤ 4) c' hc'
    have a := (single_band h hf hc x0 x1 y0 y1).2 (by omega)
    have b := (single_band h hf hc' x0' x1' y0' y1').1 (by omega)
    have := level_mono h (show c.2 + 1 ≤ c'.2 from e2)
    linarith
  have nd : singlePlaces.Pairwise (· ≠ ·) := by decide
  refine nd.imp_of_mem fun {c c'} hc hc' hne => ?_
  by_cases e : c.1 = c'.1
  · rcases Nat.lt_trichotomy c.2 c'.2 with hl | hl | hl
    · exact key c hc c' hc' e hl
    · exact absurd (Prod.ext e hl) hne
    · exact (key c' hc' c hc e.symm hl).symm
  · exact apart_col h (p := singleStrip d c) (q := singleStrip d c') rfl e

/-! ### An instance: the dimensions of the program and a parabola instead of the cosine -/

def exampleDims : Dims ℚ := ⟨3 / 2000, 1 / 1000, 3 / 2000, 1 / 1000, 1 / 100, 1 / 2000⟩

def exampleCurve (ξ : ℚ) : ℚ := -1 / 2000 + ξ * (1 - ξ) / 250

theorem exampleCurve_bounds {ξ : ℚ} (h0 : 0 ≤ ξ) (h1 : ξ ≤ 1) : -1 / 2000 ≤ exampleCurve ξ ∧ exampleCurve ξ ≤ 1 / 2000 := by
  have a := mul_nonneg h0 (sub_nonneg.2 h1)
  have b := sq_nonneg (2 * ξ - 1)
  unfold exampleCurve
  constructor
  · linarith
  · linarith [show (2 * ξ - 1) ^ 2 = 1 - 4 * (ξ * (1 - ξ)) by ring]

theorem example_fits : exampleDims.Fits exampleCurve := by
  refine ⟨by norm_num [exampleDims], by norm_num [exampleDims], by norm_num [exampleDims], by norm_num [exampleDims],
    by norm_num [exampleDims], fun ξ h0 h1 => ?_, fun ξ h0 h1 => ?_⟩
  · have := (exampleCurve_bounds h0 h1).1
    simp only [exampleDims]
    linarith
  · have := (exampleCurve_bounds h0 h1).2
    simp only [exampleDims]
    linarith

example : (latticePatches exampleDims 3 2).Pairwise (Apart exampleDims exampleCurve) := C147_apart example_fits 3 2

example : exampleCurve 0 = exampleCurve 1 ∧ (latticePatches exampleDims 3 2).length = 132 ∧
    latticeMid exampleDims 3 2 = some 85 ∧ latticeMid exampleDims 2 0 = some 31 := by decide +kernel

example : ∀ ξ, 0 ≤ ξ → ξ ≤ 1 → 1 / 50 * (latticeMax exampleDims 2 - latticeMin exampleDims) <
    exampleCurve ξ + exampleDims.a + 5 * exampleDims.tg := by
  intro ξ h0 h1
  have := (exampleCurve_bounds h0 h1).1
  norm_num [latticeMax, latticeMin, rowHeight, exampleDims]
  linarith

example : ∀ ξ, 0 ≤ ξ → ξ ≤ 1 → 1 / 50 * (latticeMax exampleDims 2 - latticeMin exampleDims) <
    exampleDims.a + 5 * exampleDims.tg + exampleDims.tb - exampleCurve ξ := by
  intro ξ h0 h1
  have := (exampleCurve_bounds h0 h1).2
  norm_num [latticeMax, latticeMin, rowHeight, exampleDims]
  linarith

/-- With the dimensions of the program 53 rows are enough. -/
example : exampleCurve 0 + exampleDims.a + 5 * exampleDims.tg ≤
    1 / 50 * (latticeMax exampleDims 53 - latticeMin exampleDims) := by decide +kernel

/-- The curve of the programs for one element is the other way round. -/
example : ∀ c, c = 0 ∨ c = 4 → ∀ ξ, cuts exampleDims c < ξ → ξ < cuts exampleDims (c + 1) →
    exampleDims.a - exampleDims.tg / 2 < -exampleCurve ξ ∧ -exampleCurve ξ < exampleDims.a + exampleDims.tg / 2 := by
  have key : ∀ ξ : ℚ, (0 ≤ ξ ∧ ξ ≤ 3 / 40 ∨ 37 / 40 ≤ ξ ∧ ξ ≤ 1) →
      exampleDims.a - exampleDims.tg / 2 < -exampleCurve ξ ∧ -exampleCurve ξ < exampleDims.a + exampleDims.tg / 2 := by
    intro ξ hξ
    simp only [exampleDims, exampleCurve]
    rcases hξ with ⟨a, b⟩ | ⟨a, b⟩
    · have := mul_self_nonneg ξ
      have := mul_nonneg a (show 0 ≤ 1 - ξ by linarith)
      constructor <;> linarith
    · have := mul_self_nonneg (1 - ξ)
      have := mul_nonneg (show 0 ≤ ξ by linarith) (sub_nonneg.2 b)
      constructor <;> linarith
  rintro c (rfl | rfl) ξ h0 h1
  · norm_num [cuts, exampleDims] at h0 h1
    exact key ξ (Or.inl ⟨h0.le, h1.le⟩)
  · norm_num [cuts, exampleDims] at h0 h1
    exact key ξ (Or.inr ⟨h0.le, h1.le⟩)

end GsSA.Tools
