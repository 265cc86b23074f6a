import Verif.Stepping.Target

/-!
# Property C121: stepping loops with target values
-/

namespace GsSA.Stepping

set_option linter.unusedSectionVars false

variable {K V : Type} [Field K] [LinearOrder K] [IsStrictOrderedRing K] [FloorSemiring K]

/-! ## `benchmark_cylinder_DC.cpp` -/

section cylinder

variable {close : K → K → Bool} {dL0 : K}

/-- Two successive rows. -/
def CylRow (dL0 : K) (a b : Row K V) : Prop :=
  a.D < b.D ∧ b.D ≤ a.D + dL0 ∧ (b.ok = false → b.D ≤ a.D + dL0 / 8)

/-- The invariant: `b` is the last row (or the start). -/
structure CylInv (close : K → K → Bool) (dL0 : K) (z b : Row K V) (all : List K) (s : CylSt K V) : Prop where
  last : (z :: s.out).getLast? = some b
  D : s.D = b.D + s.dL
  pos : 0 < s.dL
  le : s.dL ≤ dL0
  front : s.D ≤ s.front
  sorted : (s.front :: s.rest).Pairwise (· < ·)
  size : s.dL = min dL0 (s.front - b.D) ∨ dL0 / 16 < s.dL
  chain : List.IsChain (CylRow dL0) (z :: s.out)
  hit : ∀ c ∈ all, c ∈ s.front :: s.rest ∨ ∃ r ∈ s.out, close r.D c = true
  sub : ∀ c ∈ s.front :: s.rest, c ∈ all

/-- Halvings left. -/
def cylHalvings (dL0 dL : K) : ℕ :=
  (if dL0 / 8 < dL then 1 else 0) + (if dL0 / 4 < dL then 1 else 0) + (if dL0 / 2 < dL then 1 else 0)

/-- A bound for the number of solves to come, with `T` the last target and `b` the parameter of the last
row. -/
def cylBound (dL0 T b : K) (s : CylSt K V) : ℕ :=
  4 * (s.rest.length + ⌊(T - b) / (dL0 / 16)⌋₊) + cylHalvings dL0 s.dL + 1

theorem cylHalvings_le (dL0 dL : K) : cylHalvings dL0 dL ≤ 3 := by
  unfold cylHalvings
  split_ifs <;> omega

theorem cylHalvings_half {dL : K} (h1 : dL ≤ dL0) (h2 : dL0 / 8 < dL) :
    cylHalvings dL0 (dL / 2) + 1 = cylHalvings dL0 dL := by
  unfold cylHalvings
  have e1 : dL0 / 8 < dL / 2 ↔ dL0 / 4 < dL := by constructor <;> intro h <;> linarith
  have e2 : dL0 / 4 < dL / 2 ↔ dL0 / 2 < dL := by constructor <;> intro h <;> linarith
  have e3 : ¬dL0 / 2 < dL / 2 := by linarith
  rw [if_congr e1 rfl rfl, if_congr e2 rfl rfl, if_neg e3, if_pos h2]
  omega

theorem floor_drop {x y h : K} (hh : 0 < h) (hxy : y + h ≤ x) (hy : 0 ≤ y) : ⌊y / h⌋₊ + 1 ≤ ⌊x / h⌋₊ := by
  rw [Nat.le_floor_iff (div_nonneg (by linarith) hh.le)]
  have h1 : ((⌊y / h⌋₊ : ℕ) : K) ≤ y / h := Nat.floor_le (div_nonneg hy hh.le)
  have h2 : y / h + 1 ≤ x / h := by
    rw [le_div_iff₀ hh, add_mul, div_mul_cancel₀ _ hh.ne']
    linarith
  push_cast
  linarith

theorem floor_mono {x y h : K} (hh : 0 < h) (hxy : y ≤ x) : ⌊y / h⌋₊ ≤ ⌊x / h⌋₊ :=
  Nat.floor_le_floor (div_le_div_of_nonneg_right hxy hh.le)

theorem chain_snoc {α : Type} {R : α → α → Prop} {l : List α} {b c : α} (h : List.IsChain R l)
    (hl : l.getLast? = some b) (hr : R b c) : List.IsChain R (l ++ [c]) := by
  rw [List.isChain_append]
  refine ⟨h, List.isChain_singleton _, ?_⟩
  intro x hx y hy
  rw [hl] at hx
  simp only [Option.mem_def, Option.some.injEq, List.head?_cons] at hx hy
  subst hx hy
  exact hr

theorem cyl_total (h0 : 0 < dL0) (hc : ∀ x, close x x = true) (solve : ℕ → K → V → Bool × V) (z : Row K V)
    (all : List K) (T : K) : ∀ (fuel n : ℕ) (s : CylSt K V) (b : Row K V), CylInv close dL0 z b all s →
      (s.front :: s.rest).getLast? = some T → cylBound dL0 T b.D s ≤ fuel →
      ∃ out, cylLoop close solve dL0 fuel n s = some out ∧ List.IsChain (CylRow dL0) (z :: out) ∧
        (∀ c ∈ all, ∃ r ∈ out, close r.D c = true) ∧
        ∃ r, out.getLast? = some r ∧ close r.D T = true ∧ r.D ≤ T := by
  intro fuel
  induction fuel with
  | zero =>
    intro n s b _ _ hf
    unfold cylBound at hf
    omega
  | succ fuel ih =>
    intro n s b h hT hf
    rw [cylLoop]
    set ok := (solve n s.D s.U).1
    set U := (solve n s.D s.U).2
    have h16 : 0 < dL0 / 16 := by positivity
    have hfT : s.front ≤ T := by
      cases hr : s.rest with
      | nil =>
        rw [hr] at hT
        simp only [List.getLast?_singleton, Option.some.injEq] at hT
        exact hT.le
      | cons c cs =>
        have hs := h.sorted
        rw [List.pairwise_cons] at hs
        rw [hr, List.getLast?_cons_cons] at hT
        exact (hs.1 T (hr ▸ List.mem_of_getLast? hT)).le
    have hDT : s.D ≤ T := h.front.trans hfT
    have hlen : 0 ≤ T - s.D := by linarith
    unfold cylPass
    by_cases hfail : ok = false ∧ 1 / 8 < s.dL / dL0
    · rw [if_pos hfail]
      have h8 : dL0 / 8 < s.dL := by
        have := hfail.2
        rw [lt_div_iff₀ h0] at this
        linarith
      have hp := h.pos
      have hl := h.le
      have hD := h.D
      have hfr := h.front
      refine ih (n + 1) { s with dL := s.dL / 2, D := s.D - s.dL / 2 } b ?_ hT ?_
      · refine ⟨h.last, ?_, ?_, ?_, ?_, h.sorted, Or.inr ?_, h.chain, h.hit, h.sub⟩
        · change s.D - s.dL / 2 = b.D + s.dL / 2
          linarith
        · change 0 < s.dL / 2
          linarith
        · change s.dL / 2 ≤ dL0
          linarith
        · change s.D - s.dL / 2 ≤ s.front
          linarith
        · change dL0 / 16 < s.dL / 2
          linarith
      · have := cylHalvings_half h.le h8
        unfold cylBound at hf ⊢
        change 4 * (s.rest.length + ⌊(T - b.D) / (dL0 / 16)⌋₊) + cylHalvings dL0 (s.dL / 2) + 1 ≤ fuel
        omega
    · rw [if_neg hfail]
      have hrow : CylRow dL0 b (⟨s.D, U, ok⟩ : Row K V) := by
        refine ⟨?_, ?_, ?_⟩
        · change b.D < s.D
          rw [h.D]
          linarith [h.pos]
        · change s.D ≤ b.D + dL0
          rw [h.D]
          linarith [h.le]
        · intro hok
          change s.D ≤ b.D + dL0 / 8
          have h1 : ¬1 / 8 < s.dL / dL0 := fun h2 => hfail ⟨hok, h2⟩
          rw [not_lt, div_le_iff₀ h0] at h1
          rw [h.D]
          linarith
      have hchain : List.IsChain (CylRow dL0) (z :: (s.out ++ [⟨s.D, U, ok⟩])) := by
        rw [← List.cons_append]
        exact chain_snoc h.chain h.last hrow
      have hlast : (z :: (s.out ++ [(⟨s.D, U, ok⟩ : Row K V)])).getLast? = some ⟨s.D, U, ok⟩ := by
        rw [← List.cons_append, List.getLast?_concat]
      have hDb : s.D = b.D + s.dL := h.D
      have hpos := h.pos
      have hstay : ∀ r ∈ s.out, r ∈ s.out ++ [(⟨s.D, U, ok⟩ : Row K V)] := fun r hr =>
        List.mem_append_left _ hr
      by_cases hcl : close s.D s.front = true
      · simp only [if_pos hcl]
        cases hr : s.rest with
        | nil =>
          refine ⟨_, rfl, hchain, ?_, ⟨s.D, U, ok⟩, List.getLast?_concat, ?_, hDT⟩
          · intro c hcm
            rcases h.hit c hcm with h1 | ⟨r, h1, h2⟩
            · rw [hr, List.mem_singleton] at h1
              exact ⟨⟨s.D, U, ok⟩, by simp, by rw [h1]; exact hcl⟩
            · exact ⟨r, hstay r h1, h2⟩
          · rw [hr] at hT
            simp only [List.getLast?_singleton, Option.some.injEq] at hT
            rw [← hT]
            exact hcl
        | cons c cs =>
          have hs := h.sorted
          rw [hr, List.pairwise_cons] at hs
          have hcD : 0 < c - s.D := by
            have := hs.1 c (by simp)
            have := h.front
            linarith
          rw [hr, List.getLast?_cons_cons] at hT
          refine ih (n + 1) ⟨_, _, U, c, cs, _⟩ ⟨s.D, U, ok⟩ ?_ hT ?_
          · refine ⟨hlast, rfl, lt_min h0 hcD, min_le_left _ _, ?_, hs.2, Or.inl rfl, hchain, ?_, ?_⟩
            · have := min_le_right dL0 (c - s.D)
              change s.D + min dL0 (c - s.D) ≤ c
              linarith
            · intro x hx
              rcases h.hit x hx with h1 | ⟨r, h1, h2⟩
              · rw [hr, List.mem_cons] at h1
                rcases h1 with rfl | h1
                · exact Or.inr ⟨⟨s.D, U, ok⟩, by simp, hcl⟩
                · exact Or.inl h1
              · exact Or.inr ⟨r, hstay r h1, h2⟩
            · intro x hx
              exact h.sub x (by rw [hr]; exact List.mem_cons_of_mem _ hx)
          · have h1 := cylHalvings_le dL0 (min dL0 (c - s.D))
            have h2 : ⌊(T - s.D) / (dL0 / 16)⌋₊ ≤ ⌊(T - b.D) / (dL0 / 16)⌋₊ :=
              floor_mono h16 (by linarith)
            unfold cylBound at hf ⊢
            rw [hr, List.length_cons] at hf
            change 4 * (cs.length + ⌊(T - s.D) / (dL0 / 16)⌋₊) + cylHalvings dL0 (min dL0 (c - s.D)) + 1 ≤ fuel
            omega
      · simp only [if_neg hcl]
        have hlt : s.D < s.front := lt_of_le_of_ne h.front fun h1 => hcl (by rw [← h1]; exact hc _)
        have hcD : 0 < s.front - s.D := by linarith
        refine ih (n + 1) ⟨_, _, U, s.front, s.rest, _⟩ ⟨s.D, U, ok⟩ ?_ hT ?_
        · refine ⟨hlast, rfl, lt_min h0 hcD, min_le_left _ _, ?_, h.sorted, Or.inl rfl, hchain, ?_, h.sub⟩
          · have := min_le_right dL0 (s.front - s.D)
            change s.D + min dL0 (s.front - s.D) ≤ s.front
            linarith
          · intro x hx
            rcases h.hit x hx with h1 | ⟨r, h1, h2⟩
            · exact Or.inl h1
            · exact Or.inr ⟨r, hstay r h1, h2⟩
        · have h1 := cylHalvings_le dL0 (min dL0 (s.front - s.D))
          have h2 : dL0 / 16 < s.dL := by
            rcases h.size with h3 | h3
            · rcases le_total dL0 (s.front - b.D) with h4 | h4
              · rw [min_eq_left h4] at h3
                linarith
              · rw [min_eq_right h4] at h3
                linarith
            · exact h3
          have h3 : ⌊(T - s.D) / (dL0 / 16)⌋₊ + 1 ≤ ⌊(T - b.D) / (dL0 / 16)⌋₊ :=
            floor_drop h16 (by linarith) hlen
          unfold cylBound at hf ⊢
          change 4 * (s.rest.length + ⌊(T - s.D) / (dL0 / 16)⌋₊) +
            cylHalvings dL0 (min dL0 (s.front - s.D)) + 1 ≤ fuel
          omega

/-- C121, `benchmark_cylinder_DC.cpp`: for every positive step and increasing positive checkpoints, and
whatever the solver does, the loop ends after at most `4 (n + 16 T / dL0)` solves for `n` checkpoints with the
last one `T`. The parameters of the rows increase by at most `dL0`, and by at most `dL0 / 8` for a row of a
failed solve. Every checkpoint is met up to the tolerance, and the last row is that of the last one. -/
theorem C121_cylinder [Zero V] (h0 : 0 < dL0) (hc : ∀ x, close x x = true) (front : K) (rest : List K)
    (hp : 0 < front) (hs : (front :: rest).Pairwise (· < ·)) (T : K) (hT : (front :: rest).getLast? = some T)
    (solve : ℕ → K → V → Bool × V) :
    ∃ out, cylLoop close solve dL0 (4 * (rest.length + 1 + ⌊16 * T / dL0⌋₊)) 0 (cylStart dL0 front rest) =
        some out ∧
      List.IsChain (CylRow dL0) (⟨0, 0, true⟩ :: out) ∧
      (∀ c ∈ front :: rest, ∃ r ∈ out, close r.D c = true) ∧
      ∃ r, out.getLast? = some r ∧ close r.D T = true ∧ r.D ≤ T := by
  refine cyl_total h0 hc solve ⟨0, 0, true⟩ (front :: rest) T _ 0 (cylStart dL0 front rest) ⟨0, 0, true⟩ ?_ hT ?_
  · refine ⟨rfl, ?_, lt_min h0 hp, min_le_left _ _, min_le_right _ _, hs, Or.inl ?_, List.isChain_singleton _,
      fun c hc => Or.inl hc, fun c hc => hc⟩
    · change min dL0 front = 0 + min dL0 front
      rw [zero_add]
    · change min dL0 front = min dL0 (front - 0)
      rw [sub_zero]
  · unfold cylBound
    have h1 := cylHalvings_le dL0 (cylStart (V := V) dL0 front rest).dL
    have h2 : (T - (⟨0, 0, true⟩ : Row K V).D) / (dL0 / 16) = 16 * T / dL0 := by
      change (T - 0) / (dL0 / 16) = _
      field_simp
      ring
    rw [h2]
    change 4 * (rest.length + _) + _ + 1 ≤ _
    omega

theorem cyl_rows {P : Row K V → Prop} (solve : ℕ → K → V → Bool × V)
    (hP : ∀ n D U, P ⟨D, (solve n D U).2, (solve n D U).1⟩) : ∀ (fuel n : ℕ) (s : CylSt K V) (out : List (Row K V)),
      (∀ r ∈ s.out, P r) → cylLoop close solve dL0 fuel n s = some out → ∀ r ∈ out, P r := by
  intro fuel
  induction fuel with
  | zero => intro n s out _ h; cases h
  | succ fuel ih =>
    intro n s out hs h
    rw [cylLoop] at h
    have hnew : ∀ r ∈ s.out ++ [⟨s.D, (solve n s.D s.U).2, (solve n s.D s.U).1⟩], P r := by
      intro r hr
      rcases List.mem_append.1 hr with hr | hr
      · exact hs r hr
      · rw [List.mem_singleton] at hr
        rw [hr]
        exact hP _ _ _
    unfold cylPass at h
    split at h
    · rename_i o ho
      cases h
      split_ifs at ho
      · cases hrest : s.rest with
        | nil =>
          rw [hrest] at ho
          cases ho
          exact hnew
        | cons c cs =>
          rw [hrest] at ho
          cases ho
    · rename_i t ht
      split_ifs at ht
      · cases ht
        exact ih (n + 1) { s with dL := s.dL / 2, D := s.D - s.dL / 2 } out hs h
      · cases hrest : s.rest with
        | nil =>
          rw [hrest] at ht
          cases ht
        | cons c cs =>
          rw [hrest] at ht
          cases ht
          exact ih _ _ out hnew h
      · cases ht
        exact ih _ _ out hnew h

/-- C121, violation: with a solver that never succeeds the program ends regularly, with rows for the zero
displacement up to the last checkpoint. -/
theorem C121_violated_cylinder [Zero V] (h0 : 0 < dL0) (hc : ∀ x, close x x = true) (front : K) (rest : List K)
    (hp : 0 < front) (hs : (front :: rest).Pairwise (· < ·)) (T : K) (hT : (front :: rest).getLast? = some T) :
    ∃ fuel out, cylLoop close (fun _ _ U => (false, U)) dL0 fuel 0 (cylStart dL0 front rest) = some out ∧
      (∀ r ∈ out, r.ok = false) ∧ ∃ r : Row K V, out.getLast? = some r ∧ close r.D T = true := by
  obtain ⟨out, h1, -, -, r, h2, h3, -⟩ := C121_cylinder (V := V) h0 hc front rest hp hs T hT
    (fun _ _ U => (false, U))
  exact ⟨_, out, h1, cyl_rows (P := fun r => r.ok = false) _ (fun _ _ _ => rfl) _ _ _ _ (by simp [cylStart]) h1,
    r, h2, h3⟩

end cylinder

/-! ## `benchmark_Pillow.cpp` -/

section pillow

variable {d0 : K}

/-- A lower bound for the step after `n` halvings. -/
def pilMin (d0 : K) (n : ℕ) : K := min d0 (1 / 10 ^ 10) / 2 ^ n

/-- The invariant; `b` is the last load factor written, or `-d0`. -/
structure PilInv (d0 b : K) (s : PilSt K) : Prop where
  last : (-d0 :: s.out).getLast? = some b
  load : s.load = b + s.dload
  le : s.dload ≤ d0
  size : pilMin d0 s.bisected ≤ s.dload
  bis : s.bisected ≤ 21
  chain : List.IsChain (fun x y => x < y ∧ y ≤ x + d0) (-d0 :: s.out)
  b1 : b ≤ 1
  top : 1 < s.load → 1 - 1 / 10 ^ 10 ≤ b
  all : ∀ x ∈ s.out, x ≤ 1

theorem pilMin_pos (h0 : 0 < d0) (n : ℕ) : 0 < pilMin d0 n :=
  div_pos (lt_min h0 (by positivity)) (by positivity)

theorem pilMin_succ (n : ℕ) : pilMin d0 (n + 1) = pilMin d0 n / 2 := by
  unfold pilMin
  rw [pow_succ 2 n, div_div]

theorem pilMin_mono (h0 : 0 < d0) {n : ℕ} (h : n ≤ 21) : pilMin d0 21 ≤ pilMin d0 n := by
  unfold pilMin
  have h1 : 0 ≤ min d0 (1 / 10 ^ 10 : K) := (lt_min h0 (by positivity)).le
  exact div_le_div_of_nonneg_left h1 (by positivity) (pow_le_pow_right₀ (by norm_num) h)

theorem pilMin_le (h0 : 0 < d0) (n : ℕ) : pilMin d0 n ≤ min d0 (1 / 10 ^ 10) := by
  unfold pilMin
  exact div_le_self (lt_min h0 (by positivity)).le (one_le_pow₀ (by norm_num))

theorem pil_last {b : K} {l : List K} (h : (-d0 :: l).getLast? = some b) (hb : -d0 < b) :
    l.getLast? = some b := by
  cases l with
  | nil =>
    simp only [List.getLast?_singleton, Option.some.injEq] at h
    linarith
  | cons c cs => rwa [List.getLast?_cons_cons] at h

theorem pil_total (h0 : 0 < d0) (debug : Bool) (solve : ℕ → K → Bool) : ∀ (fuel n : ℕ) (s : PilSt K) (b : K),
    PilInv d0 b s → (22 - s.bisected) + ⌊(1 - b) / pilMin d0 21⌋₊ ≤ fuel →
      ∃ r out, pilLoop debug solve d0 fuel n s = some (r, out) ∧
        List.IsChain (fun x y => x < y ∧ y ≤ x + d0) (-d0 :: out) ∧ (∀ x ∈ out, x ≤ 1) ∧
        (r = .finished → ∃ l, out.getLast? = some l ∧ 1 - 1 / 10 ^ 10 ≤ l) ∧
        (r = .nearOne → ∃ l, out.getLast? = some l ∧ 1 - 1 / 1000 < l) := by
  intro fuel
  induction fuel with
  | zero =>
    intro n s b h hf
    have := h.bis
    omega
  | succ fuel ih =>
    intro n s b h hf
    have hmin := pilMin_pos h0 s.bisected
    have hsize := h.size
    have hload := h.load
    rw [pilLoop]
    by_cases hle : s.load ≤ 1
    · rw [if_pos hle]
      unfold pilPass
      by_cases hok : solve n s.load = true
      · simp only [hok, if_true]
        have hlast : (-d0 :: (s.out ++ [s.load])).getLast? = some s.load := by
          rw [← List.cons_append, List.getLast?_concat]
        have hchain : List.IsChain (fun x y => x < y ∧ y ≤ x + d0) (-d0 :: (s.out ++ [s.load])) := by
          rw [← List.cons_append]
          exact chain_snoc h.chain h.last ⟨by linarith, by linarith [h.le]⟩
        have hall : ∀ x ∈ s.out ++ [s.load], x ≤ 1 := by
          intro x hx
          rcases List.mem_append.1 hx with hx | hx
          · exact h.all x hx
          · rw [List.mem_singleton] at hx
            rw [hx]
            exact hle
        have hfl : ⌊(1 - s.load) / pilMin d0 21⌋₊ + 1 ≤ ⌊(1 - b) / pilMin d0 21⌋₊ :=
          floor_drop (pilMin_pos h0 21) (by linarith [pilMin_mono h0 h.bis]) (by linarith)
        have hm := pilMin_le h0 s.bisected
        by_cases hc : 1 - s.load < d0 ∧ 1 / 10 ^ 10 < 1 - s.load
        · rw [if_pos hc]
          refine ih (n + 1) _ s.load ⟨hlast, rfl, hc.1.le, ?_, h.bis, hchain, hle, ?_, hall⟩ ?_
          · exact (hm.trans (min_le_right _ _)).trans hc.2.le
          · intro h1
            change 1 < s.load + (1 - s.load) at h1
            linarith
          · change (22 - s.bisected) + _ ≤ fuel
            omega
        · rw [if_neg hc]
          refine ih (n + 1) _ s.load ⟨hlast, rfl, le_rfl, hm.trans (min_le_left _ _), h.bis, hchain, hle, ?_, hall⟩ ?_
          · intro h1
            change 1 < s.load + d0 at h1
            by_contra h2
            exact hc ⟨by linarith, by linarith⟩
          · change (22 - s.bisected) + _ ≤ fuel
            omega
      · have hok' : solve n s.load = false := by simpa using hok
        simp only [hok', Bool.false_eq_true, if_false]
        by_cases hb : 20 < s.bisected
        · rw [if_pos hb]
          exact ⟨_, _, rfl, h.chain, h.all, by simp, by simp⟩
        · rw [if_neg hb]
          by_cases ha : debug = true ∧ s.load = 0
          · rw [if_pos ha]
            exact ⟨_, _, rfl, h.chain, h.all, by simp, by simp⟩
          · rw [if_neg ha]
            by_cases hn : |s.load - s.dload - 1| < 1 / 1000
            · rw [if_pos hn]
              refine ⟨_, _, rfl, h.chain, h.all, by simp, fun _ => ⟨b, ?_, ?_⟩⟩
              · refine pil_last h.last ?_
                rw [abs_lt] at hn
                have : (1 : K) / 1000 ≤ 1 := by norm_num
                linarith [hn.1]
              · rw [abs_lt] at hn
                linarith [hn.1]
            · rw [if_neg hn]
              refine ih (n + 1) _ b ⟨h.last, ?_, ?_, ?_, ?_, h.chain, h.b1, ?_, h.all⟩ ?_
              · change s.load - s.dload + s.dload / 2 = b + s.dload / 2
                linarith
              · change s.dload / 2 ≤ d0
                linarith [h.le]
              · change pilMin d0 (s.bisected + 1) ≤ s.dload / 2
                rw [pilMin_succ]
                linarith
              · change s.bisected + 1 ≤ 21
                omega
              · intro h1
                change 1 < s.load - s.dload + s.dload / 2 at h1
                linarith
              · change (22 - (s.bisected + 1)) + _ ≤ fuel
                omega
    · rw [if_neg hle]
      have ht := h.top (lt_of_not_ge hle)
      refine ⟨_, _, rfl, h.chain, h.all, fun _ => ⟨b, ?_, ht⟩, by simp⟩
      refine pil_last h.last ?_
      have : (1 : K) / 10 ^ 10 ≤ 1 := by norm_num
      linarith

/-- C121, `benchmark_Pillow.cpp`: for every positive step the loop ends, whatever the solver does. The load
factors written increase by at most the step and do not exceed 1. If the loop ends regularly, the last one is 1
up to `1e-10`; if it ends because the load factor is close to 1, up to `1e-3`. -/
theorem C121_pillow (h0 : 0 < d0) (debug : Bool) (solve : ℕ → K → Bool) :
    ∃ r out, pilLoop debug solve d0 (22 + ⌊(1 + d0) / pilMin d0 21⌋₊) 0 (pilStart d0) = some (r, out) ∧
      List.IsChain (fun x y => x < y ∧ y ≤ x + d0) (-d0 :: out) ∧ (∀ x ∈ out, x ≤ 1) ∧
      (r = .finished → ∃ l, out.getLast? = some l ∧ 1 - 1 / 10 ^ 10 ≤ l) ∧
      (r = .nearOne → ∃ l, out.getLast? = some l ∧ 1 - 1 / 1000 < l) := by
  refine pil_total h0 debug solve _ 0 (pilStart d0) (-d0) ⟨rfl, ?_, le_rfl, ?_, by simp [pilStart],
    List.isChain_singleton _, by linarith, ?_, by simp [pilStart]⟩ ?_
  · change (0 : K) = -d0 + d0
    ring
  · exact (pilMin_le h0 _).trans (min_le_left _ _)
  · intro h1
    change (1 : K) < 0 at h1
    linarith
  · change (22 - 0) + ⌊(1 - -d0) / pilMin d0 21⌋₊ ≤ _
    rw [sub_neg_eq_add]

theorem pil_head (debug : Bool) (solve : ℕ → K → Bool) (a : K) : ∀ (fuel n : ℕ) (s : PilSt K),
    s.out.head? = some a → ∀ r out, pilLoop debug solve d0 fuel n s = some (r, out) → out.head? = some a := by
  intro fuel
  induction fuel with
  | zero =>
    intro n s hs r out h
    rw [pilLoop] at h
    split_ifs at h
    cases h
    exact hs
  | succ fuel ih =>
    intro n s hs r out h
    rw [pilLoop] at h
    split_ifs at h
    · split at h
      · cases h
        exact hs
      · rename_i t ht
        refine ih _ t ?_ r out h
        unfold pilPass at ht
        split_ifs at ht <;> cases ht
        all_goals
          first
          | exact hs
          | (cases ho : s.out with
             | nil => rw [ho] at hs; cases hs
             | cons a l => rw [ho] at hs; simpa [ho] using hs)
    · cases h
      exact hs

/-- C121, `benchmark_Pillow.cpp`: if the unloaded state is solved, the load factors written start with 0, so all
of them are between 0 and 1. -/
theorem C121_pillow_first (h0 : 0 < d0) (debug : Bool) (solve : ℕ → K → Bool) (h1 : solve 0 0 = true) :
    ∃ r out, pilLoop debug solve d0 (22 + ⌊(1 + d0) / pilMin d0 21⌋₊) 0 (pilStart d0) = some (r, out) ∧
      out.head? = some 0 ∧ ∀ x ∈ out, 0 ≤ x ∧ x ≤ 1 := by
  obtain ⟨r, out, h, hc, hall, -, -⟩ := C121_pillow h0 debug solve
  have hh : out.head? = some 0 := by
    rw [show 22 + ⌊(1 + d0) / pilMin d0 21⌋₊ = (21 + ⌊(1 + d0) / pilMin d0 21⌋₊) + 1 by omega, pilLoop,
      if_pos (by simp [pilStart])] at h
    have : ∃ t : PilSt K, pilPass debug d0 (solve 0 (pilStart d0).load) (pilStart d0) = .inl t ∧
        t.out.head? = some 0 := by
      simp only [pilStart, h1, pilPass, if_true]
      split_ifs
      · exact ⟨_, rfl, rfl⟩
      · exact ⟨_, rfl, rfl⟩
    obtain ⟨t, ht, ho⟩ := this
    rw [ht] at h
    exact pil_head _ _ _ _ _ t ho r out h
  refine ⟨r, out, h, hh, fun x hx => ⟨?_, hall x hx⟩⟩
  cases out with
  | nil => cases hh
  | cons a l =>
    obtain rfl : a = 0 := by simpa using hh
    have h3 : List.IsChain (· < ·) ((0 : K) :: l) := (hc.tail).imp fun _ _ h => h.1
    have h4 := List.isChain_iff_pairwise.1 h3
    rcases List.mem_cons.1 hx with rfl | hx
    · exact le_rfl
    · exact ((List.pairwise_cons.1 h4).1 x hx).le

/-- C121, violation: if the first solve, at load factor 0, fails and assertions are off, the next load factor is
negative, and it is the first one written if that solve succeeds. -/
theorem C121_violated_pillow (h0 : 0 < d0) (solve : ℕ → K → Bool) (h1 : solve 0 0 = false)
    (h2 : solve 1 (-d0 / 2) = true) :
    ∃ r out, pilLoop false solve d0 (22 + ⌊(1 + d0) / pilMin d0 21⌋₊) 0 (pilStart d0) = some (r, out) ∧
      out.head? = some (-d0 / 2) := by
  obtain ⟨r, out, h, -⟩ := C121_pillow h0 false solve
  refine ⟨r, out, h, ?_⟩
  rw [show 22 + ⌊(1 + d0) / pilMin d0 21⌋₊ = (20 + ⌊(1 + d0) / pilMin d0 21⌋₊) + 1 + 1 by omega, pilLoop,
    if_pos (by simp [pilStart])] at h
  have hn : ¬ |(0 : K) - d0 - 1| < 1 / 1000 := by
    rw [abs_of_nonpos (by linarith)]
    have : (1 : K) / 1000 ≤ 1 := by norm_num
    intro h
    linarith
  have e1 : pilPass false d0 (solve 0 (pilStart d0).load) (pilStart d0) = .inl ⟨-d0 / 2, d0 / 2, 1, []⟩ := by
    simp only [pilStart, h1, pilPass, hn, if_false, Bool.false_eq_true, false_and]
    rw [if_neg (by omega)]
    congr 2
    ring
  rw [e1] at h
  simp only at h
  rw [pilLoop, if_pos (show -d0 / 2 ≤ 1 by linarith)] at h
  have e2 : ∃ t : PilSt K, pilPass false d0 (solve (0 + 1) (-d0 / 2)) ⟨-d0 / 2, d0 / 2, 1, []⟩ = .inl t ∧
      t.out.head? = some (-d0 / 2) := by
    simp only [zero_add, h2, pilPass, if_true]
    split_ifs
    · exact ⟨_, rfl, rfl⟩
    · exact ⟨_, rfl, rfl⟩
  obtain ⟨t, ht, ho⟩ := e2
  rw [ht] at h
  exact pil_head _ _ _ _ _ t ho r out h

end pillow

/-! ## `example_ShearWrinkling.cpp` -/

section shear

variable {dL0 : K}

/-- The invariant before each pass; `c` is the next target and `T` the last one. -/
structure ShearInv (T c : K) (cs : List K) (s : ShearSt K) : Prop where
  targets : s.targets = c :: cs
  sorted : (c :: cs).Pairwise (· < ·)
  last : (c :: cs).getLast? = some T
  D : s.D = s.Dold + s.dL
  old : 0 ≤ s.Dold
  pos : 0 < s.dL
  le : s.D ≤ c
  out : s.out.length = s.k
  all : ∀ x ∈ s.out, x < T

theorem last_le {T c : K} {cs : List K} (hs : (c :: cs).Pairwise (· < ·)) (h : (c :: cs).getLast? = some T) :
    c ≤ T := by
  have hm := List.mem_of_getLast? h
  rcases List.mem_cons.1 hm with rfl | hm
  · exact le_rfl
  · exact ((List.pairwise_cons.1 hs).1 T hm).le

/-- A successful pass: the end of the last target, or a next state that satisfies the invariant. -/
theorem shear_ok (h0 : 0 < dL0) (debug : Bool) {T c : K} {cs : List K} {s : ShearSt K} (h : ShearInv T c cs s) :
    shearPass debug dL0 true s = .inr .ub ∨
      ∃ t f fs, shearPass debug dL0 true s = .inl t ∧ ShearInv T f fs t ∧ t.k = s.k + 1 ∧
        (t.D = s.D + dL0 ∨ t.D = f) ∧ s.D ≤ t.D ∧
        ((s.D ≠ c ∧ f :: fs = c :: cs) ∨ f :: fs = cs) := by
  have hD : 0 < s.D := by
    rw [h.D]
    linarith [h.old, h.pos]
  have hcT := last_le h.sorted h.last
  unfold shearPass
  rw [h.targets]
  simp only [if_true]
  by_cases hc : s.D ≠ 0 ∧ |s.D - c| / s.D < 1 / 10 ^ 8
  · rw [if_pos hc]
    cases cs with
    | nil => exact Or.inl rfl
    | cons f fs =>
      right
      have hlast : (f :: fs).getLast? = some T := by
        rw [← h.last, List.getLast?_cons_cons]
      have hcf : c < f := (List.pairwise_cons.1 h.sorted).1 f (by simp)
      have hfT := last_le (List.pairwise_cons.1 h.sorted).2 hlast
      have hall : ∀ x ∈ s.out ++ [s.D], x < T := by
        intro x hx
        rcases List.mem_append.1 hx with hx | hx
        · exact h.all x hx
        · rw [List.mem_singleton] at hx
          rw [hx]
          linarith [h.le]
      by_cases hf : f - s.D < dL0
      · refine ⟨_, f, fs, rfl, ⟨rfl, (List.pairwise_cons.1 h.sorted).2, hlast, rfl, hD.le, ?_, ?_, by simp [h.out],
          hall⟩, rfl, Or.inr ?_, ?_, Or.inr rfl⟩
        all_goals simp only [if_pos hf]
        · linarith [h.le]
        · linarith
        · ring
        · linarith [h.le]
      · refine ⟨_, f, fs, rfl, ⟨rfl, (List.pairwise_cons.1 h.sorted).2, hlast, rfl, hD.le, ?_, ?_, by simp [h.out],
          hall⟩, rfl, Or.inl ?_, ?_, Or.inr rfl⟩
        all_goals simp only [if_neg hf]
        · exact h0
        · linarith
        · linarith
  · rw [if_neg hc]
    right
    have hne : s.D ≠ c := by
      intro he
      refine hc ⟨hD.ne', ?_⟩
      rw [he, sub_self, abs_zero, zero_div]
      positivity
    have hlt : s.D < c := lt_of_le_of_ne h.le hne
    have hall : ∀ x ∈ s.out ++ [s.D], x < T := by
      intro x hx
      rcases List.mem_append.1 hx with hx | hx
      · exact h.all x hx
      · rw [List.mem_singleton] at hx
        rw [hx]
        linarith
    by_cases hf : c - s.D < dL0
    · refine ⟨_, c, cs, rfl, ⟨rfl, h.sorted, h.last, rfl, hD.le, ?_, ?_, by simp [h.out], hall⟩, rfl, Or.inr ?_, ?_,
        Or.inl ⟨hne, rfl⟩⟩
      all_goals simp only [if_pos hf]
      · linarith
      · linarith
      · ring
      · linarith
    · refine ⟨_, c, cs, rfl, ⟨rfl, h.sorted, h.last, rfl, hD.le, ?_, ?_, by simp [h.out], hall⟩, rfl, Or.inl ?_, ?_,
        Or.inl ⟨hne, rfl⟩⟩
      all_goals simp only [if_neg hf]
      · exact h0
      · linarith
      · linarith

theorem shear_finished (h0 : 0 < dL0) (debug : Bool) (solve : ℕ → K → Bool) (step : ℕ) {T : K} :
    ∀ (fuel n : ℕ) (s : ShearSt K) (c : K) (cs : List K), ShearInv T c cs s → s.k ≤ step + 1 → ∀ out,
      shearLoop debug solve dL0 step fuel n s = some (.finished, out) →
        out.length = step + 1 ∧ ∀ x ∈ out, x < T := by
  intro fuel
  induction fuel with
  | zero =>
    intro n s c cs h hk out ho
    rw [shearLoop, h.targets, h.last] at ho
    simp only at ho
    split_ifs at ho with hif
    cases ho
    have hcT := last_le h.sorted h.last
    have h1 : s.D - s.dL < T := by linarith [h.D, h.le, h.pos]
    have h2 : ¬s.k ≤ step := fun h2 => hif ⟨h1, h2⟩
    exact ⟨by rw [h.out]; omega, h.all⟩
  | succ fuel ih =>
    intro n s c cs h hk out ho
    have hcT := last_le h.sorted h.last
    have h1 : s.D - s.dL < T := by linarith [h.D, h.le, h.pos]
    rw [shearLoop, h.targets, h.last] at ho
    simp only at ho
    by_cases hks : s.k ≤ step
    · rw [if_pos ⟨h1, hks⟩] at ho
      cases hok : solve n s.D with
      | true =>
        rw [hok] at ho
        rcases shear_ok h0 debug h with he | ⟨t, f, fs, he, ht, hkt, -⟩
        · rw [he] at ho
          cases ho
        · rw [he] at ho
          exact ih (n + 1) t f fs ht (by omega) out ho
      | false =>
        rw [hok] at ho
        unfold shearPass at ho
        simp only [Bool.false_eq_true, if_false] at ho
        by_cases hif : debug = true ∧ ¬1 / 10 ^ 6 < s.dL / 2 / dL0
        · rw [if_pos hif] at ho
          cases ho
        rw [if_neg hif] at ho
        refine ih (n + 1) { s with dL := s.dL / 2, D := s.Dold + s.dL / 2 } c cs
          ⟨h.targets, h.sorted, h.last, ?_, h.old, ?_, ?_, h.out, h.all⟩ hk out ho
        · rfl
        · change 0 < s.dL / 2
          linarith [h.pos]
        · change s.Dold + s.dL / 2 ≤ c
          linarith [h.D, h.le, h.pos]
    · rw [if_neg (fun hh => hks hh.2)] at ho
      cases ho
      exact ⟨by rw [h.out]; omega, h.all⟩

theorem shearStart_inv (h0 : 0 < dL0) {T c : K} {cs : List K} (hs : (c :: cs).Pairwise (· < ·))
    (hT : (c :: cs).getLast? = some T) (hc : dL0 ≤ c) : ShearInv T c cs (shearStart dL0 (c :: cs)) :=
  ⟨rfl, hs, hT, by simp [shearStart], le_rfl, h0, hc, rfl, by simp [shearStart]⟩

/-- C121, `example_ShearWrinkling.cpp`, violation: a run that ends regularly has used up the number of steps and
never wrote the last target. -/
theorem C121_violated_shear (h0 : 0 < dL0) (debug : Bool) (solve : ℕ → K → Bool) (step fuel : ℕ) {T c : K}
    {cs : List K} (hs : (c :: cs).Pairwise (· < ·)) (hT : (c :: cs).getLast? = some T) (hc : dL0 ≤ c)
    {out : List K} (h : shearLoop debug solve dL0 step fuel 0 (shearStart dL0 (c :: cs)) = some (.finished, out)) :
    out.length = step + 1 ∧ ∀ x ∈ out, x < T :=
  shear_finished h0 debug solve step fuel 0 _ c cs (shearStart_inv h0 hs hT hc) (by simp [shearStart]) out h

theorem shear_ub (h0 : 0 < dL0) (debug : Bool) (solve : ℕ → K → Bool) (hok : ∀ n D, solve n D = true) (step : ℕ)
    {T : K} : ∀ (fuel n : ℕ) (s : ShearSt K) (c : K) (cs : List K), ShearInv T c cs s →
      2 * cs.length + 2 + ⌊(T - s.D) / dL0⌋₊ + (if s.D = c then 0 else 1) ≤ fuel →
      s.k + fuel ≤ step → ∃ out, shearLoop debug solve dL0 step fuel n s = some (.ub, out) := by
  intro fuel
  induction fuel with
  | zero =>
    intro n s c cs h hf
    omega
  | succ fuel ih =>
    intro n s c cs h hf hk
    have hcT := last_le h.sorted h.last
    have h1 : s.D - s.dL < T := by linarith [h.D, h.le, h.pos]
    rw [shearLoop, h.targets, h.last]
    simp only
    rw [if_pos ⟨h1, by omega⟩, hok]
    rcases shear_ok h0 debug h with he | ⟨t, f, fs, he, ht, hkt, hD, hmono, hcase⟩
    · rw [he]
      exact ⟨_, rfl⟩
    · rw [he]
      refine ih (n + 1) t f fs ht ?_ (by omega)
      have hfT := last_le ht.sorted ht.last
      have hfl : ⌊(T - t.D) / dL0⌋₊ ≤ ⌊(T - s.D) / dL0⌋₊ :=
        Nat.floor_mono (div_le_div_of_nonneg_right (by linarith) h0.le)
      rcases hcase with ⟨hne, hfc⟩ | hfc
      · obtain ⟨rfl, rfl⟩ := List.cons.inj hfc
        rw [if_neg hne] at hf
        rcases hD with hD | hD
        · have hdrop : ⌊(T - t.D) / dL0⌋₊ + 1 ≤ ⌊(T - s.D) / dL0⌋₊ :=
            floor_drop h0 (by linarith) (by linarith [ht.le])
          split_ifs <;> omega
        · rw [if_pos hD]
          omega
      · have hl : cs.length = fs.length + 1 := by rw [← hfc]; rfl
        split_ifs <;> split_ifs at hf <;> omega

/-- C121, `example_ShearWrinkling.cpp`, violation: if every solve succeeds and the number of steps suffices to
reach the last target, the run ends with an access to the front of an empty vector. -/
theorem C121_violated_shear_end (h0 : 0 < dL0) (debug : Bool) (solve : ℕ → K → Bool)
    (hok : ∀ n D, solve n D = true) (step : ℕ) {T c : K} {cs : List K} (hs : (c :: cs).Pairwise (· < ·))
    (hT : (c :: cs).getLast? = some T) (hc : dL0 ≤ c)
    (hstep : 2 * (c :: cs).length + ⌊T / dL0⌋₊ + 1 ≤ step) :
    ∃ out, shearLoop debug solve dL0 step step 0 (shearStart dL0 (c :: cs)) = some (.ub, out) := by
  refine shear_ub h0 debug solve hok step step 0 _ c cs (shearStart_inv h0 hs hT hc) ?_ (by simp [shearStart])
  have hfl : ⌊(T - (shearStart dL0 (c :: cs)).D) / dL0⌋₊ ≤ ⌊T / dL0⌋₊ :=
    Nat.floor_mono (div_le_div_of_nonneg_right (by simp only [shearStart]; linarith) h0.le)
  rw [List.length_cons] at hstep
  split_ifs <;> omega

end shear

/-! ## `example_PinchedMembrane_DWR.cpp`, load control -/

section pinched

/-- The invariant; `j` is the number of failures at the load `s.L`. -/
structure PinInv (L : K) (j : ℕ) (s : PinSt K) : Prop where
  le : s.L ≤ 1
  dL0 : s.dL0 = 1 - s.L
  dL : s.dL = (1 - s.L) / 2 ^ j
  last : (L :: s.out).getLast? = some s.L
  chain : List.IsChain (· < ·) (L :: s.out)

theorem pin_step {L : K} {j : ℕ} {s : PinSt K} (h : PinInv L j s) (hlt : s.L < 1) (ok : Bool) :
    (ok = true ∧ PinInv L 0 (pinPass ok s) ∧ (pinPass ok s).L = s.L + s.dL) ∨
      (ok = false ∧ PinInv L (j + 1) (pinPass ok s) ∧ (pinPass ok s).L = s.L) := by
  have hp : (1 : K) ≤ 2 ^ j := one_le_pow₀ (by norm_num)
  have hd : 0 < s.dL := by
    rw [h.dL]
    exact div_pos (by linarith) (by positivity)
  have hle : s.dL ≤ 1 - s.L := by
    rw [h.dL]
    exact div_le_self (by linarith) hp
  cases ok with
  | true =>
    left
    have hmin : min (1 - (s.L + s.dL)) s.dL0 = 1 - (s.L + s.dL) :=
      min_eq_left (by rw [h.dL0]; linarith)
    refine ⟨rfl, ⟨?_, ?_, ?_, ?_, ?_⟩, rfl⟩
    · change s.L + s.dL ≤ 1
      linarith
    · simp only [pinPass, if_true, hmin, lt_irrefl, if_false]
    · simp only [pinPass, if_true, hmin, lt_irrefl, if_false, pow_zero, div_one]
    · simp only [pinPass, if_true]
      rw [← List.cons_append, List.getLast?_concat]
    · simp only [pinPass, if_true]
      rw [← List.cons_append]
      exact chain_snoc h.chain h.last (by linarith)
  | false =>
    right
    refine ⟨rfl, ⟨h.le, h.dL0, ?_, h.last, h.chain⟩, rfl⟩
    change s.dL / 2 = (1 - s.L) / 2 ^ (j + 1)
    rw [h.dL, pow_succ, div_div]

theorem pin_end (solve : ℕ → K → K → Bool) {L : K} : ∀ (fuel n j : ℕ) (s t : PinSt K), PinInv L j s →
    pinLoop solve fuel n s = some t → (∃ j, PinInv L j t) ∧ 1 - 1 / 10 ^ 14 ≤ t.L := by
  intro fuel
  have hend : ∀ (j : ℕ) (s : PinSt K), PinInv L j s → ¬(s.L < 1 ∧ 1 / 10 ^ 14 < |s.L - 1|) →
      (∃ j, PinInv L j s) ∧ 1 - 1 / 10 ^ 14 ≤ s.L := by
    intro j s h hn
    refine ⟨⟨j, h⟩, ?_⟩
    by_contra hc
    have hp : (0 : K) < 1 / 10 ^ 14 := by positivity
    refine hn ⟨by linarith, ?_⟩
    rw [abs_of_nonpos (by linarith [h.le])]
    linarith
  induction fuel with
  | zero =>
    intro n j s t h ho
    rw [pinLoop] at ho
    split_ifs at ho with hif
    cases ho
    exact hend j s h hif
  | succ fuel ih =>
    intro n j s t h ho
    rw [pinLoop] at ho
    split_ifs at ho with hif
    · rcases pin_step h hif.1 (solve n s.L s.dL) with ⟨-, h1, -⟩ | ⟨-, h1, -⟩
      · exact ih _ _ _ t h1 ho
      · exact ih _ _ _ t h1 ho
    · cases ho
      exact hend j s h hif

/-- C121, `example_PinchedMembrane_DWR.cpp`: the load factors increase and never exceed 1, and if the loop ends
the last one is 1 up to `1e-14`. -/
theorem C121_pinched (solve : ℕ → K → K → Bool) {L : K} (hL : L ≤ 1) (fuel : ℕ) (t : PinSt K)
    (h : pinLoop solve fuel 0 (pinStart L) = some t) :
    List.IsChain (· < ·) (L :: t.out) ∧ (L :: t.out).getLast? = some t.L ∧ t.L ≤ 1 ∧ 1 - 1 / 10 ^ 14 ≤ t.L := by
  obtain ⟨⟨j, h1⟩, h2⟩ := pin_end solve fuel 0 0 _ t
    (⟨hL, rfl, by simp [pinStart], rfl, List.isChain_singleton _⟩ : PinInv L 0 (pinStart L)) h
  exact ⟨h1.chain, h1.last, h1.le, h2⟩

/-- C121, `example_PinchedMembrane_DWR.cpp`: if the first step succeeds, the load is 1 after it. -/
theorem C121_pinched_first (solve : ℕ → K → K → Bool) {L : K} (hL : 1 / 10 ^ 14 < 1 - L)
    (h : solve 0 L (1 - L) = true) (fuel : ℕ) :
    pinLoop solve (fuel + 1) 0 (pinStart L) = some ⟨1, 0, 0, [1]⟩ := by
  have hp : (0 : K) < 1 / 10 ^ 14 := by positivity
  have hlt : L < 1 := by linarith
  rw [pinLoop, if_pos ⟨hlt, by simp only [pinStart]; rw [abs_of_nonpos (by linarith)]; linarith⟩]
  have e : pinPass (solve 0 (pinStart L).L (pinStart L).dL) (pinStart L) = ⟨1, 0, 0, [1]⟩ := by
    have h1 : L + (1 - L) = 1 := by ring
    simp only [pinStart, h, pinPass, if_true, h1, sub_self, List.nil_append]
    rw [min_eq_left (by linarith)]
    simp
  rw [e]
  cases fuel <;> rw [pinLoop, if_neg (by simp)]

theorem pin_total (solve : ℕ → K → K → Bool) {ε L : K} (hε : 0 < ε) {m : ℕ} (hm : 1 - L ≤ ε * 2 ^ m)
    (hok : ∀ n L d, d ≤ ε → solve n L d = true) : ∀ (fuel n j : ℕ) (s : PinSt K), PinInv L j s → L ≤ s.L → j ≤ m →
      (j = 0 ∨ ε / 2 < s.dL) → (m + 1) * ⌊(1 - s.L) / (ε / 2)⌋₊ + (m - j) + 1 ≤ fuel →
        ∃ t, pinLoop solve fuel n s = some t := by
  intro fuel
  induction fuel with
  | zero =>
    intro n j s h hL hj hd hf
    omega
  | succ fuel ih =>
    intro n j s h hL hj hd hf
    rw [pinLoop]
    by_cases hif : s.L < 1 ∧ 1 / 10 ^ 14 < |s.L - 1|
    · rw [if_pos hif]
      have hle : s.dL ≤ 1 - s.L := by
        rw [h.dL]
        exact div_le_self (by linarith [h.le]) (one_le_pow₀ (by norm_num))
      rcases pin_step h hif.1 (solve n s.L s.dL) with ⟨hs, h1, h2⟩ | ⟨hs, h1, h2⟩
      · rcases hd with rfl | hd
        · have h3 : (pinPass (solve n s.L s.dL) s).L = 1 := by
            rw [h2, h.dL, pow_zero, div_one]
            ring
          cases fuel <;> exact ⟨_, by rw [pinLoop, if_neg (by rw [h3]; simp)]⟩
        · refine ih (n + 1) 0 _ h1 (by rw [h2]; linarith) (Nat.zero_le _) (Or.inl rfl) ?_
          have hdrop : ⌊(1 - (pinPass (solve n s.L s.dL) s).L) / (ε / 2)⌋₊ + 1 ≤ ⌊(1 - s.L) / (ε / 2)⌋₊ := by
            rw [h2]
            exact floor_drop (by positivity) (by linarith) (by linarith)
          have := Nat.mul_le_mul_left (m + 1) hdrop
          rw [Nat.mul_add, Nat.mul_one] at this
          omega
      · have hbig : ε < s.dL := by
          by_contra hc
          rw [hok n s.L s.dL (not_lt.1 hc)] at hs
          cases hs
        have hjm : j < m := by
          by_contra hc
          have hmj : m = j := by omega
          subst hmj
          rw [h.dL, lt_div_iff₀ (by positivity)] at hbig
          linarith
        refine ih (n + 1) (j + 1) _ h1 (by rw [h2]; exact hL) hjm (Or.inr ?_) ?_
        · rw [hs]
          change ε / 2 < s.dL / 2
          linarith
        · rw [h2]
          omega
    · rw [if_neg hif]
      exact ⟨_, rfl⟩

/-- C121, `example_PinchedMembrane_DWR.cpp`: the loop ends if all steps up to some positive length succeed. -/
theorem C121_pinched_ends [Archimedean K] (solve : ℕ → K → K → Bool) {ε L : K} (hε : 0 < ε) (hL : L ≤ 1)
    (hok : ∀ n L d, d ≤ ε → solve n L d = true) : ∃ fuel t, pinLoop solve fuel 0 (pinStart L) = some t := by
  obtain ⟨m, hm⟩ := pow_unbounded_of_one_lt ((1 - L) / ε) (one_lt_two : (1 : K) < 2)
  refine ⟨_, pin_total solve hε (m := m) ?_ hok _ 0 0 (pinStart L)
    ⟨hL, rfl, by simp [pinStart], rfl, List.isChain_singleton _⟩ le_rfl (Nat.zero_le _) (Or.inl rfl) le_rfl⟩
  rw [div_lt_iff₀ hε] at hm
  change 1 - L ≤ ε * 2 ^ m
  linarith

/-- C121, `example_PinchedMembrane_DWR.cpp`, violation: if no step from the start succeeds the loop does not
end. -/
theorem C121_violated_pinched (solve : ℕ → K → K → Bool) {L : K} (hL : 1 / 10 ^ 14 < 1 - L)
    (hno : ∀ n d, solve n L d = false) (fuel : ℕ) : pinLoop solve fuel 0 (pinStart L) = none := by
  have hp : (0 : K) < 1 / 10 ^ 14 := by positivity
  have key : ∀ (fuel n : ℕ) (s : PinSt K), s.L = L → pinLoop solve fuel n s = none := by
    intro fuel
    induction fuel with
    | zero =>
      intro n s hs
      rw [pinLoop, if_pos ⟨by rw [hs]; linarith, by rw [hs, abs_of_nonpos (by linarith)]; linarith⟩]
    | succ fuel ih =>
      intro n s hs
      rw [pinLoop, if_pos ⟨by rw [hs]; linarith, by rw [hs, abs_of_nonpos (by linarith)]; linarith⟩]
      refine ih _ _ ?_
      rw [hs, hno]
      simp only [pinPass, Bool.false_eq_true, if_false]
      exact hs
  exact key fuel 0 _ rfl

end pinched

/-! ## Examples -/

/-- The relative comparison with tolerance `1e-8`. -/
def exClose (x y : ℚ) : Bool := decide (|x - y| ≤ 1 / 10 ^ 8 * max (max |x| |y|) 1)

/-- Steps above 1/4 fail, checkpoints 3/4 and 1: the rows, their displacement doubled by the solver. -/
example : cylLoop exClose (fun _ D U => if D - U / 2 ≤ 1 / 4 then (true, 2 * D) else (false, U)) (1 / 2) 20 0
    (cylStart (1 / 2) (3 / 4) [1]) =
      some [⟨1 / 4, 1 / 2, true⟩, ⟨1 / 2, 1, true⟩, ⟨3 / 4, 3 / 2, true⟩, ⟨1, 2, true⟩] := by decide +kernel

/-- The hypotheses of `C121_cylinder` and `C121_violated_cylinder`. -/
example : (0 : ℚ) < 1 / 2 ∧ (∀ x, exClose x x = true) ∧ ([3 / 4, 1] : List ℚ).Pairwise (· < ·) ∧
    ([3 / 4, 1] : List ℚ).getLast? = some 1 := by
  refine ⟨by norm_num, fun x => ?_, by decide +kernel, rfl⟩
  simp only [exClose, sub_self, abs_zero, decide_eq_true_eq]
  positivity

/-- A solver that never succeeds: rows up to the checkpoint, all of them from failed solves. -/
example : cylLoop exClose (fun _ _ U => (false, U)) (1 / 2) 20 0 (cylStart (1 / 2) (1 / 8) []) =
    some [⟨1 / 16, (0 : ℚ), false⟩, ⟨1 / 8, 0, false⟩] := by decide +kernel

/-- The second solve fails. -/
example : pilLoop false (fun n _ => decide (n ≠ 1)) (2 / 5 : ℚ) 50 0 (pilStart (2 / 5)) =
    some (.finished, [0, 1 / 5, 3 / 5, 1]) := by decide +kernel

/-- Failure of the first solve, at load factor 0. -/
example : pilLoop false (fun n _ => decide (n ≠ 0)) (2 / 5 : ℚ) 50 0 (pilStart (2 / 5)) =
    some (.finished, [-1 / 5, 1 / 5, 3 / 5, 1]) ∧
    pilLoop true (fun n _ => decide (n ≠ 0)) (2 / 5 : ℚ) 50 0 (pilStart (2 / 5)) = some (.assertion, []) := by
  decide +kernel

/-- A solver that fails above the load factor 1/2: the loop stops after 21 failures. -/
example : (pilLoop false (fun _ D => decide (D ≤ 1 / 2)) (2 / 5 : ℚ) 200 0 (pilStart (2 / 5))).map (·.1) =
    some .tooMany := by decide +kernel

/-- Failures near 1. -/
example : pilLoop false (fun _ D => decide (D ≤ 9995 / 10000)) (1999 / 2000 : ℚ) 50 0 (pilStart (1999 / 2000)) =
    some (.nearOne, [0, 1999 / 2000]) := by decide +kernel

/-- Two targets: the run stops with undefined behaviour at the second one, or before it at the number of steps. -/
example : shearLoop false (fun n _ => decide (n ≠ 1)) (2 / 5 : ℚ) 20 20 0 (shearStart (2 / 5) [3 / 5, 1]) =
      some (.ub, [2 / 5, 1 / 2, 3 / 5]) ∧
    shearLoop false (fun n _ => decide (n ≠ 1)) (2 / 5 : ℚ) 1 20 0 (shearStart (2 / 5) [3 / 5, 1]) =
      some (.finished, [2 / 5, 1 / 2]) := by decide +kernel

/-- The hypotheses of `C121_violated_shear_end`. -/
example : 2 * ([3 / 5, 1] : List ℚ).length + ⌊(1 : ℚ) / (2 / 5)⌋₊ + 1 ≤ 20 := by decide +kernel

/-- Steps above 1/4 fail, from the load 2/5. -/
example : pinLoop (fun _ _ d => decide (d ≤ 1 / 4)) 20 0 (pinStart (2 / 5 : ℚ)) =
    some ⟨1, 0, 0, [11 / 20, 31 / 40, 1]⟩ := by decide +kernel

/-- All steps succeed, and none. -/
example : pinLoop (fun _ _ _ => true) 20 0 (pinStart (2 / 5 : ℚ)) = some ⟨1, 0, 0, [1]⟩ ∧
    pinLoop (fun _ _ _ => false) 20 0 (pinStart (2 / 5 : ℚ)) = none := by decide +kernel


end GsSA.Stepping
