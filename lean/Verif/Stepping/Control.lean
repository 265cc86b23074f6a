import Mathlib.Algebra.Order.Archimedean.Basic
import Mathlib.Algebra.Order.Field.Power
import Mathlib.Algebra.Field.Rat
import Mathlib.Algebra.Order.Ring.Rat
import Mathlib.Data.List.Chain
import Mathlib.Tactic.Ring
import Mathlib.Tactic.Linarith
import Mathlib.Tactic.FieldSimp
import Mathlib.Tactic.Positivity
import Verif.Static.CompositeProps
import Verif.Stepping.Target

/-!
# Programs with displacement control

`benchmarks/benchmark_FrustrumDC.cpp` (343-425) and `examples/snapping_example_shell_DC.cpp` (422-495): steps of
`gsControlDisplacement`, repeated with half of the length.
-/

namespace GsSA.Stepping.DC

open GsSA GsSA.Static

set_option linter.unusedSectionVars false

/-- The differences of the programs. -/
structure Prog (K V : Type) where
  /-- The factor of `dL` in the call of `step`. -/
  sgn : K
  /-- Is the halved length kept for one more step? -/
  marks : Bool
  /-- The condition on the displacements for another step. -/
  go : V → Bool

/-- `benchmark_FrustrumDC.cpp` 350-425. -/
def frustrum {K V : Type} [Neg K] [One K] : Prog K V := ⟨-1, true, fun _ => true⟩

/-- `snapping_example_shell_DC.cpp` 432-495; `eps U` is the strain computed from the displacements. -/
def snapping {K V : Type} [One K] [LE K] [DecidableLE K] (eps : V → K) (Emax : K) : Prog K V :=
  ⟨1, false, fun U => decide (eps U ≤ Emax)⟩

/-- The variables. `out` has the displacements and loads of the rows written. -/
structure LoopSt (K V A : Type) where
  ctl : DCSt K V A
  dL : K
  reset : Bool
  D : K
  out : List (V × K)

/-- How a run ends. -/
inductive End
  | finished
  | escaped
deriving DecidableEq, Repr

variable {K V A : Type} [Field K] [LinearOrder K] [AddCommGroup V]

/-- The statuses after which the step is repeated (`benchmark_FrustrumDC.cpp` 366,
`snapping_example_shell_DC.cpp` 439). -/
def bad : Status → Bool
  | .notConverged => true
  | .assemblyError => true
  | _ => false

/-- The variables after a step that is repeated, `benchmark_FrustrumDC.cpp` 368-374,
`snapping_example_shell_DC.cpp` 441-445. -/
def repeated (p : Prog K V) (s : LoopSt K V A) (c : DCSt K V A) : LoopSt K V A :=
  { s with ctl := c, dL := s.dL / 2, reset := p.marks || s.reset }

/-- The variables after another step, `benchmark_FrustrumDC.cpp` 377-421, `snapping_example_shell_DC.cpp`
448-492. -/
def accepted (p : Prog K V) (dL0 : K) (s : LoopSt K V A) (c : DCSt K V A) : LoopSt K V A :=
  let d := if s.reset then s.dL else dL0
  { ctl := c, dL := d, reset := false, D := s.D + p.sgn * d, out := s.out ++ [(c.U, c.L)] }

/-- The loop with `n` rows left and at most `fuel` steps. -/
def loop (S : Static.Solver K V A) (p : Prog K V) (dL0 : K) : ℕ → ℕ → LoopSt K V A → Option (End × LoopSt K V A)
  | _, 0, s => some (.finished, s)
  | fuel, n + 1, s =>
    if p.go s.ctl.U then
      match fuel with
      | 0 => none
      | fuel + 1 =>
        match Control.step S s.ctl (p.sgn * s.dL) with
        | (c, none) => some (.escaped, { s with ctl := c })
        | (c, some st) =>
          if bad st then loop S p dL0 fuel (n + 1) (repeated p s c)
          else loop S p dL0 fuel n (accepted p dL0 s c)
    else some (.finished, s)

/-- The start, `benchmark_FrustrumDC.cpp` 289, 341-348, `snapping_example_shell_DC.cpp` 422-428. -/
def start (dL0 : K) (x : A) : LoopSt K V A := ⟨Control.ctor x, dL0, false, 0, []⟩

/-! ## C122 -/

section props

variable [IsStrictOrderedRing K] {S : Static.Solver K V A} {I : A → Prop} {p : Prog K V} {dL0 : K}

/-- `b` is the row after `a`: the result of a successful step with the first length halved some number of
times, or a copy of `a` after another status. -/
def Link (S : Static.Solver K V A) (I : A → Prop) (sgn dL0 : K) (a b : V × K) : Prop :=
  ∃ (c : DCSt K V A) (j : ℕ) (st : Status), Consistent S I c ∧ c.U = a.1 ∧ c.L = a.2 ∧
    (Control.step S c (sgn * (dL0 / 2 ^ j))).2 = some st ∧
    ((st = .success ∧ b.2 = a.2 + sgn * (dL0 / 2 ^ j) ∧
        b.1 = S.solution (Control.step S c (sgn * (dL0 / 2 ^ j))).1.x) ∨
      (st ≠ .success ∧ bad st = false ∧ b = a))

/-- The invariant of the loop. -/
structure Inv (S : Static.Solver K V A) (I : A → Prop) (sgn dL0 : K) (s : LoopSt K V A) : Prop where
  ctl : Consistent S I s.ctl
  dL : ∃ j : ℕ, s.dL = dL0 / 2 ^ j
  last : ((0, 0) :: s.out).getLast? = some (s.ctl.U, s.ctl.L)
  chain : List.IsChain (Link S I sgn dL0) ((0, 0) :: s.out)

theorem chain_append {α : Type} {R : α → α → Prop} {l : List α} {a b : α} (h : l.IsChain R)
    (hl : l.getLast? = some a) (hab : R a b) : (l ++ [b]).IsChain R := by
  rw [List.isChain_append]
  refine ⟨h, List.isChain_singleton _, ?_⟩
  intro x hx y hy
  rw [hl] at hx
  obtain rfl : a = x := by simpa using hx
  obtain rfl : b = y := by simpa using hy
  exact hab

theorem Inv.repeated (hS : Laws S I) {s : LoopSt K V A} (h : Inv S I p.sgn dL0 s) {st : Status}
    (hst : (Control.step S s.ctl (p.sgn * s.dL)).2 = some st) (hb : bad st = true) :
    Inv S I p.sgn dL0 (repeated p s (Control.step S s.ctl (p.sgn * s.dL)).1) := by
  obtain ⟨j, hj⟩ := h.dL
  have hne : (Control.step S s.ctl (p.sgn * s.dL)).2 ≠ some .success := by
    rw [hst]
    intro he
    cases he
    cases hb
  obtain ⟨h1, h2⟩ := C53_failed S s.ctl _ hne
  refine ⟨(Control.step_consistent hS h.ctl _).1, ⟨j + 1, ?_⟩, ?_, h.chain⟩
  · change s.dL / 2 = _
    rw [hj, pow_succ, div_div]
  · change ((0, 0) :: s.out).getLast? = some ((Control.step S s.ctl (p.sgn * s.dL)).1.U,
      (Control.step S s.ctl (p.sgn * s.dL)).1.L)
    rw [h1, h2]
    exact h.last

theorem Inv.accepted (hS : Laws S I) {s : LoopSt K V A} (h : Inv S I p.sgn dL0 s) {st : Status}
    (hst : (Control.step S s.ctl (p.sgn * s.dL)).2 = some st) (hb : bad st = false) :
    Inv S I p.sgn dL0 (accepted p dL0 s (Control.step S s.ctl (p.sgn * s.dL)).1) := by
  obtain ⟨j, hj⟩ := h.dL
  refine ⟨(Control.step_consistent hS h.ctl _).1, ?_, ?_, ?_⟩
  · change ∃ j : ℕ, (if s.reset then s.dL else dL0) = dL0 / 2 ^ j
    split
    · exact ⟨j, hj⟩
    · exact ⟨0, by simp⟩
  · change ((0, 0) :: (s.out ++ [_])).getLast? = _
    rw [← List.cons_append, List.getLast?_concat]
    rfl
  · change List.IsChain _ ((0, 0) :: (s.out ++ [_]))
    rw [← List.cons_append]
    refine chain_append h.chain h.last ⟨s.ctl, j, st, h.ctl, rfl, rfl, ?_⟩
    rw [← hj]
    refine ⟨hst, ?_⟩
    by_cases hs : st = .success
    · subst hs
      refine Or.inl ⟨rfl, ?_, ?_⟩
      · change (Control.step S s.ctl (p.sgn * s.dL)).1.L = _
        rw [(Control.step_eq S s.ctl _).1, if_pos hst]
      · exact ((Control.step_consistent hS h.ctl _).2 hst).symm
    · refine Or.inr ⟨hs, hb, ?_⟩
      obtain ⟨h1, h2⟩ := C53_failed S s.ctl (p.sgn * s.dL) (by rw [hst]; simpa using hs)
      rw [h1, h2]

theorem loop_inv (hS : Laws S I) : ∀ (fuel n : ℕ) (s t : LoopSt K V A) (r : End), Inv S I p.sgn dL0 s →
    loop S p dL0 fuel n s = some (r, t) →
      List.IsChain (Link S I p.sgn dL0) ((0, 0) :: t.out) ∧ t.out.length ≤ s.out.length + n ∧
      (r = .finished → ((0, 0) :: t.out).getLast? = some (t.ctl.U, t.ctl.L) ∧
        (t.out.length = s.out.length + n ∨ p.go t.ctl.U = false)) := by
  intro fuel
  induction fuel with
  | zero =>
    intro n s t r h hr
    cases n with
    | zero =>
      cases hr
      exact ⟨h.chain, le_rfl, fun _ => ⟨h.last, Or.inl rfl⟩⟩
    | succ n =>
      rw [loop] at hr
      split_ifs at hr with hgo
      cases hr
      exact ⟨h.chain, by omega, fun _ => ⟨h.last, Or.inr (by simpa using hgo)⟩⟩
  | succ fuel ih =>
    intro n s t r h hr
    cases n with
    | zero =>
      cases hr
      exact ⟨h.chain, le_rfl, fun _ => ⟨h.last, Or.inl rfl⟩⟩
    | succ n =>
      rw [loop] at hr
      split_ifs at hr with hgo
      · rcases hst : Control.step S s.ctl (p.sgn * s.dL) with ⟨c, _ | st⟩
        · rw [hst] at hr
          cases hr
          exact ⟨h.chain, by simp only []; omega, by simp⟩
        · rw [hst] at hr
          simp only at hr
          cases hb : bad st with
          | true =>
            rw [hb, if_pos rfl] at hr
            have := h.repeated hS (p := p) (st := st) (by rw [hst]) hb
            rw [hst] at this
            exact ih (n + 1) (repeated p s c) t r this hr
          | false =>
            rw [hb, if_neg (by simp)] at hr
            have := h.accepted hS (p := p) (st := st) (by rw [hst]) hb
            rw [hst] at this
            obtain ⟨h1, h2, h3⟩ := ih n _ t r this hr
            have hl : (accepted p dL0 s c).out.length = s.out.length + 1 := by
              simp [DC.accepted]
            rw [hl] at h2 h3
            refine ⟨h1, by omega, fun hf => ⟨(h3 hf).1, (h3 hf).2.imp (fun h => by omega) id⟩⟩
      · cases hr
        exact ⟨h.chain, by omega, fun _ => ⟨h.last, Or.inr (by simpa using hgo)⟩⟩

/-- C122: the rows of a run that ends. Each is the result of a successful step of the control from the row
before, with the first length halved some number of times: the displacements are those of the static solver and
the load has grown by the length; or a copy, if the step had another status than success, `NotConverged` and
`AssemblyError`. If no exception escapes, there are as many rows as asked for, unless the condition of the loop
does not hold any more. -/
theorem C122_rows (hS : Laws S I) {x : A} (hI : I x) (h0 : S.solution x = 0) (fuel n : ℕ) (t : LoopSt K V A)
    (r : End) (h : loop S p dL0 fuel n (start dL0 x) = some (r, t)) :
    List.IsChain (Link S I p.sgn dL0) ((0, 0) :: t.out) ∧ t.out.length ≤ n ∧
      (r = .finished → ((0, 0) :: t.out).getLast? = some (t.ctl.U, t.ctl.L) ∧
        (t.out.length = n ∨ p.go t.ctl.U = false)) := by
  have := loop_inv hS (p := p) (dL0 := dL0) fuel n (start dL0 x) t r
    ⟨⟨hI, fun _ => h0⟩, ⟨0, by simp [start]⟩, rfl, List.isChain_singleton _⟩ h
  simpa [start] using this

/-- C122: if the solver has no other statuses, the loads increase by at most the first length, in the direction of
the program. -/
theorem C122_loads (hS : Laws S I) (hst : ∀ a, I a → ∀ st, (S.solve a).2 = some st → st ≠ .success → bad st = true)
    (hd : 0 < dL0) {x : A} (hI : I x) (h0 : S.solution x = 0) (fuel n : ℕ) (t : LoopSt K V A) (r : End)
    (hsgn : p.sgn * p.sgn = 1) (h : loop S p dL0 fuel n (start dL0 x) = some (r, t)) :
    List.IsChain (fun a b : V × K => 0 < p.sgn * (b.2 - a.2) ∧ p.sgn * (b.2 - a.2) ≤ dL0) ((0, 0) :: t.out) := by
  refine (C122_rows hS hI h0 fuel n t r h).1.imp ?_
  rintro a b ⟨c, j, st, hc, -, -, h1, ⟨-, h2, -⟩ | ⟨h2, h3, -⟩⟩
  · have e : p.sgn * (b.2 - a.2) = dL0 / 2 ^ j := by
      rw [h2, add_sub_cancel_left, ← mul_assoc, hsgn, one_mul]
    rw [e]
    exact ⟨by positivity, div_le_self hd.le (one_le_pow₀ (by norm_num))⟩
  · exfalso
    obtain ⟨-, -, -, h4⟩ := Control.step_eq S c (p.sgn * (dL0 / 2 ^ j))
    rw [h1] at h4
    have hI' : I (if c.first then S.setLoad c.x (c.L + p.sgn * (dL0 / 2 ^ j))
        else S.setDisplacement (S.setLoad c.x (c.L + p.sgn * (dL0 / 2 ^ j))) c.U) := by
      split
      · exact hS.loadInv _ _ hc.1
      · exact hS.dispInv _ _ (hS.loadInv _ _ hc.1)
    have := hst _ hI' st (by rw [← h4]) h2
    rw [h3] at this
    cases this

theorem loop_total {Good : DCSt K V A → Prop} (hG : ∀ c d, Good c → Good (Control.step S c d).1) (eps : K) (m : ℕ)
    (hs : ∀ c l, Good c → 0 ≤ l → l ≤ eps →
      ∀ st, (Control.step S c (p.sgn * l)).2 = some st → bad st = false) (hpos : 0 ≤ dL0) (hm : dL0 ≤ eps * 2 ^ m) :
    ∀ (fuel n j : ℕ) (s : LoopSt K V A), Good s.ctl → s.dL = dL0 / 2 ^ j → j ≤ m → n * (m + 1) ≤ fuel + j →
      (loop S p dL0 fuel n s).isSome := by
  intro fuel
  induction fuel with
  | zero =>
    intro n j s hg hj hjm hf
    cases n with
    | zero => rfl
    | succ n =>
      rw [Nat.add_mul] at hf
      omega
  | succ fuel ih =>
    intro n j s hg hj hjm hf
    cases n with
    | zero => rfl
    | succ n =>
      rw [loop]
      split_ifs with hgo
      · rcases hst : Control.step S s.ctl (p.sgn * s.dL) with ⟨c, _ | st⟩
        · rfl
        · have hc : Good c := by
            have := hG s.ctl (p.sgn * s.dL) hg
            rwa [hst] at this
          simp only
          cases hb : bad st with
          | true =>
            rw [if_pos rfl]
            have hlt : j < m := by
              by_contra hjm'
              obtain rfl : j = m := by omega
              have h0 : 0 ≤ s.dL := by
                rw [hj]
                positivity
              have hle : s.dL ≤ eps := by
                rw [hj, div_le_iff₀ (by positivity)]
                exact hm
              rw [hs s.ctl s.dL hg h0 hle st (by rw [hst])] at hb
              cases hb
            refine ih (n + 1) (j + 1) (repeated p s c) hc ?_ hlt (by omega)
            change s.dL / 2 = _
            rw [hj, pow_succ, div_div]
          | false =>
            rw [if_neg (by simp)]
            rw [Nat.add_mul] at hf
            by_cases hr : s.reset = true
            · refine ih n j (accepted p dL0 s c) hc ?_ hjm (by omega)
              simp only [accepted, hr, if_true]
              exact hj
            · refine ih n 0 (accepted p dL0 s c) hc ?_ (Nat.zero_le _) (by omega)
              simp [accepted, hr]
      · rfl

/-- C122: if no step up to a length `eps` is repeated, in states `Good` of the control that the steps preserve, the
loop ends after at most `n (m + 1)` steps, where
`2 ^ m` is at least the first length over `eps`. -/
theorem C122_terminates {Good : DCSt K V A → Prop} (hG : ∀ c d, Good c → Good (Control.step S c d).1) (eps : K)
    (m : ℕ) (hs : ∀ c l, Good c → 0 ≤ l → l ≤ eps →
      ∀ st, (Control.step S c (p.sgn * l)).2 = some st → bad st = false) (hpos : 0 ≤ dL0) (hm : dL0 ≤ eps * 2 ^ m)
    (n : ℕ) (x : A) (hx : Good (Control.ctor x)) : ∃ r, loop S p dL0 (n * (m + 1)) n (start dL0 x) = some r :=
  Option.isSome_iff_exists.1 (loop_total hG eps m hs hpos hm _ n 0 _ hx (by simp [start]) (Nat.zero_le _) (by omega))

/-- C122: a step that does not converge, or of which the assembly fails, leaves no row; it is repeated with half of
the length, and the program that remembers it marks it. -/
theorem C122_repeated {s : LoopSt K V A} {c : DCSt K V A} {st : Status}
    (h : Control.step S s.ctl (p.sgn * s.dL) = (c, some st)) (h1 : st = .notConverged ∨ st = .assemblyError)
    (hgo : p.go s.ctl.U = true) (fuel n : ℕ) :
    loop S p dL0 (fuel + 1) (n + 1) s =
      loop S p dL0 fuel (n + 1) { ctl := c, dL := s.dL / 2, reset := p.marks || s.reset, D := s.D, out := s.out } := by
  rw [loop, if_pos hgo, h]
  rcases h1 with rfl | rfl <;> rfl

/-- C122, violation: if every step is repeated the loop does not end. -/
theorem C122_violated_endless (hs : ∀ (c : DCSt K V A) d, ∃ st, (Control.step S c d).2 = some st ∧ bad st = true)
    (hgo : ∀ U, p.go U = true) (fuel n : ℕ) (x : A) : loop S p dL0 fuel (n + 1) (start dL0 x) = none := by
  have key : ∀ (fuel : ℕ) (s : LoopSt K V A), loop S p dL0 fuel (n + 1) s = none := by
    intro fuel
    induction fuel with
    | zero =>
      intro s
      rw [loop, if_pos (hgo _)]
    | succ fuel ih =>
      intro s
      rw [loop, if_pos (hgo _)]
      obtain ⟨st, h1, h2⟩ := hs s.ctl (p.sgn * s.dL)
      rcases hst : Control.step S s.ctl (p.sgn * s.dL) with ⟨c, o⟩
      rw [hst] at h1
      simp only at h1
      subst h1
      simp only [h2, if_true]
      exact ih _
  exact key fuel _

/-- C122, violation: after a status such as `SolverError` a copy of the row before is written, and `D` moves as
for a success. -/
theorem C122_violated_error {s : LoopSt K V A} {c : DCSt K V A} {st : Status}
    (h : Control.step S s.ctl (p.sgn * s.dL) = (c, some st)) (h1 : st ≠ .success) (h2 : bad st = false)
    (hgo : p.go s.ctl.U = true) (fuel n : ℕ) :
    loop S p dL0 (fuel + 1) (n + 1) s = loop S p dL0 fuel n (accepted p dL0 s c) ∧
    (accepted p dL0 s c).out = s.out ++ [(s.ctl.U, s.ctl.L)] ∧
    (accepted p dL0 s c).D = s.D + p.sgn * (if s.reset then s.dL else dL0) := by
  obtain ⟨h3, h4⟩ := C53_failed S s.ctl (p.sgn * s.dL) (by rw [h]; simpa using h1)
  rw [h] at h3 h4
  refine ⟨?_, ?_, rfl⟩
  · rw [loop, if_pos hgo, h]
    simp [h2]
  · simp only [accepted]
    rw [h3, h4]

/-! ### The printed displacement -/

/-- C122: while no step fails, `D` is the load of the control. -/
theorem C122_printed (hs : ∀ (c : DCSt K V A) d, ∃ y, Control.step S c d = (y, some .success)) (fuel n : ℕ) (x : A)
    (t : LoopSt K V A) (r : End) (h : loop S p dL0 fuel n (start dL0 x) = some (r, t)) : t.D = t.ctl.L := by
  have key : ∀ (fuel n : ℕ) (s : LoopSt K V A), s.D = s.ctl.L → s.dL = dL0 → s.reset = false →
      loop S p dL0 fuel n s = some (r, t) → t.D = t.ctl.L := by
    intro fuel
    induction fuel with
    | zero =>
      intro n s h1 h2 h3 h
      cases n with
      | zero =>
        cases h
        exact h1
      | succ n =>
        rw [loop] at h
        split_ifs at h
        cases h
        exact h1
    | succ fuel ih =>
      intro n s h1 h2 h3 h
      cases n with
      | zero =>
        cases h
        exact h1
      | succ n =>
        rw [loop] at h
        split_ifs at h
        · obtain ⟨c, hc⟩ := hs s.ctl (p.sgn * s.dL)
          rw [hc] at h
          refine ih n (accepted p dL0 s c) ?_ ?_ rfl h
          · have := (Control.step_eq S s.ctl (p.sgn * s.dL)).1
            rw [hc, if_pos rfl] at this
            simp only [accepted, h3, Bool.false_eq_true, if_false]
            rw [this, h1, h2]
          · simp [accepted, h3]
        · cases h
          exact h1
  exact key fuel n _ rfl rfl rfl h

/-- C122, violation, `snapping_example_shell_DC.cpp`: the variable `D` moves by the first length after each
success, the load of the control by the length of the step. -/
theorem C122_violated_snapping (eps : V → K) (Emax : K) {s : LoopSt K V A} {c : DCSt K V A} (hr : s.reset = false)
    (h : Control.step S s.ctl (1 * s.dL) = (c, some .success)) :
    (accepted (snapping eps Emax) dL0 s c).D - (accepted (snapping eps Emax) dL0 s c).ctl.L =
      s.D - s.ctl.L + (dL0 - s.dL) := by
  have := (Control.step_eq S s.ctl (1 * s.dL)).1
  rw [h, if_pos rfl] at this
  simp only [accepted, hr, Bool.false_eq_true, if_false, snapping]
  rw [this]
  ring

/-- C122, violation, `benchmark_FrustrumDC.cpp`: a failure and two successes; the first length is restored
before `D` is moved for the second success. -/
theorem C122_violated_frustrum {s : LoopSt K V A} {c₁ c₂ c₃ : DCSt K V A} {st : Status}
    (h1 : Control.step S s.ctl (-1 * s.dL) = (c₁, some st)) (hb : bad st = true)
    (h2 : Control.step S c₁ (-1 * (s.dL / 2)) = (c₂, some .success))
    (h3 : Control.step S c₂ (-1 * (s.dL / 2)) = (c₃, some .success)) (fuel n : ℕ) :
    ∃ t : LoopSt K V A, loop S frustrum dL0 (fuel + 3) (n + 2) s = loop S frustrum dL0 fuel n t ∧
      t.out = s.out ++ [(c₂.U, c₂.L), (c₃.U, c₃.L)] ∧ t.ctl = c₃ ∧
      t.D - t.ctl.L = s.D - s.ctl.L - (dL0 - s.dL / 2) := by
  have e1 := (C53_failed S s.ctl (-1 * s.dL) (by rw [h1]; intro he; cases he; cases hb)).1
  have e2 := (Control.step_eq S c₁ (-1 * (s.dL / 2))).1
  have e3 := (Control.step_eq S c₂ (-1 * (s.dL / 2))).1
  rw [h1] at e1
  rw [h2, if_pos rfl] at e2
  rw [h3, if_pos rfl] at e3
  refine ⟨accepted frustrum dL0 (accepted frustrum dL0 (repeated frustrum s c₁) c₂) c₃, ?_, ?_, rfl, ?_⟩
  · rw [loop, if_pos (by rfl)]
    simp only [show (frustrum : Prog K V).sgn = -1 from rfl, h1, hb, if_true]
    rw [loop, if_pos (by rfl)]
    simp only [show (frustrum : Prog K V).sgn = -1 from rfl, repeated, h2, bad, Bool.false_eq_true, if_false]
    rw [loop, if_pos (by rfl)]
    simp only [show (frustrum : Prog K V).sgn = -1 from rfl, accepted, show (frustrum : Prog K V).marks = true from rfl,
      Bool.true_or, if_true, h3, bad, Bool.false_eq_true, if_false]
  · simp [accepted, repeated]
  · simp only [accepted, repeated, show (frustrum : Prog K V).marks = true from rfl, Bool.true_or, if_true,
      show (frustrum : Prog K V).sgn = -1 from rfl, Bool.false_eq_true, if_false]
    simp only at e1 e2 e3
    rw [e3, e2, e1]
    ring

end props

/-! ## Examples -/

namespace Demo

/-- A solver for `u = λ` that converges if `λ` is at most 1/2 away, and has a solver error beyond 2. -/
structure Obj where
  U : ℚ
  DU : ℚ
  L : ℚ
deriving DecidableEq

/-- Its class. -/
def obj : Static.Solver ℚ ℚ Obj where
  solve x :=
    if 2 < |x.L| then (x, some .solverError)
    else if |x.L - x.U| ≤ 1 / 2 then (⟨x.L, x.L - x.U, x.L⟩, some .success)
    else (x, some .notConverged)
  solution x := x.U
  update x := x.DU
  iterations _ := 1
  setUpdate x d := { x with DU := d }
  setDisplacement x U := { x with U := U }
  setLoad x L := { x with L := L }
  reset _ := ⟨0, 0, 0⟩

/-- What is to be seen of a run. -/
def view (r : Option (End × LoopSt ℚ ℚ Obj)) : Option (End × List (ℚ × ℚ) × ℚ × ℚ) :=
  r.map fun x => (x.1, x.2.out, x.2.D, x.2.ctl.L)

end Demo

theorem demo_laws : Laws Demo.obj fun _ => True where
  succ a b _ h := by
    simp only [Demo.obj] at h
    split_ifs at h
    · cases h
    · cases h
      simp [Demo.obj]
    · cases h
  inv _ _ := trivial
  updSol _ _ := rfl
  updUpd _ _ := rfl
  updInv _ _ _ := trivial
  dispSol _ _ := rfl
  dispInv _ _ _ := trivial
  loadSol _ _ := rfl
  loadInv _ _ _ := trivial

/-- The first length 3/4 fails, its half succeeds twice; then the same again. At the end `D` is not the load. -/
example : Demo.view (loop Demo.obj frustrum (3 / 4) 50 4 (start (3 / 4) ⟨0, 0, 0⟩)) =
    some (.finished, [(-3 / 8, -3 / 8), (-3 / 4, -3 / 4), (-9 / 8, -9 / 8), (-3 / 2, -3 / 2)], -9 / 4, -3 / 2) := by
  decide +kernel

/-- In the other program the halved length is used once. It stops at the strain 1, or with the number of rows. -/
example : Demo.view (loop Demo.obj (snapping id 1) (3 / 4) 50 9 (start (3 / 4) ⟨0, 0, 0⟩)) =
      some (.finished, [(3 / 8, 3 / 8), (3 / 4, 3 / 4), (9 / 8, 9 / 8)], 9 / 4, 9 / 8) ∧
    Demo.view (loop Demo.obj (snapping id 1) (1 / 2) 50 2 (start (1 / 2) ⟨0, 0, 0⟩)) =
      some (.finished, [(1 / 2, 1 / 2), (1, 1)], 1, 1) := by
  decide +kernel

/-- Solver errors beyond the load 2: the last row is repeated. -/
example : Demo.view (loop Demo.obj (snapping id 9) (1 / 2) 50 6 (start (1 / 2) ⟨0, 0, 0⟩)) =
    some (.finished, [(1 / 2, 1 / 2), (1, 1), (3 / 2, 3 / 2), (2, 2), (2, 2), (2, 2)], 3, 2) := by
  decide +kernel

/-- The states in which the displacement is the load. -/
def Demo.Good (c : DCSt ℚ ℚ Demo.Obj) : Prop := c.U = c.L ∧ (c.first = true → c.x.U = c.U)

theorem demo_good (c : DCSt ℚ ℚ Demo.Obj) (d : ℚ) (h : Demo.Good c) :
    Demo.Good (Control.step Demo.obj c d).1 := by
  obtain ⟨h1, h2⟩ := h
  obtain ⟨x, L, U, f, st⟩ := c
  simp only at h1 h2
  subst h1
  cases f
  · simp only [Control.step, Demo.obj, Bool.false_eq_true, if_false]
    split_ifs <;> simp [Demo.Good]
  · have := h2 rfl
    simp only [Control.step, Demo.obj, if_true]
    split_ifs <;> simp [Demo.Good, this]

/-- The hypotheses of `C122_terminates` with `eps = 1/2` and `m = 1`. -/
example (n : ℕ) : ∃ r, loop Demo.obj (snapping id 1) 1 (n * (1 + 1)) n (start 1 ⟨0, 0, 0⟩) = some r := by
  refine C122_terminates demo_good (1 / 2) 1 ?_ (by norm_num) (by norm_num) n _ ⟨rfl, fun _ => rfl⟩
  rintro ⟨x, L, U, f, st⟩ l ⟨h1, h2⟩ h3 h4 st' h5
  simp only at h1 h2
  subst h1
  have hl : |l| ≤ 1 / 2 := by rwa [abs_of_nonneg h3]
  cases f
  · simp only [Control.step, Demo.obj, Bool.false_eq_true, if_false, snapping, one_mul, add_sub_cancel_left, hl,
      if_true] at h5
    split_ifs at h5 <;> cases h5 <;> rfl
  · have hU : x.U = U := h2 rfl
    simp only [Control.step, Demo.obj, if_true, snapping, one_mul, hU, add_sub_cancel_left, hl] at h5
    split_ifs at h5 <;> cases h5 <;> rfl

/-- The hypothesis of `C122_loads` on the statuses. -/
example : ∀ a : Demo.Obj, ∀ st, (if |a.L - a.U| ≤ 1 / 2 then ((⟨a.L, a.L - a.U, a.L⟩ : Demo.Obj), some Status.success)
    else (a, some .notConverged)).2 = some st → st ≠ .success → bad st = true := by
  intro a st h hst
  split_ifs at h
  · cases h
    exact absurd rfl hst
  · cases h
    rfl

end GsSA.Stepping.DC
