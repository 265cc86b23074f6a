import Mathlib.Algebra.Order.Archimedean.Basic
import Mathlib.Algebra.Order.Field.Power
import Mathlib.Algebra.Field.Rat
import Mathlib.Algebra.Order.Ring.Rat
import Mathlib.Data.List.Chain
import Mathlib.Tactic.Ring
import Mathlib.Tactic.Linarith
import Mathlib.Tactic.FieldSimp
import Mathlib.Tactic.Positivity
import Verif.Base.Status

/-!
# Load stepping loops

The loop of `gsAPALMBase::serialSolve` (`src/gsALMSolvers/gsAPALMBase.hpp` 48-115), of the programs
`solvers/quasistatic_shell_XML.cpp` (285-387, the same in `quasistatic_shell_multipatch_XML.cpp` 415-511),
`examples/gsThinShell_ArcLength.cpp` (1061-1241) and `benchmarks/benchmark_Beam.cpp` (325-342): a step that
does not converge is repeated with half of the length. Output is not modelled; the treatment of singular points
(option `SingularPoint`) is in `Verif.Stepping.Bifurcation`.
-/

namespace GsSA.Stepping

open GsSA

set_option linter.unusedSectionVars false

/-- What the loops use of an arc-length solver. -/
structure Solver (σ V K : Type) where
  setLength : K → σ → σ
  setSolution : V → K → σ → σ
  step : σ → σ × Status
  converged : σ → Bool
  U : σ → V
  L : σ → K
  len : σ → K

/-- The differences between the loops. -/
structure Program where
  /-- The condition for repeating the step, by `converged()` and the status returned by `step()`. -/
  failed : Bool → Status → Bool
  /-- Does the loop remember that the length was halved? -/
  marks : Bool
  /-- Does the loop return to the first length? -/
  resets : Bool

/-- `!(m_ALM->converged())`, `gsAPALMBase.hpp` 75. -/
def notConverged (c : Bool) (_ : Status) : Bool := !c

/-- `status==NotConverged || status==AssemblyError`, `gsThinShell_ArcLength.cpp` 1079. -/
def badStatus (_ : Bool) (st : Status) : Bool := st == .notConverged || st == .assemblyError

/-- `gsAPALMBase.hpp` 48-115. -/
def apalmBase : Program := ⟨notConverged, true, true⟩

/-- `quasistatic_shell_XML.cpp` 290-387 (also `benchmark_Wrinkling.cpp` 930-1062): `bisected` is never set to
true. -/
def quasistatic : Program := ⟨notConverged, false, true⟩

/-- `gsThinShell_ArcLength.cpp` 1071-1241 (also `benchmark_Roof.cpp` 417-511, `benchmark_TensionWrinkling.cpp`
441-559). -/
def thinShell : Program := ⟨badStatus, true, true⟩

/-- `benchmark_FrustrumALM.cpp` 373-450: without the variable `bisected`. -/
def frustrum : Program := ⟨badStatus, false, true⟩

/-- `benchmark_Beam.cpp` 328-342: the length is not restored. -/
def beam : Program := ⟨notConverged, false, false⟩

variable {σ V K : Type} [Field K] [LinearOrder K]

/-- A stored point: displacements, load, curve time. -/
structure Point (V K : Type) where
  U : V
  L : K
  time : K
deriving DecidableEq

/-- The variables of the loop. `attempts` is a ghost: the length and the success of every call of `step()`. -/
structure LSt (σ V K : Type) where
  obj : σ
  dL : K
  dL0 : K
  bisected : Bool
  s : K
  Uold : V
  Lold : K
  out : List (Point V K)
  attempts : List (K × Bool)

/-- `gsAPALMBase.hpp` 50-65. The programs start with a new solver, whose solution is zero, instead of setting
it; they do not store the origin, nor the curve time. -/
def start [Zero V] (S : Solver σ V K) (obj : σ) : LSt σ V K where
  obj := S.setSolution 0 0 obj
  dL := S.len obj
  dL0 := S.len obj
  bisected := false
  s := 0
  Uold := 0
  Lold := 0
  out := [⟨0, 0, 0⟩]
  attempts := []

/-- `gsAPALMBase.hpp` 77-84; `t` is the solver after the step. -/
def onFail (S : Solver σ V K) (p : Program) (st : LSt σ V K) (t : σ) : LSt σ V K :=
  { st with
    obj := S.setSolution st.Uold st.Lold (S.setLength (st.dL / 2) t)
    dL := st.dL / 2
    bisected := st.bisected || p.marks
    attempts := st.attempts ++ [(st.dL, false)] }

/-- `gsAPALMBase.hpp` 87-112. -/
def onSuccess (S : Solver σ V K) (p : Program) (st : LSt σ V K) (t : σ) : LSt σ V K :=
  let restore := p.resets && !st.bisected
  { st with
    obj := if restore then S.setLength st.dL0 t else t
    dL := if restore then st.dL0 else st.dL
    bisected := false
    s := st.s + st.dL
    Uold := S.U t
    Lold := S.L t
    out := st.out ++ [⟨S.U t, S.L t, st.s + st.dL⟩]
    attempts := st.attempts ++ [(st.dL, true)] }

/-- Is the step from the state repeated? -/
def fails (S : Solver σ V K) (p : Program) (t : σ) : Bool := p.failed (S.converged (S.step t).1) (S.step t).2

/-- The loop, `gsAPALMBase.hpp` 67-114, with `n` steps left and at most `fuel` calls of `step()`; `none` if
these are not enough. -/
def loop (S : Solver σ V K) (p : Program) : ℕ → ℕ → LSt σ V K → Option (LSt σ V K)
  | _, 0, st => some st
  | 0, _ + 1, _ => none
  | fuel + 1, n + 1, st =>
    if fails S p st.obj then loop S p fuel (n + 1) (onFail S p st (S.step st.obj).1)
    else loop S p fuel n (onSuccess S p st (S.step st.obj).1)

/-- `serialSolve(n)`. -/
def serialSolve [Zero V] (S : Solver σ V K) (p : Program) (fuel n : ℕ) (obj : σ) : Option (LSt σ V K) :=
  loop S p fuel n (start S obj)

/-- What is assumed of the solver: the setters set, and a step keeps the length (no adaptive length) in good
states. -/
structure Laws (S : Solver σ V K) (Good : σ → Prop) : Prop where
  U_set : ∀ U L t, S.U (S.setSolution U L t) = U
  L_set : ∀ U L t, S.L (S.setSolution U L t) = L
  len_set : ∀ U L t, S.len (S.setSolution U L t) = S.len t
  len_len : ∀ l t, S.len (S.setLength l t) = l
  U_len : ∀ l t, S.U (S.setLength l t) = S.U t
  L_len : ∀ l t, S.L (S.setLength l t) = S.L t
  good_set : ∀ U L t, Good t → Good (S.setSolution U L t)
  good_len : ∀ l t, Good t → Good (S.setLength l t)
  good_step : ∀ t, Good t → Good (S.step t).1
  len_step : ∀ t, Good t → S.len (S.step t).1 = S.len t

/-- `b` is the result of a step that is not repeated, from `a`, with the length by which the curve time
grows: `dL0` halved some number of times. -/
def Link (S : Solver σ V K) (p : Program) (Good : σ → Prop) (dL0 : K) (a b : Point V K) : Prop :=
  ∃ t, Good t ∧ S.U t = a.U ∧ S.L t = a.L ∧ S.len t = b.time - a.time ∧ (∃ j : ℕ, b.time - a.time = dL0 / 2 ^ j) ∧
    fails S p t = false ∧ S.U (S.step t).1 = b.U ∧ S.L (S.step t).1 = b.L

/-- The invariant between two iterations; the last point is `(Uold, Lold, s)`. -/
structure Inv (S : Solver σ V K) (Good : σ → Prop) (st : LSt σ V K) : Prop where
  good : Good st.obj
  len : S.len st.obj = st.dL
  U : S.U st.obj = st.Uold
  L : S.L st.obj = st.Lold
  dL : ∃ j : ℕ, st.dL = st.dL0 / 2 ^ j

variable {S : Solver σ V K} {p : Program} {Good : σ → Prop}

theorem Inv.start [Zero V] (hl : Laws S Good) (obj : σ) (h : Good obj) : Inv S Good (start S obj) :=
  ⟨hl.good_set _ _ _ h, hl.len_set _ _ _, hl.U_set _ _ _, hl.L_set _ _ _, 0, by simp [Stepping.start]⟩

theorem half_pow (x : K) (j : ℕ) : x / 2 ^ j / 2 = x / 2 ^ (j + 1) := by
  rw [div_div, pow_succ]

theorem Inv.onFail (hl : Laws S Good) {st : LSt σ V K} (h : Inv S Good st) :
    Inv S Good (onFail S p st (S.step st.obj).1) := by
  obtain ⟨j, hj⟩ := h.dL
  refine ⟨hl.good_set _ _ _ (hl.good_len _ _ (hl.good_step _ h.good)), ?_, hl.U_set _ _ _, hl.L_set _ _ _, j + 1, ?_⟩
  · simp only [Stepping.onFail, hl.len_set, hl.len_len]
  · simp only [Stepping.onFail]
    rw [hj, half_pow]

theorem Inv.onSuccess (hl : Laws S Good) {st : LSt σ V K} (h : Inv S Good st) :
    Inv S Good (onSuccess S p st (S.step st.obj).1) := by
  obtain ⟨j, hj⟩ := h.dL
  have hg := hl.good_step _ h.good
  have hlen := hl.len_step _ h.good
  simp only [Stepping.onSuccess]
  cases p.resets && !st.bisected
  · exact ⟨hg, hlen.trans h.len, rfl, rfl, j, hj⟩
  · exact ⟨hl.good_len _ _ hg, hl.len_len _ _, hl.U_len _ _, hl.L_len _ _, 0, by simp⟩

/-- The last point stored. -/
def LSt.last (st : LSt σ V K) : Point V K := ⟨st.Uold, st.Lold, st.s⟩

theorem link_step {st : LSt σ V K} (h : Inv S Good st) (hf : fails S p st.obj = false) :
    Link S p Good st.dL0 st.last (onSuccess S p st (S.step st.obj).1).last := by
  obtain ⟨j, hj⟩ := h.dL
  have ht : (onSuccess S p st (S.step st.obj).1).last.time - st.last.time = st.dL := by
    simp only [LSt.last, onSuccess, add_sub_cancel_left]
  exact ⟨st.obj, h.good, h.U, h.L, by rw [ht, h.len], ⟨j, by rw [ht, hj]⟩, hf, rfl, rfl⟩

theorem loop_chain (hl : Laws S Good) (fuel n : ℕ) (st r : LSt σ V K) (h : Inv S Good st)
    (hr : loop S p fuel n st = some r) :
    r.dL0 = st.dL0 ∧ Inv S Good r ∧ ∃ new, r.out = st.out ++ new ∧ new.length = n ∧
      List.IsChain (Link S p Good st.dL0) (st.last :: new) ∧ (st.last :: new).getLast? = some r.last := by
  induction fuel generalizing n st with
  | zero =>
    cases n with
    | zero =>
      cases hr
      exact ⟨rfl, h, [], by simp, rfl, List.isChain_singleton _, rfl⟩
    | succ n => cases hr
  | succ fuel ih =>
    cases n with
    | zero =>
      cases hr
      exact ⟨rfl, h, [], by simp, rfl, List.isChain_singleton _, rfl⟩
    | succ n =>
      rw [loop] at hr
      split at hr
      · obtain ⟨h1, h2, new, h3, h4, h5, h6⟩ := ih _ _ (h.onFail hl) hr
        exact ⟨h1, h2, new, h3, h4, h5, h6⟩
      · rename_i hf
        obtain ⟨h1, h2, new, h3, h4, h5, h6⟩ := ih _ _ (h.onSuccess hl) hr
        refine ⟨h1, h2, (onSuccess S p st (S.step st.obj).1).last :: new, ?_, by simp [h4], ?_, ?_⟩
        · rw [h3]
          simp [onSuccess, LSt.last]
        · rw [List.isChain_cons_cons]
          exact ⟨link_step h (by simpa using hf), h5⟩
        · rw [List.getLast?_cons_cons, h6]

section props

variable [IsStrictOrderedRing K]

/-- **C107**: when the loop ends after `n` steps there are `n + 1` points, the first one at the origin, and
every other one is the result of a step that was not repeated from the point before, with a length that is
the first length halved some number of times; the curve time grows by that length. -/
theorem C107_points [Zero V] (hl : Laws S Good) (fuel n : ℕ) (obj : σ) (r : LSt σ V K) (h : Good obj)
    (hr : serialSolve S p fuel n obj = some r) :
    r.out.length = n + 1 ∧ r.out.head? = some ⟨0, 0, 0⟩ ∧ r.out.getLast? = some ⟨r.Uold, r.Lold, r.s⟩ ∧
      List.IsChain (Link S p Good (S.len obj)) r.out := by
  obtain ⟨-, -, new, h3, h4, h5, h6⟩ := loop_chain hl fuel n _ r (Inv.start hl obj h) hr
  have e : r.out = (start S obj).last :: new := h3
  rw [e]
  exact ⟨by simp [h4], rfl, h6, h5⟩

/-- **C107**: with a positive first length the curve times increase strictly, by at most that length. -/
theorem C107_times [Zero V] (hl : Laws S Good) (fuel n : ℕ) (obj : σ) (r : LSt σ V K) (h : Good obj)
    (hpos : 0 < S.len obj) (hr : serialSolve S p fuel n obj = some r) :
    List.IsChain (fun a b : Point V K => a.time < b.time ∧ b.time ≤ a.time + S.len obj) r.out := by
  obtain ⟨-, -, -, h4⟩ := C107_points hl fuel n obj r h hr
  refine h4.imp ?_
  rintro a b ⟨t, -, -, -, -, ⟨j, hj⟩, -⟩
  have h2 : (0 : K) < 2 ^ j := by positivity
  have h1 : (1 : K) ≤ 2 ^ j := one_le_pow₀ (by norm_num)
  have hp : 0 < S.len obj / 2 ^ j := div_pos hpos h2
  have hle : S.len obj / 2 ^ j ≤ S.len obj := div_le_self hpos.le h1
  constructor <;> linarith

/-- **C107**: without failing steps the curve times are the multiples of the first length. -/
theorem C107_uniform [Zero V] (n : ℕ) (obj : σ) (h : ∀ t, fails S p t = false) :
    ∃ r, serialSolve S p n n obj = some r ∧
      r.out.map Point.time = (List.range (n + 1)).map fun i : ℕ => (i : K) * S.len obj := by
  have key : ∀ (n : ℕ) (st : LSt σ V K), st.dL = st.dL0 → ∃ r, loop S p n n st = some r ∧
      r.out.map Point.time = st.out.map Point.time ++
        (List.range n).map fun i : ℕ => st.s + ((i : K) + 1) * st.dL0 := by
    intro n
    induction n with
    | zero => exact fun st _ => ⟨st, rfl, by simp⟩
    | succ n ih =>
      intro st hd
      obtain ⟨r, h1, h2⟩ := ih (onSuccess S p st (S.step st.obj).1) (by simp [onSuccess, hd])
      refine ⟨r, by rw [loop, h, if_neg (by simp), h1], ?_⟩
      rw [h2, List.range_succ_eq_map]
      simp only [onSuccess, List.map_append, List.map_cons, List.map_nil, List.append_assoc, List.cons_append,
        List.nil_append, hd, List.map_map, Nat.cast_zero, zero_add, one_mul]
      congr 2
      apply List.map_congr_left
      intro i _
      simp only [Function.comp, Nat.cast_succ]
      ring
  obtain ⟨r, h1, h2⟩ := key n (start S obj) rfl
  refine ⟨r, h1, ?_⟩
  rw [h2, List.range_succ_eq_map]
  simp only [start, List.map_cons, List.map_nil, List.cons_append, List.nil_append, List.map_map, Nat.cast_zero,
    zero_mul, zero_add]
  congr 1
  apply List.map_congr_left
  intro i _
  simp only [Function.comp, Nat.cast_succ]

/-! ### Termination -/

theorem loop_total (hl : Laws S Good) (eps : K) (m : ℕ) (hs : ∀ t, Good t → S.len t ≤ eps → fails S p t = false)
    (fuel n j : ℕ) (st : LSt σ V K) (h : Inv S Good st) (hm : st.dL0 ≤ eps * 2 ^ m)
    (hj : st.dL = st.dL0 / 2 ^ j) (hjm : j ≤ m) (hf : n * (m + 1) ≤ fuel + j) :
    (loop S p fuel n st).isSome := by
  induction fuel generalizing n j st with
  | zero =>
    cases n with
    | zero => rfl
    | succ n =>
      rw [Nat.add_mul] at hf
      omega
  | succ fuel ih =>
    cases n with
    | zero => rfl
    | succ n =>
      rw [loop]
      split
      · rename_i hfail
        have hlt : j < m := by
          by_contra hc
          obtain rfl : j = m := by omega
          have : S.len st.obj ≤ eps := by
            rw [h.len, hj, div_le_iff₀ (by positivity)]
            exact hm
          rw [hs _ h.good this] at hfail
          cases hfail
        refine ih (n + 1) (j + 1) _ (h.onFail hl) hm ?_ (by omega) (by omega)
        simp only [onFail]
        rw [hj, half_pow]
      · rw [Nat.add_mul] at hf
        by_cases hres : (p.resets && !st.bisected) = true
        · refine ih n 0 _ (h.onSuccess hl) hm ?_ (by omega) (by omega)
          simp [onSuccess, hres]
        · refine ih n j _ (h.onSuccess hl) hm ?_ hjm (by omega)
          simp [onSuccess, hres, hj]

/-- **C107**: if every step with a length of at most `eps > 0` succeeds, the loop ends; it calls `step()` at
most `n (m + 1)` times where `2^m` is at least the first length over `eps`. -/
theorem C107_terminates [Zero V] (hl : Laws S Good) (eps : K) (m : ℕ)
    (hs : ∀ t, Good t → S.len t ≤ eps → fails S p t = false) (n : ℕ) (obj : σ) (h : Good obj)
    (hm : S.len obj ≤ eps * 2 ^ m) : ∃ r, serialSolve S p (n * (m + 1)) n obj = some r :=
  Option.isSome_iff_exists.1
    (loop_total hl eps m hs _ n 0 _ (Inv.start hl obj h) hm (by simp [start]) (by omega) (by omega))

/-- **C107**: in particular it ends, over the rationals or the reals, for every positive `eps`. -/
theorem C107_terminates_exists [Archimedean K] [Zero V] (hl : Laws S Good) (eps : K) (heps : 0 < eps)
    (hs : ∀ t, Good t → S.len t ≤ eps → fails S p t = false) (n : ℕ) (obj : σ) (h : Good obj) :
    ∃ fuel r, serialSolve S p fuel n obj = some r := by
  obtain ⟨m, hm⟩ := pow_unbounded_of_one_lt (S.len obj / eps) (one_lt_two (α := K))
  refine ⟨_, C107_terminates hl eps m hs n obj h ?_⟩
  rw [div_lt_iff₀ heps] at hm
  rw [mul_comm]
  exact hm.le

end props

/-- **C107** violated: if the steps keep failing the loop never ends, whatever the solver does. -/
theorem C107_violated_endless [Zero V] (fuel n : ℕ) (obj : σ) (h : ∀ t, fails S p t = true) :
    serialSolve S p fuel (n + 1) obj = none := by
  have key : ∀ fuel (st : LSt σ V K), loop S p fuel (n + 1) st = none := by
    intro fuel
    induction fuel with
    | zero => exact fun _ => rfl
    | succ fuel ih =>
      intro st
      rw [loop, h, if_pos rfl, ih]
  exact key fuel _

/-! ### Lengths of the attempts -/

/-- The length of the next attempt as a function of the history of attempts, latest first: half after a
failure; after a success the first length, but the same length once more if the step before had failed and
the loop keeps it (`keep`), or always the same length if the loop does not restore it. -/
def nextLen (p : Program) (dL0 : K) : List (K × Bool) → K
  | [] => dL0
  | (l, false) :: _ => l / 2
  | [(_, true)] => dL0
  | (l, true) :: (_, c) :: _ => if p.resets && (c || !p.marks) then dL0 else l

/-- Did the latest attempt fail? -/
def lastFailed : List (K × Bool) → Bool
  | (_, false) :: _ => true
  | _ => false

/-- The lengths of all attempts so far and of the next one are as `nextLen` says. -/
structure Regular (p : Program) (st : LSt σ V K) : Prop where
  dL : st.dL = nextLen p st.dL0 st.attempts.reverse
  bisected : st.bisected = (p.marks && lastFailed st.attempts.reverse)
  past : ∀ a x b, st.attempts = a ++ x :: b → x.1 = nextLen p st.dL0 a.reverse

theorem Regular.extend {st : LSt σ V K} (h : Regular p st) (c : Bool) (a : List (K × Bool)) (x : K × Bool)
    (b : List (K × Bool)) (hab : st.attempts ++ [(st.dL, c)] = a ++ x :: b) :
    x.1 = nextLen p st.dL0 a.reverse := by
  rcases List.eq_nil_or_concat b with rfl | ⟨b', y, rfl⟩
  · obtain ⟨h1, h2⟩ := List.append_inj' hab rfl
    cases h2
    rw [← h1]
    exact h.dL
  · rw [List.concat_eq_append, ← List.cons_append, ← List.append_assoc] at hab
    obtain ⟨h1, -⟩ := List.append_inj' hab rfl
    exact h.past a x b' h1

theorem Regular.onFail {st : LSt σ V K} (h : Regular p st) (t : σ) : Regular p (onFail S p st t) := by
  refine ⟨?_, ?_, h.extend false⟩
  · simp [Stepping.onFail, nextLen]
  · simp only [Stepping.onFail, List.reverse_append, List.reverse_cons, List.reverse_nil, List.nil_append,
      List.cons_append, lastFailed, Bool.and_true]
    rw [h.bisected]
    cases p.marks <;> simp

theorem Regular.onSuccess {st : LSt σ V K} (h : Regular p st) (t : σ) : Regular p (onSuccess S p st t) := by
  refine ⟨?_, ?_, h.extend true⟩
  · have h1 := h.dL
    have h2 := h.bisected
    simp only [Stepping.onSuccess, List.reverse_append, List.reverse_cons, List.reverse_nil, List.nil_append,
      List.cons_append]
    cases hrev : st.attempts.reverse with
    | nil =>
      rw [hrev] at h1 h2
      simp only [nextLen] at h1 ⊢
      rw [h1, ite_self]
    | cons x l =>
      obtain ⟨l', c⟩ := x
      rw [hrev] at h2
      have e : (p.resets && !st.bisected) = (p.resets && (c || !p.marks)) := by
        rw [h2]
        cases c <;> simp [lastFailed]
      rw [e]
      rfl
  · simp only [Stepping.onSuccess, List.reverse_append, List.reverse_cons, List.reverse_nil, List.nil_append,
      List.cons_append, lastFailed, Bool.and_false]

theorem loop_attempts (fuel n : ℕ) (st r : LSt σ V K) (h : Regular p st) (hr : loop S p fuel n st = some r) :
    r.dL0 = st.dL0 ∧ Regular p r := by
  induction fuel generalizing n st with
  | zero =>
    cases n with
    | zero => cases hr; exact ⟨rfl, h⟩
    | succ n => cases hr
  | succ fuel ih =>
    cases n with
    | zero => cases hr; exact ⟨rfl, h⟩
    | succ n =>
      rw [loop] at hr
      split at hr
      · exact ih (n + 1) (onFail S p st (S.step st.obj).1) (h.onFail _) hr
      · exact ih n (onSuccess S p st (S.step st.obj).1) (h.onSuccess _) hr

/-- **C108**: every attempt of the loop has the length that `nextLen` derives from the attempts before. -/
theorem C108_lengths [Zero V] (fuel n : ℕ) (obj : σ) (r : LSt σ V K) (hr : serialSolve S p fuel n obj = some r)
    (a : List (K × Bool)) (x : K × Bool) (b : List (K × Bool)) (h : r.attempts = a ++ x :: b) :
    x.1 = nextLen p (S.len obj) a.reverse := by
  have h0 : Regular p (start S obj) := ⟨rfl, by simp [start, lastFailed], by simp [start]⟩
  obtain ⟨h1, h2⟩ := loop_attempts fuel n _ r h0 hr
  have := h2.past a x b h
  rw [h1] at this
  exact this

/-- **C108**: in `gsAPALMBase` and `gsThinShell_ArcLength` the length that succeeded after a failure is used
once more, and only after that the first length. -/
theorem C108_kept [Zero V] (hp : p = apalmBase ∨ p = thinShell) (fuel n : ℕ) (obj : σ) (r : LSt σ V K)
    (hr : serialSolve S p fuel n obj = some r) (a b : List (K × Bool)) (l l' m : K) (c d : Bool)
    (h : r.attempts = a ++ (l', c) :: (l, true) :: (m, d) :: b) : m = if c then S.len obj else l := by
  have := C108_lengths fuel n obj r hr (a ++ [(l', c), (l, true)]) (m, d) b (by simp [h])
  rcases hp with rfl | rfl <;> cases c <;> simpa [nextLen, apalmBase, thinShell] using this

/-- **C108** violated: in the quasi-static solvers the variable `bisected` is never true, and `benchmark_FrustrumALM`
has none, so the first length is restored directly after every success. -/
theorem C108_violated_quasistatic [Zero V] (hp : p = quasistatic ∨ p = frustrum) (fuel n : ℕ) (obj : σ) (r : LSt σ V K)
    (hr : serialSolve S p fuel n obj = some r) (a b : List (K × Bool)) (l m : K) (d : Bool)
    (h : r.attempts = a ++ (l, true) :: (m, d) :: b) : m = S.len obj := by
  have := C108_lengths fuel n obj r hr (a ++ [(l, true)]) (m, d) b (by simp [h])
  simp only [List.reverse_append, List.reverse_cons, List.reverse_nil, List.nil_append, List.cons_append] at this
  cases hr : a.reverse with
  | nil => simpa [hr, nextLen] using this
  | cons x t =>
    obtain ⟨y, c⟩ := x
    have h1 : p.marks = false ∧ p.resets = true := by rcases hp with rfl | rfl <;> exact ⟨rfl, rfl⟩
    simpa [hr, nextLen, h1.1, h1.2] using this

/-- **C108** violated: in `benchmark_Beam` the length never grows again. -/
theorem C108_violated_beam [Zero V] (fuel n : ℕ) (obj : σ) (r : LSt σ V K)
    (hr : serialSolve S beam fuel n obj = some r) (a b : List (K × Bool)) (l m : K) (c d : Bool)
    (h : r.attempts = a ++ (l, c) :: (m, d) :: b) : m = if c then l else l / 2 := by
  have := C108_lengths fuel n obj r hr (a ++ [(l, c)]) (m, d) b (by simp [h])
  have h0 := C108_lengths fuel n obj r hr a (l, c) ((m, d) :: b) h
  simp only [List.reverse_append, List.reverse_cons, List.reverse_nil, List.nil_append, List.cons_append] at this
  cases c with
  | false => simpa [nextLen] using this
  | true =>
    cases hr : a.reverse with
    | nil =>
      rw [hr] at h0 this
      simp only [nextLen] at h0 this
      simp [this, h0]
    | cons x t =>
      obtain ⟨y, c⟩ := x
      simpa [hr, nextLen, beam] using this

/-! ### Examples -/

/-- A solver on the line `U = L` that converges for lengths up to 1. -/
structure Toy where
  U : ℚ
  L : ℚ
  len : ℚ
  conv : Bool
deriving DecidableEq

/-- Steps of length up to `max` converge. -/
def toy (max : ℚ) : Solver Toy ℚ ℚ where
  setLength l t := { t with len := l }
  setSolution U L t := { t with U := U, L := L }
  step t := if t.len ≤ max then ({ t with U := t.U + t.len, L := t.L + t.len, conv := true }, .success)
    else ({ t with conv := false }, .notConverged)
  converged t := t.conv
  U t := t.U
  L t := t.L
  len t := t.len

theorem toy_laws (max : ℚ) : Laws (toy max) fun _ => True where
  U_set _ _ _ := rfl
  L_set _ _ _ := rfl
  len_set _ _ _ := rfl
  len_len _ _ := rfl
  U_len _ _ := rfl
  L_len _ _ := rfl
  good_set _ _ _ _ := trivial
  good_len _ _ _ := trivial
  good_step _ _ := trivial
  len_step t _ := by
    simp only [toy]
    split <;> rfl

/-- Curve times and attempts of four steps from length 4 when lengths up to 1 converge. -/
def toyRun (p : Program) (max : ℚ) : Option (List ℚ × List ℚ) :=
  (serialSolve (toy max) p 20 4 ⟨7, 7, 4, false⟩).map fun r => (r.out.map Point.time, r.attempts.map Prod.fst)

/-- `C107_points`, `C107_times`, `C108_kept`. -/
example : toyRun apalmBase 1 = some ([0, 1, 2, 3, 4], [4, 2, 1, 1, 4, 2, 1, 1]) := by decide +kernel

/-- `C108_violated_quasistatic`. -/
example : toyRun frustrum 1 = toyRun quasistatic 1 ∧ toyRun quasistatic 1 = some ([0, 1, 2, 3, 4], [4, 2, 1, 4, 2, 1, 4, 2, 1, 4, 2, 1]) := by decide +kernel

/-- `C108_violated_beam`. -/
example : toyRun beam 1 = some ([0, 1, 2, 3, 4], [4, 2, 1, 1, 1, 1]) := by decide +kernel

/-- `C107_uniform`. -/
example : toyRun apalmBase 4 = some ([0, 4, 8, 12, 16], [4, 4, 4, 4]) := by decide +kernel

/-- `C107_violated_endless`: no length converges. -/
example : toyRun apalmBase 0 = none := by decide +kernel

/-- `C107_terminates`: `eps = 1`, `m = 2`. -/
example : ∃ r, serialSolve (toy 1) apalmBase (4 * 3) 4 ⟨7, 7, 4, false⟩ = some r :=
  C107_terminates (toy_laws 1) 1 2 (by
    intro t _ h
    have h' : t.len ≤ 1 := h
    simp [fails, apalmBase, notConverged, toy, h']) 4 _ trivial (by norm_num [toy])

end GsSA.Stepping
