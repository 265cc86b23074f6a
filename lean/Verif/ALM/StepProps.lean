import Mathlib.Data.Int.Order.Basic
import Mathlib.Tactic.Linarith
import Mathlib.Tactic.Ring
import Verif.ALM.StepSpec
import Verif.ALM.Demo

/-!
# Properties of an arc-length step (C31, C32, C34)

`M` is any of the four methods. `s` is the solver object before the call of `step()`, `t` after it.
-/

namespace GsSA.ALM

open GsSA

set_option linter.unusedSectionVars false

variable {K V Mat Fac : Type} [Field K] [LinearOrder K] [AddCommGroup V] [Module K V]
variable {e : Env K V Mat Fac} {o : Opts K} {M : Method K V Mat Fac}

/-! ## C31: failure -/

/-- `step` returns (no exception escapes, no undefined behaviour), and `status()` gives the value
that was returned. -/
theorem C31_total (hM : IsMethod e o M) (s : St K V Mat Fac) :
    ∃ t st, step e o M s = (t, .ok st) ∧ t.status = st ∧ st ≠ .notStarted := by
  rcases step_cases hM.lawful s with ⟨u, -, -, h⟩ | ⟨u, x, -, -, h⟩
  · exact ⟨_, _, h, rfl, by simp⟩
  · exact ⟨_, _, h, rfl, by cases x <;> simp [statusOf]⟩

/-- A step which fails keeps the equilibrium point, all lengths and the setting for adaptive
lengths, and `converged()` is false. -/
theorem C31_failure (hM : IsMethod e o M) {s t : St K V Mat Fac} {st : Status}
    (h : step e o M s = (t, .ok st)) (hst : st ≠ .success) :
    t.U = s.U ∧ t.L = s.L ∧ t.len = s.len ∧ t.lenPrev = s.lenPrev ∧ t.lenOri = s.lenOri ∧
      t.adaptive = s.adaptive ∧ (s.initialized = true → t.converged = false) := by
  rcases step_cases hM.lawful s with ⟨u, -, -, h'⟩ | ⟨u, x, hr, hx, h'⟩
  · rw [h'] at h
    simp only [Prod.mk.injEq, Except.ok.injEq] at h
    exact absurd h.2.symm hst
  · rw [h'] at h
    simp only [Prod.mk.injEq, Except.ok.injEq] at h
    obtain ⟨rfl, rfl⟩ := h
    by_cases hi : s.initialized = true
    · obtain ⟨-, -, u, hc, -⟩ := (stepRaw_spec hM.lawful hi hr).2 x rfl
      exact ⟨u.U, u.L, u.len, u.lenPrev, u.lenOri, u.adaptive, fun _ => hc⟩
    · have hi' : s.initialized = false := by simpa using hi
      have : stepRaw e o M s = ({ s with log := .failedAssert :: s.log }, .error .other) :=
        Act.bind_error (beginStep_not_initialized hi')
      rw [hr] at this
      simp only [Prod.mk.injEq, Except.error.injEq] at this
      obtain ⟨rfl, rfl⟩ := this
      exact ⟨rfl, rfl, rfl, rfl, rfl, rfl, fun h => absurd h hi⟩

/-- `AssemblyError` is returned exactly if during the call a residual or Jacobian callback failed. -/
theorem C31_assembly (hM : IsMethod e o M) {s t : St K V Mat Fac} {st : Status}
    (h : step e o M s = (t, .ok st)) :
    ∃ l, t.log = l ++ s.log ∧
      (st = .assemblyError ↔ .residual false ∈ l ∨ .jacobian false ∈ l) := by
  obtain ⟨l, h1, h2⟩ := grows_stepRaw (e := e) (o := o) hM.lawful
    (bad := fun x => x = .residual false ∨ x = .jacobian false)
    (by rintro x (rfl | rfl) <;> simp [Event.err, Event.ofStab]) s
  rcases step_cases hM.lawful s with ⟨u, hr, -, h'⟩ | ⟨u, x, hr, hx, h'⟩
  · rw [hr] at h1 h2
    rw [h'] at h
    simp only [Prod.mk.injEq, Except.ok.injEq] at h
    obtain ⟨rfl, rfl⟩ := h
    refine ⟨l, h1, ?_⟩
    simp only at h2
    simp only [reduceCtorEq, false_iff]
    rintro (h | h)
    · exact h2 _ h (Or.inl rfl)
    · exact h2 _ h (Or.inr rfl)
  · rw [hr] at h1 h2
    rw [h'] at h
    simp only [Prod.mk.injEq, Except.ok.injEq] at h
    obtain ⟨rfl, rfl⟩ := h
    refine ⟨l, h1, ?_⟩
    have h3 : ∃ y l', l = y :: l' ∧ y.err = some x ∧
        ∀ z ∈ l', ¬(z = .residual false ∨ z = .jacobian false) := by
      cases x <;> first | exact absurd rfl hx | exact h2
    obtain ⟨y, l', rfl, hy, hl'⟩ := h3
    constructor
    · intro hs
      have hxa : x = .assembly := by cases x <;> simp_all [statusOf]
      subst hxa
      have : y = .residual false ∨ y = .jacobian false := by
        match y, hy with
        | .residual false, _ => exact Or.inl rfl
        | .jacobian false, _ => exact Or.inr rfl
      rcases this with rfl | rfl <;> simp
    · intro hm
      have : y = .residual false ∨ y = .jacobian false := by
        rcases hm with hm | hm
        · rcases List.mem_cons.1 hm with rfl | hm
          · exact Or.inl rfl
          · exact absurd (Or.inl rfl) (hl' _ hm)
        · rcases List.mem_cons.1 hm with rfl | hm
          · exact Or.inr rfl
          · exact absurd (Or.inr rfl) (hl' _ hm)
      rcases this with rfl | rfl <;> (simp only [Event.err, Option.some.injEq] at hy; subst hy; rfl)

/-- `SolverError` is returned only if the last thing the step did was a factorisation or a solve
that failed, and every such failure is returned, if the stability is not computed from a
factorisation (`BifurcationMethod` is not `Determinant`). -/
theorem C31_solver (hM : IsMethod e o M) {s t : St K V Mat Fac} {st : Status}
    (h : step e o M s = (t, .ok st)) :
    ∃ l, t.log = l ++ s.log ∧
      (st = .solverError → l.head? = some (.factor false) ∨ l.head? = some (.solve false)) ∧
      (o.bifMethod ≠ .determinant → (.factor false ∈ l ∨ .solve false ∈ l) →
        st = .solverError) := by
  obtain ⟨l, h1, h2⟩ := grows_stepRaw (e := e) (o := o) hM.lawful
    (bad := fun x => (x = .factor false ∨ x = .solve false) ∧ o.bifMethod ≠ .determinant)
    (by rintro x ⟨rfl | rfl, h⟩ <;> simp [Event.err, Event.ofStab, h]) s
  rcases step_cases hM.lawful s with ⟨u, hr, -, h'⟩ | ⟨u, x, hr, hx, h'⟩
  · rw [hr] at h1 h2
    rw [h'] at h
    simp only [Prod.mk.injEq, Except.ok.injEq] at h
    obtain ⟨rfl, rfl⟩ := h
    refine ⟨l, h1, by simp, ?_⟩
    simp only at h2
    rintro hb (h | h)
    · exact absurd ⟨Or.inl rfl, hb⟩ (h2 _ h)
    · exact absurd ⟨Or.inr rfl, hb⟩ (h2 _ h)
  · rw [hr] at h1 h2
    rw [h'] at h
    simp only [Prod.mk.injEq, Except.ok.injEq] at h
    obtain ⟨rfl, rfl⟩ := h
    refine ⟨l, h1, ?_⟩
    have h3 : ∃ y l', l = y :: l' ∧ y.err = some x ∧
        ∀ z ∈ l', ¬((z = .factor false ∨ z = .solve false) ∧ o.bifMethod ≠ .determinant) := by
      cases x <;> first | exact absurd rfl hx | exact h2
    obtain ⟨y, l', rfl, hy, hl'⟩ := h3
    constructor
    · intro hs
      have hxa : x = .solver := by cases x <;> simp_all [statusOf]
      subst hxa
      match y, hy with
      | .factor false, _ => exact Or.inl rfl
      | .solve false, _ => exact Or.inr rfl
    · intro hb hm
      have : y = .factor false ∨ y = .solve false := by
        rcases hm with hm | hm
        · rcases List.mem_cons.1 hm with rfl | hm
          · exact Or.inl rfl
          · exact absurd ⟨Or.inl rfl, hb⟩ (hl' _ hm)
        · rcases List.mem_cons.1 hm with rfl | hm
          · exact Or.inr rfl
          · exact absurd ⟨Or.inr rfl, hb⟩ (hl' _ hm)
      rcases this with rfl | rfl <;> (simp only [Event.err, Option.some.injEq] at hy; subst hy; rfl)

/-- `NotConverged` is returned only if `MaxIter - 1` iterations were made and the last iterate, whose
residual was evaluated, does not meet the criteria. -/
theorem C31_notConverged (hM : IsMethod e o M) {s t : St K V Mat Fac}
    (h : step e o M s = (t, .ok .notConverged)) :
    t.numIt + 1 = o.maxIt ∧ (∃ n r, e.residual n (t.U + t.DU) (t.L + t.DL) = some r ∧
      (below (ratio (e.geo.norm r) t.basisF) o.tolF = false ∨
        below (ratio (e.geo.norm t.dU) t.basisU) o.tolU = false)) := by
  rcases step_cases hM.lawful s with ⟨u, hr, -, h'⟩ | ⟨u, x, hr, hx, h'⟩
  · rw [h'] at h
    simp at h
  · rw [h'] at h
    simp only [Prod.mk.injEq, Except.ok.injEq] at h
    obtain ⟨rfl, h⟩ := h
    have hxa : x = .notConverged := by cases x <;> simp_all [statusOf]
    subst hxa
    have hi : s.initialized = true := by
      by_contra hi
      have hi' : s.initialized = false := by simpa using hi
      have : stepRaw e o M s = ({ s with log := .failedAssert :: s.log }, .error .other) :=
        Act.bind_error (beginStep_not_initialized hi')
      rw [hr] at this
      simp at this
    obtain ⟨-, -, -, -, h⟩ := (stepRaw_spec hM.lawful hi hr).2 _ rfl
    obtain ⟨h1, h2, ⟨n, h3⟩, h4, h5⟩ := h rfl
    refine ⟨h1, n, _, h3, ?_⟩
    rw [meets, h4, h5] at h2
    rwa [Bool.and_eq_false_iff] at h2

/-- `OtherError` is returned exactly if the solver was not initialised. -/
theorem C31_other (hM : IsMethod e o M) {s t : St K V Mat Fac} {st : Status}
    (h : step e o M s = (t, .ok st)) : st = .otherError ↔ s.initialized = false := by
  constructor
  · rintro rfl
    by_contra hi
    have hi : s.initialized = true := by simpa using hi
    rcases step_cases hM.lawful s with ⟨u, hr, -, h'⟩ | ⟨u, x, hr, hx, h'⟩
    · rw [h'] at h
      simp at h
    · rw [h'] at h
      simp only [Prod.mk.injEq, Except.ok.injEq] at h
      obtain ⟨h1, h2, -⟩ := (stepRaw_spec hM.lawful hi hr).2 x rfl
      have := h.2
      cases x <;> simp_all [statusOf]
  · intro hi
    have : stepRaw e o M s = ({ s with log := .failedAssert :: s.log }, .error .other) :=
      Act.bind_error (beginStep_not_initialized hi)
    have h' := caught_error (f := fun t => { t with status := .success }) this (by simp)
    change step e o M s = _ at h'
    rw [h'] at h
    simp only [Prod.mk.injEq, Except.ok.injEq] at h
    exact h.2.symm

section examples

open Demo

/-- The status, the point and the iteration count after one Crisfield step of length 1. -/
private def outcome (c : ℚ) (bad badFac : ℕ → Bool) (maxIt : ℕ) (init : Bool) :
    Option (Status × ℚ × ℚ × ℕ) :=
  match step (env c bad badFac) (opts maxIt 5) (crisfield (env c bad badFac) (opts maxIt 5))
    { start 1 true with initialized := init } with
  | (t, .ok st) => some (st, t.U, t.L, t.numIt)
  | _ => none

/-- `C31_total`, `C31_failure`, `C31_assembly`: the residual fails in the second iteration. -/
example : outcome 1 (· == 18) fine 10 true = some (.assemblyError, 0, 0, 2) := by decide +kernel

/-- `C31_solver`: a factorisation fails in the first iteration. -/
example : outcome 1 fine (· == 6) 10 true = some (.solverError, 0, 0, 1) := by decide +kernel

/-- `C31_notConverged`: the third iteration would converge. -/
example : outcome 1 fine fine 3 true = some (.notConverged, 0, 0, 2) := by decide +kernel

example : outcome 1 fine fine 10 false = some (.otherError, 0, 0, 0) := by decide +kernel

/-- `C32_success`, `C34_step`, `C34_bounds`: without failures the step moves. -/
example : (outcome 1 fine fine 4 true).any
    (fun x => x.1 == .success && decide (0 < x.2.1 ∧ 0 < x.2.2.1) && x.2.2.2 == 3) = true := by
  decide +kernel

end examples

/-- The condition on the bifurcation method cannot be dropped: a factorisation that fails within the
stability computation of an iteration is not reported, and the step succeeds. -/
theorem C31_violated_determinant :
    ∃ (e : Env ℚ ℚ ℚ ℚ) (o : Opts ℚ) (s t : St ℚ ℚ ℚ ℚ),
      step e o (loadControl e) s = (t, .ok .success) ∧ s.log = [] ∧ .factor false ∈ t.log := by
  have h : (match step (Demo.env 0 Demo.fine (· == 9)) { Demo.opts 10 5 with bifMethod := .determinant }
      (loadControl (Demo.env 0 Demo.fine (· == 9))) (Demo.start 1 true) with
    | (t, .ok .success) => decide (.factor false ∈ t.log)
    | _ => false) = true := by decide +kernel
  refine ⟨Demo.env 0 Demo.fine (· == 9), { Demo.opts 10 5 with bifMethod := .determinant },
    Demo.start 1 true, ?_⟩
  split at h
  · next t ht => exact ⟨t, ht, rfl, by simpa using h⟩
  · simp at h

/-! ## C32: success -/

/-- If `step` returns `Success` and at least one iteration is allowed, then the residual at the new
point, relative to the load after the predictor, is below `TolF`; the last displacement correction,
relative to the predictor `p`, is below `TolU`; `converged()` is true; and the new point is the old
one plus the accumulated increments. -/
theorem C32_success (hM : IsMethod e o M) {s t : St K V Mat Fac}
    (h : step e o M s = (t, .ok .success)) (hmax : 2 ≤ o.maxIt) :
    ∃ p n r, beginStep e M s = (p, .ok ()) ∧ e.residual n t.U t.L = some r ∧
      e.geo.norm ((s.L + p.DL) • e.forcing) ≠ 0 ∧
      e.geo.norm r / e.geo.norm ((s.L + p.DL) • e.forcing) < o.tolF ∧
      e.geo.norm p.DU ≠ 0 ∧ e.geo.norm t.dU / e.geo.norm p.DU < o.tolU ∧
      t.converged = true ∧ t.U = s.U + t.DU ∧ t.L = s.L + t.DL ∧ t.Uprev = s.U ∧ t.Lprev = s.L ∧
      t.initialized = true ∧ t.status = .success ∧ 1 ≤ t.numIt ∧ t.numIt < o.maxIt := by
  rcases step_cases hM.lawful s with ⟨u, hr, hi, h'⟩ | ⟨u, x, hr, hx, h'⟩
  · rw [h'] at h
    simp only [Prod.mk.injEq] at h
    obtain ⟨rfl, -⟩ := h
    obtain ⟨p, q, c, ha⟩ := (stepRaw_spec hM.lawful hi hr).1 rfl
    rw [if_neg (by omega)] at ha
    have a := ha
    obtain ⟨n, hn⟩ := a.residual
    have hF := a.residueF
    have hU := a.residueU
    rw [a.basisF, c.basisF] at hF
    rw [a.basisU, c.basisU] at hU
    have hm := a.meets
    rw [meets, hF, hU] at hm
    simp only [Bool.and_eq_true] at hm
    obtain ⟨hmF, hmU⟩ := hm
    have key : ∀ {a b tol : K}, below (ratio a b) tol = true → b ≠ 0 ∧ a / b < tol := by
      intro a b tol hb
      unfold ratio at hb
      split at hb
      · simp [below] at hb
      · next hb0 => exact ⟨hb0, by simpa [below] using hb⟩
    have hnum := a.first
    rw [c.numIt] at hnum
    refine ⟨p, n, u.resVec, c.predictor, hn, (key hmF).1, (key hmF).2, (key hmU).1, (key hmU).2,
      a.converged, ?_, ?_, ?_, ?_, ?_, rfl, hnum, a.last⟩
    · rw [← c.unfinished.U]; exact a.U
    · rw [← c.unfinished.L]; exact a.L
    · rw [← c.unfinished.U]; exact a.Uprev
    · rw [← c.unfinished.L]; exact a.Lprev
    · rw [← hi, ← c.unfinished.initialized]; exact a.initialized
  · rw [h'] at h
    simp only [Prod.mk.injEq, Except.ok.injEq] at h
    cases x <;> simp_all [statusOf]

/-- With `MaxIter <= 1` a step that returns `Success` has not moved and `converged()` is false. -/
theorem C32_violated_noIteration (hM : IsMethod e o M) {s t : St K V Mat Fac}
    (h : step e o M s = (t, .ok .success)) (hmax : o.maxIt ≤ 1) :
    t.U = s.U ∧ t.L = s.L ∧ t.converged = false := by
  rcases step_cases hM.lawful s with ⟨u, hr, hi, h'⟩ | ⟨u, x, hr, hx, h'⟩
  · rw [h'] at h
    simp only [Prod.mk.injEq] at h
    obtain ⟨rfl, -⟩ := h
    obtain ⟨p, q, c, ha⟩ := (stepRaw_spec hM.lawful hi hr).1 rfl
    rw [if_pos hmax] at ha
    subst ha
    exact ⟨c.unfinished.U, c.unfinished.L, c.converged⟩
  · rw [h'] at h
    simp only [Prod.mk.injEq, Except.ok.injEq] at h
    cases x <;> simp_all [statusOf]

/-- It does happen. -/
example : outcome 1 Demo.fine Demo.fine 1 true = some (.success, 0, 0, 1) := by decide +kernel

/-! ## C34: adaptive lengths -/

section C34

variable [IsStrictOrderedRing K]

/-- The factor of `computeLength` after `num > 0` iterations takes three values only. -/
theorem C34_factor (desired : ℤ) {num : ℕ} (hn : 0 < num) :
    (lengthFactor desired num : K) =
      if 2 * (num : ℤ) ≤ desired then 2 else if (num : ℤ) ≤ desired then 1 else 1 / 2 := by
  have hn' : (0 : ℤ) < num := by exact_mod_cast hn
  unfold lengthFactor
  have h2 : (1 : K) / 2 < 1 := by linarith [half_lt_self (zero_lt_one' K)]
  by_cases h1 : 2 * (num : ℤ) ≤ desired
  · rw [if_pos h1]
    have hd : 2 ≤ desired.tdiv num := by
      rw [Int.tdiv_eq_ediv_of_nonneg (by omega)]
      exact Int.le_ediv_of_mul_le hn' h1
    have hc : (2 : K) ≤ ((desired.tdiv num : ℤ) : K) := by exact_mod_cast hd
    rw [if_neg (by linarith)]
    split
    · rfl
    · next h => exact le_antisymm (not_lt.1 h) hc
  · rw [if_neg h1]
    by_cases h3 : (num : ℤ) ≤ desired
    · rw [if_pos h3]
      have hd : desired.tdiv num = 1 := by
        rw [Int.tdiv_eq_ediv_of_nonneg (by omega)]
        apply le_antisymm
        · have : desired / num < 2 := Int.ediv_lt_of_lt_mul hn' (by omega)
          omega
        · exact Int.le_ediv_of_mul_le hn' (by omega)
      simp only [hd, Int.cast_one]
      rw [if_neg (by linarith), if_neg (by linarith)]
    · rw [if_neg h3]
      have hd : desired.tdiv num ≤ 0 := by
        by_cases h0 : 0 ≤ desired
        · rw [Int.tdiv_eq_zero_of_lt h0 (by omega)]
        · have h5 := Int.tdiv_nonneg (a := -desired) (b := num) (by omega) (by omega)
          rw [Int.neg_tdiv] at h5
          omega
      have hc : ((desired.tdiv num : ℤ) : K) ≤ 0 := by exact_mod_cast hd
      rw [if_pos (by linarith [half_pos (zero_lt_one' K)])]

/-- After a successful step with adaptive lengths the length is half, equal to or twice the length
before, depending on the number of iterations only; without adaptive lengths it is kept. The length
in force during the step becomes the previous length. -/
theorem C34_step (hM : IsMethod e o M) {s t : St K V Mat Fac}
    (h : step e o M s = (t, .ok .success)) (hmax : 2 ≤ o.maxIt) :
    t.lenPrev = s.len ∧ t.lenOri = s.lenOri ∧ t.len =
      if s.adaptive = false then s.len
      else if 2 * (t.numIt : ℤ) ≤ o.desiredIt then 2 * s.len
      else if (t.numIt : ℤ) ≤ o.desiredIt then s.len else s.len / 2 := by
  rcases step_cases hM.lawful s with ⟨u, hr, hi, h'⟩ | ⟨u, x, hr, hx, h'⟩
  · rw [h'] at h
    simp only [Prod.mk.injEq] at h
    obtain ⟨rfl, -⟩ := h
    obtain ⟨p, q, c, ha⟩ := (stepRaw_spec hM.lawful hi hr).1 rfl
    rw [if_neg (by omega)] at ha
    have hn : 0 < u.numIt := by
      have := ha.first
      rw [c.numIt] at this
      omega
    refine ⟨by rw [← c.unfinished.len]; exact ha.lenPrev,
      by rw [← c.unfinished.lenOri]; exact ha.lenOri, ?_⟩
    simp only
    rw [ha.len, c.unfinished.adaptive, c.unfinished.len, C34_factor _ hn]
    cases s.adaptive
    · simp
    · simp only [if_true, Bool.true_eq_false, if_false]
      split
      · ring
      · split
        · ring
        · rw [mul_one_div]
  · rw [h'] at h
    simp only [Prod.mk.injEq, Except.ok.injEq] at h
    cases x <;> simp_all [statusOf]

/-- Whatever the outcome of a step, the length stays between half and twice the length before. -/
theorem C34_bounds (hM : IsMethod e o M) {s t : St K V Mat Fac} {st : Status}
    (h : step e o M s = (t, .ok st)) (hmax : 2 ≤ o.maxIt) (hlen : 0 ≤ s.len) :
    s.len / 2 ≤ t.len ∧ t.len ≤ 2 * s.len := by
  by_cases hst : st = .success
  · subst hst
    rw [(C34_step hM h hmax).2.2]
    split
    · constructor <;> linarith
    · split
      · constructor <;> linarith
      · split <;> constructor <;> linarith
  · rw [(C31_failure hM h hst).2.2.1]
    constructor <;> linarith

/-- `resetLength` on a solver with adaptive lengths that has not made a step divides by zero. -/
theorem C34_violated_resetLength {s : St K V Mat Fac} (h : s.numIt = 0) (ha : s.adaptive = true) :
    (resetLength o s).2 = .error .ub := by
  simp [resetLength, computeLength, Act.bind_apply, h, ha]

/-- After a step, `resetLength` gives the original length, times the factor if lengths are
adaptive. -/
theorem C34_resetLength {s : St K V Mat Fac} (h : 0 < s.numIt) :
    (resetLength o s).2 = .ok (if s.adaptive = false then s.lenOri
      else if 2 * (s.numIt : ℤ) ≤ o.desiredIt then 2 * s.lenOri
      else if (s.numIt : ℤ) ≤ o.desiredIt then s.lenOri else s.lenOri / 2) ∧
    (resetLength o s).1.lenPrev = s.lenOri := by
  have h0 : s.numIt ≠ 0 := by omega
  cases ha : s.adaptive
  · simp [resetLength, Act.bind_apply, ha]
  · simp only [resetLength, computeLength, Act.bind_apply, ha, Act.modify_apply, Act.get_apply,
      if_true, h0, if_false, Act.pure_apply, C34_factor _ h, Except.ok.injEq, Bool.true_eq_false]
    refine ⟨?_, trivial⟩
    split
    · ring
    · split
      · ring
      · rw [mul_one_div]

section examples

open Demo

/-- The length after one step of length 1 on the linear problem, which takes one iteration, for some
values of `AdaptiveIterations`. -/
example : [1, 2, 0].map (fun d => (step (env 0 fine fine) (opts 10 d) (loadControl (env 0 fine fine))
    (start 1 true)).1.len) = [1, 2, 1 / 2] := by decide +kernel

/-- `C34_factor`: three iterations. -/
example : [2, 3, 5, 6].map (fun d => (step (env 1 fine fine) (opts 10 d)
    (loadControl (env 1 fine fine)) (start 1 true)).1.len) = [1 / 2, 1, 1, 2] := by decide +kernel

example : (resetLength (opts 10 5) (start 1 true)).2 = .error .ub :=
  C34_violated_resetLength rfl rfl

end examples

end C34

end GsSA.ALM
