import Verif.Driver.Steps
import Verif.Data.Check
import Verif.Data.Invariant
import Verif.Data.History
import Verif.Data.Check
import Mathlib.Tactic.Linarith
import Mathlib.Tactic.Ring
import Mathlib.Tactic.FieldSimp
import Mathlib.Tactic.NormNum
import Mathlib.Algebra.Order.Archimedean.Basic

/-!
# Properties C17-C20: one job of the arc-length solver
-/

set_option linter.unusedSectionVars false

namespace GsSA.APALM

open GsSA

variable {A K S : Type*} [Field K] [LinearOrder K] [IsStrictOrderedRing K]

/-- The setters of the solver do what they say; `len` is `getLength`. -/
structure Lawful (M : Solver A K S) (len : A → K) : Prop where
  sol_setSolution : ∀ a s, M.sol (M.setSolution a s) = s
  sol_setLength : ∀ a l, M.sol (M.setLength a l) = M.sol a
  sol_setPrevious : ∀ a s, M.sol (M.setPrevious a s) = M.sol a
  len_setLength : ∀ a l, len (M.setLength a l) = l
  len_setSolution : ∀ a s, len (M.setSolution a s) = len a
  len_setPrevious : ∀ a s, len (M.setPrevious a s) = len a

/-- A step of the solver that was stored: prescribed length, new solution, measured distance. -/
structure Stored (K S : Type*) where
  len : K
  sol : S
  dist : K

/-- `Path M len ok x l`: the stored steps `l` form a chain starting at the solution `x`; each one is
a step made from its predecessor, with the given prescribed length, ending with a status in `ok`. -/
inductive Path (M : Solver A K S) (len : A → K) (ok : Status → Prop) : S → List (Stored K S) → Prop
  | nil (x : S) : Path M len ok x []
  | cons (a : A) (l : List (Stored K S)) : ok (M.step a).1 → Path M len ok (M.sol (M.step a).2) l →
      Path M len ok (M.sol a)
        (⟨len a, M.sol (M.step a).2, M.dist (M.step a).2 (M.sol (M.step a).2) (M.sol a)⟩ :: l)

/-- Neither `NotConverged` nor `AssemblyError`. -/
def NotHalving (st : Status) : Prop := st ≠ .notConverged ∧ st ≠ .assemblyError

theorem not_halves {st : Status} (h : ¬ Status.halves st = true) : NotHalving st := by
  simpa [Status.halves, NotHalving] using h

/-- Last solution of a chain. -/
def endOf (x : S) (l : List (Stored K S)) : S := (l.map (·.sol)).getLastD x

theorem endOf_append (x : S) (l : List (Stored K S)) (s : Stored K S) :
    endOf x (l ++ [s]) = s.sol := by
  simp [endOf]

theorem Path.snoc {M : Solver A K S} {len : A → K} {ok : Status → Prop} {x : S}
    {l : List (Stored K S)} (h : Path M len ok x l) (a : A) (ha : M.sol a = endOf x l)
    (hok : ok (M.step a).1) :
    Path M len ok x (l ++
      [⟨len a, M.sol (M.step a).2, M.dist (M.step a).2 (M.sol (M.step a).2) (M.sol a)⟩]) := by
  induction h with
  | nil x =>
    have : M.sol a = x := by simpa [endOf] using ha
    rw [← this]
    exact .cons a [] hok (.nil _)
  | cons b l hb hl ih =>
    refine .cons b _ hb (ih ?_)
    rw [ha, endOf, endOf, List.map_cons, List.getLastD_cons]

/-- Loop invariant of `_correction`. -/
structure CInv (M : Solver A K S) (len : A → K) (dL0 Dt : K) (N : ℕ) (start : S)
    (s : CState A K S) (l : List (Stored K S)) : Prop where
  path : Path M len NotHalving start l
  sols : s.sols = l.map (·.sol)
  ds : s.ds = l.map (·.dist)
  k : s.k = l.length
  old : s.old = endOf start l
  sol : M.sol s.alm = s.old
  len : len s.alm = s.dL
  le : s.k ≤ s.n
  grow : N ≤ s.n
  bis : s.bisected = false → s.rem = 0
  bisLt : s.bisected = true → s.k < s.n
  total : (l.map (·.len)).sum + (s.dL + s.rem + ((s.n : K) - s.k - 1) * dL0) = Dt
  last : s.k = s.n → 0 < s.n → s.dL = dL0

theorem CInv.start {M : Solver A K S} {len : A → K} (hM : Lawful M len) (N : ℕ) (a : A) (Dt : K)
    (start prev : S) (hN : N ≠ 0) :
    CInv M len (Dt / N) Dt N start (corrStart M N a Dt start prev) [] := by
  have hN' : (N : K) ≠ 0 := Nat.cast_ne_zero.2 hN
  refine ⟨.nil _, rfl, rfl, rfl, rfl, ?_, ?_, Nat.zero_le _, le_rfl, fun _ => rfl, ?_, ?_, ?_⟩
  · simp [corrStart, hM.sol_setPrevious, hM.sol_setSolution]
  · simp [corrStart, hM.len_setPrevious, hM.len_setSolution, hM.len_setLength]
  · simp [corrStart]
  · simp only [corrStart, List.map_nil, List.sum_nil, Nat.cast_zero]
    field_simp
    ring
  · intro _ _; rfl

theorem CInv.body {M : Solver A K S} {len : A → K} (hM : Lawful M len) {dL0 Dt : K} {N : ℕ}
    {start : S} {s : CState A K S} {l : List (Stored K S)} (h : CInv M len dL0 Dt N start s l)
    (hk : s.k ≠ s.n) : ∃ l', CInv M len dL0 Dt N start (corrBody M dL0 s) l' := by
  have hlt : s.k < s.n := lt_of_le_of_ne h.le hk
  by_cases hh : Status.halves (M.step s.alm).1 = true
  · refine ⟨l, ?_⟩
    rw [corrBody]
    simp only [hh, if_true]
    refine ⟨h.path, h.sols, h.ds, h.k, h.old, ?_, ?_, h.le, h.grow, by simp, fun _ => hlt, ?_, ?_⟩
    · simp [hM.sol_setSolution]
    · simp [hM.len_setSolution, hM.len_setLength]
    · rw [← h.total]; ring
    · intro h1; exact absurd h1 hk
  · have hs : ∃ x : Stored K S, x = ⟨len s.alm, M.sol (M.step s.alm).2,
        M.dist (M.step s.alm).2 (M.sol (M.step s.alm).2) (M.sol s.alm)⟩ := ⟨_, rfl⟩
    obtain ⟨x, hx⟩ := hs
    have hpath := h.path.snoc s.alm (h.sol.trans h.old) (not_halves hh)
    rw [← hx] at hpath
    refine ⟨l ++ [x], ?_⟩
    rw [corrBody]
    simp only [hh, Bool.false_eq_true, if_false]
    have hxs : x.sol = M.sol (M.step s.alm).2 := by rw [hx]
    have hxl : x.len = s.dL := by rw [hx]; exact h.len
    have hxd : x.dist = M.dist (M.step s.alm).2 (M.sol (M.step s.alm).2) s.old := by
      rw [hx, h.sol]
    refine ⟨hpath, ?_, ?_, ?_, ?_, ?_, ?_, ?_, ?_, fun _ => rfl, by simp, ?_, ?_⟩
    · simp [h.sols, hxs]
    · simp [h.ds, hxd]
    · simp [h.k]
    · simp [endOf_append, hxs]
    · simp [hM.sol_setLength]
    · simp [hM.len_setLength]
    · split <;> simp only <;> omega
    · split <;> [exact le_trans h.grow (Nat.le_succ _); exact h.grow]
    · rw [← h.total]
      simp only [List.map_append, List.sum_append, List.map_cons, List.map_nil, List.sum_cons,
        List.sum_nil, hxl]
      cases hb : s.bisected
      · simp only [h.bis hb]
        push_cast
        simp
        ring
      · simp
        ring
    · intro h1 h2
      cases hb : s.bisected
      · simp
      · simp only [hb, if_true] at h1
        omega

theorem corrLoop_inv {M : Solver A K S} {len : A → K} (hM : Lawful M len) {dL0 Dt : K} {N : ℕ}
    {start : S} (fuel : ℕ) {s s' : CState A K S} {l : List (Stored K S)}
    (h : CInv M len dL0 Dt N start s l) (hr : corrLoop M dL0 fuel s = some s') :
    s'.k = s'.n ∧ ∃ l', CInv M len dL0 Dt N start s' l' := by
  induction fuel generalizing s l with
  | zero => simp [corrLoop] at hr
  | succ f ih =>
    simp only [corrLoop] at hr
    split at hr
    · rename_i hk
      injection hr with hr
      subst hr
      exact ⟨hk, l, h⟩
    · rename_i hk
      obtain ⟨l', h'⟩ := h.body hM hk
      exact ih h' hr

/-- **C17** Whatever the pattern of failures and halvings, a correction that returns has stored a
chain of solver steps starting at the given point, whose prescribed lengths add up to the length of
the interval. It returns the solutions and distances of that chain, at least as many as
`SubIntervals`, and the distances from its end and from its start to the reference. It never fails
(for `SubIntervals > 0`). -/
theorem C17_correction_is_a_path {M : Solver A K S} {len : A → K} (hM : Lawful M len)
    {N fuel : ℕ} {a : A} {Dt : K} {start prev ref : S} {r : Except Fail (Corr K S)} (hN : N ≠ 0)
    (hr : correction M N fuel a Dt start prev ref = some r) :
    ∃ (c : Corr K S) (l : List (Stored K S)), r = .ok c ∧ Path M len NotHalving start l ∧
      (l.map (·.len)).sum = Dt ∧ c.sols = l.map (·.sol) ∧ c.ds.dropLast = l.map (·.dist) ∧
      c.ds.length = c.sols.length + 1 ∧ N ≤ c.sols.length ∧
      ∃ b, M.sol b = endOf start l ∧ c.ds.getLast? = some (M.dist b ref (endOf start l)) ∧
        c.upper = M.dist b ref start ∧ c.lower = M.dist b (endOf start l) start := by
  simp only [correction, Option.map_eq_some_iff] at hr
  obtain ⟨s, hs, hf⟩ := hr
  obtain ⟨hk, l, h⟩ := corrLoop_inv hM fuel (CInv.start hM N a Dt start prev hN) hs
  have hlen : N ≤ l.length := by rw [← h.k, hk]; exact h.grow
  have hl : l ≠ [] := by intro h0; rw [h0] at hlen; simp at hlen; exact hN hlen
  have hlast : s.sols.getLast? = some (endOf start l) := by
    rw [h.sols, endOf, List.getLastD_eq_getLast?]
    cases hg : (l.map (·.sol)).getLast? with
    | none => simp at hg; exact absurd hg hl
    | some x => rfl
  unfold corrFinish at hf
  rw [hlast] at hf
  simp only at hf
  subst hf
  refine ⟨_, l, rfl, h.path, ?_, h.sols, ?_, ?_, ?_, s.alm, ?_, ?_, rfl, rfl⟩
  · have ht := h.total
    have hd : s.rem = 0 := by
      apply h.bis
      by_contra hb
      have := h.bisLt (by simpa using hb)
      omega
    have hp : 0 < s.n := by rw [← hk, h.k]; omega
    rw [h.last hk hp, hd, hk] at ht
    rw [← ht]; ring
  · simp [h.ds]
  · simp [h.ds, h.sols]
  · rw [h.sols, List.length_map]; exact hlen
  · rw [h.sol, h.old]
  · simp [h.sol, h.old]

/-- **C17** With `SubIntervals = 0` the correction reads the last element of an empty vector. -/
theorem C17_zero_subintervals (M : Solver A K S) (fuel : ℕ) (a : A) (Dt : K)
    (start prev ref : S) :
    correction M 0 (fuel + 1) a Dt start prev ref = some (.error .ub) := by
  simp [correction, corrLoop, corrStart, corrFinish]

theorem Path.sum_le {M : Solver A K S} {len : A → K} {x : S} {l : List (Stored K S)}
    (h : Path M len NotHalving x l)
    (hge : ∀ a, NotHalving (M.step a).1 →
      len a ≤ M.dist (M.step a).2 (M.sol (M.step a).2) (M.sol a)) :
    (l.map (·.len)).sum ≤ (l.map (·.dist)).sum := by
  induction h with
  | nil => simp
  | cons a l ha hl ih =>
    simp only [List.map_cons, List.sum_cons]
    exact add_le_add (hge a ha) ih

/-- **C18** If a stored step always travels at least its prescribed length, all accumulated
distances but the last reach the length of the interval. -/
theorem C18_total_length {M : Solver A K S} {len : A → K} (hM : Lawful M len)
    (hge : ∀ a, NotHalving (M.step a).1 →
      len a ≤ M.dist (M.step a).2 (M.sol (M.step a).2) (M.sol a))
    {N fuel : ℕ} {a : A} {Dt : K} {start prev ref : S} {c : Corr K S} (hN : N ≠ 0)
    (hr : correction M N fuel a Dt start prev ref = some (.ok c)) : Dt ≤ c.ds.dropLast.sum := by
  obtain ⟨c', l, h1, h2, h3, -, h5, -⟩ := C17_correction_is_a_path hM hN hr
  injection h1 with h1
  subst h1
  rw [h5, ← h3]
  exact h2.sum_le hge

theorem Exec.trans {d d' d'' : Data K S} {o o' : List (Op K S)} (h : Exec d o d')
    (h' : Exec d' o' d'') : Exec d (o ++ o') d'' := by
  induction h with
  | nil d => exact h'
  | cons hc he _ ih => exact .cons hc he (ih h')

/-- **C18** The result of a correction on the interval of an active refinement job is accepted by
`submit`, provided that the distances are positive. -/
theorem C18_submit_accepts {M : Solver A K S} {len : A → K} (hM : Lawful M len)
    (hge : ∀ a, NotHalving (M.step a).1 →
      len a ≤ M.dist (M.step a).2 (M.sol (M.step a).2) (M.sol a))
    {d : Data K S} (hd : Reachable d) {id : ℕ} {j : Job K} (hj : Active d id j) (hl : 0 < j.level)
    {N fuel : ℕ} {a : A} {start prev ref : S} {c : Corr K S} (hN : N ≠ 0)
    (hr : correction M N fuel a ((jobTimes d id).1.2 - (jobTimes d id).1.1) start prev ref =
      some (.ok c))
    (hpos : ∀ x ∈ c.ds, 0 < x) :
    ∃ d', submit d id c.ds c.sols c.upper c.lower = .ok d' ∧ Reachable (finishJob d' id) := by
  obtain ⟨ps, hrep⟩ := hd.rep
  have hsum := C18_total_length hM hge hN hr
  obtain ⟨c', l, h1, -, -, -, -, h6, -⟩ := C17_correction_is_a_path hM hN hr
  injection h1 with h1
  subst h1
  have hwidth : 0 < (jobTimes d id).1.2 - (jobTimes d id).1.1 := by
    obtain ⟨p, hp, hpx⟩ := hrep.job_lo (mem_allJobs_of_get hj)
    obtain ⟨q, hq, hqx⟩ := hrep.job_hi (mem_allJobs_of_get hj)
    obtain ⟨pre, x, y, post, he, hje, -⟩ := hrep.job_gap (mem_allJobs_of_get hj) hl
    have hpa : p = x := eq_of_xi hrep.sortedXi hp (by simp [he]) (by rw [hpx, hje])
    have hqb : q = y := eq_of_xi hrep.sortedXi hq (by simp [he]) (by rw [hqx, hje])
    rw [hrep.jobTimes_eq hj hp hq hpx hqx, hpa, hqb]
    have := hrep.sortedT
    rw [he] at this
    simp only [List.pairwise_append, List.pairwise_cons, List.mem_cons, forall_eq_or_imp] at this
    have := this.2.1.1.1
    simp only
    linarith
  have hct : Contract d (.complete id c.ds c.sols c.upper c.lower) := by
    refine ⟨j, hj, hl, h6, hpos, ?_⟩
    refine lt_of_le_of_lt (div_nonpos_of_nonpos_of_nonneg (by linarith) hwidth.le) (by positivity)
  obtain ⟨d', ps', hx, -⟩ := hrep.step _ hct
  cases hsub : submit d id c.ds c.sols c.upper c.lower with
  | error e => simp [exec, hsub, Except.map] at hx
  | ok d₁ =>
    refine ⟨d₁, rfl, ?_⟩
    obtain ⟨m, tol, dt, ops, he⟩ := hd
    refine ⟨m, tol, dt, ops ++ [.complete id c.ds c.sols c.upper c.lower], ?_⟩
    have hlast : Exec d [.complete id c.ds c.sols c.upper c.lower] (finishJob d₁ id) :=
      .cons hct (by simp [exec, hsub, Except.map]) (.nil _)
    exact he.trans hlast

theorem Path.mono {M : Solver A K S} {len : A → K} {ok ok' : Status → Prop} {x : S}
    {l : List (Stored K S)} (h : Path M len ok x l) (hok : ∀ a, ok (M.step a).1 → ok' (M.step a).1) :
    Path M len ok' x l := by
  induction h with
  | nil x => exact .nil x
  | cons a l ha _ ih => exact .cons a l (hok a ha) ih

/-- **C19** (partial: the full claim holds only if the solver never reports `SolverError`,
`NotStarted` or `OtherError`; see `C19_violation`.) Every solution stored by a correction comes from
a step that reported `Success`, made from the preceding stored solution. -/
theorem C19_only_success_partial {M : Solver A K S} {len : A → K} (hM : Lawful M len)
    (hst : ∀ a, (M.step a).1 = .success ∨ (M.step a).1 = .notConverged ∨
      (M.step a).1 = .assemblyError)
    {N fuel : ℕ} {a : A} {Dt : K} {start prev ref : S} {c : Corr K S} (hN : N ≠ 0)
    (hr : correction M N fuel a Dt start prev ref = some (.ok c)) :
    ∃ l : List (Stored K S), c.sols = l.map (·.sol) ∧ Path M len (· = .success) start l := by
  obtain ⟨c', l, h1, h2, -, h4, -⟩ := C17_correction_is_a_path hM hN hr
  injection h1 with h1
  subst h1
  refine ⟨l, h4, h2.mono fun a ha => ?_⟩
  rcases hst a with h | h | h
  · exact h
  · exact absurd h ha.1
  · exact absurd h ha.2

/-- A solver on the line: a step succeeds if its length is at most `ε`, otherwise it ends with the
status `bad`. State: (position, length). -/
def lineSolver (ε : ℚ) (bad : Status) : Solver (ℚ × ℚ) ℚ ℚ where
  setLength a l := (a.1, l)
  setSolution a s := (s, a.2)
  setPrevious a _ := a
  step a := if a.2 ≤ ε then (.success, (a.1 + a.2, a.2)) else (bad, a)
  sol a := a.1
  dist _ x y := |x - y|
  singular a _ := (false, a)
  switchBranch a := a

theorem lineSolver_lawful (ε : ℚ) (bad : Status) : Lawful (lineSolver ε bad) (fun a => a.2) := by
  constructor <;> intros <;> rfl

theorem lineSolver_travels (ε : ℚ) (a : ℚ × ℚ) (h : NotHalving ((lineSolver ε .notConverged).step a).1) :
    a.2 ≤ (lineSolver ε .notConverged).dist ((lineSolver ε .notConverged).step a).2
      ((lineSolver ε .notConverged).sol ((lineSolver ε .notConverged).step a).2)
      ((lineSolver ε .notConverged).sol a) := by
  simp only [lineSolver, NotHalving] at *
  split at h
  · rw [if_pos (by assumption)]
    simpa using le_abs_self a.2
  · simp at h

/-- The hypotheses of `C17_correction_is_a_path`, `C18_total_length` and `C19_only_success_partial` are met by a
correction with failures: length 3 in 2 intervals, steps above 2/3 fail, so both halves are bisected. -/
example : (∀ a : ℚ × ℚ, ((lineSolver (2/3) .notConverged).step a).1 = .success ∨
      ((lineSolver (2/3) .notConverged).step a).1 = .notConverged ∨
      ((lineSolver (2/3) .notConverged).step a).1 = .assemblyError) ∧
    Lawful (lineSolver (2/3) .notConverged) (fun a => a.2) ∧
    (∀ a : ℚ × ℚ, NotHalving ((lineSolver (2/3) .notConverged).step a).1 →
      a.2 ≤ (lineSolver (2/3) .notConverged).dist ((lineSolver (2/3) .notConverged).step a).2
        ((lineSolver (2/3) .notConverged).sol ((lineSolver (2/3) .notConverged).step a).2)
        ((lineSolver (2/3) .notConverged).sol a)) ∧
    (match correction (lineSolver (2/3) .notConverged) 2 100 (0, 0) 3 10 9 14 with
      | some (.ok c) => decide (c.sols.length = 6 ∧ c.ds.dropLast.sum = 3 ∧
          c.ds.getLast? = some 1 ∧ c.upper = 4 ∧ c.lower = 3)
      | _ => false) = true := by
  refine ⟨fun a => ?_, lineSolver_lawful _ _, fun a => lineSolver_travels _ a, ?_⟩
  · simp only [lineSolver]
    split <;> simp
  · decide +kernel

/-- `C18_submit_accepts`: the interval `[0, 3]` of a branch with the solutions 10 and 14 is corrected in this way, and
the result is submitted. -/
example : ∃ (d : Data ℚ ℚ) (j : Job ℚ) (c : Corr ℚ ℚ), Reachable d ∧ Active d 0 j ∧ 0 < j.level ∧
    correction (lineSolver (2/3) .notConverged) 2 100 (0, 0)
      ((jobTimes d 0).1.2 - (jobTimes d 0).1.1) 10 9 14 = some (.ok c) ∧ (∀ x ∈ c.ds, 0 < x) ∧ c.sols.length = 6 := by
  have h : (runChecked (Data.fresh 5 (1/10 : ℚ) 1) [.init [0, 3] [(10 : ℚ), 14], .pop]).any (fun d : Data ℚ ℚ =>
      (OMap.get? d.jobs 0).any (fun j => decide (0 < j.level) &&
        (match correction (lineSolver (2/3) .notConverged) 2 100 (0, 0)
            ((jobTimes d 0).1.2 - (jobTimes d 0).1.1) 10 9 14 with
          | some (.ok c) => decide ((∀ x ∈ c.ds, 0 < x) ∧ c.sols.length = 6)
          | _ => false))) = true := by
    decide +kernel
  simp only [Option.any_eq_true, Bool.and_eq_true, decide_eq_true_eq] at h
  obtain ⟨d, hd, j, hj, h1, h2⟩ := h
  split at h2
  · rename_i c hc
    exact ⟨d, j, c, ⟨_, _, _, _, exec_of_runChecked hd⟩, hj, h1, hc, of_decide_eq_true h2⟩
  · simp at h2

/-- **C19** The code violates the claim: with `SolverError` in every step the correction still
returns "solutions". -/
theorem C19_violation : ∃ (M : Solver (ℚ × ℚ) ℚ ℚ) (c : Corr ℚ ℚ), Lawful M (fun a => a.2) ∧
    (∀ a, (M.step a).1 = .solverError) ∧
    correction M 2 3 (0, 0) 3 10 9 14 = some (.ok c) ∧ c.sols = [10, 10] := by
  refine ⟨{ lineSolver 0 .solverError with step := fun a => (.solverError, a) },
    ⟨[0, 0, 4], [10, 10], 4, 0⟩, ?_, fun _ => rfl, ?_, rfl⟩
  · constructor <;> intros <;> rfl
  · have h : (match correction { lineSolver 0 .solverError with
          step := fun a => (.solverError, a) } 2 3 (0, 0) 3 10 9 14 with
        | some (.ok c) => decide (c.ds = [0, 0, 4] ∧ c.sols = [10, 10] ∧ c.upper = 4 ∧ c.lower = 0)
        | _ => false) = true := by decide +kernel
    split at h
    · rename_i c hc
      rw [hc]
      obtain ⟨h1, h2, h3, h4⟩ := of_decide_eq_true h
      rw [← h1, ← h2, ← h3, ← h4]
    · simp at h

/-! ## Initiation -/

theorem initLoop_spec {M : Solver A K S} {len : A → K} (hM : Lawful M len)
    (hfail : ∀ a, (M.step a).1 ≠ .success → ¬ Status.halves (M.step a).1 = true →
      M.sol (M.step a).2 = M.sol a ∧ len (M.step a).2 = len a)
    {start : S} (fuel : ℕ) {s s' : IState A K} (hs : M.sol s.alm = start) (hl : len s.alm = s.dL)
    (hr : initLoop M start fuel s = some s') :
    ∃ (m : ℕ) (a : A), M.sol a = start ∧ len a = s.dL / 2 ^ m ∧ (M.step a) = (.success, s'.alm) ∧
      ∀ i < m, ∃ b, M.sol b = start ∧ len b = s.dL / 2 ^ i ∧ Status.halves (M.step b).1 = true := by
  induction fuel generalizing s with
  | zero => simp [initLoop] at hr
  | succ f ih =>
    simp only [initLoop] at hr
    split at hr
    · rename_i hh
      obtain ⟨m, a, h1, h2, h3, h4⟩ := ih (by simp [hM.sol_setSolution])
        (by simp [hM.len_setSolution, hM.len_setLength]) hr
      simp only at h2 h4
      refine ⟨m + 1, a, h1, ?_, h3, ?_⟩
      · rw [h2, pow_succ']; field_simp
      · intro i hi
        cases i with
        | zero => exact ⟨s.alm, hs, by simp [hl], hh⟩
        | succ i =>
          obtain ⟨b, hb1, hb2, hb3⟩ := h4 i (by omega)
          refine ⟨b, hb1, ?_, hb3⟩
          rw [hb2, pow_succ']; field_simp
    · rename_i hh
      split at hr
      · rename_i hsucc
        injection hr with hr
        subst hr
        exact ⟨0, s.alm, hs, by simp [hl], by rw [← hsucc], by omega⟩
      · rename_i hsucc
        obtain ⟨e1, e2⟩ := hfail s.alm hsucc hh
        exact ih (s := ⟨(M.step s.alm).2, s.dL⟩) (e1.trans hs) (e2.trans hl) hr

/-- **C20** An initiation that returns has made a successful step from the start point with the
requested length divided by `2^m`, and every larger length in that sequence was tried from the start
point and failed. (For a solver that leaves length and solution alone when it fails with another
status, see `C20_solver_error_not_restored`.) Without a bifurcation the only solution returned is the
result of that step; with one, there are two solutions. -/
theorem C20_initiation {M : Solver A K S} {len : A → K} (hM : Lawful M len)
    (hfail : ∀ a, (M.step a).1 ≠ .success → ¬ Status.halves (M.step a).1 = true →
      M.sol (M.step a).2 = M.sol a ∧ len (M.step a).2 = len a)
    {fuel : ℕ} {a : A} {dL : K} {start prev : S} {r : Initiated A K S}
    (hr : initiation M fuel a dL start prev = some r) :
    ∃ (m : ℕ) (b b' : A), M.sol b = start ∧ len b = dL / 2 ^ m ∧ M.step b = (.success, b') ∧
      (∀ i < m, ∃ e, M.sol e = start ∧ len e = dL / 2 ^ i ∧
        ((M.step e).1 = .notConverged ∨ (M.step e).1 = .assemblyError)) ∧
      r.bifurcation = (M.singular b' start).1 ∧
      r.distance = M.dist (M.singular b' start).2 (M.sol (M.singular b' start).2) start ∧
      r.sols.head? = some (M.sol (M.singular b' start).2) ∧
      r.sols.length = (if r.bifurcation then 2 else 1) := by
  simp only [initiation, Option.map_eq_some_iff] at hr
  obtain ⟨s, hs, hf⟩ := hr
  obtain ⟨m, b, h1, h2, h3, h4⟩ := initLoop_spec hM hfail fuel
    (by simp [hM.sol_setPrevious, hM.sol_setSolution])
    (by simp [hM.len_setPrevious, hM.len_setSolution, hM.len_setLength]) hs
  refine ⟨m, b, s.alm, h1, h2, h3, ?_, ?_⟩
  · intro i hi
    obtain ⟨e, e1, e2, e3⟩ := h4 i hi
    exact ⟨e, e1, e2, by simpa [Status.halves] using e3⟩
  · rw [← hf]
    split <;> rename_i hb <;> simp [hb]

/-- **C20** If no step succeeds, the initiation never returns: there is no bound on the number of
retries. -/
theorem C20_never_returns {M : Solver A K S} (h : ∀ a, (M.step a).1 ≠ .success) (fuel : ℕ) (a : A)
    (dL : K) (start prev : S) : initiation M fuel a dL start prev = none := by
  simp only [initiation, Option.map_eq_none_iff]
  generalize (⟨_, dL⟩ : IState A K) = s
  induction fuel generalizing s with
  | zero => rfl
  | succ f ih =>
    simp only [initLoop]
    split
    · exact ih _
    · rw [if_neg (h s.alm)]; exact ih _

/-- `C20_never_returns`: a problem without further solutions. -/
example : ∀ a : ℚ × ℚ, (({ lineSolver 1 .notConverged with step := fun a => (.notConverged, a) } :
    Solver (ℚ × ℚ) ℚ ℚ).step a).1 ≠ .success := by
  simp

/-- **C20** If steps shorter than some `ε > 0` succeed, and longer ones do or are halved, the
initiation returns. -/
theorem C20_returns [Archimedean K] {M : Solver A K S} {len : A → K} (hM : Lawful M len) {ε : K}
    (hε : 0 < ε) (hshort : ∀ a, len a ≤ ε → (M.step a).1 = .success)
    (hlong : ∀ a, (M.step a).1 = .success ∨ Status.halves (M.step a).1 = true)
    (a : A) (dL : K) (start prev : S) : ∃ fuel r, initiation M fuel a dL start prev = some r := by
  obtain ⟨m, hm⟩ := pow_unbounded_of_one_lt (dL / ε) (one_lt_two (α := K))
  have hm' : dL ≤ 2 ^ m * ε := by
    rw [div_lt_iff₀ hε] at hm; exact hm.le
  have key : ∀ (m : ℕ) (s : IState A K), len s.alm = s.dL → s.dL ≤ 2 ^ m * ε →
      ∃ fuel r, initLoop M start fuel s = some r := by
    intro m
    induction m with
    | zero =>
      intro s hl hs
      have := hshort s.alm (by rw [hl]; simpa using hs)
      exact ⟨1, ⟨(M.step s.alm).2, s.dL⟩, by simp [initLoop, this, Status.halves]⟩
    | succ m ih =>
      intro s hl hs
      rcases hlong s.alm with hst | hst
      · exact ⟨1, ⟨(M.step s.alm).2, s.dL⟩, by simp [initLoop, hst, Status.halves]⟩
      · obtain ⟨fuel, r, hr⟩ := ih ⟨M.setSolution (M.setLength (M.step s.alm).2 (s.dL / 2)) start,
          s.dL / 2⟩ (by simp [hM.len_setSolution, hM.len_setLength]) (by
            simp only
            rw [pow_succ] at hs
            linarith)
        exact ⟨fuel + 1, r, by rw [initLoop]; simp only [hst, if_true]; exact hr⟩
  obtain ⟨fuel, r, hr⟩ := key m
    ⟨M.setPrevious (M.setSolution (M.setLength a dL) start) prev, dL⟩
    (by simp [hM.len_setPrevious, hM.len_setSolution, hM.len_setLength]) hm'
  refine ⟨fuel, ?_⟩
  simp only [initiation, hr, Option.map_some]
  exact ⟨_, rfl⟩

/-- `C20_initiation`, `C20_returns`, `C72_correction_returns`: three halvings, then success. -/
example : ∃ r, initiation (lineSolver (2/3) .assemblyError) 5 (0, 0) 4 10 9 = some r ∧
    r.distance = 1/2 ∧ r.sols = [21/2] := by
  have h : (initiation (lineSolver (2/3) .assemblyError) 5 (0, 0) 4 10 9).any (fun r =>
    decide (r.distance = 1/2 ∧ r.sols = [21/2])) = true := by decide +kernel
  rw [Option.any_eq_true] at h
  obtain ⟨r, hr, h⟩ := h
  exact ⟨r, hr, of_decide_eq_true h⟩

/-- **C20** After a `SolverError` the start point is not restored: with a solver that has moved when
it reports the error, the returned point is not a step from the start point. -/
theorem C20_solver_error_not_restored : ∃ (M : Solver (ℚ × ℚ) ℚ ℚ) (r : Initiated (ℚ × ℚ) ℚ ℚ),
    Lawful M (fun a => a.2) ∧ initiation M 2 (0, 0) 1 0 0 = some r ∧
    (∀ a, (M.step a).1 = .success → M.sol (M.step a).2 = M.sol a + a.2) ∧ r.sols = [6] := by
  refine ⟨{ lineSolver 0 .solverError with
      step := fun a => if a.1 = 0 then (.solverError, (5, a.2)) else (.success, (a.1 + a.2, a.2)) },
    ⟨6, [6], false, (6, 1)⟩, ?_, ?_, ?_, rfl⟩
  · constructor <;> intros <;> rfl
  · have h : (initiation { lineSolver 0 .solverError with
        step := fun a => if a.1 = 0 then (.solverError, (5, a.2)) else
          (.success, (a.1 + a.2, a.2)) } 2 (0, 0) 1 0 0).any (fun r =>
          decide (r.distance = 6 ∧ r.sols = [6] ∧ r.bifurcation = false ∧ r.alm = (6, 1))) =
        true := by decide +kernel
    rw [Option.any_eq_true] at h
    obtain ⟨r, hr, h⟩ := h
    rw [hr]
    obtain ⟨h1, h2, h3, h4⟩ := of_decide_eq_true h
    obtain ⟨r1, r2, r3, r4⟩ := r
    simp only at h1 h2 h3 h4
    subst h1 h2 h3 h4
    rfl
  · intro a h
    simp only at h ⊢
    split at h
    · simp at h
    · rename_i hne
      rw [if_neg hne]
      rfl

/-! ## Termination of a correction -/

/-- **C72** If steps shorter than some `ε > 0` are accepted, a correction returns after finitely many
steps, whatever happens to the longer ones. -/
theorem C72_correction_returns [Archimedean K] {M : Solver A K S} {len : A → K} (hM : Lawful M len)
    {ε : K} (hε : 0 < ε) (hshort : ∀ a, len a ≤ ε → NotHalving (M.step a).1)
    {N : ℕ} (hN : N ≠ 0) (a : A) {Dt : K} (hDt : 0 < Dt) (start prev ref : S) :
    ∃ fuel c, correction M N fuel a Dt start prev ref = some (.ok c) := by
  have hN' : (0 : K) < N := Nat.cast_pos.2 (Nat.pos_of_ne_zero hN)
  set dL0 := Dt / N with hdL0
  have hd0 : 0 < dL0 := div_pos hDt hN'
  set η := min (ε / 2) dL0 with hη
  have hηpos : 0 < η := lt_min (by linarith) hd0
  have hη1 : η ≤ ε / 2 := min_le_left _ _
  have hη2 : η ≤ dL0 := min_le_right _ _
  have key : ∀ (B : ℕ) (m : ℕ) (s : CState A K S) (l : List (Stored K S)),
      CInv M len dL0 Dt N start s l → η ≤ s.dL → (s.bisected = true → η ≤ s.rem) → 0 ≤ s.rem →
      s.dL ≤ 2 ^ m * ε → s.dL + s.rem + ((s.n : K) - s.k - 1) * dL0 ≤ B * η →
      ∃ fuel s', corrLoop M dL0 fuel s = some s' := by
    intro B
    induction B with
    | zero =>
      intro m s l h hs hb hr hm hB
      by_cases hk : s.k = s.n
      · exact ⟨1, s, by simp [corrLoop, hk]⟩
      · exfalso
        have hlt : s.k + 1 ≤ s.n := lt_of_le_of_ne h.le hk
        have : (0 : K) ≤ (s.n : K) - s.k - 1 := by
          have : ((s.k + 1 : ℕ) : K) ≤ s.n := Nat.cast_le.2 hlt
          push_cast at this
          linarith
        have := mul_nonneg this hd0.le
        simp only [Nat.cast_zero, zero_mul] at hB
        linarith
    | succ B ihB =>
      intro m
      induction m with
      | zero =>
        intro s l h hs hb hr hm hB
        by_cases hk : s.k = s.n
        · exact ⟨1, s, by simp [corrLoop, hk]⟩
        · have hst := hshort s.alm (by rw [h.len]; simpa using hm)
          have hnh : ¬ Status.halves (M.step s.alm).1 = true := by
            simpa [Status.halves, NotHalving] using hst
          obtain ⟨l', h'⟩ := h.body hM hk
          obtain ⟨m', hm'⟩ := pow_unbounded_of_one_lt ((corrBody M dL0 s).dL / ε)
            (one_lt_two (α := K))
          obtain ⟨fuel, s', hs'⟩ := ihB m' (corrBody M dL0 s) l' h' (by
              simp only [corrBody, hnh]
              cases hbb : s.bisected
              · simpa using hη2
              · simpa using hb hbb) (by simp [corrBody, hnh]) (by simp [corrBody, hnh])
            (by rw [div_lt_iff₀ hε] at hm'; exact hm'.le)
            (by
              simp only [corrBody, hnh]
              push_cast at hB
              cases hbb : s.bisected
              · rw [h.bis hbb] at hB
                simp
                linarith
              · simp
                linarith)
          exact ⟨fuel + 1, s', by simp [corrLoop, hk, hs']⟩
      | succ m ihm =>
        intro s l h hs hb hr hm hB
        by_cases hk : s.k = s.n
        · exact ⟨1, s, by simp [corrLoop, hk]⟩
        · obtain ⟨l', h'⟩ := h.body hM hk
          by_cases hnh : Status.halves (M.step s.alm).1 = true
          · have hgt : ε < s.dL := by
              by_contra hle
              have := hshort s.alm (by rw [h.len]; exact not_lt.1 hle)
              simp only [Status.halves, Bool.or_eq_true, beq_iff_eq] at hnh
              rcases hnh with h1 | h1
              · exact this.1 h1
              · exact this.2 h1
            obtain ⟨fuel, s', hs'⟩ := ihm (corrBody M dL0 s) l' h' (by
                simp only [corrBody, hnh, if_true]; linarith)
              (by simp only [corrBody, hnh, if_true]; intro _; linarith)
              (by simp only [corrBody, hnh, if_true]; linarith)
              (by simp only [corrBody, hnh, if_true]; rw [pow_succ] at hm; linarith)
              (by simp only [corrBody, hnh, if_true]; linarith)
            exact ⟨fuel + 1, s', by simp [corrLoop, hk, hs']⟩
          · obtain ⟨m', hm'⟩ := pow_unbounded_of_one_lt ((corrBody M dL0 s).dL / ε)
              (one_lt_two (α := K))
            obtain ⟨fuel, s', hs'⟩ := ihB m' (corrBody M dL0 s) l' h' (by
                simp only [corrBody, hnh]
                cases hbb : s.bisected
                · simpa using hη2
                · simpa using hb hbb) (by simp [corrBody, hnh]) (by simp [corrBody, hnh])
              (by rw [div_lt_iff₀ hε] at hm'; exact hm'.le)
              (by
                simp only [corrBody, hnh]
                push_cast at hB
                cases hbb : s.bisected
                · rw [h.bis hbb] at hB
                  simp
                  linarith
                · simp
                  linarith)
            exact ⟨fuel + 1, s', by simp [corrLoop, hk, hs']⟩
  have hst := CInv.start hM N a Dt start prev hN
  obtain ⟨m, hm⟩ := pow_unbounded_of_one_lt (dL0 / ε) (one_lt_two (α := K))
  obtain ⟨B, hB⟩ := Archimedean.arch Dt hηpos
  obtain ⟨fuel, s', hs'⟩ := key B m (corrStart M N a Dt start prev) [] hst hη2 (by simp [corrStart])
    (by simp [corrStart]) (by rw [div_lt_iff₀ hε] at hm; exact hm.le) (by
      have := hst.total
      simp only [List.map_nil, List.sum_nil, zero_add] at this
      rw [this]
      simpa using hB)
  have hc : correction M N fuel a Dt start prev ref = some (corrFinish M start ref s') := by
    simp only [correction]
    rw [← hdL0, hs']
    rfl
  obtain ⟨c, -, h1, -⟩ := C17_correction_is_a_path hM hN hc
  exact ⟨fuel, c, by rw [hc, h1]⟩

/-- `C20_initiation`, `C20_returns`, `C72_correction_returns`: the hypotheses on the steps. -/
example : (∀ a : ℚ × ℚ, a.2 ≤ 2/3 → ((lineSolver (2/3) .assemblyError).step a).1 = .success) ∧
    (∀ a, ((lineSolver (2/3) .assemblyError).step a).1 = .success ∨
      Status.halves ((lineSolver (2/3) .assemblyError).step a).1 = true) ∧
    (∀ a, ((lineSolver (2/3) .assemblyError).step a).1 ≠ .success →
      ¬ Status.halves ((lineSolver (2/3) .assemblyError).step a).1 = true →
      (lineSolver (2/3) .assemblyError).sol ((lineSolver (2/3) .assemblyError).step a).2 =
        (lineSolver (2/3) .assemblyError).sol a ∧ ((lineSolver (2/3) .assemblyError).step a).2.2 = a.2) ∧
    ∀ a : ℚ × ℚ, a.2 ≤ 2/3 → NotHalving ((lineSolver (2/3) .assemblyError).step a).1 := by
  refine ⟨fun a h => by simp [lineSolver, h], fun a => ?_, fun a => ?_, fun a h => by simp [lineSolver, h, NotHalving]⟩
  all_goals
    simp only [lineSolver]
    split <;> simp [Status.halves]

end GsSA.APALM
