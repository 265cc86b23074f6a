import Mathlib.Algebra.Field.Rat
import Mathlib.Algebra.Order.Ring.Rat
import Mathlib.Algebra.Module.LinearMap.Defs
import Mathlib.Tactic.Abel
import Mathlib.Tactic.NormNum
import Mathlib.Tactic.Ring
import Mathlib.Tactic.Linarith
import Verif.Static.NewtonSpec

/-!
# Properties C46, C47, C48, C49, C79: `gsStaticNewton`
-/

namespace GsSA.Static

open GsSA Newton
open GsSA.ALM (Act Err Event)

set_option linter.unusedSectionVars false

variable {K V Mat : Type} [Field K] [LinearOrder K] [AddCommGroup V] [Module K V]

theorem solveNonlinear_success {e : NEnv K V Mat} {o : Opts K} {s : NSt K V}
    (h : (solveNonlinear e o s).1 = .success) :
    ∃ t, solveNonlinearRaw e o s = (t, .ok ()) ∧
      (solveNonlinear e o s).2 = { t with status := .success } := by
  unfold solveNonlinear caught at h ⊢
  rcases hm : solveNonlinearRaw e o s with ⟨t, r⟩
  rw [hm] at h
  cases r with
  | ok a => exact ⟨t, rfl, rfl⟩
  | error x => cases x <;> simp [statusOf] at h

theorem solveNonlinear_failure {e : NEnv K V Mat} {o : Opts K} {s : NSt K V}
    (h : (solveNonlinear e o s).1 ≠ .success) :
    ∃ t x, solveNonlinearRaw e o s = (t, .error x) ∧ (solveNonlinear e o s).1 = statusOf x ∧
      (solveNonlinear e o s).2 = { t with status := statusOf x } := by
  unfold solveNonlinear caught at h ⊢
  rcases hm : solveNonlinearRaw e o s with ⟨t, r⟩
  rw [hm] at h
  cases r with
  | ok a => simp at h
  | error x => exact ⟨t, x, rfl, rfl, rfl⟩

/-! ## Examples -/

namespace Demo

/-- One degree of freedom with residual `L·load - 2 u - c u³`; the residual callback fails at the moments
`bad`. -/
def nenv (load c : ℚ) (bad : ℕ → Bool) : NEnv ℚ ℚ ℚ where
  norm x := |x|
  linear := 2
  force := load
  residual n L u := if bad n then none else some (L * load - 2 * u - c * u ^ 3)
  jacobian _ u _ := some (2 + 3 * c * u ^ 2)
  factorize _ m := decide (m ≠ 0)
  solve _ m b := some (b / m)

/-- Options. -/
def nopts (maxIt : ℕ) : Opts ℚ := ⟨1 / 100, -1, -1, maxIt, 1⟩

/-- Arbitrary (uninitialised) members. -/
def raw : NSt ℚ ℚ :=
  ⟨17, none, 17, 17, 17, true, 17, 17, 17, 17, .otherError, false, []⟩

/-- A new object with load factor `L`. -/
def fresh (L : ℚ) : NSt ℚ ℚ := setLoad (ctorAL raw) L

end Demo

/-! ## C46 -/

/-- C46: the tolerances of the convergence test are `TolF` and `TolU`, or `Tol` where these are -1. -/
theorem C46_tolerances (o : Opts K) : (o.tolF ≠ -1 → o.theTolF = o.tolF) ∧ (o.tolF = -1 → o.theTolF = o.tol) ∧
    (o.tolU ≠ -1 → o.theTolU = o.tolU) ∧ (o.tolU = -1 → o.theTolU = o.tol) :=
  ⟨fun h => if_pos h, fun h => if_neg (by simp [h]), fun h => if_pos h, fun h => if_neg (by simp [h])⟩

example : (Demo.nopts 25).theTolF = 1 / 100 ∧ ({ Demo.nopts 25 with tolU := 1 / 7 } : Opts ℚ).theTolU = 1 / 7 := by
  decide +kernel

/-- C46: if `solveNonlinear` returns `Success` and `maxIt ≥ 1`, the residual at `solution()` is smaller
than `tolF` times the residual at the start (or than `tolF`, if that is zero), the last increment
`Relaxation * deltaU` is smaller than `tolU` relative to `update()`, and `solution()` is the start plus
`update()`. The load is not changed. -/
theorem C46_success {e : NEnv K V Mat} {o : Opts K} {s : NSt K V} (hm : o.maxIt ≠ 0)
    (h : (solveNonlinear e o s).1 = .success) :
    ∃ R₀ R k₀ k d,
      e.residual k₀ s.L (base s) = some R₀ ∧
      e.residual k s.L (solveNonlinear e o s).2.U = some R ∧
      quotLt (e.norm R) (if e.norm R₀ = 0 then 1 else e.norm R₀) o.theTolF = true ∧
      quotLt (o.relax * e.norm (solveNonlinear e o s).2.du) (e.norm d) o.theTolU = true ∧
      (solveNonlinear e o s).2.DU = some d ∧
      (solveNonlinear e o s).2.U = base s + d ∧
      (solveNonlinear e o s).2.L = s.L ∧
      (solveNonlinear e o s).2.status = .success := by
  obtain ⟨t, h1, h2⟩ := solveNonlinear_success h
  rcases raw_cases h1 with ⟨u, hu, h3⟩ | ⟨x, hx, -⟩
  · obtain ⟨n, hn⟩ := Nat.exists_eq_succ_of_ne_zero hm
    rw [hn] at h3
    obtain ⟨w, hw, hc, rfl, -⟩ := loop_ok (by rw [hu.num, hn]; omega) h3
    obtain ⟨k₀, R₀, hR₀, hini⟩ := hu.ini
    obtain ⟨k, hk⟩ := hw.res
    obtain ⟨d, hd⟩ := hw.some
    simp only [converged, Bool.and_eq_true] at hc
    have hUd : w.upd = d := by simp [NSt.upd, hd]
    rw [hUd, hw.hU, hu.hU] at hk
    rw [hw.norm, hw.ini, hini, hUd] at hc
    rw [h2]
    refine ⟨R₀, w.R, k₀, k, d, hR₀, ?_, hc.2, hc.1, hd, ?_, hw.hL.trans hu.hL, rfl⟩
    · simpa [hw.hU, hu.hU, hUd, hu.hL] using hk
    · simp [hw.hU, hu.hU, hUd]
  · simp at hx

/-- C46, in terms of inequalities: for a time-independent residual, non-negative tolerances and an
object which has an update vector, `‖R(solution())‖ < tolF·max-free initial norm`. -/
theorem C46_residual {e : NEnv K V Mat} {o : Opts K} {s : NSt K V} [IsStrictOrderedRing K]
    (f : V → V) (hf : ∀ k U R, e.residual k s.L U = some R → R = f U) (hnn : ∀ x, 0 ≤ e.norm x)
    {d : V} (hd : s.DU = some d) (hm : o.maxIt ≠ 0) (hne : e.norm (f s.U) ≠ 0)
    (h : (solveNonlinear e o s).1 = .success) :
    e.norm (f (solveNonlinear e o s).2.U) < o.theTolF * e.norm (f s.U) := by
  obtain ⟨R₀, R, k₀, k, d', h0, h1, h2, -⟩ := C46_success hm h
  have hb : base s = s.U := by simp [base, hd]
  rw [hb] at h0
  have e0 := hf _ _ _ h0
  have e1 := hf _ _ _ h1
  rw [← e0] at hne
  rw [if_neg hne, quotLt, if_neg hne, decide_eq_true_eq] at h2
  have hpos : 0 < e.norm R₀ := lt_of_le_of_ne (hnn _) (Ne.symm hne)
  rw [div_lt_iff₀ hpos] at h2
  rw [← e0, ← e1]
  exact h2

/-- C46, the exception: with `maxIt = 0` the result is `Success` as soon as the residual at the start can
be computed; nothing is solved. -/
theorem C46_violated_noIterations {e : NEnv K V Mat} {o : Opts K} {s : NSt K V} {d R : V}
    (hd : s.DU = some d) (hh : s.headstart = false) (hm : o.maxIt = 0)
    (hR : e.residual s.log.length s.L s.U = some R) :
    (solveNonlinear e o s).1 = .success ∧ (solveNonlinear e o s).2.U = s.U := by
  simp [solveNonlinear, caught, solveNonlinearRaw, linearStart, start, Act.bind_apply, hd, hh, hm,
    computeResidual, hR, emit, loop]

/-- A solve of `2 u + u³ = 3` converges with `‖R‖ < 1/100 ‖R₀‖`. -/
example : (solveNonlinear (Demo.nenv 3 1 fun _ => false) (Demo.nopts 25) (Demo.fresh 1)).1 = .success ∧
    |3 - 2 * (solveNonlinear (Demo.nenv 3 1 fun _ => false) (Demo.nopts 25) (Demo.fresh 1)).2.U -
      (solveNonlinear (Demo.nenv 3 1 fun _ => false) (Demo.nopts 25) (Demo.fresh 1)).2.U ^ 3| <
      1 / 100 * 3 := by
  decide +kernel

/-- With `maxIt = 0`: `Success` at `u = 0`, where the residual is 3. -/
example : (solveNonlinear (Demo.nenv 3 1 fun _ => false) (Demo.nopts 0) (Demo.fresh 1)).1 = .success ∧
    (solveNonlinear (Demo.nenv 3 1 fun _ => false) (Demo.nopts 0) (Demo.fresh 1)).2.U = 0 := by
  decide +kernel

/-! ## C47 -/

/-- C47: the status belongs to what happened: `Success` without any failed call, otherwise the last
recorded event is the failed residual or Jacobian (`AssemblyError`), the failed factorisation or solve
(`SolverError`), or the iteration limit (`NotConverged`), and everything before succeeded. -/
theorem C47_status (e : NEnv K V Mat) (o : Opts K) (s : NSt K V) :
    ∃ l, (solveNonlinear e o s).2.log = l ++ s.log ∧
      (((solveNonlinear e o s).1 = .success ∧ ∀ x ∈ l, x.err = none) ∨
       (∃ x l', l = x :: l' ∧ (∀ y ∈ l', y.err = none) ∧
        (((solveNonlinear e o s).1 = .assemblyError ∧ (x = .residual false ∨ x = .jacobian false)) ∨
         ((solveNonlinear e o s).1 = .solverError ∧ (x = .factor false ∨ x = .solve false)) ∨
         ((solveNonlinear e o s).1 = .notConverged ∧ x = .limit)))) := by
  have hx := exact_solveNonlinearRaw e o
  by_cases h : (solveNonlinear e o s).1 = .success
  · obtain ⟨t, h1, h2⟩ := solveNonlinear_success h
    obtain ⟨l, h3, h4⟩ := hx.ok h1
    exact ⟨l, by rw [h2]; exact h3, .inl ⟨h, h4⟩⟩
  · obtain ⟨t, x, h1, h2, h3⟩ := solveNonlinear_failure h
    obtain ⟨y, l, h4, h5, h6⟩ := hx.error h1
    refine ⟨y :: l, by rw [h3]; exact h4, .inr ⟨y, l, rfl, h6, ?_⟩⟩
    rw [h2]
    have hne : x ≠ .other := by
      rintro rfl
      rcases raw_cases h1 with ⟨u, hu, h7⟩ | ⟨z, hz, hz', -⟩
      · rcases loop_error (by rw [hu.num]; omega) h7 with ⟨-, -, h8⟩ | ⟨h8, -⟩
        · simp at h8
        · simp at h8
      · simp only [Except.error.injEq] at hz
        subst hz
        simp [Hard] at hz'
    clear h h1 h2 h3 h4 hx
    cases y with
    | residual b => cases b <;> simp [Event.err] at h5; subst h5; simp [statusOf]
    | jacobian b => cases b <;> simp [Event.err] at h5; subst h5; simp [statusOf]
    | factor b => cases b <;> simp [Event.err] at h5; subst h5; simp [statusOf]
    | solve b => cases b <;> simp [Event.err] at h5; subst h5; simp [statusOf]
    | eig b => simp [Event.err] at h5
    | limit => simp [Event.err] at h5; subst h5; simp [statusOf]
    | failedAssert => simp [Event.err] at h5; exact absurd h5.symm hne
    | roots k => simp [Event.err] at h5

/-- C47: an assembly or solver failure leaves `solution()` unchanged, provided the object has an update
vector. -/
theorem C47_unchanged {e : NEnv K V Mat} {o : Opts K} {s : NSt K V} {d : V} (hd : s.DU = some d)
    (h : (solveNonlinear e o s).1 = .assemblyError ∨ (solveNonlinear e o s).1 = .solverError) :
    (solveNonlinear e o s).2.U = s.U ∧ (solveNonlinear e o s).2.L = s.L := by
  have hb : base s = s.U := by simp [base, hd]
  obtain ⟨t, x, h1, h2, h3⟩ := solveNonlinear_failure (e := e) (o := o) (s := s)
    (by rcases h with h | h <;> simp [h])
  rw [h3]
  rcases raw_cases h1 with ⟨u, hu, h7⟩ | ⟨z, -, -, hL, hU⟩
  · rcases loop_error (by rw [hu.num]; omega) h7 with ⟨h8, h9, -⟩ | ⟨h8, -⟩
    · exact ⟨h8.trans (hu.hU.trans hb), h9.trans hu.hL⟩
    · rw [h2, h8] at h
      simp [statusOf] at h
  · rw [hb, or_self] at hU
    exact ⟨hU, hL⟩

/-- C47: after `NotConverged` the solution is the last iterate: start plus `update()`, whose residual has
been computed and does not pass the test; `maxIt` iterations have been made. -/
theorem C47_notConverged {e : NEnv K V Mat} {o : Opts K} {s : NSt K V}
    (h : (solveNonlinear e o s).1 = .notConverged) :
    ∃ R₀ R k₀ k d,
      e.residual k₀ s.L (base s) = some R₀ ∧
      e.residual k s.L (solveNonlinear e o s).2.U = some R ∧
      (quotLt (e.norm R) (if e.norm R₀ = 0 then 1 else e.norm R₀) o.theTolF = false ∨
        quotLt (o.relax * e.norm (solveNonlinear e o s).2.du) (e.norm d) o.theTolU = false) ∧
      (solveNonlinear e o s).2.DU = some d ∧
      (solveNonlinear e o s).2.U = base s + d ∧
      iters (solveNonlinear e o s).2.log = iters s.log + o.maxIt := by
  obtain ⟨t, x, h1, h2, h3⟩ := solveNonlinear_failure (e := e) (o := o) (s := s) (by simp [h])
  have hx : x = .notConverged := by
    rw [h2] at h
    cases x <;> simp [statusOf] at h ⊢
  subst hx
  rcases raw_cases h1 with ⟨u, hu, h7⟩ | ⟨z, hz, hz', -⟩
  · rcases loop_error (by rw [hu.num]; omega) h7 with ⟨-, -, h8⟩ | ⟨-, w, hw, hc, rfl, hlast⟩
    · simp at h8
    · obtain ⟨k₀, R₀, hR₀, hini⟩ := hu.ini
      obtain ⟨k, hk⟩ := hw.res
      obtain ⟨d, hd⟩ := hw.some
      simp only [converged, Bool.and_eq_false_iff] at hc
      have hUd : w.upd = d := by simp [NSt.upd, hd]
      rw [hUd, hw.hU, hu.hU] at hk
      rw [hw.norm, hw.ini, hini, hUd] at hc
      rw [h3]
      refine ⟨R₀, w.R, k₀, k, d, hR₀, ?_, hc.symm, hd, ?_, ?_⟩
      · simpa [hw.hU, hu.hU, hUd, hu.hL] using hk
      · simp [hw.hU, hu.hU, hUd]
      · have h4 := hw.count
        rw [hu.count, hu.num] at h4
        simp only [iters, List.countP_cons] at h4 ⊢
        simp only [Bool.false_eq_true, if_false]
        omega
  · simp only [Except.error.injEq] at hz
    subst hz
    simp [Hard] at hz'

/-- C47, violation: without an update vector (after `setUpdate` with an empty vector) the linear solution
is computed first; if the residual then fails, `solution()` has been set to zero. -/
theorem C47_violated_linearStart {e : NEnv K V Mat} {o : Opts K} {s : NSt K V} {x : V}
    (hd : s.DU = none) (hf : e.factorize s.log.length e.linear = true)
    (hx : e.solve (s.log.length + 1) e.linear e.force = some x)
    (hR : e.residual (s.log.length + 2) s.L x = none) :
    (solveNonlinear e o s).1 = .assemblyError ∧ (solveNonlinear e o s).2.U = 0 := by
  simp [solveNonlinear, caught, solveNonlinearRaw, linearStart, solveLinearRaw, factorizeMatrix,
    solveSystem, start, Act.bind_apply, hd, hf, hx, computeResidual, hR, emit, statusOf, NSt.upd]

/-- The residual fails in the third iteration (event 9): `AssemblyError`, `solution()` still zero. -/
example : (solveNonlinear (Demo.nenv 3 1 fun n => n == 12) (Demo.nopts 25) (Demo.fresh 1)).1
      = .assemblyError ∧
    (solveNonlinear (Demo.nenv 3 1 fun n => n == 12) (Demo.nopts 25) (Demo.fresh 1)).2.U = 0 ∧
    (solveNonlinear (Demo.nenv 3 1 fun n => n == 12) (Demo.nopts 25) (Demo.fresh 1)).2.upd ≠ 0 := by
  decide +kernel

/-- Two iterations are not enough. -/
example : (solveNonlinear (Demo.nenv 3 1 fun _ => false) (Demo.nopts 2) (Demo.fresh 1)).1
      = .notConverged ∧
    (solveNonlinear (Demo.nenv 3 1 fun _ => false) (Demo.nopts 2) (Demo.fresh 1)).2.U ≠ 0 := by
  decide +kernel

/-- The violation: `solution()` was 5 and is 0 after an `AssemblyError`. -/
example :
    let s := setUpdate (setDisplacement (Demo.fresh 1) 5) none
    (solveNonlinear (Demo.nenv 3 1 fun n => n == 2) (Demo.nopts 25) s).1 = .assemblyError ∧
    (solveNonlinear (Demo.nenv 3 1 fun n => n == 2) (Demo.nopts 25) s).2.U = 0 := by
  decide +kernel

/-! ## C79: the number of iterations -/

/-- C79: `iterations()` after `Success` is one less than the number of Newton iterations made (Jacobians
computed), and so is it after `NotConverged`. -/
theorem C79_violated_iterations {e : NEnv K V Mat} {o : Opts K} {s : NSt K V} (hm : o.maxIt ≠ 0)
    (h : (solveNonlinear e o s).1 = .success ∨ (solveNonlinear e o s).1 = .notConverged) :
    iters (solveNonlinear e o s).2.log = iters s.log + ((solveNonlinear e o s).2.numIt + 1) ∧
      (solveNonlinear e o s).2.numIt < o.maxIt := by
  obtain ⟨n, hn⟩ := Nat.exists_eq_succ_of_ne_zero hm
  rcases h with h | h
  · obtain ⟨t, h1, h2⟩ := solveNonlinear_success h
    rcases raw_cases h1 with ⟨u, hu, h3⟩ | ⟨x, hx, -⟩
    · rw [hn] at h3
      obtain ⟨w, hw, -, rfl, hlt⟩ := loop_ok (by rw [hu.num, hn]; omega) h3
      have h4 := hw.count
      rw [hu.count, hu.num] at h4
      rw [h2]
      exact ⟨by simpa [Nat.add_assoc] using h4, hlt⟩
    · simp at hx
  · obtain ⟨t, x, h1, h2, h3⟩ := solveNonlinear_failure (e := e) (o := o) (s := s) (by simp [h])
    have hx : x = .notConverged := by
      rw [h2] at h
      cases x <;> simp [statusOf] at h ⊢
    subst hx
    rcases raw_cases h1 with ⟨u, hu, h7⟩ | ⟨z, hz, hz', -⟩
    · rcases loop_error (by rw [hu.num]; omega) h7 with ⟨-, -, h8⟩ | ⟨-, w, hw, hc, rfl, hlast⟩
      · simp at h8
      · have h4 := hw.count
        rw [hu.count, hu.num] at h4
        rw [h3]
        refine ⟨?_, by simp only; omega⟩
        simp only [iters, List.countP_cons] at h4 ⊢
        simp only [Bool.false_eq_true, if_false]
        omega
    · simp only [Except.error.injEq] at hz
      subst hz
      simp [Hard] at hz'

/-- The problem above takes 4 iterations, `iterations()` is 3. -/
example :
    let t := (solveNonlinear (Demo.nenv 3 1 fun _ => false) (Demo.nopts 25) (Demo.fresh 1)).2
    iters t.log = 4 ∧ t.numIt = 3 := by
  decide +kernel

/-! ## C48: linear problems -/

theorem computeResidual_run {e : NEnv K V Mat} {U R : V} {s : NSt K V}
    (h : e.residual s.log.length s.L U = some R) :
    computeResidual e U s = ({ s with log := .residual true :: s.log }, .ok R) := by
  simp [computeResidual, Act.bind_apply, h, emit]

theorem computeJacobian_run {e : NEnv K V Mat} {U du : V} {m : Mat} {s : NSt K V}
    (h : e.jacobian s.log.length U du = some m) :
    computeJacobian e U du s = ({ s with log := .jacobian true :: s.log }, .ok m) := by
  simp [computeJacobian, Act.bind_apply, h, emit]

theorem factorizeMatrix_run {e : NEnv K V Mat} {m : Mat} {s : NSt K V}
    (h : e.factorize s.log.length m = true) :
    factorizeMatrix e m s = ({ s with log := .factor true :: s.log }, .ok ()) := by
  simp [factorizeMatrix, Act.bind_apply, h, emit]

theorem solveSystem_run {e : NEnv K V Mat} {m : Mat} {F x : V} {s : NSt K V}
    (h : e.solve s.log.length m F = some x) :
    solveSystem e m F s = ({ s with log := .solve true :: s.log }, .ok x) := by
  simp [solveSystem, Act.bind_apply, h, emit]

/-- The problem is linear: residual `F - A U`, the Jacobian can be factorised and the linear solver returns
solutions of `A x = b`. -/
structure LinearProblem (e : NEnv K V Mat) (L : K) (A : V →ₗ[K] V) (F : V) : Prop where
  res : ∀ k U, e.residual k L U = some (F - A U)
  jac : ∀ k U du, ∃ m, e.jacobian k U du = some m ∧ (∀ j, e.factorize j m = true) ∧
    ∀ j b, ∃ x, e.solve j m b = some x ∧ A x = b

/-- What is used of a norm. -/
structure NormLaws (norm : V → K) : Prop where
  nonneg : ∀ x, 0 ≤ norm x
  zero : ∀ x, norm x = 0 ↔ x = 0

theorem lin_iteration {e : NEnv K V Mat} {o : Opts K} {s : NSt K V} {A : V →ₗ[K] V} {F : V}
    (hp : LinearProblem e s.L A F) (ho : o.relax = 1) (hR : s.R = F - A (s.U + s.upd)) :
    ∃ t, iteration e o s = (t, .ok ()) ∧ A t.du = s.R ∧ t.U = s.U ∧ t.L = s.L ∧
      t.DU = some (s.upd + t.du) ∧ t.R = 0 ∧ t.residual = e.norm 0 ∧ t.residualIni = s.residualIni ∧
      t.numIt = s.numIt := by
  obtain ⟨m, h1, h2, h3⟩ := hp.jac s.log.length (s.U + s.upd) s.du
  obtain ⟨x, h4, h5⟩ := h3 (s.log.length + 1 + 1) s.R
  have h0 : F - A (s.U + (s.upd + x)) = 0 := by
    rw [← add_assoc, map_add, h5, hR]
    abel
  refine ⟨{ s with
    du := x, DU := some (s.upd + x), R := 0, residual := e.norm 0, residualOld := e.norm 0
    log := .residual true :: .solve true :: .factor true :: .jacobian true :: s.log }, ?_, h5, rfl, rfl,
    rfl, rfl, rfl, rfl, rfl⟩
  unfold iteration
  rw [Act.bind_ok (Act.get_apply s), Act.bind_ok (computeJacobian_run h1),
    Act.bind_ok (factorizeMatrix_run (h2 _)), Act.bind_ok (solveSystem_run (x := x) (by simpa using h4)),
    Act.bind_ok (Act.modify_apply _ _), Act.bind_ok (Act.get_apply _),
    Act.bind_ok (computeResidual_run (R := 0) (by
      simp only [hp.res, ho, one_smul, Option.some.injEq]
      exact h0))]
  simp only [Act.modify_apply, ho, one_smul]
  rfl

/-- The point reached by a completed iteration solves the linear problem. -/
theorem lin_solved {s t : NSt K V} {A : V →ₗ[K] V} {F : V} (hR : s.R = F - A (s.U + s.upd))
    (h1 : A t.du = s.R) (h2 : t.U = s.U) (h3 : t.DU = some (s.upd + t.du)) :
    A (t.U + t.upd) = F := by
  have : t.upd = s.upd + t.du := by simp [NSt.upd, h3]
  rw [this, h2, ← add_assoc, map_add, h1, hR]
  abel

/-- Any number of iterations, at least one, ends in a solution. -/
theorem lin_loop {e : NEnv K V Mat} {o : Opts K} {A : V →ₗ[K] V} {F : V} (ho : o.relax = 1) {n : ℕ}
    {s : NSt K V} (hp : LinearProblem e s.L A F) (hn : s.numIt + (n + 1) = o.maxIt)
    (hR : s.R = F - A (s.U + s.upd)) :
    A (loop e o (n + 1) s).1.U = F ∧
      ((loop e o (n + 1) s).2 = .ok () ∨ (loop e o (n + 1) s).2 = .error .notConverged) := by
  induction n generalizing s with
  | zero =>
    obtain ⟨t, h1, h2, h3, -, h5, -, -, -, h9⟩ := lin_iteration hp ho hR
    have hs := lin_solved hR h2 h3 h5
    unfold loop
    rw [Act.bind_ok h1, Act.bind_ok (Act.get_apply _)]
    split
    · exact ⟨by simpa [accept] using hs, .inl rfl⟩
    · rw [if_pos (by omega)]
      exact ⟨by simpa [accept, emit, Act.bind_apply] using hs,
        .inr (by simp [accept, emit, Act.bind_apply])⟩
  | succ n ih =>
    obtain ⟨t, h1, h2, h3, h4, h5, h6, -, -, h9⟩ := lin_iteration hp ho hR
    have hs := lin_solved hR h2 h3 h5
    unfold loop
    rw [Act.bind_ok h1, Act.bind_ok (Act.get_apply _)]
    split
    · exact ⟨by simpa [accept] using hs, .inl rfl⟩
    · rw [if_neg (by omega), Act.bind_ok (Act.modify_apply _ _)]
      exact ih (s := { t with numIt := t.numIt + 1 }) (by simpa [h4] using hp)
        (by simp only; omega) (by
          have : t.R = F - A (t.U + t.upd) := by rw [h6, hs, sub_self]
          exact this)

/-- A solve of a linear problem gets to the loop. -/
theorem lin_raw {e : NEnv K V Mat} {o : Opts K} {s : NSt K V} {A : V →ₗ[K] V} {F d : V}
    (hp : LinearProblem e s.L A F) (hd : s.DU = some d) :
    ∃ u, Started e s u ∧ u.R = F - A (u.U + u.upd) ∧ LinearProblem e u.L A F ∧
      solveNonlinearRaw e o s = loop e o o.maxIt u := by
  have hstart : ∃ t, start e s = (t, .ok ()) := by
    rcases h : start e s with ⟨t, r⟩
    cases r with
    | ok _ => exact ⟨t, rfl⟩
    | error x =>
      cases hh : s.headstart <;>
        simp [start, computeResidual, Act.bind_apply, hp.res, emit, hh] at h
  obtain ⟨t, ht⟩ := hstart
  have hs := start_ok ht hd
  refine ⟨_, hs, ?_, hs.hL ▸ hp, ?_⟩
  · obtain ⟨k, hk⟩ := hs.res
    rw [hp.res, ← hs.hU, Option.some.injEq] at hk
    exact hk.symm
  · unfold solveNonlinearRaw
    have hl : linearStart e s = (s, .ok ()) := by simp [linearStart, Act.bind_apply, hd]
    rw [Act.bind_ok hl, Act.bind_ok ht, Act.bind_ok (Act.modify_apply _ _)]

/-- C48: for a linear problem and relaxation 1, `solution()` is the exact solution after any number
`maxIt ≥ 1` of iterations, from every start and head start; in particular after one. The status is
`Success` or `NotConverged`. -/
theorem C48_exact {e : NEnv K V Mat} {o : Opts K} {s : NSt K V} {A : V →ₗ[K] V} {F d : V}
    (hp : LinearProblem e s.L A F) (hd : s.DU = some d) (ho : o.relax = 1) (hm : o.maxIt ≠ 0) :
    A (solveNonlinear e o s).2.U = F ∧
      ((solveNonlinear e o s).1 = .success ∨ (solveNonlinear e o s).1 = .notConverged) := by
  obtain ⟨u, hu, hR, hp', hraw⟩ := lin_raw (o := o) hp hd
  obtain ⟨n, hn⟩ := Nat.exists_eq_succ_of_ne_zero hm
  obtain ⟨h1, h2⟩ := lin_loop ho (n := n) hp' (by rw [hu.num, hn]; omega) hR
  unfold solveNonlinear caught
  rw [hraw, hn]
  rcases hl : loop e o (n + 1) u with ⟨t, r⟩
  rw [hl] at h1 h2
  rcases h2 with h2 | h2
  · simp only at h2
    subst h2
    exact ⟨h1, .inl rfl⟩
  · simp only at h2
    subst h2
    exact ⟨h1, .inr rfl⟩

/-- A test passed by the second iterate. -/
theorem lin_converged [IsStrictOrderedRing K] {e : NEnv K V Mat} {o : Opts K} (hN : NormLaws e.norm)
    {t : NSt K V} (hdu : t.du = 0) (hupd : t.upd ≠ 0) (hres : t.residual = e.norm 0)
    (hini : t.residualIni ≠ 0) (hF : 0 < o.theTolF) (hU : 0 < o.theTolU) : converged e o t = true := by
  have h0 : e.norm 0 = 0 := (hN.zero 0).2 rfl
  have h1 : e.norm t.upd ≠ 0 := fun h => hupd ((hN.zero _).1 h)
  simp [converged, quotLt, hdu, hres, h0, h1, hini, hF, hU]

/-- C48: with positive tolerances, an injective matrix and `maxIt ≥ 2` the status is `Success`, unless the
start already is the solution. -/
theorem C48_success [IsStrictOrderedRing K] {e : NEnv K V Mat} {o : Opts K} {s : NSt K V}
    {A : V →ₗ[K] V} {F d : V} (hN : NormLaws e.norm) (hp : LinearProblem e s.L A F)
    (hA : ∀ x, A x = 0 → x = 0) (hd : s.DU = some d) (ho : o.relax = 1) (hm : 2 ≤ o.maxIt)
    (hF : 0 < o.theTolF) (hU : 0 < o.theTolU) (hne : A s.U ≠ F) :
    (solveNonlinear e o s).1 = .success := by
  obtain ⟨u, hu, hR, hp', hraw⟩ := lin_raw (o := o) hp hd
  have hb : base s = s.U := by simp [base, hd]
  have hini : u.residualIni ≠ 0 := by
    obtain ⟨k, R, -, h⟩ := hu.ini
    rw [h, nz]
    split
    · exact one_ne_zero
    · assumption
  obtain ⟨n, hn⟩ : ∃ n, o.maxIt = n + 2 := ⟨o.maxIt - 2, by omega⟩
  obtain ⟨t, h1, h2, h3, h4, h5, h6, -, h8, h9⟩ := lin_iteration hp' ho hR
  have hs := lin_solved hR h2 h3 h5
  have hloop : ∃ w, loop e o (n + 2) u = (w, .ok ()) := by
    unfold loop
    rw [Act.bind_ok h1, Act.bind_ok (Act.get_apply _)]
    split
    · exact ⟨_, rfl⟩
    · rw [if_neg (by rw [h9, hu.num]; omega), Act.bind_ok (Act.modify_apply _ _)]
      obtain ⟨w, g1, g2, g3, -, g5, g6, g7, g8, g9⟩ :=
        lin_iteration (s := { t with numIt := t.numIt + 1 }) (o := o) (by simpa [h4] using hp') ho
          (by
            have : t.R = F - A (t.U + t.upd) := by rw [h6, hs, sub_self]
            exact this)
      simp only at g2 g3 g5 g8
      have hdu : w.du = 0 := hA _ (by rw [g2, h6])
      have hw : w.upd ≠ 0 := by
        intro h
        have hsw : A (w.U + w.upd) = F := by
          have e1 : w.upd = t.upd := by simp [NSt.upd, g5, hdu]
          rw [e1, g3, hs]
        rw [h, add_zero, g3, h3, hu.hU, hb] at hsw
        exact hne hsw
      unfold loop
      rw [Act.bind_ok g1, Act.bind_ok (Act.get_apply _),
        if_pos (lin_converged hN hdu hw g7 (by rw [g8, h8]; exact hini) hF hU)]
      exact ⟨_, rfl⟩
  obtain ⟨w, hw⟩ := hloop
  unfold solveNonlinear caught
  rw [hraw, hn, hw]

/-- C48, violation: started at the exact solution, the solver never reports success: the update is zero, and
zero relative to zero does not pass the test. -/
theorem C48_violated_equilibrium [IsStrictOrderedRing K] {e : NEnv K V Mat} {o : Opts K} {s : NSt K V}
    {A : V →ₗ[K] V} {F d : V} (hN : NormLaws e.norm) (hp : LinearProblem e s.L A F)
    (hA : ∀ x, A x = 0 → x = 0) (hd : s.DU = some d) (ho : o.relax = 1) (hm : o.maxIt ≠ 0)
    (heq : A s.U = F) : (solveNonlinear e o s).1 = .notConverged := by
  rcases (C48_exact hp hd ho hm).2 with h | h
  · obtain ⟨R₀, R, k₀, k, d', -, -, -, h4, h5, h6, -⟩ := C46_success hm h
    have hb : base s = s.U := by simp [base, hd]
    have hsol := (C48_exact (o := o) hp hd ho hm).1
    rw [h6, hb, map_add, heq, add_eq_left] at hsol
    rw [hA _ hsol, (hN.zero 0).2 rfl, quotLt, if_pos rfl, ho, one_mul, decide_eq_true_eq] at h4
    exact absurd h4 (not_lt.2 (hN.nonneg _))
  · exact h

/-- The laws hold in the examples. -/
theorem Demo.norm_laws (load c : ℚ) (bad : ℕ → Bool) : NormLaws (Demo.nenv load c bad).norm :=
  ⟨fun x => abs_nonneg x, fun _ => abs_eq_zero⟩

/-- Without the cubic term the problem is linear. -/
theorem Demo.linear (load L : ℚ) :
    LinearProblem (Demo.nenv load 0 fun _ => false) L (2 • LinearMap.id) (L * load) where
  res k U := by simp [Demo.nenv]
  jac k U du := ⟨2, by simp [Demo.nenv], by simp [Demo.nenv],
    fun j b => ⟨b / 2, rfl, by simp; ring⟩⟩

/-- `2 u = 3` from 0: solved with `Success`. -/
example : (solveNonlinear (Demo.nenv 3 0 fun _ => false) (Demo.nopts 25) (Demo.fresh 1)).1 = .success :=
  C48_success (Demo.norm_laws _ _ _) (Demo.linear 3 1) (by simp) (d := 0) rfl rfl (by decide)
    (by decide +kernel) (by decide +kernel) (by simp [Demo.fresh, setLoad, ctorAL, init, reset])

/-- `2 u = 3` from `u = 3/2`: `NotConverged` after 25 iterations. -/
example : (solveNonlinear (Demo.nenv 3 0 fun _ => false) (Demo.nopts 25)
    (setDisplacement (Demo.fresh 1) (3 / 2))).1 = .notConverged :=
  C48_violated_equilibrium (Demo.norm_laws _ _ _) (Demo.linear 3 1) (by simp) (d := 0) rfl rfl
    (by decide) (by simp [Demo.fresh, setLoad, setDisplacement]; norm_num)

/-! ## C49: the load factor -/

/-- C49, violation: an object constructed from an arc-length residual solves for load factor 0, not 1: what
is small after `Success` is the residual with load factor 0. -/
theorem C49_violated_newton {e : NEnv K V Mat} {o : Opts K} (s : NSt K V) (hm : o.maxIt ≠ 0)
    (h : (solve e o (ctorAL s)).1 = .success) :
    ∃ R₀ R k₀ k, e.residual k₀ 0 0 = some R₀ ∧ e.residual k 0 (solve e o (ctorAL s)).2.U = some R ∧
      quotLt (e.norm R) (if e.norm R₀ = 0 then 1 else e.norm R₀) o.theTolF = true := by
  have hs : solve e o (ctorAL s) = solveNonlinear e o (ctorAL s) := rfl
  rw [hs] at h ⊢
  obtain ⟨R₀, R, k₀, k, -, h1, h2, h3, -⟩ := C46_success hm h
  exact ⟨R₀, R, k₀, k, h1, h2, h3⟩

/-- C49: `reset` and `initialize` also set the load factor to 0, so a load set before is lost. -/
theorem C49_violated_reset (s : NSt K V) (L : K) :
    (ctorAL s).L = 0 ∧ (reset (setLoad s L)).L = 0 ∧ (initializeSolver (setLoad s L)).L = 0 :=
  ⟨rfl, rfl, rfl⟩

/-- C49: what the constructors and the setters do, whatever was in memory. -/
theorem C49_setters (s : NSt K V) (nl : Bool) (U d : V) (L : K) :
    init nl s = { s with U := 0, DU := some 0, du := 0, R := 0, L := 0, headstart := false, nl := nl, residual := 0
                         residualIni := 0, residualOld := 0, status := .notStarted } ∧
    setSolution s U L = { s with U := U, L := L } ∧ setDisplacement s U = { s with U := U } ∧
    setLoad s L = { s with L := L } ∧ setUpdate s (some d) = { s with headstart := true, DU := some d } :=
  ⟨rfl, rfl, rfl, rfl, rfl⟩

/-- C49, what holds: after `setLoad` the solve is for this load factor. -/
theorem C49_setLoad {e : NEnv K V Mat} {o : Opts K} (s : NSt K V) (L : K) (hm : o.maxIt ≠ 0)
    (h : (solve e o (setLoad (ctorAL s) L)).1 = .success) :
    ∃ R₀ R k₀ k, e.residual k₀ L 0 = some R₀ ∧
      e.residual k L (solve e o (setLoad (ctorAL s) L)).2.U = some R ∧
      quotLt (e.norm R) (if e.norm R₀ = 0 then 1 else e.norm R₀) o.theTolF = true := by
  have hs : solve e o (setLoad (ctorAL s) L) = solveNonlinear e o (setLoad (ctorAL s) L) := rfl
  rw [hs] at h ⊢
  obtain ⟨R₀, R, k₀, k, -, h1, h2, h3, -⟩ := C46_success hm h
  exact ⟨R₀, R, k₀, k, h1, h2, h3⟩

/-- `2 u + u³ = 3 L` after construction: the solver stays at zero (where the residual for load factor 0
vanishes, so that it does not even report success); with `setLoad 1` it solves the problem. -/
example :
    (solve (Demo.nenv 3 1 fun _ => false) (Demo.nopts 25) (ctorAL Demo.raw)).2.U = 0 ∧
    (solve (Demo.nenv 3 1 fun _ => false) (Demo.nopts 25) (ctorAL Demo.raw)).1 = .notConverged ∧
    (solve (Demo.nenv 3 1 fun _ => false) (Demo.nopts 25) (setLoad (ctorAL Demo.raw) 1)).1
      = .success := by
  decide +kernel

end GsSA.Static
