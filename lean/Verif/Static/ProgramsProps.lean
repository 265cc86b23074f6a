import Verif.Static.Programs
import Verif.Static.CompositeProps

/-!
# Properties of the programs for static analysis (C127)
-/

set_option linter.unusedSectionVars false

namespace GsSA.Static

open GsSA
open GsSA.ALM (Act Err Event)

variable {K V Mat : Type} [Field K] [LinearOrder K] [AddCommGroup V] [Module K V]

namespace Newton

/-! ## Solves with callbacks that do not depend on the moment of the call -/

/-- The callbacks and the linear solver give the same result at every call. -/
structure Steady (e : NEnv K V Mat) : Prop where
  residual : ∀ n L U, e.residual n L U = e.residual 0 L U
  jacobian : ∀ n U d, e.jacobian n U d = e.jacobian 0 U d
  factorize : ∀ n m, e.factorize n m = e.factorize 0 m
  solve : ∀ n m b, e.solve n m b = e.solve 0 m b

/-- The members without the record of the calls. -/
def core (s : NSt K V) : NSt K V := { s with log := [] }

/-- The action does not use the record of the calls. -/
def Oblivious {α : Type} (m : Act (NSt K V) α) : Prop :=
  ∀ s t, core s = core t → core (m s).1 = core (m t).1 ∧ (m s).2 = (m t).2

theorem Oblivious.bind {α β : Type} {m : Act (NSt K V) α} {f : α → Act (NSt K V) β} (hm : Oblivious m)
    (hf : ∀ a, Oblivious (f a)) : Oblivious (m >>= f) := by
  intro s t h
  obtain ⟨h1, h2⟩ := hm s t h
  rw [Act.bind_apply, Act.bind_apply]
  rcases hs : m s with ⟨s', r⟩
  rcases ht : m t with ⟨t', r'⟩
  rw [hs, ht] at h1 h2
  simp only at h1 h2
  subst h2
  cases r with
  | ok a => exact hf a s' t' h1
  | error x => exact ⟨h1, rfl⟩

theorem Oblivious.ret {α : Type} (a : α) : Oblivious (pure a : Act (NSt K V) α) := fun _ _ h => ⟨h, rfl⟩

theorem Oblivious.throw {α : Type} (x : Err) : Oblivious (Act.throw x : Act (NSt K V) α) := fun _ _ h => ⟨h, rfl⟩

theorem Oblivious.modify {f : NSt K V → NSt K V} (hf : ∀ s, core (f s) = core (f (core s))) :
    Oblivious (Act.modify f) := by
  intro s t h
  simp only [Act.modify_apply]
  exact ⟨by rw [hf s, hf t, h], trivial⟩

/-- A value that is read, if it is not the record of the calls. -/
theorem Oblivious.read {α : Type} {f : NSt K V → Act (NSt K V) α} (hf : ∀ s, Oblivious (f s))
    (hc : ∀ s, ∀ x, core (f s x).1 = core (f (core s) x).1 ∧ (f s x).2 = (f (core s) x).2) :
    Oblivious (Act.get >>= f) := by
  intro s t h
  rw [Act.bind_ok (Act.get_apply s), Act.bind_ok (Act.get_apply t)]
  obtain ⟨a1, a2⟩ := hc s s
  obtain ⟨b1, b2⟩ := hc t t
  obtain ⟨c1, c2⟩ := hf (core s) s t h
  rw [a1, a2, b1, b2, ← h]
  exact ⟨c1, c2⟩

theorem oblivious_emit (x : Event) : Oblivious (emit x : Act (NSt K V) Unit) := .modify fun _ => rfl

variable {e : NEnv K V Mat}

theorem oblivious_computeResidual (he : Steady e) (U : V) : Oblivious (computeResidual e U) := by
  refine .read (fun s => ?_) fun s x => ?_
  · cases e.residual s.log.length s.L U with
    | none => exact (oblivious_emit _).bind fun _ => .throw _
    | some R => exact (oblivious_emit _).bind fun _ => .ret _
  · rw [he.residual s.log.length, he.residual (core s).log.length]
    exact ⟨rfl, rfl⟩

theorem oblivious_computeJacobian (he : Steady e) (U d : V) : Oblivious (computeJacobian e U d) := by
  refine .read (fun s => ?_) fun s x => ?_
  · cases e.jacobian s.log.length U d with
    | none => exact (oblivious_emit _).bind fun _ => .throw _
    | some R => exact (oblivious_emit _).bind fun _ => .ret _
  · rw [he.jacobian s.log.length, he.jacobian (core s).log.length]
    exact ⟨rfl, rfl⟩

theorem oblivious_factorizeMatrix (he : Steady e) (m : Mat) : Oblivious (factorizeMatrix e m) := by
  refine .read (fun s => ?_) fun s x => ?_
  · cases e.factorize s.log.length m with
    | false => exact (oblivious_emit _).bind fun _ => .throw _
    | true => exact oblivious_emit _
  · rw [he.factorize s.log.length, he.factorize (core s).log.length]
    exact ⟨rfl, rfl⟩

theorem oblivious_solveSystem (he : Steady e) (m : Mat) (F : V) : Oblivious (solveSystem e m F) := by
  refine .read (fun s => ?_) fun s x => ?_
  · cases e.solve s.log.length m F with
    | none => exact (oblivious_emit _).bind fun _ => .throw _
    | some R => exact (oblivious_emit _).bind fun _ => .ret _
  · rw [he.solve s.log.length, he.solve (core s).log.length]
    exact ⟨rfl, rfl⟩

theorem oblivious_iteration (he : Steady e) (o : Opts K) : Oblivious (iteration e o) := by
  refine .read (fun s => ?_) fun s x => ⟨rfl, rfl⟩
  refine (oblivious_computeJacobian he _ _).bind fun m => (oblivious_factorizeMatrix he m).bind fun _ =>
    (oblivious_solveSystem he m _).bind fun x => Oblivious.bind (.modify fun _ => rfl) fun _ => ?_
  refine .read (fun s => ?_) fun s x => ⟨rfl, rfl⟩
  exact (oblivious_computeResidual he _).bind fun R => .modify fun _ => rfl

theorem oblivious_loop (he : Steady e) (o : Opts K) (n : ℕ) : Oblivious (loop e o n) := by
  induction n with
  | zero => exact .ret _
  | succ n ih =>
    refine (oblivious_iteration he o).bind fun _ => .read (fun s => ?_) fun s x => ⟨rfl, rfl⟩
    have hacc : Oblivious (accept : Act (NSt K V) Unit) := .modify fun _ => rfl
    by_cases h1 : converged e o s
    · simpa only [if_pos h1] using hacc
    · simp only [if_neg h1]
      by_cases h2 : s.numIt + 1 = o.maxIt
      · simp only [if_pos h2]
        exact hacc.bind fun _ => (oblivious_emit _).bind fun _ => .throw _
      · simp only [if_neg h2]
        exact Oblivious.bind (.modify fun _ => rfl) fun _ => ih

/-- A solve that starts with an update of zero is a solve without one. -/
theorem solveNonlinear_zero (he : Steady e) (o : Opts K) {s : NSt K V} (hd : s.DU = some 0)
    (hh : s.headstart = false) :
    (solveNonlinear e o (setUpdate s (some 0))).1 = (solveNonlinear e o s).1 ∧
      (solveNonlinear e o (setUpdate s (some 0))).2.U = (solveNonlinear e o s).2.U ∧
      ((solveNonlinear e o s).1 = .success →
        (solveNonlinear e o (setUpdate s (some 0))).2.DU = (solveNonlinear e o s).2.DU) := by
  have hs : setUpdate s (some 0) = { s with headstart := true } := by
    cases s
    simp only at hd
    simp [setUpdate, hd]
  rw [hs]
  cases hR : e.residual 0 s.L s.U with
  | none =>
    simp [solveNonlinear, caught, solveNonlinearRaw, linearStart, start, Act.bind_apply, hd, hh, computeResidual,
      he.residual, hR, emit, NSt.upd, statusOf]
  | some R =>
    have e1 : solveNonlinearRaw e o { s with headstart := true } = loop e o o.maxIt
      { s with
        DU := some 0, R := R, residual := nz (e.norm R), residualIni := nz (e.norm R), residualOld := nz (e.norm R)
        headstart := false, du := 0, numIt := 0, log := .residual true :: .residual true :: s.log } := by
      simp [solveNonlinearRaw, linearStart, start, Act.bind_apply, hd, computeResidual, he.residual, hR, emit, NSt.upd]
    have e2 : solveNonlinearRaw e o s = loop e o o.maxIt
      { s with
        DU := some 0, R := R, residual := nz (e.norm R), residualIni := nz (e.norm R), residualOld := nz (e.norm R)
        headstart := false, du := 0, numIt := 0, log := .residual true :: s.log } := by
      simp [solveNonlinearRaw, linearStart, start, Act.bind_apply, hd, hh, computeResidual, he.residual, hR, emit]
    have key := oblivious_loop he o o.maxIt
      { s with
        DU := some 0, R := R, residual := nz (e.norm R), residualIni := nz (e.norm R), residualOld := nz (e.norm R)
        headstart := false, du := 0, numIt := 0, log := .residual true :: .residual true :: s.log }
      { s with
        DU := some 0, R := R, residual := nz (e.norm R), residualIni := nz (e.norm R), residualOld := nz (e.norm R)
        headstart := false, du := 0, numIt := 0, log := .residual true :: s.log } rfl
    rw [← e1, ← e2] at key
    obtain ⟨k1, k2⟩ := key
    unfold solveNonlinear caught
    rcases h1 : solveNonlinearRaw e o { s with headstart := true } with ⟨t, r⟩
    rcases h2 : solveNonlinearRaw e o s with ⟨u, r'⟩
    rw [h1, h2] at k1 k2
    simp only at k1 k2
    subst k2
    have hU : t.U = u.U := show (core t).U = (core u).U by rw [k1]
    have hD : t.DU = u.DU := show (core t).DU = (core u).DU by rw [k1]
    cases r <;> simp [hU, hD]

end Newton

namespace Prog.Demo

/-- `load - 2 u - c u³`, with a residual that cannot be evaluated beyond `wall`. -/
def env (load c wall : ℚ) : NEnv ℚ (Fin 1 → ℚ) ℚ where
  norm x := |x 0|
  linear := 2
  force _ := load
  residual _ _ u := if wall < u 0 then none else some fun _ => load - 2 * u 0 - c * u 0 ^ 3
  jacobian _ u _ := some (2 + 3 * c * u 0 ^ 2)
  factorize _ m := decide (m ≠ 0)
  solve _ m b := some fun i => b i / m

/-- Uninitialised members. -/
def raw : NSt ℚ (Fin 1 → ℚ) :=
  ⟨fun _ => 17, none, fun _ => 17, fun _ => 17, 17, true, 17, 17, 17, 17, .otherError, false, []⟩

/-- Options of the Newton solver. -/
def opts (n : ℕ) : Opts ℚ := ⟨1 / 10, -1, -1, n, 1⟩

/-- A dynamic relaxation with residual `1 - u`. -/
def de : DREnv ℚ (Fin 1) := GsSA.Static.Demo.drenv GsSA.Static.Demo.drlin

/-- Its options. -/
def dp : DROpts ℚ := GsSA.Static.Demo.dropts 50 (3 / 4) (-1)

/-- The component of what is written. -/
def get : Ended (Fin 1 → ℚ) → Option ℚ
  | .aborted => none
  | .wrote u => some (u 0)

/-- The components of the solutions which are compared, and of the plot. -/
def gets : Ended (List (Fin 1 → ℚ) × (Fin 1 → ℚ)) → Option (List ℚ × ℚ)
  | .aborted => none
  | .wrote (l, u) => some (l.map fun x => x 0, u 0)

theorem steady (load c wall : ℚ) : Newton.Steady (env load c wall) := by
  constructor <;> intros <;> rfl

end Prog.Demo

namespace Prog

open Newton (Steady)

variable {ι : Type} [Fintype ι]
variable {e : NEnv K (ι → K) Mat} {o : Opts K} {d : DREnv K ι} {p : DROpts K}

/-- The linear solve of `LIN`. -/
def linear (e : NEnv K (ι → K) Mat) (a : NSt K (ι → K)) : Status × NSt K (ι → K) :=
  Newton.solveLinear e (Newton.initializeSolver (Newton.ctorLinear a))

/-- The Newton solver alone, after `initialize()`. -/
def alone (e : NEnv K (ι → K) Mat) (o : Opts K) (b : NSt K (ι → K)) : Status × NSt K (ι → K) :=
  Newton.solve e o (Newton.initializeSolver (Newton.ctor b))

theorem linear_eq (a : NSt K (ι → K)) :
    ((linear e a).1 = .success ∧ ∃ k l x, e.factorize k e.linear = true ∧ e.solve l e.linear e.force = some x ∧
        (linear e a).2.U = x ∧ (linear e a).2.DU = some 0 ∧ (linear e a).2.numIt = a.numIt) ∨
      ((linear e a).1 = .solverError ∧ (linear e a).2.U = 0) := by
  unfold linear Newton.solveLinear Newton.caught Newton.solveLinearRaw
  cases hf : e.factorize a.log.length e.linear with
  | false =>
    right
    simp [Newton.factorizeMatrix, Act.bind_apply, Newton.emit, Newton.initializeSolver, Newton.ctorLinear, Newton.init,
      Newton.reset, hf, statusOf]
  | true =>
    cases hx : e.solve (a.log.length + 1) e.linear e.force with
    | none =>
      right
      simp [Newton.factorizeMatrix, Newton.solveSystem, Act.bind_apply, Newton.emit, Newton.initializeSolver,
        Newton.ctorLinear, Newton.init, Newton.reset, hf, hx, statusOf]
    | some x =>
      left
      simp only [Newton.factorizeMatrix, Newton.solveSystem, Act.bind_apply, Newton.emit, Newton.initializeSolver,
        Newton.ctorLinear, Newton.init, Newton.reset, hf, hx, Act.get_apply, Act.modify_apply, Act.pure_apply, if_true,
        List.length_cons]
      refine ⟨?_, _, _, x, hf, hx, ?_, ?_, ?_⟩ <;> first | rfl | trivial

/-- The first stage is the linear solve. -/
theorem first (dr nr : Bool) (a b : NSt K (ι → K)) (c : DRSt K ι) (empty : ι → K) :
    Composite.solve (classes e o d p) (pointers dr nr) (ready d p dr nr a b c empty) =
      if (linear e a).1 = .success then
        Composite.stages (classes e o d p) (some 0) ((if dr then [1] else []) ++ if nr then [2] else [])
          { heap := Composite.put (ready d p dr nr a b c empty).heap 0 (.inl (linear e a).2)
            U := (linear e a).2.U, DU := (linear e a).2.upd, numIt := 0 + (linear e a).2.numIt
            status := .success, ran := [.inl (linear e a).2] }
      else
        ({ ready d p dr nr a b c empty with
          heap := Composite.put (ready d p dr nr a b c empty).heap 0 (.inl (linear e a).2)
          numIt := 0, status := (linear e a).1, ran := [.inl (linear e a).2] }, some (linear e a).1) := by
  have h0 : (ready d p dr nr a b c empty).heap 0 = .inl (Newton.initializeSolver (Newton.ctorLinear a)) := by
    cases dr <;> cases nr <;> rfl
  have h1 : (classes e o d p).solve (.inl (Newton.initializeSolver (Newton.ctorLinear a))) =
      (.inl (linear e a).2, some (linear e a).1) := rfl
  unfold Composite.solve
  rw [show pointers dr nr = 0 :: ((if dr then [1] else []) ++ if nr then [2] else []) from rfl, Composite.stages]
  simp only [if_true, Composite.prepare, h0, h1]
  rcases linear_eq (e := e) a with ⟨h2, -⟩ | ⟨h2, -⟩
  · simp only [h2, if_true, classes, Solver.sum, Newton.solver, List.nil_append]
  · simp only [h2, List.nil_append, reduceCtorEq, if_false]
    cases hq : ((if dr then [1] else []) ++ if nr then [2] else [] : List ℕ) <;> simp [Composite.stages]

/-- **C127**: without a dynamic relaxation the program writes what the Newton solver alone finds; the linear solve
before it has no other effect than that it must succeed. If the Newton solver fails, the program without the
assertion writes the linear solution, and if that fails as well a vector without entries. -/
theorem C127_shell (he : Steady e) (asserts : Bool) (a b : NSt K (ι → K)) (c : DRSt K ι) (empty : ι → K) :
    shell e o d p asserts false true a b c empty =
      if (linear e a).1 = .success then
        if (alone e o b).1 = .success then .wrote (alone e o b).2.U
        else if asserts then .aborted else .wrote (linear e a).2.U
      else if asserts then .aborted else .wrote empty := by
  unfold shell
  rw [first]
  rcases linear_eq (e := e) a with ⟨h2, -, -, x, -, -, hU, hD, -⟩ | ⟨h2, -⟩
  · simp only [h2, if_true, Bool.false_eq_true, if_false, List.nil_append]
    rw [Composite.stages]
    have h3 : (ready d p false true a b c empty).heap 2 = .inl (Newton.initializeSolver (Newton.ctor b)) := rfl
    have h4 : (classes e o d p).solve
        (Composite.prepare (classes e o d p)
          (Composite.put (ready d p false true a b c empty).heap 0 (.inl (linear e a).2)) (some 0) 2 2) =
        (.inl (Newton.solveNonlinear e o (Newton.setUpdate (Newton.initializeSolver (Newton.ctor b)) (some 0))).2,
          some (Newton.solveNonlinear e o
            (Newton.setUpdate (Newton.initializeSolver (Newton.ctor b)) (some 0))).1) := by
      have h5 : Composite.prepare (classes e o d p)
          (Composite.put (ready d p false true a b c empty).heap 0 (.inl (linear e a).2)) (some 0) 2 2 =
          .inl (Newton.setUpdate (Newton.initializeSolver (Newton.ctor b)) (some 0)) := by
        simp [Composite.prepare, Composite.put, h3, classes, Solver.sum, Newton.solver, NSt.upd, hD]
      rw [h5]
      rfl
    obtain ⟨z1, z2, -⟩ := Newton.solveNonlinear_zero he o
      (s := Newton.initializeSolver (Newton.ctor b)) rfl rfl
    have z3 : alone e o b = Newton.solveNonlinear e o (Newton.initializeSolver (Newton.ctor b)) := rfl
    simp only [if_true, h4]
    rw [z1, ← z3]
    rw [← z3] at z2
    rcases hst : (alone e o b).1 <;> cases asserts <;>
      simp [Composite.stages, classes, Solver.sum, Newton.solver, z2]
  · simp only [h2, reduceCtorEq, if_false]
    cases asserts <;> simp [ready, Composite.each]

open Prog.Demo in
/-- The Newton solver converges; it does not within one iteration; and the linear matrix is singular. -/
example : Prog.Demo.get (shell (env 3 1 10) (opts 5) de dp false false true raw raw Demo.drraw fun _ => 99) =
      some (6781768626777729 / 6781548727027585) ∧
    (alone (env 3 1 10) (opts 5) raw).1 = .success ∧
    Prog.Demo.get (shell (env 3 1 10) (opts 1) de dp false false true raw raw Demo.drraw fun _ => 99) = some (3 / 2) ∧
    Prog.Demo.get (shell { env 3 1 10 with linear := 0 } (opts 5) de dp false false true raw raw Demo.drraw
      fun _ => 99) = some 99 := by
  decide +kernel

/-- The dynamic relaxation as the second stage. -/
def relaxed (d : DREnv K ι) (p : DROpts K) (c : DRSt K ι) : DRSt K ι × Except Err Status :=
  DR.solve d p (DR.setUpdate (DR.initializeSolver d p (DR.ctor d c)) 0)

/-- The Newton solver as the third stage. -/
def third (e : NEnv K (ι → K) Mat) (o : Opts K) (b : NSt K (ι → K)) (x : ι → K) : Status × NSt K (ι → K) :=
  Newton.solveNonlinear e o (Newton.setUpdate (Newton.initializeSolver (Newton.ctor b)) (some x))

theorem relaxed_stage (nr : Bool) (a b : NSt K (ι → K)) (c : DRSt K ι) (empty : ι → K)
    (hD : (linear e a).2.DU = some 0) :
    Composite.prepare (classes e o d p)
      (Composite.put (ready d p true nr a b c empty).heap 0 (.inl (linear e a).2)) (some 0) 1 1 =
      .inr (DR.setUpdate (DR.initializeSolver d p (DR.ctor d c)) 0) := by
  have h3 : (ready d p true nr a b c empty).heap 1 = .inr (DR.initializeSolver d p (DR.ctor d c)) := by
    cases nr <;> rfl
  simp [Composite.prepare, Composite.put, h3, classes, Solver.sum, Newton.solver, DR.solver, NSt.upd, hD]

/-- **C127**: with a dynamic relaxation. The relaxation starts from zero, too; its exceptions end the program. The
Newton solver continues from its result, and if it fails the program without the assertion writes the result of the
relaxation. -/
theorem C127_relaxation (asserts nr : Bool) (a b : NSt K (ι → K)) (c : DRSt K ι) (empty : ι → K) :
    shell e o d p asserts true nr a b c empty =
      if (linear e a).1 = .success then
        match (relaxed d p c).2 with
        | .error _ => .aborted
        | .ok _ =>
          if nr = false then .wrote (relaxed d p c).1.U
          else if (third e o b (relaxed d p c).1.DU).1 = .success then .wrote (third e o b (relaxed d p c).1.DU).2.U
          else if asserts then .aborted else .wrote (relaxed d p c).1.U
      else if asserts then .aborted else .wrote empty := by
  unfold shell
  rw [first]
  rcases linear_eq (e := e) a with ⟨h2, -, -, x, -, -, hU, hD, -⟩ | ⟨h2, -⟩
  · simp only [h2, if_true, List.singleton_append]
    rw [Composite.stages]
    have h5 := relaxed_stage (e := e) (o := o) (d := d) (p := p) nr a b c empty hD
    simp only [if_true, h5]
    rcases hr : relaxed d p c with ⟨t, r⟩
    have h6 : (classes e o d p).solve (.inr (DR.setUpdate (DR.initializeSolver d p (DR.ctor d c)) 0)) =
        (.inr t, match r with | .ok st => some st | .error _ => none) := by
      have : DR.solve d p (DR.setUpdate (DR.initializeSolver d p (DR.ctor d c)) 0) = (t, r) := hr
      cases r <;> simp [classes, Solver.sum, DR.solver, this]
    rw [h6]
    cases r with
    | error x => rfl
    | ok st =>
      have h7 : st = .success := (C50_returns (show DR.solve d p _ = (t, .ok st) from hr)).1
      subst h7
      cases nr with
      | false => cases asserts <;> simp [Composite.stages, classes, Solver.sum, DR.solver]
      | true =>
        have h8 : Composite.prepare (classes e o d p)
            (Composite.put (Composite.prepare (classes e o d p)
              (Composite.put (ready d p true true a b c empty).heap 0 (.inl (linear e a).2)) (some 0) 1) 1 (.inr t))
            (some 1) 2 2 =
            .inl (Newton.setUpdate (Newton.initializeSolver (Newton.ctor b)) (some t.DU)) := by
          have h3 : (ready d p true true a b c empty).heap 2 = .inl (Newton.initializeSolver (Newton.ctor b)) := rfl
          simp [Composite.prepare, Composite.put, h3, classes, Solver.sum, Newton.solver, DR.solver]
        have h9 : (classes e o d p).solve
            (.inl (Newton.setUpdate (Newton.initializeSolver (Newton.ctor b)) (some t.DU))) =
            (.inl (third e o b t.DU).2, some (third e o b t.DU).1) := rfl
        simp only [if_true]
        rw [Composite.stages]
        simp only [if_true, h8, h9]
        rcases hst : (third e o b t.DU).1 <;> cases asserts <;>
          simp [Composite.stages, classes, Solver.sum, Newton.solver, DR.solver]
  · simp only [h2, reduceCtorEq, if_false]
    cases asserts <;> simp [ready, Composite.each]

open Prog.Demo in
/-- The relaxation alone, with the Newton solver after it, and with a Newton solver that fails. -/
example : Prog.Demo.get (shell (env 3 1 10) (opts 5) de dp true true false raw raw Demo.drraw fun _ => 99) =
      some (523641 / 524288) ∧
    Prog.Demo.get (shell (env 3 1 10) (opts 5) de dp true true true raw raw Demo.drraw fun _ => 99) =
      some (32705008210586139 / 32704978307252224) ∧
    Prog.Demo.get (shell (env 3 1 (1 / 2)) (opts 5) de dp false true true raw raw Demo.drraw fun _ => 99) =
      some (523641 / 524288) ∧
    Prog.Demo.get (shell (env 3 1 (1 / 2)) (opts 5) de dp true true true raw raw Demo.drraw fun _ => 99) = none := by
  decide +kernel

/-- **C127**: what is written in a build with assertions, if the Newton solver is used, meets the criteria of that
solver, with the residual compared with the one of the undeformed structure. -/
theorem C127_residual (he : Steady e) (hm : o.maxIt ≠ 0) {dr : Bool} {a b : NSt K (ι → K)} {c : DRSt K ι}
    {empty u : ι → K} (h : shell e o d p true dr true a b c empty = .wrote u) :
    ∃ R₀ R, e.residual 0 0 0 = some R₀ ∧ e.residual 0 0 u = some R ∧
      quotLt (e.norm R) (if e.norm R₀ = 0 then 1 else e.norm R₀) o.theTolF = true := by
  have key : ∀ s : NSt K (ι → K), s.U = 0 → s.L = 0 → (∃ x, s.DU = some x) →
      (Newton.solveNonlinear e o s).1 = .success → (Newton.solveNonlinear e o s).2.U = u →
      ∃ R₀ R, e.residual 0 0 0 = some R₀ ∧ e.residual 0 0 u = some R ∧
        quotLt (e.norm R) (if e.norm R₀ = 0 then 1 else e.norm R₀) o.theTolF = true := by
    rintro s hU hL ⟨x, hx⟩ hs rfl
    obtain ⟨R₀, R, k₀, k, w, h0, h1, h2, -⟩ := C46_success hm hs
    have hb : Newton.base s = 0 := by simp [Newton.base, hx, hU]
    rw [he.residual, hL] at h0 h1
    rw [hb] at h0
    exact ⟨R₀, R, h0, h1, h2⟩
  cases dr with
  | false =>
    rw [C127_shell he] at h
    by_cases h1 : (linear e a).1 = .success
    · rw [if_pos h1] at h
      by_cases h2 : (alone e o b).1 = .success
      · rw [if_pos h2] at h
        simp only [Ended.wrote.injEq] at h
        exact key _ rfl rfl ⟨_, rfl⟩ h2 h
      · simp [h2] at h
    · simp [h1] at h
  | true =>
    rw [C127_relaxation] at h
    by_cases h1 : (linear e a).1 = .success
    · rw [if_pos h1] at h
      cases hr : (relaxed d p c).2 with
      | error x => simp [hr] at h
      | ok st =>
        by_cases h2 : (third e o b (relaxed d p c).1.DU).1 = .success
        · simp only [hr, h2, if_true, Bool.true_eq_false, if_false, Ended.wrote.injEq] at h
          exact key _ rfl rfl ⟨_, rfl⟩ h2 h
        · simp [hr, h2] at h
    · simp [h1] at h

open Prog.Demo in
/-- A vector which is written with assertions. -/
example : Newton.Steady (env 3 1 10) ∧ (opts 5).maxIt ≠ 0 ∧
    ∃ u, shell (env 3 1 10) (opts 5) de dp true false true raw raw Demo.drraw (fun _ => 99) = .wrote u := by
  refine ⟨steady _ _ _, by decide, ?_⟩
  have h : (Prog.Demo.get (shell (env 3 1 10) (opts 5) de dp true false true raw raw Demo.drraw fun _ => 99)).isSome := by
    decide +kernel
  cases hs : shell (env 3 1 10) (opts 5) de dp true false true raw raw Demo.drraw fun _ => 99 with
  | aborted => simp [hs, Prog.Demo.get] at h
  | wrote u => exact ⟨u, rfl⟩

/-- **C127, violation**: the linear solution is lost. Whatever it is, the stage after it starts from the undeformed
structure without an update. -/
theorem C127_violated_linear (nr : Bool) (a b : NSt K (ι → K)) (c : DRSt K ι) (empty : ι → K)
    (h : (linear e a).1 = .success) :
    ∃ s, Composite.prepare (classes e o d p)
        (Composite.put (ready d p true nr a b c empty).heap 0 (.inl (linear e a).2)) (some 0) 1 1 = .inr s ∧
      s.U = 0 ∧ s.DU = 0 ∧ (e.norm (linear e a).2.U ≠ 0 → e.norm 0 = 0 → (linear e a).2.U ≠ s.U + s.DU) := by
  rcases linear_eq (e := e) a with ⟨-, -, -, x, -, -, hU, hD, -⟩ | ⟨h2, -⟩
  · refine ⟨_, relaxed_stage nr a b c empty hD, rfl, rfl, fun h1 h2 h3 => h1 ?_⟩
    rw [h3]
    simpa [DR.setUpdate, DR.initializeSolver, DR.reset] using h2
  · simp [h2] at h

open Prog.Demo in
/-- A linear solution which is not zero. -/
example : (linear (env 3 1 10) raw).1 = .success ∧ (env 3 1 10).norm (linear (env 3 1 10) raw).2.U ≠ 0 ∧
    (env 3 1 10).norm 0 = 0 := by
  decide +kernel

/-- **C127, violation**: the program that does not look at the status writes the linear solution where the Newton
solver failed. -/
theorem C127_violated_status (he : Steady e) {a b : NSt K (ι → K)} (c : DRSt K ι) (empty : ι → K)
    (h1 : (linear e a).1 = .success) (h2 : (alone e o b).1 ≠ .success) :
    shell e o d p false false true a b c empty = .wrote (linear e a).2.U ∧
      shell e o d p true false true a b c empty = .aborted := by
  rw [C127_shell he, C127_shell he]
  simp [h1, h2]

open Prog.Demo in
/-- One iteration is not enough. -/
example : Newton.Steady (env 3 1 10) ∧ (linear (env 3 1 10) raw).1 = .success ∧
    (alone (env 3 1 10) (opts 1) raw).1 ≠ .success := by
  refine ⟨steady _ _ _, ?_⟩
  decide +kernel

end Prog

namespace Prog

open Newton (Steady)

variable {e : NEnv K V Mat} {o : Opts K}

/-- **C127**: the tutorials, in a build with assertions. What is shown meets the criteria of the Newton solver. -/
theorem C127_tutorial (hm : o.maxIt ≠ 0) {a : NSt K V} {u : V} (h : tutorial e o true a = .wrote u) :
    ∃ R₀ R k₀ k, e.residual k₀ 0 0 = some R₀ ∧ e.residual k 0 u = some R ∧
      quotLt (e.norm R) (if e.norm R₀ = 0 then 1 else e.norm R₀) o.theTolF = true := by
  have hd : tutorial e o true a = if (Newton.solveNonlinear e o (Newton.initializeSolver (Newton.ctor a))).1 ≠ .success
      then .aborted else .wrote (Newton.solveNonlinear e o (Newton.initializeSolver (Newton.ctor a))).2.U := by
    simp only [tutorial, true_and]
    rfl
  rw [hd] at h
  by_cases hs : (Newton.solveNonlinear e o (Newton.initializeSolver (Newton.ctor a))).1 = .success
  · simp only [hs, ne_eq, not_true, if_false, Ended.wrote.injEq] at h
    obtain ⟨R₀, R, k₀, k, w, h0, h1, h2, -⟩ := C46_success hm hs
    rw [h] at h1
    exact ⟨R₀, R, k₀, k, h0, h1, h2⟩
  · simp [hs] at h

open Prog.Demo in
/-- A solution which is shown. -/
example : (opts 5).maxIt ≠ 0 ∧ Prog.Demo.get (tutorial (env 1 1 10) (opts 5) true raw) = some (1581 / 3487) := by
  decide +kernel

/-- **C127, violation**: without assertions the tutorials show the vector of a solver that failed: the last iterate if
it did not converge, and zero if a callback or the linear solver failed. -/
theorem C127_violated_tutorial {a : NSt K V}
    (h : (Newton.solveNonlinear e o (Newton.initializeSolver (Newton.ctor a))).1 = .assemblyError ∨
      (Newton.solveNonlinear e o (Newton.initializeSolver (Newton.ctor a))).1 = .solverError) :
    tutorial e o false a = .wrote 0 ∧ tutorial e o true a = .aborted := by
  have hs : Newton.solve e o (Newton.initializeSolver (Newton.ctor a)) =
      Newton.solveNonlinear e o (Newton.initializeSolver (Newton.ctor a)) := rfl
  have hU := (C47_unchanged (s := Newton.initializeSolver (Newton.ctor a)) (d := 0) rfl h).1
  have hne : (Newton.solveNonlinear e o (Newton.initializeSolver (Newton.ctor a))).1 ≠ .success := by
    rcases h with h | h <;> simp [h]
  constructor
  · simp only [tutorial, hs, Bool.false_eq_true, false_and, if_false, hU]
    rfl
  · simp [tutorial, hs, hne]

open Prog.Demo in
/-- The residual cannot be evaluated after the first iteration. -/
example : (Newton.solveNonlinear (env 3 1 (1 / 2)) (opts 5) (Newton.initializeSolver (Newton.ctor raw))).1 =
      .assemblyError ∧ Prog.Demo.get (tutorial (env 3 1 (1 / 2)) (opts 5) false raw) = some 0 := by
  decide +kernel

/-- **C127**: the linear solution of the program with one solver for both. -/
theorem C127_thinShell_linear {a : NSt K V} {u : V} (h : thinShell e o false a = .wrote u) :
    ∃ k l, e.factorize k e.linear = true ∧ e.solve l e.linear e.force = some u := by
  have hd : thinShell e o false a = if (Newton.solveLinear e (Newton.ctor a)).1 ≠ .success then .aborted
      else .wrote (Newton.solveLinear e (Newton.ctor a)).2.U := by
    simp [thinShell]
  rw [hd] at h
  by_cases hs : (Newton.solveLinear e (Newton.ctor a)).1 = .success
  · simp only [hs, ne_eq, not_true, if_false, Ended.wrote.injEq] at h
    have h1 := hs
    unfold Newton.solveLinear Newton.caught at h1 h
    rcases hm : Newton.solveLinearRaw e (Newton.ctor a) with ⟨t, r⟩
    rw [hm] at h1 h
    cases r with
    | error x => cases x <;> simp [statusOf] at h1
    | ok x =>
      unfold Newton.solveLinearRaw at hm
      obtain ⟨s1, ⟨⟩, h2, hm⟩ := Act.bind_ok_inv hm
      obtain ⟨s2, y, h3, hm⟩ := Act.bind_ok_inv hm
      obtain ⟨a1, rfl⟩ := Newton.factorizeMatrix_ok h2
      obtain ⟨a2, rfl⟩ := Newton.solveSystem_ok h3
      rw [Act.bind_ok (Act.modify_apply _ _), Act.pure_apply] at hm
      simp only [Prod.mk.injEq, Except.ok.injEq] at hm
      obtain ⟨rfl, -⟩ := hm
      simp only at h
      rw [← h]
      exact ⟨_, _, a1, a2⟩
  · simp [hs] at h

open Prog.Demo in
/-- A linear solution. -/
example : Prog.Demo.get (thinShell (env 3 1 10) (opts 5) false raw) = some (3 / 2) := by
  decide +kernel

/-- **C127**: the nonlinear solution of the program with one solver for both. The iterations start from the linear
solution `x`, the residual is compared with the one at `x` and the increments with the distance from `x`. -/
theorem C127_thinShell (hm : o.maxIt ≠ 0) {a : NSt K V} {u : V} (h : thinShell e o true a = .wrote u) :
    ∃ x R₀ R k₀ k, thinShell e o false a = .wrote x ∧ e.residual k₀ 0 x = some R₀ ∧ e.residual k 0 u = some R ∧
      quotLt (e.norm R) (if e.norm R₀ = 0 then 1 else e.norm R₀) o.theTolF = true ∧
      quotLt (o.relax * e.norm (Newton.solveNonlinear e o (Newton.solveLinear e (Newton.ctor a)).2).2.du) (e.norm (u - x))
        o.theTolU = true := by
  by_cases hl : (Newton.solveLinear e (Newton.ctor a)).1 = .success
  · by_cases hs : (Newton.solveNonlinear e o (Newton.solveLinear e (Newton.ctor a)).2).1 = .success
    · simp only [thinShell, hl, hs, ne_eq, not_true, if_false, if_true, Ended.wrote.injEq] at h
      have hk : (Newton.solveLinear e (Newton.ctor a)).2.L = 0 ∧
          (Newton.solveLinear e (Newton.ctor a)).2.DU = some 0 := by
        have hkeep : Keeps (fun s : NSt K V => (s.L, s.DU)) (Newton.solveLinearRaw e) :=
          (Newton.keeps_factorizeMatrix (fun _ _ => rfl) e _).bind fun _ =>
            (Newton.keeps_solveSystem (fun _ _ => rfl) e _ _).bind fun _ =>
              Keeps.bind (.modify fun _ => rfl) fun _ => .ret _
        have h1 := hkeep (Newton.ctor a)
        unfold Newton.solveLinear Newton.caught
        rcases hr : Newton.solveLinearRaw e (Newton.ctor a) with ⟨t, r⟩
        rw [hr] at h1
        simp only [Prod.mk.injEq] at h1
        cases r <;> exact h1
      obtain ⟨R₀, R, k₀, k, w, h0, h1, h2, h3, h4, h5, -⟩ := C46_success hm hs
      have hb : Newton.base (Newton.solveLinear e (Newton.ctor a)).2 = (Newton.solveLinear e (Newton.ctor a)).2.U := by
        simp [Newton.base, hk.2]
      rw [hk.1, hb] at h0
      rw [hk.1, h] at h1
      refine ⟨(Newton.solveLinear e (Newton.ctor a)).2.U, R₀, R, k₀, k, by simp [thinShell, hl], h0, h1, h2, ?_⟩
      rw [show u - (Newton.solveLinear e (Newton.ctor a)).2.U = w from ?_]
      · exact h3
      · rw [hb, h] at h5
        rw [h5, add_sub_cancel_left]
    · simp [thinShell, hl, hs] at h
  · simp [thinShell, hl] at h

open Prog.Demo in
/-- The same problem, options and tolerances with another result than that of the tutorial: the residual at the linear
solution is smaller than the one at zero. -/
example : Prog.Demo.get (thinShell (env 1 1 10) ⟨1 / 5, -1, -1, 5, 1⟩ true raw) = some (1581 / 3487) ∧
    Prog.Demo.get (tutorial (env 1 1 10) ⟨1 / 5, -1, -1, 5, 1⟩ true raw) = some (5 / 11) := by
  decide +kernel

/-- **C127**: the results for the meshes are complete, each is that of a new solver, and none is written if one of
the solvers fails. -/
theorem C127_meshes (o : Opts K) (l : List (NEnv K V Mat × NSt K V)) :
    meshes o l =
      if ∀ x ∈ l, (Newton.solveNonlinear x.1 o (Newton.ctor x.2)).1 = .success
      then .wrote (l.map fun x => (Newton.solveNonlinear x.1 o (Newton.ctor x.2)).2.U) else .aborted := by
  induction l with
  | nil => simp [meshes]
  | cons x l ih =>
    obtain ⟨e, a⟩ := x
    simp only [meshes, ih]
    by_cases h1 : (Newton.solveNonlinear e o (Newton.ctor a)).1 = .success
    · by_cases h2 : ∀ x ∈ l, (Newton.solveNonlinear x.1 o (Newton.ctor x.2)).1 = .success
      · simp only [h1, ne_eq, not_true, if_false, if_pos h2]
        rw [if_pos (by simpa [h1] using h2)]
        simp
      · simp only [h1, ne_eq, not_true, if_false, if_neg h2]
        rw [if_neg (by simpa [h1] using h2)]
    · simp [h1]

open Prog.Demo in
/-- Two meshes, the second of which fails when only one iteration is allowed. -/
example : (match meshes (opts 5) [(env 1 0 10, raw), (env 1 1 10, raw)] with
      | .aborted => [] | .wrote l => l.map fun x => x 0) = [1 / 2, 1581 / 3487] ∧
    (match meshes (opts 1) [(env 1 0 10, raw), (env 1 1 10, raw)] with
      | .aborted => [] | .wrote l => l.map fun x => x 0) = [] := by
  decide +kernel

end Prog

namespace Prog

variable {ι : Type} [Fintype ι]
variable {e : NEnv K (ι → K) Mat} {o : Opts K} {d : DREnv K ι} {p : DROpts K} {opt : K → (ι → K) → (ι → K) × ℕ}

/-- The dynamic relaxation as the first stage. -/
def relaxed1 (d : DREnv K ι) (p : DROpts K) (s : DRSt K ι) : DRSt K ι × Except Err Status :=
  DR.solve d p (DR.initializeSolver d p s)

/-- A composite of the dynamic relaxation and another object. -/
theorem pair_eq (q : ℕ) (hq : q ≠ 0) (h : ℕ → (NSt K (ι → K) ⊕ DRSt K ι) ⊕ OSt K (ι → K)) {s : DRSt K ι}
    (h0 : h 0 = .inl (.inr s)) :
    pair e o d p opt [0, q] h =
      match (relaxed1 d p s).2 with
      | .error _ =>
        ({ heap := Composite.put (Composite.each (initObj3 d p) [0, q] ⟨h, (0 : ι → K), 0, 0, .notStarted, []⟩).heap 0
            (.inl (.inr (relaxed1 d p s).1))
           U := 0, DU := 0, numIt := 0, status := .success, ran := [.inl (.inr (relaxed1 d p s).1)] }, none)
      | .ok _ =>
        Composite.stages (classes3 e o d p opt) (some 0) [q]
          { heap := Composite.put
              (Composite.each (initObj3 d p) [0, q] ⟨h, (0 : ι → K), 0, 0, .notStarted, []⟩).heap 0
              (.inl (.inr (relaxed1 d p s).1))
            U := (relaxed1 d p s).1.U, DU := (relaxed1 d p s).1.DU, numIt := 0 + (relaxed1 d p s).1.numIt
            status := .success, ran := [.inl (.inr (relaxed1 d p s).1)] } := by
  have h1 : (Composite.each (initObj3 d p) [0, q] ⟨h, (0 : ι → K), 0, 0, .notStarted, []⟩).heap 0 =
      .inl (.inr (DR.initializeSolver d p s)) := by
    simp [Composite.each, Composite.put, hq.symm, h0, initObj3, initObj]
  unfold pair Composite.solve
  rw [Composite.stages]
  simp only [if_true, Composite.prepare, h1]
  rcases hr : relaxed1 d p s with ⟨t, r⟩
  have hr' : DR.solve d p (DR.initializeSolver d p s) = (t, r) := hr
  cases r with
  | error x => simp [classes3, classes, Solver.sum, DR.solver, hr', Composite.each]
  | ok st =>
    obtain rfl : st = .success := (C50_returns hr').1
    simp [classes3, classes, Solver.sum, DR.solver, hr']

/-- The stages leave the objects they do not point to alone. -/
theorem stages_frame {A : Type} (S : Solver K (ι → K) A) (j : ℕ) (ps : List ℕ) (hj : j ∉ ps) (prev : Option ℕ)
    (s : CSt (ι → K) A) : (Composite.stages S prev ps s).1.heap j = s.heap j := by
  induction ps generalizing prev s with
  | nil => rfl
  | cons q ps ih =>
    simp only [List.mem_cons, not_or] at hj
    have hp : ∀ x, Composite.put (Composite.prepare S s.heap prev q) q x j = s.heap j := by
      intro x
      cases prev <;> simp [Composite.prepare, Composite.put, hj.1]
    rw [Composite.stages]
    by_cases hs : s.status = .success
    · rw [if_pos hs]
      simp only
      split
      · exact hp _
      · rw [ih hj.2]; exact hp _
      · rw [ih hj.2]; exact hp _
    · rw [if_neg hs]

/-- Nor does a composite of two of them. -/
theorem pair_frame (j : ℕ) (ps : List ℕ) (hj : j ∉ ps) (h : ℕ → (NSt K (ι → K) ⊕ DRSt K ι) ⊕ OSt K (ι → K)) :
    (pair e o d p opt ps h).1.heap j = h j := by
  have he : ∀ (ps : List ℕ) (g : ℕ → (NSt K (ι → K) ⊕ DRSt K ι) ⊕ OSt K (ι → K)), j ∉ ps →
      ps.foldl (fun h q => Composite.put h q (initObj3 d p (h q))) g j = g j := by
    intro ps
    induction ps with
    | nil => intros; rfl
    | cons q ps ih =>
      intro g hj
      simp only [List.mem_cons, not_or] at hj
      rw [List.foldl_cons, ih _ hj.2]
      simp [Composite.put, hj.1]
  unfold pair Composite.solve
  rw [stages_frame _ j ps hj]
  exact he ps h hj

/-- The composite of the dynamic relaxation and the Newton solver, when the former converges. -/
theorem pair_newton (h : ℕ → (NSt K (ι → K) ⊕ DRSt K ι) ⊕ OSt K (ι → K)) {s t : DRSt K ι} {n : NSt K (ι → K)}
    {st : Status} (h0 : h 0 = .inl (.inr s)) (h1 : h 1 = .inl (.inl n)) (hnl : n.nl = true)
    (hr : relaxed1 d p s = (t, .ok st)) :
    let q := Newton.solveNonlinear e o (Newton.setUpdate (Newton.initializeSolver n) (some t.DU))
    ∃ r, pair e o d p opt [0, 1] h = (r, some q.1) ∧ r.heap 1 = .inl (.inl q.2) ∧
      r.U = if q.1 = .success then q.2.U else t.U := by
  intro q
  rw [pair_eq 1 one_ne_zero _ h0, hr]
  simp only
  rw [Composite.stages]
  have h8 : Composite.prepare (classes3 e o d p opt)
      (Composite.put (Composite.each (initObj3 d p) [0, 1]
        ⟨h, (0 : ι → K), 0, 0, .notStarted, []⟩).heap 0 (.inl (.inr t))) (some 0) 1 1 =
      .inl (.inl (Newton.setUpdate (Newton.initializeSolver n) (some t.DU))) := by
    simp [Composite.prepare, Composite.put, Composite.each, classes3, classes, Solver.sum, Newton.solver, DR.solver,
      initObj3, initObj, h1]
  have h9 : (classes3 e o d p opt).solve (.inl (.inl (Newton.setUpdate (Newton.initializeSolver n) (some t.DU)))) =
      (.inl (.inl q.2), some q.1) := by
    simp [classes3, classes, Solver.sum, Newton.solver, Newton.solve, Newton.setUpdate, Newton.initializeSolver,
      Newton.reset, hnl, q]
  simp only [if_true, h8, h9]
  generalize q = q
  obtain ⟨q1, q2⟩ := q
  cases q1 <;> simp [Composite.stages, Composite.put, classes3, classes, Solver.sum, Newton.solver]

/-- A composite of the dynamic relaxation and another object leaves the former as its relaxation left it. -/
theorem pair_drm (q : ℕ) (hq : q ≠ 0) (h : ℕ → (NSt K (ι → K) ⊕ DRSt K ι) ⊕ OSt K (ι → K)) {s t : DRSt K ι}
    {st : Status} (h0 : h 0 = .inl (.inr s)) (hr : relaxed1 d p s = (t, .ok st)) :
    (pair e o d p opt [0, q] h).1.heap 0 = .inl (.inr t) := by
  rw [pair_eq q hq _ h0, hr]
  simp only
  rw [stages_frame _ 0 [q] (by simpa using hq.symm)]
  simp [Composite.put]

/-- The composite of the dynamic relaxation and the optimizer, when the former converges. -/
theorem pair_opt (h : ℕ → (NSt K (ι → K) ⊕ DRSt K ι) ⊕ OSt K (ι → K)) {s t : DRSt K ι} {w : OSt K (ι → K)}
    {st : Status} (h0 : h 0 = .inl (.inr s)) (h2 : h 2 = .inr w) (hr : relaxed1 d p s = (t, .ok st)) :
    ∃ r, pair e o d p opt [0, 2] h = (r, some .success) ∧ r.U = (opt 0 t.DU).1 := by
  rw [pair_eq 2 two_ne_zero _ h0, hr]
  simp only
  rw [Composite.stages]
  have h8 : Composite.prepare (classes3 e o d p opt)
      (Composite.put (Composite.each (initObj3 d p) [0, 2]
        ⟨h, (0 : ι → K), 0, 0, .notStarted, []⟩).heap 0 (.inl (.inr t))) (some 0) 2 2 =
      .inr { w with U := 0, DU := t.DU, L := 0 } := by
    simp [Composite.prepare, Composite.put, Composite.each, classes3, classes, Solver.sum, DR.solver, Opt.solver,
      initObj3, h2]
  have h9 : (classes3 e o d p opt).solve (.inr { w with U := 0, DU := t.DU, L := 0 }) =
      (.inr { w with U := (opt 0 t.DU).1, DU := (opt 0 t.DU).1, L := 0, numIt := (opt 0 t.DU).2 },
        some .success) := by
    simp [classes3, Solver.sum, Opt.solver, Opt.solve]
  simp only [if_true, h8, h9]
  exact ⟨_, rfl, by simp [classes3, Solver.sum, Opt.solver]⟩

/-- **C127**: the second and the fourth number of the program that compares the solvers. The optimizer starts with load
factor 0, once from zero and once from the update of the second dynamic relaxation, and whatever it returns is the
result. -/
theorem C127_compare_optimizer {a : DRSt K ι} {b : NSt K (ι → K)} {c : OSt K (ι → K)} {l : List (ι → K)} {u : ι → K}
    (h : compare e o d p opt a b c = .wrote (l, u)) :
    ∃ t t' st st', relaxed1 d p (three d p a b c).drm = (t, .ok st) ∧ relaxed1 d p t = (t', .ok st') ∧
      l.length = 4 ∧ l[1]? = some (opt 0 0).1 ∧ l[3]? = some (opt 0 t'.DU).1 := by
  have hw : (Opt.solve opt (three d p a b c).opt).1.U = (opt 0 0).1 := by
    simp [Opt.solve, three, Opt.init]
  unfold compare at h
  simp only at h
  generalize (Newton.solve e o (three d p a b c).nwt).2 = n at h
  generalize (Opt.solve opt (three d p a b c).opt).1 = w at h hw
  rcases hr : relaxed1 d p (three d p a b c).drm with ⟨t, x | st⟩
  · rw [pair_eq (s := (three d p a b c).drm) 1 one_ne_zero _ rfl, hr] at h
    simp at h
  · have h0 := pair_drm (e := e) (o := o) (opt := opt) 1 one_ne_zero
      ({ three d p a b c with nwt := n, opt := w } : Three K ι).heap rfl hr
    have h2 := pair_frame (e := e) (o := o) (d := d) (p := p) (opt := opt) 2 [0, 1] (by simp)
      ({ three d p a b c with nwt := n, opt := w } : Three K ι).heap
    rcases hp : pair e o d p opt [0, 1] ({ three d p a b c with nwt := n, opt := w } : Three K ι).heap with
      ⟨r, _ | st1⟩
    · simp [hp] at h
    · rw [hp] at h h0 h2
      simp only at h h0 h2
      rcases hr' : relaxed1 d p t with ⟨t', x | st'⟩
      · rw [pair_eq (s := t) 2 two_ne_zero _ h0, hr'] at h
        simp at h
      · obtain ⟨r', h3, h4⟩ := pair_opt (e := e) (o := o) (opt := opt) r.heap h0 h2 hr'
        rw [h3] at h
        simp only [Ended.wrote.injEq, Prod.mk.injEq] at h
        obtain ⟨rfl, rfl⟩ := h
        refine ⟨t, t', st, st', rfl, hr', rfl, ?_, ?_⟩
        · simp [hw]
        · simp [h4]

open Prog.Demo in
/-- `C127_compare_optimizer`: the optimizer returns `2 x + L + 1`. -/
example : Prog.Demo.gets (compare (env 3 1 10) (opts 5) de dp (fun L x => (fun i => 2 * x i + L + 1, 3)) Demo.drraw raw
      ⟨4, 5, 6, 7, .notStarted⟩) =
    some ([6781768626777729 / 6781548727027585, 1, 32705008210586139 / 32704978307252224, 785785 / 262144],
      32705008210586139 / 32704978307252224) := by
  decide +kernel

/-- **C127**: what is plotted by the program that compares the solvers. It ends with a plot only if the dynamic
relaxation converged in both composites. The plot has the state of the Newton solver after the first composite, and
the third number belongs to the same vector only if that solver converged; otherwise it belongs to the result of the
dynamic relaxation. -/
theorem C127_compare {a : DRSt K ι} {b : NSt K (ι → K)} {c : OSt K (ι → K)} {l : List (ι → K)} {u : ι → K}
    (h : compare e o d p opt a b c = .wrote (l, u)) :
    ∃ t st, relaxed1 d p (three d p a b c).drm = (t, .ok st) ∧
      let n := Newton.solveNonlinear e o (Newton.setUpdate (Newton.initializeSolver
        (Newton.solve e o (three d p a b c).nwt).2) (some t.DU))
      u = n.2.U ∧ l[0]? = some (Newton.solve e o (three d p a b c).nwt).2.U ∧
        l[2]? = some (if n.1 = .success then n.2.U else t.U) := by
  have hnl : (Newton.solve e o (three d p a b c).nwt).2.nl = true := by
    have hH : Newton.Has (three d p a b c).nwt := ⟨rfl, 0, rfl⟩
    have := Newton.pres e o _ hH
    rw [Newton.solve, if_pos hH.1, Newton.solveNonlinear, Newton.caught]
    rcases h : Newton.solveNonlinearRaw e o (three d p a b c).nwt with ⟨t, r⟩
    rw [h] at this
    cases r <;> exact this.1
  unfold compare at h
  simp only at h
  generalize (Newton.solve e o (three d p a b c).nwt).2 = n at h hnl ⊢
  generalize (Opt.solve opt (three d p a b c).opt).1 = w at h
  rcases hr : relaxed1 d p (three d p a b c).drm with ⟨t, x | st⟩
  · rw [pair_eq (s := (three d p a b c).drm) 1 one_ne_zero _ rfl, hr] at h
    simp at h
  · refine ⟨t, st, rfl, ?_⟩
    obtain ⟨r, h1, h2, h3⟩ := pair_newton (e := e) (o := o) (opt := opt)
      ({ three d p a b c with nwt := n, opt := w } : Three K ι).heap rfl rfl hnl hr
    rw [h1] at h
    simp only at h
    intro q
    rw [← h3]
    have h4 := pair_frame (e := e) (o := o) (d := d) (p := p) (opt := opt) 1 [0, 2] (by simp) r.heap
    rcases hp : pair e o d p opt [0, 2] r.heap with ⟨r', _ | st'⟩
    · simp [hp] at h
    · rw [hp] at h h4
      simp only [Ended.wrote.injEq, Prod.mk.injEq] at h
      obtain ⟨rfl, rfl⟩ := h
      rw [h4, h2]
      exact ⟨rfl, rfl, rfl⟩

open Prog.Demo in
/-- The third number and the plot belong to the same vector. -/
example : Prog.Demo.gets (compare (env 3 1 10) (opts 5) de dp (fun _ _ => (fun _ => 5, 3)) Demo.drraw raw
      ⟨0, 0, 0, 0, .notStarted⟩) =
    some ([6781768626777729 / 6781548727027585, 5, 32705008210586139 / 32704978307252224, 5],
      32705008210586139 / 32704978307252224) := by
  decide +kernel

/-- **C127, violation**: if the Newton solver cannot continue from the relaxed state, the plot shows the undeformed
structure, although the solutions printed before are others. -/
theorem C127_violated_compare {a : DRSt K ι} {b : NSt K (ι → K)} {c : OSt K (ι → K)} {l : List (ι → K)} {u : ι → K}
    (h : compare e o d p opt a b c = .wrote (l, u))
    (hf : ∀ t st, relaxed1 d p (three d p a b c).drm = (t, .ok st) →
      (Newton.solveNonlinear e o (Newton.setUpdate (Newton.initializeSolver
        (Newton.solve e o (three d p a b c).nwt).2) (some t.DU))).1 = .assemblyError ∨
      (Newton.solveNonlinear e o (Newton.setUpdate (Newton.initializeSolver
        (Newton.solve e o (three d p a b c).nwt).2) (some t.DU))).1 = .solverError) :
    u = 0 ∧ ∃ t, relaxed1 d p (three d p a b c).drm = (t, .ok .success) ∧ l[2]? = some t.U := by
  obtain ⟨t, st, hr, h1, -, h2⟩ := C127_compare h
  have hx := hf t st hr
  obtain rfl : st = .success := (C50_returns hr).1
  have hU := (C47_unchanged (d := t.DU) rfl hx).1
  refine ⟨?_, t, hr, ?_⟩
  · rw [h1, hU]; rfl
  · rw [h2, if_neg]
    rcases hx with hx | hx <;> simp [hx]

open Prog.Demo in
/-- The Newton solver alone prints `1/2` and the composite the relaxed state, and zero is plotted. -/
example : Prog.Demo.gets (compare (env 1 0 (99 / 100)) (opts 5) de dp (fun _ _ => (fun _ => 5, 3)) Demo.drraw raw
      ⟨0, 0, 0, 0, .notStarted⟩) = some ([1 / 2, 5, 523641 / 524288, 5], 0) := by
  decide +kernel

end Prog

end GsSA.Static
