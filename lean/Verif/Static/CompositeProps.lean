import Mathlib.Tactic.FieldSimp
import Mathlib.Tactic.Tauto
import Verif.Static.Composite
import Verif.Static.NewtonProps
import Verif.Static.DRProps

/-!
# Properties C52, C53, C55, C83, C84: composite solver, displacement control, optimisation
-/

namespace GsSA.Static

open GsSA
open GsSA.ALM (Act Err Event)

set_option linter.unusedSectionVars false

variable {K V A : Type}

/-! ## C52 -/

/-- The object `p` when its stage is started: it has been given the update of the stage before. -/
def begun (S : Solver K V A) (h : ℕ → A) (prev : Option ℕ) (p : ℕ) : A :=
  match prev with
  | none => h p
  | some q => S.setUpdate (h p) (S.update (h q))

/-- The stages `ps` are run one after the other, all with `Success`: `xs` are the objects after their
solves. -/
inductive Runs (S : Solver K V A) : (ℕ → A) → Option ℕ → List ℕ → (ℕ → A) → List A → Prop
  | nil (h : ℕ → A) (prev : Option ℕ) : Runs S h prev [] h []
  | cons {h h' : ℕ → A} {prev : Option ℕ} {p : ℕ} {ps : List ℕ} {x : A} {xs : List A}
      (h1 : S.solve (begun S h prev p) = (x, some .success))
      (h2 : Runs S (Function.update h p x) (some p) ps h' xs) : Runs S h prev (p :: ps) h' (x :: xs)

theorem Composite.prepare_self (S : Solver K V A) (h : ℕ → A) (prev : Option ℕ) (p : ℕ) :
    prepare S h prev p p = begun S h prev p := by
  cases prev <;> simp [prepare, begun, put]

theorem Composite.put_prepare (S : Solver K V A) (h : ℕ → A) (prev : Option ℕ) (p : ℕ) (x : A) :
    put (prepare S h prev p) p x = Function.update h p x := by
  funext q
  by_cases hq : q = p
  · subst hq; simp [put]
  · cases prev <;> simp [prepare, put, hq]

theorem last_cons {α : Type} (a b : α) (l : List α) :
    ∃ z, (b :: l).getLast? = some z ∧ (a :: b :: l).getLast? = some z :=
  ⟨(b :: l).getLast (by simp), List.getLast?_eq_some_getLast _,
    by rw [List.getLast?_cons_cons, List.getLast?_eq_some_getLast]⟩

theorem Composite.stages_cases (S : Solver K V A) (prev : Option ℕ) (ps : List ℕ) (s : CSt V A)
    (hs : s.status = .success) :
    (∃ h xs, Runs S s.heap prev ps h xs ∧ stages S prev ps s =
      ({ heap := h, U := (xs.getLast?.map S.solution).getD s.U
         DU := (xs.getLast?.map S.update).getD s.DU
         numIt := s.numIt + (xs.map S.iterations).sum, status := .success, ran := s.ran ++ xs },
        some .success)) ∨
    (∃ ps₁ p ps₂ h xs x r, ps = ps₁ ++ p :: ps₂ ∧ Runs S s.heap prev ps₁ h xs ∧
      S.solve (begun S h (ps₁.getLast?.or prev) p) = (x, r) ∧ r ≠ some .success ∧ stages S prev ps s =
      ({ heap := Function.update h p x, U := (xs.getLast?.map S.solution).getD s.U
         DU := (xs.getLast?.map S.update).getD s.DU
         numIt := s.numIt + (xs.map S.iterations).sum, status := r.getD .success
         ran := s.ran ++ xs ++ [x] }, r)) := by
  induction ps generalizing prev s with
  | nil =>
    left
    refine ⟨s.heap, [], .nil _ _, ?_⟩
    obtain ⟨a, b, c, d, e, f⟩ := s
    simp only at hs
    subst hs
    simp [stages]
  | cons p ps ih =>
    rcases hx : S.solve (begun S s.heap prev p) with ⟨x, r⟩
    have hx' := hx
    rw [← prepare_self] at hx'
    by_cases hr : r = some .success
    · subst hr
      have hstep : stages S prev (p :: ps) s = stages S (some p) ps
          { heap := Function.update s.heap p x, U := S.solution x, DU := S.update x
            numIt := s.numIt + S.iterations x, status := .success, ran := s.ran ++ [x] } := by
        simp only [stages, hs, if_true, hx', put_prepare]
      rw [hstep]
      rcases ih (some p) { heap := Function.update s.heap p x, U := S.solution x, DU := S.update x, numIt := s.numIt + S.iterations x, status := .success, ran := s.ran ++ [x] } rfl with
        ⟨h, xs, h1, h2⟩ | ⟨ps₁, q, ps₂, h, xs, y, r, rfl, h1, h2, h3, h4⟩
      · refine .inl ⟨h, x :: xs, .cons hx h1, ?_⟩
        rw [h2]
        cases xs with
        | nil => simp
        | cons y ys =>
          obtain ⟨z, e1, e2⟩ := last_cons x y ys
          simp [e1, e2, Nat.add_assoc]
      · refine .inr ⟨p :: ps₁, q, ps₂, h, x :: xs, y, r, rfl, .cons hx h1, ?_, h3, ?_⟩
        · rw [← h2]
          cases ps₁ with
          | nil => simp
          | cons y ys =>
            obtain ⟨z, e1, e2⟩ := last_cons p y ys
            simp [e1, e2]
        · rw [h4]
          cases xs with
          | nil => simp
          | cons y ys =>
            obtain ⟨z, e1, e2⟩ := last_cons x y ys
            simp [e1, e2, Nat.add_assoc]
    · refine .inr ⟨[], p, ps, s.heap, [], x, r, rfl, .nil _ _, by simpa using hx, hr, ?_⟩
      rcases r with _ | st
      · simp [stages, hs, hx', put_prepare]
      · have hst : st ≠ .success := fun h => hr (by rw [h])
        have : stages S (some p) ps { s with heap := Function.update s.heap p x, status := st, ran := s.ran ++ [x] } = ({ s with heap := Function.update s.heap p x, status := st, ran := s.ran ++ [x] }, some st) := by
          cases ps <;> simp [stages, hst]
        cases st <;> simp_all [stages, put_prepare]

theorem Runs.length {S : Solver K V A} {h h' : ℕ → A} {prev : Option ℕ} {ps : List ℕ} {xs : List A}
    (hr : Runs S h prev ps h' xs) : xs.length = ps.length := by
  induction hr with
  | nil => rfl
  | cons _ _ ih => simp [ih]

theorem Runs.frame {S : Solver K V A} {h h' : ℕ → A} {prev : Option ℕ} {ps : List ℕ} {xs : List A}
    (hr : Runs S h prev ps h' xs) {q : ℕ} (hq : q ∉ ps) : h' q = h q := by
  induction hr with
  | nil => rfl
  | cons _ _ ih =>
    simp only [List.mem_cons, not_or] at hq
    rw [ih hq.2, Function.update_of_ne hq.1]

theorem Runs.unique {S : Solver K V A} {h h' h'' : ℕ → A} {prev : Option ℕ} {ps : List ℕ} {xs xs' : List A}
    (hr : Runs S h prev ps h' xs) (hr' : Runs S h prev ps h'' xs') : h' = h'' ∧ xs = xs' := by
  induction hr generalizing h'' xs' with
  | nil => cases hr'; exact ⟨rfl, rfl⟩
  | cons h1 _ ih =>
    cases hr' with
    | cons h3 h4 =>
      rw [h1] at h3
      simp only [Prod.mk.injEq, and_true] at h3
      subst h3
      obtain ⟨rfl, rfl⟩ := ih h4
      exact ⟨rfl, rfl⟩

theorem Runs.split {S : Solver K V A} {h h' : ℕ → A} {prev : Option ℕ} {ps qs : List ℕ} {xs : List A}
    (hr : Runs S h prev (ps ++ qs) h' xs) :
    ∃ h₁ xs₁ xs₂, Runs S h prev ps h₁ xs₁ ∧ Runs S h₁ (ps.getLast?.or prev) qs h' xs₂ ∧
      xs = xs₁ ++ xs₂ := by
  induction ps generalizing h prev xs with
  | nil => exact ⟨h, [], xs, .nil _ _, by simpa using hr, rfl⟩
  | cons p ps ih =>
    cases hr with
    | cons h1 h2 =>
      obtain ⟨h₁, xs₁, xs₂, a, b, rfl⟩ := ih h2
      refine ⟨h₁, _ :: xs₁, xs₂, .cons h1 a, ?_, rfl⟩
      cases ps with
      | nil => simpa using b
      | cons y ys =>
        obtain ⟨z, e1, e2⟩ := last_cons p y ys
        rw [e1] at b
        rw [e2]
        simpa using b

/-- C52: `solve` returns `Success` exactly if the stages can all be run one after the other with `Success`,
each but the first started with the update of the one before. Then `solution()` and `update()` are those of
the last stage, and `iterations()` is the sum. -/
theorem C52_success (S : Solver K V A) (ps : List ℕ) (s : CSt V A) :
    ((Composite.solve S ps s).2 = some .success ↔ ∃ h xs, Runs S s.heap none ps h xs) ∧
    ∀ h xs, Runs S s.heap none ps h xs →
      (Composite.solve S ps s).1.heap = h ∧
      (∀ x, xs.getLast? = some x → (Composite.solve S ps s).1.U = S.solution x ∧
        (Composite.solve S ps s).1.DU = S.update x) ∧
      (Composite.solve S ps s).1.numIt = (xs.map S.iterations).sum ∧
      (Composite.solve S ps s).1.status = .success ∧ xs.length = ps.length := by
  rcases Composite.stages_cases S none ps { s with numIt := 0, status := .success, ran := [] } rfl with
    ⟨h, xs, h1, h2⟩ | ⟨ps₁, q, ps₂, h, xs, y, r, rfl, h1, h2, h3, h4⟩
  · unfold Composite.solve
    rw [h2]
    refine ⟨⟨fun _ => ⟨h, xs, h1⟩, fun _ => rfl⟩, fun h' xs' hr => ?_⟩
    obtain ⟨rfl, rfl⟩ := h1.unique hr
    refine ⟨rfl, fun x hx => ?_, by simp, rfl, h1.length⟩
    simp [hx]
  · have hno : ∀ h' xs', ¬ Runs S s.heap none (ps₁ ++ q :: ps₂) h' xs' := by
      intro h' xs' hr
      obtain ⟨k₁, ys₁, ys₂, a, b, -⟩ := hr.split
      obtain ⟨rfl, rfl⟩ := h1.unique a
      cases b with
      | cons b1 b2 =>
        rw [h2] at b1
        simp only [Prod.mk.injEq] at b1
        exact h3 b1.2
    unfold Composite.solve
    rw [h4]
    refine ⟨⟨fun hh => absurd hh h3, fun ⟨h', xs', hr⟩ => absurd hr (hno h' xs')⟩, ?_⟩
    exact fun h' xs' hr => absurd hr (hno h' xs')

/-- C52: otherwise there is a first stage `p` which does not succeed. The stages `ps₁` before it have been
run; `solution()`, `update()` and `iterations()` are theirs (or as before, if there are none). The later stages
have not been run: their objects are unchanged, unless they are also in the earlier part. A failure status is
returned and stored. -/
theorem C52_failure (S : Solver K V A) (ps : List ℕ) (s : CSt V A)
    (hf : (Composite.solve S ps s).2 ≠ some .success) :
    ∃ ps₁ p ps₂ h xs x, ps = ps₁ ++ p :: ps₂ ∧ Runs S s.heap none ps₁ h xs ∧
      S.solve (begun S h ps₁.getLast? p) = (x, (Composite.solve S ps s).2) ∧
      (Composite.solve S ps s).1.heap = Function.update h p x ∧
      (∀ q, q ∉ ps₁ → q ≠ p → (Composite.solve S ps s).1.heap q = s.heap q) ∧
      (Composite.solve S ps s).1.U = (xs.getLast?.map S.solution).getD s.U ∧
      (Composite.solve S ps s).1.DU = (xs.getLast?.map S.update).getD s.DU ∧
      (Composite.solve S ps s).1.numIt = (xs.map S.iterations).sum ∧
      (Composite.solve S ps s).1.ran = xs ++ [x] ∧
      ∀ st, (Composite.solve S ps s).2 = some st → (Composite.solve S ps s).1.status = st := by
  rcases Composite.stages_cases S none ps { s with numIt := 0, status := .success, ran := [] } rfl with
    ⟨h, xs, h1, h2⟩ | ⟨ps₁, q, ps₂, h, xs, y, r, rfl, h1, h2, h3, h4⟩
  · exfalso
    unfold Composite.solve at hf
    rw [h2] at hf
    exact hf rfl
  · unfold Composite.solve
    rw [h4]
    refine ⟨ps₁, q, ps₂, h, xs, y, rfl, h1, by simpa using h2, rfl, ?_, rfl, rfl, by simp, by simp, ?_⟩
    · intro k hk hq
      simp only
      rw [Function.update_of_ne hq, h1.frame hk]
    · rintro st rfl
      rfl

/-- C52, violation: if an exception escapes from a stage (a dynamic relaxation which does not converge) the
status of the composite solver is `Success`, and `converged()` is true. -/
theorem C52_violated_exception (S : Solver K V A) (ps : List ℕ) (s : CSt V A)
    (hf : (Composite.solve S ps s).2 = none) : (Composite.solve S ps s).1.status = .success := by
  rcases Composite.stages_cases S none ps { s with numIt := 0, status := .success, ran := [] } rfl with
    ⟨h, xs, h1, h2⟩ | ⟨ps₁, q, ps₂, h, xs, y, r, rfl, h1, h2, h3, h4⟩
  · unfold Composite.solve at hf
    rw [h2] at hf
    simp at hf
  · unfold Composite.solve at hf ⊢
    rw [h4] at hf ⊢
    simp only at hf
    subst hf
    rfl

/-- C52: without stages the result is `Success`, and nothing changes. -/
theorem C52_empty (S : Solver K V A) (s : CSt V A) :
    (Composite.solve S [] s).2 = some .success ∧ (Composite.solve S [] s).1.U = s.U := ⟨rfl, rfl⟩

namespace Demo

/-- Two Newton objects for `3 = 2u + u³` with tolerances 1/2 and 1/100. -/
structure NObj where
  tol : ℚ
  maxIt : ℕ
  st : NSt ℚ ℚ

/-- Their class. -/
def nobj : Solver ℚ ℚ NObj where
  solve x :=
    let o : Opts ℚ := ⟨x.tol, -1, -1, x.maxIt, 1⟩
    let r := (Newton.solver (nenv 3 1 fun _ => false) o).solve x.st
    ({ x with st := r.1 }, r.2)
  solution x := x.st.U
  update x := x.st.upd
  iterations x := x.st.numIt
  setUpdate x d := { x with st := Newton.setUpdate x.st (some d) }
  setDisplacement x U := { x with st := Newton.setDisplacement x.st U }
  setLoad x L := { x with st := Newton.setLoad x.st L }
  reset x := { x with st := Newton.reset x.st }

/-- A composite of two stages, with `m` iterations for the first. -/
def comp (m : ℕ) : CSt ℚ NObj :=
  ⟨fun p => if p = 0 then ⟨1 / 2, m, fresh 1⟩ else ⟨1 / 100, 25, fresh 1⟩, 17, 17, 17, .notStarted, []⟩

/-- A composite with a dynamic relaxation which is not solved in three iterations. -/
def drcomp : CSt (Fin 1 → ℚ) (DRSt ℚ (Fin 1)) :=
  ⟨fun _ => drnew drlin (dropts 3 1 (-1)), 0, 0, 0, .notStarted, []⟩

end Demo

/-- Both stages succeed; with one iteration for the first stage it fails and the second is not run. -/
example :
    let t := Composite.solve Demo.nobj [0, 1] (Demo.comp 25)
    let t' := Composite.solve Demo.nobj [0, 1] (Demo.comp 1)
    t.2 = some .success ∧ t.1.ran.length = 2 ∧ t.1.U = (t.1.heap 1).st.U ∧ t.1.U ≠ (t.1.heap 0).st.U ∧
    t'.2 = some .notConverged ∧ t'.1.ran.length = 1 ∧ (t'.1.heap 1).st.U = 0 ∧ t'.1.U = 17 := by
  decide +kernel

/-- A dynamic relaxation stage which does not converge. -/
example : (Composite.solve (DR.solver (Demo.drenv Demo.drlin) (Demo.dropts 3 1 (-1))) [0] Demo.drcomp).2
    = none := by
  decide +kernel

/-! ## Laws of solvers -/

/-- What displacement control and the composite solver expect of a solver, for objects with `I`: a successful
solve moves `solution()` by `update()`. -/
structure Laws [Add V] (S : Solver K V A) (I : A → Prop) : Prop where
  succ : ∀ a b, I a → S.solve a = (b, some .success) → S.solution b = S.solution a + S.update b
  inv : ∀ a, I a → I (S.solve a).1
  updSol : ∀ a d, S.solution (S.setUpdate a d) = S.solution a
  updUpd : ∀ a d, S.update (S.setUpdate a d) = d
  updInv : ∀ a d, I a → I (S.setUpdate a d)
  dispSol : ∀ a U, S.solution (S.setDisplacement a U) = U
  dispInv : ∀ a U, I a → I (S.setDisplacement a U)
  loadSol : ∀ a L, S.solution (S.setLoad a L) = S.solution a
  loadInv : ∀ a L, I a → I (S.setLoad a L)

section

variable {Mat ι : Type} [Field K] [LinearOrder K] [AddCommGroup V] [Module K V] [Fintype ι]

/-- A nonlinear Newton object with an update vector. -/
def Newton.Has (s : NSt K V) : Prop := s.nl = true ∧ ∃ d, s.DU = some d

theorem Newton.pres (e : NEnv K V Mat) (o : Opts K) : Pres Newton.Has (Newton.solveNonlinearRaw e o) := by
  have hemit : ∀ x, Pres Newton.Has (Newton.emit x : Act (NSt K V) Unit) :=
    fun x => .modify fun _ h => h
  have hres : ∀ U, Pres Newton.Has (Newton.computeResidual e U) := by
    intro U
    refine Pres.bind Pres.get fun s => ?_
    cases e.residual s.log.length s.L U with
    | none => exact Pres.bind (hemit _) fun _ => .throw _
    | some R => exact Pres.bind (hemit _) fun _ => .ret _
  have hjac : ∀ U du, Pres Newton.Has (Newton.computeJacobian e U du) := by
    intro U du
    refine Pres.bind Pres.get fun s => ?_
    cases e.jacobian s.log.length U du with
    | none => exact Pres.bind (hemit _) fun _ => .throw _
    | some R => exact Pres.bind (hemit _) fun _ => .ret _
  have hfac : ∀ m, Pres Newton.Has (Newton.factorizeMatrix e m) := fun m =>
    Pres.bind Pres.get fun s => Pres.ite (hemit _) (Pres.bind (hemit _) fun _ => .throw _)
  have hsol : ∀ m F, Pres Newton.Has (Newton.solveSystem e m F) := by
    intro m F
    refine Pres.bind Pres.get fun s => ?_
    cases e.solve s.log.length m F with
    | none => exact Pres.bind (hemit _) fun _ => .throw _
    | some R => exact Pres.bind (hemit _) fun _ => .ret _
  have hit : Pres Newton.Has (Newton.iteration e o) :=
    Pres.bind Pres.get fun _ => Pres.bind (hjac _ _) fun _ => Pres.bind (hfac _) fun _ =>
      Pres.bind (hsol _ _) fun _ => Pres.bind (.modify fun _ h => ⟨h.1, _, rfl⟩) fun _ =>
      Pres.bind Pres.get fun _ => Pres.bind (hres _) fun _ => .modify fun _ h => h
  have hloop : ∀ n, Pres Newton.Has (Newton.loop e o n) := by
    intro n
    induction n with
    | zero => exact .ret _
    | succ n ih =>
      exact Pres.bind hit fun _ => Pres.bind Pres.get fun _ => Pres.ite (.modify fun _ h => h)
        (Pres.ite (Pres.bind (.modify fun _ h => h) fun _ => Pres.bind (hemit _) fun _ => .throw _)
          (Pres.bind (.modify fun _ h => h) fun _ => ih))
  refine Pres.bind ?_ fun _ => Pres.bind ?_ fun _ => Pres.bind (.modify fun _ h => h) fun _ => hloop _
  · refine Pres.bind Pres.get fun s => ?_
    cases s.DU with
    | some d => exact .ret _
    | none =>
      exact Pres.bind (Pres.bind (hfac _) fun _ => Pres.bind (hsol _ _) fun _ =>
        Pres.bind (.modify fun _ h => h) fun _ => .ret _) fun _ => .modify fun _ h => ⟨h.1, _, rfl⟩
  · exact Pres.bind Pres.get fun s => Pres.bind (Pres.ite
      (Pres.bind (hres _) fun _ => Pres.bind (.modify fun _ h => h) fun _ => Pres.bind (hres _) fun _ =>
        .modify fun _ h => h)
      (Pres.bind (.modify fun _ h => ⟨h.1, _, rfl⟩) fun _ => Pres.bind (hres _) fun _ =>
        .modify fun _ h => h)) fun _ => .modify fun _ h => h

/-- A nonlinear Newton solver with `maxIt ≥ 1` which has an update vector. -/
theorem Newton.laws (e : NEnv K V Mat) (o : Opts K) (hm : o.maxIt ≠ 0) :
    Laws (Newton.solver e o) Newton.Has where
  succ := by
    rintro a b ⟨hn, d, hd⟩ h
    simp only [Newton.solver, Newton.solve, hn, if_true, Prod.mk.injEq, Option.some.injEq] at h
    obtain ⟨-, -, -, -, d', -, -, -, -, h1, h2, -⟩ := C46_success hm h.2
    rw [← h.1]
    simp only [Newton.solver, NSt.upd, h1, h2, Newton.base, hd, Option.getD_some]
  inv := by
    intro a ha
    simp only [Newton.solver, Newton.solve, ha.1, if_true, Newton.solveNonlinear, Newton.caught]
    have := Newton.pres e o a ha
    rcases h : Newton.solveNonlinearRaw e o a with ⟨t, r⟩
    rw [h] at this
    cases r <;> exact this
  updSol _ _ := rfl
  updUpd _ _ := rfl
  updInv a d h := ⟨h.1, d, rfl⟩
  dispSol _ _ := rfl
  dispInv _ _ h := h
  loadSol _ _ := rfl
  loadInv _ _ h := h

/-- An initialized dynamic relaxation with `maxIt ≥ 2`. -/
theorem DR.laws [IsStrictOrderedRing K] (e : DREnv K ι) (o : DROpts K) (hm : 2 ≤ o.base.maxIt) :
    Laws (DR.solver e o) fun s => s.ready = true where
  succ := by
    intro a b ha h
    simp only [DR.solver] at h
    rcases hs : DR.solve e o a with ⟨t, r⟩
    rw [hs] at h
    cases r with
    | ok st =>
      simp only [Prod.mk.injEq] at h
      obtain ⟨-, -, -, -, -, -, -, -, h1, -⟩ := C51_success ha hm hs
      rw [← h.1]
      exact h1
    | error x => simp at h
  inv := by
    intro a ha
    simp only [DR.solver]
    rcases hs : DR.solve e o a with ⟨t, r⟩
    have key : ∀ u x, DR.solveRaw e o a = (u, x) → u.ready = true := by
      intro u x hu
      have := (DR.keeps_solveRaw e o).run hu
      simp only [DR.fixed, Prod.mk.injEq] at this
      exact this.2.2.2.2.trans ha
    cases r with
    | ok st =>
      obtain ⟨u, h1, rfl, -⟩ := DR.solve_ok hs
      have := key u _ h1
      exact this
    | error x => exact key _ _ (DR.solve_error.1 hs)
  updSol _ _ := rfl
  updUpd _ _ := rfl
  updInv _ _ h := h
  dispSol _ _ := rfl
  dispInv _ _ h := h
  loadSol _ _ := rfl
  loadInv _ _ h := h

/-- The optimisation solver. -/
theorem Opt.laws (opt : K → V → V × ℕ) : Laws (Opt.solver opt) fun _ => True where
  succ a b _ h := by
    simp only [Opt.solver, Opt.solve, Prod.mk.injEq] at h
    rw [← h.1]
    rfl
  inv _ _ := trivial
  updSol _ _ := rfl
  updUpd _ _ := rfl
  updInv _ _ _ := trivial
  dispSol _ _ := rfl
  dispInv _ _ _ := trivial
  loadSol _ _ := rfl
  loadInv _ _ _ := trivial

end

/-! ## C83 -/

section

variable [AddCommGroup V] {S : Solver K V A} {I : A → Prop}

theorem Runs.sol (hS : Laws S I) {U₀ : V} {h h' : ℕ → A} {prev : Option ℕ} {ps : List ℕ} {xs : List A}
    (hr : Runs S h prev ps h' xs) (hnd : ps.Nodup) (hI : ∀ p ∈ ps, I (h p))
    (h0 : ∀ p ∈ ps, S.solution (h p) = U₀) :
    (∀ p ∈ ps, S.solution (h' p) = U₀ + S.update (h' p)) ∧
    ∀ x ∈ xs, S.solution x = U₀ + S.update x := by
  induction hr with
  | nil => simp
  | @cons h h' prev p ps x xs h1 h2 ih =>
    have hx : S.solution x = U₀ + S.update x := by
      have hb : I (begun S h prev p) ∧ S.solution (begun S h prev p) = U₀ := by
        cases prev with
        | none => exact ⟨hI p (by simp), h0 p (by simp)⟩
        | some q => exact ⟨hS.updInv _ _ (hI p (by simp)), (hS.updSol _ _).trans (h0 p (by simp))⟩
      rw [hS.succ _ _ hb.1 h1, hb.2]
    rw [List.nodup_cons] at hnd
    have hne : ∀ q ∈ ps, q ≠ p := fun q hq hqp => hnd.1 (hqp ▸ hq)
    obtain ⟨i1, i2⟩ := ih hnd.2
      (fun q hq => by rw [Function.update_of_ne (hne q hq)]; exact hI q (by simp [hq]))
      (fun q hq => by rw [Function.update_of_ne (hne q hq)]; exact h0 q (by simp [hq]))
    refine ⟨fun q hq => ?_, fun y hy => ?_⟩
    · rcases List.mem_cons.1 hq with rfl | hq
      · rw [h2.frame hnd.1, Function.update_self]
        exact hx
      · exact i1 q hq
    · rcases List.mem_cons.1 hy with rfl | hy
      · exact hx
      · exact i2 y hy

/-- C83: if all stages (different objects) have the displacement `U₀` before `solve`, each stage starts from
the solution of the stage before, and that is `U₀` plus its update. -/
theorem C83_start (hS : Laws S I) {U₀ : V} {h h₁ : ℕ → A} {ps ps' : List ℕ} {q p : ℕ} {xs : List A}
    (hnd : (ps ++ q :: p :: ps').Nodup) (hI : ∀ k ∈ ps ++ q :: p :: ps', I (h k))
    (h0 : ∀ k ∈ ps ++ q :: p :: ps', S.solution (h k) = U₀)
    (hr : Runs S h none (ps ++ [q]) h₁ xs) :
    S.solution (begun S h₁ (some q) p) + S.update (begun S h₁ (some q) p) = S.solution (h₁ q) ∧
    S.solution (h₁ q) = U₀ + S.update (h₁ q) := by
  have hsub : ∀ k ∈ ps ++ [q], k ∈ ps ++ q :: p :: ps' := by
    intro k hk
    simp only [List.mem_append, List.mem_cons] at hk ⊢
    tauto
  have hnd' : (ps ++ [q]).Nodup := by
    have : (ps ++ [q]) ++ (p :: ps') = ps ++ q :: p :: ps' := by simp
    rw [← this] at hnd
    exact (List.nodup_append.1 hnd).1
  have hp : p ∉ ps ++ [q] := by
    have : (ps ++ [q]) ++ (p :: ps') = ps ++ q :: p :: ps' := by simp
    rw [← this] at hnd
    intro hp
    exact (List.nodup_append.1 hnd).2.2 p hp p (by simp) rfl
  obtain ⟨i1, -⟩ := hr.sol hS hnd' (fun k hk => hI k (hsub k hk)) (fun k hk => h0 k (hsub k hk))
  have hq := i1 q (by simp)
  refine ⟨?_, hq⟩
  simp only [begun, hS.updSol, hS.updUpd]
  rw [hr.frame hp, h0 p (by simp), hq]

/-- C83: then, after `Success`, `solution()` of the composite is `U₀ + update()`. -/
theorem C83_total (hS : Laws S I) {U₀ : V} {ps : List ℕ} {s : CSt V A} (hne : ps ≠ [])
    (hnd : ps.Nodup) (hI : ∀ p ∈ ps, I (s.heap p)) (h0 : ∀ p ∈ ps, S.solution (s.heap p) = U₀)
    (h : (Composite.solve S ps s).2 = some .success) :
    (Composite.solve S ps s).1.U = U₀ + (Composite.solve S ps s).1.DU := by
  obtain ⟨hiff, hval⟩ := C52_success S ps s
  obtain ⟨h', xs, hr⟩ := hiff.1 h
  obtain ⟨-, h2, -, -, hl⟩ := hval h' xs hr
  obtain ⟨-, i2⟩ := hr.sol hS hnd hI h0
  have hxs : xs ≠ [] := by
    intro h3
    rw [h3] at hl
    simp only [List.length_nil] at hl
    exact hne (List.length_eq_zero_iff.1 hl.symm)
  have hlast := List.getLast?_eq_some_getLast hxs
  obtain ⟨e1, e2⟩ := h2 _ hlast
  rw [e1, e2]
  exact i2 _ (List.getLast_mem hxs)

end

/-- The composite of two Newton stages above: the second stage starts where the first ended. -/
example :
    let t := Composite.solve Demo.nobj [0, 1] (Demo.comp 25)
    let y := begun Demo.nobj (Composite.solve Demo.nobj [0] (Demo.comp 25)).1.heap (some 0) 1
    Demo.nobj.solution y + Demo.nobj.update y = (t.1.heap 0).st.U ∧ t.1.U = 0 + t.1.DU ∧
    t.2 = some .success := by
  decide +kernel

/-- C83, violation: after a solve the stages have different displacements. If the composite solver is used
again with another load, without `setDisplacement`, its second stage does not start from the solution of the
first, and `update()` is not the change of `solution()`. -/
theorem C83_violated_again :
    ∃ s : CSt ℚ Demo.NObj,
      let t := Composite.setLoad Demo.nobj [0, 1] (Composite.solve Demo.nobj [0, 1] s).1 2
      let h := (Composite.solve Demo.nobj [0] t).1.heap
      let u := Composite.solve Demo.nobj [0, 1] t
      (Composite.solve Demo.nobj [0, 1] s).2 = some .success ∧ u.2 = some .success ∧
      Demo.nobj.solution (begun Demo.nobj h (some 0) 1) + Demo.nobj.update (begun Demo.nobj h (some 0) 1)
        ≠ Demo.nobj.solution (h 0) := by
  refine ⟨Demo.comp 25, ?_⟩
  decide +kernel

/-- C83: `setDisplacement`, `setLoad`, `setUpdate` and `reset` of a composite solver do this for every stage and
nothing else: `solution()` and `update()` of the composite solver itself stay as they are, even after `reset`. -/
theorem C83_setters (S : Solver K V A) {ps : List ℕ} (hn : ps.Nodup) (s : CSt V A) (U d : V) (L : K) :
    Composite.setDisplacement S ps s U =
      { s with heap := fun p => if p ∈ ps then S.setDisplacement (s.heap p) U else s.heap p } ∧
    Composite.setLoad S ps s L = { s with heap := fun p => if p ∈ ps then S.setLoad (s.heap p) L else s.heap p } ∧
    Composite.setUpdate S ps s d = { s with heap := fun p => if p ∈ ps then S.setUpdate (s.heap p) d else s.heap p } ∧
    Composite.reset S ps s = { s with heap := fun p => if p ∈ ps then S.reset (s.heap p) else s.heap p } := by
  have key : ∀ (f : A → A) (ps : List ℕ), ps.Nodup → ∀ h : ℕ → A,
      ps.foldl (fun h p => Composite.put h p (f (h p))) h = fun p => if p ∈ ps then f (h p) else h p := by
    intro f ps
    induction ps with
    | nil =>
      intro _ h
      simp
    | cons q qs ih =>
      intro hn h
      obtain ⟨h1, h2⟩ := List.nodup_cons.1 hn
      rw [List.foldl_cons, ih h2]
      funext p
      by_cases hp : p = q
      · subst hp
        simp [h1, Composite.put]
      · simp [hp, Composite.put]
  have key' : ∀ f : A → A, Composite.each f ps s =
      { s with heap := fun p => if p ∈ ps then f (s.heap p) else s.heap p } := by
    intro f
    unfold Composite.each
    rw [key f ps hn]
  exact ⟨key' _, key' _, key' _, key' _⟩

/-- The stages 0 and 1 get the displacement 5, the object 2 does not. -/
example : [0, 1].Nodup ∧ (Composite.setDisplacement Demo.nobj [0, 1] (Demo.comp 25) 5).U = (Demo.comp 25).U ∧
    [0, 1, 2].map (fun p => ((Composite.setDisplacement Demo.nobj [0, 1] (Demo.comp 25) 5).heap p).st.U) =
      [5, 5, ((Demo.comp 25).heap 2).st.U] := by
  decide +kernel

/-! ## C53 -/

section

variable [Field K] [AddCommGroup V]

/-- The increments of the successful steps. -/
def succL (l : List (K × Option Status × V)) : K :=
  (l.map fun x => if x.2.1 = some .success then x.1 else 0).sum

/-- The updates of the successful steps. -/
def succU (l : List (K × Option Status × V)) : V :=
  (l.map fun x => if x.2.1 = some .success then x.2.2 else 0).sum

theorem Control.step_eq (S : Solver K V A) (s : DCSt K V A) (d : K) :
    (Control.step S s d).1.L = s.L + (if (Control.step S s d).2 = some .success then d else 0) ∧
    (Control.step S s d).1.U = s.U +
      (if (Control.step S s d).2 = some .success then S.update (Control.step S s d).1.x else 0) ∧
    (Control.step S s d).1.first = false ∧
    ((Control.step S s d).1.x, (Control.step S s d).2) = S.solve
      (if s.first then S.setLoad s.x (s.L + d) else S.setDisplacement (S.setLoad s.x (s.L + d)) s.U) := by
  rcases hx : S.solve (if s.first then S.setLoad s.x (s.L + d)
    else S.setDisplacement (S.setLoad s.x (s.L + d)) s.U) with ⟨y, r⟩
  rcases r with _ | st
  · have e : Control.step S s d = ({ s with x := y, first := false }, none) := by
      simp only [Control.step, hx]
    simp [e]
  · by_cases hst : st = .success
    · subst hst
      have e : Control.step S s d = ({ x := y, L := s.L + d, U := s.U + S.update y, first := false, status := some .success }, some .success) := by
        simp only [Control.step, hx]
      simp [e]
    · have e : Control.step S s d = ({ s with x := y, first := false, status := some st }, some st) := by
        cases st <;> simp only [Control.step, hx]
        exact absurd rfl hst
      simp [e, hst]

/-- C53: after any sequence of steps with any outcomes, the load is the sum of the increments of the
successful steps and the displacement the sum of the updates which they returned. -/
theorem C53_sums (S : Solver K V A) (ds : List K) (s : DCSt K V A) :
    (Control.run S ds s).1.L = s.L + succL (Control.run S ds s).2 ∧
    (Control.run S ds s).1.U = s.U + succU (Control.run S ds s).2 ∧
    (Control.run S ds s).2.map Prod.fst = ds := by
  induction ds generalizing s with
  | nil => simp [Control.run, succL, succU]
  | cons d ds ih =>
    obtain ⟨h1, h2, -⟩ := Control.step_eq S s d
    obtain ⟨i1, i2, i3⟩ := ih (Control.step S s d).1
    simp only [Control.run]
    rw [i1, i2, h1, h2]
    refine ⟨?_, ?_, by rw [List.map_cons, i3]⟩
    · simp only [succL, List.map_cons, List.sum_cons, add_assoc]
    · simp only [succU, List.map_cons, List.sum_cons, add_assoc]

/-- C53: a step which does not succeed, with a status or with an exception, changes neither. -/
theorem C53_failed (S : Solver K V A) (s : DCSt K V A) (d : K)
    (h : (Control.step S s d).2 ≠ some .success) :
    (Control.step S s d).1.L = s.L ∧ (Control.step S s d).1.U = s.U := by
  obtain ⟨h1, h2, -⟩ := Control.step_eq S s d
  rw [h1, h2, if_neg h, if_neg h]
  simp

variable {S : Solver K V A} {I : A → Prop}

/-- The object is usable and before the first step it has the displacement of the control. -/
def Consistent (S : Solver K V A) (I : A → Prop) (s : DCSt K V A) : Prop :=
  I s.x ∧ (s.first = true → S.solution s.x = s.U)

theorem Control.step_consistent (hS : Laws S I) {s : DCSt K V A} (hs : Consistent S I s) (d : K) :
    Consistent S I (Control.step S s d).1 ∧
    ((Control.step S s d).2 = some .success →
      S.solution (Control.step S s d).1.x = (Control.step S s d).1.U) := by
  obtain ⟨-, h2, h3, h4⟩ := Control.step_eq S s d
  obtain ⟨hI, hf⟩ := hs
  have hx : I (if s.first then S.setLoad s.x (s.L + d)
      else S.setDisplacement (S.setLoad s.x (s.L + d)) s.U) ∧
    S.solution (if s.first then S.setLoad s.x (s.L + d)
      else S.setDisplacement (S.setLoad s.x (s.L + d)) s.U) = s.U := by
    split
    · rename_i h
      exact ⟨hS.loadInv _ _ hI, (hS.loadSol _ _).trans (hf h)⟩
    · exact ⟨hS.dispInv _ _ (hS.loadInv _ _ hI), hS.dispSol _ _⟩
  refine ⟨⟨?_, by simp [h3]⟩, fun hr => ?_⟩
  · have := hS.inv _ hx.1
    rw [← h4] at this
    exact this
  · rw [h2, if_pos hr]
    rw [hr] at h4
    have := hS.succ _ _ hx.1 h4.symm
    rw [this, hx.2]

/-- C53: with a solver which moves `solution()` by `update()`, whose displacement is zero when the control is
constructed, `solutionU()` is the solution of the solver after every successful step, whatever happened
before. -/
theorem C53_consistent (hS : Laws S I) {x : A} (hI : I x) (h0 : S.solution x = 0) (ds : List K) (d : K) :
    let s := (Control.run S ds (Control.ctor x)).1
    (Control.step S s d).2 = some .success →
      (Control.step S s d).1.U = S.solution (Control.step S s d).1.x ∧
      (Control.step S s d).1.L = s.L + d := by
  have hrun : ∀ (ds : List K) (s : DCSt K V A), Consistent S I s → Consistent S I (Control.run S ds s).1 := by
    intro ds
    induction ds with
    | nil => exact fun s hs => hs
    | cons d ds ih => exact fun s hs => ih _ (Control.step_consistent hS hs d).1
  intro s hr
  refine ⟨((Control.step_consistent hS (hrun ds _ ⟨hI, fun _ => h0⟩) d).2 hr).symm, ?_⟩
  rw [(Control.step_eq S s d).1, if_pos hr]

/-- C53: after `setZero` the first successful step has the load of its increment and the solution of the
solver. -/
theorem C53_setZero (hS : Laws S I) (hreset : ∀ a, I a → I (S.reset a) ∧ S.solution (S.reset a) = 0)
    {s : DCSt K V A} (hI : I s.x) (d : K)
    (h : (Control.step S (Control.setZero S s) d).2 = some .success) :
    (Control.step S (Control.setZero S s) d).1.L = d ∧
    (Control.step S (Control.setZero S s) d).1.U =
      S.solution (Control.step S (Control.setZero S s) d).1.x := by
  obtain ⟨h1, h2⟩ := hreset s.x hI
  have hc : Consistent S I (Control.setZero S s) :=
    ⟨hS.loadInv _ _ h1, fun _ => (hS.loadSol _ _).trans h2⟩
  refine ⟨?_, ((Control.step_consistent hS hc d).2 h).symm⟩
  rw [(Control.step_eq S _ d).1, if_pos h]
  simp [Control.setZero]

/-- C53: `reset` is for the solver only: load and displacements of the control stay, and the next step starts from
them, with the solver as it is after its `reset`. -/
theorem C53_reset (S : Solver K V A) (s : DCSt K V A) (d : K) :
    (Control.reset S s).L = s.L ∧ (Control.reset S s).U = s.U ∧
    (Control.step S (Control.reset S s) d).2 = (S.solve (if s.first then S.setLoad (S.reset s.x) (s.L + d)
      else S.setDisplacement (S.setLoad (S.reset s.x) (s.L + d)) s.U)).2 ∧
    (Control.step S (Control.reset S s) d).1.L =
      s.L + (if (Control.step S (Control.reset S s) d).2 = some .success then d else 0) := by
  obtain ⟨h1, -, -, h4⟩ := Control.step_eq S (Control.reset S s) d
  exact ⟨rfl, rfl, congrArg Prod.snd h4, h1⟩

/-- C53, violation: the first step does not set the displacement. If the solver has a displacement when it is
given to the control, `solutionU()` misses it after the first successful step. -/
theorem C53_violated_first (hS : Laws S I) {x : A} (hI : I x) (h0 : S.solution x ≠ 0) (d : K)
    (h : (Control.step S (Control.ctor x) d).2 = some .success) :
    (Control.step S (Control.ctor x) d).1.U ≠ S.solution (Control.step S (Control.ctor x) d).1.x := by
  obtain ⟨-, h2, -, h4⟩ := Control.step_eq S (Control.ctor (K := K) (V := V) x) d
  rw [h] at h4
  have h5 : (Control.step S (Control.ctor x) d).1.U ≠ S.solution (Control.step S (Control.ctor x) d).1.x ↔
      S.update (Control.step S (Control.ctor (K := K) (V := V) x) d).1.x ≠
        S.solution x + S.update (Control.step S (Control.ctor (K := K) (V := V) x) d).1.x := by
    rw [h2, if_pos h, hS.succ _ _ (hS.loadInv x (0 + d) hI) h4.symm, hS.loadSol,
      show (Control.ctor x : DCSt K V A).U = 0 from rfl, zero_add]
  rw [h5]
  intro h5
  exact h0 (right_eq_add.1 h5)

end

section

variable {Mat : Type} [Field K] [LinearOrder K] [AddCommGroup V] [Module K V]

/-- C53, violation: with a Newton solver for a linear problem (constructed without callbacks) `update()` stays
zero: `solutionU()` is zero after any number of successful steps, while the load is the sum. -/
theorem C53_violated_linear (e : NEnv K V Mat) (o : Opts K) (s₀ : NSt K V) (ds : List K) :
    (Control.run (Newton.solver e o) ds (Control.ctor (Newton.ctorLinear s₀))).1.U = 0 := by
  have key : ∀ (ds : List K) (s : DCSt K V (NSt K V)), s.x.nl = false → s.x.upd = 0 → s.U = 0 →
      (Control.run (Newton.solver e o) ds s).1.U = 0 := by
    intro ds
    induction ds with
    | nil => exact fun s _ _ h => h
    | cons d ds ih =>
      intro s h1 h2 h3
      obtain ⟨-, e2, -, e4⟩ := Control.step_eq (Newton.solver e o) s d
      have hsolve : ∀ x : NSt K V, x.nl = false → x.upd = 0 →
          ((Newton.solver e o).solve x).1.nl = false ∧ ((Newton.solver e o).solve x).1.upd = 0 := by
        intro x hx1 hx2
        have hk : Keeps (fun s : NSt K V => (s.nl, s.upd)) (Newton.solveLinearRaw e) :=
          Keeps.bind (Newton.keeps_factorizeMatrix (fun _ _ => rfl) e _) fun _ =>
            Keeps.bind (Newton.keeps_solveSystem (fun _ _ => rfl) e _ _) fun _ =>
            Keeps.bind (.modify fun _ => rfl) fun _ => .ret _
        simp only [Newton.solver, Newton.solve, hx1, Bool.false_eq_true, if_false, Newton.solveLinear,
          Newton.caught]
        rcases hm : Newton.solveLinearRaw e x with ⟨t, r⟩
        have := hk.run hm
        simp only [Prod.mk.injEq] at this
        cases r <;> exact ⟨this.1.trans hx1, this.2.trans hx2⟩
      have hx := hsolve (if s.first then (Newton.solver e o).setLoad s.x (s.L + d)
        else (Newton.solver e o).setDisplacement ((Newton.solver e o).setLoad s.x (s.L + d)) s.U)
        (by split <;> exact h1) (by split <;> exact h2)
      rw [← e4] at hx
      refine ih _ hx.1 hx.2 ?_
      show (Control.step (Newton.solver e o) s d).1.U = 0
      rw [e2, h3, show (Newton.solver e o).update (Control.step (Newton.solver e o) s d).1.x = 0 from hx.2]
      simp
  exact key ds _ rfl rfl rfl

end

/-- Three steps of a Newton solver for `L·3 = 2u + u³`, of which the second is too large for 4 iterations: the
load is 1/2 + 1/4. -/
example :
    let S := Newton.solver (Demo.nenv 3 1 fun _ => false) (Demo.nopts 4)
    let r := Control.run S [1 / 2, 100, 1 / 4] (Control.ctor (Demo.fresh 0))
    r.1.L = 3 / 4 ∧ r.2.map (fun x => x.2.1) = [some .success, some .notConverged, some .success] ∧
    r.1.U = r.1.x.U := by
  decide +kernel

/-- A Newton solver with displacement 1: after a successful step `solutionU()` is off by 1. -/
example :
    let S := Newton.solver (Demo.nenv 3 1 fun _ => false) (Demo.nopts 25)
    let r := Control.step S (Control.ctor (Newton.setDisplacement (Demo.fresh 0) 1)) (1 / 2 : ℚ)
    r.2 = some .success ∧ r.1.x.U = r.1.U + 1 := by
  decide +kernel

/-- The linear problem `2u = 3`: `Success`, the solution of the solver is 3/2, `solutionU()` is 0. -/
example :
    let S := Newton.solver (Demo.nenv 3 0 fun _ => false) (Demo.nopts 25)
    let r := Control.step S (Control.ctor (Newton.ctorLinear Demo.raw)) (1 : ℚ)
    r.2 = some .success ∧ r.1.x.U = 3 / 2 ∧ r.1.U = 0 := by
  decide +kernel

/-- C53, violation: a dynamic relaxation with `maxIt = 1` reports success and an update but does not move. -/
example :
    let S := DR.solver (Demo.drenv Demo.drlin) (Demo.dropts 1 1 (-1))
    let r := Control.step S (Control.ctor (Demo.drnew Demo.drlin (Demo.dropts 1 1 (-1)))) (1 : ℚ)
    r.2 = some .success ∧ r.1.x.U 0 = 0 ∧ r.1.U 0 = 1 / 2 := by
  decide +kernel

/-! ## C55 -/

section

variable [AddCommGroup V]

/-- C55: whatever the optimizer does, `Success` is returned; `solution()` is its last design and `update()` the
difference to the solution before. -/
theorem C55_returns (opt : K → V → V × ℕ) (s : OSt K V) :
    (Opt.solve opt s).2 = .success ∧
    (Opt.solve opt s).1.U = (opt s.L (s.U + s.DU)).1 ∧
    (Opt.solve opt s).1.U = s.U + (Opt.solve opt s).1.DU ∧
    (Opt.solve opt s).1.numIt = (opt s.L (s.U + s.DU)).2 := by
  simp [Opt.solve]

/-- C55, violation: `converged()` is false after any number of solves of a new object, all of which return
`Success`. -/
theorem C55_violated_status [One K] (opt : K → V → V × ℕ) (s : OSt K V) (n : ℕ) :
    Opt.converged ((fun s => (Opt.solve opt s).1)^[n] (Opt.ctorAL s)) = false := by
  have key : ∀ (n : ℕ) (s : OSt K V), s.status = .notStarted →
      ((fun s => (Opt.solve opt s).1)^[n] s).status = .notStarted := by
    intro n
    induction n with
    | zero => exact fun s h => h
    | succ n ih =>
      intro s h
      rw [Function.iterate_succ_apply]
      exact ih _ h
  simp [Opt.converged, key n (Opt.ctorAL s) rfl]

/-- C49 for the optimisation solver: here the load factor is 1 after construction with an arc-length
residual. -/
theorem C49_opt [One K] (s : OSt K V) : (Opt.ctorAL s).L = 1 := rfl

/-! ## C84 -/

/-- C84, violation: the optimizer is started from `solution() + update()`. The next solve does not continue
from `solution()`, but from the point extrapolated by the last update, also after `setDisplacement`. -/
theorem C84_violated_start (opt : K → V → V × ℕ) (s : OSt K V) (h : (Opt.solve opt s).1.DU ≠ 0) :
    ∀ opt' : K → V → V × ℕ,
      (Opt.solve opt' (Opt.solve opt s).1).1.U =
        (opt' s.L ((Opt.solve opt s).1.U + (Opt.solve opt s).1.DU)).1 ∧
      (Opt.solve opt s).1.U + (Opt.solve opt s).1.DU ≠ (Opt.solve opt s).1.U := by
  intro opt'
  refine ⟨by simp [Opt.solve], ?_⟩
  intro h2
  exact h (add_eq_left.1 h2)

/-- C84: a new object starts from zero, and after `setDisplacement` and `setUpdate` with zero a solve starts
from that displacement. -/
theorem C84_zero (opt : K → V → V × ℕ) (s : OSt K V) (h : s.DU = 0) :
    (Opt.solve opt s).1.U = (opt s.L s.U).1 := by
  simp [Opt.solve, h]

/-- An "optimizer" which halves the distance to 1: the second solve starts from 3/2·1/2 = 1, not from 1/2. -/
example :
    let opt : ℚ → ℚ → ℚ × ℕ := fun _ u => ((u + 1) / 2, 1)
    let s : OSt ℚ ℚ := Opt.ctorAL ⟨17, 17, 17, 17, .otherError⟩
    let t := (Opt.solve opt s).1
    t.U = 1 / 2 ∧ (Opt.solve opt t).1.U = 1 ∧ (opt 1 t.U).1 = 3 / 4 := by
  decide +kernel

/-! ## C85 -/

/-- C85: for a residual which succeeds, the objective is zero exactly in equilibrium. -/
theorem C85_objective [Zero K] {norm : V → K} (hn : ∀ x, norm x = 0 ↔ x = 0) {residual : V → Option V}
    {u R : V} (h : residual u = some R) : Opt.evalObj norm residual u = 0 ↔ R = 0 := by
  simp [Opt.evalObj, h, hn]

/-- C85, violation: where the residual fails the objective is 0, the smallest value possible. -/
theorem C85_violated_failure [Zero K] [LE K] {norm : V → K} (hn : ∀ x, 0 ≤ norm x) {residual : V → Option V}
    {u : V} (h : residual u = none) (w : V) (hw : residual w ≠ none) :
    Opt.evalObj norm residual u ≤ Opt.evalObj norm residual w := by
  cases hR : residual w with
  | none => exact absurd hR hw
  | some R => simp [Opt.evalObj, h, hR, hn]

/-- C85, violation: the gradient given to the optimizer is not the gradient of the objective. For one degree of
freedom with residual `1 - k u` the objective falls from 0 with slope `-k`, but the gradient is -1. -/
theorem C85_violated_gradient [Field K] [LinearOrder K] [IsStrictOrderedRing K] {k h : K}
    (hh : 0 < h) (h1 : k * h < 1) :
    let residual : K → Option K := fun u => some (1 - k * u)
    (Opt.evalObj abs residual h - Opt.evalObj abs residual 0) / h = -k ∧
    Opt.gradObj residual (0 : K) = some (-1) := by
  constructor
  · simp only [Opt.evalObj, mul_zero, sub_zero, abs_one]
    rw [abs_of_pos (by linarith)]
    field_simp
    ring
  · simp [Opt.gradObj]

end

end GsSA.Static
