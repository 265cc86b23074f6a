import Verif.Static.Newton

/-!
# What the parts of `gsStaticNewton` do
-/

namespace GsSA.Static.Newton

open GsSA GsSA.ALM

set_option linter.unusedSectionVars false

variable {K V Mat : Type} [Field K] [LinearOrder K] [AddCommGroup V] [Module K V]

/-! ## The callbacks -/

theorem computeResidual_ok {e : NEnv K V Mat} {U R : V} {s t : NSt K V}
    (h : computeResidual e U s = (t, .ok R)) :
    e.residual s.log.length s.L U = some R ∧ t = { s with log := .residual true :: s.log } := by
  unfold computeResidual at h
  rw [Act.bind_ok (Act.get_apply s)] at h
  cases hr : e.residual s.log.length s.L U with
  | none => simp [hr, emit, Act.bind_apply] at h
  | some R' =>
    simp only [hr, emit, Act.bind_apply, Act.modify_apply, Act.pure_apply, Prod.mk.injEq,
      Except.ok.injEq] at h
    obtain ⟨rfl, rfl⟩ := h
    exact ⟨rfl, rfl⟩

theorem computeJacobian_ok {e : NEnv K V Mat} {U du : V} {m : Mat} {s t : NSt K V}
    (h : computeJacobian e U du s = (t, .ok m)) :
    e.jacobian s.log.length U du = some m ∧ t = { s with log := .jacobian true :: s.log } := by
  unfold computeJacobian at h
  rw [Act.bind_ok (Act.get_apply s)] at h
  cases hr : e.jacobian s.log.length U du with
  | none => simp [hr, emit, Act.bind_apply] at h
  | some R' =>
    simp only [hr, emit, Act.bind_apply, Act.modify_apply, Act.pure_apply, Prod.mk.injEq,
      Except.ok.injEq] at h
    obtain ⟨rfl, rfl⟩ := h
    exact ⟨rfl, rfl⟩

theorem factorizeMatrix_ok {e : NEnv K V Mat} {m : Mat} {s t : NSt K V}
    (h : factorizeMatrix e m s = (t, .ok ())) :
    e.factorize s.log.length m = true ∧ t = { s with log := .factor true :: s.log } := by
  unfold factorizeMatrix at h
  rw [Act.bind_ok (Act.get_apply s)] at h
  cases hr : e.factorize s.log.length m with
  | false => simp [hr, emit, Act.bind_apply] at h
  | true =>
    simp only [hr, if_true, emit, Act.modify_apply, Prod.mk.injEq] at h
    exact ⟨rfl, h.1.symm⟩

theorem solveSystem_ok {e : NEnv K V Mat} {m : Mat} {F x : V} {s t : NSt K V}
    (h : solveSystem e m F s = (t, .ok x)) :
    e.solve s.log.length m F = some x ∧ t = { s with log := .solve true :: s.log } := by
  unfold solveSystem at h
  rw [Act.bind_ok (Act.get_apply s)] at h
  cases hr : e.solve s.log.length m F with
  | none => simp [hr, emit, Act.bind_apply] at h
  | some R' =>
    simp only [hr, emit, Act.bind_apply, Act.modify_apply, Act.pure_apply, Prod.mk.injEq,
      Except.ok.injEq] at h
    obtain ⟨rfl, rfl⟩ := h
    exact ⟨rfl, rfl⟩

/-! ## Failures are recorded -/

theorem exact_throw {α : Type} {x : Event} {e : Err} (h : x.err = some e) :
    Exact NSt.log (do emit x; Act.throw e : Act (NSt K V) α) := by
  intro s
  exact ⟨[x], by simp [emit, Act.bind_apply, h]⟩

theorem exact_emit {x : Event} (h : x.err = none) : Exact NSt.log (emit x : Act (NSt K V) Unit) := by
  intro s
  exact ⟨[x], by simp [emit, h]⟩

theorem exact_computeResidual (e : NEnv K V Mat) (U : V) : Exact NSt.log (computeResidual e U) := by
  refine Exact.bind Exact.get fun s => ?_
  cases e.residual s.log.length s.L U with
  | none => exact exact_throw rfl
  | some R => exact (exact_emit rfl).bind fun _ => .ret _

theorem exact_computeJacobian (e : NEnv K V Mat) (U du : V) :
    Exact NSt.log (computeJacobian e U du) := by
  refine Exact.bind Exact.get fun s => ?_
  cases e.jacobian s.log.length U du with
  | none => exact exact_throw rfl
  | some R => exact (exact_emit rfl).bind fun _ => .ret _

theorem exact_factorizeMatrix (e : NEnv K V Mat) (m : Mat) : Exact NSt.log (factorizeMatrix e m) :=
  Exact.bind Exact.get fun _ => Exact.ite (exact_emit rfl) (exact_throw rfl)

theorem exact_solveSystem (e : NEnv K V Mat) (m : Mat) (F : V) : Exact NSt.log (solveSystem e m F) := by
  refine Exact.bind Exact.get fun s => ?_
  cases e.solve s.log.length m F with
  | none => exact exact_throw rfl
  | some R => exact (exact_emit rfl).bind fun _ => .ret _

theorem exact_solveLinearRaw (e : NEnv K V Mat) : Exact NSt.log (solveLinearRaw e) :=
  (exact_factorizeMatrix e _).bind fun _ => (exact_solveSystem e _ _).bind fun _ =>
    Exact.bind (.modify fun _ => rfl) fun _ => .ret _

theorem exact_linearStart (e : NEnv K V Mat) : Exact NSt.log (linearStart e) := by
  refine Exact.bind Exact.get fun s => ?_
  cases s.DU with
  | some _ => exact .ret _
  | none => exact (exact_solveLinearRaw e).bind fun _ => .modify fun _ => rfl

theorem exact_start (e : NEnv K V Mat) : Exact NSt.log (start e) := by
  refine Exact.bind Exact.get fun s => Exact.bind (Exact.ite ?_ ?_) fun _ => .modify fun _ => rfl
  · exact (exact_computeResidual e _).bind fun _ => Exact.bind (.modify fun _ => rfl) fun _ =>
      (exact_computeResidual e _).bind fun _ => .modify fun _ => rfl
  · exact Exact.bind (.modify fun _ => rfl) fun _ => (exact_computeResidual e _).bind fun _ =>
      .modify fun _ => rfl

theorem exact_iteration (e : NEnv K V Mat) (o : Opts K) : Exact NSt.log (iteration e o) :=
  Exact.get.bind fun _ => (exact_computeJacobian e _ _).bind fun _ =>
    (exact_factorizeMatrix e _).bind fun _ => (exact_solveSystem e _ _).bind fun _ =>
    Exact.bind (.modify fun _ => rfl) fun _ => Exact.get.bind fun _ =>
    (exact_computeResidual e _).bind fun _ => .modify fun _ => rfl

theorem exact_loop (e : NEnv K V Mat) (o : Opts K) (n : ℕ) : Exact NSt.log (loop e o n) := by
  induction n with
  | zero => exact .ret _
  | succ n ih =>
    exact (exact_iteration e o).bind fun _ => Exact.get.bind fun _ =>
      Exact.ite (.modify fun _ => rfl) (Exact.ite
        (Exact.bind (.modify fun _ => rfl) fun _ => exact_throw rfl)
        (Exact.bind (.modify fun _ => rfl) fun _ => ih))

theorem exact_solveNonlinearRaw (e : NEnv K V Mat) (o : Opts K) :
    Exact NSt.log (solveNonlinearRaw e o) :=
  (exact_linearStart e).bind fun _ => (exact_start e).bind fun _ =>
    Exact.bind (.modify fun _ => rfl) fun _ => exact_loop e o _

/-! ## The errors -/

/-- The errors which are not the iteration limit. -/
def Hard (x : Err) : Prop := x = .assembly ∨ x = .solver

theorem errs_throw {α : Type} (x : Event) {y : Err} (h : Hard y) :
    Errs Hard (do emit x; Act.throw y : Act (NSt K V) α) :=
  Errs.bind (.modify _) fun _ => .throw h

theorem errs_computeResidual (e : NEnv K V Mat) (U : V) : Errs Hard (computeResidual e U) := by
  refine Errs.bind .get fun s => ?_
  cases e.residual s.log.length s.L U with
  | none => exact errs_throw _ (.inl rfl)
  | some R => exact Errs.bind (.modify _) fun _ => .ret _

theorem errs_computeJacobian (e : NEnv K V Mat) (U du : V) : Errs Hard (computeJacobian e U du) := by
  refine Errs.bind .get fun s => ?_
  cases e.jacobian s.log.length U du with
  | none => exact errs_throw _ (.inl rfl)
  | some R => exact Errs.bind (.modify _) fun _ => .ret _

theorem errs_factorizeMatrix (e : NEnv K V Mat) (m : Mat) : Errs Hard (factorizeMatrix e m) :=
  Errs.bind .get fun _ => Errs.ite (.modify _) (errs_throw _ (.inr rfl))

theorem errs_solveSystem (e : NEnv K V Mat) (m : Mat) (F : V) : Errs Hard (solveSystem e m F) := by
  refine Errs.bind .get fun s => ?_
  cases e.solve s.log.length m F with
  | none => exact errs_throw _ (.inr rfl)
  | some R => exact Errs.bind (.modify _) fun _ => .ret _

theorem errs_solveLinearRaw (e : NEnv K V Mat) : Errs Hard (solveLinearRaw e) :=
  Errs.bind (errs_factorizeMatrix e _) fun _ => Errs.bind (errs_solveSystem e _ _) fun _ =>
    Errs.bind (.modify _) fun _ => .ret _

theorem errs_linearStart (e : NEnv K V Mat) : Errs Hard (linearStart e) := by
  refine Errs.bind .get fun s => ?_
  cases s.DU with
  | some _ => exact .ret _
  | none => exact Errs.bind (errs_solveLinearRaw e) fun _ => .modify _

theorem errs_start (e : NEnv K V Mat) : Errs Hard (start e) := by
  refine Errs.bind .get fun s => Errs.bind (Errs.ite ?_ ?_) fun _ => .modify _
  · exact Errs.bind (errs_computeResidual e _) fun _ => Errs.bind (.modify _) fun _ =>
      Errs.bind (errs_computeResidual e _) fun _ => .modify _
  · exact Errs.bind (.modify _) fun _ => Errs.bind (errs_computeResidual e _) fun _ => .modify _

theorem errs_iteration (e : NEnv K V Mat) (o : Opts K) : Errs Hard (iteration e o) :=
  Errs.bind .get fun _ => Errs.bind (errs_computeJacobian e _ _) fun _ =>
    Errs.bind (errs_factorizeMatrix e _) fun _ => Errs.bind (errs_solveSystem e _ _) fun _ =>
    Errs.bind (.modify _) fun _ => Errs.bind .get fun _ =>
    Errs.bind (errs_computeResidual e _) fun _ => .modify _

/-! ## What is kept -/

section

variable {γ : Type} {f : NSt K V → γ}

theorem keeps_emit (hf : ∀ s l, f { s with log := l } = f s) (x : Event) :
    Keeps f (emit x : Act (NSt K V) Unit) := .modify fun _ => hf _ _

theorem keeps_computeResidual (hf : ∀ s l, f { s with log := l } = f s) (e : NEnv K V Mat) (U : V) :
    Keeps f (computeResidual e U) := by
  refine Keeps.bind Keeps.get fun s => ?_
  cases e.residual s.log.length s.L U with
  | none => exact (keeps_emit hf _).bind fun _ => .throw _
  | some R => exact (keeps_emit hf _).bind fun _ => .ret _

theorem keeps_computeJacobian (hf : ∀ s l, f { s with log := l } = f s) (e : NEnv K V Mat) (U du : V) :
    Keeps f (computeJacobian e U du) := by
  refine Keeps.bind Keeps.get fun s => ?_
  cases e.jacobian s.log.length U du with
  | none => exact (keeps_emit hf _).bind fun _ => .throw _
  | some R => exact (keeps_emit hf _).bind fun _ => .ret _

theorem keeps_factorizeMatrix (hf : ∀ s l, f { s with log := l } = f s) (e : NEnv K V Mat) (m : Mat) :
    Keeps f (factorizeMatrix e m) :=
  Keeps.get.bind fun _ => Keeps.ite (keeps_emit hf _) ((keeps_emit hf _).bind fun _ => .throw _)

theorem keeps_solveSystem (hf : ∀ s l, f { s with log := l } = f s) (e : NEnv K V Mat) (m : Mat) (F : V) :
    Keeps f (solveSystem e m F) := by
  refine Keeps.bind Keeps.get fun s => ?_
  cases e.solve s.log.length m F with
  | none => exact (keeps_emit hf _).bind fun _ => .throw _
  | some R => exact (keeps_emit hf _).bind fun _ => .ret _

end

/-- The members which an iteration does not change. -/
def fixed (s : NSt K V) : V × K × K × Bool × ℕ × Status × Bool :=
  (s.U, s.L, s.residualIni, s.headstart, s.numIt, s.status, s.nl)

theorem keeps_iteration (e : NEnv K V Mat) (o : Opts K) : Keeps fixed (iteration e o) :=
  have hf : ∀ (s : NSt K V) l, fixed { s with log := l } = fixed s := fun _ _ => rfl
  Keeps.get.bind fun _ => (keeps_computeJacobian hf e _ _).bind fun _ =>
    (keeps_factorizeMatrix hf e _).bind fun _ => (keeps_solveSystem hf e _ _).bind fun _ =>
    Keeps.bind (.modify fun _ => rfl) fun _ => Keeps.get.bind fun _ =>
    (keeps_computeResidual hf e _).bind fun _ => .modify fun _ => rfl

theorem keeps_start (e : NEnv K V Mat) :
    Keeps (fun s : NSt K V => (s.U, s.L, s.status, s.nl, s.numIt)) (start e) := by
  refine Keeps.get.bind fun s => Keeps.bind (Keeps.ite ?_ ?_) fun _ => .modify fun _ => rfl
  · exact Keeps.bind (keeps_computeResidual (fun _ _ => rfl) e _) fun _ =>
      Keeps.bind (.modify fun _ => rfl) fun _ =>
      Keeps.bind (keeps_computeResidual (fun _ _ => rfl) e _) fun _ => .modify fun _ => rfl
  · exact Keeps.bind (.modify fun _ => rfl) fun _ =>
      Keeps.bind (keeps_computeResidual (fun _ _ => rfl) e _) fun _ => .modify fun _ => rfl

/-! ## One iteration -/

/-- A completed iteration: linear system with the Jacobian at the current point, relaxed update, residual
at the new point. -/
structure Iterated (e : NEnv K V Mat) (o : Opts K) (s t : NSt K V) (m : Mat) (x R : V) : Prop where
  jac : e.jacobian s.log.length (s.U + s.upd) s.du = some m
  fac : e.factorize (s.log.length + 1) m = true
  sol : e.solve (s.log.length + 2) m s.R = some x
  res : e.residual (s.log.length + 3) s.L (s.U + (s.upd + o.relax • x)) = some R
  eq : t = { s with
    du := x, DU := some (s.upd + o.relax • x), R := R, residual := e.norm R
    residualOld := e.norm R
    log := .residual true :: .solve true :: .factor true :: .jacobian true :: s.log }

theorem iteration_ok {e : NEnv K V Mat} {o : Opts K} {s t : NSt K V}
    (h : iteration e o s = (t, .ok ())) : ∃ m x R, Iterated e o s t m x R := by
  unfold iteration at h
  rw [Act.bind_ok (Act.get_apply s)] at h
  obtain ⟨s1, m, h1, h⟩ := Act.bind_ok_inv h
  obtain ⟨s2, ⟨⟩, h2, h⟩ := Act.bind_ok_inv h
  obtain ⟨s3, x, h3, h⟩ := Act.bind_ok_inv h
  rw [Act.bind_ok (Act.modify_apply _ _), Act.bind_ok (Act.get_apply _)] at h
  obtain ⟨s4, R, h4, h⟩ := Act.bind_ok_inv h
  obtain ⟨a1, rfl⟩ := computeJacobian_ok h1
  obtain ⟨a2, rfl⟩ := factorizeMatrix_ok h2
  obtain ⟨a3, rfl⟩ := solveSystem_ok h3
  obtain ⟨a4, rfl⟩ := computeResidual_ok h4
  simp only [Act.modify_apply, Prod.mk.injEq] at h
  exact ⟨m, x, R, a1, a2, a3, a4, h.1.symm⟩

/-! ## The loop -/

/-- Number of Newton iterations recorded. -/
def iters (l : List Event) : ℕ := l.countP fun x => match x with
  | .jacobian _ => true
  | _ => false

/-- The state at the end of a series of iterations, before `m_U += m_DeltaU`. -/
structure Iterates (e : NEnv K V Mat) (s u : NSt K V) : Prop where
  hU : u.U = s.U
  hL : u.L = s.L
  ini : u.residualIni = s.residualIni
  head : u.headstart = s.headstart
  some : ∃ d, u.DU = some d
  res : ∃ k, e.residual k s.L (u.U + u.upd) = .some u.R
  norm : u.residual = e.norm u.R
  le : s.numIt ≤ u.numIt
  count : iters u.log = iters s.log + (u.numIt - s.numIt) + 1

theorem Iterated.iterates {e : NEnv K V Mat} {o : Opts K} {s t : NSt K V} {m : Mat} {x R : V}
    (h : Iterated e o s t m x R) : Iterates e s t where
  hU := by rw [h.eq]
  hL := by rw [h.eq]
  ini := by rw [h.eq]
  head := by rw [h.eq]
  some := ⟨_, by rw [h.eq]⟩
  res := ⟨_, by rw [h.eq]; exact h.res⟩
  norm := by rw [h.eq]
  le := by rw [h.eq]
  count := by rw [h.eq]; simp [iters]

theorem Iterates.trans {e : NEnv K V Mat} {s t u : NSt K V} (h : Iterates e s t)
    (h' : Iterates e { t with numIt := t.numIt + 1 } u) : Iterates e s u where
  hU := h'.hU.trans h.hU
  hL := h'.hL.trans h.hL
  ini := h'.ini.trans h.ini
  head := h'.head.trans h.head
  some := h'.some
  res := by
    obtain ⟨k, hk⟩ := h'.res
    exact ⟨k, by rw [← h.hL]; exact hk⟩
  norm := h'.norm
  le := by have := h.le; have := h'.le; simp only at this; omega
  count := by
    have h1 := h.le
    have h2 := h'.le
    have h3 := h.count
    have h4 := h'.count
    simp only at h2 h4
    omega

/-- The loop returns: `n = 0`, or the test holds for the last iterate, which has been accepted. -/
theorem loop_ok {e : NEnv K V Mat} {o : Opts K} {n : ℕ} {s t : NSt K V}
    (hn : s.numIt + (n + 1) = o.maxIt) (h : loop e o (n + 1) s = (t, .ok ())) :
    ∃ u, Iterates e s u ∧ converged e o u = true ∧ t = { u with U := u.U + u.upd } ∧
      u.numIt < o.maxIt := by
  induction n generalizing s with
  | zero =>
    unfold loop at h
    obtain ⟨u, ⟨⟩, h1, h⟩ := Act.bind_ok_inv h
    rw [Act.bind_ok (Act.get_apply u)] at h
    obtain ⟨m, x, R, hi⟩ := iteration_ok h1
    have hnum : u.numIt = s.numIt := by rw [hi.eq]
    split at h
    · rename_i hc
      refine ⟨u, hi.iterates, hc, ?_, by omega⟩
      simp only [accept, Act.modify_apply, Prod.mk.injEq] at h
      exact h.1.symm
    · rw [if_pos (by omega)] at h
      simp [accept, emit, Act.bind_apply] at h
  | succ n ih =>
    unfold loop at h
    obtain ⟨u, ⟨⟩, h1, h⟩ := Act.bind_ok_inv h
    rw [Act.bind_ok (Act.get_apply u)] at h
    obtain ⟨m, x, R, hi⟩ := iteration_ok h1
    have hnum : u.numIt = s.numIt := by rw [hi.eq]
    split at h
    · rename_i hc
      refine ⟨u, hi.iterates, hc, ?_, by omega⟩
      simp only [accept, Act.modify_apply, Prod.mk.injEq] at h
      exact h.1.symm
    · rw [if_neg (by omega), Act.bind_ok (Act.modify_apply _ _)] at h
      obtain ⟨w, hw, hc, ht, hlt⟩ := ih (s := { u with numIt := u.numIt + 1 }) (by simp only; omega) h
      exact ⟨w, hi.iterates.trans hw, hc, ht, hlt⟩

/-- The loop throws: in an iteration, which leaves `m_U` alone, or behind the last one, which has been
accepted. -/
theorem loop_error {e : NEnv K V Mat} {o : Opts K} {n : ℕ} {s t : NSt K V} {x : Err}
    (hn : s.numIt + n = o.maxIt) (h : loop e o n s = (t, .error x)) :
    (t.U = s.U ∧ t.L = s.L ∧ (x = .assembly ∨ x = .solver)) ∨
    (x = .notConverged ∧ ∃ u, Iterates e s u ∧ converged e o u = false ∧
      t = { u with U := u.U + u.upd, log := .limit :: u.log } ∧ u.numIt + 1 = o.maxIt) := by
  induction n generalizing s with
  | zero => simp [loop] at h
  | succ n ih =>
    unfold loop at h
    rcases Act.bind_cases h with ⟨u, ⟨⟩, h1, h⟩ | ⟨y, h1, h⟩
    · rw [Act.bind_ok (Act.get_apply u)] at h
      obtain ⟨m, x', R, hi⟩ := iteration_ok h1
      have hnum : u.numIt = s.numIt := by rw [hi.eq]
      split at h
      · simp [accept] at h
      · rename_i hc
        split at h
        · rename_i hl
          right
          simp only [accept, emit, Act.bind_apply, Act.modify_apply, Act.throw_apply,
            Prod.mk.injEq, Except.error.injEq] at h
          exact ⟨h.2.symm, u, hi.iterates, by simpa using hc, h.1.symm, hl⟩
        · rw [Act.bind_ok (Act.modify_apply _ _)] at h
          rcases ih (s := { u with numIt := u.numIt + 1 }) (by simp only; omega) h with
            ⟨a, b, c⟩ | ⟨a, w, hw, b⟩
          · exact .inl ⟨a.trans hi.iterates.hU, b.trans hi.iterates.hL, c⟩
          · exact .inr ⟨a, w, hi.iterates.trans hw, b⟩
    · left
      have hk := (keeps_iteration e o).run h1
      simp only [fixed, Prod.mk.injEq] at hk
      simp only [Except.error.injEq] at h
      subst h
      refine ⟨hk.1, hk.2.1, ?_⟩
      exact errs_iteration e o s x (by rw [h1])

/-! ## The start -/

/-- The displacements from which `solveNonlinear` starts: zero if there is no update and hence the linear
solution is used as the first update. -/
def base (s : NSt K V) : V := match s.DU with
  | none => 0
  | some _ => s.U

/-- The state before the loop. -/
structure Started (e : NEnv K V Mat) (s t : NSt K V) : Prop where
  hU : t.U = base s
  hL : t.L = s.L
  head : t.headstart = false
  du : t.du = 0
  num : t.numIt = 0
  ini : ∃ k R, e.residual k s.L (base s) = some R ∧ t.residualIni = nz (e.norm R)
  res : ∃ k, e.residual k s.L (base s + t.upd) = some t.R
  some : ∃ d, t.DU = .some d
  upd : ∀ d, s.DU = .some d → t.upd = if s.headstart then d else 0
  lin : s.DU = none → ∃ k, e.solve k e.linear e.force = .some t.upd
  count : iters t.log = iters s.log

theorem solveLinearRaw_ok {e : NEnv K V Mat} {s t : NSt K V} {x : V}
    (h : solveLinearRaw e s = (t, .ok x)) :
    e.factorize s.log.length e.linear = true ∧
    e.solve (s.log.length + 1) e.linear e.force = some x ∧
    t = { s with U := x, log := .solve true :: .factor true :: s.log } := by
  unfold solveLinearRaw at h
  obtain ⟨s1, ⟨⟩, h1, h⟩ := Act.bind_ok_inv h
  obtain ⟨s2, y, h2, h⟩ := Act.bind_ok_inv h
  obtain ⟨a1, rfl⟩ := factorizeMatrix_ok h1
  obtain ⟨a2, rfl⟩ := solveSystem_ok h2
  rw [Act.bind_ok (Act.modify_apply _ _)] at h
  simp only [Act.pure_apply, Prod.mk.injEq, Except.ok.injEq] at h
  obtain ⟨rfl, rfl⟩ := h
  exact ⟨a1, a2, rfl⟩

theorem linearStart_ok {e : NEnv K V Mat} {s t : NSt K V} (h : linearStart e s = (t, .ok ())) :
    (∃ d, s.DU = some d ∧ t = s) ∨
    (s.DU = none ∧ ∃ x k l, e.solve k e.linear e.force = some x ∧ iters l = iters s.log ∧
      t = { s with du := x, DU := some x, U := 0, headstart := true, log := l }) := by
  unfold linearStart at h
  rw [Act.bind_ok (Act.get_apply s)] at h
  cases hd : s.DU with
  | some d =>
    rw [hd] at h
    simp only [Act.pure_apply, Prod.mk.injEq] at h
    exact .inl ⟨d, rfl, h.1.symm⟩
  | none =>
    rw [hd] at h
    obtain ⟨s1, x, h1, h⟩ := Act.bind_ok_inv h
    obtain ⟨-, a2, rfl⟩ := solveLinearRaw_ok h1
    simp only [Act.modify_apply, Prod.mk.injEq] at h
    exact .inr ⟨rfl, x, _, _, a2, by simp [iters], h.1.symm⟩

theorem start_ok {e : NEnv K V Mat} {s t : NSt K V} (h : start e s = (t, .ok ())) {d : V}
    (hd : s.DU = some d) : Started e s { t with numIt := 0 } := by
  have hb : base s = s.U := by simp [base, hd]
  unfold start at h
  rw [Act.bind_ok (Act.get_apply s)] at h
  obtain ⟨u, ⟨⟩, h1, h⟩ := Act.bind_ok_inv h
  simp only [Act.modify_apply, Prod.mk.injEq] at h
  obtain ⟨rfl, -⟩ := h
  split at h1
  · rename_i hh
    obtain ⟨s1, R, h2, h1⟩ := Act.bind_ok_inv h1
    obtain ⟨a1, rfl⟩ := computeResidual_ok h2
    rw [Act.bind_ok (Act.modify_apply _ _)] at h1
    obtain ⟨s2, R₀, h3, h1⟩ := Act.bind_ok_inv h1
    obtain ⟨a2, rfl⟩ := computeResidual_ok h3
    simp only [Act.modify_apply, Prod.mk.injEq] at h1
    obtain ⟨rfl, -⟩ := h1
    exact ⟨hb.symm, rfl, rfl, rfl, rfl, ⟨_, R₀, hb ▸ a2, rfl⟩, ⟨_, hb ▸ a1⟩, ⟨d, hd⟩,
      fun d' hd' => by simp [NSt.upd, hd', hh], by simp [hd], by simp [iters]⟩
  · rename_i hh
    rw [Act.bind_ok (Act.modify_apply _ _)] at h1
    obtain ⟨s1, R, h2, h1⟩ := Act.bind_ok_inv h1
    obtain ⟨a1, rfl⟩ := computeResidual_ok h2
    simp only [Act.modify_apply, Prod.mk.injEq] at h1
    obtain ⟨rfl, -⟩ := h1
    refine ⟨hb.symm, rfl, by simpa using hh, rfl, rfl, ⟨_, R, hb ▸ a1, rfl⟩, ⟨s.log.length, ?_⟩,
      ⟨0, rfl⟩,
      fun d' hd' => by simp [NSt.upd, hh], by simp [hd], by simp [iters]⟩
    simpa [NSt.upd, hb] using a1

theorem linearStart_key {e : NEnv K V Mat} {s s1 : NSt K V} (h1 : linearStart e s = (s1, .ok ())) :
    ∃ d, s1.DU = some d ∧ s1.L = s.L ∧ s1.U = base s ∧
      ((∃ d, s.DU = some d ∧ s1 = s) ∨ (s.DU = none ∧ s1.headstart = true ∧
        ∃ k, e.solve k e.linear e.force = some d)) ∧ iters s1.log = iters s.log := by
  rcases linearStart_ok h1 with ⟨d, hd, rfl⟩ | ⟨hd, x, k, l, a, c, rfl⟩
  · exact ⟨d, hd, rfl, by simp [base, hd], .inl ⟨d, hd, rfl⟩, rfl⟩
  · exact ⟨x, rfl, rfl, by simp [base, hd], .inr ⟨hd, rfl, k, a⟩, c⟩

/-- Both parts before the loop. -/
theorem started_of {e : NEnv K V Mat} {s s1 s2 : NSt K V} (h1 : linearStart e s = (s1, .ok ()))
    (h2 : start e s1 = (s2, .ok ())) : Started e s { s2 with numIt := 0 } := by
  obtain ⟨d, hd, hL, hU, hcase, hc⟩ := linearStart_key h1
  have hs := start_ok h2 hd
  have hb : base s1 = base s := by rw [← hU]; simp [base, hd]
  refine ⟨hs.hU.trans hb, hs.hL.trans hL, hs.head, hs.du, hs.num, ?_, ?_, hs.some, ?_, ?_,
    hs.count.trans hc⟩
  · simpa [hb, hL] using hs.ini
  · simpa [hb, hL] using hs.res
  · intro d' hd'
    rcases hcase with ⟨_, -, rfl⟩ | ⟨hn, -⟩
    · exact hs.upd d' hd'
    · simp [hn] at hd'
  · intro hn
    rcases hcase with ⟨_, hx, -⟩ | ⟨-, hh, k, hk⟩
    · simp [hn] at hx
    · refine ⟨k, ?_⟩
      rw [hs.upd d hd, hh]
      exact hk

/-- How `solveNonlinear` gets to the loop. -/
theorem raw_cases {e : NEnv K V Mat} {o : Opts K} {s t : NSt K V} {r : Except Err Unit}
    (h : solveNonlinearRaw e o s = (t, r)) :
    (∃ u, Started e s u ∧ loop e o o.maxIt u = (t, r)) ∨
    (∃ x, r = .error x ∧ Hard x ∧ t.L = s.L ∧ (t.U = base s ∨ t.U = s.U)) := by
  unfold solveNonlinearRaw at h
  rcases Act.bind_cases h with ⟨s1, ⟨⟩, h1, h⟩ | ⟨x, h1, hr⟩
  · obtain ⟨d, hd, hL, hU, hcase, hc⟩ := linearStart_key h1
    rcases Act.bind_cases h with ⟨s2, ⟨⟩, h2, h⟩ | ⟨x, h2, hr⟩
    · left
      rw [Act.bind_ok (Act.modify_apply _ _)] at h
      exact ⟨_, started_of h1 h2, h⟩
    · right
      have := (keeps_start e).run h2
      simp only [Prod.mk.injEq] at this
      exact ⟨x, hr, (errs_start e).run h2, this.2.1.trans hL, .inl (this.1.trans hU)⟩
  · right
    refine ⟨x, hr, (errs_linearStart e).run h1, ?_⟩
    unfold linearStart at h1
    rw [Act.bind_ok (Act.get_apply s)] at h1
    cases hd : s.DU with
    | some d => simp [hd] at h1
    | none =>
      rw [hd] at h1
      rcases Act.bind_cases h1 with ⟨s1, y, -, h2⟩ | ⟨y, h2, -⟩
      · simp at h2
      · have hk : Keeps (fun s : NSt K V => (s.U, s.L))
            (do factorizeMatrix e e.linear; solveSystem e e.linear e.force) :=
          Keeps.bind (keeps_factorizeMatrix (fun _ _ => rfl) e _) fun _ =>
            keeps_solveSystem (fun _ _ => rfl) e _ _
        unfold solveLinearRaw at h2
        rcases Act.bind_cases h2 with ⟨s1, ⟨⟩, h3, h4⟩ | ⟨y, h3, -⟩
        · rcases Act.bind_cases h4 with ⟨s2, z, h5, h6⟩ | ⟨y, h5, -⟩
          · simp [Act.bind_apply] at h6
          · have a := (keeps_factorizeMatrix (f := fun s : NSt K V => (s.U, s.L))
              (fun _ _ => rfl) e _).run h3
            have b := (keeps_solveSystem (f := fun s : NSt K V => (s.U, s.L))
              (fun _ _ => rfl) e _ _).run h5
            simp only [Prod.mk.injEq] at a b
            exact ⟨b.2.trans a.2, .inr (b.1.trans a.1)⟩
        · have a := (keeps_factorizeMatrix (f := fun s : NSt K V => (s.U, s.L))
            (fun _ _ => rfl) e _).run h3
          simp only [Prod.mk.injEq] at a
          exact ⟨a.2, .inr a.1⟩

end GsSA.Static.Newton
