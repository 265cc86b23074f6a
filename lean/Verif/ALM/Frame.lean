import Verif.ALM.StepSpec

/-!
# Invariants of the iterations

What the parts of an iteration other than `iteration()` itself keep, and how a property of the
increments is carried through a whole step.
-/

namespace GsSA.ALM

open GsSA

set_option linter.unusedSectionVars false

variable {K V Mat Fac : Type} [Field K] [LinearOrder K] [AddCommGroup V] [Module K V]
variable {e : Env K V Mat Fac} {o : Opts K} {M : Method K V Mat Fac}

/-- An action keeps the value of `f`, whether it returns or throws. -/
def Keeps {α β : Type} (f : St K V Mat Fac → β) (m : Act (St K V Mat Fac) α) : Prop :=
  ∀ s, f (m s).1 = f s

section

variable {α α' β : Type} {f : St K V Mat Fac → β}

theorem Keeps.ret (a : α) : Keeps f (pure a : Act (St K V Mat Fac) α) := fun _ => rfl

theorem Keeps.get : Keeps f (Act.get : Act (St K V Mat Fac) _) := fun _ => rfl

theorem Keeps.throw (x : Err) : Keeps f (Act.throw x : Act (St K V Mat Fac) α) := fun _ => rfl

theorem Keeps.modify {g : St K V Mat Fac → St K V Mat Fac} (h : ∀ s, f (g s) = f s) :
    Keeps f (Act.modify g) := h

theorem Keeps.bind {m : Act (St K V Mat Fac) α} {g : α → Act (St K V Mat Fac) α'}
    (hm : Keeps f m) (hg : ∀ a, Keeps f (g a)) : Keeps f (m >>= g) := by
  intro s
  have h1 := hm s
  rw [Act.bind_apply]
  rcases h : m s with ⟨t, r⟩
  rw [h] at h1
  cases r with
  | error err => exact h1
  | ok a => exact (hg a t).trans h1

theorem Keeps.ite {c : Prop} [Decidable c] {m m' : Act (St K V Mat Fac) α} (h : Keeps f m)
    (h' : Keeps f m') : Keeps f (if c then m else m') := by
  split <;> assumption

theorem Keeps.run {m : Act (St K V Mat Fac) α} (h : Keeps f m) {s t : St K V Mat Fac}
    {r : Except Err α} (hr : m s = (t, r)) : f t = f s := by
  have := h s
  rw [hr] at this
  exact this

end

/-- The root selection of the last Crisfield iteration recorded. -/
def lastRoots : List Event → Option RootKind
  | [] => none
  | .roots k :: _ => some k
  | _ :: l => lastRoots l

/-- The quantities which describe the increments of a step. -/
structure Incr (K V : Type) where
  U : V
  L : K
  DU : V
  DL : K
  dU : V
  dL : K
  len : K
  phi : K
  DUold : V
  DLold : K
  guess : Option V
  roots : Option RootKind

/-- The increments of a state. -/
def incr (s : St K V Mat Fac) : Incr K V :=
  { U := s.U, L := s.L, DU := s.DU, DL := s.DL, dU := s.dU, dL := s.dL, len := s.len, phi := s.phi
    DUold := s.DUold, DLold := s.DLold, guess := s.guess, roots := lastRoots s.log }

/-- Those together with the tangent `m_deltaUt`. -/
def incrT (s : St K V Mat Fac) : Incr K V × V := (incr s, s.Ut)

section

variable {β : Type} {f : St K V Mat Fac → β}

/-- A quantity not touched by the callbacks and linear solves. -/
structure Framed (f : St K V Mat Fac → β) : Prop where
  log : ∀ s x, (∀ k, x ≠ .roots k) → f { s with log := x :: s.log } = f s
  resVec : ∀ s x, f { s with resVec := x } = f s
  fac : ∀ s x, f { s with fac := x } = f s
  jac : ∀ s x, f { s with jac := x } = f s
  Ubar : ∀ s x, f { s with Ubar := x } = f s
  norms : ∀ s a b c d, f { s with residueF := a, residueU := b, basisF := c, basisU := d } = f s
  stab : ∀ s a b c d st,
    f { s with stabVec := a, negatives := b, indicator := c, stability := d, status := st } = f s

theorem Framed.emit (h : Framed f) {x : Event} (hx : ∀ k, x ≠ .roots k) :
    Keeps f (ALM.emit x : Act (St K V Mat Fac) Unit) := fun s => h.log s x hx

theorem Framed.evalResidual (h : Framed f) (U : V) (L : K) : Keeps f (evalResidual e U L) := by
  unfold ALM.evalResidual
  refine Keeps.bind Keeps.get fun s => ?_
  cases e.residual s.log.length U L with
  | none => exact Keeps.bind (h.emit (by simp)) fun _ => Keeps.throw _
  | some r => exact Keeps.bind (h.emit (by simp)) fun _ => Keeps.ret _

theorem Framed.computeResidual (h : Framed f) : Keeps f (computeResidual e) := by
  unfold ALM.computeResidual
  exact Keeps.bind Keeps.get fun s => Keeps.bind (h.evalResidual _ _) fun r =>
    Keeps.modify fun s => h.resVec s r

theorem Framed.factorizeMatrix (h : Framed f) (m : Mat) : Keeps f (factorizeMatrix e m) := by
  unfold ALM.factorizeMatrix
  refine Keeps.bind Keeps.get fun s => ?_
  cases e.factorize s.log.length m with
  | none =>
    exact Keeps.bind (Keeps.modify fun s => h.fac s none) fun _ =>
      Keeps.bind (h.emit (by simp)) fun _ => Keeps.throw _
  | some x =>
    exact Keeps.bind (Keeps.modify fun s => h.fac s (some x)) fun _ => h.emit (by simp)

theorem Framed.solveSystem (h : Framed f) (b : V) : Keeps f (solveSystem e b) := by
  unfold ALM.solveSystem
  refine Keeps.bind Keeps.get fun s => ?_
  cases s.fac.bind fun f => e.solve s.log.length f b with
  | none => exact Keeps.bind (h.emit (by simp)) fun _ => Keeps.throw _
  | some r => exact Keeps.bind (h.emit (by simp)) fun _ => Keeps.ret _

theorem Framed.computeJacobianAt (h : Framed f) (U dU : V) :
    Keeps f (computeJacobianAt e U dU) := by
  unfold ALM.computeJacobianAt
  refine Keeps.bind Keeps.get fun s => ?_
  cases e.jacobian s.log.length U dU with
  | none => exact Keeps.bind (h.emit (by simp)) fun _ => Keeps.throw _
  | some m =>
    exact Keeps.bind (h.emit (by simp)) fun _ => Keeps.bind (h.factorizeMatrix m) fun _ =>
      Keeps.ret _

theorem Framed.assembleFactorize (h : Framed f) : Keeps f (assembleFactorize e) := by
  unfold ALM.assembleFactorize
  exact Keeps.bind Keeps.get fun s => Keeps.bind (h.computeJacobianAt _ _) fun m =>
    Keeps.bind (Keeps.modify fun s => h.jac s m) fun _ => h.factorizeMatrix m

theorem Framed.computeUbar (h : Framed f) : Keeps f (computeUbar e) := by
  unfold ALM.computeUbar
  exact Keeps.bind Keeps.get fun s => Keeps.bind (h.solveSystem _) fun x =>
    Keeps.modify fun s => h.Ubar s x

theorem Framed.computeUt (h : Framed f) (ht : ∀ s x, f { s with Ut := x } = f s) :
    Keeps f (computeUt e) := by
  unfold ALM.computeUt
  exact Keeps.bind (h.solveSystem _) fun x => Keeps.modify fun s => ht s x

theorem Framed.quasiIterationUt (h : Framed f) (ht : ∀ s x, f { s with Ut := x } = f s) :
    Keeps f (quasiIterationUt e) := by
  unfold ALM.quasiIterationUt
  exact Keeps.bind h.assembleFactorize fun _ => h.computeUt ht

theorem Framed.quasiPredictorUt (h : Framed f) (ht : ∀ s x, f { s with Ut := x } = f s) :
    Keeps f (quasiPredictorUt e) := by
  unfold ALM.quasiPredictorUt
  exact Keeps.bind h.assembleFactorize fun _ => Keeps.bind (h.computeUt ht) fun _ => h.computeUbar

theorem Framed.computeResidualNorms (h : Framed f) : Keeps f (computeResidualNorms e) := by
  unfold ALM.computeResidualNorms
  refine Keeps.modify fun s => ?_
  split
  · exact h.norms s _ _ _ _
  · exact h.norms s _ _ s.basisF s.basisU

theorem Framed.stabilityVector (h : Framed f) (shift : K) : Keeps f (stabilityVector e o shift) := by
  unfold ALM.stabilityVector
  refine Keeps.bind Keeps.get fun s => ?_
  cases o.bifMethod with
  | determinant =>
    exact Keeps.bind (h.factorizeMatrix _) fun _ => Keeps.modify fun s =>
      h.stab s _ s.negatives s.indicator s.stability s.status
  | eigenvalue =>
    simp only
    cases e.eigs s.log.length s.jac shift with
    | none => exact Keeps.bind (h.emit (by simp)) fun _ => Keeps.throw _
    | some l =>
      exact Keeps.bind (h.emit (by simp)) fun _ => Keeps.modify fun s =>
        h.stab s _ s.negatives s.indicator s.stability s.status
  | nothing => exact Keeps.modify fun s => h.stab s _ s.negatives s.indicator s.stability s.status
  | other => exact Keeps.ret _

theorem Framed.computeStabilityRaw (h : Framed f) (x : V) (j : Bool) (shift : K) :
    Keeps f (computeStabilityRaw e o x j shift) := by
  unfold ALM.computeStabilityRaw
  refine Keeps.bind (Keeps.ite ?_ (Keeps.ret _)) fun _ => Keeps.bind (h.stabilityVector _) fun _ =>
    Keeps.bind Keeps.get fun s => ?_
  · unfold reassemble
    exact Keeps.bind (h.computeJacobianAt _ _) fun m =>
      Keeps.bind (Keeps.modify fun s => h.jac s m) fun _ => h.factorizeMatrix m
  · cases minCoeff s.stabVec with
    | none => exact Keeps.throw _
    | some m => exact Keeps.modify fun s => h.stab s s.stabVec _ _ _ s.status

theorem Framed.status (h : Framed f) (s : St K V Mat Fac) (st : Status) :
    f { s with status := st } = f s := h.stab s s.stabVec s.negatives s.indicator s.stability st

theorem Framed.caught (h : Framed f) {m : Act (St K V Mat Fac) Unit} (hm : Keeps f m) (st : Status) :
    Keeps f (caught m fun t => { t with status := st }) := by
  intro s
  have h1 := hm s
  rcases hr : m s with ⟨t, r⟩
  rw [hr] at h1
  cases r with
  | ok _ =>
    rw [caught_ok hr]
    exact (h.status t st).trans h1
  | error x =>
    by_cases hx : x = .ub
    · subst hx
      simp only [ALM.caught, hr]
      exact h1
    · rw [caught_error hr hx]
      exact (h.status t _).trans h1

theorem Framed.computeStability (h : Framed f) (j : Bool) (shift : K) :
    Keeps f (computeStability e o j shift) := fun s =>
  h.caught (h.computeStabilityRaw s.U j shift) _ s

end

theorem framed_incrT : Framed (incrT : St K V Mat Fac → _) := by
  constructor
  · intro s x hx
    cases x <;> first | rfl | exact absurd rfl (hx _)
  all_goals intros; rfl

theorem framed_incr : Framed (incr : St K V Mat Fac → _) := by
  constructor
  · intro s x hx
    cases x <;> first | rfl | exact absurd rfl (hx _)
  all_goals intros; rfl

theorem framed_guess : Framed (fun s : St K V Mat Fac => s.guess) := by
  constructor <;> intros <;> rfl

/-- `quasiNewtonIteration` and `quasiNewtonPredictor` of the four methods keep the increments. -/
theorem keeps_quasi (hM : IsMethod e o M) :
    Keeps incr M.quasiIteration ∧ Keeps incr M.quasiPredictor := by
  cases hM
  · exact ⟨framed_incr.assembleFactorize,
      Keeps.bind framed_incr.assembleFactorize fun _ => framed_incr.computeUbar⟩
  all_goals
    exact ⟨framed_incr.quasiIterationUt fun _ _ => rfl, framed_incr.quasiPredictorUt fun _ _ => rfl⟩

/-- A property `P` of the increments that holds after the predictor, and a property `Q` (which may
also mention the tangent) that every iteration establishes: `Q` holds when the step is accepted. -/
theorem iterate_inv {P Q : St K V Mat Fac → Prop}
    (hP : ∀ s t, incr t = incr s → P s → P t) (hQ : ∀ s t, incrT t = incrT s → Q s → Q t)
    (hQP : ∀ s, Q s → P s) (hq : Keeps incr M.quasiIteration)
    (hi : ∀ s t, P s → M.iteration s = (t, .ok ()) → Q t) (rem : ℕ) {s t : St K V Mat Fac}
    (hs : P s) (hn : s.numIt ≠ 0) (hM : M.Lawful) (hrem : s.numIt + rem = o.maxIt) (h0 : rem ≠ 0)
    (h : iterate e o M rem s = (t, .ok ())) : ∃ u, Q u ∧ finishStep o M u = (t, .ok ()) := by
  induction rem generalizing s with
  | zero => exact absurd rfl h0
  | succ rem ih =>
    rw [iterate] at h
    obtain ⟨s1, ⟨⟩, h1, h⟩ := Act.bind_ok_inv h
    obtain ⟨k, -⟩ := iterationBody_spec hM hn h1
    have hQ1 : Q s1 := by
      unfold iterationBody at h1
      rw [Act.bind_ok (Act.get_apply s)] at h1
      obtain ⟨u1, ⟨⟩, g1, h1⟩ := Act.bind_ok_inv h1
      obtain ⟨u2, ⟨⟩, g2, h1⟩ := Act.bind_ok_inv h1
      obtain ⟨u3, st, g3, h1⟩ := Act.bind_ok_inv h1
      obtain ⟨u4, ⟨⟩, g4, h1⟩ := Act.bind_ok_inv h1
      have e1 : P u1 := hP _ _ ((Keeps.ite hq (Keeps.ret ())).run g1) hs
      have e2 : Q u2 := hi _ _ e1 g2
      have e3 : Q u3 := hQ _ _ ((framed_incrT.computeStability _ _).run g3) e2
      have e4 : Q u4 := hQ _ _ (framed_incrT.computeResidual.run g4) e3
      exact hQ _ _ (framed_incrT.computeResidualNorms.run h1) e4
    rw [Act.bind_ok (Act.get_apply _)] at h
    by_cases hm : meets o s1 = true
    · rw [if_pos hm] at h
      exact ⟨s1, hQ1, h⟩
    · rw [if_neg hm] at h
      by_cases hl : s1.numIt = o.maxIt - 1
      · rw [if_pos hl, Act.bind_ok (by rfl : emit .limit s1 = _)] at h
        simp at h
      · rw [if_neg hl, Act.bind_ok (Act.modify_apply _ _)] at h
        have hk := k.numIt
        refine ih (s := { s1 with numIt := s1.numIt + 1 }) ?_ (by simp) ?_ ?_ h
        · exact hP s1 _ rfl (hQP _ hQ1)
        · simp only
          omega
        · omega

/-- The same for a whole step, as seen from `step()`. -/
theorem step_inv {P Q : St K V Mat Fac → Prop} (hM : IsMethod e o M) {s t : St K V Mat Fac}
    (hP : ∀ s t, incr t = incr s → P s → P t) (hQ : ∀ s t, incrT t = incrT s → Q s → Q t)
    (hQP : ∀ s, Q s → P s) (hi : ∀ s t, P s → M.iteration s = (t, .ok ()) → Q t)
    (hp : ∀ p, beginStep e M s = (p, .ok ()) → P p) (hmax : 2 ≤ o.maxIt)
    (h : step e o M s = (t, .ok .success)) :
    ∃ u v, Q u ∧ finishStep o M u = (v, .ok ()) ∧ t = { v with status := .success } := by
  rcases step_cases hM.lawful s with ⟨u, hr, hi', h'⟩ | ⟨u, x, hr, hx, h'⟩
  · rw [h'] at h
    simp only [Prod.mk.injEq] at h
    obtain ⟨rfl, -⟩ := h
    unfold stepRaw at hr
    obtain ⟨p, ⟨⟩, hb, hr⟩ := Act.bind_ok_inv hr
    obtain ⟨u1, ⟨⟩, g1, hr⟩ := Act.bind_ok_inv hr
    obtain ⟨u2, ⟨⟩, g2, hr⟩ := Act.bind_ok_inv hr
    obtain ⟨u3, ⟨⟩, g3, hr⟩ := Act.bind_ok_inv hr
    rw [Act.bind_ok (Act.modify_apply _ _)] at hr
    have e1 := hP _ _ (framed_incr.computeResidual.run g1) (hp p hb)
    have e2 := hP _ _ (framed_incr.computeResidualNorms.run g2) e1
    have e3 := hP _ _ ((Keeps.ite (keeps_quasi hM).2 (Keeps.ret ())).run g3) e2
    obtain ⟨w, hw, hf⟩ := iterate_inv hP hQ hQP (keeps_quasi hM).1 hi (o.maxIt - 1)
      (s := { u3 with stabilityPrev := u3.stability, numIt := 1 }) (hP u3 _ rfl e3) (by simp)
      hM.lawful (by simp only; omega) (by omega) hr
    exact ⟨w, u, hw, hf, rfl⟩
  · rw [h'] at h
    simp only [Prod.mk.injEq, Except.ok.injEq] at h
    cases x <;> simp_all [statusOf]

/-- What `finishStep` does to the increments. -/
theorem finishStep_incr (hM : IsMethod e o M) {u v : St K V Mat Fac}
    (h : finishStep o M u = (v, .ok ())) :
    v.U = u.U + u.DU ∧ v.L = u.L + u.DL ∧ v.DU = u.DU ∧ v.DL = u.DL ∧ v.dU = u.dU ∧ v.dL = u.dL ∧
      v.phi = u.phi ∧ v.Ut = u.Ut ∧ v.guess = u.guess ∧ v.log = u.log ∧ v.lenPrev = u.len := by
  obtain ⟨a, b, hf⟩ := hM.lawful.finish u
  unfold finishStep at h
  rw [Act.bind_ok hf, Act.bind_ok (Act.get_apply _)] at h
  by_cases ha : u.adaptive = true
  · simp only [ha, if_true, computeLength] at h
    rw [Act.bind_ok (Act.get_apply _)] at h
    by_cases hn : u.numIt = 0
    · simp [hn] at h
    · simp only [hn, if_false, Act.modify_apply, Prod.mk.injEq] at h
      obtain ⟨rfl, -⟩ := h
      exact ⟨rfl, rfl, rfl, rfl, rfl, rfl, rfl, rfl, rfl, rfl, rfl⟩
  · simp only [ha, Bool.false_eq_true, if_false, Act.modify_apply, Prod.mk.injEq] at h
    obtain ⟨rfl, -⟩ := h
    exact ⟨rfl, rfl, rfl, rfl, rfl, rfl, rfl, rfl, rfl, rfl, rfl⟩

end GsSA.ALM
