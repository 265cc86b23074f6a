import Verif.ALM.Singular
import Verif.ALM.Frame
import Verif.ALM.CrisfieldProps

/-!
# What the singular point methods do, part by part
-/

namespace GsSA.ALM

open GsSA

set_option linter.unusedSectionVars false

variable {K V Mat Fac : Type} [Field K] [LinearOrder K] [AddCommGroup V] [Module K V]
variable {e : Env K V Mat Fac} {o : Opts K} {M : Method K V Mat Fac}

/-! ## Preserved predicates -/

/-- An action preserves `P`, whether it returns or throws. -/
def Pres {α : Type} (P : St K V Mat Fac → Prop) (m : Act (St K V Mat Fac) α) : Prop :=
  ∀ s, P s → P (m s).1

section

variable {α β : Type} {P : St K V Mat Fac → Prop}

theorem Pres.ret (a : α) : Pres P (pure a : Act (St K V Mat Fac) α) := fun _ h => h

theorem Pres.get : Pres P (Act.get : Act (St K V Mat Fac) _) := fun _ h => h

theorem Pres.throw (x : Err) : Pres P (Act.throw x : Act (St K V Mat Fac) α) := fun _ h => h

theorem Pres.modify {g : St K V Mat Fac → St K V Mat Fac} (h : ∀ s, P s → P (g s)) :
    Pres P (Act.modify g) := h

theorem Pres.bind {m : Act (St K V Mat Fac) α} {g : α → Act (St K V Mat Fac) β}
    (hm : Pres P m) (hg : ∀ a, Pres P (g a)) : Pres P (m >>= g) := by
  intro s hs
  have h1 := hm s hs
  rw [Act.bind_apply]
  rcases h : m s with ⟨t, r⟩
  rw [h] at h1
  cases r with
  | error err => exact h1
  | ok a => exact hg a t h1

theorem Pres.ite {c : Prop} [Decidable c] {m m' : Act (St K V Mat Fac) α} (h : Pres P m)
    (h' : Pres P m') : Pres P (if c then m else m') := by
  split <;> assumption

theorem Pres.run {m : Act (St K V Mat Fac) α} (h : Pres P m) {s t : St K V Mat Fac}
    {r : Except Err α} (hr : m s = (t, r)) (hs : P s) : P t := by
  have := h s hs
  rw [hr] at this
  exact this

theorem Pres.of_keeps {f : St K V Mat Fac → β} (hP : ∀ s t, f t = f s → P s → P t)
    {m : Act (St K V Mat Fac) α} (h : Keeps f m) : Pres P m := fun s hs => hP s _ (h s) hs

theorem Pres.caught {m : Act (St K V Mat Fac) Unit} {f : St K V Mat Fac → St K V Mat Fac}
    (hm : Pres P m) (hf : ∀ s, P s → P (f s)) (hst : ∀ s st, P s → P { s with status := st }) :
    Pres P (ALM.caught m f) := by
  intro s hs
  have h1 := hm s hs
  rcases hr : m s with ⟨t, r⟩
  rw [hr] at h1
  cases r with
  | ok _ => rw [caught_ok hr]; exact hf _ h1
  | error x =>
    by_cases hx : x = .ub
    · subst hx
      simp only [ALM.caught, hr]
      exact h1
    · rw [caught_error hr hx]
      exact hst _ _ h1

end

/-! ## The sign of the indicator -/

/-- The stability is that of the indicator, as it is after every stability computation. -/
def SignOK (s : St K V Mat Fac) : Prop := s.stability = if s.indicator < 0 then 1 else -1

theorem SignOK.safe {α : Type} {m : Act (St K V Mat Fac) α} (h : Safe m) : Pres SignOK m :=
  Pres.of_keeps (f := core) (fun s t h hs => by
    simp only [core, Core.mk.injEq] at h
    unfold SignOK at hs ⊢
    rw [h.2.2.2.2.2.2.2.2.1, h.2.2.2.2.2.2.2.2.2.2.2.2.2.2.2]
    exact hs) h.core

theorem safe_reassemble (x : V) : Safe (reassemble e x) := by
  unfold reassemble
  exact Safe.bind (safe_computeJacobianAt e _ _) fun m =>
    Safe.bind (Safe.modify (fun _ => rfl) fun _ => rfl) fun _ => safe_factorizeMatrix e m

theorem SignOK.stabilityVector (shift : K) : Pres SignOK (stabilityVector e o shift) := by
  intro s hs
  have h := (stabilityVector_frame (e := e) (o := o) shift s).1
  unfold SignOK at hs ⊢
  rw [h]
  exact hs

theorem SignOK.computeStabilityRaw (x : V) (j : Bool) (shift : K) :
    Pres SignOK (computeStabilityRaw e o x j shift) := by
  unfold ALM.computeStabilityRaw
  refine Pres.bind (Pres.ite (SignOK.safe (safe_reassemble x)) (Pres.ret _)) fun _ =>
    Pres.bind (SignOK.stabilityVector _) fun _ => Pres.bind Pres.get fun s => ?_
  cases minCoeff s.stabVec with
  | none => exact Pres.throw _
  | some m => exact Pres.modify fun s _ => rfl

theorem SignOK.computeStability (j : Bool) (shift : K) :
    Pres SignOK (computeStability e o j shift) := fun s hs =>
  Pres.caught (f := fun t => { t with status := .success })
    (SignOK.computeStabilityRaw s.U j shift) (fun _ h => h) (fun _ _ h => h) s hs

theorem SignOK.norms : Pres SignOK (computeResidualNorms e) := by
  unfold computeResidualNorms
  refine Pres.modify fun s hs => ?_
  split <;> exact hs

theorem SignOK.finishStep (hM : M.Lawful) : Pres SignOK (finishStep o M) := by
  unfold ALM.finishStep
  refine Pres.bind (fun s hs => ?_) fun _ => Pres.bind Pres.get fun s => Pres.ite ?_ ?_
  · obtain ⟨a, b, h⟩ := hM.finish s
    rw [h]
    exact hs
  · unfold computeLength
    exact Pres.bind Pres.get fun _ => Pres.ite (Pres.throw _) (Pres.modify fun _ h => h)
  · exact Pres.modify fun _ h => h

theorem SignOK.iterate (hM : M.Lawful) (rem : ℕ) : Pres SignOK (iterate e o M rem) := by
  induction rem with
  | zero => exact Pres.ret ()
  | succ rem ih =>
    rw [ALM.iterate]
    refine Pres.bind ?_ fun _ => Pres.bind Pres.get fun s => Pres.ite (SignOK.finishStep hM)
      (Pres.ite (Pres.bind (Pres.modify fun _ h => h) fun _ => Pres.throw _)
        (Pres.bind (Pres.modify fun _ h => h) fun _ => ih))
    unfold iterationBody
    exact Pres.bind Pres.get fun s => Pres.bind (SignOK.safe (Safe.iteBool hM.quasiIteration)) fun _ =>
      Pres.bind (SignOK.safe hM.iteration) fun _ => Pres.bind (SignOK.computeStability _ _) fun _ =>
      Pres.bind (SignOK.safe (safe_computeResidual e)) fun _ => SignOK.norms

theorem SignOK.step (hM : M.Lawful) : Pres SignOK (step e o M) := by
  unfold ALM.step
  refine Pres.caught ?_ (fun _ h => h) fun _ _ h => h
  unfold stepRaw
  refine Pres.bind ?_ fun _ => Pres.bind (SignOK.safe (safe_computeResidual e)) fun _ =>
    Pres.bind SignOK.norms fun _ => Pres.bind (SignOK.safe (Safe.iteBool hM.quasiPredictor)) fun _ =>
    Pres.bind (Pres.modify fun _ h => h) fun _ => SignOK.iterate hM _
  unfold beginStep
  exact Pres.bind Pres.get fun s =>
    Pres.bind (Pres.ite (Pres.bind (Pres.modify fun _ h => h) fun _ => Pres.throw _) (Pres.ret _))
      fun _ => Pres.bind (Pres.modify fun _ h => h) fun _ =>
      Pres.bind (SignOK.safe hM.initiateStep) fun _ => Pres.bind Pres.get fun s =>
        Pres.ite (SignOK.safe hM.predictorGuess) (SignOK.safe hM.predictor)

/-! ## Frames -/

section

variable {β : Type} {f : St K V Mat Fac → β}

theorem Framed.refactorize (h : Framed f) (U dU : V) : Keeps f (refactorize e U dU) := by
  unfold ALM.refactorize
  exact Keeps.bind (h.computeJacobianAt _ _) fun m =>
    Keeps.bind (Keeps.modify fun s => h.jac s m) fun _ => h.factorizeMatrix m

theorem Framed.powerSteps (h : Framed f) (hv : ∀ s x, f { s with v := x } = f s) (n : ℕ) :
    Keeps f (powerSteps e n) := by
  induction n with
  | zero => exact Keeps.ret _
  | succ n ih =>
    exact Keeps.bind Keeps.get fun s => Keeps.bind (h.solveSystem _) fun x =>
      Keeps.bind (Keeps.modify fun s => hv s _) fun _ => ih

theorem Framed.testSingularPoint (h : Framed f) (hv : ∀ s x, f { s with v := x } = f s)
    (j : Bool) : Keeps f (testSingularPoint e o j) := by
  unfold ALM.testSingularPoint
  exact Keeps.bind Keeps.get fun s => Keeps.bind (Keeps.ite (h.refactorize _ _) (Keeps.ret _))
    fun _ => Keeps.bind (Keeps.modify fun s => hv s _) fun _ => Keeps.bind Keeps.get fun s =>
    Keeps.bind (h.factorizeMatrix _) fun _ => Keeps.bind (h.powerSteps hv _) fun _ =>
    Keeps.bind Keeps.get fun s => Keeps.ret _

theorem Framed.extendedIteration (h : Framed f) (ht : ∀ s x, f { s with Ut := x } = f s)
    (hd : ∀ s a b c, f { s with dL := a, dU := b, dV := c } = f s) :
    Keeps f (extendedIteration e) := by
  unfold ALM.extendedIteration
  exact Keeps.bind Keeps.get fun s => Keeps.bind (h.evalResidual _ _) fun r =>
    Keeps.bind (Keeps.modify fun s => h.resVec s _) fun _ => Keeps.bind (h.refactorize _ _) fun _ =>
    Keeps.bind (h.solveSystem _) fun ut => Keeps.bind (Keeps.modify fun s => ht s _) fun _ =>
    Keeps.bind (h.solveSystem _) fun ub => Keeps.bind (Keeps.modify fun s => h.Ubar s _) fun _ =>
    Keeps.bind (h.computeJacobianAt _ _) fun je => Keeps.bind Keeps.get fun s =>
    Keeps.bind (h.factorizeMatrix _) fun _ => Keeps.bind (h.solveSystem _) fun vt =>
    Keeps.bind (h.solveSystem _) fun vb => Keeps.modify fun s => hd s _ _ _

theorem Framed.extendedBody (h : Framed f) (ht : ∀ s x, f { s with Ut := x } = f s)
    (hd : ∀ s a b c, f { s with dL := a, dU := b, dV := c } = f s)
    (hD : ∀ s a b c, f { s with DU := a, DL := b, DV := c } = f s)
    (hr : ∀ s x, f { s with residueKTPhi := x } = f s) : Keeps f (extendedBody e) := by
  unfold ALM.extendedBody
  exact Keeps.bind (h.extendedIteration ht hd) fun _ => Keeps.bind (Keeps.modify fun s => hD s _ _ _)
    fun _ => Keeps.bind Keeps.get fun s => Keeps.bind (h.refactorize _ _) fun _ =>
    Keeps.bind (Keeps.modify fun s => hr s _) fun _ => Keeps.bind Keeps.get fun s =>
    Keeps.bind (h.evalResidual _ _) fun r => Keeps.bind (Keeps.modify fun s => h.resVec s _) fun _ =>
    h.computeResidualNorms

theorem Framed.objective (h : Framed f) (x : V) (j : Bool) : Keeps f (objective e o x j) := by
  unfold ALM.objective
  exact Keeps.bind (h.computeStabilityRaw _ _ _) fun _ => Keeps.bind Keeps.get fun s => Keeps.ret _

theorem Framed.termination (h : Framed f) (x : V) (j : Bool) : Keeps f (termination e o x j) := by
  unfold ALM.termination
  exact Keeps.bind (h.computeStabilityRaw _ _ _) fun _ => Keeps.bind Keeps.get fun s => Keeps.ret _

theorem Framed.bisectionPower (h : Framed f) (hv : ∀ s x, f { s with v := x } = f s) (b : Bool)
    (n : ℕ) : ∀ Vold, Keeps f (bisectionPower e o b n Vold) := by
  induction n with
  | zero => intro _; exact Keeps.ret _
  | succ n ih =>
    intro Vold
    exact Keeps.bind Keeps.get fun s => Keeps.bind (h.factorizeMatrix _) fun _ =>
      Keeps.bind (h.solveSystem _) fun x => Keeps.bind (Keeps.modify fun s => hv s _) fun _ =>
      Keeps.bind Keeps.get fun s => Keeps.ite (Keeps.ret _) (ih _)

end

/-- The arc length and the setting `AdaptiveLength`. -/
def lengths (s : St K V Mat Fac) : K × Bool := (s.len, s.adaptive)

/-- The point of the path. -/
def point (s : St K V Mat Fac) : V × K := (s.U, s.L)

theorem framed_lengths : Framed (lengths : St K V Mat Fac → _) := by
  constructor <;> intros <;> rfl

theorem framed_point : Framed (point : St K V Mat Fac → _) := by
  constructor <;> intros <;> rfl

/-- The extended system keeps the arc length settings. -/
theorem keeps_extendedSolve {β : Type} {f : St K V Mat Fac → β} (h : Framed f)
    (hp : ∀ s U L, f { s with U := U, L := L } = f s) (ht : ∀ s x, f { s with Ut := x } = f s)
    (hd : ∀ s a b c, f { s with dL := a, dU := b, dV := c } = f s)
    (hD : ∀ s a b c, f { s with DU := a, DL := b, DV := c } = f s)
    (hr : ∀ s x, f { s with residueKTPhi := x } = f s) (hn : ∀ s x, f { s with numIt := x } = f s)
    (U : V) (L tol : K) : Keeps f (extendedSolve e o U L tol) := by
  have hc : Keeps f (clearIncrements : Act (St K V Mat Fac) Unit) := fun s => by
    have h1 := hd { s with DU := 0, DL := 0, DV := 0 } 0 0 0
    exact h1.trans (hD s _ _ _)
  have ha : Keeps f (addIncrements : Act (St K V Mat Fac) Unit) := fun s => hp s _ _
  have hl : ∀ rem, Keeps f (extendedLoop e o tol rem) := by
    intro rem
    induction rem with
    | zero => exact Keeps.ret _
    | succ rem ih =>
      rw [extendedLoop]
      exact Keeps.bind (h.extendedBody ht hd hD hr) fun _ => Keeps.bind Keeps.get fun s =>
        Keeps.ite (Keeps.bind ha fun _ => Keeps.ret _)
          (Keeps.ite (Keeps.bind (Keeps.ite ha hc) fun _ => Keeps.ret _)
            (Keeps.bind (Keeps.modify fun s => hn s _) fun _ => ih))
  unfold extendedSolve
  exact Keeps.bind (Keeps.modify fun s => hp s _ _) fun _ => Keeps.bind Keeps.get fun s =>
    Keeps.bind (h.refactorize _ _) fun _ => Keeps.bind hc fun _ =>
    Keeps.bind (Keeps.modify fun s => hn s _) fun _ => hl _

/-! ## Effects of single calls -/

theorem evalResidual_ok {U : V} {L : K} {s t : St K V Mat Fac} {r : V}
    (h : evalResidual e U L s = (t, .ok r)) :
    e.residual s.log.length U L = some r ∧ t = { s with log := .residual true :: s.log } := by
  unfold evalResidual at h
  rw [Act.bind_ok (Act.get_apply s)] at h
  cases hr : e.residual s.log.length U L with
  | none => simp [hr, Act.bind_apply, emit] at h
  | some x =>
    simp only [hr, Act.bind_apply, emit, Act.modify_apply, Act.pure_apply, Prod.mk.injEq,
      Except.ok.injEq] at h
    exact ⟨by rw [h.2], h.1.symm⟩

/-- What `computeJacobianAt` and the factorisations leave alone. -/
theorem computeJacobianAt_ok {U dU : V} {s t : St K V Mat Fac} {m : Mat}
    (h : computeJacobianAt e U dU s = (t, .ok m)) :
    e.jacobian s.log.length U dU = some m ∧ t = { s with fac := t.fac, log := t.log } := by
  unfold computeJacobianAt at h
  rw [Act.bind_ok (Act.get_apply s)] at h
  cases hr : e.jacobian s.log.length U dU with
  | none => simp [hr, Act.bind_apply, emit] at h
  | some x =>
    simp only [hr] at h
    obtain ⟨s1, ⟨⟩, h1, h⟩ := Act.bind_ok_inv h
    obtain ⟨s2, ⟨⟩, h2, h⟩ := Act.bind_ok_inv h
    simp only [emit, Act.modify_apply, Prod.mk.injEq, and_true] at h1
    obtain ⟨b, hb⟩ := factorizeMatrix_frame (e := e) x s1
    rw [h2] at hb
    simp only [Act.pure_apply, Prod.mk.injEq, Except.ok.injEq] at h
    obtain ⟨rfl, rfl⟩ := h
    refine ⟨rfl, ?_⟩
    subst h1
    simp only at hb
    rw [hb]

theorem refactorize_ok {U dU : V} {s t : St K V Mat Fac} (h : refactorize e U dU s = (t, .ok ())) :
    e.jacobian s.log.length U dU = some t.jac ∧
      t = { s with jac := t.jac, fac := t.fac, log := t.log } := by
  unfold refactorize at h
  obtain ⟨s1, m, h1, h⟩ := Act.bind_ok_inv h
  obtain ⟨hm, e1⟩ := computeJacobianAt_ok h1
  rw [Act.bind_ok (Act.modify_apply _ _)] at h
  obtain ⟨b, hb⟩ := factorizeMatrix_frame (e := e) m { s1 with jac := m }
  rw [h] at hb
  simp only at hb
  rw [e1] at hb
  rw [hb]
  exact ⟨hm, rfl⟩

theorem solveSystem_frame {b : V} {s t : St K V Mat Fac} {r : Except Err V}
    (h : solveSystem e b s = (t, r)) : t = { s with log := t.log } := by
  unfold solveSystem at h
  rw [Act.bind_ok (Act.get_apply s)] at h
  cases hr : s.fac.bind fun f => e.solve s.log.length f b with
  | none =>
    simp only [hr, Act.bind_apply, emit, Act.modify_apply, Act.throw_apply, Prod.mk.injEq] at h
    rw [← h.1]
  | some x =>
    simp only [hr, Act.bind_apply, emit, Act.modify_apply, Act.pure_apply, Prod.mk.injEq] at h
    rw [← h.1]

end GsSA.ALM
