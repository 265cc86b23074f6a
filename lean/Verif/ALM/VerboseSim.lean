import Verif.ALM.Verbose
import Verif.ALM.Flow

/-!
# A step with output follows the step without output

`forget` drops the results of the stability computation, the status and the record of events. A step does not read
these (`Blind`); printing changes nothing else once the Jacobian is factorised (`Ready`).
-/

namespace GsSA.ALM

set_option linter.unusedSectionVars false

variable {K V Mat Fac : Type} [Field K] [LinearOrder K] [AddCommGroup V] [Module K V]
variable {e : Env K V Mat Fac} {o : Opts K} {α β : Type}

/-- Forget the results of the stability computation, the status and the record of events. -/
def forget (s : St K V Mat Fac) : St K V Mat Fac :=
  { s with stabVec := [], negatives := 0, indicator := 0, stability := 0, stabilityPrev := 0, status := .success
           log := [] }

/-- The outcome does not depend on what `forget` drops. -/
def Blind (m : Act (St K V Mat Fac) α) : Prop :=
  ∀ s t, forget s = forget t → (m s).2 = (m t).2 ∧ forget (m s).1 = forget (m t).1

namespace Blind

theorem ret (a : α) : Blind (pure a : Act (St K V Mat Fac) α) := fun _ _ h => ⟨rfl, h⟩

theorem throw (x : Err) : Blind (Act.throw x : Act (St K V Mat Fac) α) := fun _ _ h => ⟨rfl, h⟩

theorem modify {f : St K V Mat Fac → St K V Mat Fac} (hf : ∀ s, forget (f s) = forget (f (forget s))) :
    Blind (Act.modify f) := by
  intro s t h
  refine ⟨rfl, ?_⟩
  show forget (f s) = forget (f t)
  rw [hf s, h, ← hf t]

theorem bind {m : Act (St K V Mat Fac) α} {f : α → Act (St K V Mat Fac) β} (hm : Blind m) (hf : ∀ a, Blind (f a)) :
    Blind (m >>= f) := by
  intro s t h
  obtain ⟨h1, h2⟩ := hm s t h
  simp only [Act.bind_apply]
  rcases hs : m s with ⟨s', x | a⟩ <;> rcases ht : m t with ⟨t', y | b⟩ <;> simp only [hs, ht] at h1 h2
  · cases h1
    exact ⟨rfl, h2⟩
  · cases h1
  · cases h1
  · cases h1
    exact hf a s' t' h2

theorem getBind {f : St K V Mat Fac → Act (St K V Mat Fac) β} (h1 : ∀ s, f (forget s) = f s)
    (hf : ∀ s, Blind (f s)) : Blind (Act.get >>= f) := by
  intro s t h
  simp only [Act.bind_apply, Act.get_apply]
  have : f s = f t := by rw [← h1 s, h, h1 t]
  rw [← this]
  exact hf s s t h

theorem ite {c : Prop} [Decidable c] {m m' : Act (St K V Mat Fac) α} (h : Blind m) (h' : Blind m') :
    Blind (if c then m else m') := by
  split <;> assumption

theorem emit (x : Event) : Blind (ALM.emit x : Act (St K V Mat Fac) Unit) := modify fun _ => rfl

theorem evalResidual (he : Steady e) (U : V) (L : K) : Blind (evalResidual e U L) := by
  unfold ALM.evalResidual
  refine getBind (fun s => ?_) fun s => ?_
  · rw [he.residual (forget s).log.length s.log.length]
  · split
    · exact bind (emit _) fun _ => ret _
    · exact bind (emit _) fun _ => throw _

theorem computeResidual (he : Steady e) : Blind (computeResidual e) :=
  getBind (fun _ => rfl) fun _ => bind (evalResidual he _ _) fun _ => modify fun _ => rfl

theorem computeResidualNorms : Blind (computeResidualNorms e) := by
  refine modify fun s => ?_
  by_cases h : s.numIt = 0
  · rw [if_pos h, if_pos (show (forget s).numIt = 0 from h)]
    rfl
  · rw [if_neg h, if_neg (show ¬(forget s).numIt = 0 from h)]
    rfl

theorem factorizeMatrix (he : Steady e) (m : Mat) : Blind (factorizeMatrix e m) := by
  unfold ALM.factorizeMatrix
  refine getBind (fun s => ?_) fun s => ?_
  · rw [he.factorize (forget s).log.length s.log.length]
  · split
    · exact bind (modify fun _ => rfl) fun _ => emit _
    · exact bind (modify fun _ => rfl) fun _ => bind (emit _) fun _ => throw _

theorem solveSystem (he : Steady e) (b : V) : Blind (solveSystem e b) := by
  unfold ALM.solveSystem
  refine getBind (fun s => ?_) fun s => ?_
  · rw [he.solve (forget s).log.length s.log.length]
    rfl
  · split
    · exact bind (emit _) fun _ => ret _
    · exact bind (emit _) fun _ => throw _

theorem computeJacobianAt (he : Steady e) (U dU : V) : Blind (computeJacobianAt e U dU) := by
  unfold ALM.computeJacobianAt
  refine getBind (fun s => ?_) fun s => ?_
  · rw [he.jacobian (forget s).log.length s.log.length]
  · split
    · exact bind (emit _) fun _ => bind (factorizeMatrix he _) fun _ => ret _
    · exact bind (emit _) fun _ => throw _

theorem refactorize (he : Steady e) (U dU : V) : Blind (refactorize e U dU) :=
  bind (computeJacobianAt he _ _) fun _ => bind (modify fun _ => rfl) fun _ => factorizeMatrix he _

theorem assembleFactorize (he : Steady e) : Blind (assembleFactorize e) :=
  getBind (fun _ => rfl) fun _ => refactorize he _ _

theorem computeUbar (he : Steady e) : Blind (computeUbar e) :=
  getBind (fun _ => rfl) fun _ => bind (solveSystem he _) fun _ => modify fun _ => rfl

theorem computeUt (he : Steady e) : Blind (computeUt e) :=
  bind (solveSystem he _) fun _ => modify fun _ => rfl

/-- The stability computation without a new Jacobian, up to what is forgotten. -/
theorem stabilityVector (he : Steady e) (shift : K) : Blind (stabilityVector e o shift) := by
  unfold ALM.stabilityVector
  refine getBind (fun s => ?_) fun s => ?_
  · rw [he.eigs (forget s).log.length s.log.length]
    rfl
  · cases o.bifMethod with
    | determinant => exact bind (factorizeMatrix he _) fun _ => modify fun _ => rfl
    | eigenvalue =>
      simp only
      split
      · exact bind (emit _) fun _ => modify fun _ => rfl
      · exact bind (emit _) fun _ => throw _
    | nothing => exact modify fun _ => rfl
    | other => exact ret _

end Blind

/-- On success the action leads from states with `P` to states with `Q`. -/
def Tri {σ : Type} (P : σ → Prop) (m : Act σ α) (Q : σ → Prop) : Prop :=
  ∀ s t a, P s → m s = (t, .ok a) → Q t

namespace Tri

variable {σ : Type} {P Q R : σ → Prop}

theorem ret (a : α) : Tri P (pure a : Act σ α) P := by
  intro s t b hs h
  cases h
  exact hs

theorem throw (x : Err) : Tri P (Act.throw x : Act σ α) Q := by
  intro s t b _ h
  cases h

theorem modify {f : σ → σ} (hf : ∀ s, P s → Q (f s)) : Tri P (Act.modify f) Q := by
  intro s t b hs h
  cases h
  exact hf s hs

theorem bind {m : Act σ α} {f : α → Act σ β} (hm : Tri P m Q) (hf : ∀ a, Tri Q (f a) R) :
    Tri P (m >>= f) R := by
  intro s t b hs h
  obtain ⟨u, a, h1, h2⟩ := Act.bind_ok_inv h
  exact hf a u t b (hm s u a hs h1) h2

theorem getBind {f : σ → Act σ β} (hf : ∀ s, Tri (fun t => P t ∧ t = s) (f s) Q) :
    Tri P (Act.get >>= f) Q := by
  intro s t b hs h
  rw [Act.bind_ok (Act.get_apply s)] at h
  exact hf s s t b ⟨hs, rfl⟩ h

theorem ite {c : Prop} [Decidable c] {m m' : Act σ α} (h : Tri P m Q) (h' : Tri P m' Q) :
    Tri P (if c then m else m') Q := by
  split <;> assumption

theorem weaken {P' Q' : σ → Prop} {m : Act σ α} (h : Tri P m Q) (hP : ∀ s, P' s → P s)
    (hQ : ∀ s, Q s → Q' s) : Tri P' m Q' := fun s t a hs hr => hQ t (h s t a (hP s hs) hr)

theorem pre {P' : σ → Prop} {m : Act σ α} (h : Tri P m Q) (hP : ∀ s, P' s → P s) :
    Tri P' m Q := h.weaken hP fun _ => id

/-- A quantity that is kept. -/
theorem keeps {γ : Type} {f : St K V Mat Fac → γ} {m : Act (St K V Mat Fac) α} (h : Keeps f m) {p : γ → Prop} :
    Tri (fun s => p (f s)) m (fun s => p (f s)) := by
  intro s t a hs hr
  have := h.run hr
  simp only [this]
  exact hs

end Tri

/-! ## The factorisation belongs to the Jacobian -/

/-- The Jacobian and the factorisation in the solver. -/
def system (s : St K V Mat Fac) : Mat × Option Fac := (s.jac, s.fac)

/-- `p` is a Jacobian together with its factorisation. -/
def Matched (e : Env K V Mat Fac) (p : Mat × Option Fac) : Prop := ∃ f, e.factorize 0 p.1 = some f ∧ p.2 = some f

/-- The solver holds the factorisation of `m_jacMat`. -/
def Ready (e : Env K V Mat Fac) (s : St K V Mat Fac) : Prop := Matched e (system s)

theorem keeps_solve (b : V) : Keeps system (solveSystem e b) := by
  unfold solveSystem
  refine Keeps.bind Keeps.get fun s => ?_
  split
  · exact Keeps.bind (Keeps.modify fun _ => rfl) fun _ => Keeps.ret _
  · exact Keeps.bind (Keeps.modify fun _ => rfl) fun _ => Keeps.throw _

theorem keeps_evalResidual (U : V) (L : K) : Keeps system (evalResidual e U L) := by
  unfold evalResidual
  refine Keeps.bind Keeps.get fun s => ?_
  split
  · exact Keeps.bind (Keeps.modify fun _ => rfl) fun _ => Keeps.ret _
  · exact Keeps.bind (Keeps.modify fun _ => rfl) fun _ => Keeps.throw _

theorem keeps_residual : Keeps system (computeResidual e) :=
  Keeps.bind Keeps.get fun _ => Keeps.bind (keeps_evalResidual _ _) fun _ => Keeps.modify fun _ => rfl

theorem keeps_norms : Keeps system (computeResidualNorms e) := by
  refine Keeps.modify fun s => ?_
  split <;> rfl

theorem keeps_Ubar : Keeps system (computeUbar e) :=
  Keeps.bind Keeps.get fun _ => Keeps.bind (keeps_solve _) fun _ => Keeps.modify fun _ => rfl

theorem keeps_Ut : Keeps system (computeUt e) := Keeps.bind (keeps_solve _) fun _ => Keeps.modify fun _ => rfl

theorem factorizeMatrix_steady (he : Steady e) {m : Mat} {f : Fac} (h : e.factorize 0 m = some f) (s : St K V Mat Fac) :
    factorizeMatrix e m s = ({ s with fac := some f, log := .factor true :: s.log }, .ok ()) := by
  unfold factorizeMatrix
  rw [Act.bind_ok (Act.get_apply s), he.factorize _ 0, h]
  rfl

theorem factorizeMatrix_steady_inv (he : Steady e) {m : Mat} {s t : St K V Mat Fac}
    (h : factorizeMatrix e m s = (t, .ok ())) :
    ∃ f, e.factorize 0 m = some f ∧ t = { s with fac := some f, log := .factor true :: s.log } := by
  cases hf : e.factorize 0 m with
  | some f =>
    rw [factorizeMatrix_steady he hf] at h
    cases h
    exact ⟨f, rfl, rfl⟩
  | none =>
    unfold factorizeMatrix at h
    rw [Act.bind_ok (Act.get_apply s), he.factorize _ 0, hf] at h
    cases h

/-- The Jacobian at `U` with some increment. -/
def Tangent (e : Env K V Mat Fac) (U : V) (s : St K V Mat Fac) : Prop := ∃ d, e.jacobian 0 U d = some s.jac

theorem tri_refactorize (he : Steady e) {P : St K V Mat Fac → Prop} (U dU : V) :
    Tri P (refactorize e U dU) fun s => Ready e s ∧ Tangent e U s := by
  intro s t a _ h
  unfold refactorize at h
  obtain ⟨s1, m, h1, h⟩ := Act.bind_ok_inv h
  rw [Act.bind_ok (Act.modify_apply _ _)] at h
  obtain ⟨f, hf, rfl⟩ := factorizeMatrix_steady_inv he h
  refine ⟨⟨f, hf, rfl⟩, dU, ?_⟩
  unfold computeJacobianAt at h1
  rw [Act.bind_ok (Act.get_apply s), he.jacobian _ 0] at h1
  cases hj : e.jacobian 0 U dU with
  | none =>
    rw [hj] at h1
    cases h1
  | some m' =>
    rw [hj] at h1
    obtain ⟨_, _, _, h1⟩ := Act.bind_ok_inv h1
    obtain ⟨_, _, _, h1⟩ := Act.bind_ok_inv h1
    cases h1
    rfl

theorem tri_assemble (he : Steady e) {P : St K V Mat Fac → Prop} {U : V} (hP : ∀ s, P s → s.U + s.DU = U) :
    Tri P (assembleFactorize e) fun s => Ready e s ∧ Tangent e U s := by
  refine Tri.getBind fun s => ?_
  intro u t a hu h
  obtain ⟨hu, rfl⟩ := hu
  rw [← hP _ hu]
  exact tri_refactorize he (P := fun _ => True) _ _ _ _ _ trivial h

/-- What depends on the Jacobian and its factorisation only. -/
theorem keeps_ready {m : Act (St K V Mat Fac) α} (h : Keeps system m) (U : V) :
    Tri (fun s => Ready e s ∧ Tangent e U s) m fun s => Ready e s ∧ Tangent e U s :=
  Tri.keeps (p := fun p => Matched e p ∧ ∃ d, e.jacobian 0 U d = some p.1) h

/-! ## The four methods -/

/-- What the functions of a descendant must satisfy. -/
structure Method.Blind (e : Env K V Mat Fac) (M : Method K V Mat Fac) : Prop where
  initiateStep : ALM.Blind M.initiateStep
  predictor : ALM.Blind M.predictor
  predictorGuess : ALM.Blind M.predictorGuess
  quasiPredictor : ALM.Blind M.quasiPredictor
  quasiIteration : ALM.Blind M.quasiIteration
  iteration : ALM.Blind M.iteration
  iterationFinish : ALM.Blind M.iterationFinish
  /-- The increment starts from zero. -/
  start : ∀ U, Tri (fun s => s.U = U) M.initiateStep fun s => s.U + s.DU = U
  first : ∀ U, Tri (fun s => s.U + s.DU = U) M.predictor fun s => Ready e s ∧ Tangent e U s
  guess : ∀ U, Tri (fun s => s.U + s.DU = U) M.predictorGuess fun s => Ready e s ∧ Tangent e U s
  ready_quasiPredictor : Tri (fun _ => True) M.quasiPredictor (Ready e)
  ready_quasiIteration : Tri (fun _ => True) M.quasiIteration (Ready e)
  keeps_iteration : Keeps system M.iteration
  keeps_finish : Keeps system M.iterationFinish

theorem tri_assemble' (he : Steady e) : Tri (fun _ => True) (assembleFactorize e) (Ready e) := by
  intro s t a _ h
  exact (tri_assemble he (P := fun u => u = s) (U := s.U + s.DU) (by rintro _ rfl; rfl) s t a rfl h).1

theorem tri_ready {m : Act (St K V Mat Fac) α} (h : Keeps system m) : Tri (Ready e) m (Ready e) :=
  Tri.keeps (p := Matched e) h

theorem quasiUt (he : Steady e) :
    Blind (quasiPredictorUt e) ∧ Blind (quasiIterationUt e) ∧
      Tri (fun _ => True) (quasiPredictorUt e) (Ready e) ∧ Tri (fun _ => True) (quasiIterationUt e) (Ready e) :=
  ⟨.bind (.assembleFactorize he) fun _ => .bind (.computeUt he) fun _ => .computeUbar he,
    .bind (.assembleFactorize he) fun _ => .computeUt he,
    .bind (tri_assemble' he) fun _ => .bind (tri_ready keeps_Ut) fun _ => tri_ready keeps_Ubar,
    .bind (tri_assemble' he) fun _ => tri_ready keeps_Ut⟩

theorem blind_accept : Blind (acceptStep : Act (St K V Mat Fac) Unit) := .modify fun _ => rfl

theorem keeps_accept : Keeps system (acceptStep : Act (St K V Mat Fac) Unit) := .modify fun _ => rfl

theorem start_zero (U : V) :
    Tri (fun s => s.U = U) (zeroIncrements : Act (St K V Mat Fac) Unit) fun s => s.U + s.DU = U :=
  .modify fun s hs => by simpa using hs

theorem blind_unitTangent (he : Steady e) : Blind (unitTangent e) :=
  .bind (.computeUt he) fun _ => .modify fun _ => rfl

theorem keeps_unitTangent : Keeps system (unitTangent e) := .bind keeps_Ut fun _ => .modify fun _ => rfl

theorem loadControl_blind (he : Steady e) : (loadControl e).Blind e where
  initiateStep := .modify fun _ => rfl
  predictor := .bind (.assembleFactorize he) fun _ => .bind (.modify fun _ => rfl) fun _ =>
    .bind (.computeUt he) fun _ => .modify fun _ => rfl
  predictorGuess := .bind (.assembleFactorize he) fun _ => .bind (.modify fun _ => rfl) fun _ =>
    .bind (.computeUt he) fun _ => .modify fun _ => rfl
  quasiPredictor := .bind (.assembleFactorize he) fun _ => .computeUbar he
  quasiIteration := .assembleFactorize he
  iteration := .bind (.computeUbar he) fun _ => .modify fun _ => rfl
  iterationFinish := blind_accept
  start := start_zero
  first _ := by
    refine .bind (tri_assemble he fun _ => id) fun _ => keeps_ready ?_ _
    exact .bind (.modify fun _ => rfl) fun _ =>
    .bind keeps_Ut fun _ => .modify fun _ => rfl
  guess _ := by
    refine .bind (tri_assemble he fun _ => id) fun _ => keeps_ready ?_ _
    exact .bind (.modify fun _ => rfl) fun _ =>
    .bind keeps_Ut fun _ => .modify fun _ => rfl
  ready_quasiPredictor := .bind (tri_assemble' he) fun _ => tri_ready keeps_Ubar
  ready_quasiIteration := tri_assemble' he
  keeps_iteration := .bind keeps_Ubar fun _ => .modify fun _ => rfl
  keeps_finish := keeps_accept

theorem riks_blind (he : Steady e) : (riks e).Blind e where
  initiateStep := .modify fun _ => rfl
  predictor := .bind (.assembleFactorize he) fun _ => .bind (.modify fun _ => rfl) fun _ =>
    .getBind (fun _ => rfl) fun _ => .bind (.ite (blind_unitTangent he) (.modify fun _ => rfl)) fun _ =>
      .bind (.modify fun _ => rfl) fun _ => .modify fun _ => rfl
  predictorGuess := .bind (.assembleFactorize he) fun _ => .bind (.computeUt he) fun _ =>
    .getBind (fun _ => rfl) fun _ => .bind (.ite (blind_unitTangent he) (.modify fun _ => rfl)) fun _ =>
      .bind (.modify fun _ => rfl) fun _ => .modify fun _ => rfl
  quasiPredictor := (quasiUt he).1
  quasiIteration := (quasiUt he).2.1
  iteration := .bind (.computeUbar he) fun _ => .bind (.modify fun _ => rfl) fun _ => .modify fun _ => rfl
  iterationFinish := blind_accept
  start := start_zero
  first _ := by
    refine .bind (tri_assemble he fun _ => id) fun _ => keeps_ready ?_ _
    exact .bind (.modify fun _ => rfl) fun _ =>
    .bind .get fun _ => .bind (.ite keeps_unitTangent (.modify fun _ => rfl)) fun _ =>
      .bind (.modify fun _ => rfl) fun _ => .modify fun _ => rfl
  guess _ := by
    refine .bind (tri_assemble he fun _ => id) fun _ => keeps_ready ?_ _
    exact .bind keeps_Ut fun _ =>
    .bind .get fun _ => .bind (.ite keeps_unitTangent (.modify fun _ => rfl)) fun _ =>
      .bind (.modify fun _ => rfl) fun _ => .modify fun _ => rfl
  ready_quasiPredictor := (quasiUt he).2.2.1
  ready_quasiIteration := (quasiUt he).2.2.2
  keeps_iteration := .bind keeps_Ubar fun _ => .bind (.modify fun _ => rfl) fun _ => .modify fun _ => rfl
  keeps_finish := keeps_accept

theorem ccPredict_blind (he : Steady e) {target : St K V Mat Fac → (V × K) × (V × K)}
    (h : ∀ s, target (forget s) = target s) : Blind (ccPredict e o target) :=
  .bind (.assembleFactorize he) fun _ => .getBind (fun s => by rw [h s]) fun _ =>
    .bind (.ite (blind_unitTangent he) (.modify fun _ => rfl)) fun _ => .bind (.modify fun _ => rfl) fun _ =>
      .bind (.modify fun _ => rfl) fun _ => .modify fun _ => rfl

theorem ccPredict_ready (he : Steady e) (target : St K V Mat Fac → (V × K) × (V × K)) (U : V) :
    Tri (fun s => s.U + s.DU = U) (ccPredict e o target) fun s => Ready e s ∧ Tangent e U s :=
  by
  refine .bind (tri_assemble he fun _ => id) fun _ => keeps_ready ?_ _
  exact .bind .get fun _ => .bind (.ite keeps_unitTangent (.modify fun _ => rfl)) fun _ =>
    .bind (.modify fun _ => rfl) fun _ => .bind (.modify fun _ => rfl) fun _ => .modify fun _ => rfl

theorem consistent_blind (he : Steady e) : (consistentCrisfield e o).Blind e where
  initiateStep := .modify fun _ => rfl
  predictor := ccPredict_blind he fun _ => rfl
  predictorGuess := ccPredict_blind he fun _ => rfl
  quasiPredictor := (quasiUt he).1
  quasiIteration := (quasiUt he).2.1
  iteration := .bind (.computeUbar he) fun _ => .bind (.modify fun _ => rfl) fun _ => .modify fun _ => rfl
  iterationFinish := .bind blind_accept fun _ => .modify fun _ => rfl
  start := start_zero
  first := ccPredict_ready he _
  guess := ccPredict_ready he _
  ready_quasiPredictor := (quasiUt he).2.2.1
  ready_quasiIteration := (quasiUt he).2.2.2
  keeps_iteration := .bind keeps_Ubar fun _ => .bind (.modify fun _ => rfl) fun _ => .modify fun _ => rfl
  keeps_finish := .bind keeps_accept fun _ => .modify fun _ => rfl

theorem blind_storeOld (p : Prop) [Decidable p] :
    Blind (Act.modify fun s : St K V Mat Fac => if p then { s with DUold := s.DU, DLold := s.DL } else s) := by
  by_cases hp : p <;> simp only [hp, if_true, if_false] <;> exact .modify fun _ => rfl

theorem keeps_storeOld (p : Prop) [Decidable p] :
    Keeps system (Act.modify fun s : St K V Mat Fac => if p then { s with DUold := s.DU, DLold := s.DL } else s) := by
  by_cases hp : p <;> simp only [hp, if_true, if_false] <;> exact .modify fun _ => rfl

theorem blind_lambdas : Blind (computeLambdas e) := by
  unfold computeLambdas
  refine .getBind (fun _ => rfl) fun s => .ite ?_ ?_
  · exact .bind (.modify fun _ => rfl) fun _ => .bind (.emit _) fun _ => .ret _
  · exact .ite (.bind (.modify fun _ => rfl) fun _ => .bind (.emit _) fun _ => .ret _)
      (.bind (.modify fun _ => rfl) fun _ => .bind (.emit _) fun _ => .ret _)

theorem keeps_lambdas : Keeps system (computeLambdas e) := by
  unfold computeLambdas
  refine .bind .get fun s => .ite ?_ ?_
  · exact .bind (.modify fun _ => rfl) fun _ => .bind (.modify fun _ => rfl) fun _ => .ret _
  · exact .ite (.bind (.modify fun _ => rfl) fun _ => .bind (.modify fun _ => rfl) fun _ => .ret _)
      (.bind (.modify fun _ => rfl) fun _ => .bind (.modify fun _ => rfl) fun _ => .ret _)

theorem crisfield_blind (he : Steady e) : (crisfield e o).Blind e where
  initiateStep := .modify fun _ => rfl
  predictor := .bind (.assembleFactorize he) fun _ => .bind (.computeUt he) fun _ => .getBind (fun _ => rfl) fun _ =>
    .bind (.ite (.modify fun _ => rfl) (.bind (.modify fun _ => rfl) fun _ => .modify fun _ => rfl)) fun _ =>
      .bind (.modify fun _ => rfl) fun _ => blind_storeOld _
  predictorGuess := .bind (.assembleFactorize he) fun _ => .bind (.computeUt he) fun _ =>
    .bind (.modify fun _ => rfl) fun _ => .bind (.modify fun _ => rfl) fun _ => .bind (.modify fun _ => rfl) fun _ =>
      .modify fun _ => rfl
  quasiPredictor := (quasiUt he).1
  quasiIteration := (quasiUt he).2.1
  iteration := by
    refine .bind (.computeUbar he) fun _ => .getBind (fun _ => rfl) fun s => .bind blind_lambdas fun eta =>
      .bind (.modify fun t => ?_) fun _ => .bind (.modify fun _ => rfl) fun _ => blind_storeOld _
    by_cases h : s.dL * t.dL < 0 ∧ |t.dL| ≤ |s.dL| ∧ o.relax ≠ 1
    · rw [if_pos h, if_pos (show s.dL * (forget t).dL < 0 ∧ |(forget t).dL| ≤ |s.dL| ∧ o.relax ≠ 1 from h)]
      rfl
    · rw [if_neg h, if_neg (show ¬(s.dL * (forget t).dL < 0 ∧ |(forget t).dL| ≤ |s.dL| ∧ o.relax ≠ 1) from h)]
      rfl
  iterationFinish := .bind blind_accept fun _ => blind_storeOld _
  start _ := .modify fun s hs => by simpa using hs
  first _ := by
    refine .bind (tri_assemble he fun _ => id) fun _ => keeps_ready ?_ _
    exact .bind keeps_Ut fun _ => .bind .get fun _ =>
    .bind (.ite (.modify fun _ => rfl) (.bind (.modify fun _ => rfl) fun _ => .modify fun _ => rfl)) fun _ =>
      .bind (.modify fun _ => rfl) fun _ => keeps_storeOld _
  guess _ := by
    refine .bind (tri_assemble he fun _ => id) fun _ => keeps_ready ?_ _
    exact .bind keeps_Ut fun _ =>
    .bind (.modify fun _ => rfl) fun _ => .bind (.modify fun _ => rfl) fun _ => .bind (.modify fun _ => rfl) fun _ =>
      .modify fun _ => rfl
  ready_quasiPredictor := (quasiUt he).2.2.1
  ready_quasiIteration := (quasiUt he).2.2.2
  keeps_iteration := by
    refine .bind keeps_Ubar fun _ => .bind .get fun s => .bind keeps_lambdas fun eta =>
      .bind (.modify fun t => ?_) fun _ => .bind (.modify fun _ => rfl) fun _ => keeps_storeOld _
    split <;> rfl
  keeps_finish := .bind keeps_accept fun _ => keeps_storeOld _

theorem Kind.blind (he : Steady e) (k : Kind) : (k.method e o).Blind e := by
  cases k
  · exact loadControl_blind he
  · exact riks_blind he
  · exact consistent_blind he
  · exact crisfield_blind he

end GsSA.ALM
