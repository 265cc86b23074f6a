import Verif.ALM.Restart
import Verif.ALM.Singular
import Verif.Driver.ParallelProps
import Verif.Driver.SolveProps
import Verif.Driver.StepsProps
import Verif.MPI.Guarded

/-!
# The jobs of the parallel method, done by the arc-length methods

`_initiation` and `_correction` (`src/gsALMSolvers/gsAPALM.hpp` 934-1165) with the arc-length methods of the model
in place of an arbitrary solver.
-/

namespace GsSA.ALM

open GsSA APALM MPI

set_option linter.unusedSectionVars false

variable {K V Mat Fac : Type} [Field K] [LinearOrder K] [IsStrictOrderedRing K] [AddCommGroup V] [Module K V]

/-- `distance`: `gsALMRiks.h` 81-84, `gsALMCrisfield.h` 79-83; the other methods inherit `gsALMBase.h` 211-214,
`GISMO_NO_IMPLEMENTATION`, which throws. -/
def Kind.distance (e : Env K V Mat Fac) (s : St K V Mat Fac) (DU : V) (DL : K) : Kind → Option K
  | .loadControl => none
  | .riks => some (rkDistance e s DU DL)
  | .consistent => none
  | .crisfield => some (crDistance e s DU DL)

/-- `gsAPALM.hpp` 983-996 with `m_singularPoint`: was a bifurcation found? -/
def detect (e : Env K V Mat Fac) (o : Opts K) (M : Method K V Mat Fac) (U : V) (L : K) : Act (St K V Mat Fac) Bool := do
  let _ ← computeStability e o o.quasi (-100)
  let s ← Act.get
  if stabilityChange s then do
    let b ← testSingularPoint e o false
    if b then do
      let _ ← computeSingularPoint e o M U L false false false
      pure true
    else pure false
  else pure false

/-- The arc-length object of a worker; `sp` is `m_singularPoint`. Where `distance` is not implemented the value 0
stands for the exception, which is not modelled, nor is one in `detect`. -/
def worker (e : Env K V Mat Fac) (o : Opts K) (k : Kind) (sp : Bool) : Solver (St K V Mat Fac) K (V × K) where
  setLength s l := (setLength l s).1
  setSolution s x := (setSolution x.1 x.2 s).1
  setPrevious s x := (setPrevious x.1 x.2 s).1
  step s := ((step e o (k.method e o) s).1.status, (step e o (k.method e o) s).1)
  sol s := (s.U, s.L)
  dist s x y := (k.distance e s (x.1 - y.1) (x.2 - y.2)).getD 0
  singular s x :=
    if sp then
      match detect e o (k.method e o) x.1 x.2 s with
      | (t, .ok b) => (b, t)
      | (t, .error _) => (false, t)
    else (false, s)
  switchBranch s := (switchBranch e o s).1

variable {e : Env K V Mat Fac} {o : Opts K}

/-- The status returned by `step()` is also stored. -/
theorem step_status (k : Kind) (s : St K V Mat Fac) :
    (step e o (k.method e o) s).2 = .ok (step e o (k.method e o) s).1.status := by
  rcases step_cases (k.isMethod e o).lawful s with ⟨u, -, -, h⟩ | ⟨u, x, -, -, h⟩ <;> rw [h]

/-- The objects of the model satisfy what the results on the jobs (C17, C18, C45, C72) assume. -/
theorem worker_lawful (k : Kind) (sp : Bool) : Lawful (worker e o k sp) (fun s => s.len) :=
  ⟨fun _ _ => rfl, fun _ _ => rfl, fun _ _ => rfl, fun _ _ => rfl, fun _ _ => rfl, fun _ _ => rfl⟩

/-! ### What a step never changes -/

/-- Members which are settings: initialised, adaptive length, `phi` if the user has given it. -/
def settings (o : Opts K) (k : Kind) (s : St K V Mat Fac) : Bool × Bool × K :=
  (s.initialized, s.adaptive, match k with
    | .loadControl => 0
    | .riks => 0
    | .consistent => if o.phiUser then s.phi else 0
    | .crisfield => if o.phiUser then s.phi else 0)

theorem framed_settings (k : Kind) : Framed (settings o k : St K V Mat Fac → _) := by
  constructor <;> intros <;> rfl

theorem keeps_settings_tangent (k : Kind) : Keeps (settings o k) (unitTangent e) :=
  .bind ((framed_settings k).computeUt fun _ _ => rfl) fun _ => .modify fun _ => rfl

/-- The parts of a method keep a quantity. -/
structure Method.Keeps {β : Type} (M : Method K V Mat Fac) (f : St K V Mat Fac → β) : Prop where
  initiateStep : ALM.Keeps f M.initiateStep
  predictor : ALM.Keeps f M.predictor
  predictorGuess : ALM.Keeps f M.predictorGuess
  quasiPredictor : ALM.Keeps f M.quasiPredictor
  quasiIteration : ALM.Keeps f M.quasiIteration
  iteration : ALM.Keeps f M.iteration
  iterationFinish : ALM.Keeps f M.iterationFinish

theorem keeps_settings_ccPredict (t : St K V Mat Fac → (V × K) × (V × K)) :
    Keeps (settings o .consistent) (ccPredict e o t) := by
  have hf := framed_settings (Mat := Mat) (Fac := Fac) (V := V) (o := o) .consistent
  refine .bind hf.assembleFactorize fun _ => .bind Keeps.get fun _ =>
    .bind (.ite (keeps_settings_tangent _) (.modify fun _ => rfl)) fun _ => .bind (.modify fun s => ?_) fun _ =>
      .bind (.modify fun _ => rfl) fun _ => .modify fun _ => rfl
  cases hu : o.phiUser <;> simp [settings, tangentPhi, hu]

theorem keeps_settings_store (k : Kind) (p : Prop) [Decidable p] : Keeps (settings o k)
    (Act.modify fun s : St K V Mat Fac => if p then { s with DUold := s.DU, DLold := s.DL } else s) :=
  .modify fun s => by split <;> rfl

theorem Kind.keeps_settings (k : Kind) : (k.method e o).Keeps (settings o k) := by
  have hf := framed_settings (Mat := Mat) (Fac := Fac) (V := V) (o := o) k
  have hut := hf.computeUt (e := e) fun _ _ => rfl
  have hst := fun (p : Prop) (i : Decidable p) => keeps_settings_store (Mat := Mat) (Fac := Fac) (V := V) (o := o) k p
  cases k
  · have hp : ∀ f, Keeps (settings o .loadControl) (lcPredict e f) := fun f =>
      .bind hf.assembleFactorize fun _ => .bind (.modify fun _ => rfl) fun _ => .bind hut fun _ =>
        .modify fun _ => rfl
    refine ⟨.modify fun _ => rfl, hp _, hp _, ?_, hf.assembleFactorize, ?_, .modify fun _ => rfl⟩
    · exact .bind hf.assembleFactorize fun _ => hf.computeUbar
    · exact .bind hf.computeUbar fun _ => .modify fun _ => rfl
  · refine ⟨.modify fun _ => rfl, ?_, ?_, hf.quasiPredictorUt fun _ _ => rfl, hf.quasiIterationUt fun _ _ => rfl, ?_,
      .modify fun _ => rfl⟩
    · exact .bind hf.assembleFactorize fun _ => .bind (.modify fun _ => rfl) fun _ => .bind Keeps.get fun _ =>
        .bind (.ite (keeps_settings_tangent _) (.modify fun _ => rfl)) fun _ => .bind (.modify fun _ => rfl) fun _ =>
          .modify fun _ => rfl
    · exact .bind hf.assembleFactorize fun _ => .bind hut fun _ => .bind Keeps.get fun _ =>
        .bind (.ite (keeps_settings_tangent _) (.modify fun _ => rfl)) fun _ => .bind (.modify fun _ => rfl) fun _ =>
          .modify fun _ => rfl
    · exact .bind hf.computeUbar fun _ => .bind (.modify fun _ => rfl) fun _ => .modify fun _ => rfl
  · refine ⟨.modify fun _ => rfl, keeps_settings_ccPredict _, keeps_settings_ccPredict _,
      hf.quasiPredictorUt fun _ _ => rfl, hf.quasiIterationUt fun _ _ => rfl, ?_,
      .bind (.modify fun _ => rfl) fun _ => .modify fun _ => rfl⟩
    exact .bind hf.computeUbar fun _ => .bind (.modify fun _ => rfl) fun _ => .modify fun _ => rfl
  · refine ⟨.modify fun _ => rfl, ?_, ?_, hf.quasiPredictorUt fun _ _ => rfl, hf.quasiIterationUt fun _ _ => rfl, ?_,
      .bind (.modify fun _ => rfl) fun _ => hst _ _⟩
    · refine .bind hf.assembleFactorize fun _ => .bind hut fun _ => .bind Keeps.get fun _ =>
        .bind (.ite (.modify fun s => ?_) (.bind (.modify fun s => ?_) fun _ => .modify fun _ => rfl)) fun _ =>
          .bind (.modify fun _ => rfl) fun _ => hst _ _
      · cases hu : o.phiUser <;> simp [settings, tangentPhi, hu]
      · cases hu : o.phiUser <;> simp [settings, hu]
    · refine .bind hf.assembleFactorize fun _ => .bind hut fun _ => .bind (.modify fun s => ?_) fun _ =>
        .bind (.modify fun _ => rfl) fun _ => .bind (.modify fun _ => rfl) fun _ => .modify fun _ => rfl
      cases hu : o.phiUser <;> simp [settings, tangentPhi, hu]
    · have hd : ∀ eta x1 x2, Keeps (settings o .crisfield) (lambdaDOT e eta x1 x2) := fun _ _ _ => .modify fun _ => rfl
      have he : ∀ x, Keeps (settings o .crisfield) (emit x : Act (St K V Mat Fac) Unit) := fun _ => .modify fun _ => rfl
      refine .bind hf.computeUbar fun _ => .bind Keeps.get fun s => .bind ?_ fun eta => .bind (.modify fun t => ?_)
        fun _ => .bind (.modify fun _ => rfl) fun _ => hst _ _
      · refine .bind Keeps.get fun s => .ite ?_ (.ite ?_ ?_)
        · exact .bind (hd _ _ _) fun _ => .bind (he _) fun _ => Keeps.ret _
        · exact .bind (hd _ _ _) fun _ => .bind (he _) fun _ => Keeps.ret _
        · exact .bind (.modify fun _ => rfl) fun _ => .bind (he _) fun _ => Keeps.ret _
      · split <;> rfl

/-- What the parts of a method keep and what is not touched by the common parts, a step keeps. -/
theorem Method.Keeps.step {β : Type} {M : Method K V Mat Fac} {f : St K V Mat Fac → β} (hM : M.Keeps f)
    (hf : Framed f) (hrun : ∀ s c n, f { s with converged := c, numIt := n } = f s)
    (hprev : ∀ s p n, f { s with stabilityPrev := p, numIt := n } = f s)
    (hlen : ∀ s l p, f { s with len := l, lenPrev := p } = f s)
    (hlog : ∀ s x, f { s with log := x :: s.log } = f s) : ALM.Keeps f (step e o M) := by
  have hit : ∀ n, ALM.Keeps f (iterate e o M n) := by
    intro n
    induction n with
    | zero => exact Keeps.ret _
    | succ n ih =>
      rw [ALM.iterate]
      refine .bind ?_ fun _ => .bind Keeps.get fun s => .ite ?_ (.ite ?_ ?_)
      · exact .bind Keeps.get fun s => .bind (.ite hM.quasiIteration (Keeps.ret _)) fun _ => .bind hM.iteration fun _ =>
          .bind (hf.computeStability _ _) fun _ => .bind hf.computeResidual fun _ => hf.computeResidualNorms
      · refine .bind hM.iterationFinish fun _ => .bind Keeps.get fun s => .ite ?_ (.modify fun s => hlen s s.len s.len)
        exact .bind Keeps.get fun s => .ite (Keeps.throw _) (.modify fun s => hlen s _ _)
      · exact .bind (.modify fun s => hlog s _) fun _ => Keeps.throw _
      · exact .bind (.modify fun s => hrun s s.converged _) fun _ => ih
  have hraw : ALM.Keeps f (stepRaw e o M) := by
    refine .bind ?_ fun _ => .bind hf.computeResidual fun _ => .bind hf.computeResidualNorms fun _ =>
      .bind (.ite hM.quasiPredictor (Keeps.ret _)) fun _ => .bind (.modify fun s => hprev s _ _) fun _ => hit _
    refine .bind Keeps.get fun s => .bind (.ite ?_ (Keeps.ret _)) fun _ => .bind (.modify fun s => hrun s _ _) fun _ =>
      .bind hM.initiateStep fun _ => .bind Keeps.get fun _ => .ite hM.predictorGuess hM.predictor
    exact .bind (.modify fun s => hlog s _) fun _ => Keeps.throw _
  exact hf.caught hraw _

theorem keeps_settings (k : Kind) : Keeps (settings o k) (step e o (k.method e o)) :=
  (k.keeps_settings).step (framed_settings k) (fun _ _ _ => rfl) (fun _ _ _ => rfl) (fun _ _ _ => rfl) fun _ _ => rfl

end GsSA.ALM
