import Verif.ALM.VerboseStep

/-!
# The singular point computation with output follows the one without
-/

namespace GsSA.ALM

set_option linter.unusedSectionVars false

variable {K V Mat Fac : Type} [Field K] [LinearOrder K] [IsStrictOrderedRing K] [AddCommGroup V] [Module K V]
variable {e : Env K V Mat Fac} {o : Opts K} {α β : Type}

/-! ## The status is kept -/

/-- `m_status`. -/
def stat (s : St K V Mat Fac) : Status := s.status

theorem stat_emit (x : Event) : Keeps stat (emit x : Act (St K V Mat Fac) Unit) := .modify fun _ => rfl

theorem stat_evalResidual (U : V) (L : K) : Keeps stat (evalResidual e U L) := by
  unfold evalResidual
  refine .bind .get fun s => ?_
  split
  · exact .bind (stat_emit _) fun _ => .ret _
  · exact .bind (stat_emit _) fun _ => .throw _

theorem stat_factorize (m : Mat) : Keeps stat (factorizeMatrix e m) := by
  unfold factorizeMatrix
  refine .bind .get fun s => ?_
  split
  · exact .bind (.modify fun _ => rfl) fun _ => stat_emit _
  · exact .bind (.modify fun _ => rfl) fun _ => .bind (stat_emit _) fun _ => .throw _

theorem stat_solve (b : V) : Keeps stat (solveSystem e b) := by
  unfold solveSystem
  refine .bind .get fun s => ?_
  split
  · exact .bind (stat_emit _) fun _ => .ret _
  · exact .bind (stat_emit _) fun _ => .throw _

theorem stat_jacobian (U dU : V) : Keeps stat (computeJacobianAt e U dU) := by
  unfold computeJacobianAt
  refine .bind .get fun s => ?_
  split
  · exact .bind (stat_emit _) fun _ => .bind (stat_factorize _) fun _ => .ret _
  · exact .bind (stat_emit _) fun _ => .throw _

theorem stat_refactorize (U dU : V) : Keeps stat (refactorize e U dU) :=
  .bind (stat_jacobian _ _) fun _ => .bind (.modify fun _ => rfl) fun _ => stat_factorize _

theorem stat_norms : Keeps stat (computeResidualNorms e) := by
  refine .modify fun s => ?_
  split <;> rfl

theorem stat_stability (x : V) (j : Bool) (shift : K) : Keeps stat (computeStabilityRaw e o x j shift) := by
  unfold computeStabilityRaw
  refine .bind (.ite (stat_refactorize x 0) (.ret _)) fun _ => .bind ?_ fun _ => .bind .get fun s => ?_
  · unfold stabilityVector
    refine .bind .get fun s => ?_
    cases o.bifMethod with
    | determinant => exact .bind (stat_factorize _) fun _ => .modify fun _ => rfl
    | eigenvalue =>
      simp only
      split
      · exact .bind (stat_emit _) fun _ => .modify fun _ => rfl
      · exact .bind (stat_emit _) fun _ => .throw _
    | nothing => exact .modify fun _ => rfl
    | other => exact .ret _
  · split
    · exact .throw _
    · exact .modify fun _ => rfl

theorem stat_objective (x : V) (j : Bool) : Keeps stat (objective e o x j) :=
  .bind (stat_stability _ _ _) fun _ => .bind .get fun _ => .ret _

theorem stat_termination (x : V) (j : Bool) : Keeps stat (termination e o x j) :=
  .bind (stat_stability _ _ _) fun _ => .bind .get fun _ => .ret _

theorem stat_extendedBody : Keeps stat (extendedBody e) := by
  unfold extendedBody extendedIteration
  refine .bind ?_ fun _ => ?_
  · refine .bind .get fun _ => .bind (stat_evalResidual _ _) fun _ => .bind (.modify fun _ => rfl) fun _ =>
      .bind (stat_refactorize _ _) fun _ => .bind (stat_solve _) fun _ => .bind (.modify fun _ => rfl) fun _ =>
      .bind (stat_solve _) fun _ => .bind (.modify fun _ => rfl) fun _ => .bind (stat_jacobian _ _) fun _ =>
      .bind .get fun _ => .bind (stat_factorize _) fun _ => .bind (stat_solve _) fun _ => .bind (stat_solve _) fun _ =>
      .modify fun _ => rfl
  · refine .bind (.modify fun _ => rfl) fun _ => .bind .get fun _ => .bind (stat_refactorize _ _) fun _ =>
      .bind (.modify fun _ => rfl) fun _ => .bind .get fun _ => .bind (stat_evalResidual _ _) fun _ =>
      .bind (.modify fun _ => rfl) fun _ => stat_norms

theorem stat_power (c : Bool) (n : ℕ) (v : V) : Keeps stat (bisectionPower e o c n v) := by
  induction n generalizing v with
  | zero => exact .ret _
  | succ n ih =>
    unfold bisectionPower
    exact .bind .get fun _ => .bind (stat_factorize _) fun _ => .bind (stat_solve _) fun _ =>
      .bind (.modify fun _ => rfl) fun _ => .bind .get fun _ => .ite (.ret _) (ih _)

theorem stat_powerSteps (n : ℕ) : Keeps stat (powerSteps e n) := by
  induction n with
  | zero => exact .ret _
  | succ n ih =>
    unfold powerSteps
    exact .bind .get fun _ => .bind (stat_solve _) fun _ => .bind (.modify fun _ => rfl) fun _ => ih

theorem stat_test (j : Bool) : Keeps stat (testSingularPoint e o j) := by
  unfold testSingularPoint
  exact .bind .get fun _ => .bind (.ite (stat_refactorize _ _) (.ret _)) fun _ => .bind (.modify fun _ => rfl) fun _ =>
    .bind .get fun _ => .bind (stat_factorize _) fun _ => .bind (stat_powerSteps _) fun _ => .bind .get fun _ => .ret _

/-! ## Nothing forgotten is read -/

theorem stabilityVector_twin (he : Steady e) (hb : o.bifMethod ≠ .other) (shift : K) {s t : St K V Mat Fac}
    (hst : forget s = forget t) (h : (stabilityVector e o shift s).2 = .ok ()) :
    (stabilityVector e o shift s).1.stabVec = (stabilityVector e o shift t).1.stabVec := by
  have hj : s.jac = t.jac := congrArg Prod.fst (forget_system hst)
  unfold stabilityVector at h ⊢
  rw [Act.bind_ok (Act.get_apply s)] at h ⊢
  rw [Act.bind_ok (Act.get_apply t)]
  cases hm : o.bifMethod with
  | determinant =>
    rw [hm] at h
    simp only at h ⊢
    rcases hr : factorizeMatrix e s.jac s with ⟨u, x | ⟨⟩⟩
    · rw [Act.bind_error hr] at h
      cases h
    · obtain ⟨f, hf, -⟩ := factorizeMatrix_steady_inv he hr
      rw [Act.bind_ok (factorizeMatrix_steady he hf s), Act.bind_ok (factorizeMatrix_steady he (hj ▸ hf) t)]
      rfl
  | eigenvalue =>
    rw [hm] at h
    simp only at h ⊢
    rw [he.eigs _ 0] at h ⊢
    rw [he.eigs t.log.length 0, ← hj]
    cases hg : e.eigs 0 s.jac shift with
    | none => rw [hg] at h; cases h
    | some l => rfl
  | nothing => rfl
  | other => exact absurd hm hb

theorem rawStability_twin (he : Steady e) (hb : o.bifMethod ≠ .other) (x : V) (j : Bool) (shift : K)
    {s t : St K V Mat Fac} (hst : forget s = forget t) :
    (computeStabilityRaw e o x j shift s).2 = (computeStabilityRaw e o x j shift t).2 ∧
      forget (computeStabilityRaw e o x j shift s).1 = forget (computeStabilityRaw e o x j shift t).1 ∧
      ∀ a, (computeStabilityRaw e o x j shift s).2 = .ok a →
        results (computeStabilityRaw e o x j shift s).1 = results (computeStabilityRaw e o x j shift t).1 := by
  have hj : Blind (if j then reassemble e x else pure ()) := .ite (.refactorize he x 0) (.ret _)
  unfold computeStabilityRaw
  obtain ⟨h1, h2⟩ := hj s t hst
  rcases hs : (if j then reassemble e x else pure () : Act _ Unit) s with ⟨s1, y | ⟨⟩⟩ <;>
    rcases ht : (if j then reassemble e x else pure () : Act _ Unit) t with ⟨t1, z | ⟨⟩⟩ <;>
    simp only [hs, ht] at h1 h2
  · cases h1
    rw [Act.bind_error hs, Act.bind_error ht]
    exact ⟨rfl, h2, fun _ h => by cases h⟩
  · cases h1
  · cases h1
  · rw [Act.bind_ok hs, Act.bind_ok ht]
    obtain ⟨h3, h4⟩ := Blind.stabilityVector (o := o) he shift s1 t1 h2
    have h5 := stabilityVector_twin he hb shift h2
    rcases hs' : stabilityVector e o shift s1 with ⟨s2, y | ⟨⟩⟩ <;>
      rcases ht' : stabilityVector e o shift t1 with ⟨t2, z | ⟨⟩⟩ <;> simp only [hs', ht'] at h3 h4 h5
    · cases h3
      rw [Act.bind_error hs', Act.bind_error ht']
      exact ⟨rfl, h4, fun _ h => by cases h⟩
    · cases h3
    · cases h3
    · rw [Act.bind_ok hs', Act.bind_ok ht', Act.bind_ok (Act.get_apply _), Act.bind_ok (Act.get_apply _)]
      have h6 := h5 trivial
      rw [h6]
      cases minCoeff t2.stabVec with
      | none => exact ⟨rfl, h4, fun _ h => by cases h⟩
      | some m =>
        refine ⟨rfl, h4, fun _ _ => ?_⟩
        show (s2.stabVec, countNegatives s2.stabVec, m, stabilityOf m) = _
        rw [h6]
        rfl

/-- A number that the stability computation yields. -/
theorem blind_value (he : Steady e) (hb : o.bifMethod ≠ .other) (x : V) (j : Bool) {g : St K V Mat Fac → α}
    (hg : ∀ s t, results s = results t → g s = g t) :
    Blind (computeStabilityRaw e o x j (-100) >>= fun _ => Act.get >>= fun s => pure (g s)) := by
  intro s t hst
  obtain ⟨h1, h2, h3⟩ := rawStability_twin he hb x j (-100) hst
  rcases hs : computeStabilityRaw e o x j (-100) s with ⟨s1, y | ⟨⟩⟩ <;>
    rcases ht : computeStabilityRaw e o x j (-100) t with ⟨t1, z | ⟨⟩⟩ <;> simp only [hs, ht] at h1 h2 h3
  · cases h1
    rw [Act.bind_error hs, Act.bind_error ht]
    exact ⟨rfl, h2⟩
  · cases h1
  · cases h1
  · rw [Act.bind_ok hs, Act.bind_ok ht]
    refine ⟨?_, h2⟩
    show Except.ok (g s1) = .ok (g t1)
    rw [hg _ _ (h3 () trivial)]

theorem blind_objective (he : Steady e) (hb : o.bifMethod ≠ .other) (x : V) (j : Bool) : Blind (objective e o x j) :=
  blind_value he hb x j (g := fun s => s.negatives) fun _ _ h => congrArg (fun r => r.2.1) h

theorem blind_termination (he : Steady e) (hb : o.bifMethod ≠ .other) (x : V) (j : Bool) :
    Blind (termination e o x j) :=
  blind_value he hb x j (g := fun s => s.indicator) fun _ _ h => congrArg (fun r => r.2.2.1) h

theorem blind_extendedBody (he : Steady e) : Blind (extendedBody e) := by
  unfold extendedBody extendedIteration
  refine .bind ?_ fun _ => ?_
  · refine .getBind (fun _ => rfl) fun _ => .bind (.evalResidual he _ _) fun _ => .bind (.modify fun _ => rfl) fun _ =>
      .bind (.refactorize he _ _) fun _ => .bind (.solveSystem he _) fun _ => .bind (.modify fun _ => rfl) fun _ =>
      .bind (.solveSystem he _) fun _ => .bind (.modify fun _ => rfl) fun _ =>
      .bind (.computeJacobianAt he _ _) fun _ => .getBind (fun _ => rfl) fun _ =>
      .bind (.factorizeMatrix he _) fun _ => .bind (.solveSystem he _) fun _ => .bind (.solveSystem he _) fun _ =>
      .modify fun _ => rfl
  · refine .bind (.modify fun _ => rfl) fun _ => .getBind (fun _ => rfl) fun _ => .bind (.refactorize he _ _) fun _ =>
      .bind (.modify fun _ => rfl) fun _ => .getBind (fun _ => rfl) fun _ => .bind (.evalResidual he _ _) fun _ =>
      .bind (.modify fun _ => rfl) fun _ => .computeResidualNorms

theorem ready_extendedBody (he : Steady e) {P : St K V Mat Fac → Prop} : Tri P (extendedBody e) (Ready e) := by
  unfold extendedBody
  refine .bind (Q := fun _ => True) (fun _ _ _ _ _ => trivial) fun _ =>
    .bind (Q := fun _ => True) (.modify fun _ _ => trivial) fun _ => .getBind fun s => .bind (Q := Ready e) ?_ fun _ => ?_
  · exact (tri_refactorize he _ _).weaken (fun _ h => h) fun _ h => h.1
  · refine .bind (Q := Ready e) (.modify fun _ h => h) fun _ => .getBind fun s => .pre (P := Ready e) ?_ fun _ => And.left
    exact .bind (tri_ready (keeps_evalResidual _ _)) fun _ => .bind (Q := Ready e) (.modify fun _ h => h) fun _ =>
      tri_ready keeps_norms

theorem blind_power (he : Steady e) (c : Bool) (n : ℕ) (v : V) : Blind (bisectionPower e o c n v) := by
  induction n generalizing v with
  | zero => exact .ret _
  | succ n ih =>
    unfold bisectionPower
    exact .getBind (fun _ => rfl) fun _ => .bind (.factorizeMatrix he _) fun _ => .bind (.solveSystem he _) fun _ =>
      .bind (.modify fun _ => rfl) fun _ => .getBind (fun _ => rfl) fun _ => .ite (.ret _) (ih _)

theorem blind_powerSteps (he : Steady e) (n : ℕ) : Blind (powerSteps e n) := by
  induction n with
  | zero => exact .ret _
  | succ n ih =>
    unfold powerSteps
    exact .getBind (fun _ => rfl) fun _ => .bind (.solveSystem he _) fun _ => .bind (.modify fun _ => rfl) fun _ => ih

theorem blind_test (he : Steady e) (j : Bool) : Blind (testSingularPoint e o j) := by
  unfold testSingularPoint
  exact .getBind (fun _ => rfl) fun _ => .bind (.ite (.refactorize he _ _) (.ret _)) fun _ =>
    .bind (.modify fun _ => rfl) fun _ => .getBind (fun _ => rfl) fun _ => .bind (.factorizeMatrix he _) fun _ =>
    .bind (blind_powerSteps he _) fun _ => .getBind (fun _ => rfl) fun _ => .ret _

/-! ## The simulation -/

theorem Tri.any {P : St K V Mat Fac → Prop} (m : Act (St K V Mat Fac) α) : Tri P m fun _ => True :=
  fun _ _ _ _ _ => trivial

/-- An action that reads nothing forgotten and keeps the status. -/
theorem sim_quiet {P : St K V Mat Fac → Prop} {m : Act (St K V Mat Fac) α} (hm : Blind m) (hs : Keeps stat m) :
    Sim True P (quiet m) m fun _ => True := .quiet hm (fun _ => hs) (.any m)

theorem Computes.bifMethod (hc : Computes e o) {m : Mat} (hm : (e.factorize 0 m).isSome) : o.bifMethod ≠ .other := by
  intro h
  have := hc m hm
  unfold stabilityAt at this
  rw [h] at this
  cases this

theorem sim_extendedOutput (he : Steady e) (hc : Computes e o) :
    Sim True (Ready e) (extendedOutput e o) (pure ()) (Ready e) := by
  intro s t out hst hb hs
  obtain ⟨r, hr⟩ := hc.at hs
  obtain ⟨l, h⟩ := rawStability_ok he hs hr s.U
  have h' : termination e o s.U false s = ({ s with stabVec := r.1, negatives := r.2.1, indicator := r.2.2.1
                                                    stability := r.2.2.2, log := l }, .ok r.2.2.1) := by
    unfold termination
    rw [Act.bind_ok h]
    rfl
  have h3 : quiet (termination e o s.U false) (s, out ++ [.row (extendedRow e s)]) =
      (({ s with stabVec := r.1, negatives := r.2.1, indicator := r.2.2.1, stability := r.2.2.2, log := l },
        out ++ [.row (extendedRow e s)]), .ok r.2.2.1) := by
    unfold quiet
    simp only [h']
  have h2 : extendedOutput e o (s, out) =
      (({ s with stabVec := r.1, negatives := r.2.1, indicator := r.2.2.1, stability := r.2.2.2, log := l },
        out ++ [.row (extendedRow e s)] ++ [.row [.num r.2.2.1, .note]]), .ok ()) := by
    unfold extendedOutput
    rw [Act.bind_ok (by rfl : printLine _ (s, out) = ((s, out ++ [.row (extendedRow e s)]), .ok ())),
      Act.bind_ok (by rfl : quiet Act.get (s, _) = ((s, out ++ [.row (extendedRow e s)]), .ok s)),
      Act.bind_ok h3]
    rfl
  rw [h2]
  exact ⟨rfl, hst, fun _ _ => ⟨hb, hs⟩⟩

theorem sim_extendedLoop (he : Steady e) (hc : Computes e o) (v : Bool) (tol : K) (n : ℕ) {P : St K V Mat Fac → Prop} :
    Sim True P (extendedLoopV v e o tol n) (extendedLoop e o tol n) fun _ => True := by
  induction n generalizing P with
  | zero => exact (Sim.ret true).weaken (fun _ h => h) fun _ _ => trivial
  | succ n ih =>
    unfold extendedLoopV extendedLoop
    refine .bind (.quiet (blind_extendedBody he) (fun _ => stat_extendedBody) (ready_extendedBody he)) fun _ => ?_
    refine .before (.choose v (sim_extendedOutput he hc)) ?_
    refine .getBind (fun _ => rfl) fun s => .ite ?_ (.ite ?_ ?_)
    · exact sim_quiet (.bind (.modify fun _ => rfl) fun _ => .ret _) (.bind (.modify fun _ => rfl) fun _ => .ret _)
    · exact sim_quiet (.bind (.ite (.modify fun _ => rfl) (.modify fun _ => rfl)) fun _ => .ret _)
        (.bind (.ite (.modify fun _ => rfl) (.modify fun _ => rfl)) fun _ => .ret _)
    · exact .bind (sim_quiet (.modify fun _ => rfl) (.modify fun _ => rfl)) fun _ => ih

theorem extendedSolve_eq (e : Env K V Mat Fac) (o : Opts K) (U : V) (L tol : K) :
    extendedSolve e o U L tol = (extendedStart e U L >>= fun _ => extendedLoop e o tol o.maxIt) := by
  refine Act.ext' fun s => ?_
  unfold extendedSolve extendedStart
  simp only [Act.bind_apply, Act.get_apply, Act.modify_apply]
  rcases refactorize e U s.dU { s with U := U, L := L } with ⟨t, x | ⟨⟩⟩ <;> rfl

theorem sim_extendedSolve (he : Steady e) (hc : Computes e o) (v : Bool) (U : V) (L tol : K)
    {P : St K V Mat Fac → Prop} :
    Sim True P (extendedSolveV v e o U L tol) (extendedSolve e o U L tol) fun _ => True := by
  rw [extendedSolve_eq]
  unfold extendedSolveV
  refine .bind (sim_quiet ?_ ?_) fun _ => .before (.choose v (.printLine _)) (sim_extendedLoop he hc v tol _)
  · exact .bind (.modify fun _ => rfl) fun _ => .getBind (fun _ => rfl) fun _ => .bind (.refactorize he _ _) fun _ =>
      .bind (.modify fun _ => rfl) fun _ => .modify fun _ => rfl
  · exact .bind (.modify fun _ => rfl) fun _ => .bind .get fun _ => .bind (stat_refactorize _ _) fun _ =>
      .bind (.modify fun _ => rfl) fun _ => .modify fun _ => rfl

theorem sim_stepV (he : Steady e) (v : Bool) (k : Kind) {P : St K V Mat Fac → Prop} :
    Sim True P (stepV v e o k) (step e o (k.method e o)) fun _ => True := by
  intro s t out hst _ _
  obtain ⟨h1, h2, h3⟩ := sim_step (o := o) he v k out hst
  exact ⟨h1, h2, fun a ha => ⟨fun _ => h3 a ha, trivial⟩⟩

theorem sim_bisectionLoop (he : Steady e) (hb : o.bifMethod ≠ .other) (v : Bool) (k : Kind) (ref tol : K) (n : ℕ)
    (U : V) (L : K) (fa : ℕ) {P : St K V Mat Fac → Prop} :
    Sim True P (bisectionLoopV v e o k ref tol n U L fa) (bisectionLoop e o (k.method e o) ref tol n U L fa)
      fun _ => True := by
  induction n generalizing U L fa P with
  | zero => exact (Sim.ret false).weaken (fun _ h => h) fun _ _ => trivial
  | succ n ih =>
    unfold bisectionLoopV bisectionLoop
    refine .before (.choose v (.printLine _)) ?_
    refine .bind (sim_quiet (.modify fun _ => rfl) (.modify fun _ => rfl)) fun _ => ?_
    refine .bind (sim_stepV he v k) fun st => .getBind (fun _ => rfl) fun s => ?_
    refine .bind (sim_quiet (blind_objective he hb _ _) (stat_objective _ _)) fun fb => ?_
    refine .bind (sim_quiet (.ite (.ret _) (.modify fun _ => rfl)) (.ite (.ret _) (.modify fun _ => rfl))) fun _ => ?_
    refine .getBind (fun _ => rfl) fun s => ?_
    refine .bind (sim_quiet (blind_termination he hb _ _) (stat_termination _ _)) fun term => ?_
    refine .before (.choose v (.printLine _)) (.ite ?_ (.ite (ih _ _ _) (ih _ _ _)))
    exact (Sim.ret true).weaken (fun _ h => h) fun _ _ => trivial

theorem sim_bisectionSolve (he : Steady e) (hb : o.bifMethod ≠ .other) (v : Bool) (k : Kind) (U : V) (L tol : K)
    {P : St K V Mat Fac → Prop} :
    Sim True P (bisectionSolveV v e o k U L tol) (bisectionSolve e o (k.method e o) U L tol) fun _ => True := by
  unfold bisectionSolveV bisectionSolve
  refine .bind (sim_quiet (.modify fun _ => rfl) (.modify fun _ => rfl)) fun _ => .getBind (fun _ => rfl) fun s => ?_
  refine .bind (sim_quiet (.modify fun _ => rfl) (.modify fun _ => rfl)) fun _ => ?_
  refine .bind (sim_quiet (blind_termination he hb _ _) (stat_termination _ _)) fun ref => ?_
  refine .bind (sim_quiet (blind_objective he hb _ _) (stat_objective _ _)) fun fa => ?_
  refine .bind (sim_bisectionLoop he hb v k _ _ _ _ _ _) fun c => ?_
  refine .bind (sim_quiet (.modify fun _ => rfl) (.modify fun _ => rfl)) fun _ => ?_
  exact sim_quiet (blind_power he _ _ _) (stat_power _ _ _)

theorem sim_solveSingular (he : Steady e) (hc : Computes e o) (hb : o.bifMethod ≠ .other) (v : Bool) (k : Kind)
    (switch : Bool) {P : St K V Mat Fac → Prop} :
    Sim True P (solveSingularPointV v e o k switch) (solveSingularPoint e o (k.method e o) switch) fun _ => True := by
  unfold solveSingularPointV solveSingularPoint
  refine .getBind (fun _ => rfl) fun s => .bind (Q := fun _ => True) (.ite ?_ ?_) fun _ =>
    .getBind (fun _ => rfl) fun s => ?_
  · exact .bind (sim_bisectionSolve he hb v k _ _ _) fun _ => .ret _
  · exact (Sim.ret ()).weaken (fun _ h => h) fun _ _ => trivial
  · refine .bind (sim_extendedSolve he hc v _ _ _) fun c => ?_
    refine .bind (sim_quiet (.ite (.modify fun _ => rfl) (.ret _)) (.ite (.modify fun _ => rfl) (.ret _))) fun _ => ?_
    exact sim_quiet (.modify fun _ => rfl) (.modify fun _ => rfl)

theorem sim_computeSingular (he : Steady e) (hc : Computes e o) (hb : o.bifMethod ≠ .other) (v : Bool) (k : Kind)
    (U : V) (L : K) (switch jacobian testPoint : Bool) :
    Sim True (fun _ => True) (computeSingularPointRawV v e o k U L switch jacobian testPoint)
      (computeSingularPointRaw e o (k.method e o) U L switch jacobian testPoint) fun _ => True := by
  unfold computeSingularPointRawV computeSingularPointRaw
  refine .bind (Q := fun _ => True) (.ite ?_ ?_) fun test => ?_
  · unfold testSingularPointV
    intro s t out hst hs hP
    obtain ⟨h1, h2, h3⟩ := sim_quiet (P := fun _ => True) (blind_test (o := o) he jacobian) (stat_test jacobian)
      s t out hst hs trivial
    rcases hr : quiet (testSingularPoint e o jacobian) (s, out) with ⟨⟨s', out'⟩, x | a⟩
    · rw [hr] at h1 h2
      rw [Act.bind_error hr]
      exact ⟨h1, h2, fun _ h => by cases h⟩
    · rw [hr] at h1 h2 h3
      rw [Act.bind_ok hr]
      cases v
      · exact ⟨h1, h2, h3⟩
      · exact ⟨h1, h2, h3⟩
  · exact .ret _
  · exact .bind (sim_quiet (.modify fun _ => rfl) (.modify fun _ => rfl)) fun _ =>
      .ite (sim_solveSingular he hc hb v k switch) (.ret _)

end GsSA.ALM
