import Verif.ALM.VerboseSingular
import Verif.ALM.Demo

/-!
# C132: `Verbose` and what is printed

With `Verbose` a step computes the same point. It computes the stability more often, and this is visible in
`stabilityChange()`, and after `computeSingularPoint` in `stability()`, `indicator()` and even in the status.
-/

namespace GsSA.ALM

set_option linter.unusedSectionVars false

variable {K V Mat Fac : Type} [Field K] [LinearOrder K] [IsStrictOrderedRing K] [AddCommGroup V] [Module K V]
variable {e : Env K V Mat Fac} {o : Opts K} {α β : Type}

/-! ## Without `Verbose` -/

/-- `m` does what `m'` does and prints nothing. -/
def Silent (m : Act (Printing K V Mat Fac) α) (m' : Act (St K V Mat Fac) α) : Prop :=
  ∀ s out, m (s, out) = (((m' s).1, out), (m' s).2)

theorem Silent.quiet (m : Act (St K V Mat Fac) α) : Silent (ALM.quiet m) m := fun _ _ => rfl

theorem Silent.ret (a : α) : Silent (pure a : Act (Printing K V Mat Fac) α) (pure a) := fun _ _ => rfl

theorem Silent.bind {m : Act (Printing K V Mat Fac) α} {m' : Act (St K V Mat Fac) α}
    {f : α → Act (Printing K V Mat Fac) β} {f' : α → Act (St K V Mat Fac) β} (hm : Silent m m')
    (hf : ∀ a, Silent (f a) (f' a)) : Silent (m >>= f) (m' >>= f') := by
  intro s out
  have h := hm s out
  rcases hr : m' s with ⟨t, x | a⟩
  · rw [hr] at h
    rw [Act.bind_error h, Act.bind_error hr]
  · rw [hr] at h
    rw [Act.bind_ok h, Act.bind_ok hr]
    exact hf a t out

theorem Silent.skip {f : Unit → Act (Printing K V Mat Fac) β} {f' : Act (St K V Mat Fac) β} (h : Silent (f ()) f') :
    Silent ((pure () : Act (Printing K V Mat Fac) Unit) >>= f) f' := h

theorem Silent.ite {c : Prop} [Decidable c] {m₁ m₂ : Act (Printing K V Mat Fac) α} {m₁' m₂' : Act (St K V Mat Fac) α}
    (h₁ : Silent m₁ m₁') (h₂ : Silent m₂ m₂') : Silent (if c then m₁ else m₂) (if c then m₁' else m₂') := by
  split <;> assumption

theorem Silent.caught {m : Act (Printing K V Mat Fac) Unit} {m' : Act (St K V Mat Fac) Unit} (h : Silent m m')
    (f : St K V Mat Fac → St K V Mat Fac) : Silent (caughtV m f) (caught m' f) := by
  intro s out
  have h := h s out
  rcases hr : m' s with ⟨t, x | ⟨⟩⟩
  · rw [hr] at h
    unfold caughtV ALM.caught
    simp only [h, hr]
    cases x <;> rfl
  · rw [hr] at h
    unfold caughtV ALM.caught
    simp only [h, hr]

theorem silent_iterate (k : Kind) (n : ℕ) : Silent (iterateV false e o k n) (iterate e o (k.method e o) n) := by
  induction n with
  | zero => exact .ret ()
  | succ n ih =>
    unfold iterateV iterate
    exact .bind (.quiet _) fun _ => .skip <| .bind (.quiet _) fun _ => .ite (.quiet _) <| .ite (.quiet _) <|
      .bind (.quiet _) fun _ => ih

theorem silent_step (k : Kind) : Silent (stepV false e o k) (step e o (k.method e o)) := by
  refine .caught ?_ _
  rw [stepRaw_eq]
  unfold stepRawV
  exact .bind (.quiet _) fun _ => .skip <| .bind (.quiet _) fun _ => .bind (.quiet _) fun _ => .bind (.quiet _) fun _ =>
    .skip <| .bind (.quiet _) fun _ => .bind (.quiet _) fun _ => silent_iterate k _

theorem silent_extendedLoop (tol : K) (n : ℕ) : Silent (extendedLoopV false e o tol n) (extendedLoop e o tol n) := by
  induction n with
  | zero => exact .ret _
  | succ n ih =>
    unfold extendedLoopV extendedLoop
    exact .bind (.quiet _) fun _ => .skip <| .bind (.quiet _) fun _ => .ite (.quiet _) <| .ite (.quiet _) <|
      .bind (.quiet _) fun _ => ih

theorem silent_bisectionLoop (k : Kind) (ref tol : K) (n : ℕ) (U : V) (L : K) (fa : ℕ) :
    Silent (bisectionLoopV false e o k ref tol n U L fa) (bisectionLoop e o (k.method e o) ref tol n U L fa) := by
  induction n generalizing U L fa with
  | zero => exact .ret _
  | succ n ih =>
    unfold bisectionLoopV bisectionLoop
    exact .skip <| .bind (.quiet _) fun _ => .bind (silent_step k) fun _ => .bind (.quiet _) fun _ =>
      .bind (.quiet _) fun _ => .bind (.quiet _) fun _ => .bind (.quiet _) fun _ => .bind (.quiet _) fun _ =>
      .skip <| .ite (.ret _) <| .ite (ih _ _ _) (ih _ _ _)

theorem silent_singular (k : Kind) (U : V) (L : K) (switch jacobian testPoint : Bool) :
    Silent (computeSingularPointV false e o k U L switch jacobian testPoint)
      (computeSingularPoint e o (k.method e o) U L switch jacobian testPoint) := by
  refine .caught ?_ _
  unfold computeSingularPointRawV computeSingularPointRaw
  refine .bind (.ite ?_ (.ret _)) fun _ => .bind (.quiet _) fun _ => .ite ?_ (.ret _)
  · intro s out
    unfold testSingularPointV
    rcases hr : testSingularPoint e o jacobian s with ⟨t, x | a⟩
    · rw [Act.bind_error (x := x) (t := (t, out)) (by unfold quiet; simp only [hr])]
    · rw [Act.bind_ok (a := a) (t := (t, out)) (by unfold quiet; simp only [hr])]
      rfl
  · unfold solveSingularPointV solveSingularPoint
    refine .bind (.quiet _) fun s => .bind (.ite ?_ (.ret _)) fun _ => .bind (.quiet _) fun s => .bind ?_ fun _ =>
      .bind (.quiet _) fun _ => .quiet _
    · refine .bind ?_ fun _ => .ret _
      unfold bisectionSolveV bisectionSolve
      exact .bind (.quiet _) fun _ => .bind (.quiet _) fun _ => .bind (.quiet _) fun _ => .bind (.quiet _) fun _ =>
        .bind (.quiet _) fun _ => .bind (silent_bisectionLoop k _ _ _ _ _ _) fun _ => .bind (.quiet _) fun _ => .quiet _
    · rw [extendedSolve_eq]
      unfold extendedSolveV
      exact .bind (.quiet _) fun _ => .skip (silent_extendedLoop _ _)

/-- **C132** Without `Verbose` nothing is printed in a table, and `step` and `computeSingularPoint` are those of the
other properties. -/
theorem C132_off (e : Env K V Mat Fac) (o : Opts K) (k : Kind) (s : St K V Mat Fac) (out : List (Line K)) :
    stepV false e o k (s, out) =
        (((step e o (k.method e o) s).1, out), (step e o (k.method e o) s).2) ∧
      ∀ U L switch jacobian testPoint,
        computeSingularPointV false e o k U L switch jacobian testPoint (s, out) =
          (((computeSingularPoint e o (k.method e o) U L switch jacobian testPoint s).1, out),
            (computeSingularPoint e o (k.method e o) U L switch jacobian testPoint s).2) :=
  ⟨silent_step k s out, fun U L a b c => silent_singular k U L a b c s out⟩

/-! ## With `Verbose` -/

theorem forget_iff {s t : St K V Mat Fac} : forget s = forget t ↔
    s = { t with stabVec := s.stabVec, negatives := s.negatives, indicator := s.indicator, stability := s.stability
                 stabilityPrev := s.stabilityPrev, status := s.status, log := s.log } := by
  constructor
  · intro h
    cases s
    cases t
    simp only [forget, St.mk.injEq] at h ⊢
    simp [h]
  · intro h
    rw [h]
    rfl

theorem forget_with {s t : St K V Mat Fac} (h : forget s = forget t) (h' : s.status = t.status) :
    ∃ vec neg ind stab prev log, s = { t with
      stabVec := vec, negatives := neg, indicator := ind, stability := stab, stabilityPrev := prev, log := log } := by
  have h := forget_iff.1 h
  rw [h'] at h
  exact ⟨s.stabVec, s.negatives, s.indicator, s.stability, s.stabilityPrev, s.log, h⟩

/-- **C132** If the callbacks and the linear algebra always return the same for the same arguments, a step with
`Verbose` ends with the status of the step without, and in the same state but for the results of the stability
computation. -/
theorem C132_step (he : Steady e) (k : Kind) (s : St K V Mat Fac) (out : List (Line K)) {st : Status}
    (h : (step e o (k.method e o) s).2 = .ok st) :
    (stepV true e o k (s, out)).2 = .ok st ∧ ∃ vec neg ind stab prev log,
      (stepV true e o k (s, out)).1.1 = { (step e o (k.method e o) s).1 with
        stabVec := vec, negatives := neg, indicator := ind, stability := stab, stabilityPrev := prev, log := log } := by
  obtain ⟨h1, h2, h3⟩ := sim_step (o := o) he true k out (rfl : forget s = forget s)
  rw [h] at h1
  exact ⟨h1, forget_with h2 (h3 st h1)⟩

/-- `n` steps: the statuses, and the state afterwards. -/
def runSteps {σ : Type} (m : Act σ Status) : ℕ → σ → List (Except Err Status) × σ
  | 0, s => ([], s)
  | n + 1, s => ((m s).2 :: (runSteps m n (m s).1).1, (runSteps m n (m s).1).2)

theorem runSteps_sim (he : Steady e) (k : Kind) (n : ℕ) {s t : St K V Mat Fac} (out : List (Line K))
    (hst : forget s = forget t) :
    (runSteps (stepV true e o k) n (s, out)).1 = (runSteps (step e o (k.method e o)) n t).1 ∧
      forget (runSteps (stepV true e o k) n (s, out)).2.1 = forget (runSteps (step e o (k.method e o)) n t).2 := by
  induction n generalizing s t out with
  | zero => exact ⟨rfl, hst⟩
  | succ n ih =>
    obtain ⟨h1, h2, -⟩ := sim_step (o := o) he true k out hst
    obtain ⟨h3, h4⟩ := ih (stepV true e o k (s, out)).1.2 h2
    exact ⟨congrArg₂ _ h1 h3, h4⟩

/-- **C132** Any number of steps with `Verbose` end with the same statuses, and at the same point, as those without. -/
theorem C132_steps (he : Steady e) (k : Kind) (n : ℕ) (s : St K V Mat Fac) (out : List (Line K)) :
    (runSteps (stepV true e o k) n (s, out)).1 = (runSteps (step e o (k.method e o)) n s).1 ∧
      (runSteps (stepV true e o k) n (s, out)).2.1.U = (runSteps (step e o (k.method e o)) n s).2.U ∧
      (runSteps (stepV true e o k) n (s, out)).2.1.L = (runSteps (step e o (k.method e o)) n s).2.L ∧
      (runSteps (stepV true e o k) n (s, out)).2.1.len = (runSteps (step e o (k.method e o)) n s).2.len ∧
      (runSteps (stepV true e o k) n (s, out)).2.1.numIt = (runSteps (step e o (k.method e o)) n s).2.numIt := by
  obtain ⟨h1, h2⟩ := runSteps_sim (o := o) he k n out (rfl : forget s = forget s)
  have h := forget_iff.1 h2
  exact ⟨h1, by rw [h], by rw [h], by rw [h], by rw [h]⟩

/-- **C132** The singular point computation: the same status and the same point, provided the stability of every matrix
that can be factorised can be computed. -/
theorem C132_singular (he : Steady e) (hc : Computes e o) (hb : o.bifMethod ≠ .other) (k : Kind)
    (s : St K V Mat Fac) (out : List (Line K)) (U : V) (L : K) (switch jacobian testPoint : Bool) {st : Status}
    (h : (computeSingularPoint e o (k.method e o) U L switch jacobian testPoint s).2 = .ok st) :
    (computeSingularPointV true e o k U L switch jacobian testPoint (s, out)).2 = .ok st ∧
      ∃ vec neg ind stab prev log,
        (computeSingularPointV true e o k U L switch jacobian testPoint (s, out)).1.1 =
          { (computeSingularPoint e o (k.method e o) U L switch jacobian testPoint s).1 with
            stabVec := vec, negatives := neg, indicator := ind, stability := stab, stabilityPrev := prev
            log := log } := by
  obtain ⟨h1, h2, h3⟩ := sim_caught (f := id) (s := s) (t := s) (out := out)
    (sim_computeSingular he hc hb true k U L switch jacobian testPoint) (fun _ _ h h' => ⟨h, h' trivial⟩) rfl
    (fun _ => rfl) trivial
  change (computeSingularPointV true e o k U L switch jacobian testPoint (s, out)).2 = _ at h1
  exact ⟨h1.trans h, forget_with h2 (h3 st (h1.trans h))⟩

/-! ## The results of the stability computation -/

/-- The results and the Jacobian. -/
def verdict (s : St K V Mat Fac) : Mat × (List K × ℕ × K × ℤ) := (s.jac, results s)

theorem verdict_residual : Keeps verdict (computeResidual e) := by
  refine .bind .get fun s => .bind ?_ fun _ => .modify fun _ => rfl
  unfold evalResidual
  refine .bind .get fun s => ?_
  split
  · exact .bind (.modify fun _ => rfl) fun _ => .ret _
  · exact .bind (.modify fun _ => rfl) fun _ => .throw _

theorem verdict_norms : Keeps verdict (computeResidualNorms e) := by
  refine .modify fun s => ?_
  split <;> rfl

theorem verdict_finish (k : Kind) : Keeps verdict (finishStep o (k.method e o)) := by
  refine .bind (fun s => ?_) fun _ => .bind .get fun _ =>
    .ite (.bind .get fun _ => .ite (.throw _) (.modify fun _ => rfl)) (.modify fun _ => rfl)
  obtain ⟨a, b, h⟩ := (k.isMethod e o).lawful.finish s
  rw [h]
  rfl

/-- `Fresh` is a property of the verdict. -/
theorem fresh_keeps {m : Act (St K V Mat Fac) α} (h : Keeps verdict m) (h' : Keeps system m) :
    Tri (fun s => Ready e s ∧ Fresh e o s) m fun s => Ready e s ∧ Fresh e o s := by
  intro s t a hs hr
  have h1 := h.run hr
  refine ⟨tri_ready h' s t a hs.1 hr, ?_⟩
  have h2 := hs.2
  unfold Fresh at h2 ⊢
  rw [show t.jac = s.jac from congrArg Prod.fst h1, show results t = results s from congrArg Prod.snd h1]
  exact h2

theorem fresh_body (he : Steady e) (hc : Computes e o) (k : Kind) :
    Tri (Ready e) (iterationBody e o (k.method e o)) fun s => Ready e s ∧ Fresh e o s := by
  refine Tri.getBind fun s => Tri.pre (P := Ready e) ?_ fun _ => And.left
  refine .bind (.ite ((k.blind he).ready_quasiIteration.pre fun _ _ => trivial) (.ret _)) fun _ => ?_
  refine .bind (tri_ready (k.blind he).keeps_iteration) fun _ => .bind (fresh_computeStability he hc) fun _ => ?_
  exact .bind (fresh_keeps verdict_residual keeps_residual) fun _ => fresh_keeps verdict_norms keeps_norms

/-- A triple for an action with output. -/
theorem tri_quiet {P Q : St K V Mat Fac → Prop} {m : Act (St K V Mat Fac) α} (h : Tri P m Q) :
    Tri (fun p : Printing K V Mat Fac => P p.1) (quiet m) fun p => Q p.1 := by
  rintro ⟨s, out⟩ ⟨t, out'⟩ a hs hr
  refine h s t a hs ?_
  have h1 := congrArg (fun r => r.1.1) hr
  have h2 := congrArg (fun r => r.2) hr
  exact Prod.ext h1 h2

theorem tri_print {P : St K V Mat Fac → Prop} (f : St K V Mat Fac → Line K) :
    Tri (fun p : Printing K V Mat Fac => P p.1) (printLine f) fun p => P p.1 := .modify fun _ h => h

theorem fresh_output (he : Steady e) (hc : Computes e o) (k : Kind) :
    Tri (fun p : Printing K V Mat Fac => Ready e p.1) (stepOutput e o k) fun p => Ready e p.1 ∧ Fresh e o p.1 :=
  .bind (tri_quiet (fresh_computeStability he hc)) fun _ => tri_print (P := fun s => Ready e s ∧ Fresh e o s) _

/-- The state is `Ready` and `Fresh`. -/
def Good (e : Env K V Mat Fac) (o : Opts K) (p : Printing K V Mat Fac) : Prop := Ready e p.1 ∧ Fresh e o p.1

theorem good_iterate_aux (he : Steady e) (hc : Computes e o) (k : Kind) (v : Bool) (n : ℕ)
    (ih : Tri (Good e o) (iterateV v e o k n) (Good e o)) :
    Tri (fun p : Printing K V Mat Fac => Ready e p.1) (iterateV v e o k (n + 1)) (Good e o) := by
  unfold iterateV
  refine .bind (Q := Good e o) (tri_quiet (fresh_body he hc k)) fun _ => ?_
  refine .bind (Q := Good e o) ?_ fun _ => ?_
  · cases v
    · exact .ret ()
    · exact (fresh_output he hc k).pre fun _ => And.left
  · refine .bind (Q := Good e o) (tri_quiet (Tri.keeps (f := id) (p := fun s => Ready e s ∧ Fresh e o s) .get)) fun s => ?_
    refine .ite ?_ (.ite ?_ ?_)
    · exact tri_quiet (fresh_keeps (verdict_finish k)
        (.bind (k.blind he).keeps_finish fun _ => .bind .get fun _ => .ite keeps_computeLength (.modify fun _ => rfl)))
    · exact tri_quiet (P := fun s => Ready e s ∧ Fresh e o s) (Q := fun s => Ready e s ∧ Fresh e o s)
        (.bind (Q := fun _ => True) (fun _ _ _ _ _ => trivial) fun _ => .throw _)
    · exact .bind (Q := Good e o) (tri_quiet (P := fun s => Ready e s ∧ Fresh e o s)
        (Q := fun s => Ready e s ∧ Fresh e o s) (.modify fun _ h => h)) fun _ => ih

theorem good_iterate (he : Steady e) (hc : Computes e o) (k : Kind) (v : Bool) (n : ℕ) :
    Tri (Good e o) (iterateV v e o k n) (Good e o) ∧
      Tri (fun p : Printing K V Mat Fac => Ready e p.1) (iterateV v e o k (n + 1)) (Good e o) := by
  induction n with
  | zero => exact ⟨.ret (), good_iterate_aux he hc k v 0 (.ret ())⟩
  | succ n ih => exact ⟨ih.2.pre fun _ => And.left, good_iterate_aux he hc k v _ (ih.2.pre fun _ => And.left)⟩

theorem ready_stepOutput (he : Steady e) (k : Kind) :
    Tri (fun p : Printing K V Mat Fac => Ready e p.1) (stepOutput e o k) fun p => Ready e p.1 :=
  .bind (tri_quiet (tri_computeStability he)) fun _ => tri_print _

theorem good_stepRaw (he : Steady e) (hc : Computes e o) (k : Kind) (v : Bool) (hmax : 2 ≤ o.maxIt) :
    Tri (fun _ : Printing K V Mat Fac => True) (stepRawV v e o k) (Good e o) := by
  obtain ⟨n, hn⟩ : ∃ n, o.maxIt - 1 = n + 1 := ⟨o.maxIt - 2, by omega⟩
  unfold stepRawV
  rw [hn]
  refine .bind (Q := fun _ => True) (fun _ _ _ _ _ => trivial) fun _ => ?_
  refine .bind (Q := fun _ => True) (fun _ _ _ _ _ => trivial) fun _ => ?_
  refine .bind (tri_quiet (P := fun _ => True) (Q := Ready e) ?_) fun _ => ?_
  · intro s t a _ hr
    exact (tri_predict he k s.U s t a rfl hr).1
  refine .bind (tri_quiet (tri_ready keeps_residual)) fun _ => ?_
  refine .bind (tri_quiet (tri_ready keeps_norms)) fun _ => ?_
  refine .bind (Q := fun p => Ready e p.1) ?_ fun _ => ?_
  · cases v
    · exact .ret ()
    · exact ready_stepOutput he k
  refine .bind (tri_quiet (Q := Ready e)
    (.ite ((k.blind he).ready_quasiPredictor.pre fun _ _ => trivial) (.ret _))) fun _ => ?_
  exact .bind (tri_quiet (Q := Ready e) (.modify fun _ h => h)) fun _ => (good_iterate he hc k v n).2

/-- What `stepV` returns on success. -/
theorem stepV_success {v : Bool} {k : Kind} {p : Printing K V Mat Fac} (h : (stepV v e o k p).2 = .ok .success) :
    ∃ q, stepRawV v e o k p = (q, .ok ()) ∧
      (stepV v e o k p).1 = ({ q.1 with status := .success }, q.2) := by
  unfold stepV caughtV at h ⊢
  simp only at h ⊢
  rcases hr : stepRawV v e o k p with ⟨q, x | ⟨⟩⟩
  · rw [hr] at h
    cases x <;> cases h
  · exact ⟨q, rfl, rfl⟩

/-- **C132** After a successful step `isStable()`, `stability()`, `indicator()` and the vector are the same with and
without `Verbose`: those of the last Jacobian. -/
theorem C132_stability (he : Steady e) (hc : Computes e o) (k : Kind) (hmax : 2 ≤ o.maxIt) (s : St K V Mat Fac)
    (out : List (Line K)) (h : (step e o (k.method e o) s).2 = .ok .success) :
    let t := (step e o (k.method e o) s).1
    let u := (stepV true e o k (s, out)).1.1
    u.stabVec = t.stabVec ∧ u.negatives = t.negatives ∧ u.indicator = t.indicator ∧ u.stability = t.stability ∧
      u.jac = t.jac := by
  intro t u
  have h1 := (C132_off e o k s out).1
  have h2 : (stepV false e o k (s, out)).2 = .ok .success := by rw [h1]; exact h
  obtain ⟨q, hq, hq'⟩ := stepV_success h2
  have hv := (C132_step he k s out h).1
  obtain ⟨p, hp, hp'⟩ := stepV_success hv
  have g1 : Fresh e o u := by
    have := (good_stepRaw he hc k true hmax _ _ _ trivial hp).2
    show Fresh e o (stepV true e o k (s, out)).1.1
    rw [hp']
    exact this
  have g2 : Fresh e o t := by
    have := (good_stepRaw he hc k false hmax _ _ _ trivial hq).2
    have h3 : (stepV false e o k (s, out)).1.1 = t := by rw [h1]
    rw [← h3, hq']
    exact this
  have hj : u.jac = t.jac := congrArg Prod.fst (forget_system (sim_step (o := o) he true k out rfl).2.1)
  have hr : results u = results t := by
    unfold Fresh at g1 g2
    rw [hj, g2] at g1
    exact (Option.some.inj g1).symm
  simp only [results, Prod.mk.injEq] at hr
  exact ⟨hr.1, hr.2.1, hr.2.2.1, hr.2.2.2, hj⟩

/-! ## The previous stability -/

theorem prev_stepOutput (k : Kind) (p : ℤ) :
    Tri (fun q : Printing K V Mat Fac => q.1.stabilityPrev = p) (stepOutput e o k) fun q => q.1.stabilityPrev = p := by
  refine .bind (tri_quiet (P := fun s => s.stabilityPrev = p) (Q := fun s => s.stabilityPrev = p) ?_) fun _ =>
    tri_print (P := fun s => s.stabilityPrev = p) _
  intro s t a hs h
  obtain ⟨t', st, h1, h2, -⟩ := computeStability_frame (e := e) (o := o) (-100) s
  rw [h1] at h
  cases h
  rw [h2]
  exact hs

theorem safe_prev {m : Act (St K V Mat Fac) α} (h : Safe m) (p : ℤ) :
    Tri (fun s => s.stabilityPrev = p) m fun s => s.stabilityPrev = p := by
  intro s t a hs hr
  have := congrArg Core.stabilityPrev (h.core s)
  rw [hr] at this
  exact this.trans hs

theorem prev_body (k : Kind) (p : ℤ) :
    Tri (fun s => s.stabilityPrev = p) (iterationBody e o (k.method e o)) fun s => s.stabilityPrev = p := by
  have hM := (k.isMethod e o).lawful
  refine Tri.getBind fun s => Tri.pre (P := fun s => s.stabilityPrev = p) ?_ fun _ => And.left
  refine .bind (.ite (safe_prev hM.quasiIteration p) (.ret _)) fun _ => .bind (safe_prev hM.iteration p) fun _ => ?_
  refine .bind (Q := fun s => s.stabilityPrev = p) ?_ fun _ => .bind (safe_prev (safe_computeResidual e) p) fun _ => ?_
  · intro s t a hs h
    obtain ⟨t', st, h1, h2, -⟩ := computeStability_frame (e := e) (o := o) (-100) s
    rw [h1] at h
    cases h
    rw [h2]
    exact hs
  · refine .modify fun s hs => ?_
    split <;> exact hs

theorem prev_finish (k : Kind) (p : ℤ) :
    Tri (fun s => s.stabilityPrev = p) (finishStep o (k.method e o)) fun s => s.stabilityPrev = p := by
  refine .bind (Q := fun s => s.stabilityPrev = p) ?_ fun _ => ?_
  · intro s t a hs h
    obtain ⟨x, y, h'⟩ := (k.isMethod e o).lawful.finish s
    rw [h'] at h
    cases h
    exact hs
  · refine .getBind fun s => Tri.pre (P := fun s => s.stabilityPrev = p) ?_ fun _ => And.left
    refine .ite (.getBind fun s => Tri.pre (P := fun s => s.stabilityPrev = p) ?_ fun _ => And.left) (.modify fun _ h => h)
    exact .ite (.throw _) (.modify fun _ h => h)

theorem prev_iterate (k : Kind) (v : Bool) (p : ℤ) (n : ℕ) :
    Tri (fun q : Printing K V Mat Fac => q.1.stabilityPrev = p) (iterateV v e o k n)
      fun q => q.1.stabilityPrev = p := by
  induction n with
  | zero => exact .ret ()
  | succ n ih =>
    unfold iterateV
    refine .bind (tri_quiet (prev_body k p)) fun _ => .bind (Q := fun q => q.1.stabilityPrev = p) ?_ fun _ => ?_
    · cases v
      · exact .ret ()
      · exact prev_stepOutput k p
    · refine .bind (Q := fun q => q.1.stabilityPrev = p)
        (tri_quiet (Tri.keeps (f := fun s => s.stabilityPrev) (p := fun x => x = p) .get)) fun s => ?_
      refine .ite (tri_quiet (prev_finish k p)) (.ite ?_ ?_)
      · exact tri_quiet (P := fun s => s.stabilityPrev = p) (Q := fun s => s.stabilityPrev = p)
          (.bind (Q := fun _ => True) (fun _ _ _ _ _ => trivial) fun _ => .throw _)
      · refine .bind (Q := fun q => q.1.stabilityPrev = p) (tri_quiet (P := fun s => s.stabilityPrev = p)
          (Q := fun s => s.stabilityPrev = p) ?_) fun _ => ih
        exact .modify fun _ h => h

/-- **C132** violated: with `Verbose` the previous stability after a step is that of the Jacobian at the starting
point of the step; without, it is the stability left by whatever was done before. `stabilityChange()` compares with
it. -/
theorem C132_violated_previous (he : Steady e) (hc : Computes e o) (k : Kind) (s : St K V Mat Fac)
    (out : List (Line K)) (h : (step e o (k.method e o) s).2 = .ok .success) :
    (step e o (k.method e o) s).1.stabilityPrev = s.stability ∧
      ∃ m d r, e.jacobian 0 s.U d = some m ∧ stabilityAt e o m = some r ∧
        (stepV true e o k (s, out)).1.1.stabilityPrev = r.2.2.2 := by
  refine ⟨step_stabilityPrev (k.isMethod e o) (Prod.ext rfl h), ?_⟩
  have hv := (C132_step he k s out h).1
  obtain ⟨q, hq, hq'⟩ := stepV_success hv
  rw [hq']
  show ∃ m d r, e.jacobian 0 s.U d = some m ∧ stabilityAt e o m = some r ∧ q.1.stabilityPrev = r.2.2.2
  unfold stepRawV at hq
  obtain ⟨⟨s1, o1⟩, ⟨⟩, h1, hq1⟩ := Act.bind_ok_inv hq
  have e1 : s1 = s := by
    have h1' : assertInitialized s = (s1, .ok ()) :=
      Prod.ext (congrArg (fun r => r.1.1) h1) (congrArg (fun r => r.2) h1)
    unfold assertInitialized at h1'
    rw [Act.bind_ok (Act.get_apply s)] at h1'
    split at h1'
    · cases h1'
    · cases h1'
      rfl
  obtain ⟨⟨s2, o2⟩, ⟨⟩, h2, hq⟩ := Act.bind_ok_inv hq1
  have e2 : s2 = s := by
    have := congrArg (fun r => r.1.1) h2
    exact this.symm.trans e1
  have chain : ∀ {P Q : St K V Mat Fac → Prop} {m : Act (St K V Mat Fac) Unit} {p p' : Printing K V Mat Fac}
      {a : Unit}, Tri P m Q → P p.1 → quiet m p = (p', .ok a) → Q p'.1 := fun h hp hr => tri_quiet h _ _ _ hp hr
  obtain ⟨p3, ⟨⟩, h3, hq⟩ := Act.bind_ok_inv hq
  have g3 := chain (tri_predict he k s.U) (congrArg St.U e2) h3
  obtain ⟨p4, ⟨⟩, h4, hq⟩ := Act.bind_ok_inv hq
  have g4 := chain (keeps_ready keeps_residual s.U) g3 h4
  obtain ⟨p5, ⟨⟩, h5, hq⟩ := Act.bind_ok_inv hq
  have g5 := chain (keeps_ready keeps_norms s.U) g4 h5
  obtain ⟨p6, ⟨⟩, h6, hq⟩ := Act.bind_ok_inv hq
  obtain ⟨p7, ⟨⟩, h7, hq⟩ := Act.bind_ok_inv hq
  obtain ⟨p8, ⟨⟩, h8, hq⟩ := Act.bind_ok_inv hq
  obtain ⟨d, hd⟩ := g5.2
  obtain ⟨r, hr⟩ := hc.at g5.1
  have g6 : p6.1.stability = r.2.2.2 := by
    rw [if_pos rfl] at h6
    unfold stepOutput at h6
    obtain ⟨p9, a, h9, h6⟩ := Act.bind_ok_inv h6
    obtain ⟨l, hl⟩ := computeStability_steady he g5.1 hr
    have e9 : p9.1 = (computeStability e o false (-100) p5.1).1 := (congrArg (fun r => r.1.1) h9).symm
    have e6 : p6.1 = p9.1 := (congrArg (fun r => r.1.1) h6).symm
    rw [e6, e9, hl]
  have g7 : p7.1.stability = r.2.2.2 := by
    have e7 : p7.1 = ((if o.quasi then (k.method e o).quasiPredictor else pure () : Act _ Unit) p6.1).1 :=
      (congrArg (fun r => r.1.1) h7).symm
    have hs : Safe (if o.quasi then (k.method e o).quasiPredictor else pure () : Act (St K V Mat Fac) Unit) :=
      Safe.ite (k.isMethod e o).lawful.quasiPredictor (Safe.ret ())
    rw [e7, ← g6]
    exact congrArg Core.stability (hs.core p6.1)
  have g8 : p8.1.stabilityPrev = r.2.2.2 := by
    have e8 : p8.1 = { p7.1 with stabilityPrev := p7.1.stability, numIt := 1 } := (congrArg (fun r => r.1.1) h8).symm
    rw [e8]
    exact g7
  exact ⟨_, d, r, hd, hr, prev_iterate k true _ _ _ _ _ g8 hq⟩

end GsSA.ALM
