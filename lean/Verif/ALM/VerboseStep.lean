import Verif.ALM.VerboseSim

/-!
# The simulation of a step with output

`Sim`: an action with output and one without give the same result and agree up to `forget`.
-/

namespace GsSA.ALM

set_option linter.unusedSectionVars false

variable {K V Mat Fac : Type} [Field K] [LinearOrder K] [IsStrictOrderedRing K] [AddCommGroup V] [Module K V]
variable {e : Env K V Mat Fac} {o : Opts K} {α β : Type} {b : Prop}

/-- `m`, with output, follows `m'`; if `b`, the status agrees as well. -/
def Sim (b : Prop) (P : St K V Mat Fac → Prop) (m : Act (Printing K V Mat Fac) α) (m' : Act (St K V Mat Fac) α)
    (Q : St K V Mat Fac → Prop) : Prop :=
  ∀ s t out, forget s = forget t → (b → s.status = t.status) → P s →
    (m (s, out)).2 = (m' t).2 ∧ forget (m (s, out)).1.1 = forget (m' t).1 ∧
      ∀ a, (m (s, out)).2 = .ok a → (b → (m (s, out)).1.1.status = (m' t).1.status) ∧ Q (m (s, out)).1.1

namespace Sim

variable {P Q R : St K V Mat Fac → Prop}

theorem quiet {m : Act (St K V Mat Fac) α} (hm : Blind m) (hb : b → Keeps (fun s => s.status) m) (hT : Tri P m Q) :
    Sim b P (ALM.quiet m) m Q := by
  intro s t out hst hs hP
  obtain ⟨h1, h2⟩ := hm s t hst
  refine ⟨h1, h2, fun a ha => ⟨fun h => ?_, hT s _ a hP (Prod.ext rfl ha)⟩⟩
  exact (hb h s).trans ((hs h).trans (hb h t).symm)

theorem bind {m : Act (Printing K V Mat Fac) α} {m' : Act (St K V Mat Fac) α}
    {f : α → Act (Printing K V Mat Fac) β} {f' : α → Act (St K V Mat Fac) β} (hm : Sim b P m m' Q)
    (hf : ∀ a, Sim b Q (f a) (f' a) R) : Sim b P (m >>= f) (m' >>= f') R := by
  intro s t out hst hs hP
  obtain ⟨h1, h2, h3⟩ := hm s t out hst hs hP
  simp only [Act.bind_apply]
  rcases hr : m (s, out) with ⟨⟨s', out'⟩, x | a⟩ <;> rcases hr' : m' t with ⟨t', y | c⟩ <;>
    simp only [hr, hr'] at h1 h2 h3
  · cases h1
    exact ⟨rfl, h2, fun _ h => by cases h⟩
  · cases h1
  · cases h1
  · cases h1
    obtain ⟨h4, h5⟩ := h3 a rfl
    exact hf a s' t' out' h2 h4 h5

theorem ret (a : α) : Sim b P (pure a : Act (Printing K V Mat Fac) α) (pure a) P :=
  fun _ _ _ h hs hP => ⟨rfl, h, fun _ _ => ⟨hs, hP⟩⟩

/-- Something printed that the other side does not do. -/
theorem before {p : Act (Printing K V Mat Fac) Unit} {f : Unit → Act (Printing K V Mat Fac) β}
    {f' : Act (St K V Mat Fac) β} (hp : Sim b P p (pure ()) Q) (hf : Sim b Q (f ()) f' R) :
    Sim b P (p >>= f) f' R := by
  have h : Sim b P (p >>= f) ((pure () : Act (St K V Mat Fac) Unit) >>= fun _ => f') R := bind hp fun _ => hf
  exact h

theorem getBind {f : St K V Mat Fac → Act (Printing K V Mat Fac) β} {f' : St K V Mat Fac → Act (St K V Mat Fac) β}
    (h1 : ∀ s, f' (forget s) = f' s) (hf : ∀ s, Sim b P (f s) (f' s) Q) :
    Sim b P (ALM.quiet Act.get >>= f) (Act.get >>= f') Q := by
  intro s t out hst hs hP
  have : f' s = f' t := by rw [← h1 s, hst, h1 t]
  have h := hf s s t out hst hs hP
  rw [this] at h
  exact h

theorem printLine (f : St K V Mat Fac → Line K) : Sim b P (ALM.printLine f) (pure ()) P :=
  fun _ _ _ h hs hP => ⟨rfl, h, fun _ _ => ⟨hs, hP⟩⟩

theorem ite {c : Prop} [Decidable c] {m₁ m₂ : Act (Printing K V Mat Fac) α} {m₁' m₂' : Act (St K V Mat Fac) α}
    (h₁ : Sim b P m₁ m₁' Q) (h₂ : Sim b P m₂ m₂' Q) :
    Sim b P (if c then m₁ else m₂) (if c then m₁' else m₂') Q := by
  split <;> assumption

/-- Printing or not. -/
theorem choose {p : Act (Printing K V Mat Fac) Unit} (v : Bool) (h : Sim b P p (pure ()) P) :
    Sim b P (if v then p else pure ()) (pure ()) P := by
  cases v
  · exact ret ()
  · exact h

theorem weaken {P' Q' : St K V Mat Fac → Prop} {m : Act (Printing K V Mat Fac) α} {m' : Act (St K V Mat Fac) α}
    (h : Sim b P m m' Q) (hP : ∀ s, P' s → P s) (hQ : ∀ s, Q s → Q' s) : Sim b P' m m' Q' := by
  intro s t out hst hs hs'
  obtain ⟨h1, h2, h3⟩ := h s t out hst hs (hP s hs')
  exact ⟨h1, h2, fun a ha => ⟨(h3 a ha).1, hQ _ (h3 a ha).2⟩⟩

end Sim

/-! ## The stability computation -/

/-- The results of the stability computation: vector, number of negatives, indicator, stability. -/
def results (s : St K V Mat Fac) : List K × ℕ × K × ℤ := (s.stabVec, s.negatives, s.indicator, s.stability)

/-- What the stability computation finds for a matrix. -/
def stabilityAt (e : Env K V Mat Fac) (o : Opts K) (m : Mat) : Option (List K × ℕ × K × ℤ) :=
  let vec := match o.bifMethod with
    | .determinant => (e.factorize 0 m).map e.vecD
    | .eigenvalue => e.eigs 0 m (-100)
    | .nothing => some (List.replicate e.numDof 0)
    | .other => none
  vec.bind fun l => (minCoeff l).map fun x => (l, countNegatives l, x, stabilityOf x)

/-- The stability of every matrix that can be factorised is computed without an error. -/
def Computes (e : Env K V Mat Fac) (o : Opts K) : Prop :=
  ∀ m, (e.factorize 0 m).isSome → (stabilityAt e o m).isSome

/-- The stability computed last is that of `m_jacMat`. -/
def Fresh (e : Env K V Mat Fac) (o : Opts K) (s : St K V Mat Fac) : Prop := stabilityAt e o s.jac = some (results s)

theorem rawStability_forget (x : V) (shift : K) (s : St K V Mat Fac) :
    forget (computeStabilityRaw e o x false shift s).1 = forget (stabilityVector e o shift s).1 := by
  unfold computeStabilityRaw
  rw [Act.bind_ok (by rfl : (if false = true then reassemble e x else pure () : Act _ Unit) s = (s, .ok ()))]
  rcases h : stabilityVector e o shift s with ⟨t, y | ⟨⟩⟩
  · rw [Act.bind_error h]
  · rw [Act.bind_ok h, Act.bind_ok (Act.get_apply t)]
    split <;> rfl

theorem computeStability_forget (shift : K) (s : St K V Mat Fac) :
    (∃ st, (computeStability e o false shift s).2 = .ok st) ∧
      forget (computeStability e o false shift s).1 = forget (stabilityVector e o shift s).1 := by
  rw [← rawStability_forget s.U]
  have h := (computeStabilityRaw_frame (e := e) (o := o) s.U shift s).2.1
  change (∃ st, (caught _ _ s).2 = .ok st) ∧ forget (caught _ _ s).1 = _
  rcases hr : computeStabilityRaw e o s.U false shift s with ⟨t, x | ⟨⟩⟩
  · rw [hr] at h
    rw [caught_error hr fun hx => h (by rw [hx])]
    exact ⟨⟨_, rfl⟩, rfl⟩
  · rw [caught_ok hr]
    exact ⟨⟨_, rfl⟩, rfl⟩

/-- A step goes on whatever the stability computation yields. -/
theorem Blind.afterStability (he : Steady e) {m : Act (St K V Mat Fac) α} (hm : Blind m) (shift : K) :
    Blind (computeStability e o false shift >>= fun _ => m) := by
  intro s t hst
  obtain ⟨⟨x, h1⟩, h2⟩ := computeStability_forget (e := e) (o := o) shift s
  obtain ⟨⟨y, h3⟩, h4⟩ := computeStability_forget (e := e) (o := o) shift t
  rw [Act.bind_ok (Prod.ext rfl h1), Act.bind_ok (Prod.ext rfl h3)]
  refine hm _ _ ?_
  rw [h2, h4]
  exact (Blind.stabilityVector he shift s t hst).2

theorem stabilityVector_forget (he : Steady e) (shift : K) {s : St K V Mat Fac} (hs : Ready e s) :
    forget (stabilityVector e o shift s).1 = forget s := by
  obtain ⟨f, h1, h2⟩ := hs
  change e.factorize 0 s.jac = some f at h1
  change s.fac = some f at h2
  unfold stabilityVector
  rw [Act.bind_ok (Act.get_apply s)]
  cases o.bifMethod with
  | determinant =>
    simp only
    rw [Act.bind_ok (factorizeMatrix_steady he h1 s), ← h2]
    rfl
  | eigenvalue =>
    simp only
    split <;> rfl
  | nothing => rfl
  | other => rfl

theorem forget_system {s t : St K V Mat Fac} (h : forget s = forget t) : system s = system t :=
  show system (forget s) = system (forget t) by rw [h]

theorem ready_forget {s t : St K V Mat Fac} (h : forget s = forget t) (hs : Ready e s) : Ready e t := by
  unfold Ready at *
  rwa [← forget_system h]

/-- With the factorisation at hand the stability computation changes nothing else. -/
theorem sim_stepOutput (he : Steady e) (k : Kind) :
    Sim False (Ready e) (stepOutput e o k) (pure ()) (Ready e) := by
  intro s t out hst _ hs
  obtain ⟨⟨x, h1⟩, h2⟩ := computeStability_forget (e := e) (o := o) (-100) s
  rw [stabilityVector_forget he _ hs] at h2
  unfold stepOutput
  rw [Act.bind_ok (a := x) (t := ((computeStability e o false (-100) s).1, out)) (Prod.ext rfl h1)]
  exact ⟨rfl, h2.trans hst, fun _ _ => ⟨False.elim, ready_forget h2.symm hs⟩⟩

theorem tri_computeStability (he : Steady e) :
    Tri (Ready e) (computeStability e o false (-100)) (Ready e) := by
  intro s t a hs h
  obtain ⟨-, h2⟩ := computeStability_forget (e := e) (o := o) (-100) s
  rw [stabilityVector_forget he _ hs, h] at h2
  exact ready_forget h2.symm hs

/-- The stability computation when it succeeds. -/
theorem rawStability_ok (he : Steady e) {s : St K V Mat Fac} (hs : Ready e s) {r : List K × ℕ × K × ℤ}
    (hr : stabilityAt e o s.jac = some r) (x : V) :
    ∃ l, computeStabilityRaw e o x false (-100) s =
      ({ s with stabVec := r.1, negatives := r.2.1, indicator := r.2.2.1, stability := r.2.2.2, log := l }, .ok ()) := by
  obtain ⟨f, h1, h2⟩ := hs
  change e.factorize 0 s.jac = some f at h1
  change s.fac = some f at h2
  have key : ∀ l log, (∃ y, minCoeff l = some y ∧ r = (l, countNegatives l, y, stabilityOf y)) →
      stabilityVector e o (-100) s = ({ s with stabVec := l, log := log }, .ok ()) →
      computeStabilityRaw e o x false (-100) s =
        ({ s with stabVec := r.1, negatives := r.2.1, indicator := r.2.2.1, stability := r.2.2.2, log := log },
          .ok ()) := by
    rintro l log ⟨y, hy, rfl⟩ hv
    unfold computeStabilityRaw
    rw [Act.bind_ok (by rfl : (if false = true then reassemble e x else pure () : Act _ Unit) s = (s, .ok ())),
      Act.bind_ok hv, Act.bind_ok (Act.get_apply _)]
    simp only [hy]
    rfl
  have part : ∀ l : List K, ((minCoeff l).map fun y => (l, countNegatives l, y, stabilityOf y)) = some r →
      ∃ y, minCoeff l = some y ∧ r = (l, countNegatives l, y, stabilityOf y) := by
    intro l hl
    cases hm : minCoeff l with
    | none => rw [hm] at hl; cases hl
    | some y => rw [hm] at hl; cases hl; exact ⟨y, rfl, rfl⟩
  unfold stabilityAt at hr
  unfold stabilityVector at key
  rw [Act.bind_ok (Act.get_apply s)] at key
  cases hb : o.bifMethod with
  | determinant =>
    rw [hb] at hr key
    rw [h1] at hr
    refine ⟨_, key _ (.factor true :: s.log) (part _ hr) ?_⟩
    simp only
    rw [Act.bind_ok (factorizeMatrix_steady he h1 s), ← h2]
    show (_, _) = _
    rw [h2]
    rfl
  | eigenvalue =>
    rw [hb] at hr key
    simp only at hr key
    rw [he.eigs _ 0] at key
    cases hg : e.eigs 0 s.jac (-100) with
    | none => rw [hg] at hr; cases hr
    | some l =>
      rw [hg] at hr key
      exact ⟨_, key _ (.eig true :: s.log) (part _ hr) rfl⟩
  | nothing =>
    rw [hb] at hr key
    exact ⟨_, key _ s.log (part _ hr) rfl⟩
  | other =>
    rw [hb] at hr
    cases hr

theorem computeStability_steady (he : Steady e) {s : St K V Mat Fac} (hs : Ready e s) {r : List K × ℕ × K × ℤ}
    (hr : stabilityAt e o s.jac = some r) :
    ∃ l, computeStability e o false (-100) s =
      ({ s with stabVec := r.1, negatives := r.2.1, indicator := r.2.2.1, stability := r.2.2.2, log := l
                status := .success }, .ok .success) := by
  obtain ⟨l, h⟩ := rawStability_ok he hs hr s.U
  exact ⟨l, caught_ok h⟩

theorem Computes.at (hc : Computes e o) {s : St K V Mat Fac} (hs : Ready e s) :
    ∃ r, stabilityAt e o s.jac = some r := by
  obtain ⟨f, h1, -⟩ := hs
  exact Option.isSome_iff_exists.1 (hc s.jac (by rw [show e.factorize 0 s.jac = some f from h1]; rfl))

/-- After the stability computation its results belong to the Jacobian. -/
theorem fresh_computeStability (he : Steady e) (hc : Computes e o) :
    Tri (Ready e) (computeStability e o false (-100)) fun s => Ready e s ∧ Fresh e o s := by
  intro s t a hs h
  refine ⟨tri_computeStability he s t a hs h, ?_⟩
  obtain ⟨r, hr⟩ := hc.at hs
  obtain ⟨l, h'⟩ := computeStability_steady he hs hr
  rw [h'] at h
  cases h
  exact hr

/-! ## The step -/

theorem blind_body (he : Steady e) (k : Kind) : Blind (iterationBody e o (k.method e o)) :=
  .getBind (fun _ => rfl) fun _ => .bind (.ite (k.blind he).quasiIteration (.ret _)) fun _ =>
    .bind (k.blind he).iteration fun _ => .afterStability he (.bind (.computeResidual he) fun _ =>
      .computeResidualNorms) _

theorem tri_body (he : Steady e) (k : Kind) :
    Tri (Ready e) (iterationBody e o (k.method e o)) (Ready e) := by
  refine Tri.getBind fun s => Tri.pre (P := Ready e) ?_ fun _ => And.left
  refine .bind (.ite ((k.blind he).ready_quasiIteration.pre fun _ _ => trivial) (.ret _)) fun _ => ?_
  refine .bind (tri_ready (k.blind he).keeps_iteration) fun _ => .bind (tri_computeStability he) fun _ => ?_
  exact .bind (tri_ready keeps_residual) fun _ => tri_ready keeps_norms

theorem blind_computeLength : Blind (computeLength o : Act (St K V Mat Fac) Unit) :=
  .getBind (fun _ => rfl) fun _ => .ite (.throw _) (.modify fun _ => rfl)

theorem keeps_computeLength : Keeps system (computeLength o : Act (St K V Mat Fac) Unit) :=
  .bind .get fun _ => .ite (.throw _) (.modify fun _ => rfl)

theorem blind_finish (he : Steady e) (k : Kind) : Blind (finishStep o (k.method e o)) :=
  .bind (k.blind he).iterationFinish fun _ => .getBind (fun _ => rfl) fun _ =>
    .ite blind_computeLength (.modify fun _ => rfl)

theorem tri_finish (he : Steady e) (k : Kind) : Tri (Ready e) (finishStep o (k.method e o)) (Ready e) :=
  tri_ready (.bind (k.blind he).keeps_finish fun _ => .bind .get fun _ =>
    .ite keeps_computeLength (.modify fun _ => rfl))

theorem sim_iterate (he : Steady e) (v : Bool) (k : Kind) (n : ℕ) :
    Sim False (Ready e) (iterateV v e o k n) (iterate e o (k.method e o) n) (Ready e) := by
  induction n with
  | zero => exact .ret ()
  | succ n ih =>
    unfold iterateV iterate
    refine .bind (.quiet (blind_body he k) False.elim (tri_body he k)) fun _ => ?_
    refine .before (.choose v (sim_stepOutput he k)) ?_
    refine .getBind (fun _ => rfl) fun s => .ite ?_ (.ite ?_ ?_)
    · exact .quiet (blind_finish he k) False.elim (tri_finish he k)
    · exact .quiet (.bind (.emit _) fun _ => .throw _) False.elim (.bind (Q := Ready e) (.modify fun _ h => h) fun _ => .throw _)
    · exact .bind (.quiet (.modify fun _ => rfl) False.elim (.modify fun _ h => h)) fun _ => ih

theorem blind_assert : Blind (assertInitialized : Act (St K V Mat Fac) Unit) :=
  .getBind (fun _ => rfl) fun _ => .ite (.bind (.emit _) fun _ => .throw _) (.ret _)

theorem blind_predict (he : Steady e) (k : Kind) : Blind (predictStep e (k.method e o)) :=
  .bind (.modify fun _ => rfl) fun _ => .bind (k.blind he).initiateStep fun _ => .getBind (fun _ => rfl) fun _ =>
    .ite (k.blind he).predictorGuess (k.blind he).predictor

/-- The predictor leaves the Jacobian at the starting point. -/
theorem tri_predict (he : Steady e) (k : Kind) (U : V) :
    Tri (fun s => s.U = U) (predictStep e (k.method e o)) fun s => Ready e s ∧ Tangent e U s := by
  refine .bind (.modify fun _ h => h) fun _ => .bind ((k.blind he).start U) fun _ => .getBind fun _ => ?_
  exact Tri.pre (.ite ((k.blind he).guess U) ((k.blind he).first U)) fun _ => And.left

theorem Act.ext' {σ : Type} {m m' : Act σ α} (h : ∀ s, m s = m' s) : m = m' := by
  cases m
  cases m'
  congr
  exact funext h

/-- `_step` in the order in which the output is interspersed. -/
theorem stepRaw_eq (e : Env K V Mat Fac) (o : Opts K) (M : Method K V Mat Fac) :
    stepRaw e o M = (assertInitialized >>= fun _ => predictStep e M >>= fun _ => computeResidual e >>= fun _ =>
      computeResidualNorms e >>= fun _ => (if o.quasi then M.quasiPredictor else pure ()) >>= fun _ =>
        Act.modify (fun s => { s with stabilityPrev := s.stability, numIt := 1 }) >>= fun _ =>
          iterate e o M (o.maxIt - 1) : Act _ Unit) := by
  refine Act.ext' fun s => ?_
  unfold stepRaw beginStep assertInitialized predictStep
  simp only [Act.bind_apply, Act.get_apply]
  by_cases h : s.initialized = false
  · simp only [h, if_true]
    rfl
  · simp only [h]
    rfl

theorem sim_stepRaw (he : Steady e) (v : Bool) (k : Kind) :
    Sim False (fun _ => True) (stepRawV v e o k) (stepRaw e o (k.method e o)) (Ready e) := by
  rw [stepRaw_eq]
  unfold stepRawV
  refine .bind (.quiet blind_assert False.elim fun _ _ _ _ _ => trivial) fun _ => ?_
  refine .before (.choose v (.printLine _)) ?_
  refine .bind (Q := Ready e) (.quiet (blind_predict he k) False.elim ?_) fun _ => ?_
  · intro s t a _ hr
    exact (tri_predict he k s.U s t a rfl hr).1
  refine .bind (.quiet (.computeResidual he) False.elim (tri_ready keeps_residual)) fun _ => ?_
  refine .bind (.quiet .computeResidualNorms False.elim (tri_ready keeps_norms)) fun _ => ?_
  refine .before (.choose v (sim_stepOutput he k)) ?_
  refine .bind (.quiet (.ite (k.blind he).quasiPredictor (.ret _)) False.elim
    (.ite ((k.blind he).ready_quasiPredictor.pre fun _ _ => trivial) (.ret _))) fun _ => ?_
  exact .bind (.quiet (.modify fun _ => rfl) False.elim (.modify fun _ h => h)) fun _ => sim_iterate he v k _

/-- The handlers with output. -/
theorem sim_caught {b : Prop} {P Q : St K V Mat Fac → Prop} {m : Act (Printing K V Mat Fac) Unit}
    {m' : Act (St K V Mat Fac) Unit} (hm : Sim b P m m' Q) {f : St K V Mat Fac → St K V Mat Fac}
    (hf : ∀ s t, forget s = forget t → (b → s.status = t.status) →
      forget (f s) = forget (f t) ∧ (f s).status = (f t).status) {s t : St K V Mat Fac} {out : List (Line K)}
    (hst : forget s = forget t) (hb : b → s.status = t.status) (hP : P s) :
    (caughtV m f (s, out)).2 = (caught m' f t).2 ∧ forget (caughtV m f (s, out)).1.1 = forget (caught m' f t).1 ∧
      ∀ a, (caughtV m f (s, out)).2 = .ok a → (caughtV m f (s, out)).1.1.status = (caught m' f t).1.status := by
  obtain ⟨h1, h2, h3⟩ := hm s t out hst hb hP
  rcases hr : m (s, out) with ⟨⟨s', out'⟩, x | ⟨⟩⟩ <;> rcases hr' : m' t with ⟨t', y | ⟨⟩⟩ <;>
    simp only [hr, hr'] at h1 h2 h3
  · cases h1
    unfold caughtV caught
    simp only [hr, hr']
    have h4 : ∀ st, forget { s' with status := st } = forget { t' with status := st } := fun st => h2
    cases x with
    | ub => exact ⟨rfl, h2, fun a ha => by cases ha⟩
    | _ => exact ⟨rfl, h4 _, fun _ _ => rfl⟩
  · cases h1
  · cases h1
  · obtain ⟨h4, h5⟩ := hf s' t' h2 (h3 () trivial).1
    unfold caughtV caught
    simp only [hr, hr']
    exact ⟨by rw [h5], h4, fun _ _ => h5⟩

/-- `step` with output gives the status of `step` and the same state up to `forget`. -/
theorem sim_step (he : Steady e) (v : Bool) (k : Kind) {s t : St K V Mat Fac} (out : List (Line K))
    (hst : forget s = forget t) :
    (stepV v e o k (s, out)).2 = (step e o (k.method e o) t).2 ∧
      forget (stepV v e o k (s, out)).1.1 = forget (step e o (k.method e o) t).1 ∧
      ∀ a, (stepV v e o k (s, out)).2 = .ok a →
        (stepV v e o k (s, out)).1.1.status = (step e o (k.method e o) t).1.status :=
  sim_caught (f := fun t => { t with status := .success }) (sim_stepRaw he v k) (fun _ _ h _ => ⟨h, rfl⟩) hst
    False.elim trivial

end GsSA.ALM
