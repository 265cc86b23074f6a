import Verif.ALM.ConfigProps

/-!
# Which members a step reads before it writes them

`clear g` forgets the members marked by `g`; an action that maps states that agree after `clear g` to states that
agree after `clear h`, with the same result, does not read the forgotten members before it has written them. This
is used for members that are not initialised (C112) and for those left by earlier steps (C113).
-/

namespace GsSA.ALM

set_option linter.unusedSectionVars false

variable {K V Mat Fac : Type} [Field K] [LinearOrder K] [IsStrictOrderedRing K] [AddCommGroup V] [Module K V]
variable [Inhabited Mat] {e : Env K V Mat Fac} {o : Opts K} {α β : Type}

/-- Groups of members. -/
inductive Part
  | dL | dU | D | phi | res | basis | vec | stab | stabVec | prev | Lprev | DLold | run | mat | Ut | Ubar | log
  deriving DecidableEq

/-- Which groups are forgotten. -/
abbrev Mask := Part → Bool

/-- Forget `x` if `b`. -/
def pick (b : Bool) (d x : α) : α := bif b then d else x

@[simp] theorem pick_pick (b : Bool) (d x : α) : pick b d (pick b d x) = pick b d x := by cases b <;> rfl

@[simp] theorem pick_false (d x : α) : pick false d x = x := rfl

@[simp] theorem pick_true (d x : α) : pick true d x = d := rfl

/-- Forget the marked members. `Lguess`, `status` and the members for singular points are always forgotten. -/
def clear (g : Mask) (s : St K V Mat Fac) : St K V Mat Fac :=
  { s with
    Lguess := 0
    residueKTPhi := 0
    status := .success
    v := 0
    DV := 0
    dV := 0
    dL := pick (g .dL) 0 s.dL
    dU := pick (g .dU) 0 s.dU
    DU := pick (g .D) 0 s.DU
    DL := pick (g .D) 0 s.DL
    phi := pick (g .phi) 0 s.phi
    residueF := pick (g .res) none s.residueF
    residueU := pick (g .res) none s.residueU
    basisF := pick (g .basis) 0 s.basisF
    basisU := pick (g .basis) 0 s.basisU
    resVec := pick (g .vec) 0 s.resVec
    negatives := pick (g .stab) 0 s.negatives
    indicator := pick (g .stab) 0 s.indicator
    stability := pick (g .stab) 0 s.stability
    stabVec := pick (g .stabVec) [] s.stabVec
    stabilityPrev := pick (g .prev) 0 s.stabilityPrev
    Lprev := pick (g .Lprev) 0 s.Lprev
    DLold := pick (g .DLold) 0 s.DLold
    converged := pick (g .run) false s.converged
    numIt := pick (g .run) 0 s.numIt
    jac := pick (g .mat) default s.jac
    fac := pick (g .mat) none s.fac
    Ut := pick (g .Ut) 0 s.Ut
    Ubar := pick (g .Ubar) 0 s.Ubar
    log := pick (g .log) [] s.log }

/-- `g` forgets at most what `h` forgets. -/
def Mask.Le (g h : Mask) : Prop := ∀ p, g p = true → h p = true

/-- Remember a group. -/
def Mask.drop (g : Mask) (p : Part) : Mask := fun q => if q = p then false else g q

theorem Mask.Le.refl (g : Mask) : g.Le g := fun _ => id

theorem Mask.Le.trans {g h i : Mask} (h1 : g.Le h) (h2 : h.Le i) : g.Le i := fun p => h2 p ∘ h1 p

theorem Mask.drop_le (g : Mask) (p : Part) : (g.drop p).Le g := by
  intro q hq
  unfold Mask.drop at hq
  split at hq
  · cases hq
  · exact hq

theorem Mask.drop_mono {g h : Mask} (hle : g.Le h) (p : Part) : (g.drop p).Le (h.drop p) := by
  intro q hq
  unfold Mask.drop at hq ⊢
  split at hq
  · cases hq
  · rename_i hn
    rw [if_neg hn]
    exact hle q hq

/-- If a group is remembered already. -/
theorem Mask.le_drop {g : Mask} {p : Part} (h : g p = false) : g.Le (g.drop p) := by
  intro q hq
  unfold Mask.drop
  split
  · rename_i hp
    rw [hp, h] at hq
    cases hq
  · exact hq

theorem pick_le {b c : Bool} (h : b = true → c = true) (d x : α) : pick c d (pick b d x) = pick c d x := by
  cases b
  · rfl
  · rw [h rfl]
    rfl

theorem clear_clear {g h : Mask} (hle : g.Le h) (s : St K V Mat Fac) : clear h (clear g s) = clear h s := by
  simp only [clear, pick_le (hle _)]

theorem clear_of_le {g h : Mask} (hle : g.Le h) {s t : St K V Mat Fac} (hst : clear g s = clear g t) :
    clear h s = clear h t := by
  rw [← clear_clear hle s, hst, clear_clear hle]

/-- From states that agree up to `g` the action gives the same result and states that agree up to `h` if it
returns, up to `w` if it throws. -/
def Flow (w g h : Mask) (m : Act (St K V Mat Fac) α) : Prop :=
  ∀ s t, clear g s = clear g t →
    (m s).2 = (m t).2 ∧ (∀ a, (m s).2 = .ok a → clear h (m s).1 = clear h (m t).1) ∧
      clear w (m s).1 = clear w (m t).1

variable {w g h i : Mask}

theorem Flow.pure (hw : g.Le w) (a : α) : Flow w g g (pure a : Act (St K V Mat Fac) α) :=
  fun _ _ h => ⟨rfl, fun _ _ => h, clear_of_le hw h⟩

theorem Flow.throw (hw : g.Le w) (x : Err) : Flow w g h (Act.throw x : Act (St K V Mat Fac) α) :=
  fun _ _ hst => ⟨rfl, fun a ha => by (cases ha), clear_of_le hw hst⟩

theorem Flow.modify {f : St K V Mat Fac → St K V Mat Fac} (hw : h.Le w)
    (hf : ∀ s, clear h (f (clear g s)) = clear h (f s)) : Flow w g h (Act.modify f) := by
  intro s t hst
  have : clear h (f s) = clear h (f t) := by rw [← hf s, hst, hf t]
  exact ⟨rfl, fun _ _ => this, clear_of_le hw this⟩

theorem Flow.bind {m : Act (St K V Mat Fac) α} {f : α → Act (St K V Mat Fac) β} (hm : Flow w g h m)
    (hf : ∀ a, Flow w h i (f a)) : Flow w g i (m >>= f) := by
  intro s t hst
  obtain ⟨h1, h2, h3⟩ := hm s t hst
  simp only [Act.bind_apply]
  rcases hs : m s with ⟨s', x | a⟩ <;> rcases ht : m t with ⟨t', y | b⟩ <;> simp only [hs, ht] at h1 h2 h3
  · cases h1
    exact ⟨rfl, fun _ ha => by (cases ha), h3⟩
  · cases h1
  · cases h1
  · cases h1
    exact hf a s' t' (h2 a rfl)

theorem Flow.getBind {f : St K V Mat Fac → Act (St K V Mat Fac) β} (h1 : ∀ s, f (clear g s) = f s)
    (hf : ∀ s, Flow w g h (f s)) : Flow w g h (Act.get >>= f) := by
  intro s t hst
  simp only [Act.bind_apply, Act.get_apply]
  have : f s = f t := by rw [← h1 s, hst, h1 t]
  rw [← this]
  exact hf s s t hst

theorem Flow.ite {c : Prop} [Decidable c] {m₁ m₂ : Act (St K V Mat Fac) α} (h₁ : Flow w g h m₁)
    (h₂ : Flow w g h m₂) : Flow w g h (if c then m₁ else m₂) := by
  split
  · exact h₁
  · exact h₂

theorem Flow.weaken {m : Act (St K V Mat Fac) α} {g' h' : Mask} (hm : Flow w g h m) (hg : g'.Le g) (hh : h.Le h') :
    Flow w g' h' m := by
  intro s t hst
  obtain ⟨h1, h2, h3⟩ := hm s t (clear_of_le hg hst)
  exact ⟨h1, fun a ha => clear_of_le hh (h2 a ha), h3⟩

/-! ### What the callbacks must satisfy -/

/-- The callbacks and the solver are functions of their arguments: they return the same at every call. -/
structure Steady (e : Env K V Mat Fac) : Prop where
  residual : ∀ n m, e.residual n = e.residual m
  jacobian : ∀ n m, e.jacobian n = e.jacobian m
  factorize : ∀ n m, e.factorize n = e.factorize m
  solve : ∀ n m, e.solve n = e.solve m
  eigs : ∀ n m, e.eigs n = e.eigs m

/-- The Jacobian does not depend on the increment, as with the first constructor. -/
def OneArg (e : Env K V Mat Fac) : Prop := ∀ n U d d', e.jacobian n U d = e.jacobian n U d'

/-- What may be forgotten, given the callbacks and the options. -/
structure Ok (e : Env K V Mat Fac) (o : Opts K) (w g : Mask) : Prop where
  le : g.Le w
  log : g .log = true → Steady e
  dU : g .dU = true → OneArg e
  vec : g .stabVec = true → o.bifMethod ≠ .other

theorem Ok.mono (hw : Ok e o w g) (hle : h.Le g) : Ok e o w h :=
  ⟨hle.trans hw.le, fun hl => hw.log (hle _ hl), fun hl => hw.dU (hle _ hl), fun hl => hw.vec (hle _ hl)⟩

theorem Ok.drop (hw : Ok e o w g) (p : Part) : Ok e o w (g.drop p) := hw.mono (g.drop_le p)

theorem Ok.residual (hw : Ok e o w g) (s : St K V Mat Fac) :
    e.residual (clear g s).log.length = e.residual s.log.length := by
  cases hl : g .log
  · simp [clear, hl]
  · exact (hw.log hl).residual _ _

theorem Ok.jacobian (hw : Ok e o w g) (s : St K V Mat Fac) :
    e.jacobian (clear g s).log.length = e.jacobian s.log.length := by
  cases hl : g .log
  · simp [clear, hl]
  · exact (hw.log hl).jacobian _ _

theorem Ok.factorize (hw : Ok e o w g) (s : St K V Mat Fac) :
    e.factorize (clear g s).log.length = e.factorize s.log.length := by
  cases hl : g .log
  · simp [clear, hl]
  · exact (hw.log hl).factorize _ _

theorem Ok.solve (hw : Ok e o w g) (s : St K V Mat Fac) :
    e.solve (clear g s).log.length = e.solve s.log.length := by
  cases hl : g .log
  · simp [clear, hl]
  · exact (hw.log hl).solve _ _

theorem Ok.eigs (hw : Ok e o w g) (s : St K V Mat Fac) :
    e.eigs (clear g s).log.length = e.eigs s.log.length := by
  cases hl : g .log
  · simp [clear, hl]
  · exact (hw.log hl).eigs _ _

/-! ### The parts of a step -/

theorem Flow.emit (hw : g.Le w) (x : Event) : Flow w g g (emit x : Act (St K V Mat Fac) Unit) :=
  .modify hw fun s => by
    cases hl : g .log <;> simp [clear, hl]

theorem Flow.evalResidual (hw : Ok e o w g) (U : V) (L : K) : Flow w g g (evalResidual e U L) := by
  refine .getBind (fun s => by simp only [hw.residual]) fun s => ?_
  split
  · exact .bind (.emit hw.le _) fun _ => .pure hw.le _
  · exact .bind (.emit hw.le _) fun _ => .throw hw.le _

theorem Flow.computeResidual (hw : Ok e o w g) (hD : g .D = false) : Flow w g (g.drop .vec) (computeResidual e) := by
  refine .getBind (fun s => by simp only [clear, hD, pick_false]) fun s => ?_
  exact .bind (.evalResidual hw _ _) fun r => .modify (hw.drop _).le fun s => by simp [clear, Mask.drop]

theorem Flow.factorizeMatrix (hw : Ok e o w g) (hg : g .mat = false) (m : Mat) :
    Flow w g g (ALM.factorizeMatrix e m) := by
  refine .getBind (fun s => by simp only [hw.factorize]) fun s => ?_
  split
  · exact .bind (h := g) (.modify hw.le fun s => by simp [clear, hg]) fun _ => .emit hw.le _
  · exact .bind (h := g) (.modify hw.le fun s => by simp [clear, hg]) fun _ =>
      .bind (.emit hw.le _) fun _ => .throw hw.le _

/-- Before the matrix is known: only the factorisation is. -/
theorem Flow.factorizeFirst (hw : Ok e o w g) (m : Mat) : Flow w g g (ALM.factorizeMatrix e m) := by
  refine .getBind (fun s => by simp only [hw.factorize]) fun s => ?_
  split
  · exact .bind (h := g) (.modify hw.le fun s => by cases hm : g .mat <;> simp [clear, hm]) fun _ => .emit hw.le _
  · exact .bind (h := g) (.modify hw.le fun s => by cases hm : g .mat <;> simp [clear, hm]) fun _ =>
      .bind (.emit hw.le _) fun _ => .throw hw.le _

/-- The matrix is stored and factorised. -/
theorem Flow.storeMatrix (hw : Ok e o w g) (m : Mat) :
    Flow w g (g.drop .mat) (Act.modify (fun s : St K V Mat Fac => { s with jac := m }) >>= fun _ =>
      ALM.factorizeMatrix e m) := by
  intro s t hst
  have hlog : e.factorize s.log.length = e.factorize t.log.length := by
    rw [← hw.factorize s, hst, hw.factorize t]
  have hemit : ∀ (x : Option Fac) (b : Event), clear (g.drop .mat)
      { s with jac := m, fac := x, log := b :: s.log } =
        clear (g.drop .mat) { t with jac := m, fac := x, log := b :: t.log } := by
    intro x b
    have key : ∀ u : St K V Mat Fac, clear (g.drop .mat) { u with jac := m, fac := x, log := b :: u.log } =
        clear (g.drop .mat) { clear g u with jac := m, fac := x, log := b :: (clear g u).log } := by
      intro u
      cases hl : g .log <;> simp [clear, Mask.drop, hl]
    rw [key s, hst, ← key t]
  have run : ∀ u : St K V Mat Fac, (Act.modify (fun s : St K V Mat Fac => { s with jac := m }) >>= fun _ =>
      ALM.factorizeMatrix e m) u = match e.factorize u.log.length m with
        | some f => ({ u with jac := m, fac := some f, log := .factor true :: u.log }, .ok ())
        | none => ({ u with jac := m, fac := none, log := .factor false :: u.log }, .error .solver) := by
    intro u
    rw [Act.bind_ok (Act.modify_apply _ _)]
    unfold ALM.factorizeMatrix
    rw [Act.bind_ok (Act.get_apply _)]
    rcases hf : e.factorize u.log.length m with _ | f <;> rfl
  rw [run, run, hlog]
  split
  · exact ⟨rfl, fun _ _ => hemit _ _, clear_of_le (hw.drop _).le (hemit _ _)⟩
  · exact ⟨rfl, fun _ ha => by (cases ha), clear_of_le (hw.drop _).le (hemit _ _)⟩

theorem Flow.solveSystem (hw : Ok e o w g) (hg : g .mat = false) (b : V) : Flow w g g (solveSystem e b) := by
  refine .getBind (fun s => ?_) fun s => ?_
  · have : (clear g s).fac = s.fac := by simp [clear, hg]
    simp only [hw.solve, this]
  · split
    · exact .bind (.emit hw.le _) fun _ => .pure hw.le _
    · exact .bind (.emit hw.le _) fun _ => .throw hw.le _

theorem Flow.computeJacobianAt (hw : Ok e o w g) (U dU : V) : Flow w g g (computeJacobianAt e U dU) := by
  refine .getBind (fun s => by simp only [hw.jacobian]) fun s => ?_
  split
  · exact .bind (.emit hw.le _) fun _ => .bind (.factorizeFirst hw _) fun _ => .pure hw.le _
  · exact .bind (.emit hw.le _) fun _ => .throw hw.le _

theorem OneArg.at (h : OneArg e) (U d d' : V) : ALM.computeJacobianAt e U d = ALM.computeJacobianAt e U d' := by
  simp only [ALM.computeJacobianAt]
  congr 1
  funext s
  rw [h _ U d d']

theorem Flow.assembleFactorize (hw : Ok e o w g) (hD : g .D = false) :
    Flow w g (g.drop .mat) (assembleFactorize e) := by
  refine .getBind (fun s => ?_) fun s => ?_
  · have h1 : ALM.computeJacobianAt e ((clear g s).U + (clear g s).DU) (clear g s).dU =
        ALM.computeJacobianAt e (s.U + s.DU) s.dU := by
      cases hd : g .dU
      · simp [clear, hD, hd]
      · rw [(hw.dU hd).at _ _ s.dU]
        simp [clear, hD]
    simp only [h1]
  · exact .bind (.computeJacobianAt hw _ _) fun m => .storeMatrix hw m

theorem Flow.computeUbar (hw : Ok e o w g) (hg : g .mat = false) (hv : g .vec = false) :
    Flow w g (g.drop .Ubar) (computeUbar e) := by
  refine .getBind (fun s => by simp only [clear, hv, pick_false]) fun s => ?_
  exact .bind (.solveSystem hw hg _) fun m => .modify (hw.drop _).le fun s => by simp [clear, Mask.drop]

theorem Flow.computeUt (hw : Ok e o w g) (hg : g .mat = false) : Flow w g (g.drop .Ut) (computeUt e) :=
  .bind (.solveSystem hw hg _) fun m => .modify (hw.drop _).le fun s => by simp [clear, Mask.drop]

/-- The norms in the iterations. -/
theorem Flow.norms (hw : Ok e o w g) (hr : g .run = false) (hb : g .basis = false) (hv : g .vec = false)
    (hd : g .dU = false) (hD : g .D = false) : Flow w g (g.drop .res) (computeResidualNorms e) := by
  refine .modify (hw.drop _).le fun s => ?_
  have h0 : (clear g s).numIt = s.numIt := by simp [clear, hr]
  rw [h0]
  by_cases h0 : s.numIt = 0
  · rw [if_pos h0, if_pos h0]
    simp [clear, Mask.drop, hv, hd, hD]
  · rw [if_neg h0, if_neg h0]
    simp [clear, Mask.drop, hv, hd, hb]

/-- The norms after the predictor. -/
theorem Flow.firstNorms (hr : g .run = false) (hv : g .vec = false)
    (hd : g .dU = false) (hD : g .D = false) :
    ∀ s t, s.numIt = 0 → clear g s = clear g t →
      clear ((g.drop .res).drop .basis) (computeResidualNorms e s).1 =
        clear ((g.drop .res).drop .basis) (computeResidualNorms e t).1 := by
  intro s t h0 hst
  have key : ∀ u : St K V Mat Fac, u.numIt = 0 →
      clear ((g.drop .res).drop .basis) (ALM.computeResidualNorms e u).1 =
        clear ((g.drop .res).drop .basis) (ALM.computeResidualNorms e (clear g u)).1 := by
    intro u hu
    have : (clear g u).numIt = 0 := by simp [clear, hr, hu]
    simp only [ALM.computeResidualNorms, Act.modify_apply]
    rw [if_pos hu, if_pos this]
    simp [clear, Mask.drop, hv, hd, hD]
  have ht : t.numIt = 0 := by
    have : (clear g s).numIt = (clear g t).numIt := by rw [hst]
    simp only [clear, hr, pick_false] at this
    rw [← this, h0]
  rw [key s h0, hst, ← key t ht]

theorem Flow.stabilityVector (hw : Ok e o w g) (hm : g .mat = false) (shift : K) :
    Flow w g (g.drop .stabVec) (stabilityVector e o shift) := by
  refine .getBind (fun s => ?_) fun s => ?_
  · have : (clear g s).jac = s.jac := by simp [clear, hm]
    simp only [this, hw.eigs]
  · split
    · exact .bind (.factorizeMatrix hw hm _) fun _ => .modify (hw.drop _).le fun s => by simp [clear, Mask.drop, hm]
    · split
      · exact .bind (.emit hw.le _) fun _ => .modify (hw.drop _).le fun s => by simp [clear, Mask.drop]
      · exact .bind (.emit hw.le _) fun _ => .throw hw.le _
    · exact .modify (hw.drop _).le fun s => by simp [clear, Mask.drop]
    · rename_i ho
      refine (Flow.pure hw.le _).weaken (Mask.Le.refl _) (Mask.le_drop ?_)
      cases hs : g .stabVec
      · rfl
      · exact absurd ho (hw.vec hs)

/-- The groups known after the stability has been computed. -/
abbrev Mask.known (g : Mask) : Mask := (g.drop .stabVec).drop .stab

theorem Flow.stabilityTail (hw : Ok e o w g) (hm : g .mat = false) (shift : K) :
    Flow w g g.known (ALM.stabilityVector e o shift >>= fun _ => Act.get >>= fun s : St K V Mat Fac =>
      match minCoeff s.stabVec with
      | none => Act.throw .other
      | some m => Act.modify fun s =>
          { s with negatives := countNegatives s.stabVec, indicator := m, stability := stabilityOf m }) := by
  refine .bind (.stabilityVector hw hm _) fun _ => .getBind (fun s => ?_) fun s => ?_
  · have : (clear (g.drop .stabVec) s).stabVec = s.stabVec := by simp [clear, Mask.drop]
    simp only [this]
  · split
    · exact .throw (hw.drop _).le _
    · exact .modify ((hw.drop _).drop _).le fun s => by simp [clear, Mask.drop]

theorem Flow.stabilityHere (hw : Ok e o w g) (hm : g .mat = false) (x : V) (shift : K) :
    Flow w g g.known (computeStabilityRaw e o x false shift) :=
  .bind (h := g) (by simpa using Flow.pure hw.le _) fun _ => .stabilityTail hw hm shift

theorem Flow.stabilityNew (hw : Ok e o w g) (x : V) (shift : K) :
    Flow w g (g.drop .mat).known (computeStabilityRaw e o x true shift) :=
  .bind (h := g.drop .mat)
    (by rw [if_pos rfl]; exact Flow.bind (.computeJacobianAt hw x 0) fun m => .storeMatrix hw m) fun _ =>
      .stabilityTail (hw.drop _) (by simp [Mask.drop]) shift

theorem Flow.caught {m : Act (St K V Mat Fac) Unit} (hm : Flow w g h m) :
    ∀ s t, clear g s = clear g t →
      (caught m (fun t => { t with status := .success }) s).2 =
        (caught m (fun t => { t with status := .success }) t).2 ∧
      clear w (caught m (fun t => { t with status := .success }) s).1 =
        clear w (caught m (fun t => { t with status := .success }) t).1 ∧
      ((caught m (fun t => { t with status := .success }) s).2 = .ok .success →
        clear h (caught m (fun t => { t with status := .success }) s).1 =
          clear h (caught m (fun t => { t with status := .success }) t).1) := by
  intro s t hst
  have hc : ∀ (g : Mask) (x : Status) (u : St K V Mat Fac), clear g { u with status := x } = clear g u :=
    fun _ _ _ => rfl
  obtain ⟨h1, h2, h3⟩ := hm s t hst
  simp only [ALM.caught]
  rcases hs : m s with ⟨s', x | a⟩ <;> rcases ht : m t with ⟨t', y | b⟩ <;> simp only [hs, ht] at h1 h2 h3
  · cases h1
    cases x <;> simp only [hc, h3] <;> simp [statusOf]
  · cases h1
  · cases h1
  · have := h2 () trivial
    simp only [hc, this, h3]
    simp

theorem Flow.computeStability (hw : Ok e o w g) (hm : g .mat = false) (shift : K) :
    Flow w g g (computeStability e o false shift) := by
  intro s t hst
  have hU : (clear g s).U = (clear g t).U := by rw [hst]
  replace hU : s.U = t.U := hU
  have hg : Ok e o g g := ⟨Mask.Le.refl g, hw.log, hw.dU, hw.vec⟩
  obtain ⟨h1, h2, -⟩ := (Flow.stabilityHere hg hm s.U shift).caught s t hst
  simp only [ALM.computeStability]
  rw [← hU]
  exact ⟨h1, fun _ _ => h2, clear_of_le hw.le h2⟩

theorem Flow.zeroIncrements (hw : g.Le w) :
    Flow w g (((g.drop .D).drop .dU).drop .dL) (zeroIncrements : Act (St K V Mat Fac) Unit) :=
  .modify ((Mask.drop_le _ _).trans ((Mask.drop_le _ _).trans ((Mask.drop_le _ _).trans hw))) fun s => by
    simp [clear, Mask.drop]

theorem Flow.acceptStep (hw : g.Le w) (hD : g .D = false) :
    Flow w g (g.drop .Lprev) (acceptStep : Act (St K V Mat Fac) Unit) :=
  .modify ((Mask.drop_le _ _).trans hw) fun s => by
    cases hr : g .run <;> simp [clear, Mask.drop, hD, hr]

theorem Flow.quasiIterationUt (hw : Ok e o w g) (hD : g .D = false) :
    Flow w g ((g.drop .mat).drop .Ut) (quasiIterationUt e) :=
  .bind (.assembleFactorize hw hD) fun _ => .computeUt (hw.drop _) (by simp [Mask.drop])

theorem Flow.quasiPredictorUt (hw : Ok e o w g) (hD : g .D = false) (hv : g .vec = false) :
    Flow w g (((g.drop .mat).drop .Ut).drop .Ubar) (quasiPredictorUt e) :=
  .bind (.assembleFactorize hw hD) fun _ => .bind (.computeUt (hw.drop _) (by simp [Mask.drop])) fun _ =>
    .computeUbar ((hw.drop _).drop _) (by simp [Mask.drop]) (by simp [Mask.drop, hv])

theorem Flow.computeLength (hw : g.Le w) (hr : g .run = false) :
    Flow w g g (computeLength o : Act (St K V Mat Fac) Unit) := by
  refine .getBind (fun s => by simp only [clear, hr, pick_false]) fun s =>
    .ite (.throw hw _) (.modify hw fun s => by simp [clear, hr])

/-- What the step of a method must satisfy: `w` is what may be forgotten before the step, `f` after the predictor,
and `g` after the first residual. The tangent may then still be unknown. -/
structure Sound (e : Env K V Mat Fac) (o : Opts K) (M : Method K V Mat Fac) (w f g : Mask) : Prop where
  ok : Ok e o w f
  le : (((f.drop .vec).drop .res).drop .basis).Le g
  ge : g.Le f
  dU : f .dU = false
  D : f .D = false
  run : f .run = false
  mat : f .mat = false
  basis : g .basis = false
  vec : g .vec = false
  res : g .res = true
  prev : g .prev = true
  /-- The predictor, after `initiateStep`. -/
  start : Flow w (w.drop .run) f (M.initiateStep >>= fun _ => M.predictor)
  quasiPredictor : Flow w g (g.drop .Ut) M.quasiPredictor
  quasiIteration : Flow w g (g.drop .Ut) M.quasiIteration
  iteration : Flow w (g.drop .Ut) (g.drop .Ut) M.iteration
  iterationFinish : Flow w (g.drop .Ut) (g.drop .Ut) M.iterationFinish
  initiate : ∀ s, (M.initiateStep s).2 = .ok () ∧ (M.initiateStep s).1.guess = s.guess
  /-- The predictor keeps the number of iterations. -/
  numIt : Keeps (fun s => s.numIt) (M.initiateStep >>= fun _ => M.predictor)

variable {f : Mask} {M : Method K V Mat Fac}

theorem Sound.known (hM : Sound e o M w f g) :
    Ok e o w g ∧ g .dU = false ∧ g .D = false ∧ g .run = false ∧ g .mat = false := by
  have key : ∀ {p}, f p = false → g p = false := fun {p} h => by
    cases hg : g p
    · rfl
    · rw [hM.ge p hg] at h
      cases h
  exact ⟨hM.ok.mono hM.ge, key hM.dU, key hM.D, key hM.run, key hM.mat⟩

theorem Flow.finishStep (hM : Sound e o M w f g) : Flow w (g.drop .Ut) (g.drop .Ut) (finishStep o M) := by
  obtain ⟨hw, -, -, hr, -⟩ := hM.known
  exact .bind hM.iterationFinish fun _ => .getBind (fun _ => rfl) fun s =>
    .ite (.computeLength (hw.drop _).le (by simp [Mask.drop, hr])) (.modify (hw.drop _).le fun s => by simp [clear])

/-- An iteration; before the first one the tangent may be unknown, unless the quasi-Newton method is used. -/
theorem Flow.iterationBody (hM : Sound e o M w f g) :
    Flow w (bif o.quasi then g.drop .Ut else g) ((g.drop .Ut).drop .res) (iterationBody e o M) := by
  obtain ⟨hw, hd, hD, hr, hm⟩ := hM.known
  have hw' := hw.drop .Ut
  have hle : (g.drop .vec).Le g := Mask.drop_le _ _
  refine .getBind (fun s => ?_) fun s => .bind (h := g.drop .Ut) ?_ fun _ =>
    .bind hM.iteration fun _ => .bind (.computeStability hw' (by simp [Mask.drop, hm]) _) fun _ =>
      .bind ((Flow.computeResidual hw' (by simp [Mask.drop, hD])).weaken (Mask.Le.refl _) (Mask.drop_le _ _))
        fun _ => .norms hw' (by simp [Mask.drop, hr]) (by simp [Mask.drop, hM.basis]) (by simp [Mask.drop, hM.vec])
          (by simp [Mask.drop, hd]) (by simp [Mask.drop, hD])
  · have : (clear (bif o.quasi then g.drop .Ut else g) s).numIt = s.numIt := by
      cases o.quasi <;> simp [clear, Mask.drop, hr]
    simp only [this]
  · cases hq : o.quasi
    · have : refreshes o s.numIt = true := by simp [refreshes, hq]
      rw [if_pos this]
      exact hM.quasiIteration
    · exact .ite (hM.quasiIteration.weaken (Mask.drop_le _ _) (Mask.Le.refl _)) (.pure hw'.le _)

theorem Flow.iterate (hM : Sound e o M w f g) (n : ℕ) :
    Flow w (bif o.quasi then g.drop .Ut else g) g (iterate e o M n) := by
  obtain ⟨hw, hd, hD, hr, hm⟩ := hM.known
  have hw' := (hw.drop .Ut).drop .res
  have hq : Mask.Le (bif o.quasi then g.drop .Ut else g) g := by
    cases o.quasi
    · exact Mask.Le.refl _
    · exact Mask.drop_le _ _
  have hq' : (g.drop .Ut).Le (bif o.quasi then g.drop .Ut else g) := by
    cases o.quasi
    · exact Mask.drop_le _ _
    · exact Mask.Le.refl _
  induction n with
  | zero => exact (Flow.pure hw.le _).weaken hq (Mask.Le.refl _)
  | succ n ih =>
    rw [ALM.iterate]
    refine .bind (.iterationBody hM) fun _ => .getBind (fun s => ?_) fun s => ?_
    · have h1 : (clear ((g.drop .Ut).drop .res) s).numIt = s.numIt := by simp [clear, Mask.drop, hr]
      have h2 : meets o (clear ((g.drop .Ut).drop .res) s) = meets o s := by
        simp [meets, clear, Mask.drop]
      simp only [h1, h2]
    · refine .ite ((Flow.finishStep hM).weaken (Mask.drop_le _ _) (Mask.drop_le _ _)) (.ite ?_ ?_)
      · exact .bind (.emit hw'.le _) fun _ => .throw hw'.le _
      · refine .bind (h := g.drop .Ut) (.modify (hw.drop .Ut).le fun s => ?_) fun _ =>
          ih.weaken hq' (Mask.Le.refl _)
        simp [clear, Mask.drop, hr]

/-- Without a guess, the predictor is chosen. -/
theorem choose_predictor (hM : Sound e o M w f g) (s : St K V Mat Fac) (hs : s.guess = none) :
    (M.initiateStep >>= fun _ => Act.get >>= fun u => if usesGuess e u then M.predictorGuess else M.predictor) s =
      (M.initiateStep >>= fun _ => M.predictor) s := by
  obtain ⟨h1, h2⟩ := hM.initiate s
  rcases hi : M.initiateStep s with ⟨u, x | a⟩
  · rw [hi] at h1
    cases h1
  · rw [hi] at h2
    rw [Act.bind_ok hi, Act.bind_ok hi, Act.bind_ok (Act.get_apply _), if_neg]
    simp only at h2
    simp [usesGuess, h2, hs]

theorem Flow.beginStep (hM : Sound e o M w f g) (s t : St K V Mat Fac)
    (hst : clear w s = clear w t) (hs : s.guess = none) :
    (beginStep e M s).2 = (beginStep e M t).2 ∧
      (∀ a, (beginStep e M s).2 = .ok a →
        clear f (beginStep e M s).1 = clear f (beginStep e M t).1 ∧ (beginStep e M s).1.numIt = 0) ∧
      clear w (beginStep e M s).1 = clear w (beginStep e M t).1 := by
  have ht : (clear w s).guess = (clear w t).guess := by rw [hst]
  replace ht : t.guess = none := ht.symm.trans hs
  have hin : (clear w s).initialized = (clear w t).initialized := by rw [hst]
  replace hin : s.initialized = t.initialized := hin
  have key : ∀ u : St K V Mat Fac, u.guess = none → u.initialized = true → ALM.beginStep e M u =
      (M.initiateStep >>= fun _ => M.predictor) { u with converged := false, numIt := 0 } := by
    intro u hu hi
    simp only [ALM.beginStep]
    have hi' : ¬ u.initialized = false := by simp [hi]
    rw [Act.bind_ok (Act.get_apply _), if_neg hi', Act.bind_ok (Act.pure_apply _ _),
        Act.bind_ok (Act.modify_apply _ _)]
    exact choose_predictor hM _ hu
  have hrun : clear (w.drop .run) { s with converged := false, numIt := 0 } =
      clear (w.drop .run) { t with converged := false, numIt := 0 } := by
    have key : ∀ u : St K V Mat Fac, clear (w.drop .run) { u with converged := false, numIt := 0 } =
        clear (w.drop .run) { clear w u with converged := false, numIt := 0 } := by
      intro u
      simp [clear, Mask.drop]
    rw [key s, hst, ← key t]
  cases hi : s.initialized
  · have hfail : ∀ u : St K V Mat Fac, u.initialized = false →
        ALM.beginStep e M u = ({ u with log := .failedAssert :: u.log }, .error .other) := by
      intro u hu
      simp only [ALM.beginStep]
      rw [Act.bind_ok (Act.get_apply _), if_pos hu]
      rfl
    rw [hfail s hi, hfail t (hin.symm.trans hi)]
    refine ⟨rfl, fun _ ha => by (cases ha), ?_⟩
    exact ((Flow.emit (Mask.Le.refl w) .failedAssert) s t hst).2.2
  · rw [key s hs hi, key t ht (hin.symm.trans hi)]
    obtain ⟨h1, h2, h3⟩ := hM.start _ _ hrun
    exact ⟨h1, fun a ha => ⟨h2 a ha, (hM.numIt _).trans rfl⟩, h3⟩

theorem Flow.stepTail (hM : Sound e o M w f g) (s t : St K V Mat Fac)
    (hst : clear f s = clear f t) (h0 : s.numIt = 0) :
    let m := (ALM.computeResidual e >>= fun _ => ALM.computeResidualNorms e >>= fun _ =>
      (if o.quasi then M.quasiPredictor else Pure.pure ()) >>= fun _ =>
        Act.modify (fun s : St K V Mat Fac => { s with stabilityPrev := s.stability, numIt := 1 }) >>= fun _ =>
          ALM.iterate e o M (o.maxIt - 1))
    (m s).2 = (m t).2 ∧ (∀ a, (m s).2 = .ok a → clear g (m s).1 = clear g (m t).1) ∧
      clear w (m s).1 = clear w (m t).1 := by
  obtain ⟨hw, hd, hD, hr, hm⟩ := hM.known
  obtain ⟨h1, h2, h3⟩ := Flow.computeResidual hM.ok hM.D s t hst
  have hk : Keeps (fun s : St K V Mat Fac => s.numIt) (ALM.computeResidual e) := by
    have : Framed (fun s : St K V Mat Fac => s.numIt) := by constructor <;> intros <;> rfl
    exact this.computeResidual
  have hn := hk s
  dsimp only
  rcases hs : ALM.computeResidual e s with ⟨s', x | a⟩ <;> rcases ht : ALM.computeResidual e t with ⟨t', y | b⟩ <;>
    simp only [hs, ht] at h1 h2 h3 hn
  · cases h1
    rw [Act.bind_error hs, Act.bind_error ht]
    exact ⟨rfl, fun _ ha => by (cases ha), h3⟩
  · cases h1
  · cases h1
  · rw [Act.bind_ok hs, Act.bind_ok ht]
    have hn0 : s'.numIt = 0 := hn.trans h0
    have h4 := Flow.firstNorms (e := e) (g := f.drop .vec) (by simp [Mask.drop, hM.run]) (by simp [Mask.drop])
      (by simp [Mask.drop, hM.dU]) (by simp [Mask.drop, hM.D]) s' t' hn0 (h2 () trivial)
    have h5 := clear_of_le hM.le h4
    have hnorm : ∀ u : St K V Mat Fac, ALM.computeResidualNorms e u = ((ALM.computeResidualNorms e u).1, .ok ()) :=
      fun _ => rfl
    rw [Act.bind_ok (hnorm s'), Act.bind_ok (hnorm t')]
    have tail : Flow w g g ((if o.quasi then M.quasiPredictor else Pure.pure ()) >>= fun _ =>
        Act.modify (fun s : St K V Mat Fac => { s with stabilityPrev := s.stability, numIt := 1 }) >>= fun _ =>
          ALM.iterate e o M (o.maxIt - 1)) := by
      refine .bind (h := bif o.quasi then g.drop .Ut else g) ?_ fun _ =>
        .bind (h := bif o.quasi then g.drop .Ut else g) (.modify ?_ fun s => ?_) fun _ => .iterate hM _
      · cases o.quasi
        · exact .pure hw.le _
        · exact hM.quasiPredictor
      · cases o.quasi
        · exact hw.le
        · exact (hw.drop _).le
      · cases o.quasi <;> simp [clear, Mask.drop, hM.prev, hr]
    exact tail _ _ h5

/-- The step of a sound method gives the same status and states that agree up to `w`, for states without guess
that agree up to `w`; up to `g` if it succeeds. -/
theorem Sound.step (hM : Sound e o M w f g) (s t : St K V Mat Fac)
    (hst : clear w s = clear w t) (hs : s.guess = none) :
    (step e o M s).2 = (step e o M t).2 ∧ clear w (step e o M s).1 = clear w (step e o M t).1 ∧
      ((step e o M s).2 = .ok .success → clear g (step e o M s).1 = clear g (step e o M t).1) := by
  have hraw : (stepRaw e o M s).2 = (stepRaw e o M t).2 ∧
      (∀ a, (stepRaw e o M s).2 = .ok a → clear g (stepRaw e o M s).1 = clear g (stepRaw e o M t).1) ∧
      clear w (stepRaw e o M s).1 = clear w (stepRaw e o M t).1 := by
    obtain ⟨h1, h2, h3⟩ := Flow.beginStep hM s t hst hs
    simp only [stepRaw]
    rcases hs : beginStep e M s with ⟨s', x | a⟩ <;> rcases ht : beginStep e M t with ⟨t', y | b⟩ <;>
      simp only [hs, ht] at h1 h2 h3
    · cases h1
      rw [Act.bind_error hs, Act.bind_error ht]
      exact ⟨rfl, fun _ ha => by (cases ha), h3⟩
    · cases h1
    · cases h1
    · rw [Act.bind_ok hs, Act.bind_ok ht]
      obtain ⟨h4, h5⟩ := h2 () trivial
      exact Flow.stepTail hM s' t' h4 h5
  have hc : ∀ (g : Mask) (x : Status) (u : St K V Mat Fac), clear g { u with status := x } = clear g u :=
    fun _ _ _ => rfl
  obtain ⟨h1, h2, h3⟩ := hraw
  simp only [ALM.step, ALM.caught]
  rcases hs : stepRaw e o M s with ⟨s', x | a⟩ <;> rcases ht : stepRaw e o M t with ⟨t', y | b⟩ <;>
    simp only [hs, ht] at h1 h2 h3
  · cases h1
    cases x <;> simp only [hc, h3] <;> simp [statusOf]
  · cases h1
  · cases h1
  · have := h2 () trivial
    simp only [hc, this, h3]
    simp

/-! ### The four methods -/

/-- What may be forgotten before a step. `stab`: the stability; `hist`: what earlier steps have left, except for
the previous point and increment; `user`: is `phi` given by the user? -/
def before (k : Kind) (stab hist user : Bool) : Mask
  | .dL => true
  | .dU => hist
  | .D => hist
  | .phi => match k with
    | .loadControl => true
    | .riks => true
    | .consistent => false
    | .crisfield => !user
  | .res => true
  | .basis => true
  | .vec => hist
  | .stab => stab
  | .stabVec => hist
  | .prev => true
  | .Lprev => match k with
    | .loadControl => true
    | .riks => false
    | .consistent => false
    | .crisfield => true
  | .DLold => match k with
    | .loadControl => true
    | .riks => true
    | .consistent => true
    | .crisfield => false
  | .run => hist
  | .mat => true
  | .Ut => match k with
    | .consistent => hist && user
    | _ => hist
  | .Ubar => hist
  | .log => hist

/-- What is left of that after the predictor. -/
def between (k : Kind) (stab hist user : Bool) : Mask
  | .dL => false
  | .dU => false
  | .D => false
  | .phi => match k with
    | .loadControl => true
    | _ => false
  | .run => false
  | .mat => false
  | .Ut => match k with
    | .riks => hist
    | .consistent => hist && user
    | _ => false
  | p => before k stab hist user p

/-- What is left after the first residual. -/
def after (k : Kind) (stab hist user : Bool) : Mask
  | .basis => false
  | .vec => false
  | p => between k stab hist user p

theorem between_le (k : Kind) (stab hist user : Bool) : (between k stab hist user).Le (before k stab hist user) := by
  intro p
  cases p <;> cases k <;> simp [between, before]

theorem after_le (k : Kind) (stab hist user : Bool) : (after k stab hist user).Le (between k stab hist user) := by
  intro p
  cases p <;> simp [after, between]

theorem le_after (k : Kind) (stab hist user : Bool) :
    ((((between k stab hist user).drop .vec).drop .res).drop .basis).Le (after k stab hist user) := by
  intro p
  cases p <;> simp [after, between, Mask.drop]

/-- What is needed to forget what earlier steps have left. -/
structure Memoryless (e : Env K V Mat Fac) (o : Opts K) (k : Kind) : Prop where
  steady : Steady e
  bifMethod : o.bifMethod ≠ .other
  oneArg : k = .crisfield → OneArg e

theorem between_ok {k : Kind} {stab hist : Bool} (hh : hist = true → Memoryless e o k) :
    Ok e o (before k stab hist o.phiUser) (between k stab hist o.phiUser) where
  le := between_le _ _ _ _
  log h := (hh (by simpa [between, before] using h)).steady
  dU h := by simp [between] at h
  vec h := (hh (by simpa [between, before] using h)).bifMethod

theorem Flow.unitTangent (hw : Ok e o w g) (hm : g .mat = false) (hD : g .D = false) :
    Flow w g (((g.drop .Ut).drop .dU).drop .dL) (unitTangent e) :=
  .bind (.computeUt hw hm) fun _ => .modify (((hw.drop _).drop _).drop _).le fun s => by
    simp [clear, Mask.drop, hD]

theorem Flow.secant (hw : g.Le w) (U U' : V) (L L' : K) :
    Flow w g ((g.drop .dU).drop .dL) (secant U U' L L' : Act (St K V Mat Fac) Unit) :=
  .modify ((Mask.drop_le _ _).trans ((Mask.drop_le _ _).trans hw)) fun s => by simp [clear, Mask.drop]

theorem Flow.scaleByLength (hw : g.Le w) (hd : g .dL = false) (hu : g .dU = false) :
    Flow w g g (scaleByLength : Act (St K V Mat Fac) Unit) :=
  .modify hw fun s => by simp [clear, hd, hu]

theorem Flow.addIncrement (hw : g.Le w) (hd : g .dL = false) (hu : g .dU = false) (hD : g .D = false) :
    Flow w g g (Act.modify fun s : St K V Mat Fac => { s with DU := s.DU + s.dU, DL := s.DL + s.dL }) :=
  .modify hw fun s => by simp [clear, hd, hu, hD]

theorem framed_numIt : Framed (fun s : St K V Mat Fac => s.numIt) := by
  constructor <;> intros <;> rfl

theorem keeps_numIt_tangent : Keeps (fun s : St K V Mat Fac => s.numIt) (unitTangent e) :=
  .bind (framed_numIt.computeUt fun _ _ => rfl) fun _ => .modify fun _ => rfl

variable {stab hist : Bool}

/-- What is known after `zeroIncrements`. -/
def begunMask (k : Kind) (stab hist user : Bool) : Mask := ((((before k stab hist user).drop .run).drop .D).drop .dU).drop .dL

theorem begunMask_ok {k : Kind} (hh : hist = true → Memoryless e o k) :
    Ok e o (before k stab hist o.phiUser) (begunMask k stab hist o.phiUser) where
  le := (Mask.drop_le _ _).trans ((Mask.drop_le _ _).trans ((Mask.drop_le _ _).trans (Mask.drop_le _ _)))
  log h := (hh (by simpa [begunMask, Mask.drop, before] using h)).steady
  dU h := by simp [begunMask, Mask.drop] at h
  vec h := (hh (by simpa [begunMask, Mask.drop, before] using h)).bifMethod

theorem sound_loadControl (hh : hist = true → Memoryless e o .loadControl) :
    Sound e o (loadControl e) (before .loadControl stab hist o.phiUser) (between .loadControl stab hist o.phiUser)
      (after .loadControl stab hist o.phiUser) := by
  have hok := between_ok (stab := stab) hh
  have hiok := begunMask_ok (stab := stab) hh
  have hg := hok.mono (after_le .loadControl stab hist o.phiUser)
  refine ⟨hok, le_after _ _ _ _, after_le _ _ _ _, rfl, rfl, rfl, rfl, rfl, rfl, rfl, rfl, ?_, ?_, ?_, ?_, ?_,
    fun _ => ⟨rfl, rfl⟩, ?_⟩
  · refine .bind (.zeroIncrements (Mask.drop_le _ _)) fun _ => .bind (.assembleFactorize hiok rfl) fun _ => ?_
    refine .bind (h := (begunMask .loadControl stab hist o.phiUser).drop .mat) (.modify (hiok.drop _).le fun s => ?_)
      fun _ => .bind (.computeUt (hiok.drop _) (by simp [Mask.drop])) fun _ => .modify hok.le fun s => ?_
    · simp [clear, Mask.drop, begunMask]
    · simp [clear, Mask.drop, begunMask, before, between]
  · refine (Flow.bind (.assembleFactorize hg rfl) fun _ => .computeUbar (hg.drop _) rfl rfl).weaken
      (Mask.Le.refl _) ?_
    intro p
    cases p <;> simp [Mask.drop, after, between]
  · refine (Flow.assembleFactorize hg rfl).weaken (Mask.Le.refl _) ?_
    intro p
    cases p <;> simp [Mask.drop, after, between]
  · exact .bind (.computeUbar (hg.drop .Ut) rfl rfl) fun _ => .modify (hg.drop .Ut).le fun s => by
      simp [clear, Mask.drop, after, between]
  · exact (Flow.acceptStep (hg.drop _).le rfl).weaken (Mask.Le.refl _) (Mask.drop_le _ _)
  · refine .bind (.modify fun _ => rfl) fun _ => .bind framed_numIt.assembleFactorize fun _ =>
      .bind (.modify fun _ => rfl) fun _ => .bind (framed_numIt.computeUt fun _ _ => rfl) fun _ => .modify fun _ => rfl

theorem sound_riks (hh : hist = true → Memoryless e o .riks) :
    Sound e o (riks e) (before .riks stab hist o.phiUser) (between .riks stab hist o.phiUser)
      (after .riks stab hist o.phiUser) := by
  have hok := between_ok (stab := stab) hh
  have hiok := begunMask_ok (stab := stab) hh
  have hg := hok.mono (after_le .riks stab hist o.phiUser)
  refine ⟨hok, le_after _ _ _ _, after_le _ _ _ _, rfl, rfl, rfl, rfl, rfl, rfl, rfl, rfl, ?_, ?_, ?_, ?_, ?_,
    fun _ => ⟨rfl, rfl⟩, ?_⟩
  · refine .bind (.zeroIncrements (Mask.drop_le _ _)) fun _ => .bind (.assembleFactorize hiok rfl) fun _ => ?_
    refine .bind (h := between .riks stab hist o.phiUser) (.modify hok.le fun s => ?_) fun _ =>
      .getBind (fun s => ?_) fun s => ?_
    · simp [clear, Mask.drop, before, between]
    · rfl
    · refine .bind (h := between .riks stab hist o.phiUser) (.ite ?_ ?_) fun _ =>
        .bind (.scaleByLength hok.le rfl rfl) fun _ => .addIncrement hok.le rfl rfl rfl
      · exact (Flow.unitTangent hok rfl rfl).weaken (Mask.Le.refl _)
          ((Mask.drop_le _ _).trans ((Mask.drop_le _ _).trans (Mask.drop_le _ _)))
      · exact (Flow.secant hok.le _ _ _ _).weaken (Mask.Le.refl _) ((Mask.drop_le _ _).trans (Mask.drop_le _ _))
  · refine (Flow.quasiPredictorUt hg rfl rfl).weaken (Mask.Le.refl _) ?_
    intro p
    cases p <;> simp [Mask.drop]
  · refine (Flow.quasiIterationUt hg rfl).weaken (Mask.Le.refl _) ?_
    intro p
    cases p <;> simp [Mask.drop]
  · refine .bind (.computeUbar (hg.drop .Ut) rfl rfl) fun _ =>
      .bind (h := (after .riks stab hist o.phiUser).drop .Ut) (.modify (hg.drop .Ut).le fun s => ?_) fun _ =>
        .addIncrement (hg.drop .Ut).le rfl rfl rfl
    simp [clear, Mask.drop, after, between]
  · exact (Flow.acceptStep (hg.drop _).le rfl).weaken (Mask.Le.refl _) (Mask.drop_le _ _)
  · refine .bind (.modify fun _ => rfl) fun _ => .bind framed_numIt.assembleFactorize fun _ =>
      .bind (.modify fun _ => rfl) fun _ => .bind Keeps.get fun _ =>
        .bind (.ite keeps_numIt_tangent (.modify fun _ => rfl)) fun _ => .bind (.modify fun _ => rfl) fun _ =>
          .modify fun _ => rfl

theorem sound_consistent (hh : hist = true → Memoryless e o .consistent) :
    Sound e o (consistentCrisfield e o) (before .consistent stab hist o.phiUser)
      (between .consistent stab hist o.phiUser) (after .consistent stab hist o.phiUser) := by
  have hok := between_ok (stab := stab) hh
  have hiok := begunMask_ok (stab := stab) hh
  have hg := hok.mono (after_le .consistent stab hist o.phiUser)
  refine ⟨hok, le_after _ _ _ _, after_le _ _ _ _, rfl, rfl, rfl, rfl, rfl, rfl, rfl, rfl, ?_, ?_, ?_, ?_, ?_,
    fun _ => ⟨rfl, rfl⟩, ?_⟩
  · refine .bind (.zeroIncrements (Mask.drop_le _ _)) fun _ => .bind
      ((Flow.assembleFactorize hiok rfl).weaken (h' := between .consistent stab hist o.phiUser)
        (Mask.Le.refl _) ?_) fun _ => ?_
    · intro p
      cases p <;> simp [Mask.drop, begunMask, between, before]
    refine .getBind (fun s => ?_) fun s => ?_
    · rfl
    · refine .bind (h := between .consistent stab hist o.phiUser) (.ite ?_ ?_) fun _ =>
        .bind (h := between .consistent stab hist o.phiUser) (.modify hok.le fun s => ?_) fun _ =>
          .bind (.scaleByLength hok.le rfl rfl) fun _ => .addIncrement hok.le rfl rfl rfl
      · exact (Flow.unitTangent hok rfl rfl).weaken (Mask.Le.refl _)
          ((Mask.drop_le _ _).trans ((Mask.drop_le _ _).trans (Mask.drop_le _ _)))
      · exact (Flow.secant hok.le _ _ _ _).weaken (Mask.Le.refl _) ((Mask.drop_le _ _).trans (Mask.drop_le _ _))
      · cases hu : o.phiUser <;> simp [clear, between, before, tangentPhi, hu]
  · refine (Flow.quasiPredictorUt hg rfl rfl).weaken (Mask.Le.refl _) ?_
    intro p
    cases p <;> simp [Mask.drop]
  · refine (Flow.quasiIterationUt hg rfl).weaken (Mask.Le.refl _) ?_
    intro p
    cases p <;> simp [Mask.drop]
  · refine .bind (.computeUbar (hg.drop .Ut) rfl rfl) fun _ =>
      .bind (h := (after .consistent stab hist o.phiUser).drop .Ut) (.modify (hg.drop .Ut).le fun s => ?_) fun _ =>
        .addIncrement (hg.drop .Ut).le rfl rfl rfl
    simp [clear, Mask.drop, after, between]
  · refine .bind ((Flow.acceptStep (hg.drop _).le rfl).weaken (Mask.Le.refl _) (Mask.drop_le _ _)) fun _ =>
      .modify (hg.drop .Ut).le fun s => ?_
    simp [clear, Mask.drop, after, between]
  · refine .bind (.modify fun _ => rfl) fun _ => .bind framed_numIt.assembleFactorize fun _ =>
      .bind Keeps.get fun _ => .bind (.ite keeps_numIt_tangent (.modify fun _ => rfl)) fun _ =>
        .bind (.modify fun _ => rfl) fun _ => .bind (.modify fun _ => rfl) fun _ => .modify fun _ => rfl

theorem Flow.computeLambdas (hw : g.Le w) (h : ∀ p, p = .dL ∨ p = .dU ∨ p = .D ∨ p = .phi ∨ p = .mat ∨ p = .Ut ∨
    p = .Ubar ∨ p = .DLold → g p = false) : Flow w g g (computeLambdas e) := by
  have h1 : g .dL = false := h _ (by simp)
  have h2 : g .dU = false := h _ (by simp)
  have h3 : g .D = false := h _ (by simp)
  have h4 : g .phi = false := h _ (by simp)
  have h5 : g .mat = false := h _ (by simp)
  have h6 : g .Ut = false := h _ (by simp)
  have h7 : g .Ubar = false := h _ (by simp)
  have h8 : g .DLold = false := h _ (by simp)
  have hdot : ∀ eta x1 x2, Flow w g g (lambdaDOT e eta x1 x2) := fun eta x1 x2 => .modify hw fun s => by
    simp [clear, chooseDOT, h1, h2, h3, h4, h5, h6, h7, h8]
  refine .getBind (fun s => ?_) fun s => .ite ?_ (.ite ?_ ?_)
  · have : crQuad e (clear g s) = crQuad e s := by simp [crQuad, clear, h1, h2, h3, h4, h5, h6, h7, h8]
    simp only [this]
  · exact .bind (hdot _ _ _) fun _ => .bind (.emit hw _) fun _ => .pure hw _
  · exact .bind (hdot _ _ _) fun _ => .bind (.emit hw _) fun _ => .pure hw _
  · refine .bind (h := g) (.modify hw fun s => ?_) fun _ => .bind (.emit hw _) fun _ => .pure hw _
    simp [clear, h3, h4, h5, h7]

theorem Flow.storeOld (hw : g.Le w) (hD : g .D = false) (p : Prop) [Decidable p] :
    Flow w g g (Act.modify fun s : St K V Mat Fac => if p then { s with DUold := s.DU, DLold := s.DL } else s) :=
  .modify hw fun s => by
    split <;> simp [clear, hD]

theorem sound_crisfield (hh : hist = true → Memoryless e o .crisfield) :
    Sound e o (crisfield e o) (before .crisfield stab hist o.phiUser)
      (between .crisfield stab hist o.phiUser) (after .crisfield stab hist o.phiUser) := by
  have hok := between_ok (stab := stab) hh
  have hg := hok.mono (after_le .crisfield stab hist o.phiUser)
  refine ⟨hok, le_after _ _ _ _, after_le _ _ _ _, rfl, rfl, rfl, rfl, rfl, rfl, rfl, rfl, ?_, ?_, ?_, ?_, ?_,
    fun _ => ⟨rfl, rfl⟩, ?_⟩
  · -- after `initiateStep`
    let i : Mask := (((((before .crisfield stab hist o.phiUser).drop .run).drop .D).drop .Ubar).drop .Ut).drop .dL
    have hi : Ok e o (before .crisfield stab hist o.phiUser) i :=
      ⟨(Mask.drop_le _ _).trans ((Mask.drop_le _ _).trans ((Mask.drop_le _ _).trans
        ((Mask.drop_le _ _).trans (Mask.drop_le _ _)))),
        fun h => (hh (by simpa [i, Mask.drop, before] using h)).steady,
        fun h => (hh (by simpa [i, Mask.drop, before] using h)).oneArg rfl,
        fun h => (hh (by simpa [i, Mask.drop, before] using h)).bifMethod⟩
    have hi' := (hi.drop .mat).drop .Ut
    refine .bind (h := i) (.modify hi.le fun s => by simp [clear, i, Mask.drop]) fun _ =>
      .bind (.assembleFactorize hi rfl) fun _ => .bind (.computeUt (hi.drop _) rfl) fun _ =>
        .getBind (fun s => ?_) fun s => ?_
    · have h1 : (clear ((i.drop .mat).drop .Ut) s).DUold = s.DUold := rfl
      have h2 : (clear ((i.drop .mat).drop .Ut) s).DLold = s.DLold := rfl
      rw [h1, h2]
    · refine .bind (h := between .crisfield stab hist o.phiUser) (.ite ?_ ?_) fun _ =>
        .bind (.addIncrement hok.le rfl rfl rfl) fun _ => .storeOld hok.le rfl _
      · exact .modify hok.le fun s => by
          cases hu : o.phiUser <;> simp [clear, between, before, tangentPhi, hu, i, Mask.drop]
      · refine .bind (h := ((i.drop .mat).drop .Ut).drop .phi) (.modify (hi'.drop _).le fun s => ?_) fun _ =>
          .modify hok.le fun s => ?_
        · cases hu : o.phiUser <;> simp [clear, before, hu, i, Mask.drop]
        · simp [clear, between, before, i, Mask.drop]
  · refine (Flow.quasiPredictorUt hg rfl rfl).weaken (Mask.Le.refl _) ?_
    intro p
    cases p <;> simp [Mask.drop]
  · refine (Flow.quasiIterationUt hg rfl).weaken (Mask.Le.refl _) ?_
    intro p
    cases p <;> simp [Mask.drop]
  · have hw := (hg.drop .Ut).drop .Ubar
    have hlam := Flow.computeLambdas (e := e) hw.le (by
      rintro p (rfl | rfl | rfl | rfl | rfl | rfl | rfl | rfl) <;> rfl)
    refine .bind (.computeUbar (hg.drop .Ut) rfl rfl) fun _ => .getBind (fun s => ?_) fun s =>
      .bind hlam fun eta => .bind (h := ((after .crisfield stab hist o.phiUser).drop .Ut).drop .Ubar)
        (.modify hw.le fun u => ?_) fun _ => .bind ((Flow.addIncrement hw.le rfl rfl rfl).weaken (Mask.Le.refl _)
          (Mask.drop_le _ _)) fun _ => .storeOld (hg.drop .Ut).le rfl _
    · simp [clear, after, between, Mask.drop]
    · have h1 : (clear (((after .crisfield stab hist o.phiUser).drop .Ut).drop .Ubar) u).dL = u.dL := rfl
      rw [h1]
      split
      · simp [clear, after, between, Mask.drop]
      · simp [clear]
  · exact .bind ((Flow.acceptStep (hg.drop _).le rfl).weaken (Mask.Le.refl _) (Mask.drop_le _ _)) fun _ =>
      .storeOld (hg.drop .Ut).le rfl _
  · refine .bind (.modify fun _ => rfl) fun _ => .bind framed_numIt.assembleFactorize fun _ =>
      .bind (framed_numIt.computeUt fun _ _ => rfl) fun _ => .bind Keeps.get fun _ =>
        .bind (.ite (.modify fun _ => rfl) (.bind (.modify fun _ => rfl) fun _ => .modify fun _ => rfl)) fun _ =>
          .bind (.modify fun _ => rfl) fun _ => .modify fun s => ?_
    split <;> rfl

theorem Kind.sound (k : Kind) (hh : hist = true → Memoryless e o k) :
    Sound e o (k.method e o) (before k stab hist o.phiUser) (between k stab hist o.phiUser)
      (after k stab hist o.phiUser) := by
  cases k
  · exact sound_loadControl hh
  · exact sound_riks hh
  · exact sound_consistent hh
  · exact sound_crisfield hh

end GsSA.ALM
