import Verif.ALM.Fresh

/-!
# What a step depends on (C113)

The parallel arc-length method hands intervals of the curve to whatever process is free: it sets the length, the
point and the previous point, and calls `step()`. The result must not depend on what the solver object did before.
-/

namespace GsSA.ALM

set_option linter.unusedSectionVars false

variable {K V Mat Fac : Type} [Field K] [LinearOrder K] [IsStrictOrderedRing K] [AddCommGroup V] [Module K V]
variable {e : Env K V Mat Fac} {o : Opts K} {α β : Type}

/-- `gsAPALM.hpp` 958-961, 1055-1058 and `gsAPALMBase.hpp` 157-160: `setLength`, `setSolution`, `setPrevious`. -/
def restart (l : K) (U : V) (L : K) (Up : V) (Lp : K) (s : St K V Mat Fac) : St K V Mat Fac :=
  (setPrevious Up Lp (setSolution U L (setLength l s).1).1).1

/-- `gsAPALM.hpp` 977-978, 1077-1078: `setLength`, `setSolution` after a failed step. -/
def retry (l : K) (U : V) (L : K) (s : St K V Mat Fac) : St K V Mat Fac := (setSolution U L (setLength l s).1).1

/-- **C113**: what the setters change. -/
theorem C113_setters (l : K) (U Up : V) (L Lp : K) (s : St K V Mat Fac) :
    restart l U L Up Lp s =
      { s with len := l, lenPrev := l, lenOri := l, U := U, L := L, Uprev := Up, Lprev := Lp, DUold := U - Up
               DLold := L - Lp } ∧
    retry l U L s = { s with len := l, lenPrev := l, lenOri := l, U := U, L := L } ∧
    (resetStep s).1 = { s with DUold := 0, DLold := 0 } ∧
    (setInitialGuess U L s).1 = { s with guess := some U, Lguess := L } := ⟨rfl, rfl, rfl, rfl⟩

/-- Two objects that differ at most in what earlier steps have left behind: both are initialised or not, no guess
is pending, and the settings of the length and of `phi`, if the user has given it, are the same. -/
structure SameSettings (o : Opts K) (k : Kind) (s t : St K V Mat Fac) : Prop where
  initialized : s.initialized = t.initialized
  guess : s.guess = none
  guess' : t.guess = none
  adaptive : s.adaptive = t.adaptive
  phi : o.phiUser = true → k = .crisfield ∨ k = .consistent → s.phi = t.phi

theorem restart_agree [Inhabited Mat] {k : Kind} {s t : St K V Mat Fac} (h : SameSettings o k s t)
    (hk : k = .consistent → o.phiUser = true) (l : K) (U Up : V) (L Lp : K) :
    clear (before k true true o.phiUser) (restart l U L Up Lp s) =
      clear (before k true true o.phiUser) (restart l U L Up Lp t) := by
  have hp : pick (before k true true o.phiUser .phi) 0 s.phi = pick (before k true true o.phiUser .phi) 0 t.phi := by
    cases k
    · rfl
    · rfl
    · exact h.phi (hk rfl) (.inr rfl)
    · cases hu : o.phiUser
      · rfl
      · exact h.phi hu (.inl rfl)
  have ht : before k true true o.phiUser .Ut = true := by
    cases k <;> simp [before]
    exact hk rfl
  have h1 := h.initialized
  have h2 := h.adaptive
  have h3 : s.guess = t.guess := h.guess.trans h.guess'.symm
  rw [(C113_setters l U Up L Lp s).1, (C113_setters l U Up L Lp t).1]
  simp only [clear, hp, h1, h2, h3, ht, pick_true]
  simp [before]

/-- **C113**: after `setLength`, `setSolution` and `setPrevious` the following steps do not depend on what the
object did before: any two objects with the same settings return the same, and reach the same points with the
same increments and lengths, for callbacks that are functions of the displacement and the load. For consistent
Crisfield the scaling must be given by the user. -/
theorem C113_history {k : Kind} (hm : Memoryless e o k) (hk : k = .consistent → o.phiUser = true)
    {s t : St K V Mat Fac} (h : SameSettings o k s t) (l : K) (U Up : V) (L Lp : K) (n : ℕ) :
    let s' := steps e o (k.method e o) n (restart l U L Up Lp s)
    let t' := steps e o (k.method e o) n (restart l U L Up Lp t)
    s'.1 = t'.1 ∧ s'.2.U = t'.2.U ∧ s'.2.L = t'.2.L ∧ s'.2.len = t'.2.len ∧ s'.2.lenPrev = t'.2.lenPrev ∧
      s'.2.Uprev = t'.2.Uprev ∧ s'.2.DUold = t'.2.DUold := by
  have : Inhabited Mat := ⟨s.jac⟩
  obtain ⟨h1, h2, -⟩ := steps_agree (stab := true) (fun _ => hm) n _ _ (restart_agree h hk l U Up L Lp) h.guess
  have key : ∀ {γ : Type} (f : St K V Mat Fac → γ), f (clear (before k true true o.phiUser)
      (steps e o (k.method e o) n (restart l U L Up Lp s)).2) = f (clear (before k true true o.phiUser)
      (steps e o (k.method e o) n (restart l U L Up Lp t)).2) := fun f => by rw [h2]
  exact ⟨h1, key (·.U), key (·.L), key (·.len), key (·.lenPrev), key (·.Uprev), key (·.DUold)⟩

/-- **C113**: … and a successful step has the same increment and the same number of iterations. -/
theorem C113_increment {k : Kind} (hm : Memoryless e o k) (hk : k = .consistent → o.phiUser = true)
    {s t : St K V Mat Fac} (h : SameSettings o k s t) (l : K) (U Up : V) (L Lp : K) :
    let s' := step e o (k.method e o) (restart l U L Up Lp s)
    let t' := step e o (k.method e o) (restart l U L Up Lp t)
    s'.2 = t'.2 ∧ s'.1.U = t'.1.U ∧ s'.1.L = t'.1.L ∧ s'.1.len = t'.1.len ∧
      (s'.2 = .ok .success → s'.1.DU = t'.1.DU ∧ s'.1.DL = t'.1.DL ∧ s'.1.numIt = t'.1.numIt ∧
        s'.1.converged = t'.1.converged) := by
  have : Inhabited Mat := ⟨s.jac⟩
  obtain ⟨h1, h2, h3⟩ := (k.sound (stab := true) fun _ => hm).step _ _ (restart_agree h hk l U Up L Lp) h.guess
  have key : ∀ {γ : Type} (f : St K V Mat Fac → γ), f (clear (before k true true o.phiUser)
      (step e o (k.method e o) (restart l U L Up Lp s)).1) = f (clear (before k true true o.phiUser)
      (step e o (k.method e o) (restart l U L Up Lp t)).1) := fun f => by rw [h2]
  refine ⟨h1, key (·.U), key (·.L), key (·.len), fun hs => ?_⟩
  have key : ∀ {γ : Type} (f : St K V Mat Fac → γ), f (clear (after k true true o.phiUser)
      (step e o (k.method e o) (restart l U L Up Lp s)).1) = f (clear (after k true true o.phiUser)
      (step e o (k.method e o) (restart l U L Up Lp t)).1) := fun f => by rw [h3 hs]
  exact ⟨key (·.DU), key (·.DL), key (·.numIt), key (·.converged)⟩

/-! ### Failed steps -/

/-- What a failed step keeps. -/
def KeepsFail (f : St K V Mat Fac → β) (m : Act (St K V Mat Fac) α) : Prop :=
  ∀ s t x, m s = (t, .error x) → x ≠ .ub → f t = f s

theorem KeepsFail.keeps {f : St K V Mat Fac → β} {m : Act (St K V Mat Fac) α} (h : Keeps f m) : KeepsFail f m :=
  fun _ _ _ hm _ => h.run hm

theorem KeepsFail.bind {γ : Type} {f : St K V Mat Fac → β} {m : Act (St K V Mat Fac) α}
    {m' : α → Act (St K V Mat Fac) γ} (h : Keeps f m) (h' : ∀ a, KeepsFail f (m' a)) : KeepsFail f (m >>= m') := by
  intro s t x hb hx
  rcases Act.bind_cases hb with ⟨u, a, h1, h2⟩ | ⟨y, h1, h2⟩
  · exact (h' a u t x h2 hx).trans (h.run h1)
  · exact h.run h1

theorem KeepsFail.ite {f : St K V Mat Fac → β} {c : Prop} [Decidable c] {m m' : Act (St K V Mat Fac) α}
    (h : KeepsFail f m) (h' : KeepsFail f m') : KeepsFail f (if c then m else m') := by
  split <;> assumption

/-- The members that decide on the direction of the next step. -/
structure Memory (K V : Type) where
  Uprev : V
  Lprev : K
  DUold : V
  DLold : K
  initialized : Bool
  phi : K

/-- The members that decide on the direction of the next step; `phi` only if the user has given it. -/
def memory (o : Opts K) (k : Kind) (s : St K V Mat Fac) : Memory K V where
  Uprev := s.Uprev
  Lprev := s.Lprev
  DUold := s.DUold
  DLold := s.DLold
  initialized := s.initialized
  phi := match k with
    | .loadControl => 0
    | .riks => 0
    | .consistent => if o.phiUser then s.phi else 0
    | .crisfield => if o.phiUser then s.phi else 0

theorem framed_memory (k : Kind) : Framed (memory o k : St K V Mat Fac → _) := by
  constructor <;> intros <;> rfl

theorem keeps_memory_tangent (k : Kind) : Keeps (memory o k) (unitTangent e) :=
  .bind ((framed_memory k).computeUt fun _ _ => rfl) fun _ => .modify fun _ => rfl

/-- The parts of a step before the point is accepted keep the memory. -/
theorem keeps_memory (k : Kind) (hk : k = .crisfield → o.angle = .step) :
    Keeps (memory o k) (k.method e o).initiateStep ∧ Keeps (memory o k) (k.method e o).predictor ∧
      Keeps (memory o k) (k.method e o).quasiPredictor ∧ Keeps (memory o k) (k.method e o).quasiIteration ∧
      Keeps (memory o k) (k.method e o).iteration := by
  have hf := framed_memory (Mat := Mat) (Fac := Fac) (V := V) (o := o) k
  have hut := hf.computeUt (e := e) fun _ _ => rfl
  cases k
  · refine ⟨.modify fun _ => rfl, ?_, ?_, hf.assembleFactorize, ?_⟩
    · exact .bind hf.assembleFactorize fun _ => .bind (.modify fun _ => rfl) fun _ => .bind hut fun _ =>
        .modify fun _ => rfl
    · exact .bind hf.assembleFactorize fun _ => hf.computeUbar
    · exact .bind hf.computeUbar fun _ => .modify fun _ => rfl
  · refine ⟨.modify fun _ => rfl, ?_, hf.quasiPredictorUt fun _ _ => rfl, hf.quasiIterationUt fun _ _ => rfl, ?_⟩
    · exact .bind hf.assembleFactorize fun _ => .bind (.modify fun _ => rfl) fun _ => .bind Keeps.get fun _ =>
        .bind (.ite (keeps_memory_tangent _) (.modify fun _ => rfl)) fun _ => .bind (.modify fun _ => rfl) fun _ =>
          .modify fun _ => rfl
    · exact .bind hf.computeUbar fun _ => .bind (.modify fun _ => rfl) fun _ => .modify fun _ => rfl
  · refine ⟨.modify fun _ => rfl, ?_, hf.quasiPredictorUt fun _ _ => rfl, hf.quasiIterationUt fun _ _ => rfl, ?_⟩
    · refine .bind hf.assembleFactorize fun _ => .bind Keeps.get fun _ =>
        .bind (.ite (keeps_memory_tangent _) (.modify fun _ => rfl)) fun _ => .bind (.modify fun s => ?_) fun _ =>
          .bind (.modify fun _ => rfl) fun _ => .modify fun _ => rfl
      cases hu : o.phiUser <;> simp [memory, tangentPhi, hu]
    · exact .bind hf.computeUbar fun _ => .bind (.modify fun _ => rfl) fun _ => .modify fun _ => rfl
  · have ha := hk rfl
    refine ⟨.modify fun _ => rfl, ?_, hf.quasiPredictorUt fun _ _ => rfl, hf.quasiIterationUt fun _ _ => rfl, ?_⟩
    · refine .bind hf.assembleFactorize fun _ => .bind hut fun _ => .bind Keeps.get fun _ =>
        .bind (.ite (.modify fun s => ?_) (.bind (.modify fun s => ?_) fun _ => .modify fun _ => rfl)) fun _ =>
          .bind (.modify fun _ => rfl) fun _ => .modify fun s => ?_
      · cases hu : o.phiUser <;> simp [memory, tangentPhi, hu]
      · cases hu : o.phiUser <;> simp [memory, hu]
      · simp [ha]
    · have hd : ∀ eta x1 x2, Keeps (memory o .crisfield) (lambdaDOT e eta x1 x2) := fun _ _ _ => .modify fun _ => rfl
      have he : ∀ x, Keeps (memory o .crisfield) (emit x : Act (St K V Mat Fac) Unit) := fun _ => .modify fun _ => rfl
      refine .bind hf.computeUbar fun _ => .bind Keeps.get fun s => .bind ?_ fun eta => .bind (.modify fun t => ?_)
        fun _ => .bind (.modify fun _ => rfl) fun _ => .modify fun t => ?_
      · refine .bind Keeps.get fun s => .ite ?_ (.ite ?_ ?_)
        · exact .bind (hd _ _ _) fun _ => .bind (he _) fun _ => Keeps.ret _
        · exact .bind (hd _ _ _) fun _ => .bind (he _) fun _ => Keeps.ret _
        · exact .bind (.modify fun _ => rfl) fun _ => .bind (he _) fun _ => Keeps.ret _
      · split <;> rfl
      · simp [ha]

theorem keepsFail_iterate (k : Kind) (hk : k = .crisfield → o.angle = .step) (n : ℕ) :
    KeepsFail (memory o k) (iterate e o (k.method e o) n) := by
  obtain ⟨-, -, -, h4, h5⟩ := keeps_memory (e := e) k hk
  have hf := framed_memory (Mat := Mat) (Fac := Fac) (V := V) (o := o) k
  induction n with
  | zero => exact .keeps (Keeps.ret _)
  | succ n ih =>
    rw [iterate]
    refine .bind ?_ fun _ => .bind Keeps.get fun s => .ite ?_ (.ite ?_ ?_)
    · exact .bind Keeps.get fun s => .bind (.ite h4 (Keeps.ret _)) fun _ => .bind h5 fun _ =>
        .bind (hf.computeStability _ _) fun _ => .bind hf.computeResidual fun _ => hf.computeResidualNorms
    · -- an accepted point: only the length can fail, which is undefined behaviour
      intro s t x hb hx
      exfalso
      obtain ⟨D, D', hfin⟩ := (k.isMethod e o).lawful.finish s
      unfold finishStep at hb
      rw [Act.bind_ok hfin, Act.bind_ok (Act.get_apply _)] at hb
      split at hb
      · unfold computeLength at hb
        rw [Act.bind_ok (Act.get_apply _)] at hb
        split at hb
        · simp only [Act.throw_apply, Prod.mk.injEq, Except.error.injEq] at hb
          exact hx hb.2.symm
        · simp at hb
      · simp at hb
    · exact .keeps (.bind (.modify fun _ => rfl) fun _ => Keeps.throw _)
    · exact .bind (.modify fun _ => rfl) fun _ => ih

/-- **C113**: a failed step without a guess keeps what decides on the direction of the next one. -/
theorem C113_failed {k : Kind} (hk : k = .crisfield → o.angle = .step) {s t : St K V Mat Fac} {st : Status}
    (hg : s.guess = none) (h : step e o (k.method e o) s = (t, .ok st)) (hst : st ≠ .success) :
    memory o k t = memory o k s ∧ t.guess = none := by
  obtain ⟨h1, h2, h3, -, -⟩ := keeps_memory (e := e) k hk
  have hf := framed_memory (Mat := Mat) (Fac := Fac) (V := V) (o := o) k
  refine ⟨?_, by
    have := (k.guessless (e := e) (o := o)).step (e := e) (o := o) s hg
    rwa [h] at this⟩
  rcases step_cases (k.isMethod e o).lawful s with ⟨u, -, -, h'⟩ | ⟨u, x, hr, hx, h'⟩
  · rw [h'] at h
    simp only [Prod.mk.injEq, Except.ok.injEq] at h
    exact absurd h.2.symm hst
  rw [h'] at h
  simp only [Prod.mk.injEq, Except.ok.injEq] at h
  rw [← h.1]
  show memory o k u = _
  have hbegin : Keeps (memory o k) (⟨fun s => if s.guess = none then beginStep e (k.method e o) s else (s, .ok ())⟩ :
      Act (St K V Mat Fac) Unit) := by
    have : Inhabited Mat := ⟨s.jac⟩
    intro u
    show memory o k (if u.guess = none then beginStep e (k.method e o) u else (u, .ok ())).1 = _
    split
    · rename_i hu
      have hs := k.sound (e := e) (o := o) (stab := false) (hist := false) (by simp)
      unfold beginStep
      rw [Act.bind_ok (Act.get_apply _)]
      split
      · rfl
      · rw [Act.bind_ok (Act.pure_apply _ _), Act.bind_ok (Act.modify_apply _ _)]
        have := choose_predictor hs { u with converged := false, numIt := 0 } hu
        refine (congrArg (fun r => memory o k r.1) this).trans ?_
        exact (Keeps.bind h1 (fun _ => h2)) _
    · rfl
  have hb : beginStep e (k.method e o) s =
      (⟨fun s => if s.guess = none then beginStep e (k.method e o) s else (s, .ok ())⟩ :
        Act (St K V Mat Fac) Unit) s := (if_pos hg).symm
  have hrest : KeepsFail (memory o k) (computeResidual e >>= fun _ => computeResidualNorms e >>= fun _ =>
      (if o.quasi then (k.method e o).quasiPredictor else pure ()) >>= fun _ =>
        Act.modify (fun s : St K V Mat Fac => { s with stabilityPrev := s.stability, numIt := 1 }) >>= fun _ =>
          iterate e o (k.method e o) (o.maxIt - 1)) :=
    .bind hf.computeResidual fun _ => .bind hf.computeResidualNorms fun _ => .bind (.ite h3 (Keeps.ret _)) fun _ =>
      .bind (.modify fun _ => rfl) fun _ => keepsFail_iterate k hk _
  unfold stepRaw at hr
  rcases Act.bind_cases hr with ⟨v, a, e1, e2⟩ | ⟨y, e1, e2⟩
  · rw [hb] at e1
    exact (hrest v u x e2 hx).trans (hbegin.run e1)
  · rw [hb] at e1
    exact hbegin.run e1

/-- **C113**: after a failed step, the shorter step of the parallel method is the one that an object would make
that had not tried the longer one. -/
theorem C113_retry {k : Kind} (hm : Memoryless e o k) (hk : k = .consistent → o.phiUser = true)
    (ha : k = .crisfield → o.angle = .step) {s t : St K V Mat Fac} {st : Status} (hg : s.guess = none)
    (l l' : K) (U Up : V) (L Lp : K)
    (h : step e o (k.method e o) (restart l U L Up Lp s) = (t, .ok st)) (hst : st ≠ .success) (n : ℕ) :
    let s' := steps e o (k.method e o) n (restart l' U L Up Lp s)
    let t' := steps e o (k.method e o) n (retry l' U L t)
    s'.1 = t'.1 ∧ s'.2.U = t'.2.U ∧ s'.2.L = t'.2.L ∧ s'.2.len = t'.2.len := by
  obtain ⟨h1, h2⟩ := C113_failed (s := restart l U L Up Lp s) ha hg h hst
  obtain ⟨-, -, -, -, -, h3, -⟩ := C31_failure (k.isMethod e o) h hst
  simp only [memory, Memory.mk.injEq] at h1
  obtain ⟨m1, m2, m3, m4, m5, m6⟩ := h1
  have hss : SameSettings o k s t := by
    refine ⟨m5.symm, hg, h2, h3.symm, fun hu hkk => ?_⟩
    rcases hkk with rfl | rfl
    · have m6' : (if o.phiUser then t.phi else 0) = (if o.phiUser then s.phi else 0) := m6
      simpa [hu] using m6'.symm
    · have m6' : (if o.phiUser then t.phi else 0) = (if o.phiUser then s.phi else 0) := m6
      simpa [hu] using m6'.symm
  have : retry l' U L t = restart l' U L Up Lp t := by
    have e1 : t.Uprev = Up := m1
    have e2 : t.Lprev = Lp := m2
    have e3 : t.DUold = U - Up := m3
    have e4 : t.DLold = L - Lp := m4
    rw [(C113_setters l' U Up L Lp t).2.1, (C113_setters l' U Up L Lp t).1]
    rw [← e3, ← e4, ← e1, ← e2]
  rw [this]
  obtain ⟨r1, r2, r3, r4, -⟩ := C113_history hm hk hss l' U Up L Lp n
  exact ⟨r1, r2, r3, r4⟩

/-! ### Violations -/

/-- **C113** violated: Crisfield's method evaluates the first Jacobian of a step with the last increment of the
step before, whatever was set in between; if that fails, the step fails. -/
theorem C113_violated_increment {s : St K V Mat Fac} (hi : s.initialized = true) (hg : s.guess = none)
    (l : K) (U Up : V) (L Lp : K) (hj : e.jacobian s.log.length (U + 0) s.dU = none) :
    (step e o (crisfield e o) (restart l U L Up Lp s)).2 = .ok .assemblyError := by
  have hb : beginStep e (crisfield e o) (restart l U L Up Lp s) = crPredictor e o
      { restart l U L Up Lp s with converged := false, numIt := 0, DU := 0, Ubar := 0, Ut := 0, DL := 0, dL := 0 } := by
    have hi' : ¬ (restart l U L Up Lp s).initialized = false := by
      show ¬ s.initialized = false
      simp [hi]
    unfold beginStep
    rw [Act.bind_ok (Act.get_apply _), if_neg hi', Act.bind_ok (Act.pure_apply _ _), Act.bind_ok (Act.modify_apply _ _)]
    simp only [crisfield]
    rw [Act.bind_ok (Act.modify_apply _ _), Act.bind_ok (Act.get_apply _), if_neg]
    show ¬ usesGuess e _ = true
    have : (restart l U L Up Lp s).guess = none := hg
    simp [usesGuess, this]
  have hp : ∃ t, beginStep e (crisfield e o) (restart l U L Up Lp s) = (t, .error .assembly) := by
    rw [hb]
    unfold crPredictor assembleFactorize computeJacobianAt
    simp only [Act.bind_apply, Act.get_apply]
    have : e.jacobian (restart l U L Up Lp s).log.length ((restart l U L Up Lp s).U + 0) (restart l U L Up Lp s).dU =
      none := hj
    simp only [this]
    exact ⟨_, rfl⟩
  obtain ⟨t, ht⟩ := hp
  have hr : stepRaw e o (crisfield e o) (restart l U L Up Lp s) = (t, .error .assembly) := Act.bind_error ht
  simp only [step, caught, hr]
  rfl

/-- **C113** violated: consistent Crisfield scales a later step with the tangent of the step before, whatever was
set in between, unless the user has given the scaling. -/
theorem C113_violated_tangent {s t : St K V Mat Fac} (hi : s.initialized = true) (hg : s.guess = none)
    (hu : o.phiUser = false) (l : K) (U Up : V) (L Lp : K) (hn : nearby e U Up L Lp = false)
    (h : beginStep e (consistentCrisfield e o) (restart l U L Up Lp s) = (t, .ok ())) :
    t.phi = e.geo.sqrt (e.geo.dot s.Ut s.Ut / e.geo.dot e.forcing e.forcing) := by
  have hi' : ¬ (restart l U L Up Lp s).initialized = false := by
    show ¬ s.initialized = false
    simp [hi]
  unfold beginStep at h
  rw [Act.bind_ok (Act.get_apply _), if_neg hi', Act.bind_ok (Act.pure_apply _ _),
    Act.bind_ok (Act.modify_apply _ _)] at h
  simp only [consistentCrisfield, zeroIncrements] at h
  rw [Act.bind_ok (Act.modify_apply _ _), Act.bind_ok (Act.get_apply _), if_neg] at h
  · unfold ccPredict at h
    obtain ⟨u, ⟨⟩, h1, h⟩ := Act.bind_ok_inv h
    have hf : Framed (fun s : St K V Mat Fac => (s.Ut, s.U, s.L, s.Uprev, s.Lprev)) := by
      constructor <;> intros <;> rfl
    have hk := hf.assembleFactorize.run h1
    simp only [Prod.mk.injEq] at hk
    obtain ⟨k1, k2, k3, k4, k5⟩ := hk
    rw [Act.bind_ok (Act.get_apply _)] at h
    have hn' : nearby e u.U u.Uprev u.L u.Lprev = false := by
      rw [k2, k3, k4, k5]
      exact hn
    simp only [hn', Bool.false_eq_true, if_false, secant] at h
    rw [Act.bind_ok (Act.modify_apply _ _), Act.bind_ok (Act.modify_apply _ _)] at h
    simp only [scaleByLength] at h
    rw [Act.bind_ok (Act.modify_apply _ _), Act.modify_apply] at h
    simp only [Prod.mk.injEq, and_true] at h
    rw [← h]
    simp only [tangentPhi, hu, Bool.false_eq_true, if_false]
    rw [k1]
    rfl
  · have : (restart l U L Up Lp s).guess = none := hg
    simp [usesGuess, this]

/-! ### Examples -/

section examples

open Demo

/-- The callbacks of the example are functions. -/
example : Steady (env 1 fine fine) := by
  constructor <;> intros <;> rfl

example : OneArg (env 1 fine fine) := fun _ _ _ _ => rfl

/-- An object with a past. -/
def used (len : ℚ) : St ℚ ℚ ℚ ℚ :=
  { start len false with
    U := 3, L := 4, DU := 1, DL := 2, dU := 5, dL := 6, Ubar := 7, Ut := 8, Uprev := 2, Lprev := 2, DUold := 1
    DLold := 2, resVec := 9, jac := 5, numIt := 4, converged := true, stability := 1, log := [.solve true] }

/-- `C113_history`, `C113_increment`: a new object and one with a past. -/
example : let e := env 0 fine fine
    let r := fun s => step e (opts 5 3) (crisfield e (opts 5 3)) (restart 1 (1 / 2) 1 0 0 s)
    SameSettings (opts 5 3) .crisfield (start 7 false) (used 3) ∧ (r (start 7 false)).2 = .ok .success ∧
      (r (used 3)).2 = .ok .success ∧ (r (start 7 false)).1.L = (r (used 3)).1.L ∧ (r (used 3)).1.L ≠ 1 := by
  refine ⟨⟨rfl, rfl, rfl, rfl, fun _ _ => rfl⟩, ?_⟩
  decide +kernel

/-- `C113_failed`, `C113_retry`: the first attempt fails (one iteration is not enough). -/
example : let e := env 1 fine fine
    let a := step e (opts 3 3) (riks e) (restart 8 (1 / 2) 1 0 0 (start 7 false))
    a.2 = .ok .notConverged ∧
      (step e (opts 3 3) (riks e) (retry (1 / 100) (1 / 2) 1 a.1)).2 =
        (step e (opts 3 3) (riks e) (restart (1 / 100) (1 / 2) 1 0 0 (start 7 false))).2 := by
  decide +kernel

/-- **C113** violated: with the angle taken per predictor or iteration, a failed step of Crisfield's method has
replaced the previous increment, and the shorter step is not the one that would have been made otherwise. -/
theorem C113_violated_retry : ∃ (e : Env ℚ ℚ ℚ ℚ) (o : Opts ℚ) (s : St ℚ ℚ ℚ ℚ), Memoryless e o .crisfield ∧
    o.angle = .predictor ∧ s.guess = none ∧
    let a := step e o (crisfield e o) (restart 1 (1 / 2) (9 / 8) (1 / 2) (9 / 8) s)
    a.2 = .ok .notConverged ∧ a.1.DUold ≠ 0 ∧
      (step e o (crisfield e o) (retry (1 / 100) (1 / 2) (9 / 8) a.1)).2 = .ok .success ∧
      (step e o (crisfield e o) (restart (1 / 100) (1 / 2) (9 / 8) (1 / 2) (9 / 8) s)).2 = .ok .notConverged := by
  refine ⟨env 1 fine fine, { opts 3 3 with angle := .predictor }, start 1 false,
    ⟨?_, by simp [opts], fun _ _ _ _ _ => rfl⟩, rfl, rfl, ?_⟩
  · constructor <;> intros <;> rfl
  · decide +kernel

/-- `C113_violated_increment`: a Jacobian that is not available for large increments. -/
example : let e := { env 0 fine fine with jacobian := fun _ _ d => if d ≤ 2 then some 2 else none }
    let r := fun s => step e (opts 5 3) (crisfield e (opts 5 3)) (restart 1 (1 / 2) 1 0 0 s)
    (r (start 7 false)).2 = .ok .success ∧ (r { used 3 with dU := 0 }).2 = .ok .success ∧
      (r (used 3)).2 = .ok .assemblyError := by
  decide +kernel

/-- `C113_violated_tangent`: the scaling depends on the past. -/
example : let e := env 0 fine fine
    let o := { opts 5 3 with phiUser := false }
    let r := fun s => step e o (consistentCrisfield e o) (restart 1 (1 / 2) 1 0 0 s)
    (r { start 7 false with Ut := 1 }).2 = .ok .success ∧ (r (used 3)).2 = .ok .notConverged := by
  decide +kernel

end examples

end GsSA.ALM
