import Verif.ALM.Flow

/-!
# Indeterminate members do not influence the steps (C112)
-/

namespace GsSA.ALM

set_option linter.unusedSectionVars false

variable {K V Mat Fac : Type} [Field K] [LinearOrder K] [IsStrictOrderedRing K] [AddCommGroup V] [Module K V]
variable {e : Env K V Mat Fac} {o : Opts K} {α β : Type}

/-! ### A step does not create a guess -/

/-- Without a guess before there is none afterwards. -/
def Stays (m : Act (St K V Mat Fac) α) : Prop := ∀ s, s.guess = none → (m s).1.guess = none

theorem Stays.keeps {m : Act (St K V Mat Fac) α} (hm : Keeps (fun s => s.guess) m) : Stays m :=
  fun s hs => (hm s).trans hs

theorem Stays.modify {f : St K V Mat Fac → St K V Mat Fac} (hf : ∀ s, s.guess = none → (f s).guess = none) :
    Stays (Act.modify f) := hf

theorem Stays.bind {m : Act (St K V Mat Fac) α} {f : α → Act (St K V Mat Fac) β} (hm : Stays m)
    (hf : ∀ a, Stays (f a)) : Stays (m >>= f) := by
  intro s hs
  have h1 := hm s hs
  rw [Act.bind_apply]
  rcases h : m s with ⟨t, r⟩
  rw [h] at h1
  cases r with
  | error err => exact h1
  | ok a => exact hf a t h1

theorem Stays.ite {c : Prop} [Decidable c] {m m' : Act (St K V Mat Fac) α} (h : Stays m) (h' : Stays m') :
    Stays (if c then m else m') := by
  split <;> assumption

/-- The parts of a method do not create a guess. -/
structure Guessless (M : Method K V Mat Fac) : Prop where
  initiateStep : Stays M.initiateStep
  predictor : Stays M.predictor
  predictorGuess : Stays M.predictorGuess
  quasiPredictor : Stays M.quasiPredictor
  quasiIteration : Stays M.quasiIteration
  iteration : Stays M.iteration
  iterationFinish : Stays M.iterationFinish

theorem Stays.store (p : Prop) [Decidable p] :
    Stays (Act.modify fun s : St K V Mat Fac => if p then { s with DUold := s.DU, DLold := s.DL } else s) :=
  .modify fun s hs => by
    split <;> exact hs

theorem Stays.assembleFactorize : Stays (assembleFactorize e) := .keeps framed_guess.assembleFactorize

theorem Stays.computeUbar : Stays (computeUbar e) := .keeps framed_guess.computeUbar

theorem Stays.computeUt : Stays (computeUt e) := .keeps (framed_guess.computeUt fun _ _ => rfl)

theorem Stays.get : Stays (Act.get : Act (St K V Mat Fac) _) := .keeps Keeps.get

theorem Stays.unitTangent : Stays (unitTangent e) := .bind .computeUt fun _ => .modify fun _ h => h

theorem Kind.guessless (k : Kind) : Guessless (k.method e o) := by
  cases k
  · refine ⟨.modify fun _ h => h, ?_, ?_, ?_, .assembleFactorize, ?_, .modify fun _ h => h⟩
    · exact .bind .assembleFactorize fun _ => .bind (.modify fun _ h => h) fun _ => .bind .computeUt fun _ =>
        .modify fun _ h => h
    · exact .bind .assembleFactorize fun _ => .bind (.modify fun _ h => h) fun _ => .bind .computeUt fun _ =>
        .modify fun _ h => h
    · exact .bind .assembleFactorize fun _ => .computeUbar
    · exact .bind .computeUbar fun _ => .modify fun _ h => h
  · refine ⟨.modify fun _ h => h, ?_, ?_, .keeps (framed_guess.quasiPredictorUt fun _ _ => rfl),
      .keeps (framed_guess.quasiIterationUt fun _ _ => rfl), ?_, .modify fun _ h => h⟩
    · exact .bind .assembleFactorize fun _ => .bind (.modify fun _ h => h) fun _ => .bind .get fun _ =>
        .bind (.ite .unitTangent (.modify fun _ h => h)) fun _ => .bind (.modify fun _ h => h) fun _ =>
          .modify fun _ h => h
    · exact .bind .assembleFactorize fun _ => .bind .computeUt fun _ => .bind .get fun _ =>
        .bind (.ite .unitTangent (.modify fun _ h => h)) fun _ => .bind (.modify fun _ h => h) fun _ =>
          .modify fun _ _ => rfl
    · exact .bind .computeUbar fun _ => .bind (.modify fun _ h => h) fun _ => .modify fun _ h => h
  · refine ⟨.modify fun _ h => h, ?_, ?_, .keeps (framed_guess.quasiPredictorUt fun _ _ => rfl),
      .keeps (framed_guess.quasiIterationUt fun _ _ => rfl), ?_,
      .bind (.modify fun _ h => h) fun _ => .modify fun _ h => h⟩
    · exact .bind .assembleFactorize fun _ => .bind .get fun _ =>
        .bind (.ite .unitTangent (.modify fun _ h => h)) fun _ => .bind (.modify fun _ h => h) fun _ =>
          .bind (.modify fun _ h => h) fun _ => .modify fun _ h => h
    · exact .bind .assembleFactorize fun _ => .bind .get fun _ =>
        .bind (.ite .unitTangent (.modify fun _ h => h)) fun _ => .bind (.modify fun _ h => h) fun _ =>
          .bind (.modify fun _ h => h) fun _ => .modify fun _ h => h
    · exact .bind .computeUbar fun _ => .bind (.modify fun _ h => h) fun _ => .modify fun _ h => h
  · refine ⟨.modify fun _ h => h, ?_, ?_, .keeps (framed_guess.quasiPredictorUt fun _ _ => rfl),
      .keeps (framed_guess.quasiIterationUt fun _ _ => rfl), ?_, .bind (.modify fun _ h => h) fun _ => .store _⟩
    · exact .bind .assembleFactorize fun _ => .bind .computeUt fun _ => .bind .get fun _ =>
        .bind (.ite (.modify fun _ h => h) (.bind (.modify fun _ h => h) fun _ => .modify fun _ h => h)) fun _ =>
          .bind (.modify fun _ h => h) fun _ => .store _
    · exact .bind .assembleFactorize fun _ => .bind .computeUt fun _ => .bind (.modify fun _ h => h) fun _ =>
        .bind (.modify fun _ h => h) fun _ => .bind (.modify fun _ h => h) fun _ => .modify fun _ _ => rfl
    · refine .bind .computeUbar fun _ => .bind .get fun s => .bind ?_ fun eta => .bind (.modify fun t h => ?_) fun _ =>
        .bind (.modify fun _ h => h) fun _ => .store _
      · have hd : ∀ eta x1 x2, Stays (lambdaDOT e eta x1 x2) := fun _ _ _ => .modify fun _ h => h
        have he : ∀ x, Stays (emit x : Act (St K V Mat Fac) Unit) := fun _ => .modify fun _ h => h
        have hp : ∀ x : K, Stays (pure x : Act (St K V Mat Fac) K) := fun x => .keeps (Keeps.ret x)
        refine .bind .get fun s => .ite ?_ (.ite ?_ ?_)
        · exact .bind (hd _ _ _) fun _ => .bind (he _) fun _ => hp _
        · exact .bind (hd _ _ _) fun _ => .bind (he _) fun _ => hp _
        · exact .bind (.modify fun _ h => h) fun _ => .bind (he _) fun _ => hp _
      · split <;> exact h

theorem Guessless.iterate {M : Method K V Mat Fac} (hM : Guessless M) (n : ℕ) : Stays (iterate e o M n) := by
  have hp : Stays (pure () : Act (St K V Mat Fac) Unit) := .keeps (Keeps.ret ())
  have ht : ∀ x, Stays (Act.throw x : Act (St K V Mat Fac) Unit) := fun x => .keeps (Keeps.throw x)
  induction n with
  | zero => exact hp
  | succ n ih =>
    rw [ALM.iterate]
    refine .bind ?_ fun _ => .bind .get fun s => .ite ?_ (.ite ?_ ?_)
    · refine .bind .get fun s => .bind (.ite hM.quasiIteration hp) fun _ => .bind hM.iteration fun _ =>
        .bind (.keeps (framed_guess.computeStability _ _)) fun _ => .bind (.keeps framed_guess.computeResidual) fun _ =>
          .keeps framed_guess.computeResidualNorms
    · refine .bind hM.iterationFinish fun _ => .bind .get fun s => .ite ?_ (.modify fun _ h => h)
      exact .bind .get fun s => .ite (ht _) (.modify fun _ h => h)
    · exact .bind (.modify fun _ h => h) fun _ => ht _
    · exact .bind (.modify fun _ h => h) fun _ => ih

theorem Guessless.step {M : Method K V Mat Fac} (hM : Guessless M) : Stays (step e o M) := by
  have hp : Stays (pure () : Act (St K V Mat Fac) Unit) := .keeps (Keeps.ret ())
  have hraw : Stays (stepRaw e o M) := by
    refine .bind ?_ fun _ => .bind (.keeps framed_guess.computeResidual) fun _ =>
      .bind (.keeps framed_guess.computeResidualNorms) fun _ => .bind (.ite hM.quasiPredictor hp) fun _ =>
        .bind (.modify fun _ h => h) fun _ => hM.iterate _
    refine .bind .get fun s => .bind (.ite ?_ hp) fun _ => .bind (.modify fun _ h => h) fun _ =>
      .bind hM.initiateStep fun _ => .bind .get fun _ => .ite hM.predictorGuess hM.predictor
    exact .bind (.modify fun _ h => h) fun _ => .keeps (Keeps.throw _)
  intro s hs
  have h1 := hraw s hs
  simp only [ALM.step, ALM.caught]
  rcases h : stepRaw e o M s with ⟨t, x | a⟩
  · rw [h] at h1
    cases x <;> exact h1
  · rw [h] at h1
    exact h1

/-! ### Runs -/

/-- Any number of steps: what they return, and the final state. -/
def steps (e : Env K V Mat Fac) (o : Opts K) (M : Method K V Mat Fac) :
    ℕ → St K V Mat Fac → List (Except Err Status) × St K V Mat Fac
  | 0, s => ([], s)
  | n + 1, s => ((ALM.step e o M s).2 :: (steps e o M n (ALM.step e o M s).1).1, (steps e o M n (ALM.step e o M s).1).2)

section

variable [Inhabited Mat]

theorem steps_agree {k : Kind} {stab hist : Bool} (hh : hist = true → Memoryless e o k) (n : ℕ)
    (s t : St K V Mat Fac) (hst : clear (before k stab hist o.phiUser) s = clear (before k stab hist o.phiUser) t)
    (hs : s.guess = none) :
    (steps e o (k.method e o) n s).1 = (steps e o (k.method e o) n t).1 ∧
      clear (before k stab hist o.phiUser) (steps e o (k.method e o) n s).2 =
        clear (before k stab hist o.phiUser) (steps e o (k.method e o) n t).2 ∧
      (steps e o (k.method e o) n s).2.guess = none := by
  induction n generalizing s t with
  | zero => exact ⟨rfl, hst, hs⟩
  | succ n ih =>
    obtain ⟨h1, h2, -⟩ := (k.sound hh).step s t hst hs
    obtain ⟨h3, h4, h5⟩ := ih _ _ h2 (k.guessless.step s hs)
    exact ⟨by simp only [steps, h1, h3], h4, h5⟩

/-- The members that the user can see. -/
structure Seen (s t : St K V Mat Fac) : Prop where
  U : s.U = t.U
  L : s.L = t.L
  DU : s.DU = t.DU
  DL : s.DL = t.DL
  len : s.len = t.len
  converged : s.converged = t.converged
  numIt : s.numIt = t.numIt
  log : s.log = t.log

theorem Seen.of_clear {k : Kind} {stab user : Bool} {s t : St K V Mat Fac} (hst : clear (before k stab false user) s = clear (before k stab false user) t) : Seen s t := by
  have key : ∀ {γ : Type} (f : St K V Mat Fac → γ),
      f (clear (before k stab false user) s) = f (clear (before k stab false user) t) := fun f => by rw [hst]
  exact ⟨key (·.U), key (·.L), key (·.DU), key (·.DL), key (·.len), key (·.converged), key (·.numIt), key (·.log)⟩

/-- A new object with options, as it is before the first step. `g` and `m` are what the memory contained. -/
def prepare (e : Env K V Mat Fac) (k : Kind) (b : Bool) (x : Given K) (stability : Bool) (g : St K V Mat Fac)
    (m : Opts K) : St K V Mat Fac × Except Err Unit :=
  initializeObj e (setOptions k x (construct k b g m)).o k stability (setOptions k x (construct k b g m)).st

theorem construct_agree (k : Kind) (b : Bool) (x : Given K) (g g' : St K V Mat Fac) (m : Opts K) (user : Bool) :
    clear (before k true false user)
        (initMethods k { (setOptions k x (construct k b g m)).st with initialized := true }) =
      clear (before k true false user)
        (initMethods k { (setOptions k x (construct k b g' m)).st with initialized := true }) := by
  cases k <;> cases b <;>
    simp [clear, before, initMethods, setOptions, getOptions, construct, raw]

theorem prepare_agree (k : Kind) (b : Bool) (x : Given K) (w : Bool) (g g' : St K V Mat Fac) (m : Opts K)
    (user : Bool) :
    (prepare e k b x w g m).2 = (prepare e k b x w g' m).2 ∧ ((prepare e k b x w g m).2 = .ok () →
      clear (before k (!w) false user) (prepare e k b x w g m).1 =
          clear (before k (!w) false user) (prepare e k b x w g' m).1 ∧
        (prepare e k b x w g m).1.guess = none) := by
  have h0 := construct_agree k b x g g' m user
  have ho : (setOptions k x (construct k b g m)).o = (setOptions k x (construct k b g' m)).o := by
    cases k <;> cases b <;> rfl
  have hg : ∀ y : St K V Mat Fac,
      (initMethods k { (setOptions k x (construct k b y m)).st with initialized := true }).guess = none := by
    intro y
    cases k <;> cases b <;> rfl
  unfold prepare
  cases w with
  | false =>
    rw [initializeObj_false, initializeObj_false]
    exact ⟨rfl, fun _ => ⟨h0, hg g⟩⟩
  | true =>
    rw [ho]
    set O := (setOptions k x (construct k b g' m)).o
    have hok : Ok e O (before k true false user) (before k true false user) :=
      ⟨Mask.Le.refl _, fun h => by simp [before] at h, fun h => by simp [before] at h, fun h => by simp [before] at h⟩
    have hle : ((before k true false user).drop .mat).known.Le (before k false false user) := by
      intro p
      cases p <;> simp [before, Mask.drop]
    have hw : (before k false false user).Le (before k true false user) := by
      intro p
      cases p <;> simp [before]
    have flow : Flow (before k true false user) (before k true false user) (before k false false user)
        (Act.get >>= fun s : St K V Mat Fac => computeStabilityRaw e O s.U true (-100) >>= fun _ =>
          Act.modify fun s => { s with stability := stabilityOf s.indicator }) := by
      refine .getBind (fun _ => rfl) fun s =>
        .bind ((Flow.stabilityNew hok _ _).weaken (Mask.Le.refl _) hle) fun _ => .modify hw fun s => ?_
      simp [clear, before]
    have keep : Stays (Act.get >>= fun s : St K V Mat Fac => computeStabilityRaw e O s.U true (-100) >>= fun _ =>
          Act.modify fun s => { s with stability := stabilityOf s.indicator }) :=
      .bind .get fun s => .bind (.keeps (framed_guess.computeStabilityRaw _ _ _)) fun _ => .modify fun _ h => h
    have run : ∀ y, initializeObj e O k true y = (Act.get >>= fun s : St K V Mat Fac =>
        computeStabilityRaw e O s.U true (-100) >>= fun _ =>
          Act.modify fun s => { s with stability := stabilityOf s.indicator })
            (initMethods k { y with initialized := true }) := by
      intro y
      simp only [initializeObj, if_true]
      rw [Act.bind_ok (Act.modify_apply _ _)]
    rw [run, run]
    obtain ⟨h1, h2, -⟩ := flow _ _ h0
    exact ⟨h1, fun h => ⟨h2 () h, keep _ (hg g)⟩⟩

end

/-- **C112**: what a new object does does not depend on the members that the constructors leave indeterminate:
`initialize()` throws or not, the steps return the same, and what the user sees is the same, for every kind,
list of options and number of steps, as long as no guess is given. -/
theorem C112_deterministic (k : Kind) (b : Bool) (x : Given K) (w : Bool) (g g' : St K V Mat Fac) (m : Opts K)
    (n : ℕ) (h : (prepare e k b x w g m).2 = .ok ()) :
    (prepare e k b x w g' m).2 = .ok () ∧
      (steps e o (k.method e o) n (prepare e k b x w g m).1).1 =
        (steps e o (k.method e o) n (prepare e k b x w g' m).1).1 ∧
      Seen (steps e o (k.method e o) n (prepare e k b x w g m).1).2
        (steps e o (k.method e o) n (prepare e k b x w g' m).1).2 := by
  have : Inhabited Mat := ⟨g.jac⟩
  obtain ⟨h1, h2⟩ := prepare_agree (e := e) k b x w g g' m o.phiUser
  obtain ⟨h3, h4⟩ := h2 h
  obtain ⟨h5, h6, -⟩ := steps_agree (o := o) (by simp) n _ _ h3 h4
  exact ⟨h1.symm.trans h, h5, Seen.of_clear h6⟩

/-- **C112**: after `initialize(true)` neither does the stability, and `stabilityChange()` after a successful
step. -/
theorem C112_stability (k : Kind) (b : Bool) (x : Given K) (g g' : St K V Mat Fac) (m : Opts K)
    (n : ℕ) (h : (prepare e k b x true g m).2 = .ok ()) :
    let s := (steps e o (k.method e o) n (prepare e k b x true g m).1).2
    let s' := (steps e o (k.method e o) n (prepare e k b x true g' m).1).2
    s.stability = s'.stability ∧ s.indicator = s'.indicator ∧
      ((step e o (k.method e o) s).2 = .ok .success →
        stabilityChange (step e o (k.method e o) s).1 = stabilityChange (step e o (k.method e o) s').1) := by
  have : Inhabited Mat := ⟨g.jac⟩
  obtain ⟨-, h2⟩ := prepare_agree (e := e) k b x true g g' m o.phiUser
  obtain ⟨h3, h4⟩ := h2 h
  obtain ⟨-, h6, h7⟩ := steps_agree (o := o) (by simp) n _ _ h3 h4
  have key : ∀ {s t : St K V Mat Fac},
      clear (before k false false o.phiUser) s = clear (before k false false o.phiUser) t →
      s.stability = t.stability ∧ s.indicator = t.indicator := by
    intro s t hst
    have h1 : (clear (before k false false o.phiUser) s).stability =
        (clear (before k false false o.phiUser) t).stability := by rw [hst]
    have h2 : (clear (before k false false o.phiUser) s).indicator =
        (clear (before k false false o.phiUser) t).indicator := by rw [hst]
    exact ⟨h1, h2⟩
  obtain ⟨h8, h9⟩ := key h6
  refine ⟨h8, h9, fun hs => ?_⟩
  obtain ⟨h10, h11, -⟩ := (k.sound (by simp)).step _ _ h6 h7
  have e1 := step_stabilityPrev (k.isMethod e o) (Prod.ext rfl hs)
  have e2 := step_stabilityPrev (k.isMethod e o) (Prod.ext rfl (h10.symm.trans hs))
  simp only [stabilityChange, e1, e2, (key h11).1, h8]

/-- **C112** violated: with a guess, the first step of Riks' method uses a scaling that was never set. -/
theorem C112_violated_guess (b : Bool) (x : Given K) (c : K) (g : St K V Mat Fac) (m : Opts K) (U : V) (L : K)
    {t : St K V Mat Fac}
    (h : beginStep e (riks e) (setInitialGuess U L (prepare e .riks b x false { g with phi := c } m).1).1 = (t, .ok ()))
    (hU : e.geo.norm (U - 0) ≠ 0) (hL : L - 0 ≠ 0) : t.phi = c := by
  have hprep : (prepare e .riks b x false { g with phi := c } m).1.phi = c ∧
      (prepare e .riks b x false { g with phi := c } m).1.U = 0 ∧
      (prepare e .riks b x false { g with phi := c } m).1.L = 0 ∧
      (prepare e .riks b x false { g with phi := c } m).1.initialized = true := by
    unfold prepare
    rw [initializeObj_false]
    cases b <;> exact ⟨rfl, rfl, rfl, rfl⟩
  generalize hs : (prepare e .riks b x false { g with phi := c } m).1 = s at h hprep
  obtain ⟨h1, h2, h3, h4⟩ := hprep
  have hf : Framed (fun s : St K V Mat Fac => s.phi) := by constructor <;> intros <;> rfl
  have hk : Keeps (fun s : St K V Mat Fac => s.phi) (rkPredictorGuess e) := by
    refine .bind hf.assembleFactorize fun _ => .bind (hf.computeUt fun _ _ => rfl) fun _ => .bind Keeps.get fun _ =>
      .bind (.ite ?_ (.modify fun _ => rfl)) fun _ => .bind (.modify fun _ => rfl) fun _ => .modify fun _ => rfl
    exact .bind (hf.computeUt fun _ _ => rfl) fun _ => .modify fun _ => rfl
  have hu : usesGuess e { (setInitialGuess U L s).1 with converged := false, numIt := 0, DU := 0, dU := 0, DL := 0, dL := 0 }
      = true := by
    simp only [usesGuess, setInitialGuess, Act.modify_apply, h2, h3]
    simpa using And.intro (by simpa using hU) (by simpa using hL)
  have hb : beginStep e (riks e) (setInitialGuess U L s).1 = rkPredictorGuess e
      { (setInitialGuess U L s).1 with converged := false, numIt := 0, DU := 0, dU := 0, DL := 0, dL := 0 } := by
    have h4' : ¬ (setInitialGuess U L s).1.initialized = false := by
      show ¬ s.initialized = false
      simp [h4]
    unfold beginStep
    rw [Act.bind_ok (Act.get_apply _), if_neg h4', Act.bind_ok (Act.pure_apply _ _), Act.bind_ok (Act.modify_apply _ _)]
    simp only [riks, zeroIncrements]
    rw [Act.bind_ok (Act.modify_apply _ _), Act.bind_ok (Act.get_apply _), if_pos hu]
  rw [hb] at h
  exact (hk.run h).trans h1

/-! ### Examples -/

section examples

open Demo

/-- `C112_deterministic`, `C112_stability`: two contents of the memory, three steps of Riks' method. -/
example :
    let e := env 0 fine fine
    let run := fun g => prepare e .riks false { length := some (1 : ℚ) } true g (opts 5 3)
    let g := start 7 true
    let g' := { start 7 true with phi := 5, stability := 3, Lprev := 9, DLold := 8, dL := 7, initialized := false }
    let r := steps e (opts 5 3) (riks e) 2 (run g).1
    let r' := steps e (opts 5 3) (riks e) 2 (run g').1
    (run g).2 = .ok () ∧ r.1 = [.ok .success, .ok .success] ∧ r'.1 = r.1 ∧ r.2.L ≠ 0 ∧ r'.2.L = r.2.L ∧
      r'.2.stability = r.2.stability := by
  decide +kernel

/-- `C112_violated_guess`: two contents of the memory give different solutions. -/
example :
    let e := env 0 fine fine
    let run := fun c => (setInitialGuess 1 (1 : ℚ)
      (prepare e .riks false { length := some (1 : ℚ) } false { start 7 true with phi := c } (opts 5 3)).1).1
    let r := step e (opts 5 3) (riks e) (run (1 / 2))
    let r' := step e (opts 5 3) (riks e) (run (1 / 4))
    r.2 = .ok .success ∧ r'.2 = .ok .success ∧ r.1.L ≠ r'.1.L := by
  decide +kernel

end examples

end GsSA.ALM
