import Verif.ALM.Config
import Verif.ALM.StepProps
import Verif.ALM.SingularProps
import Verif.ALM.Demo

/-!
# Lengths (C110), options (C111) and initialisation (C112) of the arc-length objects
-/

namespace GsSA.ALM

set_option linter.unusedSectionVars false

variable {K V Mat Fac : Type} [Field K] [LinearOrder K] [IsStrictOrderedRing K] [AddCommGroup V] [Module K V]
variable {e : Env K V Mat Fac} {o : Opts K}

theorem Kind.isMethod (e : Env K V Mat Fac) (o : Opts K) (k : Kind) : IsMethod e o (k.method e o) := by
  cases k <;> constructor

/-- The stability before a successful step is stored as the previous one. -/
theorem step_stabilityPrev {M : Method K V Mat Fac} (hM : IsMethod e o M) {s t : St K V Mat Fac}
    (h : step e o M s = (t, .ok .success)) : t.stabilityPrev = s.stability := by
  rcases step_cases hM.lawful s with ⟨u, hr, hi, h'⟩ | ⟨u, x, hr, hx, h'⟩
  · rw [h'] at h
    simp only [Prod.mk.injEq, and_true] at h
    obtain ⟨p, q, hc, ha⟩ := (stepRaw_spec hM.lawful hi hr).1 rfl
    rw [← h]
    simp only
    split at ha
    · rw [ha, hc.stabilityPrev]
    · rw [ha.stabilityPrev, hc.stabilityPrev]
  · rw [h'] at h
    simp only [Prod.mk.injEq, Except.ok.injEq] at h
    cases x <;> simp_all [statusOf]

/-! ### Lengths -/

/-- Call `reduceLength(fac)` for every factor of a list. -/
def reduceAll (l : List K) (s : St K V Mat Fac) : St K V Mat Fac := l.foldl (fun t f => (reduceLength f t).1) s

theorem reduceAll_eq (l : List K) (s : St K V Mat Fac) : reduceAll l s = { s with len := s.len * l.prod } := by
  induction l generalizing s with
  | nil => simp [reduceAll]
  | cons f l ih =>
    have : reduceAll (f :: l) s = reduceAll l { s with len := s.len * f } := rfl
    rw [this, ih]
    simp [mul_assoc]

/-- **C110**: `setLength(l)` makes `l` the length, whatever it was before, and the original length;
`reduceLength` multiplies the length by the factor and returns it; after any number of reductions
`resetLength` returns to the length set, if lengths are not adaptive. Nothing else changes. -/
theorem C110_length (l : K) (fs : List K) (fac : K) (s : St K V Mat Fac) :
    let t := reduceAll fs (setLength l s).1
    t = { s with len := l * fs.prod, lenPrev := l, lenOri := l } ∧
    reduceLength fac t = ({ t with len := l * fs.prod * fac }, .ok (l * fs.prod * fac)) ∧
    (s.adaptive = false → resetLength o t = ((setLength l s).1, .ok l)) := by
  have ht : reduceAll fs (setLength l s).1 = { s with len := l * fs.prod, lenPrev := l, lenOri := l } := by
    rw [reduceAll_eq]
    rfl
  dsimp only
  rw [ht]
  refine ⟨rfl, rfl, fun ha => ?_⟩
  simp [resetLength, setLength, Act.bind_apply, ha]

/-- **C110** violated: with adaptive length, `resetLength` before the first step divides by the number of
iterations, which is zero. -/
theorem C110_violated_reset (k : Kind) (b : Bool) (g : St K V Mat Fac) (m : Opts K) (l : K) (it : ℤ) :
    let c := (construct k b g m).setAdaptive l true it
    (resetLength c.o c.st).2 = .error .ub := by
  cases k <;> cases b <;> rfl

/-- The calls that concern lengths; `members f` is any other function, which changes the members but not the
options (`step`, `reduceLength`, `setSolution`, …). -/
inductive LenCall (K V Mat Fac : Type)
  | setLength (l : K)
  | setAdaptive (l : K) (adaptive : Bool) (iterations : ℤ)
  | setOptions (g : Given K)
  | applyOptions
  | members (f : Opts K × St K V Mat Fac → Opts K × St K V Mat Fac)

/-- The effect of a call. -/
def LenCall.run (k : Kind) : LenCall K V Mat Fac → Obj K V Mat Fac → Obj K V Mat Fac
  | .setLength l, b => b.setLength l
  | .setAdaptive l a i, b => b.setAdaptive l a i
  | .setOptions g, b => ALM.setOptions k g b
  | .applyOptions, b => ALM.applyOptions k b
  | .members f, b => { b with o := (f (b.o, b.st)).1, st := (f (b.o, b.st)).2 }

/-- The length that was set last, by `setLength` or with an option list; `l` if there was none. -/
def lastLength : K → List (LenCall K V Mat Fac) → K
  | l, [] => l
  | _, .setLength l :: cs => lastLength l cs
  | _, .setAdaptive l _ _ :: cs => lastLength l cs
  | l, .setOptions g :: cs => lastLength (g.length.getD l) cs
  | l, .applyOptions :: cs => lastLength l cs
  | l, .members _ :: cs => lastLength l cs

theorem options_length (k : Kind) (cs : List (LenCall K V Mat Fac)) (b : Obj K V Mat Fac) :
    (cs.foldl (fun c x => x.run k c) b).options.length = lastLength b.options.length cs := by
  induction cs generalizing b with
  | nil => rfl
  | cons c cs ih =>
    rw [List.foldl_cons, ih]
    cases c <;> rfl

/-- **C110**: after any calls, `applyOptions()` and `setOptions(…)` set the length to the one that was set last;
what `reduceLength` and adaptive steps did to it is lost. -/
theorem C110_options (k : Kind) (b : Bool) (g : St K V Mat Fac) (m : Opts K) (cs : List (LenCall K V Mat Fac))
    (x : Given K) :
    let c := cs.foldl (fun c x => x.run k c) (construct k b g m)
    let l := lastLength (1 / 10 ^ 2) cs
    ((applyOptions k c).st.len = l ∧ (applyOptions k c).st.lenPrev = l ∧ (applyOptions k c).st.lenOri = l) ∧
      ((setOptions k x c).st.len = x.length.getD l ∧ (setOptions k x c).st.lenOri = x.length.getD l) := by
  have h := options_length k cs (construct k b g m)
  have h0 : (construct k b g m).options.length = 1 / 10 ^ 2 := by
    cases k <;> cases b <;> rfl
  rw [h0] at h
  exact ⟨⟨h, h, h⟩, congrArg x.length.getD h, congrArg x.length.getD h⟩

/-- **C110** violated: the flag and the number of iterations given to `setLength` are not stored in the options:
the next `applyOptions()` replaces them by the values of the options. -/
theorem C110_violated_adaptive (k : Kind) (l : K) (a : Bool) (it : ℤ) (b : Obj K V Mat Fac) :
    let c := applyOptions k (b.setAdaptive l a it)
    (b.setAdaptive l a it).st.adaptive = a ∧ (b.setAdaptive l a it).o.desiredIt = it ∧
      c.st.adaptive = b.options.adaptiveLength ∧ c.o.desiredIt = b.options.adaptiveIterations :=
  ⟨rfl, rfl, rfl, rfl⟩

/-! ### Options -/

/-- **C111**: `setOptions` stores what is given, keeps the other options, and the solver works with the result
at once. -/
theorem C111_options (k : Kind) (g : Given K) (b : Obj K V Mat Fac) :
    let c := setOptions k g b
    c.options = b.options.update g ∧
      (∀ x, g.tol = some x → c.o.tol = x) ∧ (g.tol = none → c.o.tol = b.options.tol) ∧
      (∀ x, g.tolF = some x → c.o.tolF = x) ∧ (g.tolF = none → c.o.tolF = b.options.tolF) ∧
      (∀ x, g.tolU = some x → c.o.tolU = x) ∧ (g.tolU = none → c.o.tolU = b.options.tolU) ∧
      (∀ x, g.maxIter = some x → c.o.maxIt = x.toNat) ∧
      (∀ x, g.adaptiveLength = some x → c.st.adaptive = x) ∧
      (∀ x, g.quasi = some x → c.o.quasi = x) ∧ (∀ x, g.relaxation = some x → c.o.relax = x) ∧
      (∀ x, g.length = some x → c.st.len = x) := by
  refine ⟨rfl, ?_, ?_, ?_, ?_, ?_, ?_, ?_, ?_, ?_, ?_, ?_⟩ <;>
    first
      | (intro x h; simp [setOptions, getOptions, Options.update, h])
      | (intro h; simp [setOptions, getOptions, Options.update, h])

/-- **C111**: the options for singular points, for the length of the arc and for the quasi-Newton method are stored
and used as given, each in its own place. -/
theorem C111_singular (k : Kind) (g : Given K) (b : Obj K V Mat Fac) :
    let c := setOptions k g b
    (∀ x, g.perturbation = some x → c.o.tau = x) ∧ (∀ x, g.adaptiveIterations = some x → c.o.desiredIt = x) ∧
      (∀ x, g.quasiIterations = some x → c.o.quasiInterval = x) ∧ (∀ x, g.spFailure = some x → c.o.spFail = x) ∧
      (∀ x, g.spTestTol = some x → c.o.spTestTol = x) ∧ (∀ x, g.spTestIt = some x → c.o.spTestIt = x.toNat) ∧
      (∀ x, g.spTolE = some x → c.o.spTolE = x) ∧ (∀ x, g.spTolB = some x → c.o.spTolB = x) ∧
      (g.spTestTol = none → c.o.spTestTol = b.options.spTestTol) ∧
      (g.spTolE = none → c.o.spTolE = b.options.spTolE) ∧ (g.spTolB = none → c.o.spTolB = b.options.spTolB) := by
  refine ⟨?_, ?_, ?_, ?_, ?_, ?_, ?_, ?_, ?_, ?_, ?_⟩ <;>
    (intros; simp_all [setOptions, getOptions, Options.update])

/-- **C111**: what a new object works with. -/
theorem C111_defaults (k : Kind) (withStep : Bool) (g : St K V Mat Fac) (m : Opts K) :
    let c := construct k withStep g m
    c.o.maxIt = 100 ∧ c.o.tol = 1 / 10 ^ 6 ∧ c.o.tolF = 1 / 10 ^ 3 ∧ c.o.tolU = 1 / 10 ^ 6 ∧ c.o.tau = 10 ^ 3 ∧
      c.o.desiredIt = 10 ∧ c.o.quasi = false ∧ c.o.quasiInterval = -1 ∧ c.o.relax = 1 ∧ c.o.spFail = 1 ∧
      c.o.spTestTol = 1 / 10 ^ 6 ∧ c.o.spTestIt = 5 ∧ c.o.spTolE = 1 / 10 ^ 10 ∧ c.o.spTolB = 0 :=
  ⟨rfl, rfl, rfl, rfl, rfl, rfl, rfl, rfl, rfl, rfl, rfl, rfl, rfl, rfl⟩

/-- The options of `g'` and, where it has none, those of `g`. -/
def Given.merge (g g' : Given K) : Given K where
  maxIter := g'.maxIter.or g.maxIter
  tol := g'.tol.or g.tol
  tolF := g'.tolF.or g.tolF
  tolU := g'.tolU.or g.tolU
  perturbation := g'.perturbation.or g.perturbation
  length := g'.length.or g.length
  adaptiveLength := g'.adaptiveLength.or g.adaptiveLength
  adaptiveIterations := g'.adaptiveIterations.or g.adaptiveIterations
  quasi := g'.quasi.or g.quasi
  quasiIterations := g'.quasiIterations.or g.quasiIterations
  bifurcationMethod := g'.bifurcationMethod.or g.bifurcationMethod
  spFailure := g'.spFailure.or g.spFailure
  spTestTol := g'.spTestTol.or g.spTestTol
  spTestIt := g'.spTestIt.or g.spTestIt
  spTolE := g'.spTolE.or g.spTolE
  spTolB := g'.spTolB.or g.spTolB
  solver := g'.solver.or g.solver
  relaxation := g'.relaxation.or g.relaxation
  scaling := g'.scaling.or g.scaling
  angleMethod := g'.angleMethod.or g.angleMethod

theorem getD_or {α : Type} (x y : Option α) (z : α) : (x.or y).getD z = x.getD (y.getD z) := by
  cases x <;> rfl

/-- **C111**: two calls of `setOptions` are one call with the union of the lists, the second one having
precedence; a call with all options makes the former options irrelevant. -/
theorem C111_merge (k : Kind) (g g' : Given K) (b : Obj K V Mat Fac) :
    setOptions k g' (setOptions k g b) = setOptions k (g.merge g') b := by
  have h : (b.options.update g).update g' = b.options.update (g.merge g') := by
    simp only [Options.update, Given.merge, getD_or]
  simp only [setOptions]
  rw [← h]
  cases k <;> rfl

/-- **C111**: `applyOptions()` twice is the same as once, and right after `setOptions` it changes nothing. -/
theorem C111_idempotent (k : Kind) (g : Given K) (b : Obj K V Mat Fac) :
    applyOptions k (applyOptions k b) = applyOptions k b ∧ applyOptions k (setOptions k g b) = setOptions k g b := by
  cases k <;> exact ⟨rfl, rfl⟩

/-- **C111**: the determinant method is used only with the LDLT solver. -/
theorem C111_determinant (k : Kind) (b : Obj K V Mat Fac) :
    ((applyOptions k b).o.bifMethod = .determinant →
      b.options.solver = "SimplicialLDLT" ∧ b.options.bifurcationMethod = .determinant) ∧
    (b.options.solver = "SimplicialLDLT" ∨ b.options.bifurcationMethod ≠ .determinant →
      (applyOptions k b).o.bifMethod = b.options.bifurcationMethod) := by
  have h : (applyOptions k b).o.bifMethod = effectiveMethod b.options := rfl
  rw [h]
  unfold effectiveMethod
  constructor
  · intro h
    split at h
    · cases h
    · rename_i hn
      refine ⟨?_, h⟩
      by_contra hs
      exact hn ⟨hs, h⟩
  · intro h
    rw [if_neg]
    rintro ⟨h1, h2⟩
    rcases h with h | h
    · exact h1 h
    · exact h h2

/-- **C111** violated: `options_into(list)` does not change the list. -/
theorem C111_violated_into (b : Obj K V Mat Fac) (mine : Options K) (h : mine ≠ b.options) :
    optionsInto b mine ≠ b.options := h

/-- **C111** violated: `setOptions` also resets what its list does not mention: the length after
`reduceLength`, and the factorisation. -/
theorem C111_violated_unrelated (k : Kind) (fac : K) (hf : fac ≠ 1) (l : K) (hl : l ≠ 0) (b : Obj K V Mat Fac) :
    let c := { b.setLength l with st := (reduceLength fac (b.setLength l).st).1 }
    (setOptions k {} c).st.len ≠ c.st.len ∧ (setOptions k {} c).st.fac = none := by
  refine ⟨?_, rfl⟩
  show l ≠ l * fac
  intro h
  exact hf (mul_left_cancel₀ hl (by rw [mul_one]; exact h.symm))

/-! ### Initialisation -/

theorem initializeObj_false (k : Kind) (s : St K V Mat Fac) :
    initializeObj e o k false s = (initMethods k { s with initialized := true }, .ok ()) := by
  simp [initializeObj, Act.bind_apply]

/-- **C112**: `initialize()` puts the object at the origin, marks it as initialised and keeps the lengths and
the options, for every kind and also if the stability computation fails. -/
theorem C112_origin (k : Kind) (b : Bool) (s : St K V Mat Fac) :
    let t := (initializeObj e o k b s).1
    t.initialized = true ∧ t.U = 0 ∧ t.L = 0 ∧ t.DU = 0 ∧ t.DL = 0 ∧ t.len = s.len ∧ t.lenPrev = s.lenPrev ∧
      t.lenOri = s.lenOri ∧ t.adaptive = s.adaptive ∧ t.phi = s.phi := by
  cases b with
  | false =>
    rw [initializeObj_false]
    cases k <;> exact ⟨rfl, rfl, rfl, rfl, rfl, rfl, rfl, rfl, rfl, rfl⟩
  | true =>
    have hf : Framed (fun s : St K V Mat Fac =>
        (s.initialized, s.U, s.L, s.DU, s.DL, s.len, s.lenPrev, s.lenOri, s.adaptive, s.phi)) := by
      constructor <;> intros <;> rfl
    have hrun : initializeObj e o k true s =
        (computeStabilityRaw e o (initMethods k { s with initialized := true }).U true (-100) >>= fun _ =>
          Act.modify fun s => { s with stability := stabilityOf s.indicator })
          (initMethods k { s with initialized := true }) := by
      simp [initializeObj, Act.bind_apply]
    dsimp only
    rw [hrun]
    rcases h : computeStabilityRaw e o (initMethods k { s with initialized := true }).U true (-100)
      (initMethods k { s with initialized := true }) with ⟨u, x | ⟨⟩⟩
    · rw [Act.bind_error h]
      have := (hf.computeStabilityRaw _ _ _).run h
      simp only [Prod.mk.injEq] at this
      obtain ⟨h1, h2, h3, h4, h5, h6, h7, h8, h9, h10⟩ := this
      cases k <;> exact ⟨h1, h2, h3, h4, h5, h6, h7, h8, h9, h10⟩
    · rw [Act.bind_ok h]
      have := (hf.computeStabilityRaw _ _ _).run h
      simp only [Prod.mk.injEq] at this
      obtain ⟨h1, h2, h3, h4, h5, h6, h7, h8, h9, h10⟩ := this
      cases k <;> exact ⟨h1, h2, h3, h4, h5, h6, h7, h8, h9, h10⟩

/-- **C112** violated: a solution set before `initialize()` is lost. -/
theorem C112_violated_solution (k : Kind) (b : Bool) (U : V) (L : K) (hU : U ≠ 0) (s : St K V Mat Fac) :
    (initializeObj e o k b (setSolution U L s).1).1.U ≠ U := by
  rw [(C112_origin k b _).2.1]
  exact hU.symm

/-- **C112** violated: a failing Jacobian makes `initialize()` throw an exception, which is an integer, instead
of reporting a status; the object is marked as initialised nevertheless. -/
theorem C112_violated_throws (k : Kind) (s : St K V Mat Fac) (hj : ∀ n, e.jacobian n 0 0 = none) :
    (initializeObj e o k true s).2 = .error .assembly ∧ (initializeObj e o k true s).1.initialized = true ∧
      (initializeObj e o k true s).1.status = s.status := by
  have hU : (initMethods k { s with initialized := true }).U = 0 := by cases k <;> rfl
  have hst : (initMethods k { s with initialized := true }).status = s.status := by cases k <;> rfl
  have h : initializeObj e o k true s =
      ({ initMethods k { s with initialized := true } with
        log := .jacobian false :: (initMethods k { s with initialized := true }).log }, .error .assembly) := by
    simp only [initializeObj, Act.bind_apply, Act.modify_apply, Act.get_apply, if_true, computeStabilityRaw,
      reassemble, computeJacobianAt, hU, hj, emit, Act.throw_apply]
  exact ⟨by rw [h], (C112_origin k true s).1, by rw [h]; exact hst⟩

/-- **C112** violated: the constructors do not set `m_initialized`, so a call of `step()` without
`initialize()` may pass the assertion: whatever the memory contains is kept. -/
theorem C112_violated_initialized (k : Kind) (b c : Bool) (g : St K V Mat Fac) (m : Opts K) :
    (construct k b { g with initialized := c } m).st.initialized = c := by
  cases k <;> cases b <;> rfl

/-- **C112** violated: the constructor with a Jacobian of two arguments does not set the status either. -/
theorem C112_violated_status (k : Kind) (st : Status) (g : St K V Mat Fac) (m : Opts K) :
    (construct k true { g with status := st } m).st.status = st ∧
      (construct k false { g with status := st } m).st.status = .notStarted := by
  cases k <;> exact ⟨rfl, rfl⟩

/-- **C112** violated: after `initialize(false)` the stability before the first step is indeterminate (`c`), and
with it `stabilityChange()` after that step. -/
theorem C112_violated_change (k : Kind) (b : Bool) (g : St K V Mat Fac) (m : Opts K) (c : ℤ)
    {t : St K V Mat Fac}
    (h : step e o (k.method e o) (initializeObj e o k false (construct k b { g with stability := c } m).st).1 =
      (t, .ok .success)) :
    stabilityChange t = decide (t.stability * c < 0) := by
  have hs : (initializeObj e o k false (construct k b { g with stability := c } m).st).1.stability = c := by
    rw [initializeObj_false]
    cases k <;> cases b <;> rfl
  rw [stabilityChange, step_stabilityPrev (k.isMethod e o) h, hs]

/-! ### Examples -/

section examples

open Demo

/-- A new object whose indeterminate members are those of `start 7 true`, with stability `c`. -/
def fresh (k : Kind) (c : ℤ) : Obj ℚ ℚ ℚ ℚ := construct k false { start 7 true with stability := c } (opts 5 3)

/-- `C110_length`, `C110_options`. -/
example :
    let b := (fresh .riks 0).setLength 4
    let c := { b with st := reduceAll [1 / 2, 1 / 4] b.st }
    b.st.len = 4 ∧ c.st.len = 1 / 2 ∧ (resetLength c.o c.st).2 = .ok 4 ∧ (applyOptions .riks c).st.len = 4 ∧
      (setOptions .riks { tol := some (1 : ℚ) } c).st.len = 4 ∧
      (setOptions .riks { length := some (9 : ℚ) } c).st.len = 9 ∧ (fresh .riks 0).st.len = 1 / 100 := by
  decide +kernel

/-- `C110_violated_adaptive`, `C110_violated_reset`. -/
example :
    let b := (fresh .crisfield 0).setAdaptive 4 true 6
    b.st.adaptive = true ∧ b.o.desiredIt = 6 ∧ (resetLength b.o b.st).2 = .error .ub ∧
      (applyOptions .crisfield b).st.adaptive = false ∧ (applyOptions .crisfield b).o.desiredIt = 10 := by
  decide +kernel

/-- `C111_options`, `C111_merge`, `C111_determinant`. -/
example :
    let b := setOptions .crisfield { tol := some (3 : ℚ), scaling := some 2 } (fresh .crisfield 0)
    let g : Given ℚ := { tol := some 4, solver := some "CGDiagonal", bifurcationMethod := some .determinant }
    let c := setOptions .crisfield g b
    (b.o.tol, b.o.phiUser, b.st.phi) = (3, true, 2) ∧ c.o.tol = 4 ∧ c.o.tolF = 1 / 1000 ∧ c.st.phi = 2 ∧
      c.options.bifurcationMethod = .determinant ∧ c.o.bifMethod = .eigenvalue := by
  decide +kernel

/-- `C111_singular`, `C111_defaults`. -/
example :
    let c := setOptions .crisfield { spTestTol := some (3 : ℚ), spTolE := some 4, spFailure := some 0 } (fresh .crisfield 0)
    (c.o.spTestTol, c.o.spTolE, c.o.spTolB) = (3, 4, 0) ∧ c.o.spFail = 0 ∧ (fresh .riks 0).o.spFail = 1 := by
  decide +kernel

/-- `C111_violated_into`: the lists are different. -/
example : ({ defaultOptions with tol := 5 } : Options ℚ) ≠ (fresh .riks 0).options := by decide +kernel

/-- `C112_origin`, `C112_violated_solution`. -/
example :
    let s := (setSolution 3 (2 : ℚ) (fresh .riks 0).st).1
    let t := initializeObj (env 0 fine fine) (fresh .riks 0).o .riks true s
    s.U = 3 ∧ t.2 = .ok () ∧ t.1.U = 0 ∧ t.1.stability = -1 := by
  decide +kernel

/-- `C112_violated_throws`. -/
example :
    (initializeObj { env 0 fine fine with jacobian := fun _ _ _ => none } (opts 5 3) .riks true (fresh .riks 0).st).2 =
      .error .assembly := by
  decide +kernel

/-- `C112_violated_change`: the same first step, with a change of stability for one content of the memory. -/
example :
    let run := fun c => step (env 0 fine fine) (opts 5 3) (loadControl (env 0 fine fine))
      (initializeObj (env 0 fine fine) (opts 5 3) .loadControl false (fresh .loadControl c).st).1
    (run 1).2 = .ok .success ∧ stabilityChange (run 1).1 = true ∧ (run (-1)).2 = .ok .success ∧
      stabilityChange (run (-1)).1 = false := by
  decide +kernel

end examples

end GsSA.ALM
