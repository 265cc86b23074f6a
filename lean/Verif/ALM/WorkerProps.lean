import Verif.ALM.Worker
import Verif.Driver.Agree

/-!
# The curves of the parallel method do not depend on the past of the solvers (C114)
-/

namespace GsSA.ALM

open GsSA APALM MPI

set_option linter.unusedSectionVars false

variable {K V Mat Fac : Type} [Field K] [LinearOrder K] [IsStrictOrderedRing K] [AddCommGroup V] [Module K V]
variable {e : Env K V Mat Fac} {o : Opts K}

theorem SameSettings.iff (k : Kind) (s t : St K V Mat Fac) :
    SameSettings o k s t ↔ s.guess = none ∧ t.guess = none ∧ settings o k s = settings o k t := by
  constructor
  · intro h
    refine ⟨h.guess, h.guess', ?_⟩
    unfold settings
    rw [h.initialized, h.adaptive]
    cases k
    · rfl
    · rfl
    · cases hu : o.phiUser
      · rfl
      · simp [h.phi hu (.inr rfl)]
    · cases hu : o.phiUser
      · rfl
      · simp [h.phi hu (.inl rfl)]
  · rintro ⟨h1, h2, h3⟩
    simp only [settings, Prod.mk.injEq] at h3
    refine ⟨h3.1, h1, h2, h3.2.1, fun hu hk => ?_⟩
    rcases hk with rfl | rfl <;> simpa [hu] using h3.2.2

/-- The distances, written out; the other methods have none. -/
theorem C114_distance (s : St K V Mat Fac) (DU : V) (DL : K) :
    Kind.riks.distance e s DU DL =
        some (e.geo.sqrt (s.phi * e.geo.norm DU ^ 2 + (1 - s.phi) * DL ^ 2)) ∧
      Kind.crisfield.distance e s DU DL =
        some (e.geo.sqrt (e.geo.dot DU DU + s.phi ^ 2 * e.geo.dot e.forcing e.forcing * DL ^ 2)) ∧
      Kind.loadControl.distance e s DU DL = none ∧ Kind.consistent.distance e s DU DL = none :=
  ⟨rfl, rfl, rfl, rfl⟩

/-- **C114**: a bifurcation is only reported after a change of stability which the test for singular points took
for a bifurcation; the object is then left as the computation of the singular point without a change of branch
leaves it. -/
theorem C114_detect (M : Method K V Mat Fac) (U : V) (L : K) (s t : St K V Mat Fac)
    (h : detect e o M U L s = (t, .ok true)) :
    ∃ s₁ s₂ b r, computeStability e o o.quasi (-100) s = (s₁, .ok b) ∧ stabilityChange s₁ = true ∧
      testSingularPoint e o false s₁ = (s₂, .ok true) ∧
      computeSingularPoint e o M U L false false false s₂ = (t, .ok r) := by
  unfold detect at h
  obtain ⟨s₁, b, h1, h⟩ := Act.bind_ok_inv h
  obtain ⟨s₁', c, h2, h⟩ := Act.bind_ok_inv h
  simp only [Act.get_apply, Prod.mk.injEq, Except.ok.injEq] at h2
  obtain ⟨rfl, rfl⟩ := h2
  by_cases hc : stabilityChange s₁ = true
  · rw [if_pos hc] at h
    obtain ⟨s₂, d, h3, h⟩ := Act.bind_ok_inv h
    cases d with
    | false => simp at h
    | true =>
      obtain ⟨s₃, r, h4, h⟩ := Act.bind_ok_inv h
      simp only [Act.pure_apply, Prod.mk.injEq, and_true] at h
      subst h
      exact ⟨s₁, s₂, b, r, h1, hc, h3, h4⟩
  · rw [if_neg hc] at h
    simp at h

/-- The methods which can measure the distance of two points. -/
def Kind.measures (k : Kind) : Prop := k = .crisfield ∨ k = .riks

/-- Objects which behave alike in steps. -/
def Alike [Inhabited Mat] (o : Opts K) (k : Kind) (s t : St K V Mat Fac) : Prop :=
  clear (before k true true o.phiUser) s = clear (before k true true o.phiUser) t ∧ s.guess = none

/-- Crisfield's method and Riks' method behave as required. -/
theorem worker_agrees [Inhabited Mat] {k : Kind} (hm : Memoryless e o k) (hk : k.measures) :
    Agrees (worker e o k false) (SameSettings o k) (Alike o k) (fun s t => s.phi = t.phi) := by
  have hc : k = .consistent → o.phiUser = true := by
    rintro rfl
    rcases hk with h | h <;> cases h
  have hset : ∀ {s t : St K V Mat Fac}, Alike o k s t → ∀ f : St K V Mat Fac → St K V Mat Fac,
      (∀ u, clear (before k true true o.phiUser) (f u) =
        f (clear (before k true true o.phiUser) u)) → (∀ u, (f u).guess = u.guess) → Alike o k (f s) (f t) := by
    intro s t h f hf hg
    exact ⟨by rw [hf, hf, h.1], by rw [hg, h.2]⟩
  have hstep := fun {s t : St K V Mat Fac} (h : Alike o k s t) =>
    (k.sound (e := e) (o := o) (stab := true) (hist := true) fun _ => hm).step s t h.1 h.2
  have hst : ∀ s, (step e o (k.method e o) s).2 = .ok (step e o (k.method e o) s).1.status := fun s => step_status k s
  have keeps : ∀ {a b : St K V Mat Fac} (c : St K V Mat Fac), SameSettings o k a b → settings o k c = settings o k b →
      c.guess = none → SameSettings o k a c := by
    intro a b c h h1 h2
    rw [SameSettings.iff] at h ⊢
    exact ⟨h.1, h2, h.2.2.trans h1.symm⟩
  constructor
  · intro a b h l x y
    exact ⟨restart_agree h hc l x.1 y.1 x.2 y.2, h.guess⟩
  · intro a b h l x
    exact hset h (fun u => { u with len := l, lenPrev := l, lenOri := l, U := x.1, L := x.2 }) (fun _ => rfl)
      fun _ => rfl
  · intro a b h l
    exact hset h (fun u => { u with len := l, lenPrev := l, lenOri := l }) (fun _ => rfl) fun _ => rfl
  · intro a b h
    have := (hstep h).1
    rw [hst, hst, Except.ok.injEq] at this
    exact this
  · intro a b h
    exact ⟨(hstep h).2.1, k.guessless.step a h.2⟩
  · intro a b h hs
    have h3 := (hstep h).2.2 (by rw [hst]; exact congrArg _ hs)
    have h4 : (clear (after k true true o.phiUser) (step e o (k.method e o) a).1).phi =
        (clear (after k true true o.phiUser) (step e o (k.method e o) b).1).phi := by rw [h3]
    rcases hk with rfl | rfl <;> exact h4
  · intro a b h l
    exact h
  · intro a b h
    have h1 : (clear (before k true true o.phiUser) a).U = (clear (before k true true o.phiUser) b).U := by rw [h.1]
    have h2 : (clear (before k true true o.phiUser) a).L = (clear (before k true true o.phiUser) b).L := by rw [h.1]
    exact Prod.ext h1 h2
  · intro a b h x y
    have h : a.phi = b.phi := h
    rcases hk with rfl | rfl <;> simp [worker, Kind.distance, crDistance, rkDistance, h]
  · intro a x
    rfl
  · exact fun h l => keeps _ h rfl h.guess'
  · exact fun h l => keeps _ h rfl h.guess'
  · exact fun h l => keeps _ h rfl h.guess'
  · exact fun {a b} h => keeps _ h (keeps_settings k b) (k.guessless.step b h.guess')

/-- **C114**: the result of a correction is the same on all objects with the same settings, whatever they did
before. -/
theorem C114_correction {k : Kind} (hm : Memoryless e o k) (hk : k.measures) {s t : St K V Mat Fac}
    (h : SameSettings o k s t) {N fuel : ℕ} {dt : K} {x y : V × K}
    (hc : corrClean (worker e o k false) (dt / N) fuel (corrStart (worker e o k false) N s dt x y) = true)
    (ref : V × K) :
    correction (worker e o k false) N fuel t dt x y ref = correction (worker e o k false) N fuel s dt x y ref := by
  have : Inhabited Mat := ⟨s.jac⟩
  exact (worker_agrees hm hk).correction h hc ref

/-- **C114**: … and so is that of an initiation. -/
theorem C114_initiation {k : Kind} (hm : Memoryless e o k) (hk : k.measures) {s t : St K V Mat Fac}
    (h : SameSettings o k s t) {fuel : ℕ} {dt : K} {x y : V × K}
    (hc : initClean (worker e o k false) x fuel ⟨restart dt x.1 x.2 y.1 y.2 s, dt⟩ = true) :
    ∃ r r', initiation (worker e o k false) fuel s dt x y = some r ∧
      initiation (worker e o k false) fuel t dt x y = some r' ∧ r'.distance = r.distance ∧ r'.sols = r.sols ∧
        r'.bifurcation = r.bifurcation := by
  have : Inhabited Mat := ⟨s.jac⟩
  obtain ⟨r, r', h1, h2, h3, -⟩ := (worker_agrees hm hk).initiation h hc
  simp only [Initiated.res, InitRes.mk.injEq] at h3
  exact ⟨r, r', h1, h2, h3⟩

/-- **C114**: the work of a process leaves its object with the same settings. -/
theorem C114_settings {k : Kind} (hm : Memoryless e o k) (hk : k.measures) {s t : St K V Mat Fac}
    (h : SameSettings o k s t) (N fuel : ℕ) (i : Item K (V × K)) :
    SameSettings o k s (doJob (worker e o k false) N fuel t i).2 ∧
      SameSettings o k s (doCorr (worker e o k false) N fuel t i).2 := by
  have : Inhabited Mat := ⟨s.jac⟩
  exact ⟨(worker_agrees hm hk).keepsJob h N fuel i, (worker_agrees hm hk).keepsCorr h N fuel i⟩

/-- **C114**: two executions of `parallelSolve`, with any number of processes, any order of events, and any past of
the objects of the processes, give the same curves, if their jobs end without other errors than `NotConverged` and
`AssemblyError` and with results that are accepted. -/
theorem C114_parallelSolve {k : Kind} (hm : Memoryless e o k) (hk : k.measures) {s₀ : St K V Mat Fac} {N fuel : ℕ}
    {c₀ : Container K (V × K)} (hc : ∀ d ∈ c₀, ReadyBranch d) {P₁ P₂ max₁ max₂ : ℕ} {pool₁ pool₂ : List ℕ}
    (hp₁ : ∀ w ∈ pool₁, w ∈ ranks P₁) (hp₂ : ∀ w ∈ pool₂, w ∈ ranks P₂) {a₁ a₂ : ℕ → St K V Mat Fac}
    (h₁ : ∀ w, SameSettings o k s₀ (a₁ w)) (h₂ : ∀ w, SameSettings o k s₀ (a₂ w)) {n₁ n₂ : ℕ}
    {s₁ s₂ : State (Container K (V × K)) (St K V Mat Fac) (Item K (V × K)) (ℕ × ℕ × Corr K (V × K))}
    (r₁ : RunIn (corrServer K (V × K)) (doCorr (worker e o k false) N fuel) P₁ max₁
      (fun i => goodCorr (worker e o k false) N fuel s₀ i = true) (MPI.start c₀ pool₁ a₁) n₁ s₁)
    (r₂ : RunIn (corrServer K (V × K)) (doCorr (worker e o k false) N fuel) P₂ max₂
      (fun i => goodCorr (worker e o k false) N fuel s₀ i = true) (MPI.start c₀ pool₂ a₂) n₂ s₂)
    (f₁ : s₁.phase = .finished) (f₂ : s₂.phase = .finished)
    (e₁ : s₁.data.empty = true) (e₂ : s₂.data.empty = true) : s₁.data.map flat = s₂.data.map flat := by
  have : Inhabited Mat := ⟨s₀.jac⟩
  exact (worker_agrees hm hk).parallel hc hp₁ hp₂ h₁ h₂ r₁ r₂ f₁ f₂ e₁ e₂

/-- **C114**: … the same as `parallelSolve` without MPI. -/
theorem C114_parallelSolve_single {k : Kind} (hm : Memoryless e o k) (hk : k.measures) {s₀ : St K V Mat Fac}
    {N fuel : ℕ} {c₀ : Container K (V × K)} (hc : ∀ d ∈ c₀, ReadyBranch d) {P max₁ max₂ : ℕ} {pool : List ℕ}
    (hp : ∀ w ∈ pool, w ∈ ranks P) {a₁ : ℕ → St K V Mat Fac} {a₂ a' : St K V Mat Fac}
    (h₁ : ∀ w, SameSettings o k s₀ (a₁ w)) (h₂ : SameSettings o k s₀ a₂) {n : ℕ}
    {s : State (Container K (V × K)) (St K V Mat Fac) (Item K (V × K)) (ℕ × ℕ × Corr K (V × K))}
    {c : Container K (V × K)}
    (r : RunIn (corrServer K (V × K)) (doCorr (worker e o k false) N fuel) P max₁
      (fun i => goodCorr (worker e o k false) N fuel s₀ i = true) (MPI.start c₀ pool a₁) n s)
    (f : s.phase = .finished) (he : s.data.empty = true)
    (r' : single (corrServer K (V × K)) (doCorr (worker e o k false) N fuel) max₂ a₂ c₀ = .ok (c, a'))
    (hj : ∀ i ∈ singleJobs (corrServer K (V × K)) (doCorr (worker e o k false) N fuel) max₂ a₂ c₀,
      goodCorr (worker e o k false) N fuel s₀ i = true)
    (he' : c.empty = true) : s.data.map flat = c.map flat := by
  have : Inhabited Mat := ⟨s₀.jac⟩
  exact (worker_agrees hm hk).parallelSingle hc hp h₁ h₂ r f he r' hj he'

/-- **C114**: the same for `solve`, without `SingularPoint`. -/
theorem C114_solve {k : Kind} (hm : Memoryless e o k) (hk : k.measures) {s₀ : St K V Mat Fac} {N fuel : ℕ}
    {p : SolveParams K (V × K)} (hp : FreshParams p) {almLen : K} {x₀ : V × K} {len : K}
    {st : SolveState K (V × K)} (h₀ : solveStart p [] [(x₀, len)] = .ok st) {P₁ P₂ max₁ max₂ : ℕ}
    {pool₁ pool₂ : List ℕ} (hp₁ : ∀ w ∈ pool₁, w ∈ ranks P₁) (hp₂ : ∀ w ∈ pool₂, w ∈ ranks P₂)
    {a₁ a₂ : ℕ → St K V Mat Fac} (h₁ : ∀ w, SameSettings o k s₀ (a₁ w)) (h₂ : ∀ w, SameSettings o k s₀ (a₂ w))
    {n₁ n₂ : ℕ} {s₁ s₂ : State (SolveState K (V × K)) (St K V Mat Fac) (Item K (V × K)) (ℕ × ℕ × Payload K (V × K))}
    (r₁ : RunIn (solveServer p almLen) (doJob (worker e o k false) N fuel) P₁ max₁
      (fun i => goodJob (worker e o k false) N fuel s₀ i = true) (MPI.start st pool₁ a₁) n₁ s₁)
    (r₂ : RunIn (solveServer p almLen) (doJob (worker e o k false) N fuel) P₂ max₂
      (fun i => goodJob (worker e o k false) N fuel s₀ i = true) (MPI.start st pool₂ a₂) n₂ s₂)
    (f₁ : s₁.phase = .finished) (f₂ : s₂.phase = .finished)
    (e₁ : s₁.data.data.empty = true) (e₂ : s₂.data.data.empty = true) :
    s₁.data.data.map flat = s₂.data.data.map flat := by
  have : Inhabited Mat := ⟨s₀.jac⟩
  exact (worker_agrees hm hk).solve hp h₀ hp₁ hp₂ h₁ h₂ r₁ r₂ f₁ f₂ e₁ e₂

/-- **C114**: … also without MPI. -/
theorem C114_solve_single {k : Kind} (hm : Memoryless e o k) (hk : k.measures) {s₀ : St K V Mat Fac} {N fuel : ℕ}
    {p : SolveParams K (V × K)} (hp : FreshParams p) {almLen : K} {x₀ : V × K} {len : K}
    {st : SolveState K (V × K)} (h₀ : solveStart p [] [(x₀, len)] = .ok st) {P max₁ max₂ fuel' : ℕ}
    {pool : List ℕ} (hpool : ∀ w ∈ pool, w ∈ ranks P) {a₁ : ℕ → St K V Mat Fac} {a₂ a' : St K V Mat Fac}
    (h₁ : ∀ w, SameSettings o k s₀ (a₁ w)) (h₂ : SameSettings o k s₀ a₂) {n : ℕ}
    {s : State (SolveState K (V × K)) (St K V Mat Fac) (Item K (V × K)) (ℕ × ℕ × Payload K (V × K))}
    {s' : SolveState K (V × K)}
    (r : RunIn (solveServer p almLen) (doJob (worker e o k false) N fuel) P max₁
      (fun i => goodJob (worker e o k false) N fuel s₀ i = true) (MPI.start st pool a₁) n s)
    (f : s.phase = .finished) (he : s.data.data.empty = true)
    (r' : solveSingle p (fun a => a.len) (doJob (worker e o k false) N fuel) max₂ fuel' 0 a₂ st = some (.ok (s', a')))
    (hj : ∀ i ∈ solveSingleJobs p (fun a => a.len) (doJob (worker e o k false) N fuel) max₂ fuel' 0 a₂ st,
      goodJob (worker e o k false) N fuel s₀ i = true)
    (he' : s'.data.empty = true) : s.data.data.map flat = s'.data.map flat := by
  have : Inhabited Mat := ⟨s₀.jac⟩
  exact (worker_agrees hm hk).solveSingle hp h₀ hpool h₁ h₂ r f he r' hj he'

/-! ### Violations -/

/-- **C114** violated: load control and consistent Crisfield do not implement `distance`, which `_initiation` and
`_correction` call after the first successful step. -/
theorem C114_violated_distance (s : St K V Mat Fac) (DU : V) (DL : K) :
    Kind.loadControl.distance e s DU DL = none ∧ Kind.consistent.distance e s DU DL = none ∧
      (Kind.crisfield.distance e s DU DL).isSome = true ∧ (Kind.riks.distance e s DU DL).isSome = true :=
  ⟨rfl, rfl, rfl, rfl⟩

/-! ### Examples -/

section examples

open Demo

/-- Square root of a rational number, rounded up to hundredths. -/
def roundedSqrt (x : ℚ) : ℚ :=
  let y := isqrt (x.num.toNat * 10000 / x.den)
  if (y : ℚ) ^ 2 / 10000 = x then y / 100 else (y + 1) / 100

/-- A linear problem with an inexact Jacobian: the points found depend on the lengths of the steps. -/
def roughEnv : Env ℚ ℚ ℚ ℚ :=
  { env 0 fine fine with jacobian := fun _ _ _ => some 3, geo := ⟨fun x y => x * y, roundedSqrt⟩ }

/-- Options with large tolerances. -/
def roughOpts : Opts ℚ := { opts 8 3 with tol := 1, tolF := 1, tolU := 1 }

theorem roughEnv_memoryless : Memoryless roughEnv roughOpts .crisfield :=
  ⟨by constructor <;> intros <;> rfl, by simp [opts, roughOpts], fun _ _ _ _ _ => rfl⟩

/-- A new object. -/
def roughNew : St ℚ ℚ ℚ ℚ := { Demo.start 1 false with phi := 2 / 3 }

/-- Objects with different pasts. -/
def mixed (w : ℕ) : St ℚ ℚ ℚ ℚ := if w = 1 then { used 7 with phi := 2 / 3 } else roughNew

theorem mixed_same (w : ℕ) : SameSettings roughOpts .crisfield roughNew (mixed w) := by
  unfold mixed
  split <;> exact ⟨rfl, rfl, rfl, rfl, fun _ _ => rfl⟩

theorem roughNew_same (w : ℕ) : SameSettings roughOpts .crisfield roughNew ((fun _ => roughNew) w) :=
  ⟨rfl, rfl, rfl, rfl, fun _ _ => rfl⟩

/-- Two steps and refinement to level 1. -/
def roughParams : SolveParams ℚ (ℚ × ℚ) := ⟨Data.fresh 1 (1 / 10) 1, 3, 1, 1⟩

/-- Crisfield's method. -/
abbrev roughWorker : Solver (St ℚ ℚ ℚ ℚ) ℚ (ℚ × ℚ) := worker roughEnv roughOpts .crisfield false

/-- Final state of an execution of `solve` with Crisfield's method. -/
def roughRun (P : ℕ) (a : ℕ → St ℚ ℚ ℚ ℚ) (labels : List Label) :
    Option (State (SolveState ℚ (ℚ × ℚ)) (St ℚ ℚ ℚ ℚ) (Item ℚ (ℚ × ℚ)) (ℕ × ℕ × Payload ℚ (ℚ × ℚ))) :=
  match solveStart roughParams [] [((0, 0), 1)] with
  | .ok st => fireIn (solveServer roughParams 1) (doJob roughWorker 2 20) P 100 (goodJob roughWorker 2 20 roughNew)
      (MPI.start st (ranks P) a) labels
  | .error _ => none

/-- Has the loop ended with nothing waiting? -/
def roughEnded {D A J T : Type} (emp : D → Bool) (s : State D A J T) : Bool :=
  emp s.data && (match s.phase with | .finished => true | _ => false)

theorem roughEnded_iff {D A J T : Type} {emp : D → Bool} {s : State D A J T} (h : roughEnded emp s = true) :
    s.phase = .finished ∧ emp s.data = true := by
  simp only [roughEnded, Bool.and_eq_true] at h
  refine ⟨?_, h.1⟩
  have := h.2
  revert this
  cases s.phase <;> simp

theorem roughRun_run {P : ℕ} {a : ℕ → St ℚ ℚ ℚ ℚ} {labels : List Label}
    {s : State (SolveState ℚ (ℚ × ℚ)) (St ℚ ℚ ℚ ℚ) (Item ℚ (ℚ × ℚ)) (ℕ × ℕ × Payload ℚ (ℚ × ℚ))}
    (h : roughRun P a labels = some s) : ∃ st n, solveStart roughParams [] [((0, 0), 1)] = .ok st ∧
      RunIn (solveServer roughParams 1) (doJob roughWorker 2 20) P 100
        (fun i => goodJob roughWorker 2 20 roughNew i = true) (MPI.start st (ranks P) a) n s := by
  unfold roughRun at h
  split at h
  · rename_i st hst
    exact ⟨st, _, hst, fireIn_run h⟩
  · simp at h

/-- `C114_solve`, `C114_solve_single`: two processes with new objects, three processes one of which has a past, and
one process. -/
example : ∃ st n₁ n₂ s₁ s₂ s' a', solveStart roughParams [] [((0, 0), 1)] = .ok st ∧
    RunIn (solveServer roughParams 1) (doJob roughWorker 2 20) 2 100
      (fun i => goodJob roughWorker 2 20 roughNew i = true) (MPI.start st (ranks 2) fun _ => roughNew) n₁ s₁ ∧
    RunIn (solveServer roughParams 1) (doJob roughWorker 2 20) 3 100
      (fun i => goodJob roughWorker 2 20 roughNew i = true) (MPI.start st (ranks 3) mixed) n₂ s₂ ∧
    s₁.phase = .finished ∧ s₂.phase = .finished ∧ s₁.data.data.empty = true ∧ s₂.data.data.empty = true ∧
    solveSingle roughParams (fun a => a.len) (doJob roughWorker 2 20) 100 100 0 (mixed 1) st = some (.ok (s', a')) ∧
    (∀ i ∈ solveSingleJobs roughParams (fun a => a.len) (doJob roughWorker 2 20) 100 100 0 (mixed 1) st,
      goodJob roughWorker 2 20 roughNew i = true) ∧ s'.data.empty = true ∧
    (s₁.data.data.map flat).map List.length = [7] := by
  have h₁ : (roughRun 2 (fun _ => roughNew) (oneByOne 4)).any (fun s =>
      roughEnded (fun d => d.data.empty) s && decide ((s.data.data.map flat).map List.length = [7])) = true := by
    decide +kernel
  have h₂ : (roughRun 3 mixed overlapped).any (roughEnded fun d => d.data.empty) = true := by decide +kernel
  have h₃ : (match solveStart roughParams [] [((0, 0), 1)] with
      | .ok st => (match solveSingle roughParams (fun a : St ℚ ℚ ℚ ℚ => a.len) (doJob roughWorker 2 20) 100 100 0
            (mixed 1) st with
          | some (.ok x) => x.1.data.empty
          | _ => false) &&
        (solveSingleJobs roughParams (fun a : St ℚ ℚ ℚ ℚ => a.len) (doJob roughWorker 2 20) 100 100 0 (mixed 1) st).all
          (goodJob roughWorker 2 20 roughNew)
      | .error _ => false) = true := by
    decide +kernel
  simp only [Option.any_eq_true, Bool.and_eq_true, decide_eq_true_eq] at h₁ h₂
  obtain ⟨s₁, hs₁, h1, h2⟩ := h₁
  obtain ⟨s₂, hs₂, h3⟩ := h₂
  obtain ⟨st, n₁, h4, h5⟩ := roughRun_run hs₁
  obtain ⟨st', n₂, h6, h7⟩ := roughRun_run hs₂
  rw [h4, Except.ok.injEq] at h6
  subst h6
  simp only [h4, Bool.and_eq_true, List.all_eq_true] at h₃
  obtain ⟨h8, h9⟩ := h₃
  split at h8
  · rename_i x hx
    exact ⟨st, n₁, n₂, s₁, s₂, x.1, x.2, h4, h5, h7, (roughEnded_iff h1).1, (roughEnded_iff h3).1,
      (roughEnded_iff h1).2, (roughEnded_iff h3).2, hx, h9, h8, h2⟩
  · simp at h8

/-- A branch with two intervals. -/
def roughBranch : Option (Data ℚ (ℚ × ℚ)) :=
  runChecked (Data.fresh 1 (1 / 10) 1) [.init [0, 1, 2] [(0, 0), (1 / 2, 1), (1, 2)]]

theorem roughBranch_ready {d : Data ℚ (ℚ × ℚ)} (h : roughBranch = some d) : ReadyBranch d := by
  have h1 : roughBranch.all (fun d => d.queue.all (fun j => decide (0 < j.level)) && d.jobs.isEmpty) = true := by
    decide +kernel
  rw [h] at h1
  simp only [Option.all_some, Bool.and_eq_true, List.all_eq_true, decide_eq_true_eq, List.isEmpty_iff] at h1
  exact ⟨⟨_, _, _, _, exec_of_runChecked h⟩, h1.1, h1.2⟩

/-- `C114_parallelSolve`, `C114_parallelSolve_single`: the same for `parallelSolve`. -/
example : ∃ (c₀ : Container ℚ (ℚ × ℚ)) (n₁ n₂ : ℕ)
    (s₁ s₂ : State (Container ℚ (ℚ × ℚ)) (St ℚ ℚ ℚ ℚ) (Item ℚ (ℚ × ℚ)) (ℕ × ℕ × Corr ℚ (ℚ × ℚ)))
    (c : Container ℚ (ℚ × ℚ)) (a : St ℚ ℚ ℚ ℚ), (∀ d ∈ c₀, ReadyBranch d) ∧
    RunIn (corrServer ℚ (ℚ × ℚ)) (doCorr roughWorker 2 20) 2 100
      (fun i => goodCorr roughWorker 2 20 roughNew i = true) (MPI.start c₀ (ranks 2) fun _ => roughNew) n₁ s₁ ∧
    RunIn (corrServer ℚ (ℚ × ℚ)) (doCorr roughWorker 2 20) 3 100
      (fun i => goodCorr roughWorker 2 20 roughNew i = true) (MPI.start c₀ (ranks 3) mixed) n₂ s₂ ∧
    s₁.phase = .finished ∧ s₂.phase = .finished ∧ s₁.data.empty = true ∧ s₂.data.empty = true ∧
    single (corrServer ℚ (ℚ × ℚ)) (doCorr roughWorker 2 20) 100 (mixed 1) c₀ = .ok (c, a) ∧
    (∀ i ∈ singleJobs (corrServer ℚ (ℚ × ℚ)) (doCorr roughWorker 2 20) 100 (mixed 1) c₀,
      goodCorr roughWorker 2 20 roughNew i = true) ∧ c.empty = true ∧
    (s₂.data.map flat).map List.length = [7, 7] := by
  have h : roughBranch.any (fun d =>
      (fireIn (corrServer ℚ (ℚ × ℚ)) (doCorr roughWorker 2 20) 2 100 (goodCorr roughWorker 2 20 roughNew)
        (MPI.start [d, d] (ranks 2) fun _ => roughNew) (oneByOne 4)).any (roughEnded Container.empty) &&
      (fireIn (corrServer ℚ (ℚ × ℚ)) (doCorr roughWorker 2 20) 3 100 (goodCorr roughWorker 2 20 roughNew)
        (MPI.start [d, d] (ranks 3) mixed) sampleLabels).any (fun s => roughEnded Container.empty s &&
          decide ((s.data.map flat).map List.length = [7, 7])) &&
      (match single (corrServer ℚ (ℚ × ℚ)) (doCorr roughWorker 2 20) 100 (mixed 1) [d, d] with
        | .ok x => x.1.empty
        | .error _ => false) &&
      (singleJobs (corrServer ℚ (ℚ × ℚ)) (doCorr roughWorker 2 20) 100 (mixed 1) [d, d]).all
        (goodCorr roughWorker 2 20 roughNew)) = true := by
    decide +kernel
  simp only [Option.any_eq_true, Bool.and_eq_true, decide_eq_true_eq, List.all_eq_true] at h
  obtain ⟨d, hd, ⟨⟨⟨s₁, h1, h2⟩, s₂, h3, h4, h5⟩, h6⟩, h7⟩ := h
  have hr := roughBranch_ready hd
  split at h6
  · rename_i x hx
    exact ⟨[d, d], _, _, s₁, s₂, x.1, x.2, by simp [hr], fireIn_run h1, fireIn_run h3, (roughEnded_iff h2).1,
      (roughEnded_iff h4).1, (roughEnded_iff h2).2, (roughEnded_iff h4).2, hx, h7, h6, h5⟩
  · simp at h6

/-- `C114_correction`, `C114_initiation`, `C114_settings`: a new object and one with a past; the steps of the
correction do not converge at first. -/
example : let M := worker roughEnv { roughOpts with maxIt := 2, tolF := 1 / 5 } .crisfield false
    (∀ w, SameSettings { roughOpts with maxIt := 2, tolF := 1 / 5 } .crisfield roughNew (mixed w)) ∧
    corrClean M (1 / (2 : ℕ)) 20 (corrStart M 2 roughNew 1 (1, 2) (1 / 2, 1)) = true ∧
    initClean M (1, 2) 20 ⟨restart 1 1 2 (1 / 2) 1 roughNew, 1⟩ = true ∧
    (match initiation M 20 (mixed 1) 1 (1, 2) (1 / 2, 1), initiation M 20 roughNew 1 (1, 2) (1 / 2, 1) with
      | some r, some r' => decide (r.sols = r'.sols ∧ r.distance = r'.distance ∧ 0 < r.distance)
      | _, _ => false) = true := by
  refine ⟨fun w => ?_, ?_⟩
  · unfold mixed
    split <;> exact ⟨rfl, rfl, rfl, rfl, fun _ _ => rfl⟩
  · decide +kernel

/-- An object initialised at the origin, which is stable. -/
def stableNew : St ℚ ℚ ℚ ℚ := { roughNew with stability := -1 }

/-- **C114** violated: with `SingularPoint`, an initiation tells a bifurcation by comparing the stability with the one
which the process saw in its last job, wherever on the curve that was: a process that has worked on an
unstable part before finds a bifurcation in an interval in which a new process finds none. -/
theorem C114_violated_bifurcation : ∃ (e : Env ℚ ℚ ℚ ℚ) (o : Opts ℚ) (r r₁ r₂ : Initiated (St ℚ ℚ ℚ ℚ) ℚ (ℚ × ℚ)),
    Memoryless e o .crisfield ∧
    initiation (worker e o .crisfield true) 20 stableNew 1 (-1, -2) (-1, -2) = some r ∧
    SameSettings o .crisfield stableNew r.alm ∧
    initiation (worker e o .crisfield true) 20 stableNew 1 (0, 0) (0, 0) = some r₁ ∧
    initiation (worker e o .crisfield true) 20 r.alm 1 (0, 0) (0, 0) = some r₂ ∧
    r₁.bifurcation = false ∧ r₂.bifurcation = true ∧ r₁.sols.length = 1 ∧ r₂.sols.length = 2 := by
  have h : let e : Env ℚ ℚ ℚ ℚ := { roughEnv with
          jacobian := fun _ u _ => some (if u ≤ -1 / 2 then -3 else if u ≤ 1 / 10 then 3 else -1 / 10) }
      let o : Opts ℚ := { roughOpts with bifMethod := .determinant, spTestTol := 10 }
      (initiation (worker e o .crisfield true) 20 stableNew 1 (-1, -2) (-1, -2)).any (fun r =>
        r.alm.guess.isNone && decide (r.alm.initialized = true ∧ r.alm.adaptive = false ∧ r.alm.phi = 2 / 3) &&
        (initiation (worker e o .crisfield true) 20 stableNew 1 (0, 0) (0, 0)).any (fun r₁ =>
          (initiation (worker e o .crisfield true) 20 r.alm 1 (0, 0) (0, 0)).any (fun r₂ =>
            decide (r₁.bifurcation = false ∧ r₂.bifurcation = true ∧ r₁.sols.length = 1 ∧ r₂.sols.length = 2)))) =
        true := by
    decide +kernel
  simp only [Option.any_eq_true, Bool.and_eq_true, decide_eq_true_eq, Option.isNone_iff_eq_none] at h
  obtain ⟨r, h1, ⟨h2, h3, h4, h5⟩, r₁, h6, r₂, h7, h8⟩ := h
  refine ⟨_, _, r, r₁, r₂, ⟨?_, ?_, ?_⟩, h1, ⟨h3.symm, rfl, h2, h4.symm, fun _ _ => h5.symm⟩, h6, h7, h8⟩
  · constructor <;> intros <;> rfl
  · simp
  · exact fun _ _ _ _ _ => rfl

end examples

end GsSA.ALM
