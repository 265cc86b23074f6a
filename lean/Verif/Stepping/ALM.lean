import Verif.Stepping.Loop
import Verif.ALM.SingularProps
import Verif.ALM.StepProps
import Verif.ALM.Demo

/-!
# Load stepping with the arc-length methods

The loops of `Verif.Stepping.Loop` with the solvers of `Verif.ALM`.
-/

namespace GsSA.Stepping

open GsSA GsSA.ALM

set_option linter.unusedSectionVars false

variable {K V Mat Fac : Type} [Field K] [LinearOrder K] [IsStrictOrderedRing K] [AddCommGroup V] [Module K V]

/-- An arc-length method as seen by the loops. `step()` always returns (`C31_total`). -/
def alm (e : Env K V Mat Fac) (o : Opts K) (M : Method K V Mat Fac) : Solver (St K V Mat Fac) V K where
  setLength l t := (ALM.setLength l t).1
  setSolution U L t := (ALM.setSolution U L t).1
  step t :=
    match ALM.step e o M t with
    | (u, .ok st) => (u, st)
    | (u, .error _) => (u, .otherError)
  converged t := t.converged
  U t := t.U
  L t := t.L
  len t := t.len

/-- `initialize()` was called and `AdaptiveLength` is off. -/
def Ready (t : St K V Mat Fac) : Prop := t.initialized = true ∧ t.adaptive = false

variable {e : Env K V Mat Fac} {o : Opts K} {M : Method K V Mat Fac}

theorem step_initialized (hM : IsMethod e o M) {s t : St K V Mat Fac} {r : Except Err Status}
    (h : ALM.step e o M s = (t, r)) : t.initialized = s.initialized := by
  rcases step_cases hM.lawful s with ⟨u, hr, hi, h'⟩ | ⟨u, x, hr, hx, h'⟩
  · rw [h'] at h
    simp only [Prod.mk.injEq] at h
    obtain ⟨rfl, rfl⟩ := h
    obtain ⟨p, q, hc, hq⟩ := (stepRaw_spec hM.lawful hi hr).1 rfl
    split at hq
    · rw [hq]
      exact hc.unfinished.initialized
    · exact hq.initialized.trans hc.unfinished.initialized
  · rw [h'] at h
    simp only [Prod.mk.injEq] at h
    obtain ⟨rfl, rfl⟩ := h
    by_cases hi : s.initialized = true
    · exact ((stepRaw_spec hM.lawful hi hr).2 x rfl).2.2.1.initialized
    · have hi' : s.initialized = false := by simpa using hi
      have : stepRaw e o M s = ({ s with log := .failedAssert :: s.log }, .error .other) :=
        Act.bind_error (beginStep_not_initialized hi')
      rw [hr] at this
      simp only [Prod.mk.injEq] at this
      rw [this.1]

theorem alm_step (hM : IsMethod e o M) (t : St K V Mat Fac) :
    ALM.step e o M t = (((alm e o M).step t).1, .ok ((alm e o M).step t).2) := by
  obtain ⟨u, st, h, -⟩ := C31_total hM t
  simp only [alm, h]

theorem alm_laws (hM : IsMethod e o M) : Laws (alm e o M) Ready where
  U_set _ _ _ := rfl
  L_set _ _ _ := rfl
  len_set _ _ _ := rfl
  len_len _ _ := rfl
  U_len _ _ := rfl
  L_len _ _ := rfl
  good_set _ _ _ h := h
  good_len _ _ h := h
  good_step t h := by
    obtain ⟨st, -, h1, -⟩ := step_constant hM h.2 (alm_step hM t)
    exact ⟨(step_initialized hM (alm_step hM t)).trans h.1, h1⟩
  len_step t h := by
    obtain ⟨st, -, -, h2, -⟩ := step_constant hM h.2 (alm_step hM t)
    exact h2

/-- With at least two iterations, `converged()` after a step says whether it returned Success. -/
theorem converged_iff (hM : IsMethod e o M) (hmax : 2 ≤ o.maxIt) (t : St K V Mat Fac) (h : t.initialized = true) :
    (alm e o M).converged ((alm e o M).step t).1 = true ↔ ((alm e o M).step t).2 = .success := by
  have hs := alm_step hM t
  constructor
  · intro hc
    by_contra hne
    have := (C31_failure hM hs hne).2.2.2.2.2.2 h
    rw [show (alm e o M).converged ((alm e o M).step t).1 = ((alm e o M).step t).1.converged from rfl, this] at hc
    cases hc
  · intro hst
    rw [hst] at hs
    obtain ⟨p, n, r, -, -, -, -, -, -, hc, -⟩ := C32_success hM hs hmax
    exact hc

/-- **C107** for the arc-length methods: with a test of `converged()` every stored point but the origin is in
equilibrium up to the tolerance: the norm of the residual there is below `tolF` times the norm of a multiple
of the load. -/
theorem C107_equilibrium (hM : IsMethod e o M) (hmax : 2 ≤ o.maxIt) (p : Program) (hp : p.failed = notConverged)
    (fuel n : ℕ) (obj : St K V Mat Fac) (r : LSt (St K V Mat Fac) V K) (h : Ready obj)
    (hr : serialSolve (alm e o M) p fuel n obj = some r) :
    List.IsChain (fun _ b : Point V K => ∃ (k : ℕ) (x : V) (c : K), e.residual k b.U b.L = some x ∧
      e.geo.norm (c • e.forcing) ≠ 0 ∧ e.geo.norm x / e.geo.norm (c • e.forcing) < o.tolF) r.out := by
  obtain ⟨-, -, -, h4⟩ := C107_points (alm_laws hM) fuel n obj r h hr
  refine h4.imp ?_
  rintro a b ⟨t, hg, -, -, -, -, hf, hU, hL⟩
  have hst : ((alm e o M).step t).2 = .success := by
    rw [← converged_iff hM hmax t hg.1]
    simpa [fails, hp, notConverged] using hf
  have hs := alm_step hM t
  rw [hst] at hs
  obtain ⟨q, k, x, -, hres, hn, hlt, -⟩ := C32_success hM hs hmax
  have hU' : ((alm e o M).step t).1.U = b.U := hU
  have hL' : ((alm e o M).step t).1.L = b.L := hL
  rw [hU', hL'] at hres
  exact ⟨k, x, _, hres, hn, hlt⟩

/-- **C108** violated: with `AdaptiveLength` on, a step that succeeds quickly after a halving doubles the
length of the solver, but not that of the loop: the next curve time is wrong. -/
theorem C108_violated_adaptive (hM : IsMethod e o M) (hmax : 2 ≤ o.maxIt) (p : Program)
    (st : LSt (St K V Mat Fac) V K) (ha : st.obj.adaptive = true) (hb : st.bisected = true)
    (hlen : st.obj.len = st.dL) (hs : ((alm e o M).step st.obj).2 = .success)
    (hq : 2 * (((alm e o M).step st.obj).1.numIt : ℤ) ≤ o.desiredIt) :
    (alm e o M).len (onSuccess (alm e o M) p st ((alm e o M).step st.obj).1).obj = 2 * st.dL ∧
      (onSuccess (alm e o M) p st ((alm e o M).step st.obj).1).dL = st.dL := by
  have h := alm_step hM st.obj
  rw [hs] at h
  obtain ⟨-, -, h3⟩ := C34_step hM h hmax
  simp only [onSuccess, hb, Bool.not_true, Bool.and_false, Bool.false_eq_true, if_false, and_true]
  show ((alm e o M).step st.obj).1.len = 2 * st.dL
  rw [h3, ha, if_neg (by simp), if_pos hq, hlen]

/-- **C108** violated: and when no step fails, the loop overwrites the length that the solver has chosen. -/
theorem C108_violated_overwritten (p : Program) (hp : p.resets = true) (st : LSt (St K V Mat Fac) V K)
    (hb : st.bisected = false) (t : St K V Mat Fac) :
    (alm e o M).len (onSuccess (alm e o M) p st t).obj = st.dL0 := by
  simp [onSuccess, hb, hp, alm, ALM.setLength, Act.modify]

/-! ### The test of the status -/

/-- **C109**: the loop of `gsAPALMBase` repeats exactly the steps that do not return Success. -/
theorem C109_converged (hM : IsMethod e o M) (hmax : 2 ≤ o.maxIt) (t : St K V Mat Fac) (h : Ready t) :
    fails (alm e o M) apalmBase t = true ↔ ((alm e o M).step t).2 ≠ .success := by
  rw [Ne, ← converged_iff hM hmax t h.1]
  simp [fails, apalmBase, notConverged]

/-- **C109**: which statuses are repeated by the programs that look at the status: of the steps that do not converge
and of those that cannot be assembled, and of no others. -/
theorem C109_repeated (c : Bool) (st : Status) :
    thinShell.failed c st = true ↔ st = .notConverged ∨ st = .assemblyError := by
  cases st <;> simp [thinShell, badStatus]

example : [Status.success, .notConverged, .assemblyError, .solverError, .notStarted, .otherError].map
    (frustrum.failed true) = [false, true, true, false, false, false] := by decide

/-- **C109** violated: with the test of `gsThinShell_ArcLength` a step that returns SolverError counts as
successful: the last point is stored again, at a later curve time. -/
theorem C109_violated_solver (hM : IsMethod e o M) (st : LSt (St K V Mat Fac) V K) (h : Inv (alm e o M) Ready st)
    (hs : ((alm e o M).step st.obj).2 = .solverError) :
    fails (alm e o M) thinShell st.obj = false ∧
      (onSuccess (alm e o M) thinShell st ((alm e o M).step st.obj).1).out =
        st.out ++ [⟨st.Uold, st.Lold, st.s + st.dL⟩] := by
  have hf := alm_step hM st.obj
  rw [hs] at hf
  obtain ⟨h1, h2, -⟩ := C31_failure hM hf (by simp)
  constructor
  · simp [fails, thinShell, badStatus, hs]
  · have hU : (alm e o M).U ((alm e o M).step st.obj).1 = st.Uold := h1.trans h.U
    have hL : (alm e o M).L ((alm e o M).step st.obj).1 = st.Lold := h2.trans h.L
    simp only [onSuccess, hU, hL]

/-- **C109** violated: if the solver fails in every step, the program still reports `n` steps: the origin,
over and over. -/
theorem C109_violated_origin (hM : IsMethod e o M) (n : ℕ) (obj : St K V Mat Fac) (h : Ready obj)
    (hs : ∀ t, Ready t → ((alm e o M).step t).2 = .solverError) :
    ∃ r, serialSolve (alm e o M) thinShell n n obj = some r ∧ r.out.length = n + 1 ∧
      ∀ x ∈ r.out, x.U = 0 ∧ x.L = 0 := by
  have key : ∀ (n : ℕ) (st : LSt (St K V Mat Fac) V K), Inv (alm e o M) Ready st → st.Uold = 0 → st.Lold = 0 →
      (∀ x ∈ st.out, x.U = 0 ∧ x.L = 0) → ∃ r, loop (alm e o M) thinShell n n st = some r ∧
        r.out.length = st.out.length + n ∧ ∀ x ∈ r.out, x.U = 0 ∧ x.L = 0 := by
    intro n
    induction n with
    | zero => exact fun st _ _ _ h4 => ⟨st, rfl, rfl, h4⟩
    | succ n ih =>
      intro st hi hU hL h4
      obtain ⟨h5, h6⟩ := C109_violated_solver hM st hi (hs _ hi.good)
      have hi' := hi.onSuccess (p := thinShell) (alm_laws hM)
      have hf := alm_step hM st.obj
      rw [hs _ hi.good] at hf
      obtain ⟨h7, h8, -⟩ := C31_failure hM hf (by simp)
      obtain ⟨r, h1, h2, h3⟩ := ih (onSuccess (alm e o M) thinShell st ((alm e o M).step st.obj).1) hi'
        (h7.trans (hi.U.trans hU)) (h8.trans (hi.L.trans hL)) (by
          intro x hx
          rw [h6, List.mem_append, List.mem_singleton] at hx
          rcases hx with hx | rfl
          · exact h4 x hx
          · exact ⟨hU, hL⟩)
      refine ⟨r, by rw [loop, h5, if_neg (by simp), h1], ?_, h3⟩
      rw [h2, h6, List.length_append, List.length_singleton]
      omega
  obtain ⟨r, h1, h2, h3⟩ := key n (start (alm e o M) obj) (Inv.start (alm_laws hM) obj h) rfl rfl (by
    intro x hx
    simp only [start, List.mem_singleton] at hx
    rw [hx]
    exact ⟨rfl, rfl⟩)
  exact ⟨r, h1, by rw [h2]; simp [start]; omega, h3⟩

/-! ### Examples -/

open Demo

/-- Points and attempts of a run of load control on `2 u + c u³ = l`. -/
def demoRun (p : Program) (e : Env ℚ ℚ ℚ ℚ) (o : Opts ℚ) (n : ℕ) (obj : St ℚ ℚ ℚ ℚ) :
    Option (List (ℚ × ℚ × ℚ) × List (ℚ × Bool)) :=
  (serialSolve (alm e o (loadControl e)) p 20 n obj).map fun r => (r.out.map fun x => (x.U, x.L, x.time), r.attempts)

/-- `C107_equilibrium`: three steps of the linear problem, the second of which fails at first. -/
example : demoRun apalmBase (env 0 (fun n => n == 14) fine) (opts 10 5) 3 (Demo.start 1 false) =
    some ([(0, 0, 0), (1 / 2, 1, 1), (3 / 4, 3 / 2, 3 / 2), (1, 2, 2)],
      [(1, true), (1, false), (1 / 2, true), (1 / 2, true)]) := by
  decide +kernel

/-- `C109_violated_origin`: no factorisation succeeds. -/
example : demoRun thinShell (env 0 fine fun _ => true) (opts 10 5) 3 (Demo.start 1 false) =
    some ([(0, 0, 0), (0, 0, 1), (0, 0, 2), (0, 0, 3)], [(1, true), (1, true), (1, true)]) := by
  decide +kernel

/-- `C108_violated_adaptive`: with adaptive length, the load at curve time 2 is 5/2. -/
example : demoRun apalmBase (env 0 (fun n => n == 14) fine) (opts 10 5) 3 (Demo.start 1 true) =
    some ([(0, 0, 0), (1 / 2, 1, 1), (3 / 4, 3 / 2, 3 / 2), (5 / 4, 5 / 2, 2)],
      [(1, true), (1, false), (1 / 2, true), (1 / 2, true)]) := by
  decide +kernel

end GsSA.Stepping
