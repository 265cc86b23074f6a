import Verif.Dynamic.Blind

/-!
# The time loops of the programs with dynamic solvers: C123, and what a step depends on: C96

`example_DynamicShell` and `example_DynamicShellNL` call `step()`; so do the tutorials `nonlinear_shell_dynamic`
and `nonlinear_solid_dynamic`, which give the time to the Paraview collection before they update it.
`example_DynamicBeamNL` calls the `const` version of `step` and then asks the object for the time.
-/

set_option linter.unusedSectionVars false

namespace GsSA.Dynamic

open GsSA GsSA.Static
open GsSA.ALM (Act Err)

variable {K V : Type} [Field K] [LinearOrder K] [IsStrictOrderedRing K] [AddCommGroup V] [Module K V]

/-! ## C96: what a step depends on -/

/-- Two sets of callbacks which give the same replies to the calls in `P`, with the same linear algebra. -/
structure AgreeOn (P : Call K V → Prop) (e e' : Env K V) : Prop where
  norm : e.norm = e'.norm
  norm2 : e.norm2 = e'.norm2
  nonfinite : e.nonfinite = e'.nonfinite
  constMass : e.constMass = e'.constMass
  inverse : e.inverse = e'.inverse
  solve : e.solve = e'.solve
  gmres : e.gmres = e'.gmres
  mass : ∀ n t, P (.mass t) → e.mass n t = e'.mass n t
  damping : ∀ n x t, P (.damping x t) → e.damping n x t = e'.damping n x t
  jacobian : ∀ n x t, P (.jacobian x t) → e.jacobian n x t = e'.jacobian n x t
  force : ∀ n t, P (.force t) → e.force n t = e'.force n t
  residual : ∀ n x t, P (.residual x t) → e.residual n x t = e'.residual n x t

section

variable {P : Call K V → Prop} {e e' : Env K V}

theorem AgreeOn.computeMass (h : AgreeOn P e e') {t : K} (hp : P (.mass t)) :
    computeMass e t = computeMass e' t := by
  unfold Dynamic.computeMass
  exact congrArg _ (funext fun n => h.mass n t hp)

theorem AgreeOn.computeDamping (h : AgreeOn P e e') {t : K} (hp : ∀ x, P (.damping x t)) (x : V) :
    computeDamping e x t = computeDamping e' x t := by
  unfold Dynamic.computeDamping
  exact congrArg _ (funext fun n => h.damping n x t (hp x))

theorem AgreeOn.computeJacobian (h : AgreeOn P e e') {t : K} (hp : ∀ x, P (.jacobian x t)) (x : V) :
    computeJacobian e x t = computeJacobian e' x t := by
  unfold Dynamic.computeJacobian
  exact congrArg _ (funext fun n => h.jacobian n x t (hp x))

theorem AgreeOn.computeForce (h : AgreeOn P e e') {t : K} (hp : P (.force t)) :
    computeForce e t = computeForce e' t := by
  unfold Dynamic.computeForce
  exact congrArg _ (funext fun n => h.force n t hp)

theorem AgreeOn.computeResidual (h : AgreeOn P e e') {t : K} (hp : ∀ x, P (.residual x t)) (x : V) :
    computeResidual e x t = computeResidual e' x t := by
  unfold Dynamic.computeResidual
  exact congrArg _ (funext fun n => h.residual n x t (hp x))

theorem AgreeOn.minv (h : AgreeOn P e e') (M : V →ₗ[K] V) :
    computeMassInverse e M = computeMassInverse e' M := by
  unfold computeMassInverse; rw [h.constMass, h.inverse]

theorem AgreeOn.lin (h : AgreeOn P e e') (m : V →ₗ[K] V) (b : V) : linSolve e m b = linSolve e' m b := by
  unfold linSolve; rw [h.solve]

theorem AgreeOn.gm (h : AgreeOn P e e') (a b c d : V →ₗ[K] V) (x y : V) :
    gmresSolve e a b c d x y = gmresSolve e' a b c d x y := by
  unfold gmresSolve; rw [h.gmres]

theorem AgreeOn.fin (h : AgreeOn P e e') (x : K) : finiteStatus e x = finiteStatus e' x := by
  unfold finiteStatus; rw [h.nonfinite]

theorem AgreeOn.renew (h : AgreeOn P e e') {t : K} (hd : ∀ x, P (.damping x t)) (hj : ∀ x, P (.jacobian x t))
    (b : Bool) (C S : V →ₗ[K] V) : renew e t b C S = renew e' t b C S := by
  simp only [Dynamic.renew, h.computeDamping hd, h.computeJacobian hj]

theorem AgreeOn.newmark (h : AgreeOn P e e') (nl : Bool) (o : Opts K) (t dt : K) (hm : P (.mass (t + dt)))
    (hd : ∀ x, P (.damping x (t + dt))) (hj : ∀ x, P (.jacobian x (t + dt)))
    (hf : nl = false → P (.force (t + dt))) (hr : nl = true → ∀ x, P (.residual x (t + dt))) :
    newmark nl e o t dt = newmark nl e' o t dt := by
  cases nl
  · have hf := hf rfl
    change newmarkL e o t dt = newmarkL e' o t dt
    simp only [newmarkL, h.computeMass hm, h.computeForce hf, h.computeDamping hd,
      h.computeJacobian hj, h.lin, h.fin, h.norm]
  · have hr := hr rfl
    have hloop : ∀ (M : V →ₗ[K] V) (res0 : K) (n it : ℕ) (C S : V →ₗ[K] V) (rhs : V),
        newmarkLoop e o t dt M res0 n it C S rhs = newmarkLoop e' o t dt M res0 n it C S rhs := by
      intro M res0 n
      induction n with
      | zero => exact fun _ _ _ _ => rfl
      | succ n ih =>
        intro it C S rhs
        simp only [newmarkLoop, h.renew hd hj, h.lin, h.norm, h.computeResidual hr, ih]
    change newmarkN e o t dt = newmarkN e' o t dt
    simp only [newmarkN, h.computeMass hm, h.computeDamping hd, h.computeResidual hr, hloop,
      h.norm]

theorem AgreeOn.implicitEulerLoop (h : AgreeOn P e e') (o : Opts K) (t dt : K)
    (hd : ∀ x, P (.damping x (t + dt))) (hj : ∀ x, P (.jacobian x (t + dt)))
    (hr : ∀ x, P (.residual x t)) (u0 v0 : V) (M : V →ₗ[K] V) (res0 : K) (n : ℕ) :
    ∀ (it : ℕ) (C S : V →ₗ[K] V) (rhs : V), implicitEulerLoop e o t dt u0 v0 M res0 n it C S rhs =
      implicitEulerLoop e' o t dt u0 v0 M res0 n it C S rhs := by
  induction n with
  | zero => exact fun _ _ _ _ => rfl
  | succ n ih =>
    intro it C S rhs
    simp only [Dynamic.implicitEulerLoop, h.renew hd hj, h.gm, h.norm2, h.computeResidual hr, ih]

theorem AgreeOn.batheLoop (h : AgreeOn P e e') (o : Opts K) (t dt : K)
    (hd : ∀ x, P (.damping x (t + dt))) (hj : ∀ x, P (.jacobian x (t + dt)))
    (hr : ∀ x, P (.residual x (t + dt))) (M : V →ₗ[K] V) (u0 v0 us vs : V) (res0 : K) (n : ℕ) :
    ∀ (it : ℕ) (C S : V →ₗ[K] V) (rhs : V), batheLoop e o t dt M u0 v0 us vs res0 n it C S rhs =
      batheLoop e' o t dt M u0 v0 us vs res0 n it C S rhs := by
  induction n with
  | zero => exact fun _ _ _ _ => rfl
  | succ n ih =>
    intro it C S rhs
    simp only [Dynamic.batheLoop, h.renew hd hj, h.lin, h.norm, h.computeResidual hr, ih]

theorem AgreeOn.integrate {m : Method} {nl : Bool} {o : Opts K} {t dt : K}
    (h : AgreeOn (allowed m nl o t dt) e e') : integrate m nl e o t dt = integrate m nl e' o t dt := by
  cases m <;> cases nl <;> simp only [Dynamic.integrate]
  · simp only [explicitEulerL, h.computeMass (t := t) rfl, h.minv, h.computeForce (t := t) ⟨rfl, rfl⟩,
      h.computeDamping (t := t) fun _ => rfl, h.computeJacobian (t := t) fun _ => rfl, h.fin, h.norm2]
  · simp only [explicitEulerN, h.computeMass (t := t) rfl, h.minv,
      h.computeResidual (t := t) fun _ => ⟨rfl, rfl⟩,
      h.computeDamping (t := t) fun _ => rfl, h.fin, h.norm2]
  · simp only [rk4L, h.computeMass (t := t) rfl, h.minv, h.computeForce (t := t) ⟨rfl, .inl rfl⟩,
      h.computeForce (t := t + dt / 2) ⟨rfl, .inr (.inl rfl)⟩, h.computeForce (t := t + dt) ⟨rfl, .inr (.inr rfl)⟩,
      h.computeDamping (t := t) fun _ => rfl, h.computeJacobian (t := t) fun _ => rfl, h.fin, h.norm2]
  · simp only [rk4N, h.computeMass (t := t) rfl, h.minv, h.computeResidual (t := t) fun _ => ⟨rfl, .inl rfl⟩,
      h.computeResidual (t := t + dt / 2) fun _ => ⟨rfl, .inr (.inl rfl)⟩,
      h.computeResidual (t := t + dt) fun _ => ⟨rfl, .inr (.inr rfl)⟩,
      h.computeDamping (t := t) fun _ => rfl, h.computeJacobian (t := t) fun _ => rfl, h.fin, h.norm2]
  · simp only [implicitEulerL, h.computeMass (t := t + dt) rfl, h.computeForce (t := t + dt) ⟨rfl, rfl⟩,
      h.computeDamping (t := t + dt) fun _ => rfl, h.computeJacobian (t := t) fun _ => rfl, h.gm]
  · simp only [implicitEulerN, h.computeMass (t := t + dt) rfl,
      h.computeDamping (t := t + dt) fun _ => rfl, h.computeResidual (t := t + dt) fun _ => ⟨rfl, .inr rfl⟩, h.norm2,
      h.implicitEulerLoop o t dt (fun _ => rfl) (fun _ => rfl) fun _ => ⟨rfl, .inl rfl⟩]
  · exact h.newmark _ _ _ _ rfl (fun _ => rfl) (fun _ => rfl) (fun _ => ⟨rfl, rfl⟩) nofun
  · exact h.newmark _ _ _ _ rfl (fun _ => rfl) (fun _ => rfl) nofun fun _ _ => ⟨rfl, rfl⟩
  · simp only [wilsonL, h.newmark false o t (o.gamma * dt) rfl (fun _ => rfl) (fun _ => rfl)
      (fun _ => ⟨rfl, rfl⟩) nofun]
  · simp only [wilsonN, h.newmark true o t (o.gamma * dt) rfl (fun _ => rfl) (fun _ => rfl) nofun
      fun _ _ => ⟨rfl, rfl⟩]
  · simp only [batheL, h.newmark false o t (o.gamma * dt) (.inl rfl) (fun _ => .inl rfl) (fun _ => .inl rfl)
      (fun _ => ⟨rfl, .inl rfl⟩) nofun, h.computeMass (t := t + dt) (.inr rfl),
      h.computeForce (t := t + dt) ⟨rfl, .inr rfl⟩, h.computeDamping (t := t + dt) fun _ => .inr rfl,
      h.computeJacobian (t := t + dt) fun _ => .inr rfl, h.lin, h.fin, h.norm]
  · simp only [batheN, h.newmark true o t (o.gamma * dt) (.inl rfl) (fun _ => .inl rfl) (fun _ => .inl rfl)
      nofun (fun _ _ => ⟨rfl, .inl rfl⟩), h.computeMass (t := t + dt) (.inr rfl),
      h.computeDamping (t := t + dt) fun _ => .inr rfl,
      h.computeResidual (t := t + dt) fun _ => ⟨rfl, .inr rfl⟩, h.norm,
      h.batheLoop o t dt (fun _ => .inr rfl) (fun _ => .inr rfl) fun _ => ⟨rfl, .inr rfl⟩]

end

/-- A step from `t` to `t+dt` depends on the callbacks only through their replies at the times of C96: with
other callbacks which agree there, it has the same outcome. -/
theorem C96_local (cb : Option (ℕ → K → K → Bool)) (m : Method) (nl : Bool) (e e' : Env K V) (o : Opts K) (dt : K)
    (s : DSt K V) (h : AgreeOn (allowed m nl o s.time dt) e e') :
    step cb (integrate m nl e o) dt s = step cb (integrate m nl e' o) dt s := by
  simp only [step, Act.bind_apply, Act.get_apply, h.integrate]

/-- The ramp, cut off after time 1. -/
def cutRamp : Env ℚ ℚ := { ramp with force := fun _ t => .value (if t ≤ 1 then t else 1) }

/-- The first Newmark step with length 1 is the same for the ramp and the cut ramp, the second is not. -/
example : AgreeOn (allowed .newmark false demoOpts 0 1) ramp cutRamp ∧
    ∀ e ∈ [(ramp, (1 / 5 : ℚ), (26 / 25 : ℚ)), (cutRamp, 1 / 5, 21 / 25)],
      (step none (integrate .newmark false e.1 demoOpts) 1 (DSt.init 0 0 0)).1.u = e.2.1 ∧
      (steps none (integrate .newmark false e.1 demoOpts) [1, 1] (DSt.init 0 0 0)).1.u = e.2.2 := by
  refine ⟨⟨rfl, rfl, rfl, rfl, rfl, rfl, rfl, fun _ _ _ => rfl, fun _ _ _ _ => rfl, fun _ _ _ _ => rfl,
    fun n t ht => ?_, fun _ _ _ _ => rfl⟩, ?_⟩
  · have : t = 0 + 1 := ht.2
    subst this
    norm_num [ramp, cutRamp]
  · decide +kernel

/-! ## C123 -/

/-- The loop of `example_DynamicShell.cpp` 269-302 and `example_DynamicShellNL.cpp` 288-323 with `n` steps to do:
an iteration calls `step()` and ends the program with an exception if the status is not `Success`. The result is
the lines of the output file (time and displacement), the state and whether the loop came to its end. An
exception from `step` is not caught. -/
def shellLoop (f : K → K → Act (DSt K V) Status) (dt : K) : ℕ → DSt K V → List (K × V) × DSt K V × Bool
  | 0, s => ([], s, true)
  | n + 1, s =>
    match step none f dt s with
    | (q, .ok .success) => ((q.time, q.u) :: (shellLoop f dt n q).1, (shellLoop f dt n q).2)
    | (q, _) => ([], q, false)

/-- The loop of the tutorials, `nonlinear_shell_dynamic.cpp` 178-200 and `nonlinear_solid_dynamic.cpp` 157-185,
with the local variable `time`: the parts of the Paraview collection (time and displacement). -/
def tutorialLoop (f : K → K → Act (DSt K V) Status) (dt : K) : ℕ → K → DSt K V → List (K × V) × DSt K V × Bool
  | 0, _, s => ([], s, true)
  | n + 1, time, s =>
    match step none f dt s with
    | (q, .ok .success) => ((time, q.u) :: (tutorialLoop f dt n q.time q).1, (tutorialLoop f dt n q.time q).2)
    | (q, _) => ([], q, false)

/-- The loop of `example_DynamicBeamNL.cpp` 318-382, with the local variables `time`, `U`, `V`, `A`: the lines of
the output file. `asserts` says whether `GISMO_ASSERT` is active. -/
def beamLoop (asserts : Bool) (f : K → K → Act (DSt K V) Status) (dt : K) :
    ℕ → K → V → V → V → DSt K V → List (K × V) × DSt K V × Bool
  | 0, _, _, _, _, s => ([], s, true)
  | n + 1, time, u, v, a, s =>
    match stepConst f time dt u v a s with
    | (q, .ok (r, u, v, a)) =>
      if asserts = true ∧ r ≠ .success then ([], q, false)
      else ((q.time, u) :: (beamLoop asserts f dt n q.time u v a q).1, (beamLoop asserts f dt n q.time u v a q).2)
    | (q, .error _) => ([], q, false)

/-- The program with `step()`: the lines belong to the first steps, one after the other; line `i` has the time
`(i+1)·dt` after the start and the displacement of the object at that time; each of these steps succeeded. All
`n` lines are written if and only if the loop comes to its end; otherwise the step after the last line did not
succeed. -/
theorem C123_shell (m : Method) (nl : Bool) (e : Env K V) (o : Opts K) (dt : K) (n : ℕ) (s : DSt K V) :
    let f := integrate m nl e o
    let p := shellLoop f dt n s
    let after (i : ℕ) := (steps none f (List.replicate i dt) s).1
    (∀ i (h : i < p.1.length), p.1[i] = (s.time + (i + 1) * dt, (after (i + 1)).u) ∧
      (step none f dt (after i)).2 = .ok .success) ∧
    p.2.1 = after (if p.2.2 then n else p.1.length + 1) ∧
    (p.2.2 = true → p.1.length = n) ∧
    (p.2.2 = false → p.1.length < n ∧ (step none f dt (after p.1.length)).2 ≠ .ok .success) := by
  induction n generalizing s with
  | zero => simp [shellLoop, steps]
  | succ n ih =>
    intro f p after
    rcases h : step none f dt s with ⟨q, x | r⟩
    · have hp : p = ([], q, false) := by
        change shellLoop f dt (n + 1) s = _; rw [shellLoop, h]
      rw [hp]
      refine ⟨by simp, by simp [after, steps, h], by simp, fun _ => ⟨by simp, by simp [after, steps, h]⟩⟩
    · by_cases hr : r = .success
      · subst hr
        have hp : p = ((q.time, q.u) :: (shellLoop f dt n q).1, (shellLoop f dt n q).2) := by
          change shellLoop f dt (n + 1) s = _; rw [shellLoop, h]
        have ha : ∀ i, after (i + 1) = (steps none f (List.replicate i dt) q).1 := by
          intro i; simp [after, List.replicate_succ, steps, h]
        have ht : q.time = s.time + dt := by
          have := step_time none m nl e o dt s
          rw [show step none (integrate m nl e o) dt s = _ from h] at this
          simpa [accepts, Except.toOption] using this
        obtain ⟨h1, h2, h3, h4⟩ := ih q
        rw [hp]
        refine ⟨?_, ?_, ?_, ?_⟩
        · intro i hi
          cases i with
          | zero => simp [ha, steps, ht, after, h]
          | succ i =>
            obtain ⟨g1, g2⟩ := h1 i (by simpa using hi)
            refine ⟨?_, by rw [ha]; exact g2⟩
            rw [ha, List.getElem_cons_succ, g1, ht]
            refine Prod.ext ?_ rfl
            push_cast
            ring
        · change (shellLoop f dt n q).2.1 = _
          rw [h2]
          change _ = after (if (shellLoop f dt n q).2.2 then n + 1 else (shellLoop f dt n q).1.length + 1 + 1)
          split <;> rw [ha]
        · intro hb
          simpa using h3 hb
        · intro hb
          obtain ⟨g1, g2⟩ := h4 hb
          refine ⟨by simpa using g1, ?_⟩
          rw [List.length_cons, ha]
          exact g2
      · have hp : p = ([], q, false) := by
          change shellLoop f dt (n + 1) s = _; rw [shellLoop, h]
          cases r <;> first | exact absurd rfl hr | rfl
        rw [hp]
        refine ⟨by simp, by simp [after, steps, h], by simp,
          fun _ => ⟨by simp, by simpa [after, steps, h] using hr⟩⟩

/-- Three steps of which the third is broken off by an exception. -/
example : (shellLoop (integrate .newmark false (demo (· = 10)) demoOpts) 1 3 (DSt.init 1 0 0)).1 =
      [(1, 4 / 5), (2, 4 / 25)] ∧
    (shellLoop (integrate .newmark false (demo (· = 10)) demoOpts) 1 3 (DSt.init 1 0 0)).2.2 = false := by
  decide +kernel

/-- The tutorials compute the same, and with the local variable equal to the time of the object at the start they
give to each displacement the time of the step before. -/
theorem C123_tutorial (m : Method) (nl : Bool) (e : Env K V) (o : Opts K) (dt : K) (n : ℕ) (s : DSt K V) :
    let p := shellLoop (integrate m nl e o) dt n s
    tutorialLoop (integrate m nl e o) dt n s.time s = (p.1.map fun r => (r.1 - dt, r.2), p.2) := by
  induction n generalizing s with
  | zero => rfl
  | succ n ih =>
    intro p
    rcases h : step none (integrate m nl e o) dt s with ⟨q, x | r⟩
    · have hp : p = ([], q, false) := by
        change shellLoop _ dt (n + 1) s = _; rw [shellLoop, h]
      rw [hp, tutorialLoop, h]; rfl
    · by_cases hr : r = .success
      · subst hr
        have hp : p = ((q.time, q.u) :: (shellLoop (integrate m nl e o) dt n q).1,
            (shellLoop (integrate m nl e o) dt n q).2) := by
          change shellLoop _ dt (n + 1) s = _; rw [shellLoop, h]
        have ht : q.time = s.time + dt := by
          have := step_time none m nl e o dt s
          rw [h] at this
          simpa [accepts, Except.toOption] using this
        have := ih q
        rw [hp, tutorialLoop, h]
        simp only at this ⊢
        rw [this, ht]
        simp
      · have hp : p = ([], q, false) := by
          change shellLoop _ dt (n + 1) s = _; rw [shellLoop, h]
          cases r <;> first | exact absurd rfl hr | rfl
        rw [hp, tutorialLoop, h]
        cases r <;> first | exact absurd rfl hr | rfl

/-- So no part of the collection has the time to which its displacement belongs: the first is at the time 0,
which is the time of the initial state. -/
theorem C123_violated_tutorial (m : Method) (nl : Bool) (e : Env K V) (o : Opts K) (dt : K) (hdt : dt ≠ 0) (n : ℕ)
    (s : DSt K V) :
    let f := integrate m nl e o
    let parts := (tutorialLoop f dt n s.time s).1
    ∀ i (h : i < parts.length), parts[i].2 = (steps none f (List.replicate (i + 1) dt) s).1.u ∧
      parts[i].1 = s.time + i * dt ∧ parts[i].1 ≠ s.time + (i + 1) * dt := by
  intro f parts i hi
  have hp : parts = (shellLoop f dt n s).1.map fun r => (r.1 - dt, r.2) := by
    simp only [parts, f, C123_tutorial]
  have hi' : i < (shellLoop f dt n s).1.length := by rw [hp, List.length_map] at hi; exact hi
  have h1 := ((C123_shell m nl e o dt n s).1 i hi').1
  have h2 : parts[i] = (s.time + i * dt, (steps none f (List.replicate (i + 1) dt) s).1.u) := by
    simp only [hp, List.getElem_map]
    rw [show (shellLoop f dt n s).1[i] = _ from h1]
    refine Prod.ext ?_ rfl
    simp only
    ring
  rw [h2]
  refine ⟨rfl, rfl, fun hc => hdt ?_⟩
  simp only at hc
  linarith

example : (tutorialLoop (integrate .newmark false (demo (· = 10)) demoOpts) 1 3 0 (DSt.init 1 0 0)).1 =
    [(0, 4 / 5), (1, 4 / 25)] := by decide +kernel


theorem stepConst_time (m : Method) (nl : Bool) (e : Env K V) (o : Opts K) (t dt : K) (u v a : V) (s : DSt K V) :
    (stepConst (integrate m nl e o) t dt u v a s).1.time = s.time := by
  have h := (tame_integrate e o t dt m nl).2 { s with u := u, v := v, a := a }
  simp only [DSt.frame, Prod.mk.injEq] at h
  simp only [stepConst]
  rcases hi : integrate m nl e o t dt { s with u := u, v := v, a := a } with ⟨q, x | x⟩ <;>
    rw [hi] at h <;> exact h.1

/-- The program with the `const` version, started with its variable equal to the time of the object (0), never
gets to a later time: every line has the time of the start. -/
theorem C123_violated_beam (asserts : Bool) (m : Method) (nl : Bool) (e : Env K V) (o : Opts K) (dt : K) (n : ℕ)
    (u v a : V) (s : DSt K V) :
    ∀ r ∈ (beamLoop asserts (integrate m nl e o) dt n s.time u v a s).1, r.1 = s.time := by
  induction n generalizing u v a s with
  | zero => simp [beamLoop]
  | succ n ih =>
    intro r hr
    have ht := stepConst_time m nl e o s.time dt u v a s
    rw [beamLoop] at hr
    rcases h : stepConst (integrate m nl e o) s.time dt u v a s with ⟨q, x | ⟨st, u', v', a'⟩⟩
    · rw [h] at hr; simp at hr
    · rw [h] at hr ht
      simp only at hr ht
      split at hr
      · simp at hr
      · rcases List.mem_cons.1 hr with rfl | hr
        · exact ht
        · rw [ih u' v' a' q r hr, ht]

/-- So the load after the first step does not matter: callbacks which agree at the times of the first step give
the same lines, for any number of steps. -/
theorem C123_violated_beam_load (asserts : Bool) (m : Method) (nl : Bool) (e e' : Env K V) (o : Opts K) (dt : K)
    (n : ℕ) (u v a : V) (s : DSt K V) (h : AgreeOn (allowed m nl o s.time dt) e e') :
    beamLoop asserts (integrate m nl e o) dt n s.time u v a s =
      beamLoop asserts (integrate m nl e' o) dt n s.time u v a s := by
  induction n generalizing u v a s with
  | zero => rfl
  | succ n ih =>
    have ht := stepConst_time m nl e o s.time dt u v a s
    have hs : stepConst (integrate m nl e o) s.time dt u v a s =
        stepConst (integrate m nl e' o) s.time dt u v a s := by
      simp only [stepConst, h.integrate]
    rw [beamLoop, beamLoop, ← hs]
    rcases hc : stepConst (integrate m nl e o) s.time dt u v a s with ⟨q, x | ⟨st, u', v', a'⟩⟩
    · rfl
    · rw [hc] at ht
      simp only at ht ⊢
      rw [ih u' v' a' q (by rw [ht]; exact h)]

/-- The ramp: the program with `step()` reaches `26/25` at time 2, that with the `const` version `21/25` with
time 0, as for the cut ramp. -/
example : (shellLoop (integrate .newmark false ramp demoOpts) 1 2 (DSt.init 0 0 0)).1 = [(1, 1 / 5), (2, 26 / 25)] ∧
    (beamLoop true (integrate .newmark false ramp demoOpts) 1 2 0 0 0 0 (DSt.init 0 0 0)).1 =
      [(0, 1 / 5), (0, 21 / 25)] ∧
    (beamLoop true (integrate .newmark false cutRamp demoOpts) 1 2 0 0 0 0 (DSt.init 0 0 0)).1 =
      [(0, 1 / 5), (0, 21 / 25)] := by
  decide +kernel

/-- Without assertions all lines are written unless there is an exception, whatever the statuses are. -/
theorem C123_violated_status (f : K → K → Act (DSt K V) Status) (dt : K) (n : ℕ) (time : K) (u v a : V)
    (s : DSt K V) (h : ∀ t u v a s, (stepConst f t dt u v a s).2.isOk = true) :
    (beamLoop false f dt n time u v a s).1.length = n ∧ (beamLoop false f dt n time u v a s).2.2 = true := by
  induction n generalizing time u v a s with
  | zero => exact ⟨rfl, rfl⟩
  | succ n ih =>
    rw [beamLoop]
    have h0 := h time u v a s
    rcases hc : stepConst f time dt u v a s with ⟨q, x | ⟨st, u', v', a'⟩⟩
    · rw [hc] at h0; cases h0
    · simp only [Bool.false_eq_true, false_and, if_false, List.length_cons]
      exact ⟨by rw [(ih q.time u' v' a' q).1], (ih q.time u' v' a' q).2⟩

/-- Two steps that are not successful: with assertions nothing is written, without them two lines. -/
example : (beamLoop true (integrate .newmark false (demo fun _ => false) demoOpts) 1 2 0 4000 0 0 (DSt.init 0 0 0)).1 =
      [] ∧
    (beamLoop false (integrate .newmark false (demo fun _ => false) demoOpts) 1 2 0 10000 0 0 (DSt.init 0 0 0)).1 =
      [(0, 8000), (0, 1600)] ∧
    (stepConst (integrate .newmark false (demo fun _ => false) demoOpts) 0 1 10000 0 0
      (DSt.init 0 0 0)).2.toOption.map (·.1) = some .notConverged := by
  decide +kernel

/-! ### Callbacks that do not depend on time -/

/-- The states have the same vectors and mass inverse, and the same number of calls. -/
structure Like (s s' : DSt K V) : Prop where
  u : s.u = s'.u
  v : s.v = s'.v
  a : s.a = s'.a
  massInv : s.massInv = s'.massInv
  calls : s.log.length = s'.log.length

/-- Same outcome from like states, and like states after it. -/
def Sim {α : Type} (m m' : Act (DSt K V) α) : Prop :=
  ∀ s s', Like s s' → Like (m s).1 (m' s').1 ∧ (m s).2 = (m' s').2

section

variable {α β : Type}

theorem Sim.ret (a : α) : Sim (pure a : Act (DSt K V) α) (pure a) := fun _ _ h => ⟨h, rfl⟩

theorem Sim.throw (x : Err) : Sim (Act.throw x : Act (DSt K V) α) (Act.throw x) := fun _ _ h => ⟨h, rfl⟩

theorem Sim.modify {f : DSt K V → DSt K V} (h : ∀ s s', Like s s' → Like (f s) (f s')) :
    Sim (Act.modify f) (Act.modify f) := fun s s' hs => ⟨h s s' hs, rfl⟩

theorem Sim.bind {m m' : Act (DSt K V) α} {f f' : α → Act (DSt K V) β} (hm : Sim m m') (hf : ∀ a, Sim (f a) (f' a)) :
    Sim (m >>= f) (m' >>= f') := by
  intro s s' hs
  obtain ⟨h1, h2⟩ := hm s s' hs
  simp only [Act.bind_apply]
  rcases hq : m s with ⟨q, x | a⟩ <;> rcases hq' : m' s' with ⟨q', x' | a'⟩ <;> rw [hq, hq'] at h1 h2
  · simp only [Except.error.injEq] at h2; subst h2; exact ⟨h1, rfl⟩
  · cases h2
  · cases h2
  · simp only [Except.ok.injEq] at h2; subst h2; exact hf a q q' h1

theorem Sim.getBind {f f' : DSt K V → Act (DSt K V) β} (h : ∀ s s', Like s s' → Sim (f s) (f' s')) :
    Sim (Act.get >>= f) (Act.get >>= f') := by
  intro s s' hs
  simp only [Act.bind_apply, Act.get_apply]
  exact h s s' hs s s' hs

theorem Sim.ite {c : Prop} [Decidable c] {m₁ m₂ m₁' m₂' : Act (DSt K V) α} (h₁ : Sim m₁ m₁') (h₂ : Sim m₂ m₂') :
    Sim (if c then m₁ else m₂) (if c then m₁' else m₂') := by
  split
  · exact h₁
  · exact h₂

theorem Sim.call {c c' : Call K V} {f f' : ℕ → Reply α} (h : ∀ n, f n = f' n) : Sim (call c f) (call c' f') := by
  intro s s' hs
  have hn := hs.calls
  have h' := h s'.log.length
  rcases hf : f' s'.log.length with a | _ | _ <;> rw [hf] at h' <;>
    simp [Dynamic.call, Act.bind_apply, hn, h', hf] <;>
    exact ⟨hs.1, hs.2, hs.3, hs.4, by simp [hn]⟩

theorem Sim.onCopy {m m' : Act (DSt K V) α} (h : Sim m m') : Sim (onCopy m) (onCopy m') := by
  intro s s' hs
  obtain ⟨h1, h2⟩ := h s s' hs
  simp only [Dynamic.onCopy]
  rcases hq : m s with ⟨q, x | a⟩ <;> rcases hq' : m' s' with ⟨q', x' | a'⟩ <;> rw [hq, hq'] at h1 h2
  · simp only [Except.error.injEq] at h2; subst h2
    exact ⟨⟨hs.1, hs.2, hs.3, h1.4, h1.5⟩, rfl⟩
  · cases h2
  · cases h2
  · simp only [Except.ok.injEq] at h2; subst h2
    have h1 : Like q q' := h1
    exact ⟨⟨hs.1, hs.2, hs.3, h1.4, h1.5⟩, by simp only [h1.u, h1.v, h1.a]⟩

theorem Sim.minv (e : Env K V) (M : V →ₗ[K] V) : Sim (computeMassInverse e M) (computeMassInverse e M) := by
  refine .getBind fun s s' hs => ?_
  rw [hs.massInv]
  split
  · exact .ret _
  · exact .bind (.modify fun _ _ h => ⟨h.1, h.2, h.3, rfl, h.5⟩) fun _ => .ret _

theorem Sim.refresh (o : Opts K) (it : ℕ) : Sim (refresh o it : Act (DSt K V) Bool) (refresh o it) :=
  .ite (.ret _) (.ite (.ret _) (.ite (.throw _) (.ret _)))

theorem Sim.lin {e : Env K V} {m : V →ₗ[K] V} {b : V} : Sim (linSolve e m b) (linSolve e m b) :=
  .getBind fun s s' hs => by rw [hs.calls]; exact .ret _

theorem Sim.gm {e : Env K V} {a b c d : V →ₗ[K] V} {x y : V} :
    Sim (gmresSolve e a b c d x y) (gmresSolve e a b c d x y) :=
  .getBind fun s s' hs => by rw [hs.calls]; exact .ret _

theorem Sim.setUV (u v : V) : Sim (setUV u v : Act (DSt K V) Unit) (setUV u v) :=
  .modify fun _ _ h => ⟨rfl, rfl, h.3, h.4, h.5⟩

theorem Sim.setUVA (u v a : V) : Sim (setUVA u v a : Act (DSt K V) Unit) (setUVA u v a) :=
  .modify fun _ _ h => ⟨rfl, rfl, rfl, h.4, h.5⟩

end

/-- No callback depends on time. -/
structure TimeFree (e : Env K V) : Prop where
  mass : ∀ n t t', e.mass n t = e.mass n t'
  damping : ∀ n x t t', e.damping n x t = e.damping n x t'
  jacobian : ∀ n x t t', e.jacobian n x t = e.jacobian n x t'
  force : ∀ n t t', e.force n t = e.force n t'
  residual : ∀ n x t t', e.residual n x t = e.residual n x t'

section

variable {e : Env K V} (h : TimeFree e) (o : Opts K) (t t' dt : K)
include h

theorem TimeFree.renew (b : Bool) (C S : V →ₗ[K] V) : Sim (renew e t b C S) (renew e t' b C S) :=
  .ite (.getBind fun s s' hs => .bind (.call fun n => by rw [hs.u]; exact h.damping n _ _ _) fun _ =>
    .bind (.call fun n => by rw [hs.u]; exact h.jacobian n _ _ _) fun _ => .ret _) (.ret _)

theorem TimeFree.newmark (nl : Bool) : Sim (newmark nl e o t dt) (newmark nl e o t' dt) := by
  have hloop : ∀ (M : V →ₗ[K] V) (res0 : K) (n it : ℕ) (C S : V →ₗ[K] V) (rhs : V),
      Sim (newmarkLoop e o t dt M res0 n it C S rhs) (newmarkLoop e o t' dt M res0 n it C S rhs) := by
    intro M res0 n
    induction n with
    | zero => exact fun _ _ _ _ => .ret _
    | succ n ih =>
      intro it C S rhs
      refine .bind (.refresh o it) fun b => .bind (h.renew _ _ _ _ _) fun CK => .bind .lin fun dA =>
        .bind (.modify fun s s' hs => ⟨by simp only [hs.u], by simp only [hs.v], by simp only [hs.a], hs.4, hs.5⟩)
        fun _ => .getBind fun s s' hs => ?_
      rw [hs.u, hs.v, hs.a]
      exact .bind (.call fun n => h.residual n _ _ _) fun R => .ite (.ret _) (ih _ _ _ _)
  refine .ite ?_ ?_
  · refine .getBind fun s s' hs => ?_
    rw [hs.u, hs.v, hs.a]
    exact .bind (.setUVA _ _ _) fun _ => .bind (.call fun n => h.mass n _ _) fun _ =>
      .bind (.call fun n => h.damping n _ _ _) fun _ => .bind (.call fun n => h.residual n _ _ _) fun _ =>
      hloop _ _ _ _ _ _ _
  · refine .getBind fun s s' hs => ?_
    rw [hs.u, hs.v, hs.a]
    exact .bind (.call fun n => h.mass n _ _) fun _ => .bind (.call fun n => h.force n _ _) fun _ =>
      .bind (.setUV _ _) fun _ => .bind (.call fun n => h.damping n _ _ _) fun _ =>
      .bind (.call fun n => h.jacobian n _ _ _) fun _ => .bind .lin fun _ => .bind (.setUVA _ _ _) fun _ => .ret _

theorem TimeFree.integrate (m : Method) (nl : Bool) : Sim (integrate m nl e o t dt) (integrate m nl e o t' dt) := by
  cases m <;> cases nl <;> simp only [Dynamic.integrate]
  · refine .getBind fun s s' hs => ?_
    rw [hs.u, hs.v]
    exact .bind (.call fun n => h.mass n _ _) fun _ => .bind (.minv _ _) fun _ =>
      .bind (.call fun n => h.force n _ _) fun _ => .bind (.call fun n => h.damping n _ _ _) fun _ =>
      .bind (.call fun n => h.jacobian n _ _ _) fun _ => .bind (.setUV _ _) fun _ => .ret _
  · refine .getBind fun s s' hs => ?_
    rw [hs.u, hs.v]
    exact .bind (.call fun n => h.mass n _ _) fun _ => .bind (.minv _ _) fun _ =>
      .bind (.call fun n => h.damping n _ _ _) fun _ =>
      .bind (.call fun n => h.residual n _ _ _) fun _ => .bind (.setUV _ _) fun _ => .ret _
  · refine .getBind fun s s' hs => ?_
    rw [hs.u, hs.v]
    exact .bind (.call fun n => h.mass n _ _) fun _ => .bind (.minv _ _) fun _ =>
      .bind (.call fun n => h.damping n _ _ _) fun _ => .bind (.call fun n => h.jacobian n _ _ _) fun _ =>
      .bind (.call fun n => h.force n _ _) fun _ => .bind (.call fun n => h.force n _ _) fun _ =>
      .bind (.call fun n => h.force n _ _) fun _ => .bind (.call fun n => h.force n _ _) fun _ =>
      .bind (.setUV _ _) fun _ => .ret _
  · refine .getBind fun s s' hs => ?_
    rw [hs.u, hs.v]
    exact .bind (.call fun n => h.mass n _ _) fun _ => .bind (.minv _ _) fun _ =>
      .bind (.call fun n => h.damping n _ _ _) fun _ => .bind (.call fun n => h.jacobian n _ _ _) fun _ =>
      .bind (.call fun n => h.residual n _ _ _) fun _ => .bind (.call fun n => h.residual n _ _ _) fun _ =>
      .bind (.call fun n => h.residual n _ _ _) fun _ => .bind (.call fun n => h.residual n _ _ _) fun _ =>
      .bind (.setUV _ _) fun _ => .ret _
  · refine .getBind fun s s' hs => ?_
    rw [hs.u, hs.v]
    exact .bind (.call fun n => h.mass n _ _) fun _ => .bind (.call fun n => h.force n _ _) fun _ =>
      .bind (.call fun n => h.damping n _ _ _) fun _ => .bind (.call fun n => h.jacobian n _ _ _) fun _ =>
      .bind .gm fun _ => .bind (.setUV _ _) fun _ => .ret _
  · have hloop : ∀ (u0 v0 : V) (M : V →ₗ[K] V) (res0 : K) (n it : ℕ) (C S : V →ₗ[K] V) (rhs : V),
        Sim (implicitEulerLoop e o t dt u0 v0 M res0 n it C S rhs)
          (implicitEulerLoop e o t' dt u0 v0 M res0 n it C S rhs) := by
      intro u0 v0 M res0 n
      induction n with
      | zero => exact fun _ _ _ _ => .ret _
      | succ n ih =>
        intro it C S rhs
        refine .bind (.refresh o it) fun b => .bind (h.renew _ _ _ _ _) fun CK => .getBind fun s s' hs => ?_
        rw [hs.u, hs.v]
        exact .bind .gm fun _ => .bind (.setUV _ _) fun _ => .bind (.call fun n => h.residual n _ _ _) fun _ =>
          .ite (.ret _) (ih _ _ _ _)
    refine .getBind fun s s' hs => ?_
    rw [hs.u, hs.v]
    exact .bind (.call fun n => h.mass n _ _) fun _ => .bind (.call fun n => h.damping n _ _ _) fun _ =>
      .bind (.call fun n => h.residual n _ _ _) fun _ => hloop _ _ _ _ _ _ _ _ _
  · exact h.newmark o t t' dt false
  · exact h.newmark o t t' dt true
  · exact .bind (.onCopy (h.newmark o t t' _ false)) fun x => .bind (.modify fun s s' hs =>
      ⟨by simp only [hs.u, hs.a], by simp only [hs.v, hs.a], by simp only [hs.a], hs.4, hs.5⟩) fun _ => .ret _
  · exact .bind (.onCopy (h.newmark o t t' _ true)) fun x => .bind (.modify fun s s' hs =>
      ⟨by simp only [hs.u, hs.v, hs.a], by simp only [hs.v, hs.a], by simp only [hs.a], hs.4, hs.5⟩) fun _ => .ret _
  · refine .getBind fun s s' hs => ?_
    rw [hs.u, hs.v]
    exact .bind (.onCopy (h.newmark o t t' _ false)) fun _ => .bind (.call fun n => h.mass n _ _) fun _ =>
      .bind (.call fun n => h.force n _ _) fun _ => .bind (.call fun n => h.damping n _ _ _) fun _ =>
      .bind (.call fun n => h.jacobian n _ _ _) fun _ => .bind .lin fun _ => .bind (.setUVA _ _ _) fun _ => .ret _
  · have hloop : ∀ (M : V →ₗ[K] V) (u0 v0 us vs : V) (res0 : K) (n it : ℕ) (C S : V →ₗ[K] V) (rhs : V),
        Sim (batheLoop e o t dt M u0 v0 us vs res0 n it C S rhs)
          (batheLoop e o t' dt M u0 v0 us vs res0 n it C S rhs) := by
      intro M u0 v0 us vs res0 n
      induction n with
      | zero => exact fun _ _ _ _ => .bind (.modify fun s s' hs => ⟨hs.u, by simp only [hs.u], by simp only [hs.u],
          hs.4, hs.5⟩) fun _ => .ret _
      | succ n ih =>
        intro it C S rhs
        refine .bind (.refresh o it) fun b => .bind (h.renew _ _ _ _ _) fun CK => .bind .lin fun _ =>
          .bind (.modify fun s s' hs => ⟨by simp only [hs.u], hs.v, hs.a, hs.4, hs.5⟩) fun _ =>
          .getBind fun s s' hs => ?_
        rw [hs.u]
        exact .bind (.call fun n => h.residual n _ _ _) fun _ => .ite (.bind (.modify fun s s' hs => ⟨hs.u,
          by simp only [hs.u], by simp only [hs.u], hs.4, hs.5⟩) fun _ => .ret _) (ih _ _ _ _)
    refine .getBind fun s s' hs => ?_
    rw [hs.u, hs.v]
    exact .bind (.onCopy (h.newmark o t t' _ true)) fun _ => .bind (.call fun n => h.mass n _ _) fun _ =>
      .bind (.call fun n => h.damping n _ _ _) fun _ => .bind (.call fun n => h.residual n _ _ _) fun _ =>
      .bind (.setUVA _ _ _) fun _ => hloop _ _ _ _ _ _ _ _ _ _ _

end

/-- If no callback depends on time, the program with the `const` version, with assertions, writes the same
displacements as that with `step()`, and comes to its end exactly if that does: only the times are wrong. -/
theorem C123_beam (m : Method) (nl : Bool) (e : Env K V) (he : TimeFree e) (o : Opts K) (dt : K) (n : ℕ)
    (time : K) (s s' : DSt K V) (hl : s.log.length = s'.log.length) (hM : s.massInv = s'.massInv) :
    let p := beamLoop true (integrate m nl e o) dt n time s'.u s'.v s'.a s
    let q := shellLoop (integrate m nl e o) dt n s'
    p.1.map (·.2) = q.1.map (·.2) ∧ p.2.2 = q.2.2 := by
  induction n generalizing time s s' with
  | zero => exact ⟨rfl, rfl⟩
  | succ n ih =>
    intro p q
    have h := he.integrate o time s'.time dt m nl { s with u := s'.u, v := s'.v, a := s'.a } s'
      ⟨rfl, rfl, rfl, hM, hl⟩
    rcases hi : integrate m nl e o s'.time dt s' with ⟨y', x' | r'⟩
    · rcases hj : integrate m nl e o time dt { s with u := s'.u, v := s'.v, a := s'.a } with ⟨y, x | r⟩
      · have hp : p.1 = [] ∧ p.2.2 = false := by
          simp only [p, beamLoop, stepConst, hj, and_self]
        have hq : q.1 = [] ∧ q.2.2 = false := by
          have : step none (integrate m nl e o) dt s' = (y', .error x') := by
            simp [step, Act.bind_apply, accepts, hi]
          simp only [q, shellLoop, this, and_self]
        rw [hp.1, hq.1, hp.2, hq.2]; exact ⟨rfl, rfl⟩
      · rw [hi, hj] at h; cases h.2
    · rcases hj : integrate m nl e o time dt { s with u := s'.u, v := s'.v, a := s'.a } with ⟨y, x | r⟩
      · rw [hi, hj] at h; cases h.2
      · rw [hi, hj] at h
        obtain ⟨h1, h2⟩ := h
        replace h1 : Like y y' := h1
        simp only [Except.ok.injEq] at h2
        subst h2
        have hs : step none (integrate m nl e o) dt s' = _ := step_none _ _ _ _ _ hi
        by_cases hr : r = .success
        · subst hr
          have := ih (y.time) { y with u := s.u, v := s.v, a := s.a } { y' with time := y'.time + dt, status := .success }
            h1.calls h1.massInv
          simp only at this
          simp only [p, q, beamLoop, shellLoop, stepConst, hj, hs]
          simp only [h1.u, h1.v, h1.a, ne_eq, not_true, and_false, if_false, List.map_cons, this.1, this.2, and_self]
        · have hp : p.1 = [] ∧ p.2.2 = false := by
            simp [p, beamLoop, stepConst, hj, hr]
          have hq : q.1 = [] ∧ q.2.2 = false := by
            simp only [q, shellLoop, hs]
            cases r <;> first | exact absurd rfl hr | exact ⟨rfl, rfl⟩
          rw [hp.1, hq.1, hp.2, hq.2]; exact ⟨rfl, rfl⟩

/-- A free vibration. -/
example : TimeFree (demo fun _ => false) ∧
    (beamLoop true (integrate .newmark true (demo fun _ => false) demoOpts) 1 2 0 1 0 0 (DSt.init 0 0 0)).1 =
      [(0, 4 / 5), (0, 4 / 25)] := by
  refine ⟨⟨fun _ _ _ => rfl, fun _ _ _ _ => rfl, fun _ _ _ _ => rfl, fun _ _ _ => rfl, fun _ _ _ _ => rfl⟩, ?_⟩
  decide +kernel

end GsSA.Dynamic
