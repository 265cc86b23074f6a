import Mathlib.Algebra.Field.Rat
import Mathlib.Algebra.Order.Ring.Rat
import Mathlib.Algebra.BigOperators.Group.List.Basic
import Mathlib.Data.List.Induction
import Verif.Dynamic.Trace

/-!
# Bookkeeping of the time steps (C56, C87, C92)
-/

set_option linter.unusedSectionVars false

namespace GsSA.Dynamic

open GsSA GsSA.Static
open GsSA.ALM (Act Err)

variable {K V : Type} [Field K] [LinearOrder K] [AddCommGroup V] [Module K V]

/-! ## A small problem for the examples -/

/-- One degree of freedom: mass 1, damping 0, stiffness 1, force 0, residual `-x`; exact solvers. The
damping fails at the calls in `bad`, and values above 1000 count as infinite. -/
def demo (bad : ℕ → Bool) : Env ℚ ℚ where
  norm x := |x|
  norm2 x y := |x| + |y|
  nonfinite x := decide (1000 < x)
  constMass := true
  mass _ _ := .value LinearMap.id
  damping n _ _ := if bad n then .refused else .value 0
  jacobian _ _ _ := .value LinearMap.id
  force _ _ := .value 0
  residual _ x _ := .value (-x)
  inverse _ := LinearMap.id
  solve _ m b := b / m 1
  gmres _ a b c d x y := ((d 1 * x - b 1 * y) / (a 1 * d 1 - b 1 * c 1),
    (a 1 * y - c 1 * x) / (a 1 * d 1 - b 1 * c 1))

/-- Default options. -/
def demoOpts : Opts ℚ where
  maxIter := 100
  tolF := 1 / 1000
  tolU := 1 / 1000000
  quasi := false
  quasiIt := 1
  alpha := 1 / 4
  delta := 1 / 2
  gamma := 1 / 2

/-! ## C56 -/

/-- A callback that returns `false`: nothing but the status changes. -/
theorem C56_rejected (g : ℕ → K → K → Bool) (f : K → K → Act (DSt K V) Status) (dt : K) (s : DSt K V)
    (h : g s.log.length s.time dt = false) :
    step (some g) f dt s = ({ s with status := .otherError }, .ok .otherError) := by
  simp [step, Act.bind_apply, accepts, h]

/-- Otherwise, if the integrator returns, its status is returned and stored, the vectors are those which
it left, and the time advances; also if the status is not `Success`. -/
theorem C56_returned (cb : Option (ℕ → K → K → Bool)) (m : Method) (nl : Bool) (e : Env K V) (o : Opts K)
    (dt : K) (s s' : DSt K V) (r : Status) (hcb : accepts cb s.log.length s.time dt = true)
    (h : integrate m nl e o s.time dt s = (s', .ok r)) :
    ∃ q, step cb (integrate m nl e o) dt s = (q, .ok r) ∧ q.u = s'.u ∧ q.v = s'.v ∧ q.a = s'.a ∧
      q.status = r ∧ q.time = s.time + dt ∧ q.massInv = s'.massInv := by
  have hk := (tame_integrate e o s.time dt m nl).keeps.run h
  refine ⟨{ s' with time := s'.time + dt, status := r }, ?_, rfl, rfl, rfl, rfl, ?_, rfl⟩
  · simp only [step, Act.bind_apply, Act.get_apply]
    rw [if_pos hcb]
    simp [Act.bind_apply, h]
  · simp only [DSt.frame, Prod.mk.injEq] at hk
    simp [hk.1]

/-- A state which fails to be finite: the step is not successful, and yet the time advances and the
vectors change. -/
example : ((step none (integrate .newmark false (demo fun _ => false) demoOpts) 1
    (DSt.init 4000 0 0)).2.toOption,
    (step none (integrate .newmark false (demo fun _ => false) demoOpts) 1 (DSt.init 4000 0 0)).1.time,
    (step none (integrate .newmark false (demo fun _ => false) demoOpts) 1 (DSt.init 4000 0 0)).1.u) =
    (some .notConverged, 1, 3200) := by decide +kernel

/-- The result of one call on the time. -/
theorem step_time (cb : Option (ℕ → K → K → Bool)) (m : Method) (nl : Bool) (e : Env K V) (o : Opts K)
    (dt : K) (s : DSt K V) :
    (step cb (integrate m nl e o) dt s).1.time = s.time +
      (if accepts cb s.log.length s.time dt = true ∧
          (step cb (integrate m nl e o) dt s).2.toOption.isSome = true then dt else 0) := by
  by_cases hcb : accepts cb s.log.length s.time dt = true
  · rcases h : integrate m nl e o s.time dt s with ⟨s', r | r⟩
    · have hk := (tame_integrate e o s.time dt m nl).keeps.run h
      simp only [DSt.frame, Prod.mk.injEq] at hk
      have e1 : step cb (integrate m nl e o) dt s = (s', .error r) := by
        simp only [step, Act.bind_apply, Act.get_apply]
        rw [if_pos hcb]
        simp [Act.bind_apply, h]
      rw [e1, if_neg (by simp [Except.toOption])]
      simp [hk.1]
    · obtain ⟨q, h1, -, -, -, -, h2, -⟩ := C56_returned cb m nl e o dt s s' r hcb h
      rw [h1, if_pos ⟨hcb, rfl⟩, h2]
  · rw [if_neg (fun h => hcb h.1)]
    cases cb with
    | none => exact absurd rfl hcb
    | some g =>
      rw [C56_rejected g _ dt s (by simpa [accepts] using hcb)]
      simp

theorem steps_append (cb : Option (ℕ → K → K → Bool)) (f : K → K → Act (DSt K V) Status) (l l' : List K)
    (s : DSt K V) : (steps cb f (l ++ l') s).1 = (steps cb f l' (steps cb f l s).1).1 := by
  induction l generalizing s with
  | nil => rfl
  | cons dt l ih => simpa [steps] using ih _

/-- `time()` after any number of calls: the sum of the steps which the callback accepted and which did not
end with an exception. The callback is asked in the state reached so far. -/
theorem C56_time (cb : Option (ℕ → K → K → Bool)) (m : Method) (nl : Bool) (e : Env K V) (o : Opts K)
    (s : DSt K V) (l : List K) :
    let f := integrate m nl e o
    let before (i : ℕ) := (steps cb f (l.take i) s).1
    (steps cb f l s).1.time = s.time + ((List.range l.length).map fun i =>
      if accepts cb (before i).log.length (before i).time (l.getD i 0) = true ∧
        (step cb f (l.getD i 0) (before i)).2.toOption.isSome = true then l.getD i 0 else 0).sum := by
  intro f before
  induction l using List.reverseRecOn with
  | nil => simp [steps]
  | append_singleton l dt ih =>
    simp only at ih
    have e1 : (steps cb f (l ++ [dt]) s).1 = (step cb f dt (steps cb f l s).1).1 := by
      rw [steps_append]; rfl
    rw [e1, step_time, ih, List.length_append, List.length_singleton, List.range_succ, List.map_append,
      List.sum_append, add_assoc]
    congr 1
    congr 1
    · congr 1
      refine List.map_congr_left fun i hi => ?_
      have hi : i < l.length := by simpa using hi
      have h1 : (l ++ [dt]).getD i 0 = l.getD i 0 := by
        simp [List.getD_eq_getElem?_getD, List.getElem?_append_left hi]
      have h2 : (l ++ [dt]).take i = l.take i := List.take_append_of_le_length hi.le
      simp only [before, h1, h2]
    · have h1 : (l ++ [dt]).getD l.length 0 = dt := by simp [List.getD_eq_getElem?_getD]
      have h2 : (l ++ [dt]).take l.length = l := by simp
      simp only [List.map_cons, List.map_nil, List.sum_cons, List.sum_nil, add_zero, before, h1, h2]
      rw [← ih]

/-- Three calls: the second is refused by the callback (it accepts steps below 1), the third is broken off
by an exception of the damping. -/
example : (steps (some fun _ _ dt => decide (dt < 1)) (integrate .newmark false (demo (· = 6)) demoOpts)
    [1 / 2, 1, 1 / 4] (DSt.init 1 0 0)).1.time = 1 / 2 ∧
    (steps (some fun _ _ dt => decide (dt < 1)) (integrate .newmark false (demo (· = 6)) demoOpts)
    [1 / 2, 1, 1 / 4] (DSt.init 1 0 0)).2 = [some .success, some .otherError, none] := by
  decide +kernel

/-! ## C87 -/

/-- Whether a step returns or throws is decided by the callbacks: if it returns, every call made in it
succeeded; if it throws, the last call failed and all others succeeded. In the second case `time()` and
`status()` are as before. The exception is a division by zero for quasi-Newton with interval zero. -/
theorem C87_step (cb : Option (ℕ → K → K → Bool)) (m : Method) (nl : Bool) (e : Env K V) (o : Opts K)
    (dt : K) (s : DSt K V) :
    ∃ l, (step cb (integrate m nl e o) dt s).1.log = l ++ s.log ∧
      match (step cb (integrate m nl e o) dt s).2 with
      | .ok _ => ∀ x ∈ l, x.2 = true
      | .error x => (step cb (integrate m nl e o) dt s).1.time = s.time ∧
          (step cb (integrate m nl e o) dt s).1.status = s.status ∧
          ((x = .ub ∧ o.quasi = true ∧ o.quasiIt = 0) ∨
            ((x = .assembly ∨ x = .other) ∧ ∃ c l', l = (c, false) :: l' ∧ ∀ y ∈ l', y.2 = true)) := by
  by_cases hc : accepts cb s.log.length s.time dt = true
  · obtain ⟨l, h1, h2⟩ := (tame_integrate e o s.time dt m nl).traced s
    have hk := (tame_integrate e o s.time dt m nl).keeps s
    refine ⟨l, ?_⟩
    have e1 : step cb (integrate m nl e o) dt s =
        match integrate m nl e o s.time dt s with
        | (t, .ok r) => ({ t with time := t.time + dt, status := r }, .ok r)
        | (t, .error x) => (t, .error x) := by
      simp only [step, Act.bind_apply, Act.get_apply]
      rw [if_pos hc]
      simp only [Act.bind_apply]
      rcases integrate m nl e o s.time dt s with ⟨t, r | r⟩ <;> rfl
    rw [e1]
    rcases h : integrate m nl e o s.time dt s with ⟨t, r | r⟩
    · rw [h] at h1 h2 hk
      simp only [DSt.frame, Prod.mk.injEq] at hk
      refine ⟨h1, hk.1, hk.2.1, ?_⟩
      rcases h2 with ⟨h3, h4, -⟩ | h2
      · exact Or.inl ⟨h3, h4⟩
      · exact Or.inr h2
    · rw [h] at h1 h2
      exact ⟨h1, h2⟩
  · refine ⟨[], ?_⟩
    have e1 : step cb (integrate m nl e o) dt s =
        ({ s with status := .otherError }, .ok .otherError) := by
      simp only [step, Act.bind_apply, Act.get_apply]
      rw [if_neg hc]
      simp [Act.bind_apply]
    rw [e1]
    simp

/-- C87 fails: a refusing callback is never reported as a status. Whatever the method, an accepted step
during which a callback returns `false` ends with an exception. -/
theorem C87_violated_status (cb : Option (ℕ → K → K → Bool)) (m : Method) (nl : Bool) (e : Env K V)
    (o : Opts K) (dt : K) (s : DSt K V) (l : List (Call K V × Bool))
    (hl : (step cb (integrate m nl e o) dt s).1.log = l ++ s.log) (c : Call K V) (hc : (c, false) ∈ l) :
    ∀ r, (step cb (integrate m nl e o) dt s).2 ≠ .ok r := by
  intro r hr
  obtain ⟨l', h1, h2⟩ := C87_step cb m nl e o dt s
  rw [hr] at h2
  have : l' = l := List.append_cancel_right (h1.symm.trans hl)
  subst this
  simpa using h2 _ hc

/-- And the vectors may have changed: a linear Newmark step whose damping fails has already replaced the
displacement and the velocity by the predictors. -/
theorem C87_violated_state (e : Env K V) (o : Opts K) (dt : K) (s : DSt K V) (M : V →ₗ[K] V) (F : V)
    (hM : ∀ n t, e.mass n t = .value M) (hF : ∀ n t, e.force n t = .value F)
    (hC : ∀ n x t, e.damping n x t = .refused) :
    ∃ q, step none (integrate .newmark false e o) dt s = (q, .error .assembly) ∧ q.time = s.time ∧
      q.status = s.status ∧ q.u = s.u + dt • s.v + ((1 / 2 - o.alpha) * dt * dt) • s.a := by
  let u := s.u + dt • s.v + ((1 / 2 - o.alpha) * dt * dt) • s.a
  let v := s.v + ((1 - o.delta) * dt) • s.a
  let q : DSt K V := { s with
    u := u, v := v
    log := (.damping u (s.time + dt), false) :: (.force (s.time + dt), true) ::
      (.mass (s.time + dt), true) :: s.log }
  refine ⟨q, ?_, rfl, rfl, rfl⟩
  simp [step, accepts, integrate, newmark, newmarkL, computeMass, computeForce, computeDamping, setUV, call,
      Act.bind_apply, hM, hF, hC, q, u, v]

example : (step none (integrate .newmark false (demo fun _ => true) demoOpts) 1
    (DSt.init 1 2 0)).2.toOption = none ∧
    (step none (integrate .newmark false (demo fun _ => true) demoOpts) 1 (DSt.init 1 2 0)).1.u = 3 ∧
    (step none (integrate .newmark false (demo fun _ => true) demoOpts) 1 (DSt.init 1 2 0)).1.time = 0 ∧
    (step none (integrate .newmark false (demo fun _ => true) demoOpts) 1 (DSt.init 1 2 0)).1.status =
      .notStarted := by
  decide +kernel

/-! ## C92 -/

/-- C92 fails: `numIterations()` is -1 for ever, however many iterations the steps make. -/
theorem C92_violated_count (cb : Option (ℕ → K → K → Bool)) (m : Method) (nl : Bool) (e : Env K V)
    (o : Opts K) (l : List K) (u v a : V) :
    (steps cb (integrate m nl e o) l (DSt.init u v a)).1.numIt = -1 := by
  suffices h : ∀ s : DSt K V, (steps cb (integrate m nl e o) l s).1.numIt = s.numIt from h _
  induction l with
  | nil => exact fun _ => rfl
  | cons dt l ih =>
    intro s
    simp only [steps]
    rw [ih]
    by_cases hc : accepts cb s.log.length s.time dt = true
    · have hk := (tame_integrate e o s.time dt m nl).keeps s
      simp only [step, Act.bind_apply, Act.get_apply]
      rw [if_pos hc]
      simp only [Act.bind_apply]
      rcases h : integrate m nl e o s.time dt s with ⟨t, r | r⟩ <;> rw [h] at hk <;>
        simp only [DSt.frame, Prod.mk.injEq] at hk <;> exact hk.2.2
    · simp only [step, Act.bind_apply, Act.get_apply]
      rw [if_neg hc]
      simp [Act.bind_apply]

/-- A step with two iterations. -/
example : ((steps none (integrate .newmark true (demo fun _ => false) demoOpts) [1] (DSt.init 1 0 0)).1.log.map
    fun x => match x.1 with | .jacobian _ _ => 1 | _ => 0).sum = 2 ∧
    (steps none (integrate .newmark true (demo fun _ => false) demoOpts) [1] (DSt.init 1 0 0)).2 =
      [some .success] := by
  decide +kernel

end GsSA.Dynamic
