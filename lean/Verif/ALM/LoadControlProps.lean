import Mathlib.Algebra.BigOperators.Group.List.Basic
import Verif.ALM.Frame
import Verif.ALM.StepProps

/-!
# Load control (C35)
-/

namespace GsSA.ALM

open GsSA

set_option linter.unusedSectionVars false

variable {K V Mat Fac : Type} [Field K] [LinearOrder K] [AddCommGroup V] [Module K V]
variable {e : Env K V Mat Fac} {o : Opts K}

/-! ## One step -/

theorem lcPredict_ok {dl : St K V Mat Fac → K} (hdl : ∀ s t, incr t = incr s → t.Lguess = s.Lguess →
    dl t = dl s) {s p : St K V Mat Fac} (h : lcPredict e dl s = (p, .ok ())) :
    p.DL = dl s ∧ p.len = s.len ∧ p.L = s.L ∧ p.guess = s.guess := by
  unfold lcPredict at h
  obtain ⟨s1, ⟨⟩, h1, h⟩ := Act.bind_ok_inv h
  have e1 := framed_incr.assembleFactorize.run h1
  have f1 := (safe_assembleFactorize e).coreEq h1
  rw [Act.bind_ok (Act.modify_apply _ _)] at h
  obtain ⟨s2, ⟨⟩, h2, h⟩ := Act.bind_ok_inv h
  have e2 := (framed_incr.computeUt fun _ _ => rfl).run h2
  simp only [Act.modify_apply, Prod.mk.injEq] at h
  obtain ⟨rfl, -⟩ := h
  have hd := hdl s s1 e1 (by simp only [core, Core.mk.injEq] at f1; exact f1.2.2.2.2.2.2.2.2.2.2.2.2.1)
  simp only [incr, Incr.mk.injEq] at e1 e2
  obtain ⟨-, b2, -, b4, -, -, b7, -, -, -, b11, -⟩ := e2
  obtain ⟨-, a2, -, a4, -, -, a7, -, -, -, a11, -⟩ := e1
  exact ⟨b4.trans hd, b7.trans a7, b2.trans a2, b11.trans a11⟩

theorem keeps_lcPredict (dl : St K V Mat Fac → K) :
    Keeps (fun s : St K V Mat Fac => s.guess) (lcPredict e dl) := by
  unfold lcPredict
  exact Keeps.bind framed_guess.assembleFactorize fun _ => Keeps.bind (Keeps.modify fun _ => rfl)
    fun _ => Keeps.bind (framed_guess.computeUt fun _ _ => rfl) fun _ => Keeps.modify fun _ => rfl

/-- Load control never changes the guess. -/
theorem keeps_guess_stepRaw : Keeps (fun s : St K V Mat Fac => s.guess)
    (stepRaw e o (loadControl e)) := by
  have hf := framed_guess (K := K) (V := V) (Mat := Mat) (Fac := Fac)
  have hiter : ∀ rem, Keeps (fun s : St K V Mat Fac => s.guess) (iterate e o (loadControl e) rem) := by
    intro rem
    induction rem with
    | zero => exact Keeps.ret _
    | succ rem ih =>
      rw [iterate]
      refine Keeps.bind ?_ fun _ => Keeps.bind Keeps.get fun s => Keeps.ite ?_
        (Keeps.ite (Keeps.bind (Keeps.modify fun _ => rfl) fun _ => Keeps.throw _)
          (Keeps.bind (Keeps.modify fun _ => rfl) fun _ => ih))
      · unfold iterationBody
        refine Keeps.bind Keeps.get fun s => Keeps.bind (Keeps.ite hf.assembleFactorize (Keeps.ret _))
          fun _ => Keeps.bind ?_ fun _ => Keeps.bind (hf.computeStability _ _) fun _ =>
            Keeps.bind hf.computeResidual fun _ => hf.computeResidualNorms
        exact Keeps.bind hf.computeUbar fun _ => Keeps.modify fun _ => rfl
      · unfold finishStep
        refine Keeps.bind (Keeps.modify fun _ => rfl) fun _ => Keeps.bind Keeps.get fun s =>
          Keeps.ite ?_ (Keeps.modify fun _ => rfl)
        unfold computeLength
        exact Keeps.bind Keeps.get fun s => Keeps.ite (Keeps.throw _) (Keeps.modify fun _ => rfl)
  unfold stepRaw beginStep
  exact Keeps.bind
    (Keeps.bind Keeps.get fun s => Keeps.bind (Keeps.ite (Keeps.bind (Keeps.modify fun _ => rfl)
      fun _ => Keeps.throw _) (Keeps.ret _)) fun _ => Keeps.bind (Keeps.modify fun _ => rfl)
      fun _ => Keeps.bind (Keeps.modify fun _ => rfl) fun _ => Keeps.bind Keeps.get fun s =>
      Keeps.ite (keeps_lcPredict _) (keeps_lcPredict _))
    fun _ => Keeps.bind hf.computeResidual fun _ => Keeps.bind hf.computeResidualNorms fun _ =>
    Keeps.bind (Keeps.ite (Keeps.bind hf.assembleFactorize fun _ => hf.computeUbar) (Keeps.ret _))
    fun _ => Keeps.bind (Keeps.modify fun _ => rfl) fun _ => hiter _

theorem lc_guess (s : St K V Mat Fac) : (step e o (loadControl e) s).1.guess = s.guess :=
  framed_guess.caught keeps_guess_stepRaw _ s

/-- A successful step of load control goes to the load of the guess if there is a guess which
differs from the current point both in displacement and load, and otherwise increases the load by
the length. The guess is kept in both cases. -/
theorem C35_step {s t : St K V Mat Fac} (h : step e o (loadControl e) s = (t, .ok .success))
    (hmax : 2 ≤ o.maxIt) :
    t.guess = s.guess ∧ t.Lguess = s.Lguess ∧
      t.L = if usesGuess e s then s.Lguess else s.L + s.len := by
  have hM : IsMethod e o (loadControl e) := .loadControl
  have hg : t.guess = s.guess := by
    have := lc_guess (e := e) (o := o) s
    rw [h] at this
    exact this
  have hcore : t.Lguess = s.Lguess ∧ s.initialized = true := by
    rcases step_cases hM.lawful s with ⟨u, hr, hi, h'⟩ | ⟨u, x, hr, hx, h'⟩
    · rw [h'] at h
      simp only [Prod.mk.injEq] at h
      obtain ⟨rfl, -⟩ := h
      obtain ⟨p, q, c, ha⟩ := (stepRaw_spec hM.lawful hi hr).1 rfl
      rw [if_neg (by omega)] at ha
      exact ⟨ha.Lguess.trans c.unfinished.Lguess, hi⟩
    · rw [h'] at h
      simp only [Prod.mk.injEq, Except.ok.injEq] at h
      cases x <;> simp_all [statusOf]
  refine ⟨hg, hcore.1, ?_⟩
  have key := step_inv hM (s := s) (t := t)
    (P := fun u => u.L = s.L ∧ u.DL = if usesGuess e s then s.Lguess - s.L else s.len)
    (Q := fun u => u.L = s.L ∧ u.DL = if usesGuess e s then s.Lguess - s.L else s.len)
    ?_ ?_ (fun _ h => h) ?_ ?_ hmax h
  · obtain ⟨u, v, ⟨h1, h2⟩, h3, rfl⟩ := key
    have h4 := (finishStep_incr hM h3).2.1
    simp only
    rw [h4, h1, h2]
    split
    · exact add_sub_cancel _ _
    · rfl
  · intro a b hab ha
    simp only [incr, Incr.mk.injEq] at hab
    rw [hab.2.1, hab.2.2.2.1]
    exact ha
  · intro a b hab ha
    simp only [incrT, incr, Prod.mk.injEq, Incr.mk.injEq] at hab
    rw [hab.1.2.1, hab.1.2.2.2.1]
    exact ha
  · intro a b ha hb
    simp only [loadControl, lcIteration] at hb
    obtain ⟨a1, ⟨⟩, h1, hb⟩ := Act.bind_ok_inv hb
    have e1 := framed_incr.computeUbar.run h1
    simp only [Act.modify_apply, Prod.mk.injEq] at hb
    obtain ⟨rfl, -⟩ := hb
    simp only [incr, Incr.mk.injEq] at e1
    simp only
    rw [e1.2.1, e1.2.2.2.1]
    exact ha
  · intro p hp
    unfold beginStep at hp
    rw [Act.bind_ok (Act.get_apply s), if_neg (by simp [hcore.2]),
      Act.bind_ok (Act.pure_apply _ _), Act.bind_ok (Act.modify_apply _ _)] at hp
    simp only [loadControl, zeroIncrements] at hp
    rw [Act.bind_ok (Act.modify_apply _ _), Act.bind_ok (Act.get_apply _)] at hp
    change (if usesGuess e s = true then _ else _ : Act _ _).run _ = _ at hp
    split at hp
    · next hu =>
      obtain ⟨h1, h2, h3, -⟩ := lcPredict_ok (by
        intro a b hab hl
        simp only [incr, Incr.mk.injEq] at hab
        rw [hl, hab.2.1]) hp
      exact ⟨h3, by rw [if_pos hu]; exact h1⟩
    · next hu =>
      obtain ⟨h1, h2, h3, -⟩ := lcPredict_ok (by
        intro a b hab hl
        simp only [incr, Incr.mk.injEq] at hab
        exact hab.2.2.2.2.2.2.1) hp
      exact ⟨h3, by rw [if_neg hu]; exact h1⟩

/-! ## Histories -/

/-- A user of load control: before every call of `step()` they may set the length. Returns the
lengths in force at the calls with the statuses, and the final state. -/
def lcRun (e : Env K V Mat Fac) (o : Opts K) :
    List (Option K) → St K V Mat Fac → List (K × Status) × St K V Mat Fac
  | [], s => ([], s)
  | l :: ls, s =>
    let s1 := match l with
      | none => s
      | some x => (setLength x s).1
    let s2 := (step e o (loadControl e) s1).1
    let r := lcRun e o ls s2
    ((s1.len, s2.status) :: r.1, r.2)

/-- After any sequence of successful and failing steps, without a guess, the load is the initial load
plus the sum of the lengths in force at the successful steps. -/
theorem C35_sum (hmax : 2 ≤ o.maxIt) (ls : List (Option K)) (s : St K V Mat Fac)
    (hg : s.guess = none) :
    (lcRun e o ls s).2.L =
      s.L + (((lcRun e o ls s).1.filter fun p => p.2 = .success).map Prod.fst).sum := by
  induction ls generalizing s with
  | nil => simp [lcRun]
  | cons l ls ih =>
    have hM : IsMethod e o (loadControl e) := .loadControl
    have aux : ∀ s1 : St K V Mat Fac, s1.L = s.L → s1.guess = none →
        ((lcRun e o ls (step e o (loadControl e) s1).1).2).L =
          s.L + ((((s1.len, (step e o (loadControl e) s1).1.status) ::
            (lcRun e o ls (step e o (loadControl e) s1).1).1).filter fun p =>
              p.2 = .success).map Prod.fst).sum := by
      intro s1 hL hg1
      have hg2 : (step e o (loadControl e) s1).1.guess = none := (lc_guess s1).trans hg1
      rw [ih _ hg2]
      obtain ⟨t, st, h1, h2, -⟩ := C31_total hM s1
      rw [h1]
      simp only [h2]
      by_cases hst : st = .success
      · subst hst
        obtain ⟨-, -, h3⟩ := C35_step h1 hmax
        have hu : usesGuess e s1 = false := by simp [usesGuess, hg1]
        rw [hu] at h3
        simp only [Bool.false_eq_true, if_false] at h3
        simp only [decide_true, List.filter_cons_of_pos, List.map_cons, List.sum_cons]
        rw [h3, hL, add_assoc]
      · have h3 := (C31_failure hM h1 hst).2.1
        rw [List.filter_cons_of_neg (by simp [hst]), h3, hL]
    cases l with
    | none => exact aux s rfl hg
    | some x => exact aux (setLength x s).1 rfl hg

section examples

open Demo

/-- Three steps on the nonlinear problem: the second fails (its residual callback fails), and the
length is set to 1/2 before the third. -/
private def hist : List (ℚ × Status) × ℚ :=
  let r := lcRun (env 1 (· == 24) fine) (opts 10 5) [none, none, some (1 / 2)] (start 1 true)
  (r.1, r.2.L)

/-- `C35_step`, `C35_sum`: a successful step, a failure, and a step with half the length. -/
example : hist = ([(1, .success), (1, .assemblyError), (1 / 2, .success)], 3 / 2) := by
  decide +kernel

/-- The loads after every step from a state. -/
private def loads (e : Env ℚ ℚ ℚ ℚ) (o : Opts ℚ) : ℕ → St ℚ ℚ ℚ ℚ → List (Status × ℚ)
  | 0, _ => []
  | n + 1, s =>
    let t := (step e o (loadControl e) s).1
    (t.status, t.L) :: loads e o n t

/-- A guess is not used up: on the linear problem, with the exact solution for load 5 as a guess,
four successful steps of length 1 go to the loads 5, 6, 5, 6. -/
theorem C35_violated_guess :
    loads (env 0 fine fine) (opts 10 1) 4
      (setInitialGuess (5 / 2) 5 (start 1 false)).1 =
    [(.success, 5), (.success, 6), (.success, 5), (.success, 6)] := by decide +kernel

end examples

/-- With a guess at a load different from both the current one and the next one, two successful steps
of load control bring the load to `Lguess` and then beyond it by the length; and from then on, as
long as the displacements differ from the guess after the second step, the load returns to `Lguess`:
the path oscillates. -/
theorem C35_violated_oscillation {s t u v : St K V Mat Fac} (hmax : 2 ≤ o.maxIt)
    (h1 : step e o (loadControl e) s = (t, .ok .success))
    (h2 : step e o (loadControl e) t = (u, .ok .success))
    (h3 : step e o (loadControl e) u = (v, .ok .success))
    (hs : usesGuess e s = true) (hu : usesGuess e u = true) :
    t.L = s.Lguess ∧ u.L = s.Lguess + t.len ∧ v.L = s.Lguess := by
  obtain ⟨-, b1, c1⟩ := C35_step h1 hmax
  obtain ⟨-, b2, c2⟩ := C35_step h2 hmax
  obtain ⟨-, -, c3⟩ := C35_step h3 hmax
  rw [hs, if_pos rfl] at c1
  have ht : usesGuess e t = false := by
    unfold usesGuess
    cases t.guess with
    | none => rfl
    | some g => simp [b1, c1]
  rw [ht] at c2
  simp only [Bool.false_eq_true, if_false] at c2
  rw [hu, if_pos rfl] at c3
  exact ⟨c1, by rw [c2, c1], by rw [c3, b2, b1]⟩

end GsSA.ALM
