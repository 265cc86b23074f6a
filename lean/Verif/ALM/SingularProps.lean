import Mathlib.Tactic.Linarith
import Verif.ALM.SingularSpec
import Verif.ALM.Demo
import Verif.ALM.GeoLaws

/-!
# C41-C43, C76-C78: stability and singular points
-/

namespace GsSA.ALM

open GsSA

set_option linter.unusedSectionVars false

variable {K V Mat Fac : Type} [Field K] [LinearOrder K] [AddCommGroup V] [Module K V]
variable {e : Env K V Mat Fac} {o : Opts K} {M : Method K V Mat Fac}


/-! ## The problem of the examples

Internal force `2 u - 2/3 u³`, with a limit point at `u = 1`. -/

namespace Demo

/-- The problem, with failures of the residual callback and of the factorisation. -/
def fold : Env ℚ ℚ ℚ ℚ := env (-2 / 3) fine fine

/-- Options with the eigenvalue method. -/
def foldOpts (maxIt : ℕ) : Opts ℚ := { opts maxIt 3 with bifMethod := .eigenvalue, spTolE := 1 / 10 }

/-- A point close to the limit point, on which a stability computation was done. -/
def near : St ℚ ℚ ℚ ℚ :=
  { start 1 true with
    U := 9 / 10, L := 1, v := 1, jac := 2, stability := -1, indicator := 1, status := .success }

end Demo

/-! ## C41: the stability indicator -/

theorem foldl_min_mem (l : List K) : ∀ x, (l.foldl min x = x ∨ l.foldl min x ∈ l) ∧
    l.foldl min x ≤ x ∧ ∀ y ∈ l, l.foldl min x ≤ y := by
  induction l with
  | nil => intro x; simp
  | cons a l ih =>
    intro x
    obtain ⟨h1, h2, h3⟩ := ih (min x a)
    simp only [List.foldl_cons, List.mem_cons]
    refine ⟨?_, h2.trans (min_le_left _ _), ?_⟩
    · rcases h1 with h1 | h1
      · rw [h1]
        rcases min_choice x a with h | h <;> simp [h]
      · exact Or.inr (Or.inr h1)
    · rintro y (rfl | hy)
      · exact h2.trans (min_le_right _ _)
      · exact h3 y hy

theorem minCoeff_spec {l : List K} {m : K} (h : minCoeff l = some m) :
    m ∈ l ∧ ∀ y ∈ l, m ≤ y := by
  cases l with
  | nil => simp [minCoeff] at h
  | cons x l =>
    simp only [minCoeff, Option.some.injEq] at h
    obtain ⟨h1, h2, h3⟩ := foldl_min_mem l x
    rw [h] at h1 h2 h3
    refine ⟨by simpa using h1, ?_⟩
    intro y hy
    rcases List.mem_cons.1 hy with rfl | hy
    · exact h2
    · exact h3 y hy

/-- **C41**: after a successful stability computation the indicator is the smallest entry of the
vector of pivots or eigenvalues, the number of negative entries is positive exactly if the indicator
is negative, and the previous stability is kept. -/
theorem C41_evaluation {s t : St K V Mat Fac} {j : Bool} {shift : K}
    (h : computeStability e o j shift s = (t, .ok .success)) :
    t.indicator ∈ t.stabVec ∧ (∀ x ∈ t.stabVec, t.indicator ≤ x) ∧
      t.negatives = (t.stabVec.filter fun x => decide (x < 0)).length ∧
      (0 < t.negatives ↔ t.indicator < 0) ∧
      t.stability = (if t.indicator < 0 then 1 else -1) ∧ t.stabilityPrev = s.stabilityPrev ∧
      t.U = s.U ∧ t.L = s.L := by
  have hp : t.stabilityPrev = s.stabilityPrev ∧ t.U = s.U ∧ t.L = s.L := by
    have hf : Framed (fun s : St K V Mat Fac => (s.stabilityPrev, s.U, s.L)) := by
      constructor <;> intros <;> rfl
    have := (hf.computeStability (e := e) (o := o) j shift).run h
    simpa using this
  change caught _ _ s = _ at h
  rcases caught_inv h with ⟨u, hr, rfl, -⟩ | ⟨u, x, hr, hx, -, hst⟩
  · unfold computeStabilityRaw at hr
    obtain ⟨s1, ⟨⟩, -, hr⟩ := Act.bind_ok_inv hr
    obtain ⟨s2, ⟨⟩, -, hr⟩ := Act.bind_ok_inv hr
    rw [Act.bind_ok (Act.get_apply _)] at hr
    cases hm : minCoeff s2.stabVec with
    | none => simp [hm] at hr
    | some m =>
      simp only [hm, Act.modify_apply, Prod.mk.injEq, and_true] at hr
      obtain ⟨h1, h2⟩ := minCoeff_spec hm
      refine ⟨?_, ?_, ?_, ?_, ?_, hp⟩ <;> rw [← hr]
      · exact h1
      · exact h2
      · simp only [countNegatives, List.countP_eq_length_filter]
      · simp only [countNegatives, List.countP_pos_iff, decide_eq_true_eq]
        exact ⟨fun ⟨y, hy, h0⟩ => (h2 y hy).trans_lt h0, fun h0 => ⟨m, h1, h0⟩⟩
      · rfl
  · cases x <;> simp_all [statusOf]

open Demo in
example :
    let r := computeStability fold (foldOpts 5) true (-100) { near with U := 2 }
    r.2 = .ok .success ∧ r.1.indicator = -6 ∧ r.1.negatives = 1 ∧ r.1.stability = 1 := by
  decide +kernel

/-- **C41**: after every step the stability belongs to the indicator, and `stabilityChange()` holds
after a successful step exactly if the indicator is in the other sign class than before the step. -/
theorem C41_change (hM : IsMethod e o M) {s t : St K V Mat Fac} {st : Status}
    (hs : s.stability = if s.indicator < 0 then 1 else -1) (h : step e o M s = (t, .ok st)) :
    (t.stability = if t.indicator < 0 then 1 else -1) ∧
      (st = .success → (stabilityChange t = true ↔ (t.indicator < 0 ↔ ¬s.indicator < 0))) := by
  have h1 : SignOK t := (SignOK.step hM.lawful).run h hs
  refine ⟨h1, ?_⟩
  rintro rfl
  have hp : t.stabilityPrev = s.stability := by
    rcases step_cases hM.lawful s with ⟨u, hr, hi, h'⟩ | ⟨u, x, hr, hx, h'⟩
    · rw [h'] at h
      simp only [Prod.mk.injEq, and_true] at h
      obtain ⟨p, q, hc, ha⟩ := (stepRaw_spec hM.lawful hi hr).1 rfl
      rw [← h]
      simp only
      split at ha
      · rw [ha, hc.stabilityPrev]
      · rw [ha.stabilityPrev, hc.stabilityPrev]
    · rw [h'] at h
      simp only [Prod.mk.injEq, Except.ok.injEq] at h
      cases x <;> simp_all [statusOf]
  unfold SignOK at h1
  unfold stabilityChange
  rw [h1, hp, hs]
  by_cases h2 : t.indicator < 0 <;> by_cases h3 : s.indicator < 0 <;> simp [h2, h3]

open Demo in
example :
    let s := { start 1 false with stability := 1, indicator := -1 }
    let r := step (env 0 fine fine) (foldOpts 5) (loadControl (env 0 fine fine)) s
    (s.stability = if s.indicator < 0 then 1 else -1) ∧ r.2 = .ok .success ∧
      stabilityChange r.1 = true ∧ r.1.indicator = 2 := by
  decide +kernel

/-- **C41** violated: the documented sign is reversed. With a negative pivot or eigenvalue
`stability()` is 1, with none it is -1. -/
theorem C41_violated_sign {s t : St K V Mat Fac} {j : Bool} {shift : K}
    (h : computeStability e o j shift s = (t, .ok .success)) :
    ((∃ x ∈ t.stabVec, x < 0) → t.stability = 1) ∧
      ((∀ x ∈ t.stabVec, 0 ≤ x) → t.stability = -1) := by
  obtain ⟨h1, h2, -, -, h5, -⟩ := C41_evaluation h
  refine ⟨fun ⟨x, hx, h0⟩ => ?_, fun h0 => ?_⟩
  · rw [h5, if_pos ((h2 x hx).trans_lt h0)]
  · rw [h5, if_neg (not_lt.2 (h0 _ h1))]

open Demo in
example :
    let r := computeStability fold (foldOpts 5) true (-100) near
    r.2 = .ok .success ∧ r.1.stability = -1 := by
  decide +kernel

/-- **C41** violated: `isStable()` is true whatever the indicator is. -/
theorem C41_violated_isStable {s : St K V Mat Fac}
    (hs : s.stability = if s.indicator < 0 then 1 else -1) : isStable s = true := by
  unfold isStable
  rw [hs]
  split <;> simp

open Demo in
example : isStable { near with indicator := -1, stability := 1 } = true ∧ isStable near = true := by
  decide +kernel

/-- **C41**: a point accepted as a singular point is not reported as a change of stability again. -/
theorem C41_singular {s t : St K V Mat Fac} {U : V} {L : K} {sw j : Bool}
    (h : computeSingularPointRaw e o M U L sw j false s = (t, .ok ())) :
    t.stability = t.stabilityPrev ∧ stabilityChange t = false := by
  unfold computeSingularPointRaw at h
  simp only [Bool.false_eq_true, if_false] at h
  rw [Act.bind_ok (Act.pure_apply _ _), Act.bind_ok (Act.modify_apply _ _), if_pos rfl] at h
  unfold solveSingularPoint at h
  rw [Act.bind_ok (Act.get_apply _)] at h
  obtain ⟨s1, ⟨⟩, -, h⟩ := Act.bind_ok_inv h
  rw [Act.bind_ok (Act.get_apply _)] at h
  obtain ⟨s2, b, -, h⟩ := Act.bind_ok_inv h
  obtain ⟨s3, ⟨⟩, -, h⟩ := Act.bind_ok_inv h
  simp only [Act.modify_apply, Prod.mk.injEq, and_true] at h
  subst h
  refine ⟨rfl, ?_⟩
  simp only [stabilityChange, decide_eq_false_iff_not, not_lt]
  exact mul_self_nonneg _

open Demo in
example :
    let r := computeSingularPointRaw fold (foldOpts 5) (loadControl fold) (9 / 10) 1 false false
      false { near with stability := 1, stabilityPrev := -1 }
    r.2 = .ok () ∧ stabilityChange r.1 = false ∧
      stabilityChange { near with stability := 1, stabilityPrev := -1 } = true := by
  decide +kernel

/-! ## C42: the settings of the arc length -/

/-- Bisection that returns restores the arc length and the setting `AdaptiveLength`. -/
theorem bisectionSolve_lengths {s t : St K V Mat Fac} {U : V} {L tol : K} {b : Bool}
    (h : bisectionSolve e o M U L tol s = (t, .ok b)) : lengths t = lengths s := by
  unfold bisectionSolve at h
  rw [Act.bind_ok (Act.modify_apply _ _), Act.bind_ok (Act.get_apply _)] at h
  simp only at h
  rw [Act.bind_ok (Act.modify_apply _ _)] at h
  obtain ⟨s1, ref, -, h⟩ := Act.bind_ok_inv h
  obtain ⟨s2, fa, -, h⟩ := Act.bind_ok_inv h
  obtain ⟨s3, c, -, h⟩ := Act.bind_ok_inv h
  rw [Act.bind_ok (Act.modify_apply _ _)] at h
  have := (framed_lengths.bisectionPower (fun _ _ => rfl) _ _ _).run h
  exact this

theorem keeps_lengths_extendedSolve (U : V) (L tol : K) :
    Keeps (lengths : St K V Mat Fac → _) (extendedSolve e o U L tol) :=
  keeps_extendedSolve framed_lengths (fun _ _ _ => rfl) (fun _ _ => rfl) (fun _ _ _ _ => rfl)
    (fun _ _ _ _ => rfl) (fun _ _ => rfl) (fun _ _ => rfl) U L tol

/-- **C42**: if the computation of a singular point throws nothing, the arc length and
`AdaptiveLength` are afterwards what they were before. -/
theorem C42_kept {s t : St K V Mat Fac} {U : V} {L : K} {sw j test : Bool}
    (h : computeSingularPointRaw e o M U L sw j test s = (t, .ok ())) :
    t.len = s.len ∧ t.adaptive = s.adaptive := by
  have key : lengths t = lengths s := by
    unfold computeSingularPointRaw at h
    obtain ⟨s1, b, h1, h⟩ := Act.bind_ok_inv h
    rw [Act.bind_ok (Act.modify_apply _ _)] at h
    have e1 : lengths s1 = lengths s :=
      (Keeps.ite (framed_lengths.testSingularPoint (fun _ _ => rfl) j) (Keeps.ret _)).run h1
    refine Eq.trans ?_ e1
    cases b with
    | false =>
      simp only [Bool.false_eq_true, if_false, Act.pure_apply, Prod.mk.injEq, and_true] at h
      rw [← h]
      rfl
    | true =>
      simp only [if_true] at h
      unfold solveSingularPoint at h
      rw [Act.bind_ok (Act.get_apply _)] at h
      obtain ⟨s2, ⟨⟩, h2, h⟩ := Act.bind_ok_inv h
      rw [Act.bind_ok (Act.get_apply _)] at h
      obtain ⟨s3, c, h3, h⟩ := Act.bind_ok_inv h
      obtain ⟨s4, ⟨⟩, h4, h⟩ := Act.bind_ok_inv h
      have e2 : lengths s2 = lengths s1 := by
        split at h2
        · obtain ⟨s5, c', h5, h2⟩ := Act.bind_ok_inv h2
          simp only [Act.pure_apply, Prod.mk.injEq, and_true] at h2
          rw [← h2]
          exact bisectionSolve_lengths h5
        · simp only [Act.pure_apply, Prod.mk.injEq, and_true] at h2
          rw [← h2]
          rfl
      have e3 : lengths s3 = lengths s2 := (keeps_lengths_extendedSolve _ _ _).run h3
      have e4 : lengths s4 = lengths s3 := by
        have hk : Keeps lengths (switchBranch e o) := Keeps.modify fun _ => rfl
        exact (Keeps.ite hk (Keeps.ret _)).run h4
      simp only [Act.modify_apply, Prod.mk.injEq, and_true] at h
      rw [← h]
      exact e4.trans (e3.trans e2)
  simpa [lengths] using key

open Demo in
example :
    let r := computeSingularPointRaw fold { foldOpts 3 with spTolB := 1 / 2 } (loadControl fold)
      (9 / 10) 1 false false false near
    r.2 = .ok () ∧ r.1.len = 1 ∧ r.1.adaptive = true ∧ 1 < r.1.U := by
  decide +kernel

/-- **C42**: without bisection the two are kept whatever happens. -/
theorem C42_noBisection (hB : o.spTolB = 0) {s t : St K V Mat Fac} {U : V} {L : K}
    {sw j test : Bool} {r : Except Err Status}
    (h : computeSingularPoint e o M U L sw j test s = (t, r)) :
    t.len = s.len ∧ t.adaptive = s.adaptive := by
  have key : Keeps (lengths : St K V Mat Fac → _) (computeSingularPointRaw e o M U L sw j test) := by
    unfold computeSingularPointRaw
    refine Keeps.bind (Keeps.ite (framed_lengths.testSingularPoint (fun _ _ => rfl) j)
      (Keeps.ret _)) fun b => Keeps.bind (Keeps.modify fun _ => rfl) fun _ =>
      Keeps.ite ?_ (Keeps.ret _)
    unfold solveSingularPoint
    refine Keeps.bind Keeps.get fun s => Keeps.bind ?_ fun _ => Keeps.bind Keeps.get fun s =>
      Keeps.bind (keeps_lengths_extendedSolve _ _ _) fun c =>
      Keeps.bind (Keeps.ite (Keeps.modify fun _ => rfl) (Keeps.ret _)) fun _ =>
      Keeps.modify fun _ => rfl
    rw [if_neg (by simpa using hB)]
    exact Keeps.ret _
  have h1 := key s
  unfold computeSingularPoint at h
  rcases hr : computeSingularPointRaw e o M U L sw j test s with ⟨u, q⟩
  rw [hr] at h1
  have : lengths t = lengths u := by
    cases q with
    | ok _ =>
      rw [caught_ok hr] at h
      simp only [id, Prod.mk.injEq] at h
      rw [h.1]
    | error x =>
      by_cases hx : x = .ub
      · subst hx
        simp only [caught, hr, Prod.mk.injEq] at h
        rw [h.1]
      · rw [caught_error hr hx] at h
        simp only [Prod.mk.injEq] at h
        rw [← h.1]
        rfl
  simpa [lengths] using this.trans h1

open Demo in
example :
    let r := computeSingularPoint (env (-2 / 3) (fun n => n = 3) fine) (foldOpts 3)
      (loadControl fold) (9 / 10) 1 false false false near
    r.2 = .ok .assemblyError ∧ r.1.len = near.len ∧ r.1.adaptive = near.adaptive := by
  decide +kernel

/-- **C42** violated: if the assembly fails when the bisection starts, the error is reported, but
`AdaptiveLength` stays switched off. -/
theorem C42_violated_error (hB : o.spTolB ≠ 0) {s : St K V Mat Fac} {U : V} {L : K} {sw j : Bool}
    (hf : e.jacobian s.log.length U 0 = none) :
    ∃ t, computeSingularPoint e o M U L sw j false s = (t, .ok .assemblyError) ∧
      t.adaptive = false := by
  have : computeSingularPointRaw e o M U L sw j false s =
      ({ s with U := U, L := L, adaptive := false, log := .jacobian false :: s.log },
        .error .assembly) := by
    simp [computeSingularPointRaw, solveSingularPoint, bisectionSolve, termination,
      computeStabilityRaw, reassemble, computeJacobianAt, Act.bind_apply, hf, hB, emit]
  exact ⟨_, caught_error this (by simp), rfl⟩

open Demo in
/-- **C42** violated: a factorisation that fails later leaves the arc length halved as well. -/
theorem C42_violated_length : ∃ t,
    computeSingularPoint (env (-2 / 3) fine fun n => n == 47) { foldOpts 3 with spTolB := 1 / 2 }
      (loadControl (env (-2 / 3) fine fun n => n == 47)) (9 / 10) 1 false false false near =
        (t, .ok .solverError) ∧ near.len = 1 ∧ t.len = 1 / 2 ∧ near.adaptive = true ∧
      t.adaptive = false := by
  refine ⟨_, Prod.ext rfl ?_, ?_⟩ <;> decide +kernel

open Demo in
example : (foldOpts 3).spTolB = 0 ∧ ({ foldOpts 3 with spTolB := 1 / 2 } : Opts ℚ).spTolB ≠ 0 ∧
    ({ fold with jacobian := fun _ _ _ => none } : Env ℚ ℚ ℚ ℚ).jacobian near.log.length (9 / 10) 0 =
      none := by
  decide +kernel

/-! ## C43: the status -/

/-- **C43**: an exception is reported by the status that belongs to it. -/
theorem C43_error {s u : St K V Mat Fac} {U : V} {L : K} {sw j test : Bool} {x : Err}
    (h : computeSingularPointRaw e o M U L sw j test s = (u, .error x)) (hx : x ≠ .ub) :
    computeSingularPoint e o M U L sw j test s =
      ({ u with status := statusOf x }, .ok (statusOf x)) := caught_error h hx

open Demo in
example : (computeSingularPointRaw (env (-2 / 3) (fun n => n = 3) fine) (foldOpts 3)
    (loadControl fold) (9 / 10) 1 false false false near).2 = .error .assembly := by
  decide +kernel

theorem safe_refactorize (U dU : V) : Safe (refactorize e U dU) := by
  unfold refactorize
  exact Safe.bind (safe_computeJacobianAt e _ _) fun m =>
    Safe.bind (Safe.modify (fun _ => rfl) fun _ => rfl) fun _ => safe_factorizeMatrix e m

theorem safe_powerSteps (n : ℕ) : Safe (powerSteps e n) := by
  induction n with
  | zero => exact Safe.ret _
  | succ n ih =>
    exact Safe.bind Safe.get fun s => Safe.bind (safe_solveSystem e _) fun x =>
      Safe.bind (Safe.modify (fun _ => rfl) fun _ => rfl) fun _ => ih

theorem safe_testSingularPoint (j : Bool) : Safe (testSingularPoint e o j) := by
  unfold testSingularPoint
  exact Safe.bind Safe.get fun s => Safe.bind (Safe.iteBool (safe_refactorize _ _)) fun _ =>
    Safe.bind (Safe.modify (fun _ => rfl) fun _ => rfl) fun _ => Safe.bind Safe.get fun s =>
    Safe.bind (safe_factorizeMatrix e _) fun _ => Safe.bind (safe_powerSteps _) fun _ =>
    Safe.bind Safe.get fun s => Safe.ret _

theorem safe_extendedIteration : Safe (extendedIteration e) := by
  unfold extendedIteration
  exact Safe.bind Safe.get fun s => Safe.bind (safe_evalResidual e _ _) fun r =>
    Safe.bind (Safe.modify (fun _ => rfl) fun _ => rfl) fun _ =>
    Safe.bind (safe_refactorize _ _) fun _ => Safe.bind (safe_solveSystem e _) fun ut =>
    Safe.bind (Safe.modify (fun _ => rfl) fun _ => rfl) fun _ =>
    Safe.bind (safe_solveSystem e _) fun ub =>
    Safe.bind (Safe.modify (fun _ => rfl) fun _ => rfl) fun _ =>
    Safe.bind (safe_computeJacobianAt e _ _) fun je => Safe.bind Safe.get fun s =>
    Safe.bind (safe_factorizeMatrix e _) fun _ => Safe.bind (safe_solveSystem e _) fun vt =>
    Safe.bind (safe_solveSystem e _) fun vb => Safe.modify (fun _ => rfl) fun _ => rfl

/-- The status and the kinds of errors of an action that does not report. -/
structure Quiet {α : Type} (m : Act (St K V Mat Fac) α) : Prop where
  status : ∀ s, (m s).1.status = s.status
  errs : ∀ s x, (m s).2 = .error x → x = .assembly ∨ x = .solver

section

variable {α β : Type}

theorem Safe.quiet {m : Act (St K V Mat Fac) α} (h : Safe m) : Quiet m where
  status s := by
    have := h.core s
    simp only [ALM.core, Core.mk.injEq] at this
    exact this.2.2.2.2.2.2.2.2.2.2.1
  errs := h.errs

theorem Quiet.modify {f : St K V Mat Fac → St K V Mat Fac} (h : ∀ s, (f s).status = s.status) :
    Quiet (Act.modify f) := ⟨h, by simp⟩

theorem Quiet.bind {m : Act (St K V Mat Fac) α} {f : α → Act (St K V Mat Fac) β}
    (hm : Quiet m) (hf : ∀ a, Quiet (f a)) : Quiet (m >>= f) := by
  constructor
  · intro s
    have := hm.status s
    rw [Act.bind_apply]
    rcases h : m s with ⟨t, r⟩
    rw [h] at this
    cases r with
    | error err => exact this
    | ok a => exact ((hf a).status t).trans this
  · intro s
    have := hm.errs s
    rw [Act.bind_apply]
    rcases h : m s with ⟨t, r⟩
    rw [h] at this
    cases r with
    | error err => simpa using this
    | ok a => exact (hf a).errs t

theorem Quiet.ite {c : Prop} [Decidable c] {m m' : Act (St K V Mat Fac) α} (h : Quiet m)
    (h' : Quiet m') : Quiet (if c then m else m') := by
  split <;> assumption

theorem Quiet.ret (a : α) : Quiet (pure a : Act (St K V Mat Fac) α) := (Safe.ret a).quiet

theorem Quiet.get : Quiet (Act.get : Act (St K V Mat Fac) _) := Safe.get.quiet

end

theorem quiet_norms : Quiet (computeResidualNorms e) := by
  unfold computeResidualNorms
  refine Quiet.modify fun s => ?_
  split <;> rfl

theorem quiet_extendedBody : Quiet (extendedBody e) := by
  unfold extendedBody
  exact Quiet.bind safe_extendedIteration.quiet fun _ => Quiet.bind (Quiet.modify fun _ => rfl)
    fun _ => Quiet.bind Quiet.get fun s => Quiet.bind (safe_refactorize _ _).quiet fun _ =>
    Quiet.bind (Quiet.modify fun _ => rfl) fun _ => Quiet.bind Quiet.get fun s =>
    Quiet.bind (safe_evalResidual e _ _).quiet fun r => Quiet.bind (Quiet.modify fun _ => rfl)
    fun _ => quiet_norms

theorem quiet_extendedLoop (tol : K) (rem : ℕ) : Quiet (extendedLoop e o tol rem) := by
  induction rem with
  | zero => exact Quiet.ret _
  | succ rem ih =>
    rw [extendedLoop]
    exact Quiet.bind quiet_extendedBody fun _ => Quiet.bind Quiet.get fun s =>
      Quiet.ite (Quiet.bind (Quiet.modify fun _ => rfl) fun _ => Quiet.ret _)
        (Quiet.ite (Quiet.bind (Quiet.ite (Quiet.modify fun _ => rfl) (Quiet.modify fun _ => rfl))
          fun _ => Quiet.ret _) (Quiet.bind (Quiet.modify fun _ => rfl) fun _ => ih))

theorem quiet_extendedSolve (U : V) (L tol : K) : Quiet (extendedSolve e o U L tol) := by
  unfold extendedSolve
  exact Quiet.bind (Quiet.modify fun _ => rfl) fun _ => Quiet.bind Quiet.get fun s =>
    Quiet.bind (safe_refactorize _ _).quiet fun _ => Quiet.bind (Quiet.modify fun _ => rfl) fun _ =>
    Quiet.bind (Quiet.modify fun _ => rfl) fun _ => quiet_extendedLoop _ _

theorem quiet_noBisection (hB : o.spTolB = 0) (U : V) (L : K) (sw j test : Bool) :
    Quiet (computeSingularPointRaw e o M U L sw j test) := by
  unfold computeSingularPointRaw
  refine Quiet.bind (Quiet.ite (safe_testSingularPoint j).quiet (Quiet.ret _)) fun b =>
    Quiet.bind (Quiet.modify fun _ => rfl) fun _ => Quiet.ite ?_ (Quiet.ret _)
  unfold solveSingularPoint
  refine Quiet.bind Quiet.get fun s => Quiet.bind ?_ fun _ => Quiet.bind Quiet.get fun s =>
    Quiet.bind (quiet_extendedSolve _ _ _) fun c =>
    Quiet.bind (Quiet.ite (Quiet.modify fun _ => rfl) (Quiet.ret _)) fun _ =>
    Quiet.modify fun _ => rfl
  rw [if_neg (by simpa using hB)]
  exact Quiet.ret _

/-- **C43** violated: without bisection and without an exception the status returned is the one of
the last call before, whether a singular point was found or not. Convergence is not reported. -/
theorem C43_violated_stale (hB : o.spTolB = 0) {s u : St K V Mat Fac} {U : V} {L : K}
    {sw j test : Bool} (h : computeSingularPointRaw e o M U L sw j test s = (u, .ok ())) :
    computeSingularPoint e o M U L sw j test s = (u, .ok s.status) := by
  have h1 := (quiet_noBisection (e := e) (M := M) hB U L sw j test).status s
  rw [h] at h1
  unfold computeSingularPoint
  rw [caught_ok h]
  simp only [id]
  rw [h1]

open Demo in
/-- **C43** violated: the extended system does not converge, and `Success` is returned. -/
theorem C43_violated_success :
    let r := computeSingularPoint fold { foldOpts 1 with spTolE := 1 / 100 } (loadControl fold)
      (9 / 10) 1 false false false near
    (extendedSolve fold { foldOpts 1 with spTolE := 1 / 100 } (9 / 10) 1 (1 / 100) near).2 =
      .ok false ∧ r.2 = .ok .success ∧ r.1.U = 9 / 10 := by
  decide +kernel

open Demo in
/-- **C43** violated: the singular point is found, and the failure of an earlier step is returned. -/
theorem C43_violated_failure :
    let s := { near with status := .notConverged }
    (extendedSolve fold (foldOpts 5) (9 / 10) 1 (1 / 10) s).2 = .ok true ∧
    (computeSingularPoint fold (foldOpts 5) (loadControl fold) (9 / 10) 1 false false false s).2 =
      .ok .notConverged := by
  decide +kernel

/-- **C43**: without bisection the only failures reported are those of assembly and of the linear
solver, and what is returned otherwise is the status before the call. -/
theorem C43_noBisection (hB : o.spTolB = 0) (s : St K V Mat Fac) (U : V) (L : K)
    (sw j test : Bool) : ∃ t st, computeSingularPoint e o M U L sw j test s = (t, .ok st) ∧
      (st = s.status ∨ st = .assemblyError ∨ st = .solverError) := by
  have hq := quiet_noBisection (e := e) (M := M) hB U L sw j test
  rcases hr : computeSingularPointRaw e o M U L sw j test s with ⟨u, r⟩
  cases r with
  | ok _ => exact ⟨u, _, C43_violated_stale hB hr, Or.inl rfl⟩
  | error x =>
    rcases hq.errs s x (by rw [hr]) with rfl | rfl
    · exact ⟨_, _, C43_error hr (by simp), Or.inr (Or.inl rfl)⟩
    · exact ⟨_, _, C43_error hr (by simp), Or.inr (Or.inr rfl)⟩

open Demo in
/-- `C43_noBisection`: the assembly fails, and the status of the step before is returned. -/
example : (foldOpts 3).spTolB = 0 ∧
    (computeSingularPoint (env (-2 / 3) (fun n => n = 3) fine) (foldOpts 3) (loadControl fold) (9 / 10) 1 false false
      false near).2 = .ok .assemblyError ∧
    (computeSingularPoint fold (foldOpts 5) (loadControl fold) (9 / 10) 1 false false false
      { near with status := .notConverged }).2 = .ok .notConverged := by
  decide +kernel

/-! ## C76: the extended system -/

/-- What the test of convergence of the extended system looks at. -/
structure Probed (e : Env K V Mat Fac) (U : V) (L : K) (v : V) (s : St K V Mat Fac) : Prop where
  hU : s.U = U
  hL : s.L = L
  hv : s.v = v
  tangent : ∃ n, e.jacobian n (U + s.DU) s.dU = some s.jac
  measure : s.residueKTPhi = e.geo.norm (e.mul s.jac (v + s.DV))

/-- The point and the vector. -/
def pointV (s : St K V Mat Fac) : V × K × V := (s.U, s.L, s.v)

theorem framed_pointV : Framed (pointV : St K V Mat Fac → _) := by
  constructor <;> intros <;> rfl

theorem extendedBody_probed {s t : St K V Mat Fac} (h : extendedBody e s = (t, .ok ())) :
    Probed e s.U s.L s.v t ∧ t.numIt = s.numIt := by
  have hk := (framed_pointV.extendedBody (e := e) (fun _ _ => rfl) (fun _ _ _ _ => rfl)
    (fun _ _ _ _ => rfl) (fun _ _ => rfl)).run h
  simp only [pointV, Prod.mk.injEq] at hk
  unfold extendedBody at h
  obtain ⟨s1, ⟨⟩, h1, h⟩ := Act.bind_ok_inv h
  rw [Act.bind_ok (Act.modify_apply _ _), Act.bind_ok (Act.get_apply _)] at h
  have hn := (safe_extendedIteration (e := e)).kept h1
  obtain ⟨s2, ⟨⟩, h2, h⟩ := Act.bind_ok_inv h
  obtain ⟨hj, e2⟩ := refactorize_ok h2
  rw [Act.bind_ok (Act.modify_apply _ _), Act.bind_ok (Act.get_apply _)] at h
  obtain ⟨s3, r, h3, h⟩ := Act.bind_ok_inv h
  obtain ⟨-, e3⟩ := evalResidual_ok h3
  rw [Act.bind_ok (Act.modify_apply _ _)] at h
  have ht : t = { s2 with
      residueKTPhi := e.geo.norm (e.mul s2.jac (s2.v + s2.DV))
      resVec := t.resVec, residueF := t.residueF, residueU := t.residueU
      basisF := t.basisF, basisU := t.basisU, log := t.log } := by
    unfold computeResidualNorms at h
    simp only [Act.modify_apply, Prod.mk.injEq, and_true] at h
    rw [e3] at h
    rw [← h]
    split <;> rfl
  have hv : s2.v = s1.v ∧ s2.U = s1.U ∧ s2.DU = s1.DU + s1.dU ∧ s2.dU = s1.dU ∧
      s2.numIt = s1.numIt := by
    rw [e2]
    exact ⟨rfl, rfl, rfl, rfl, rfl⟩
  refine ⟨⟨hk.1, hk.2.1, hk.2.2, ?_, ?_⟩, ?_⟩
  · refine ⟨s1.log.length, ?_⟩
    rw [← hk.1, ht]
    simp only
    rw [hv.2.1, hv.2.2.1, hv.2.2.2.1]
    exact hj
  · rw [← hk.2.2, ht]
  · rw [ht]
    simp only
    rw [hv.2.2.2.2, hn.numIt]

/-- Outcome of the extended system. -/
structure Extended (e : Env K V Mat Fac) (o : Opts K) (U : V) (L : K) (v : V) (tol : K)
    (t : St K V Mat Fac) (b : Bool) : Prop where
  vector : t.v = v
  found : b = true → t.U = U + t.DU ∧ t.L = L + t.DL ∧
    (∃ n, e.jacobian n t.U t.dU = some t.jac) ∧ e.geo.norm (e.mul t.jac (v + t.DV)) < tol
  kept : b = false → o.spFail ≠ 1 → t.U = U ∧ t.L = L ∧ t.DU = 0 ∧ t.DL = 0 ∧ t.dU = 0 ∧ t.dL = 0
  moved : b = false → o.spFail = 1 → t.U = U + t.DU ∧ t.L = L + t.DL ∧
    (∃ n, e.jacobian n t.U t.dU = some t.jac) ∧ ¬e.geo.norm (e.mul t.jac (v + t.DV)) < tol

theorem extendedLoop_spec {tol : K} (rem : ℕ) {s t : St K V Mat Fac} {b : Bool}
    (hrem : s.numIt + rem = o.maxIt) (h0 : rem ≠ 0)
    (h : extendedLoop e o tol rem s = (t, .ok b)) : Extended e o s.U s.L s.v tol t b := by
  induction rem generalizing s with
  | zero => exact absurd rfl h0
  | succ rem ih =>
    rw [extendedLoop] at h
    obtain ⟨s1, ⟨⟩, h1, h⟩ := Act.bind_ok_inv h
    obtain ⟨hp, hn⟩ := extendedBody_probed h1
    rw [Act.bind_ok (Act.get_apply _)] at h
    obtain ⟨n, hj⟩ := hp.tangent
    by_cases hlt : s1.residueKTPhi < tol
    · rw [if_pos hlt] at h
      simp only [addIncrements, Act.bind_ok (Act.modify_apply _ _), Act.pure_apply, Prod.mk.injEq,
        Except.ok.injEq] at h
      obtain ⟨rfl, rfl⟩ := h
      refine ⟨hp.hv, fun _ => ⟨by simp only [hp.hU], by simp only [hp.hL], ⟨n, ?_⟩, ?_⟩, by simp,
        by simp⟩
      · simp only [hp.hU]
        exact hj
      · rw [← hp.measure]
        exact hlt
    · rw [if_neg hlt] at h
      by_cases hl : s1.numIt = o.maxIt - 1
      · rw [if_pos hl] at h
        by_cases hf : o.spFail = 1
        · rw [if_pos hf] at h
          simp only [addIncrements, Act.bind_ok (Act.modify_apply _ _), Act.pure_apply,
            Prod.mk.injEq, Except.ok.injEq] at h
          obtain ⟨rfl, rfl⟩ := h
          refine ⟨hp.hv, by simp, fun _ h => absurd hf h, fun _ _ => ⟨by simp only [hp.hU],
            by simp only [hp.hL], ⟨n, ?_⟩, ?_⟩⟩
          · simp only [hp.hU]
            exact hj
          · rw [← hp.measure]
            exact hlt
        · rw [if_neg hf] at h
          simp only [clearIncrements, Act.bind_ok (Act.modify_apply _ _), Act.pure_apply,
            Prod.mk.injEq, Except.ok.injEq] at h
          obtain ⟨rfl, rfl⟩ := h
          exact ⟨hp.hv, by simp, fun _ _ => ⟨hp.hU, hp.hL, rfl, rfl, rfl, rfl⟩,
            fun _ h => absurd h hf⟩
      · rw [if_neg hl, Act.bind_ok (Act.modify_apply _ _)] at h
        have := ih (s := { s1 with numIt := s1.numIt + 1 }) (by simp only; omega) (by omega) h
        simp only [hp.hU, hp.hL, hp.hv] at this
        exact this

/-- **C76**: what the extended system returns. If it reports convergence then the point moved by the
accumulated increments, `K(U) (v + Δv)` is smaller than the tolerance with the tangent at the new
point. If not, then point and load factor are the initial ones and the increments are zero, unless
`SingularPointFailure` is 1; then the point moved although the criterion is not met. The vector `v`
itself is not updated. -/
theorem C76_extended {s t : St K V Mat Fac} {U : V} {L tol : K} {b : Bool} (hmax : o.maxIt ≠ 0)
    (h : extendedSolve e o U L tol s = (t, .ok b)) : Extended e o U L s.v tol t b := by
  unfold extendedSolve at h
  rw [Act.bind_ok (Act.modify_apply _ _), Act.bind_ok (Act.get_apply _)] at h
  obtain ⟨s1, ⟨⟩, h1, h⟩ := Act.bind_ok_inv h
  obtain ⟨-, e1⟩ := refactorize_ok h1
  simp only [clearIncrements] at h
  rw [Act.bind_ok (Act.modify_apply _ _), Act.bind_ok (Act.modify_apply _ _)] at h
  have := extendedLoop_spec o.maxIt (by simp) hmax h
  rw [e1] at this
  exact this

open Demo in
example :
    let r := extendedSolve fold (foldOpts 5) (9 / 10) 1 (1 / 10) near
    (foldOpts 5).maxIt ≠ 0 ∧ r.2 = .ok true ∧ near.U ≠ r.1.U ∧ 1 < r.1.U ∧ r.1.U < 101 / 100 := by
  decide +kernel

open Demo in
example :
    let r := extendedSolve fold { foldOpts 1 with spFail := 1 } (9 / 10) 1 (1 / 100) near
    r.2 = .ok false ∧ 1 < r.1.U := by
  decide +kernel

open Demo in
/-- **C76** violated: equilibrium is not part of the convergence test. The extended system reports a
point on which the residual is more than ten times what a step would accept. -/
theorem C76_violated_equilibrium :
    let r := extendedSolve fold (foldOpts 5) (9 / 10) 1 (1 / 10) near
    r.2 = .ok true ∧ ∃ x, fold.residual 0 r.1.U r.1.L = some x ∧
      10 * (foldOpts 5).tolF * |r.1.L| < |x| := by
  refine ⟨by decide +kernel, _, rfl, by decide +kernel⟩

/-- **C76** violated: with `MaxIter` 0 the extended system reports convergence without any test. -/
theorem C76_violated_noIterations (hmax : o.maxIt = 0) {s t : St K V Mat Fac} {U : V} {L tol : K}
    {b : Bool} (h : extendedSolve e o U L tol s = (t, .ok b)) : b = true ∧ t.U = U ∧ t.L = L := by
  unfold extendedSolve at h
  rw [hmax, Act.bind_ok (Act.modify_apply _ _), Act.bind_ok (Act.get_apply _)] at h
  obtain ⟨s1, ⟨⟩, h1, h⟩ := Act.bind_ok_inv h
  obtain ⟨-, e1⟩ := refactorize_ok h1
  simp only [clearIncrements, extendedLoop, Act.bind_ok (Act.modify_apply _ _), Act.pure_apply,
    Prod.mk.injEq, Except.ok.injEq] at h
  obtain ⟨rfl, rfl⟩ := h
  rw [e1]
  exact ⟨rfl, rfl, rfl⟩

open Demo in
example : (foldOpts 0).maxIt = 0 ∧
    (extendedSolve fold (foldOpts 0) (9 / 10) 1 (1 / 10) near).2 = .ok true := by
  decide +kernel

/-- **C76**: the linearised constraint. One iteration makes the component of the vector along its
old direction 1, so that its length is at least 1: convergence is never that of a vanishing
vector. -/
theorem C76_normalised [IsStrictOrderedRing K] (hg : e.geo.Laws) {s t : St K V Mat Fac}
    (h : extendedIteration e s = (t, .ok ())) (hw : 0 < e.geo.dot (s.v + s.DV) (s.v + s.DV)) :
    ∃ vt vb, t.dV = t.dL • vt + vb ∧ t.v = s.v ∧ t.DV = s.DV ∧
      (e.geo.dot (s.v + s.DV) vt ≠ 0 →
        e.geo.dot (s.v + s.DV) (t.v + t.DV + t.dV) = e.geo.norm (s.v + s.DV) ∧
        1 ≤ e.geo.norm (t.v + t.DV + t.dV)) := by
  have hk : t.v = s.v ∧ t.DV = s.DV := by
    have hf : Framed (fun s : St K V Mat Fac => (s.v, s.DV)) := by constructor <;> intros <;> rfl
    have := (hf.extendedIteration (e := e) (fun _ _ => rfl) (fun _ _ _ _ => rfl)).run h
    simpa using this
  unfold extendedIteration at h
  rw [Act.bind_ok (Act.get_apply _)] at h
  obtain ⟨s1, r, h1, h⟩ := Act.bind_ok_inv h
  obtain ⟨-, e1⟩ := evalResidual_ok h1
  rw [Act.bind_ok (Act.modify_apply _ _)] at h
  obtain ⟨s2, ⟨⟩, h2, h⟩ := Act.bind_ok_inv h
  obtain ⟨-, e2⟩ := refactorize_ok h2
  obtain ⟨s3, ut, h3, h⟩ := Act.bind_ok_inv h
  rw [Act.bind_ok (Act.modify_apply _ _)] at h
  obtain ⟨s4, ub, h4, h⟩ := Act.bind_ok_inv h
  rw [Act.bind_ok (Act.modify_apply _ _)] at h
  obtain ⟨s5, je, h5, h⟩ := Act.bind_ok_inv h
  rw [Act.bind_ok (Act.get_apply _)] at h
  have hv5 : s5.v = s.v ∧ s5.DV = s.DV := by
    obtain ⟨-, e5⟩ := computeJacobianAt_ok h5
    have e4 := solveSystem_frame h4
    have e3 := solveSystem_frame h3
    rw [e5, e4]
    simp only
    rw [e3]
    simp only
    rw [e2, e1]
    exact ⟨rfl, rfl⟩
  obtain ⟨s6, ⟨⟩, h6, h⟩ := Act.bind_ok_inv h
  obtain ⟨s7, vt, h7, h⟩ := Act.bind_ok_inv h
  obtain ⟨s8, vb, h8, h⟩ := Act.bind_ok_inv h
  simp only [Act.modify_apply, Prod.mk.injEq, and_true] at h
  rw [hv5.1, hv5.2] at h
  refine ⟨vt, vb, by rw [← h], hk.1, hk.2, fun hd => ?_⟩
  rw [hk.1, hk.2]
  generalize s.v + s.DV = w at *
  have hn : 0 < e.geo.norm w := hg.sqrt_pos hw
  have hsq := hg.norm_sq w
  have hdL : t.dL * e.geo.dot w vt = -(e.geo.dot w vb) - e.geo.norm w * (e.geo.norm w - 1) := by
    rw [← h]
    simp only
    rw [hg.smul_left, hg.smul_left]
    field_simp
    ring
  have h1 : e.geo.dot w (w + t.dV) = e.geo.norm w := by
    have : t.dV = t.dL • vt + vb := by rw [← h]
    rw [this, hg.add_right, hg.add_right, hg.smul_right, ← hsq]
    linarith [hdL]
  refine ⟨h1, ?_⟩
  have h2 : 0 ≤ e.geo.dot ((w + t.dV) - (1 / e.geo.norm w) • w) ((w + t.dV) - (1 / e.geo.norm w) • w) :=
    hg.nonneg _
  have h3 : 1 ≤ e.geo.dot (w + t.dV) (w + t.dV) := by
    rw [hg.sub_left, hg.sub_right, hg.sub_right, hg.smul_left, hg.smul_left, hg.smul_right,
      hg.smul_right, hg.comm (w + t.dV) w, h1, ← hsq] at h2
    have h4 : 1 / e.geo.norm w * e.geo.norm w = 1 := by field_simp
    have h5 : 1 / e.geo.norm w * (1 / e.geo.norm w * e.geo.norm w ^ 2) = 1 := by field_simp
    rw [h4, h5] at h2
    linarith
  have h6 := hg.sqrt_mono zero_le_one h3
  rwa [hg.sqrt_eq zero_le_one (by ring : (1 : K) = 1 ^ 2)] at h6

open Demo in
example :
    let r := extendedIteration fold { near with v := 1 / 2 }
    r.2 = .ok () ∧ r.1.v + r.1.DV + r.1.dV = 1 := by
  decide +kernel

/-! ## C77: branch switching -/

theorem normalized_norm [IsStrictOrderedRing K] {g : Geo K V} (hg : g.Laws) {x : V}
    (hx : 0 < g.dot x x) : g.norm (normalized g x) = 1 := by
  have hn : 0 < g.norm x := hg.sqrt_pos hx
  change g.sqrt _ = 1
  refine hg.sqrt_eq zero_le_one ?_
  unfold normalized
  rw [if_pos hx, hg.smul_left, hg.smul_right, ← hg.norm_sq]
  have : 1 / g.norm x * (1 / g.norm x * g.norm x ^ 2) = 1 := by field_simp
  rw [this]
  ring

/-- **C77**: `switchBranch()` moves the point by exactly `1 / tau` along the vector, keeps the load
factor, and forgets the previous increment. -/
theorem C77_distance [IsStrictOrderedRing K] (hg : e.geo.Laws) {s t : St K V Mat Fac}
    (hv : 0 < e.geo.dot s.v s.v) (ht : 0 < o.tau) (h : switchBranch e o s = (t, .ok ())) :
    t.U = s.U + (1 / (o.tau * e.geo.norm s.v)) • s.v ∧ e.geo.norm (t.U - s.U) = 1 / o.tau ∧
      t.L = s.L ∧ t.DUold = 0 ∧ t.DLold = 0 := by
  have hn : 0 < e.geo.norm s.v := hg.sqrt_pos hv
  have h1 := normalized_norm hg hv
  simp only [switchBranch, Act.modify_apply, Prod.mk.injEq, and_true] at h
  subst h
  simp only
  rw [h1]
  refine ⟨?_, ?_, trivial, trivial, trivial⟩
  · unfold normalized
    rw [if_pos hv, smul_smul]
    congr 2
    field_simp
  · rw [add_sub_cancel_left]
    unfold Geo.norm at h1 ⊢
    rw [hg.smul_left, hg.smul_right]
    refine hg.sqrt_eq (by positivity) ?_
    have h2 : e.geo.dot (normalized e.geo s.v) (normalized e.geo s.v) = 1 := by
      have := hg.norm_sq (normalized e.geo s.v)
      unfold Geo.norm at this
      rw [h1] at this
      linarith
    rw [h2]
    ring

open Demo in
example :
    let r := switchBranch fold (foldOpts 5) { near with v := 4, DUold := 1, DLold := 1 }
    r.2 = .ok () ∧ r.1.U = 9 / 10 + 1 / 1000 ∧ r.1.DUold = 0 := by
  decide +kernel

/-- **C77**: the first step of Crisfield's method on the new branch uses the predictor without
previous increment, whatever happened before. -/
theorem C77_firstPredictor (hg : e.geo.dot 0 0 = 0) (s : St K V Mat Fac) :
    (switchBranch e o >>= fun _ => crPredictor e o) s =
    (switchBranch e o >>= fun _ => do
      assembleFactorize e
      computeUt e
      firstPredictor e o
      Act.modify fun s => { s with DU := s.DU + s.dU, DL := s.DL + s.dL }
      Act.modify fun s =>
        if o.angle = .iteration ∨ o.angle = .predictor then { s with DUold := s.DU, DLold := s.DL }
        else s) s := by
  simp only [switchBranch]
  rw [Act.bind_ok (Act.modify_apply _ _), Act.bind_ok (Act.modify_apply _ _)]
  unfold crPredictor
  have hf : Framed (fun s : St K V Mat Fac => (s.DUold, s.DLold)) := by
    constructor <;> intros <;> rfl
  generalize hs : ({ s with
    v := normalized e.geo s.v
    DU := (e.geo.norm (normalized e.geo s.v) / o.tau) • normalized e.geo s.v
    U := s.U + (e.geo.norm (normalized e.geo s.v) / o.tau) • normalized e.geo s.v
    DLold := 0, DUold := 0 } : St K V Mat Fac) = s0
  have h0 : (s0.DUold, s0.DLold) = (0, 0) := by rw [← hs]
  rw [Act.bind_apply, Act.bind_apply]
  rcases h1 : assembleFactorize e s0 with ⟨s1, r1⟩
  cases r1 with
  | error x => rfl
  | ok _ =>
    simp only
    rw [Act.bind_apply, Act.bind_apply]
    rcases h2 : computeUt e s1 with ⟨s2, r2⟩
    cases r2 with
    | error x => rfl
    | ok _ =>
      have k := ((hf.computeUt fun _ _ => rfl).run h2).trans ((hf.assembleFactorize).run h1)
      simp only [h0, Prod.mk.injEq] at k
      simp only
      rw [Act.bind_ok (Act.get_apply _), if_pos (by rw [k.1, k.2]; simp [hg])]

open Demo in
example : fold.geo.dot 0 0 = 0 := by decide +kernel

/-! ## C78: bisection stays on the path -/

/-- Points reached from `p` by successful steps whose lengths are `len` halved any number of
times, with constant length. -/
inductive Path (e : Env K V Mat Fac) (o : Opts K) (M : Method K V Mat Fac) (len : K)
    (p : V × K) : V × K → Prop
  | here : Path e o M len p p
  | more {s t : St K V Mat Fac} (k : ℕ) : Path e o M len p (s.U, s.L) → s.adaptive = false →
      s.len = len / 2 ^ k → step e o M s = (t, .ok .success) → Path e o M len p (t.U, t.L)

/-- A step in which the length is not adapted: it is accepted, or nothing has moved. -/
theorem step_constant (hM : IsMethod e o M) {s t : St K V Mat Fac} {r : Except Err Status}
    (ha : s.adaptive = false) (h : step e o M s = (t, r)) :
    ∃ st, r = .ok st ∧ t.adaptive = false ∧ t.len = s.len ∧
      (st = .success ∨ (t.U = s.U ∧ t.L = s.L)) := by
  rcases step_cases hM.lawful s with ⟨u, hr, hi, h'⟩ | ⟨u, x, hr, hx, h'⟩
  · rw [h'] at h
    simp only [Prod.mk.injEq] at h
    obtain ⟨rfl, rfl⟩ := h
    refine ⟨_, rfl, ?_, ?_, Or.inl rfl⟩
    all_goals
      obtain ⟨p, q, hc, hq⟩ := (stepRaw_spec hM.lawful hi hr).1 rfl
      have hu := hc.unfinished
      split at hq
      · rw [hq]
        first | exact hu.adaptive.trans ha | exact hu.len
      · simp only
        first
        | exact hq.adaptive.trans (hu.adaptive.trans ha)
        | rw [hq.len, hu.adaptive, ha]; exact hu.len
  · rw [h'] at h
    simp only [Prod.mk.injEq] at h
    obtain ⟨rfl, rfl⟩ := h
    by_cases hi : s.initialized = true
    · have hu := ((stepRaw_spec hM.lawful hi hr).2 x rfl).2.2.1
      exact ⟨_, rfl, hu.adaptive.trans ha, hu.len, Or.inr ⟨hu.U, hu.L⟩⟩
    · have hi' : s.initialized = false := by simpa using hi
      have : stepRaw e o M s = ({ s with log := .failedAssert :: s.log }, .error .other) :=
        Act.bind_error (beginStep_not_initialized hi')
      rw [hr] at this
      simp only [Prod.mk.injEq] at this
      rw [this.1]
      exact ⟨_, rfl, ha, rfl, Or.inr ⟨rfl, rfl⟩⟩

/-- Length settings and point. -/
def lengthsPoint (s : St K V Mat Fac) : (K × Bool) × V × K := (lengths s, point s)

theorem framed_lengthsPoint : Framed (lengthsPoint : St K V Mat Fac → _) := by
  constructor <;> intros <;> rfl

theorem bisectionLoop_path (hM : IsMethod e o M) {len : K} {p : V × K} {ref tol : K} (rem : ℕ) :
    ∀ {s t : St K V Mat Fac} {Uold : V} {Lold : K} {fa : ℕ} {r : Except Err Bool} (k : ℕ),
      s.adaptive = false → s.len = len / 2 ^ k → Path e o M len p (Uold, Lold) →
      Path e o M len p (s.U, s.L) → bisectionLoop e o M ref tol rem Uold Lold fa s = (t, r) →
      Path e o M len p (t.U, t.L) := by
  induction rem with
  | zero =>
    intro s t Uold Lold fa r k ha hl h1 h2 h
    simp only [bisectionLoop, Act.pure_apply, Prod.mk.injEq] at h
    rw [← h.1]
    exact h2
  | succ rem ih =>
    intro s t Uold Lold fa r k ha hl h1 h2 h
    rw [bisectionLoop, Act.bind_ok (Act.modify_apply _ _)] at h
    rcases hs : step e o M { s with U := Uold, L := Lold } with ⟨s1, r1⟩
    obtain ⟨st, rfl, ha1, hl1, hc⟩ := step_constant hM (by exact ha) hs
    rw [Act.bind_ok hs, Act.bind_ok (Act.get_apply _)] at h
    have p1 : Path e o M len p (s1.U, s1.L) := by
      rcases hc with rfl | ⟨hU, hL⟩
      · exact Path.more (s := { s with U := Uold, L := Lold }) k h1 ha hl hs
      · rw [hU, hL]
        exact h1
    have hl1' : s1.len = len / 2 ^ k := hl1.trans hl
    have hlp : lengthsPoint s1 = ((len / 2 ^ k, false), s1.U, s1.L) := by
      simp [lengthsPoint, lengths, point, ha1, hl1']
    rcases Act.bind_cases h with ⟨s2, fb, g2, h⟩ | ⟨x, g2, rfl⟩
    swap
    · have := (framed_lengthsPoint.objective s1.U true).run g2
      rw [hlp] at this
      simp only [lengthsPoint, lengths, point, Prod.mk.injEq] at this
      rw [this.2.1, this.2.2]
      exact p1
    have e2 := (framed_lengthsPoint.objective s1.U true).run g2
    rw [hlp] at e2
    simp only [lengthsPoint, lengths, point, Prod.mk.injEq] at e2
    obtain ⟨⟨l2, a2⟩, u2, v2⟩ := e2
    obtain ⟨s3, k', g3, l3, a3, u3, v3⟩ : ∃ s3 k', (if fa = fb ∧ st = .success then pure ()
        else Act.modify fun s : St K V Mat Fac => { s with len := s.len / 2 }) s2 = (s3, .ok ()) ∧
        s3.len = len / 2 ^ k' ∧ s3.adaptive = false ∧ s3.U = s1.U ∧ s3.L = s1.L := by
      split
      · exact ⟨s2, k, rfl, l2, a2, u2, v2⟩
      · refine ⟨_, k + 1, rfl, ?_, a2, u2, v2⟩
        simp only
        rw [l2, pow_succ, div_div]
    rw [Act.bind_ok g3, Act.bind_ok (Act.get_apply _)] at h
    rcases Act.bind_cases h with ⟨s4, term, g4, h⟩ | ⟨x, g4, rfl⟩
    swap
    · have := (framed_point.termination s3.U false).run g4
      simp only [point, Prod.mk.injEq] at this
      rw [this.1, this.2, u3, v3]
      exact p1
    have e4 := (framed_lengthsPoint.termination s3.U false).run g4
    simp only [lengthsPoint, lengths, point, Prod.mk.injEq] at e4
    obtain ⟨⟨l4, a4⟩, u4, v4⟩ := e4
    have p4 : Path e o M len p (s4.U, s4.L) := by
      rw [u4, v4, u3, v3]
      exact p1
    by_cases hb : below (ratio |term| |ref|) tol = true
    · rw [if_pos hb] at h
      simp only [Act.pure_apply, Prod.mk.injEq] at h
      rw [← h.1]
      exact p4
    · rw [if_neg hb] at h
      by_cases hc : fa = fb ∧ st = .success
      · rw [if_pos hc] at h
        refine ih k' (a4.trans a3) (l4.trans l3) ?_ p4 h
        rw [u3, v3]
        exact p1
      · rw [if_neg hc] at h
        exact ih k' (a4.trans a3) (l4.trans l3) h1 p4 h

/-- **C78**: whatever fails during the bisection, the point afterwards is the one it started from or
one reached from it by successful steps with the arc length halved some number of times. -/
theorem C78_path (hM : IsMethod e o M) {s t : St K V Mat Fac} {U : V} {L tol : K}
    {r : Except Err Bool} (h : bisectionSolve e o M U L tol s = (t, r)) :
    Path e o M s.len (U, L) (t.U, t.L) := by
  have hk : ∀ {α : Type} {m : Act (St K V Mat Fac) α} {s t : St K V Mat Fac} {q : Except Err α},
      Keeps point m → m s = (t, q) → t.U = s.U ∧ t.L = s.L := by
    intro α m s t q hm hr
    have := hm.run hr
    simpa [point] using this
  unfold bisectionSolve at h
  rw [Act.bind_ok (Act.modify_apply _ _), Act.bind_ok (Act.get_apply _)] at h
  simp only at h
  rw [Act.bind_ok (Act.modify_apply _ _)] at h
  rcases Act.bind_cases h with ⟨s1, ref, h1, h⟩ | ⟨x, h1, rfl⟩
  swap
  · obtain ⟨u, v⟩ := hk (framed_point.termination U true) h1
    rw [u, v]
    exact Path.here
  have k1 := (framed_lengthsPoint.termination U true).run h1
  simp only [lengthsPoint, lengths, point, Prod.mk.injEq] at k1
  rcases Act.bind_cases h with ⟨s2, fa, h2, h⟩ | ⟨x, h2, rfl⟩
  swap
  · obtain ⟨u, v⟩ := hk (framed_point.objective U false) h2
    rw [u, v, k1.2.1, k1.2.2]
    exact Path.here
  have k2 := (framed_lengthsPoint.objective U false).run h2
  simp only [lengthsPoint, lengths, point, Prod.mk.injEq] at k2
  have hloop : ∀ {s3 : St K V Mat Fac} {q : Except Err Bool},
      bisectionLoop e o M ref tol (o.maxIt - 1) U L fa s2 = (s3, q) →
      Path e o M s.len (U, L) (s3.U, s3.L) := by
    intro s3 q h3
    refine bisectionLoop_path hM (o.maxIt - 1) 0 (k2.1.2.trans k1.1.2) ?_ Path.here ?_ h3
    · rw [k2.1.1, k1.1.1]
      simp
    · rw [k2.2.1, k2.2.2, k1.2.1, k1.2.2]
      exact Path.here
  rcases Act.bind_cases h with ⟨s3, c, h3, h⟩ | ⟨x, h3, rfl⟩
  swap
  · exact hloop h3
  rw [Act.bind_ok (Act.modify_apply _ _)] at h
  obtain ⟨u, v⟩ := hk (framed_point.bisectionPower (fun _ _ => rfl) _ _ _) h
  rw [u, v]
  have := hloop h3
  exact this

open Demo in
example :
    let r := bisectionSolve fold { foldOpts 3 with tolF := 1 / 5, tolU := 1 / 5 } (loadControl fold)
      (1 / 2) (11 / 12) (1 / 2)
      { near with U := 1 / 2, L := 11 / 12, len := 1 / 4 }
    r.2.isOk = true ∧ r.1.U ≠ 1 / 2 ∧ r.1.L = 7 / 6 := by
  decide +kernel

end GsSA.ALM
