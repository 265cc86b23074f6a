import Mathlib.Algebra.Field.Rat
import Mathlib.Algebra.Order.Ring.Rat
import Mathlib.Algebra.Order.BigOperators.Group.Finset
import Mathlib.Data.List.Chain
import Mathlib.Data.Rat.Sqrt
import Mathlib.Tactic.NormNum
import Mathlib.Tactic.Ring
import Mathlib.Tactic.Linarith
import Verif.Static.DRSpec

/-!
# Properties C49 (dynamic relaxation), C50, C51, C80, C81, C82: `gsStaticDR`
-/

namespace GsSA.Static

open GsSA DR
open GsSA.ALM (Act Err Event)

set_option linter.unusedSectionVars false

variable {K ι : Type} [Field K] [LinearOrder K] [Fintype ι]

/-! ## The loop -/

namespace DR

/-- Rule for the loop: `P r s` holds at every loop head. -/
theorem loop_rule {e : DREnv K ι} {o : DROpts K} (P : ℤ → DRSt K ι → Prop)
    (hP : ∀ r s t f, P r s → Passed e o r s t f →
      P ((if resetsIn e o r s f then 0 else r) + 1) { t with numIt := t.numIt + 1 })
    {n : ℕ} {r : ℤ} {u t : DRSt K ι} {x : Except Err Unit} (hu : P r u)
    (hn : u.numIt + n = o.base.maxIt) (h1 : 1 ≤ n) (h : loop e o n r u = (t, x)) :
    (∃ r w w' f, P r w ∧ Passed e o r w w' f ∧ w.numIt < o.base.maxIt ∧
      ((converged e o w' = true ∧ x = .ok () ∧ t = { w' with U := w'.U + w'.DU }) ∨
       (converged e o w' = false ∧ w'.numIt + 1 = o.base.maxIt ∧ x = .error .notConverged ∧
        t = { w' with U := w'.U + w'.DU, log := .limit :: w'.log }))) ∨
    (∃ r w y, P r w ∧ body e o r w = (t, .error y) ∧ x = .error y) := by
  induction n generalizing r u with
  | zero => omega
  | succ n ih =>
    unfold loop at h
    rcases Act.bind_cases h with ⟨w', r', h2, h⟩ | ⟨y, h2, h⟩
    · obtain ⟨f, hp, rfl⟩ := body_ok h2
      rw [Act.bind_ok (Act.get_apply _)] at h
      cases hc : converged e o w' with
      | true =>
        simp only [hc, if_true, accept, Act.modify_apply, Prod.mk.injEq] at h
        exact .inl ⟨r, u, w', f, hu, hp, by omega, .inl ⟨hc, h.2.symm, h.1.symm⟩⟩
      | false =>
        simp only [hc, Bool.false_eq_true, if_false] at h
        split at h
        · rename_i hl
          simp only [accept, emit, Act.bind_apply, Act.modify_apply, Act.throw_apply,
            Prod.mk.injEq] at h
          exact .inl ⟨r, u, w', f, hu, hp, by omega, .inr ⟨hc, hl, h.2.symm, h.1.symm⟩⟩
        · rename_i hl
          rw [Act.bind_ok (Act.modify_apply _ _)] at h
          refine ih (hP _ _ _ _ hu hp) ?_ ?_ h
          · have := hp.num
            simp only
            omega
          · have := hp.num
            omega
    · exact .inr ⟨r, u, y, hu, h2, h⟩

/-- How `_solve` ends, for `maxIt ≥ 2`. -/
theorem solveRaw_rule {e : DREnv K ι} {o : DROpts K} (P : ℤ → DRSt K ι → Prop)
    {s t : DRSt K ι} {x : Except Err Unit} (hs : s.ready = true) (hm : 2 ≤ o.base.maxIt)
    (h0 : ∀ u, Started e s u → P 0 u)
    (hP : ∀ r s t f, P r s → Passed e o r s t f →
      P ((if resetsIn e o r s f then 0 else r) + 1) { t with numIt := t.numIt + 1 })
    (h : solveRaw e o s = (t, x)) :
    (∃ r w w' f, P r w ∧ Passed e o r w w' f ∧ w.numIt < o.base.maxIt ∧
      ((converged e o w' = true ∧ x = .ok () ∧ t = { w' with U := w'.U + w'.DU }) ∨
       (converged e o w' = false ∧ w'.numIt + 1 = o.base.maxIt ∧ x = .error .notConverged ∧
        t = { w' with U := w'.U + w'.DU, log := .limit :: w'.log }))) ∨
    (∃ y, x = .error y ∧ ((∃ r w, P r w ∧ body e o r w = (t, .error y)) ∨
      start e { s with Eks := [], peaks := [] } = (t, .error y))) := by
  rcases solveRaw_cases hs h with ⟨u, hu, h1⟩ | ⟨y, rfl, h1⟩
  · rw [if_neg (by omega)] at h1
    have hn := hu.num
    rcases loop_rule P hP (h0 u hu) (by omega) (by omega) h1 with h2 | ⟨r, w, y, h2, h3, rfl⟩
    · exact .inl h2
    · exact .inr ⟨y, rfl, .inl ⟨r, w, h2, h3⟩⟩
  · exact .inr ⟨y, rfl, .inr h1⟩

theorem solve_ok {e : DREnv K ι} {o : DROpts K} {s t : DRSt K ι} {st : Status}
    (h : solve e o s = (t, .ok st)) :
    ∃ u, solveRaw e o s = (u, .ok ()) ∧ t = { u with status := .success } ∧ st = .success := by
  unfold solve at h
  obtain ⟨u, ⟨⟩, h1, h⟩ := Act.bind_ok_inv h
  rw [Act.bind_ok (Act.modify_apply _ _), Act.bind_ok (Act.get_apply _)] at h
  simp only [Act.pure_apply, Prod.mk.injEq, Except.ok.injEq] at h
  exact ⟨u, h1, h.1.symm, h.2.symm⟩

theorem solve_error {e : DREnv K ι} {o : DROpts K} {s t : DRSt K ι} {x : Err} :
    solve e o s = (t, .error x) ↔ solveRaw e o s = (t, .error x) := by
  unfold solve
  rw [Act.bind_apply]
  rcases h : solveRaw e o s with ⟨u, r⟩
  cases r <;> simp [Act.bind_apply]

end DR

/-! ## Examples -/

namespace Demo

/-- One degree of freedom with mass 1 and the given residual; `Rat.sqrt` is exact for squares. -/
def drenv (f : ℕ → ℚ → Option ℚ) : DREnv ℚ (Fin 1) where
  mass _ := 1
  forcing _ := 1
  residual k _ u := (f k (u 0)).map fun x _ => x
  sqrt := Rat.sqrt

/-- Uninitialised members. -/
def drraw : DRSt ℚ (Fin 1) :=
  ⟨fun _ => 17, fun _ => 17, fun _ => 17, fun _ => 17, fun _ => 17, fun _ => 17, fun _ => 17, 17, true,
    17, 17, 17, 17, 17, 17, 17, [17], .otherError, true, [], []⟩

/-- Options: damping `c`, `ResetIt = p`. -/
def dropts (maxIt : ℕ) (c : ℚ) (p : ℤ) : DROpts ℚ :=
  ⟨⟨1 / 100, -1, -1, maxIt, 1⟩, c, 1, 1 / 100000, p⟩

/-- A new initialized object. -/
def drnew (f : ℕ → ℚ → Option ℚ) (o : DROpts ℚ) : DRSt ℚ (Fin 1) :=
  initializeSolver (drenv f) o (ctor (drenv f) drraw)

/-- Residual `1 - u`. -/
def drlin (_ : ℕ) (u : ℚ) : Option ℚ := some (1 - u)

end Demo

/-! ## C50 -/

/-- C50: `solve` never returns another status than `Success`; then `m_status` is `Success` as well. -/
theorem C50_returns {e : DREnv K ι} {o : DROpts K} {s t : DRSt K ι} {st : Status}
    (h : solve e o s = (t, .ok st)) : st = .success ∧ t.status = .success := by
  obtain ⟨u, -, rfl, rfl⟩ := solve_ok h
  exact ⟨rfl, rfl⟩

theorem DR.exact_loop {e : DREnv K ι} {o : DROpts K} (hm : o.base.maxIt ≠ 0) (n : ℕ) (r : ℤ) :
    Exact DRSt.log (loop e o n r) := by
  induction n generalizing r with
  | zero => simpa [loop, hm] using Exact.ret ()
  | succ n ih =>
    exact Exact.bind (exact_body e o r) fun _ => Exact.bind Exact.get fun _ =>
      Exact.ite (.modify fun _ => rfl) (Exact.ite
        (Exact.bind (.modify fun _ => rfl) fun _ => exact_throw rfl)
        (Exact.bind (.modify fun _ => rfl) fun _ => ih _))

/-- `_solve` of an initialized object. -/
def DR.readySolve (e : DREnv K ι) (o : DROpts K) : Act (DRSt K ι) Unit := do
  Act.modify fun s => { s with Eks := [], peaks := [] }
  start e
  Act.modify fun s => { s with Ek0 := s.Ek, Eks := [s.Ek], numIt := 1 }
  loop e o (if o.base.maxIt = 0 then intMax else o.base.maxIt - 1) 0

theorem DR.solveRaw_ready {e : DREnv K ι} {o : DROpts K} {s : DRSt K ι} (hs : s.ready = true) :
    solveRaw e o s = readySolve e o s := by
  unfold solveRaw readySolve
  rw [Act.bind_ok (Act.get_apply s), if_pos hs]

/-- C50: for `maxIt ≥ 1`, an initialized object either returns `Success`, and then no call of the residual
has failed and the limit was not reached, or an exception escapes, and the last thing recorded is its cause:
a failing residual (`AssemblyError`) or the iteration limit (`NotConverged`). The exception leaves the status
as it was: `status()` does not report the failure. -/
theorem C50_violated_status {e : DREnv K ι} {o : DROpts K} {s t : DRSt K ι}
    {r : Except Err Status} (hs : s.ready = true) (hm : o.base.maxIt ≠ 0)
    (h : solve e o s = (t, r)) :
    (r = .ok .success ∧ t.status = .success ∧ ∃ l, t.log = l ++ s.log ∧ ∀ y ∈ l, y.err = none) ∨
    (∃ x, r = .error x ∧ (x = .assembly ∨ x = .notConverged) ∧ t.status = s.status ∧
      (∃ y l, t.log = y :: (l ++ s.log) ∧ y.err = some x ∧ ∀ z ∈ l, z.err = none)) := by
  have hE : Exact DRSt.log (readySolve e o) :=
    Exact.bind (.modify fun _ => rfl) fun _ => Exact.bind (exact_start e) fun _ =>
      Exact.bind (.modify fun _ => rfl) fun _ => exact_loop hm _ _
  have hloop : ∀ n r, Errs (fun x => x = .assembly ∨ x = .notConverged) (loop e o n r) := by
    intro n
    induction n with
    | zero => intro r; simpa [loop, hm] using Errs.ret ()
    | succ n ih =>
      intro r
      exact Errs.bind ((errs_body e o r).mono fun _ => .inl) fun _ => Errs.bind Errs.get fun _ =>
        Errs.ite (.modify _)
        (Errs.ite (Errs.bind (.modify _) fun _ => Errs.bind (.modify _) fun _ => .throw (.inr rfl))
          (Errs.bind (.modify _) fun _ => ih _))
  have hErr : Errs (fun x => x = .assembly ∨ x = .notConverged) (readySolve e o) :=
    Errs.bind (.modify _) fun _ => Errs.bind ((errs_start e).mono fun _ => .inl) fun _ =>
      Errs.bind (.modify _) fun _ => hloop _ _
  cases r with
  | ok st =>
    obtain ⟨u, h1, rfl, rfl⟩ := solve_ok h
    rw [solveRaw_ready hs] at h1
    obtain ⟨l, h2, h3⟩ := hE.ok h1
    exact .inl ⟨rfl, rfl, l, h2, h3⟩
  | error x =>
    have h1 := solve_error.1 h
    have hk := (keeps_solveRaw e o).run h1
    simp only [fixed, Prod.mk.injEq] at hk
    rw [solveRaw_ready hs] at h1
    exact .inr ⟨x, rfl, hErr.run h1, hk.2.2.2.1, hE.error h1⟩

/-- A residual failing in its third call, and an iteration limit of 4: the exceptions escape, and the status
is still `NotStarted`. -/
example :
    let r := solve (Demo.drenv fun k u => if k = 2 then none else some (1 - u)) (Demo.dropts 3 1 (-1))
      (Demo.drnew Demo.drlin (Demo.dropts 3 1 (-1)))
    let r' := solve (Demo.drenv Demo.drlin) (Demo.dropts 3 1 (-1))
      (Demo.drnew Demo.drlin (Demo.dropts 3 1 (-1)))
    r.2 = .error .assembly ∧ r.1.status = .notStarted ∧
    r'.2 = .error .notConverged ∧ r'.1.status = .notStarted := by
  decide +kernel

/-- C50, violation: with `maxIt = 1` no iteration is made, but the result is `Success`; `solution()` is the
starting point. -/
theorem C50_violated_single {e : DREnv K ι} {o : DROpts K} {s : DRSt K ι} {f : ι → K}
    (hs : s.ready = true) (hm : o.base.maxIt = 1) (hh : s.headstart = false)
    (hf : e.residual s.log.length s.L s.U = some f) :
    (solve e o s).2 = .ok .success ∧ (solve e o s).1.U = s.U := by
  simp [solve, solveRaw, Act.bind_apply, hs, hm, start, hh, computeResidual, hf, emit, loop]

example : (solve (Demo.drenv Demo.drlin) (Demo.dropts 1 1 (-1))
    (Demo.drnew Demo.drlin (Demo.dropts 1 1 (-1)))).2 = .ok .success := by decide +kernel

/-- C50: solving without `initialize` is undefined: the options have not been read. -/
theorem C50_violated_uninitialized {e : DREnv K ι} {o : DROpts K} (s : DRSt K ι) :
    (solve e o (ctor e s)).2 = .error .ub := by
  simp [solve, solveRaw, Act.bind_apply, ctor, reset]

section Ordered

variable [IsStrictOrderedRing K]

theorem DR.energy_nonneg {e : DREnv K ι} (hM : ∀ i, 0 ≤ e.mass i) (v : ι → K) : 0 ≤ energy e v := by
  refine Finset.sum_nonneg fun i _ => ?_
  have := mul_nonneg (hM i) (mul_self_nonneg (v i))
  linarith [show v i * (e.mass i * v i) = e.mass i * (v i * v i) by ring]

/-- C50, violation: from a point of equilibrium (the residual at the starting point is zero) the solver never
succeeds, since the initial kinetic energy is zero: for `maxIt ≥ 2` and non-negative masses an exception
escapes. -/
theorem C50_violated_equilibrium {e : DREnv K ι} {o : DROpts K} {s : DRSt K ι}
    (hM : ∀ i, 0 ≤ e.mass i) (hm : 2 ≤ o.base.maxIt)
    (hh : s.headstart = false) (hf : ∀ k f, e.residual k s.L s.U = some f → f = 0) :
    ∃ x, (solve e o s).2 = .error x := by
  rcases h : solve e o s with ⟨t, r⟩
  cases r with
  | error x => exact ⟨x, rfl⟩
  | ok st =>
    exfalso
    obtain ⟨u, h1, -⟩ := solve_ok h
    have hs : s.ready = true := by
      by_contra hs
      simp [solveRaw, Act.bind_apply, hs] at h1
    have h0 : ∀ w, Started e s w → w.Ek0 = 0 := by
      intro w hw
      obtain ⟨k, f, h2, h3, -⟩ := hw.res
      rw [hh] at h2
      have : f = 0 := hf k f (by simpa using h2)
      rw [hw.ek0, hw.ek, hw.vdu, h3, this]
      simp [energy]
    rcases solveRaw_rule (P := fun _ w => w.Ek0 = 0) hs hm h0
      (fun r w w' f hw hp => hp.ek0.trans hw) h1 with
      ⟨r, w, w', f, hw, hp, -, ⟨hc, -⟩ | ⟨-, -, hx, -⟩⟩ | ⟨y, hx, -⟩
    · simp only [converged, Bool.and_eq_true] at hc
      have h2 := hc.1.2
      rw [hp.ek0, hw] at h2
      simp only [quotLt, if_true, decide_eq_true_eq] at h2
      refine absurd h2 (not_lt.2 ?_)
      cases hr : resetsIn e o r w f with
      | true => rw [(hp.reset hr).2.1]
      | false => rw [(hp.plain hr).2.2.2.1]; exact energy_nonneg hM _
    · simp at hx
    · simp at hx

/-- Start in the solution `u = 1`. -/
example : (solve (Demo.drenv Demo.drlin) (Demo.dropts 9 1 (-1))
    (setDisplacement (Demo.drnew Demo.drlin (Demo.dropts 9 1 (-1))) fun _ => 1)).2 =
    .error .notConverged := by decide +kernel

/-! ## C51 -/

/-- C51: on `Success` with `maxIt ≥ 2`, `energies()` has one entry more than there were iterations, and all
are non-negative for non-negative masses; the energy and update criteria hold for the last values; the
residual criterion holds for the damped residual `f - c·w` of the configuration `U + D` before the last
iteration, while `solution()` is `U + update()`, where `update()` is `D` plus the last increment. -/
theorem C51_success {e : DREnv K ι} {o : DROpts K} {s t : DRSt K ι} {st : Status}
    (hs : s.ready = true) (hm : 2 ≤ o.base.maxIt) (h : solve e o s = (t, .ok st)) :
    t.Eks.length = t.numIt + 1 ∧ t.Eks.getLast? = some t.Ek ∧ t.Eks.head? = some t.Ek0 ∧
    1 ≤ t.numIt ∧ t.numIt < o.base.maxIt ∧
    ((∀ i, 0 ≤ e.mass i) → ∀ x ∈ t.Eks, 0 ≤ x) ∧
    quotLt t.Ek t.Ek0 o.tolE = true ∧
    quotLt (norm e t.du) (norm e t.DU) o.base.theTolU = true ∧
    t.U = s.U + t.DU ∧ t.L = s.L ∧
    ∃ (k : ℕ) (D w f : ι → K), e.residual k s.L (s.U + D) = some f ∧
      quotLt (norm e fun i => f i - s.damp i * w i) t.residualIni o.base.theTolF = true ∧
      (t.DU = D + t.du ∨ t.DU = D + (fun i => w i + s.massInv i * (f i - s.damp i * w i)) + t.du) := by
  obtain ⟨u, h1, rfl, -⟩ := solve_ok h
  let P : ℤ → DRSt K ι → Prop := fun _ w => w.Eks.length = w.numIt ∧ w.Eks.head? = some w.Ek0 ∧
      1 ≤ w.numIt ∧ ((∀ i, 0 ≤ e.mass i) → ∀ x ∈ w.Eks, 0 ≤ x) ∧ w.U = s.U ∧ fixed w = fixed s
  have h0 : ∀ w, Started e s w → P 0 w := by
    intro w hw
    refine ⟨by rw [hw.eks, hw.num]; rfl, by rw [hw.eks, hw.ek0]; rfl, by rw [hw.num], ?_, hw.hU, hw.fix⟩
    intro hM x hx
    rw [hw.eks, List.mem_singleton] at hx
    rw [hx, hw.ek]
    exact energy_nonneg hM _
  have hP : ∀ r w w' f, P r w → Passed e o r w w' f →
      P ((if resetsIn e o r w f then 0 else r) + 1) { w' with numIt := w'.numIt + 1 } := by
    rintro r w w' f ⟨p1, p2, p3, p4, p5, p6⟩ hp
    refine ⟨?_, ?_, Nat.le_add_left 1 _, ?_, hp.hU.trans p5, hp.fix.trans p6⟩
    · rw [hp.eks, hp.num, List.length_append, p1]; rfl
    · rw [hp.eks, hp.ek0, List.head?_append, p2]; rfl
    · intro hM x hx
      rw [hp.eks] at hx
      rcases List.mem_append.1 hx with hx | hx
      · exact p4 hM x hx
      · rw [List.mem_singleton.1 hx]
        cases hr : resetsIn e o r w f with
        | true => rw [(hp.reset hr).2.1]
        | false => rw [(hp.plain hr).2.2.2.1]; exact energy_nonneg hM _
  rcases solveRaw_rule P hs hm h0 hP h1
    with ⟨r, w, w', f, ⟨p1, p2, p3, p4, p5, p6⟩, hp, hlt, ⟨hc, -, rfl⟩ | ⟨-, -, hx, -⟩⟩ | ⟨y, hx, -⟩
  · simp only [converged, Bool.and_eq_true] at hc
    have hfix := hp.fix.trans p6
    simp only [fixed, Prod.mk.injEq] at hfix p6
    simp only
    have hne : w.Eks ≠ [] := by
      intro h0
      rw [h0] at p2
      simp at p2
    refine ⟨?_, ?_, ?_, ?_, ?_, fun hM x hx => ?_, hc.1.2, hc.2, ?_, hfix.2.2.1, ?_⟩
    · rw [hp.eks, hp.num, List.length_append, p1]; rfl
    · rw [hp.eks, List.getLast?_append]; simp
    · rw [hp.eks, hp.ek0, List.head?_append, p2]; rfl
    · rw [hp.num]; exact p3
    · rw [hp.num]; exact hlt
    · rw [hp.eks] at hx
      rcases List.mem_append.1 hx with hx | hx
      · exact p4 hM x hx
      · rw [List.mem_singleton.1 hx]
        cases hr : resetsIn e o r w f with
        | true => rw [(hp.reset hr).2.1]
        | false => rw [(hp.plain hr).2.2.2.1]; exact energy_nonneg hM _
    · rw [hp.hU, p5]
    · refine ⟨_, w.DU, w.v, f, by simpa [p6.2.2.1, p5] using hp.res, ?_, ?_⟩
      · have := hc.1.1
        rw [hp.rho] at this
        have hd : damped w f = fun i => f i - s.damp i * w.v i := by
          funext i; rw [damped, p6.2.1]
        rwa [hd] at this
      · cases hr : resetsIn e o r w f with
        | true =>
          obtain ⟨-, -, -, g, -, -, h5⟩ := hp.reset hr
          right
          have hd : newV w f = fun i => w.v i + s.massInv i * (f i - s.damp i * w.v i) := by
            funext i; simp only [newV, damped, p6.1, p6.2.1]
          rw [h5, hd]
        | false =>
          obtain ⟨-, h4, h5, -⟩ := hp.plain hr
          left
          rw [h5, h4]
  · simp at hx
  · simp at hx

/-- A solve which succeeds: damping 3/4, residual `1 - u`. -/
example :
    let o := Demo.dropts 50 (3 / 4) (-1)
    let r := solve (Demo.drenv Demo.drlin) o (Demo.drnew Demo.drlin o)
    r.2 = .ok .success ∧ r.1.Eks.length = r.1.numIt + 1 ∧ 3 ≤ r.1.numIt := by
  decide +kernel

/-- C51, violation: `Success` does not mean that the residual at `solution()` is small. The residual jumps
between the last two configurations: it is `1/1000` where it is tested and 100 at `solution()`, for a
tolerance `1/100`. -/
theorem C51_violated_residual :
    ∃ (f : ℚ → ℚ) (o : DROpts ℚ),
      let r := solve (Demo.drenv fun _ u => some (f u)) o (Demo.drnew (fun _ u => some (f u)) o)
      r.2 = .ok .success ∧ f (r.1.U 0) = 100 ∧ o.base.theTolF = 1 / 100 := by
  refine ⟨fun u => if u = 0 then 1 else if u = 1 / 2 then 1 / 1000 else
    if u = 501 / 1000 then 1 / 1000 else 100, Demo.dropts 9 1 (-1), ?_⟩
  decide +kernel

end Ordered

/-! ## C80 -/

/-- The counter `resetIt` and the iterations with a reset, at the loop head. -/
def DR.schedule (p : ℕ) (k : ℕ) : List ℕ := (List.range k).filter fun j => decide (1 < j) && (j - 1) % p == 0

theorem DR.schedule_succ (p k : ℕ) :
    schedule p (k + 1) = schedule p k ++ if 1 < k ∧ (k - 1) % p = 0 then [k] else [] := by
  unfold schedule
  rw [List.range_succ, List.filter_append]
  congr 1
  by_cases h : 1 < k ∧ (k - 1) % p = 0
  · rw [if_pos h]
    simp [h.1, h.2]
  · rw [if_neg h]
    rw [List.filter_eq_nil_iff]
    intro a ha
    rw [List.mem_singleton] at ha
    subst ha
    simpa using h

theorem DR.succ_mod (k p : ℕ) (hp : 1 ≤ p) :
    (k + 1) % p = if k % p + 1 = p then 0 else k % p + 1 := by
  have hlt := Nat.mod_lt k hp
  rw [← Nat.mod_add_mod]
  split
  · rename_i h; rw [h, Nat.mod_self]
  · exact Nat.mod_eq_of_lt (by omega)

/-- C80: with damping and `ResetIt = p ≥ 1`, the velocity is reset exactly in the iterations `p+1`, `2p+1`,
`3p+1`, … (not `p`, `2p`, …), whether the solve succeeds or reaches the limit. -/
theorem C80_period {e : DREnv K ι} {o : DROpts K} {s t : DRSt K ι} {p : ℕ} {r : Except Err Status}
    (hs : s.ready = true) (hm : 2 ≤ o.base.maxIt) (hc : o.damping ≠ 0) (hp : o.resetIt = p)
    (hp1 : 1 ≤ p) (h : solve e o s = (t, r)) (hr : r = .ok .success ∨ r = .error .notConverged) (j : ℕ) :
    j ∈ t.peaks ↔ 1 < j ∧ j ≤ t.numIt ∧ (j - 1) % p = 0 := by
  let P : ℤ → DRSt K ι → Prop := fun r w => w.peaks = DR.schedule p w.numIt ∧ 1 ≤ w.numIt ∧
    r = if w.numIt = 1 then 0 else (((w.numIt - 2) % p + 1 : ℕ) : ℤ)
  have step : ∀ r w w' f, P r w → Passed e o r w w' f →
      w'.peaks = DR.schedule p (w.numIt + 1) ∧
      (resetsIn e o r w f = true ↔ 1 < w.numIt ∧ (w.numIt - 1) % p = 0) := by
    rintro r w w' f ⟨p1, p2, p3⟩ hb
    have hiff : resetsIn e o r w f = true ↔ 1 < w.numIt ∧ (w.numIt - 1) % p = 0 := by
      simp only [resetsIn, hc, decide_false, Bool.false_and, Bool.false_or, decide_eq_true_eq, hp]
      rw [p3]
      split
      · rename_i h1
        rw [h1]
        constructor
        · intro h; omega
        · rintro ⟨h, -⟩; omega
      · rename_i h1
        obtain ⟨k, hk⟩ : ∃ k, w.numIt = k + 2 := ⟨w.numIt - 2, by omega⟩
        rw [hk]
        simp only [Nat.add_sub_cancel, Nat.cast_inj, show k + 2 - 1 = k + 1 by omega]
        rw [DR.succ_mod k p hp1]
        constructor
        · intro h; exact ⟨by omega, by rw [if_pos h]⟩
        · rintro ⟨-, h⟩
          by_contra h2
          rw [if_neg h2] at h
          omega
    refine ⟨?_, hiff⟩
    rw [DR.schedule_succ]
    cases hr : resetsIn e o r w f with
    | true => rw [if_pos (hiff.1 hr), (hb.reset hr).2.2.1, p1]
    | false =>
      rw [if_neg (fun hh => by rw [hiff.2 hh] at hr; simp at hr), (hb.plain hr).2.2.2.2, p1,
        List.append_nil]
  have h0 : ∀ w, Started e s w → P 0 w := by
    intro w hw
    refine ⟨?_, by rw [hw.num], by rw [hw.num]; rfl⟩
    rw [hw.peaks, hw.num]
    rfl
  have hP : ∀ r w w' f, P r w → Passed e o r w w' f →
      P ((if resetsIn e o r w f then 0 else r) + 1) { w' with numIt := w'.numIt + 1 } := by
    intro r w w' f hw hb
    obtain ⟨h1, h2⟩ := step r w w' f hw hb
    obtain ⟨-, p2, p3⟩ := hw
    refine ⟨by simp only [hb.num]; exact h1, Nat.le_add_left 1 _, ?_⟩
    simp only [hb.num]
    rw [if_neg (show ¬ w.numIt + 1 = 1 by omega), show w.numIt + 1 - 2 = w.numIt - 1 by omega]
    by_cases h3 : w.numIt = 1
    · rw [if_neg (by rw [h2]; omega), p3, if_pos h3, h3]
      simp
    · obtain ⟨k, hk⟩ : ∃ k, w.numIt = k + 2 := ⟨w.numIt - 2, by omega⟩
      rw [if_neg h3, hk, Nat.add_sub_cancel] at p3
      rw [hk, show k + 2 - 1 = k + 1 by omega]
      rw [hk, show k + 2 - 1 = k + 1 by omega] at h2
      by_cases h4 : (k + 1) % p = 0
      · rw [if_pos (h2.2 ⟨by omega, h4⟩), h4]
        rfl
      · rw [if_neg (fun hh => h4 (h2.1 hh).2)]
        have := DR.succ_mod k p hp1
        split at this
        · exact absurd this h4
        · rw [this, p3]
          push_cast
          ring
  have key : ∀ t x, solveRaw e o s = (t, x) → (x = .ok () ∨ x = .error .notConverged) →
      t.peaks = DR.schedule p (t.numIt + 1) := by
    intro t x hx hx'
    rcases solveRaw_rule P hs hm h0 hP hx with ⟨r, w, w', f, hw, hb, -, h1⟩ | ⟨y, rfl, h1⟩
    · have h2 := (step r w w' f hw hb).1
      rw [← hb.num] at h2
      rcases h1 with ⟨-, -, rfl⟩ | ⟨-, -, -, rfl⟩ <;> exact h2
    · exfalso
      have hy : y = .notConverged := by simpa using hx'
      subst hy
      rcases h1 with ⟨r, w, -, h1⟩ | h1
      · exact absurd ((DR.errs_body e o r).run h1) (by simp)
      · exact absurd ((DR.errs_start e).run h1) (by simp)
  have hmem : j ∈ DR.schedule p (t.numIt + 1) ↔ 1 < j ∧ j ≤ t.numIt ∧ (j - 1) % p = 0 := by
    simp only [DR.schedule, List.mem_filter, List.mem_range, Bool.and_eq_true, decide_eq_true_eq,
      beq_iff_eq]
    constructor
    · rintro ⟨h1, h2, h3⟩; exact ⟨h2, by omega, h3⟩
    · rintro ⟨h1, h2, h3⟩; exact ⟨by omega, h1, h3⟩
  rw [← hmem]
  rcases hr with rfl | rfl
  · obtain ⟨u, h1, rfl, -⟩ := solve_ok h
    rw [key _ _ h1 (.inl rfl)]
  · rw [key _ _ (solve_error.1 h) (.inr rfl)]

/-- `ResetIt = 3`, 12 iterations: resets in iterations 4, 7 and 10. -/
example :
    let o := { Demo.dropts 12 (1 / 10) 3 with tolE := 0 }
    (solve (Demo.drenv Demo.drlin) o (Demo.drnew Demo.drlin o)).1.peaks = [4, 7, 10] := by
  decide +kernel

/-- C80: with damping and a negative `ResetIt` (the default is -1) the velocity is never reset. -/
theorem C80_never {e : DREnv K ι} {o : DROpts K} {s t : DRSt K ι} {st : Status}
    (hs : s.ready = true) (hm : 2 ≤ o.base.maxIt) (hc : o.damping ≠ 0) (hp : o.resetIt < 0)
    (h : solve e o s = (t, .ok st)) : t.peaks = [] := by
  obtain ⟨u, h1, rfl, -⟩ := solve_ok h
  have hf : ∀ r w f, 0 ≤ r → resetsIn e o r w f = false := by
    intro r w f hr
    simp only [resetsIn, hc, decide_false, Bool.false_and, Bool.false_or, decide_eq_false_iff_not]
    omega
  let P : ℤ → DRSt K ι → Prop := fun r w => w.peaks = [] ∧ 0 ≤ r
  have hP : ∀ r w w' f, P r w → Passed e o r w w' f →
      P ((if resetsIn e o r w f then 0 else r) + 1) { w' with numIt := w'.numIt + 1 } := by
    intro r w w' f hw hb
    refine ⟨?_, ?_⟩
    · exact ((hb.plain (hf r w f hw.2)).2.2.2.2).trans hw.1
    · have := hw.2
      split <;> omega
  rcases solveRaw_rule P hs hm (fun w hw => ⟨hw.peaks, le_refl _⟩) hP h1
    with ⟨r, w, w', f, hw, hb, -, ⟨-, -, rfl⟩ | ⟨-, -, hx, -⟩⟩ | ⟨y, hx, -⟩
  · exact ((hb.plain (hf r w f hw.2)).2.2.2.2).trans hw.1
  · simp at hx
  · simp at hx

/-- C80: `ResetIt = 0` resets the velocity in the first iteration, and never again, if there is damping. -/
theorem C80_zero {e : DREnv K ι} {o : DROpts K} {s t : DRSt K ι} {st : Status}
    (hs : s.ready = true) (hm : 2 ≤ o.base.maxIt) (hc : o.damping ≠ 0) (hp : o.resetIt = 0)
    (h : solve e o s = (t, .ok st)) : t.peaks = [1] := by
  obtain ⟨u, h1, rfl, -⟩ := solve_ok h
  have hf : ∀ r w f, 0 < r → resetsIn e o r w f = false := by
    intro r w f hr
    simp only [resetsIn, hc, decide_false, Bool.false_and, Bool.false_or, decide_eq_false_iff_not]
    omega
  have ht : ∀ w f, resetsIn e o 0 w f = true := by
    intro w f
    simp [resetsIn, hp]
  let P : ℤ → DRSt K ι → Prop := fun r w => (r = 0 ∧ w.numIt = 1 ∧ w.peaks = []) ∨
    (0 < r ∧ w.peaks = [1])
  have step : ∀ r w w' f, P r w → Passed e o r w w' f → w'.peaks = [1] ∧ 0 ≤ r := by
    rintro r w w' f (⟨rfl, h1, h2⟩ | ⟨h1, h2⟩) hb
    · rw [(hb.reset (ht w f)).2.2.1, h1, h2]
      exact ⟨rfl, le_refl _⟩
    · rw [(hb.plain (hf r w f h1)).2.2.2.2, h2]
      exact ⟨rfl, h1.le⟩
  have hP : ∀ r w w' f, P r w → Passed e o r w w' f →
      P ((if resetsIn e o r w f then 0 else r) + 1) { w' with numIt := w'.numIt + 1 } := by
    intro r w w' f hw hb
    obtain ⟨h1, h2⟩ := step r w w' f hw hb
    refine .inr ⟨?_, h1⟩
    split <;> omega
  rcases solveRaw_rule P hs hm (fun w hw => .inl ⟨rfl, hw.num, hw.peaks⟩) hP h1
    with ⟨r, w, w', f, hw, hb, -, ⟨-, -, rfl⟩ | ⟨-, -, hx, -⟩⟩ | ⟨y, hx, -⟩
  · exact (step r w w' f hw hb).1
  · simp at hx
  · simp at hx

/-- `ResetIt = 0` and `ResetIt = -1`. -/
example :
    let o := Demo.dropts 99 (3 / 4) 0
    let o' := Demo.dropts 99 (3 / 4) (-1)
    let r := solve (Demo.drenv Demo.drlin) o (Demo.drnew Demo.drlin o)
    let r' := solve (Demo.drenv Demo.drlin) o' (Demo.drnew Demo.drlin o')
    r.2 = .ok .success ∧ r.1.peaks = [1] ∧ r'.2 = .ok .success ∧ r'.1.peaks = [] := by
  decide +kernel

/-! ## C81 -/

/-- C81: without damping (the default, kinetic damping) every entry of `energies()` is zero or not smaller
than the entry before it: whenever the energy drops the velocity is reset. -/
theorem C81_energies {e : DREnv K ι} {o : DROpts K} {s t : DRSt K ι} {st : Status}
    (hs : s.ready = true) (hm : 2 ≤ o.base.maxIt) (hc : o.damping = 0)
    (h : solve e o s = (t, .ok st)) : t.Eks.IsChain fun a b => b = 0 ∨ a ≤ b := by
  obtain ⟨u, h1, rfl, -⟩ := solve_ok h
  let P : ℤ → DRSt K ι → Prop := fun _ w => (w.Eks.IsChain fun a b => b = 0 ∨ a ≤ b) ∧
    w.Eks.getLast? = some w.Ek
  have step : ∀ r w w' f, P r w → Passed e o r w w' f → P r w' := by
    rintro r w w' f ⟨h1, h2⟩ hb
    refine ⟨?_, by rw [hb.eks]; simp⟩
    rw [hb.eks, List.isChain_append]
    refine ⟨h1, List.isChain_singleton _, ?_⟩
    intro a ha b hb'
    rw [h2] at ha
    simp only [Option.mem_def, Option.some.injEq, List.head?_cons] at ha hb'
    subst ha hb'
    cases hr : resetsIn e o r w f with
    | true => exact .inl (hb.reset hr).2.1
    | false =>
      rw [(hb.plain hr).2.2.2.1]
      simp only [resetsIn, hc, decide_true, Bool.true_and, Bool.or_eq_false_iff,
        decide_eq_false_iff_not, not_lt] at hr
      exact .inr hr.1
  have hP : ∀ r w w' f, P r w → Passed e o r w w' f →
      P ((if resetsIn e o r w f then 0 else r) + 1) { w' with numIt := w'.numIt + 1 } :=
    fun r w w' f hw hb => step r w w' f hw hb
  have h0 : ∀ w, Started e s w → P 0 w :=
    fun w hw => ⟨by rw [hw.eks]; exact List.isChain_singleton _, by rw [hw.eks]; rfl⟩
  rcases solveRaw_rule P hs hm h0 hP h1
    with ⟨r, w, w', f, hw, hb, -, ⟨-, -, rfl⟩ | ⟨-, -, hx, -⟩⟩ | ⟨y, hx, -⟩
  · exact (step r w w' f hw hb).1
  · simp at hx
  · simp at hx

/-- Kinetic damping at work: the residual `(1 - u)/2`. -/
example :
    let o := { Demo.dropts 99 0 (-1) with tolE := 1 / 10 }
    let r := solve (Demo.drenv fun _ u => some ((1 - u) / 2)) o (Demo.drnew Demo.drlin o)
    r.2 = .ok .success ∧ r.1.peaks ≠ [] := by
  decide +kernel

/-! ## C82 -/

/-- C82, violation: `reset()` restores the inverse mass without the factor `1/alpha` which `initialize()` has
put in: unless `alpha = 1`, solving after `reset()` uses other masses than solving after `initialize()`. -/
theorem C82_violated_reset {e : DREnv K ι} {o : DROpts K} (s : DRSt K ι) {i : ι}
    (ha : o.alpha ≠ 1) (ha0 : o.alpha ≠ 0) (hM : e.mass i ≠ 0) :
    (reset e (initializeSolver e o s)).massInv i ≠ (initializeSolver e o s).massInv i := by
  simp only [reset, initializeSolver]
  intro h
  apply ha
  have h1 : (e.mass i)⁻¹ ≠ 0 := inv_ne_zero hM
  have h2 : 1 / o.alpha = 1 := by
    have : (e.mass i)⁻¹ * (1 / o.alpha) = (e.mass i)⁻¹ * 1 := by rw [mul_one]; exact h.symm
    exact mul_left_cancel₀ h1 this
  rw [div_eq_one_iff_eq ha0] at h2
  exact h2.symm

/-- C82, positive part: with `alpha = 1` a `reset()` object equals an initialized one in everything `solve`
reads. -/
theorem C82_reset_one {e : DREnv K ι} {o : DROpts K} (s : DRSt K ι) (ha : o.alpha = 1) :
    reset e (initializeSolver e o s) = initializeSolver e o s := by
  simp [reset, initializeSolver, ha]

/-- With `alpha = 2` a problem which is solved after `initialize()` is not solved after `reset()`. -/
example :
    let f := fun _ u => some (1 - 5 * u)
    let o := { Demo.dropts 60 (3 / 4) (-1) with alpha := 2 }
    let r := solve (Demo.drenv f) o (Demo.drnew f o)
    let r' := solve (Demo.drenv f) o (reset (Demo.drenv f) (Demo.drnew f o))
    r.2 = .ok .success ∧ r'.2 = .error .notConverged := by
  decide +kernel

/-! ## C49 -/

/-- C49 for dynamic relaxation, violation: the constructor with an arc-length residual and `initialize` set
the load factor to 0. -/
theorem C49_violated_dr (e : DREnv K ι) (o : DROpts K) (s : DRSt K ι) :
    (ctorAL e s).L = 0 ∧ (initializeSolver e o (ctorAL e s)).L = 0 ∧
    (initializeSolver e o (setLoad (ctorAL e s) 1)).L = 0 := ⟨rfl, rfl, rfl⟩

/-- C49: a load set after `initialize` is used. -/
theorem C49_setLoad_dr {e : DREnv K ι} {o : DROpts K} {s t : DRSt K ι} {L : K} {r : Except Err Status}
    (h : solve e o (setLoad s L) = (t, r)) : t.L = L := by
  cases r with
  | ok st =>
    obtain ⟨u, h1, rfl, -⟩ := solve_ok h
    have := (keeps_solveRaw e o).run h1
    simp only [fixed, Prod.mk.injEq] at this
    exact this.2.2.1
  | error x =>
    have := (keeps_solveRaw e o).run (solve_error.1 h)
    simp only [fixed, Prod.mk.injEq] at this
    exact this.2.2.1

end GsSA.Static
