import Verif.ALM.Hoare

/-!
# What one arc-length step does
-/

namespace GsSA.ALM

open GsSA

set_option linter.unusedSectionVars false

variable {K V Mat Fac : Type} [Field K] [LinearOrder K] [AddCommGroup V] [Module K V]
variable {e : Env K V Mat Fac} {o : Opts K} {M : Method K V Mat Fac}

/-! ## The stability computation inside the step -/

/-- `t` differs from `s` only in what a stability computation writes. -/
def StabFrame (s t : St K V Mat Fac) : Prop :=
  t = { s with
    fac := t.fac, stabVec := t.stabVec, negatives := t.negatives, indicator := t.indicator
    stability := t.stability, status := t.status, log := t.log }

theorem factorizeMatrix_frame (m : Mat) (s : St K V Mat Fac) :
    ∃ b, (factorizeMatrix e m s).1 =
      { s with fac := (factorizeMatrix e m s).1.fac, log := .factor b :: s.log } := by
  unfold factorizeMatrix
  simp only [Act.bind_apply, Act.get_apply]
  split
  · exact ⟨true, rfl⟩
  · exact ⟨false, rfl⟩

/-- Events of a stability computation without a new Jacobian. -/
def Event.ofStab : Event → Prop
  | .factor _ => True
  | .eig _ => True
  | _ => False

theorem stabilityVector_frame (shift : K) (s : St K V Mat Fac) :
    (stabilityVector e o shift s).1 = { s with
      fac := (stabilityVector e o shift s).1.fac
      stabVec := (stabilityVector e o shift s).1.stabVec
      log := (stabilityVector e o shift s).1.log } ∧
    ∃ l, (stabilityVector e o shift s).1.log = l ++ s.log ∧ (∀ x ∈ l, x.ofStab) ∧
      (o.bifMethod ≠ .determinant → ∀ x ∈ l, x.err = none) := by
  unfold stabilityVector
  simp only [Act.bind_apply, Act.get_apply]
  split
  · next h =>
    obtain ⟨b, hb⟩ := factorizeMatrix_frame (e := e) s.jac s
    rcases hr : factorizeMatrix e s.jac s with ⟨t, r⟩
    rw [hr] at hb
    simp only at hb
    cases r with
    | error x =>
      simp only [Act.bind_apply, hr]
      refine ⟨?_, [.factor b], ?_, by simp [Event.ofStab], by simp [h]⟩
      · rw [hb]
      · rw [hb]; rfl
    | ok _ =>
      simp only [Act.bind_apply, hr, Act.modify_apply]
      refine ⟨?_, [.factor b], ?_, by simp [Event.ofStab], by simp [h]⟩
      · rw [hb]
      · rw [hb]; rfl
  · split
    · exact ⟨rfl, [.eig true], rfl, by simp [Event.ofStab], by simp [Event.err]⟩
    · exact ⟨rfl, [.eig false], rfl, by simp [Event.ofStab], by simp [Event.err]⟩
  · exact ⟨rfl, [], rfl, by simp, by simp⟩
  · exact ⟨rfl, [], rfl, by simp, by simp⟩

theorem stabilityVector_noUB (shift : K) (s : St K V Mat Fac) :
    (stabilityVector e o shift s).2 ≠ .error .ub := by
  unfold stabilityVector
  simp only [Act.bind_apply, Act.get_apply]
  split
  · rcases hr : factorizeMatrix e s.jac s with ⟨t, r⟩
    cases r with
    | error x =>
      have := (safe_factorizeMatrix e s.jac).noUB hr
      simpa [Act.bind_apply, hr] using this.1
    | ok _ => simp [Act.bind_apply, hr]
  · split <;> simp [Act.bind_apply, emit]
  · simp
  · simp

theorem computeStabilityRaw_frame (x : V) (shift : K) (s : St K V Mat Fac) :
    StabFrame s (computeStabilityRaw e o x false shift s).1 ∧
    (computeStabilityRaw e o x false shift s).2 ≠ .error .ub ∧
    (computeStabilityRaw e o x false shift s).1.status = s.status ∧
    ∃ l, (computeStabilityRaw e o x false shift s).1.log = l ++ s.log ∧ (∀ x ∈ l, x.ofStab) ∧
      (o.bifMethod ≠ .determinant → ∀ x ∈ l, x.err = none) := by
  unfold computeStabilityRaw
  simp only [Bool.false_eq_true, if_false, Act.bind_apply, Act.pure_apply]
  obtain ⟨h1, l, h2, h3, h4⟩ := stabilityVector_frame (e := e) (o := o) shift s
  have h5 := stabilityVector_noUB (e := e) (o := o) shift s
  rcases hr : stabilityVector e o shift s with ⟨t, r⟩
  rw [hr] at h1 h2 h5
  simp only at h1 h2 h5
  cases r with
  | error x =>
    refine ⟨?_, by simpa using h5, by simp only; rw [h1], l, by simpa using h2, h3, h4⟩
    simp only [StabFrame]
    rw [h1]
  | ok _ =>
    simp only [Act.get_apply]
    split
    · refine ⟨?_, by simp, by simp only [Act.throw_apply]; rw [h1], l, by simpa using h2, h3, h4⟩
      simp only [StabFrame, Act.throw_apply]
      rw [h1]
    · refine ⟨?_, by simp, by simp only [Act.modify_apply]; rw [h1], l, by simpa using h2, h3, h4⟩
      simp only [StabFrame, Act.modify_apply]
      rw [h1]

/-- Within the step the stability computation never fails, and touches nothing else. -/
theorem computeStability_frame (shift : K) (s : St K V Mat Fac) :
    ∃ t st, computeStability e o false shift s = (t, .ok st) ∧ StabFrame s t ∧
    ∃ l, t.log = l ++ s.log ∧ (∀ x ∈ l, x.ofStab) ∧
      (o.bifMethod ≠ .determinant → ∀ x ∈ l, x.err = none) := by
  obtain ⟨h1, h2, -, l, h3, h4, h5⟩ := computeStabilityRaw_frame (e := e) (o := o) s.U shift s
  change ∃ t st, caught _ _ s = (t, .ok st) ∧ _
  rcases hr : computeStabilityRaw e o s.U false shift s with ⟨t, r⟩
  rw [hr] at h1 h2 h3
  simp only at h1 h2 h3
  cases r with
  | ok _ =>
    refine ⟨_, _, caught_ok hr, ?_, l, h3, h4, h5⟩
    simp only [StabFrame] at h1 ⊢
    rw [h1]
  | error x =>
    refine ⟨_, _, caught_error hr (by rintro rfl; exact h2 rfl), ?_, l, h3, h4, h5⟩
    simp only [StabFrame] at h1 ⊢
    rw [h1]

/-! ## One iteration -/

/-- The members which an iteration keeps. -/
structure Kept (s t : St K V Mat Fac) : Prop where
  U : t.U = s.U
  L : t.L = s.L
  len : t.len = s.len
  lenPrev : t.lenPrev = s.lenPrev
  lenOri : t.lenOri = s.lenOri
  adaptive : t.adaptive = s.adaptive
  numIt : t.numIt = s.numIt
  converged : t.converged = s.converged
  stabilityPrev : t.stabilityPrev = s.stabilityPrev
  initialized : t.initialized = s.initialized
  Lguess : t.Lguess = s.Lguess
  basisF : t.basisF = s.basisF
  basisU : t.basisU = s.basisU

theorem Kept.rfl' (s : St K V Mat Fac) : Kept s s := by constructor <;> rfl

theorem Kept.trans {s t u : St K V Mat Fac} (h : Kept s t) (h' : Kept t u) : Kept s u := by
  constructor
  · exact h'.1.trans h.1
  · exact h'.2.trans h.2
  · exact h'.3.trans h.3
  · exact h'.4.trans h.4
  · exact h'.5.trans h.5
  · exact h'.6.trans h.6
  · exact h'.7.trans h.7
  · exact h'.8.trans h.8
  · exact h'.9.trans h.9
  · exact h'.10.trans h.10
  · exact h'.11.trans h.11
  · exact h'.12.trans h.12
  · exact h'.13.trans h.13

theorem Kept.of_core {s t : St K V Mat Fac} (h : core t = core s) : Kept s t := by
  simp only [core, Core.mk.injEq] at h
  obtain ⟨h1, h2, h3, h4, h5, h6, h7, h8, -, h9, -, h10, h11, h12, h13, -⟩ := h
  constructor <;> assumption

theorem Kept.of_stab {s t : St K V Mat Fac} (h : StabFrame s t) : Kept s t := by
  simp only [StabFrame] at h
  constructor <;> rw [h]

theorem Safe.kept {α : Type} {m : Act (St K V Mat Fac) α} (h : Safe m) {s t : St K V Mat Fac}
    {r : Except Err α} (hr : m s = (t, r)) : Kept s t := by
  have := h.core s
  rw [hr] at this
  exact Kept.of_core this

theorem Safe.coreEq {α : Type} {m : Act (St K V Mat Fac) α} (h : Safe m) {s t : St K V Mat Fac}
    {r : Except Err α} (hr : m s = (t, r)) : ALM.core t = ALM.core s := by
  have := h.core s
  rw [hr] at this
  exact this

theorem computeResidual_ok {s t : St K V Mat Fac} (h : computeResidual e s = (t, .ok ())) :
    ∃ r, e.residual s.log.length (s.U + s.DU) (s.L + s.DL) = some r ∧
      t = { s with resVec := r, log := .residual true :: s.log } := by
  unfold computeResidual evalResidual at h
  simp only [Act.bind_apply, Act.get_apply] at h
  cases hr : e.residual s.log.length (s.U + s.DU) (s.L + s.DL) with
  | none => simp [hr, Act.bind_apply, emit] at h
  | some r =>
    refine ⟨r, rfl, ?_⟩
    simp only [hr, Act.bind_apply, emit, Act.modify_apply, Act.pure_apply, Prod.mk.injEq] at h
    exact h.1.symm

/-- What holds at the convergence test. -/
structure Tested (e : Env K V Mat Fac) (t : St K V Mat Fac) : Prop where
  residual : ∃ n, e.residual n (t.U + t.DU) (t.L + t.DL) = some t.resVec
  residueF : t.residueF = ratio (e.geo.norm t.resVec) t.basisF
  residueU : t.residueU = ratio (e.geo.norm t.dU) t.basisU

theorem iterationBody_spec (hM : M.Lawful) {s t : St K V Mat Fac} {r : Except Err Unit}
    (hn : s.numIt ≠ 0) (h : iterationBody e o M s = (t, r)) :
    Kept s t ∧ (∀ x, r = .error x → x = .assembly ∨ x = .solver) ∧ (r = .ok () → Tested e t) := by
  have sq : Safe (if refreshes o s.numIt then M.quasiIteration else pure ()) :=
    Safe.ite hM.quasiIteration (Safe.ret ())
  unfold iterationBody at h
  rw [Act.bind_ok (Act.get_apply s)] at h
  rcases Act.bind_cases h with ⟨s1, ⟨⟩, h1, h⟩ | ⟨x, h1, rfl⟩
  swap
  · exact ⟨sq.kept h1, by have := sq.errs s; rw [h1] at this; exact this, by simp⟩
  have k1 := sq.kept h1
  rcases Act.bind_cases h with ⟨s2, ⟨⟩, h2, h⟩ | ⟨x, h2, rfl⟩
  swap
  · exact ⟨k1.trans (hM.iteration.kept h2),
      by have := hM.iteration.errs s1; rw [h2] at this; exact this, by simp⟩
  have k2 := k1.trans (hM.iteration.kept h2)
  obtain ⟨s3, st, h3, hf, -⟩ := computeStability_frame (e := e) (o := o) (-100) s2
  rw [Act.bind_ok h3] at h
  have k3 := k2.trans (Kept.of_stab hf)
  rcases Act.bind_cases h with ⟨s4, ⟨⟩, h4, h⟩ | ⟨x, h4, rfl⟩
  swap
  · exact ⟨k3.trans ((safe_computeResidual e).kept h4),
      by have := (safe_computeResidual e).errs s3; rw [h4] at this; exact this, by simp⟩
  have k4 := k3.trans ((safe_computeResidual e).kept h4)
  have hn4 : s4.numIt ≠ 0 := by rw [k4.numIt]; exact hn
  obtain ⟨rv, h5, h6⟩ := computeResidual_ok h4
  simp only [computeResidualNorms, Act.modify_apply, if_neg hn4, Prod.mk.injEq] at h
  obtain ⟨rfl, rfl⟩ := h
  refine ⟨k4.trans ?_, by simp, fun _ => ⟨⟨s3.log.length, ?_⟩, rfl, rfl⟩⟩
  · constructor <;> rfl
  · simp only
    rw [h6]
    exact h5

/-! ## The iterations -/

/-- A step from `s` (the state at the start of the iterations) that was accepted. -/
structure Accepted (e : Env K V Mat Fac) (o : Opts K) (s t : St K V Mat Fac) : Prop where
  U : t.U = s.U + t.DU
  L : t.L = s.L + t.DL
  Uprev : t.Uprev = s.U
  Lprev : t.Lprev = s.L
  converged : t.converged = true
  first : s.numIt ≤ t.numIt
  last : t.numIt < o.maxIt
  residual : ∃ n, e.residual n t.U t.L = some t.resVec
  residueF : t.residueF = ratio (e.geo.norm t.resVec) t.basisF
  residueU : t.residueU = ratio (e.geo.norm t.dU) t.basisU
  basisF : t.basisF = s.basisF
  basisU : t.basisU = s.basisU
  meets : meets o t = true
  len : t.len = if s.adaptive then s.len * lengthFactor o.desiredIt t.numIt else s.len
  lenPrev : t.lenPrev = s.len
  lenOri : t.lenOri = s.lenOri
  adaptive : t.adaptive = s.adaptive
  stabilityPrev : t.stabilityPrev = s.stabilityPrev
  initialized : t.initialized = s.initialized
  Lguess : t.Lguess = s.Lguess

/-- What a step that did not finish has left unchanged. -/
structure Unfinished (s t : St K V Mat Fac) : Prop where
  U : t.U = s.U
  L : t.L = s.L
  len : t.len = s.len
  lenPrev : t.lenPrev = s.lenPrev
  lenOri : t.lenOri = s.lenOri
  adaptive : t.adaptive = s.adaptive
  initialized : t.initialized = s.initialized
  Lguess : t.Lguess = s.Lguess

theorem Kept.unfinished {s t : St K V Mat Fac} (h : Kept s t) : Unfinished s t :=
  ⟨h.1, h.2, h.3, h.4, h.5, h.6, h.10, h.11⟩

theorem Unfinished.trans {s t u : St K V Mat Fac} (h : Unfinished s t) (h' : Unfinished t u) :
    Unfinished s u :=
  ⟨h'.1.trans h.1, h'.2.trans h.2, h'.3.trans h.3, h'.4.trans h.4, h'.5.trans h.5, h'.6.trans h.6,
    h'.7.trans h.7, h'.8.trans h.8⟩

theorem finishStep_spec (hM : M.Lawful) {s t : St K V Mat Fac} {r : Except Err Unit}
    (hn : s.numIt ≠ 0) (hlt : s.numIt < o.maxIt) (ht : Tested e s) (hm : meets o s = true)
    (h : finishStep o M s = (t, r)) : r = .ok () ∧ Accepted e o s t := by
  obtain ⟨DUold, DLold, hf⟩ := hM.finish s
  unfold finishStep at h
  rw [Act.bind_ok hf, Act.bind_ok (Act.get_apply _)] at h
  obtain ⟨n, hr⟩ := ht.residual
  by_cases ha : s.adaptive = true
  · simp only [ha, if_true, computeLength] at h
    rw [Act.bind_ok (Act.get_apply _)] at h
    simp only [hn, if_false, Act.modify_apply, Prod.mk.injEq] at h
    obtain ⟨rfl, rfl⟩ := h
    exact ⟨rfl, rfl, rfl, rfl, rfl, rfl, le_rfl, hlt, ⟨n, hr⟩, ht.residueF, ht.residueU, rfl, rfl,
      hm, by simp [ha], rfl, rfl, ha.symm, rfl, rfl, rfl⟩
  · simp only [ha, Bool.false_eq_true, if_false, Act.modify_apply, Prod.mk.injEq] at h
    obtain ⟨rfl, rfl⟩ := h
    refine ⟨rfl, rfl, rfl, rfl, rfl, rfl, le_rfl, hlt, ⟨n, hr⟩, ht.residueF, ht.residueU, rfl, rfl,
      hm, by simp [ha], rfl, rfl, ?_, rfl, rfl, rfl⟩
    simp only [Bool.not_eq_true] at ha
    exact ha.symm

theorem Accepted.of_kept {s s' t : St K V Mat Fac} (h : Accepted e o s' t) (k : Unfinished s s')
    (hn : s.numIt ≤ s'.numIt) (hF : s'.basisF = s.basisF) (hU : s'.basisU = s.basisU)
    (hp : s'.stabilityPrev = s.stabilityPrev) : Accepted e o s t where
  U := by rw [← k.U]; exact h.U
  L := by rw [← k.L]; exact h.L
  Uprev := by rw [← k.U]; exact h.Uprev
  Lprev := by rw [← k.L]; exact h.Lprev
  converged := h.converged
  first := hn.trans h.first
  last := h.last
  residual := h.residual
  residueF := h.residueF
  residueU := h.residueU
  basisF := h.basisF.trans hF
  basisU := h.basisU.trans hU
  meets := h.meets
  len := by rw [h.len, k.adaptive, k.len]
  lenPrev := by rw [h.lenPrev, k.len]
  lenOri := h.lenOri.trans k.lenOri
  adaptive := h.adaptive.trans k.adaptive
  stabilityPrev := h.stabilityPrev.trans hp
  initialized := h.initialized.trans k.initialized
  Lguess := h.Lguess.trans k.Lguess

theorem iterate_spec (hM : M.Lawful) (rem : ℕ) {s t : St K V Mat Fac} {r : Except Err Unit}
    (hn : s.numIt ≠ 0) (hr : s.numIt + rem = o.maxIt) (h : iterate e o M rem s = (t, r)) :
    (r = .ok () → if rem = 0 then t = s else Accepted e o s t) ∧
    (∀ x, r = .error x → x ≠ .ub ∧ Unfinished s t ∧ t.converged = s.converged ∧
      (x ≠ .other) ∧
      (x = .notConverged → t.numIt + 1 = o.maxIt ∧ meets o t = false ∧ Tested e t)) := by
  induction rem generalizing s with
  | zero =>
    simp only [iterate, Act.pure_apply, Prod.mk.injEq] at h
    obtain ⟨rfl, rfl⟩ := h
    simp
  | succ rem ih =>
    rw [iterate] at h
    rcases Act.bind_cases h with ⟨s1, ⟨⟩, h1, h⟩ | ⟨x, h1, rfl⟩
    swap
    · obtain ⟨k, h2, -⟩ := iterationBody_spec hM hn h1
      refine ⟨by simp, ?_⟩
      rintro y hy
      cases hy
      rcases h2 _ rfl with rfl | rfl <;> exact ⟨by simp, k.unfinished, k.converged, by simp, by simp⟩
    obtain ⟨k, -, ht⟩ := iterationBody_spec hM hn h1
    replace ht := ht rfl
    have hn1 : s1.numIt ≠ 0 := by rw [k.numIt]; exact hn
    have hlt : s1.numIt < o.maxIt := by rw [k.numIt]; omega
    rw [Act.bind_ok (Act.get_apply _)] at h
    by_cases hm : meets o s1 = true
    · rw [if_pos hm] at h
      obtain ⟨rfl, ha⟩ := finishStep_spec hM hn1 hlt ht hm h
      refine ⟨fun _ => ?_, by simp⟩
      simp only [Nat.succ_ne_zero, if_false]
      exact ha.of_kept k.unfinished k.numIt.ge k.basisF k.basisU k.stabilityPrev
    · rw [if_neg hm] at h
      by_cases hl : s1.numIt = o.maxIt - 1
      · rw [if_pos hl, Act.bind_ok (by rfl : emit .limit s1 = _)] at h
        simp only [Act.throw_apply, Prod.mk.injEq] at h
        obtain ⟨rfl, rfl⟩ := h
        refine ⟨by simp, ?_⟩
        rintro y hy
        cases hy
        refine ⟨by simp, ⟨k.1, k.2, k.3, k.4, k.5, k.6, k.10, k.11⟩, k.converged, by simp,
          fun _ => ⟨?_, ?_, ht.1, ht.2, ht.3⟩⟩
        · simp only
          omega
        · simp only [Bool.not_eq_true] at hm
          exact hm
      · rw [if_neg hl, Act.bind_ok (Act.modify_apply _ _)] at h
        have hk := k.numIt
        obtain ⟨i1, i2⟩ := ih (by simp) (by simp only; omega) h
        have u : Unfinished s { s1 with numIt := s1.numIt + 1 } :=
          ⟨k.1, k.2, k.3, k.4, k.5, k.6, k.10, k.11⟩
        refine ⟨fun hr' => ?_, fun x hx => ?_⟩
        · have := i1 hr'
          simp only [Nat.succ_ne_zero, if_false]
          have hrem : rem ≠ 0 := by omega
          rw [if_neg hrem] at this
          refine this.of_kept u ?_ k.basisF k.basisU k.stabilityPrev
          simp only
          omega
        · obtain ⟨j1, j2, j3, j4⟩ := i2 x hx
          exact ⟨j1, u.trans j2, j3.trans k.converged, j4⟩

/-! ## The whole step -/

/-- The step up to and including the predictor, from a solver that is initialised. -/
theorem beginStep_spec (hM : M.Lawful) {s t : St K V Mat Fac} {r : Except Err Unit}
    (hi : s.initialized = true) (h : beginStep e M s = (t, r)) :
    Unfinished s t ∧ t.converged = false ∧ t.numIt = 0 ∧ t.stability = s.stability ∧
      ∀ x, r = .error x → x = .assembly ∨ x = .solver := by
  unfold beginStep at h
  rw [Act.bind_ok (Act.get_apply s)] at h
  simp only [hi, Bool.true_eq_false, if_false] at h
  rw [Act.bind_ok (Act.pure_apply _ _), Act.bind_ok (Act.modify_apply _ _)] at h
  have sp : Safe (M.initiateStep >>= fun _ => Act.get >>= fun s =>
      if usesGuess e s = true then M.predictorGuess else M.predictor) :=
    Safe.bind hM.initiateStep fun _ => Safe.bind Safe.get fun _ =>
      Safe.ite hM.predictorGuess hM.predictor
  have hc := sp.core { s with converged := false, numIt := 0 }
  have he := sp.errs { s with converged := false, numIt := 0 }
  rw [h] at hc he
  simp only [core, Core.mk.injEq] at hc
  obtain ⟨h1, h2, h3, h4, h5, h6, h7, h8, h9, h10, h11, h12, h13, h14, h15, -⟩ := hc
  exact ⟨⟨h1, h2, h3, h4, h5, h6, h12, h13⟩, h8, h7, h9, he⟩

theorem beginStep_not_initialized {s : St K V Mat Fac} (hi : s.initialized = false) :
    beginStep e M s = ({ s with log := .failedAssert :: s.log }, .error .other) := by
  unfold beginStep
  rw [Act.bind_ok (Act.get_apply s), if_pos hi]
  exact Act.bind_error rfl

/-- What a step that ran to its end has done: `p` is the state after the predictor, `q` the state
when the iterations started. -/
structure Completed (e : Env K V Mat Fac) (o : Opts K) (M : Method K V Mat Fac)
    (s p q : St K V Mat Fac) : Prop where
  predictor : beginStep e M s = (p, .ok ())
  unfinished : Unfinished s q
  converged : q.converged = false
  numIt : q.numIt = 1
  stabilityPrev : q.stabilityPrev = s.stability
  basisF : q.basisF = e.geo.norm ((s.L + p.DL) • e.forcing)
  basisU : q.basisU = e.geo.norm p.DU

theorem stepRaw_spec (hM : M.Lawful) {s t : St K V Mat Fac} {r : Except Err Unit}
    (hi : s.initialized = true) (h : stepRaw e o M s = (t, r)) :
    (r = .ok () → ∃ p q, Completed e o M s p q ∧
      if o.maxIt ≤ 1 then t = q else Accepted e o q t) ∧
    (∀ x, r = .error x → x ≠ .ub ∧ x ≠ .other ∧ Unfinished s t ∧ t.converged = false ∧
      (x = .notConverged → t.numIt + 1 = o.maxIt ∧ meets o t = false ∧ Tested e t)) := by
  have sq : Safe (if o.quasi then M.quasiPredictor else pure ()) := Safe.iteBool hM.quasiPredictor
  unfold stepRaw at h
  rcases Act.bind_cases h with ⟨p, ⟨⟩, hp, h⟩ | ⟨x, hp, rfl⟩
  swap
  · obtain ⟨u, hc, -, -, he⟩ := beginStep_spec hM hi hp
    refine ⟨by simp, ?_⟩
    rintro y hy
    cases hy
    rcases he _ rfl with rfl | rfl <;> exact ⟨by simp, by simp, u, hc, by simp⟩
  obtain ⟨u, hc, hn, hst, -⟩ := beginStep_spec hM hi hp
  rcases Act.bind_cases h with ⟨s1, ⟨⟩, h1, h⟩ | ⟨x, h1, rfl⟩
  swap
  · have k := (safe_computeResidual e).kept h1
    refine ⟨by simp, ?_⟩
    rintro y hy
    cases hy
    rcases (safe_computeResidual e).errs p x (by rw [h1]) with rfl | rfl <;>
      exact ⟨by simp, by simp, u.trans k.unfinished, k.converged.trans hc, by simp⟩
  obtain ⟨rv, hrv, rfl⟩ := computeResidual_ok h1
  unfold computeResidualNorms at h
  rw [Act.bind_ok (Act.modify_apply _ _)] at h
  simp only [hn, if_true] at h
  rcases Act.bind_cases h with ⟨s2, ⟨⟩, h2, h⟩ | ⟨x, h2, rfl⟩
  swap
  · have k := sq.kept h2
    refine ⟨by simp, ?_⟩
    rintro y hy
    cases hy
    have u' := k.unfinished
    rcases sq.errs _ x (by rw [h2]) with rfl | rfl <;>
      exact ⟨by simp, by simp, u.trans ⟨u'.1, u'.2, u'.3, u'.4, u'.5, u'.6, u'.7, u'.8⟩,
        k.converged.trans hc, by simp⟩
  have k := sq.kept h2
  have hcore := sq.coreEq h2
  simp only [core, Core.mk.injEq] at hcore
  have u' := k.unfinished
  rw [Act.bind_ok (Act.modify_apply _ _)] at h
  have uq : Unfinished s { s2 with stabilityPrev := s2.stability, numIt := 1 } :=
    u.trans ⟨u'.1, u'.2, u'.3, u'.4, u'.5, u'.6, u'.7, u'.8⟩
  have cq : s2.converged = false := k.converged.trans hc
  by_cases hmax : o.maxIt ≤ 1
  · have h0 : o.maxIt - 1 = 0 := by omega
    rw [h0] at h
    simp only [iterate, Act.pure_apply, Prod.mk.injEq] at h
    obtain ⟨rfl, rfl⟩ := h
    refine ⟨fun _ => ⟨p, _, ⟨hp, uq, cq, rfl, ?_, ?_, ?_⟩, by rw [if_pos hmax]⟩, by simp⟩
    · simp only
      rw [hcore.2.2.2.2.2.2.2.2.1]
      exact hst
    · simp only
      rw [k.basisF]
      simp only [u.L]
    · simp only
      rw [k.basisU]
  · obtain ⟨i1, i2⟩ := iterate_spec hM (o.maxIt - 1) (by simp) (by simp only; omega) h
    refine ⟨fun hr => ⟨p, _, ⟨hp, uq, cq, rfl, ?_, ?_, ?_⟩, ?_⟩, fun x hx => ?_⟩
    · simp only
      rw [hcore.2.2.2.2.2.2.2.2.1]
      exact hst
    · simp only
      rw [k.basisF]
      simp only [u.L]
    · simp only
      rw [k.basisU]
    · have := i1 hr
      rw [if_neg (by omega)] at this
      rw [if_neg hmax]
      exact this
    · obtain ⟨j1, j2, j3, j4, j5⟩ := i2 x hx
      exact ⟨j1, j4, uq.trans j2, j3.trans cq, j5⟩

/-! ## Which events a step records -/

theorem grows_computeStability {bad : Event → Prop}
    (hb : ∀ x, bad x → x.err ≠ none ∧ (x.ofStab → o.bifMethod ≠ .determinant)) (shift : K) :
    Grows bad (computeStability e o false shift) := by
  intro s
  obtain ⟨t, st, h1, -, l, h2, h3, h4⟩ := computeStability_frame (e := e) (o := o) shift s
  refine ⟨l, by rw [h1]; exact h2, ?_⟩
  rw [h1]
  intro x hx hbad
  obtain ⟨h5, h6⟩ := hb x hbad
  exact h5 (h4 (h6 (h3 x hx)) x hx)

theorem grows_finish {bad : Event → Prop} (hM : M.Lawful) : Grows bad (finishStep o M) := by
  unfold finishStep
  refine Grows.bind (fun s => ?_) fun _ => Grows.bind Grows.get fun s => Grows.ite ?_ ?_
  · obtain ⟨a, b, h⟩ := hM.finish s
    exact ⟨[], by simp [h]⟩
  · unfold computeLength
    exact Grows.bind Grows.get fun _ => Grows.ite Grows.ub (Grows.modify fun _ => rfl)
  · exact Grows.modify fun _ => rfl

theorem grows_norms {bad : Event → Prop} : Grows bad (computeResidualNorms e) := by
  unfold computeResidualNorms
  refine Grows.modify fun s => ?_
  split <;> rfl

theorem Grows.fail {α : Type} {bad : Event → Prop} {x : Event} {err : Err} (h : x.err = some err)
    (h' : err ≠ .ub) :
    Grows bad (ALM.emit x >>= fun _ => (Act.throw err : Act (St K V Mat Fac) α)) := by
  intro s
  refine ⟨[x], rfl, ?_⟩
  simp only [Act.bind_apply, ALM.emit, Act.modify_apply, Act.throw_apply]
  cases err <;> simp_all

theorem grows_stepRaw (hM : M.Lawful) {bad : Event → Prop}
    (hb : ∀ x, bad x → x.err ≠ none ∧ (x.ofStab → o.bifMethod ≠ .determinant)) :
    Grows bad (stepRaw e o M) := by
  have hb' : ∀ x, bad x → x.err ≠ none := fun x hx => (hb x hx).1
  have hbody : Grows bad (iterationBody e o M) := by
    unfold iterationBody
    exact Grows.bind Grows.get fun s =>
      Grows.bind ((Safe.iteBool hM.quasiIteration).grows.mono hb') fun _ =>
      Grows.bind (hM.iteration.grows.mono hb') fun _ =>
      Grows.bind (grows_computeStability hb _) fun _ =>
      Grows.bind ((safe_computeResidual e).grows.mono hb') fun _ => grows_norms
  have hiter : ∀ rem, Grows bad (iterate e o M rem) := by
    intro rem
    induction rem with
    | zero => exact Grows.ret ()
    | succ rem ih =>
      rw [iterate]
      exact Grows.bind hbody fun _ => Grows.bind Grows.get fun s =>
        Grows.ite (grows_finish hM) (Grows.ite (Grows.fail rfl (by simp))
          (Grows.bind (Grows.modify fun _ => rfl) fun _ => ih))
  unfold stepRaw
  refine Grows.bind ?_ fun _ => Grows.bind ((safe_computeResidual e).grows.mono hb') fun _ =>
    Grows.bind grows_norms fun _ =>
    Grows.bind ((Safe.iteBool hM.quasiPredictor).grows.mono hb') fun _ =>
    Grows.bind (Grows.modify fun _ => rfl) fun _ => hiter _
  unfold beginStep
  exact Grows.bind Grows.get fun s =>
    Grows.bind (Grows.ite (Grows.fail rfl (by simp)) (Grows.ret ())) fun _ =>
    Grows.bind (Grows.modify fun _ => rfl) fun _ =>
    Grows.bind (hM.initiateStep.grows.mono hb') fun _ => Grows.bind Grows.get fun s =>
      Grows.ite (hM.predictorGuess.grows.mono hb') (hM.predictor.grows.mono hb')

/-- The outcome of `step` in terms of that of `_step`. -/
theorem step_cases (hM : M.Lawful) (s : St K V Mat Fac) :
    (∃ u, stepRaw e o M s = (u, .ok ()) ∧ s.initialized = true ∧
      step e o M s = ({ u with status := .success }, .ok .success)) ∨
    (∃ u x, stepRaw e o M s = (u, .error x) ∧ x ≠ .ub ∧
      step e o M s = ({ u with status := statusOf x }, .ok (statusOf x))) := by
  rcases hr : stepRaw e o M s with ⟨u, r⟩
  by_cases hi : s.initialized = true
  · cases r with
    | ok _ => exact Or.inl ⟨u, rfl, hi, caught_ok hr⟩
    | error x =>
      have := ((stepRaw_spec hM hi hr).2 x rfl).1
      exact Or.inr ⟨u, x, rfl, this, caught_error hr this⟩
  · have hi' : s.initialized = false := by simpa using hi
    have : stepRaw e o M s = ({ s with log := .failedAssert :: s.log }, .error .other) :=
      Act.bind_error (beginStep_not_initialized hi')
    rw [hr] at this
    simp only [Prod.mk.injEq] at this
    obtain ⟨rfl, rfl⟩ := this
    exact Or.inr ⟨_, .other, rfl, by simp, caught_error hr (by simp)⟩

end GsSA.ALM
