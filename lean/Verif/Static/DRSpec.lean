import Verif.Static.DR

/-!
# What the parts of `gsStaticDR` do
-/

namespace GsSA.Static.DR

open GsSA
open GsSA.ALM (Act Err Event)

set_option linter.unusedSectionVars false

variable {K ι : Type} [Field K] [LinearOrder K] [Fintype ι]

theorem computeResidual_ok {e : DREnv K ι} {U R : ι → K} {s t : DRSt K ι}
    (h : computeResidual e U s = (t, .ok R)) :
    e.residual s.log.length s.L U = some R ∧ t = { s with log := .residual true :: s.log } := by
  unfold computeResidual at h
  rw [Act.bind_ok (Act.get_apply s)] at h
  cases hr : e.residual s.log.length s.L U with
  | none => simp [hr, emit, Act.bind_apply] at h
  | some R' =>
    simp only [hr, emit, Act.bind_apply, Act.modify_apply, Act.pure_apply, Prod.mk.injEq,
      Except.ok.injEq] at h
    obtain ⟨rfl, rfl⟩ := h
    exact ⟨rfl, rfl⟩

theorem computeResidual_run {e : DREnv K ι} {U R : ι → K} {s : DRSt K ι}
    (h : e.residual s.log.length s.L U = some R) :
    computeResidual e U s = ({ s with log := .residual true :: s.log }, .ok R) := by
  simp [computeResidual, Act.bind_apply, h, emit]

/-! ## Failures are recorded -/

theorem exact_throw {α : Type} {x : Event} {e : Err} (h : x.err = some e) :
    Exact DRSt.log (do emit x; Act.throw e : Act (DRSt K ι) α) := by
  intro s
  exact ⟨[x], by simp [emit, Act.bind_apply, h]⟩

theorem exact_computeResidual (e : DREnv K ι) (U : ι → K) :
    Exact DRSt.log (computeResidual e U) := by
  refine Exact.bind Exact.get fun s => ?_
  cases e.residual s.log.length s.L U with
  | none => exact exact_throw rfl
  | some R =>
    refine Exact.bind (fun s => ?_) fun _ => .ret _
    exact ⟨[.residual true], by simp [emit, Event.err]⟩

theorem exact_start (e : DREnv K ι) : Exact DRSt.log (start e) := by
  refine Exact.bind (.modify fun _ => rfl) fun _ => Exact.bind Exact.get fun s =>
    Exact.bind (Exact.ite ?_ ?_) fun _ => Exact.bind (.modify fun _ => rfl) fun _ =>
    .modify fun _ => rfl
  · exact Exact.bind (exact_computeResidual e _) fun _ => Exact.bind (.modify fun _ => rfl) fun _ =>
      Exact.bind (exact_computeResidual e _) fun _ => .modify fun _ => rfl
  · exact Exact.bind (.modify fun _ => rfl) fun _ => Exact.bind (exact_computeResidual e _) fun _ =>
      .modify fun _ => rfl

theorem exact_iteration (e : DREnv K ι) : Exact DRSt.log (iteration e) :=
  Exact.bind (.modify fun _ => rfl) fun _ => Exact.bind Exact.get fun _ =>
    Exact.bind (exact_computeResidual e _) fun _ => Exact.bind (.modify fun _ => rfl) fun _ =>
    Exact.bind (.modify fun _ => rfl) fun _ => Exact.bind (.modify fun _ => rfl) fun _ =>
    .modify fun _ => rfl

theorem exact_peak (e : DREnv K ι) : Exact DRSt.log (peak e) :=
  Exact.bind Exact.get fun _ =>
    Exact.bind (exact_computeResidual e _) fun _ => Exact.bind (.modify fun _ => rfl) fun _ =>
    Exact.bind (.modify fun _ => rfl) fun _ => .modify fun _ => rfl

theorem exact_body (e : DREnv K ι) (o : DROpts K) (r : ℤ) : Exact DRSt.log (body e o r) :=
  Exact.bind (exact_iteration e) fun _ => Exact.bind Exact.get fun _ =>
    Exact.bind (Exact.ite (exact_peak e) (.ret _)) fun _ => Exact.bind (.modify fun _ => rfl) fun _ =>
    .ret _

theorem errs_computeResidual (e : DREnv K ι) (U : ι → K) :
    Errs (fun x => x = .assembly) (computeResidual e U) := by
  refine Errs.bind Errs.get fun s => ?_
  cases e.residual s.log.length s.L U with
  | none => exact Errs.bind (.modify _) fun _ => .throw rfl
  | some R => exact Errs.bind (.modify _) fun _ => .ret _

theorem errs_body (e : DREnv K ι) (o : DROpts K) (r : ℤ) :
    Errs (fun x => x = .assembly) (body e o r) := by
  refine Errs.bind ?_ fun _ => Errs.bind Errs.get fun _ => Errs.bind (Errs.ite ?_ (.ret _)) fun _ =>
    Errs.bind (.modify _) fun _ => .ret _
  · exact Errs.bind (.modify _) fun _ => Errs.bind Errs.get fun _ =>
      Errs.bind (errs_computeResidual e _) fun _ =>
      Errs.bind (.modify _) fun _ => Errs.bind (.modify _) fun _ => Errs.bind (.modify _) fun _ =>
      .modify _
  · exact Errs.bind Errs.get fun _ => Errs.bind (errs_computeResidual e _) fun _ =>
      Errs.bind (.modify _) fun _ => Errs.bind (.modify _) fun _ => .modify _

theorem errs_start (e : DREnv K ι) : Errs (fun x => x = .assembly) (start e) :=
  Errs.bind (.modify _) fun _ => Errs.bind Errs.get fun _ => Errs.bind (Errs.ite
    (Errs.bind (errs_computeResidual e _) fun _ => Errs.bind (.modify _) fun _ =>
      Errs.bind (errs_computeResidual e _) fun _ => .modify _)
    (Errs.bind (.modify _) fun _ => Errs.bind (errs_computeResidual e _) fun _ => .modify _))
    fun _ => Errs.bind (.modify _) fun _ => .modify _

/-! ## What is kept -/

theorem keeps_computeResidual {γ : Type} {f : DRSt K ι → γ} (hf : ∀ s l, f { s with log := l } = f s)
    (e : DREnv K ι) (U : ι → K) : Keeps f (computeResidual e U) := by
  refine Keeps.bind Keeps.get fun s => ?_
  cases e.residual s.log.length s.L U with
  | none => exact Keeps.bind (.modify fun _ => hf _ _) fun _ => .throw _
  | some R => exact Keeps.bind (.modify fun _ => hf _ _) fun _ => .ret _

/-- The members which no part of `solve` changes. -/
def fixed (s : DRSt K ι) : (ι → K) × (ι → K) × K × Status × Bool :=
  (s.massInv, s.damp, s.L, s.status, s.ready)

theorem keeps_start (e : DREnv K ι) : Keeps fixed (start e) := by
  refine Keeps.bind (.modify fun _ => rfl) fun _ => Keeps.bind Keeps.get fun s =>
    Keeps.bind (Keeps.ite ?_ ?_) fun _ => Keeps.bind (.modify fun _ => rfl) fun _ =>
    .modify fun _ => rfl
  · exact Keeps.bind (keeps_computeResidual (fun _ _ => rfl) e _) fun _ =>
      Keeps.bind (.modify fun _ => rfl) fun _ =>
      Keeps.bind (keeps_computeResidual (fun _ _ => rfl) e _) fun _ => .modify fun _ => rfl
  · exact Keeps.bind (.modify fun _ => rfl) fun _ =>
      Keeps.bind (keeps_computeResidual (fun _ _ => rfl) e _) fun _ => .modify fun _ => rfl

theorem keeps_body (e : DREnv K ι) (o : DROpts K) (r : ℤ) : Keeps fixed (body e o r) := by
  refine Keeps.bind ?_ fun _ => Keeps.bind Keeps.get fun _ =>
    Keeps.bind (Keeps.ite ?_ (.ret _)) fun _ => Keeps.bind (.modify fun _ => rfl) fun _ => .ret _
  · exact Keeps.bind (.modify fun _ => rfl) fun _ => Keeps.bind Keeps.get fun _ =>
      Keeps.bind (keeps_computeResidual (fun _ _ => rfl) e _) fun _ =>
      Keeps.bind (.modify fun _ => rfl) fun _ =>
      Keeps.bind (.modify fun _ => rfl) fun _ => Keeps.bind (.modify fun _ => rfl) fun _ =>
      .modify fun _ => rfl
  · exact Keeps.bind Keeps.get fun _ =>
      Keeps.bind (keeps_computeResidual (fun _ _ => rfl) e _) fun _ =>
      Keeps.bind (.modify fun _ => rfl) fun _ => Keeps.bind (.modify fun _ => rfl) fun _ =>
      .modify fun _ => rfl

theorem keeps_loop (e : DREnv K ι) (o : DROpts K) (n : ℕ) (r : ℤ) : Keeps fixed (loop e o n r) := by
  induction n generalizing r with
  | zero => exact Keeps.ite (.throw _) (.ret _)
  | succ n ih =>
    exact Keeps.bind (keeps_body e o r) fun _ => Keeps.bind Keeps.get fun _ =>
      Keeps.ite (.modify fun _ => rfl) (Keeps.ite
        (Keeps.bind (.modify fun _ => rfl) fun _ => Keeps.bind (.modify fun _ => rfl) fun _ => .throw _)
        (Keeps.bind (.modify fun _ => rfl) fun _ => ih _))

theorem keeps_solveRaw (e : DREnv K ι) (o : DROpts K) : Keeps fixed (solveRaw e o) :=
  Keeps.bind Keeps.get fun _ => Keeps.ite
    (Keeps.bind (.modify fun _ => rfl) fun _ => Keeps.bind (keeps_start e) fun _ =>
      Keeps.bind (.modify fun _ => rfl) fun _ => keeps_loop e o _ _) (.throw _)

/-- `m_U` changes only at the end. -/
theorem keeps_body_U (e : DREnv K ι) (o : DROpts K) (r : ℤ) :
    Keeps (fun s : DRSt K ι => s.U) (body e o r) := by
  refine Keeps.bind ?_ fun _ => Keeps.bind Keeps.get fun _ =>
    Keeps.bind (Keeps.ite ?_ (.ret _)) fun _ => Keeps.bind (.modify fun _ => rfl) fun _ => .ret _
  · exact Keeps.bind (.modify fun _ => rfl) fun _ => Keeps.bind Keeps.get fun _ =>
      Keeps.bind (keeps_computeResidual (fun _ _ => rfl) e _) fun _ =>
      Keeps.bind (.modify fun _ => rfl) fun _ =>
      Keeps.bind (.modify fun _ => rfl) fun _ => Keeps.bind (.modify fun _ => rfl) fun _ =>
      .modify fun _ => rfl
  · exact Keeps.bind Keeps.get fun _ =>
      Keeps.bind (keeps_computeResidual (fun _ _ => rfl) e _) fun _ =>
      Keeps.bind (.modify fun _ => rfl) fun _ => Keeps.bind (.modify fun _ => rfl) fun _ =>
      .modify fun _ => rfl

/-! ## One iteration -/

/-- The damped residual `R - c·v`. -/
def damped (s : DRSt K ι) (f : ι → K) : ι → K := fun i => f i - s.damp i * s.v i

/-- The velocity after the iteration. -/
def newV (s : DRSt K ι) (f : ι → K) : ι → K := fun i => s.v i + s.massInv i * damped s f i

/-- Is the velocity reset in this iteration? -/
def resetsIn (e : DREnv K ι) (o : DROpts K) (r : ℤ) (s : DRSt K ι) (f : ι → K) : Bool :=
  (decide (o.damping = 0) && decide (energy e (newV s f) < s.Ek)) || decide (r = o.resetIt)

/-- A completed pass of the loop body; `f` is the residual at the point before. -/
structure Passed (e : DREnv K ι) (o : DROpts K) (r : ℤ) (s t : DRSt K ι) (f : ι → K) : Prop where
  res : e.residual s.log.length s.L (s.U + s.DU) = some f
  hU : t.U = s.U
  ini : t.residualIni = if s.residualIni = 0 then norm e (damped s f) else s.residualIni
  rho : t.residual = norm e (damped s f)
  ek0 : t.Ek0 = s.Ek0
  num : t.numIt = s.numIt
  eks : t.Eks = s.Eks ++ [t.Ek]
  fix : fixed t = fixed s
  head : t.headstart = s.headstart
  plain : resetsIn e o r s f = false → t.v = newV s f ∧ t.du = newV s f ∧ t.DU = s.DU + newV s f ∧
    t.Ek = energy e (newV s f) ∧ t.peaks = s.peaks
  reset : resetsIn e o r s f = true → t.v = 0 ∧ t.Ek = 0 ∧ t.peaks = s.peaks ++ [s.numIt] ∧
    ∃ g, e.residual (s.log.length + 1) s.L (s.U + (s.DU + newV s f)) = some g ∧
      t.du = (fun i => -(3 / 2) * newV s f i + 1 / 2 * (s.massInv i * (g i - s.damp i * newV s f i))) ∧
      t.DU = s.DU + newV s f + t.du

theorem body_ok {e : DREnv K ι} {o : DROpts K} {r r' : ℤ} {s t : DRSt K ι}
    (h : body e o r s = (t, .ok r')) :
    ∃ f, Passed e o r s t f ∧ r' = if resetsIn e o r s f then 0 else r := by
  have hfix := (keeps_body e o r).run h
  have hUU := (keeps_body_U e o r).run h
  unfold body at h
  obtain ⟨s1, ⟨⟩, h1, h⟩ := Act.bind_ok_inv h
  unfold iteration at h1
  rw [Act.bind_ok (Act.modify_apply _ _), Act.bind_ok (Act.get_apply _)] at h1
  obtain ⟨s2, f, h2, h1⟩ := Act.bind_ok_inv h1
  obtain ⟨a1, rfl⟩ := computeResidual_ok h2
  rw [Act.bind_ok (Act.modify_apply _ _), Act.bind_ok (Act.modify_apply _ _),
    Act.bind_ok (Act.modify_apply _ _)] at h1
  simp only [Act.modify_apply, Prod.mk.injEq] at h1
  obtain ⟨rfl, -⟩ := h1
  rw [Act.bind_ok (Act.get_apply _)] at h
  refine ⟨f, ?_⟩
  cases hr : resetsIn e o r s f with
  | false =>
    have hr' := hr
    unfold resetsIn newV damped at hr'
    simp only [resets, hr', Bool.false_eq_true, if_false] at h
    rw [Act.bind_ok (Act.pure_apply _ _), Act.bind_ok (Act.modify_apply _ _)] at h
    simp only [Act.pure_apply, Prod.mk.injEq, Except.ok.injEq] at h
    obtain ⟨rfl, rfl⟩ := h
    exact ⟨⟨a1, rfl, rfl, rfl, rfl, rfl, rfl, hfix, rfl, fun _ => ⟨rfl, rfl, rfl, rfl, rfl⟩,
      by simp [hr]⟩, by simp⟩
  | true =>
    have hr' := hr
    unfold resetsIn newV damped at hr'
    simp only [resets, hr', if_true] at h
    obtain ⟨s3, ⟨⟩, h3, h⟩ := Act.bind_ok_inv h
    unfold peak at h3
    rw [Act.bind_ok (Act.get_apply _)] at h3
    obtain ⟨s4, g, h4, h3⟩ := Act.bind_ok_inv h3
    obtain ⟨a2, rfl⟩ := computeResidual_ok h4
    rw [Act.bind_ok (Act.modify_apply _ _), Act.bind_ok (Act.modify_apply _ _)] at h3
    simp only [Act.modify_apply, Prod.mk.injEq] at h3
    obtain ⟨rfl, -⟩ := h3
    rw [Act.bind_ok (Act.modify_apply _ _)] at h
    simp only [Act.pure_apply, Prod.mk.injEq, Except.ok.injEq] at h
    obtain ⟨rfl, rfl⟩ := h
    refine ⟨⟨a1, rfl, rfl, rfl, rfl, rfl, rfl, hfix, rfl, by simp [hr], fun _ => ⟨rfl, rfl, rfl, g, ?_,
      rfl, rfl⟩⟩, by simp⟩
    exact a2

/-! ## The start -/

/-- The state before the loop. -/
structure Started (e : DREnv K ι) (s t : DRSt K ι) : Prop where
  hU : t.U = s.U
  fix : fixed t = fixed s
  num : t.numIt = 1
  head : t.headstart = false
  ek0 : t.Ek0 = t.Ek
  eks : t.Eks = [t.Ek]
  ek : t.Ek = energy e t.v
  peaks : t.peaks = []
  vdu : t.v = t.du
  res : ∃ k f, e.residual k s.L (s.U + if s.headstart then s.DU else 0) = some f ∧
    t.du = (fun i => 1 / 2 * (s.massInv i * f i)) ∧
    t.DU = (if s.headstart then s.DU else 0) + t.du
  ini : (s.headstart = false → t.residualIni = nz (norm e e.forcing)) ∧
    (s.headstart = true → ∃ k f, e.residual k s.L s.U = some f ∧ t.residualIni = nz (norm e f))

theorem start_ok {e : DREnv K ι} {s t : DRSt K ι}
    (h : start e { s with Eks := [], peaks := [] } = (t, .ok ())) :
    Started e s { t with Ek0 := t.Ek, Eks := [t.Ek], numIt := 1 } := by
  have hfix := (keeps_start e).run h
  unfold start at h
  rw [Act.bind_ok (Act.modify_apply _ _), Act.bind_ok (Act.get_apply _)] at h
  obtain ⟨u, ⟨⟩, h1, h⟩ := Act.bind_ok_inv h
  rw [Act.bind_ok (Act.modify_apply _ _)] at h
  simp only [Act.modify_apply, Prod.mk.injEq] at h
  obtain ⟨rfl, -⟩ := h
  split at h1
  · rename_i hh
    simp only at hh
    obtain ⟨s1, f, h2, h1⟩ := Act.bind_ok_inv h1
    obtain ⟨a1, rfl⟩ := computeResidual_ok h2
    rw [Act.bind_ok (Act.modify_apply _ _)] at h1
    obtain ⟨s2, f₀, h3, h1⟩ := Act.bind_ok_inv h1
    obtain ⟨a2, rfl⟩ := computeResidual_ok h3
    simp only [Act.modify_apply, Prod.mk.injEq] at h1
    obtain ⟨rfl, -⟩ := h1
    exact ⟨rfl, hfix, rfl, rfl, rfl, rfl, rfl, rfl, rfl,
      ⟨_, f, by rw [if_pos hh]; exact a1, rfl, by rw [if_pos hh]⟩, by simp [hh], fun _ => ⟨_, f₀, a2, rfl⟩⟩
  · rename_i hh
    simp only at hh
    rw [Act.bind_ok (Act.modify_apply _ _)] at h1
    obtain ⟨s1, f, h2, h1⟩ := Act.bind_ok_inv h1
    obtain ⟨a1, rfl⟩ := computeResidual_ok h2
    simp only [Act.modify_apply, Prod.mk.injEq] at h1
    obtain ⟨rfl, -⟩ := h1
    exact ⟨rfl, hfix, rfl, by simpa using hh, rfl, rfl, rfl, rfl, rfl,
      ⟨s.log.length, f, by rw [if_neg hh, add_zero]; exact a1, rfl, by rw [if_neg hh]⟩, fun _ => rfl,
      by simp [hh]⟩

theorem solveRaw_cases {e : DREnv K ι} {o : DROpts K} {s t : DRSt K ι} {x : Except Err Unit}
    (hs : s.ready = true) (h : solveRaw e o s = (t, x)) :
    (∃ u, Started e s u ∧
      loop e o (if o.base.maxIt = 0 then intMax else o.base.maxIt - 1) 0 u = (t, x)) ∨
    ∃ y, x = .error y ∧ start e { s with Eks := [], peaks := [] } = (t, .error y) := by
  unfold solveRaw at h
  rw [Act.bind_ok (Act.get_apply s), if_pos hs, Act.bind_ok (Act.modify_apply _ _)] at h
  rcases Act.bind_cases h with ⟨u, ⟨⟩, h1, h⟩ | ⟨y, h1, h⟩
  · rw [Act.bind_ok (Act.modify_apply _ _)] at h
    exact .inl ⟨_, start_ok h1, h⟩
  · exact .inr ⟨y, h, h1⟩

end GsSA.Static.DR
