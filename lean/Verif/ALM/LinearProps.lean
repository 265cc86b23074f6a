import Verif.ALM.LinearRun
import Verif.ALM.StepProps
import Verif.ALM.CrisfieldSpec

/-!
# Arc-length steps on a linear structure (C115)
-/

namespace GsSA.ALM

open GsSA

set_option linter.unusedSectionVars false

variable {K V Mat Fac : Type} [Field K] [LinearOrder K] [IsStrictOrderedRing K] [AddCommGroup V]
variable [Module K V]
variable {e : Env K V Mat Fac} {o : Opts K} {A G : V →ₗ[K] V} {m0 : Mat} {f0 : Fac}

theorem begin_eq {M : Method K V Mat Fac} {s s1 : St K V Mat Fac} (hi : s.initialized = true)
    (h : M.initiateStep { s with converged := false, numIt := 0 } = (s1, .ok ()))
    (hg : s1.guess = none) : beginStep e M s = M.predictor s1 := by
  unfold beginStep
  rw [Act.bind_ok (Act.get_apply s)]
  simp only [hi, Bool.true_eq_false, if_false]
  rw [Act.bind_ok (Act.pure_apply () s), Act.bind_ok (Act.modify_apply _ _), Act.bind_ok h,
    Act.bind_ok (Act.get_apply s1)]
  simp [usesGuess, hg]

theorem norm_smul_ne {g : Geo K V} (hg : g.Laws) {c : K} {x : V} (hc : c ≠ 0)
    (hx : g.dot x x ≠ 0) : g.norm (c • x) ≠ 0 := by
  have hp : 0 < g.dot (c • x) (c • x) := by
    rw [hg.smul_left, hg.smul_right, ← mul_assoc]
    exact mul_pos (mul_self_pos.2 hc) (lt_of_le_of_ne (hg.nonneg x) (Ne.symm hx))
  exact (hg.sqrt_pos hp).ne'

theorem norm_zero_smul {g : Geo K V} (hg : g.Laws) (x : V) : g.norm ((0 : K) • x) = 0 := by
  rw [zero_smul, Geo.norm, hg.zero_left, hg.sqrt_zero]

/-- `Ut` is known and something about the previous increment. -/
def tanOk (e : Env K V Mat Fac) (G : V →ₗ[K] V) (P : K → V → K → Prop) (b : Bool) (τ : K)
    (s : St K V Mat Fac) : Prop := (b = true → s.Ut = G e.forcing) ∧ P τ s.DUold s.DLold

theorem quasi_run (hl : Linear e A G m0 f0) {P : K → V → K → Prop} {s0 : St K V Mat Fac}
    {phi τ0 : K} (b : Bool) (s : St K V Mat Fac) (τ : K)
    (hs : OnLine e G m0 f0 s0 phi τ0 τ s) (hok : tanOk e G P b τ s) :
    ∃ t, quasiIterationUt e s = (t, .ok ()) ∧ OnLine e G m0 f0 s0 phi τ0 τ t ∧
      tanOk e G P true τ t ∧ t.numIt = s.numIt := by
  obtain ⟨l, h1⟩ := hl.assemble s
  obtain ⟨l', h2⟩ := hl.ut { s with jac := m0, fac := some f0, log := l } rfl
  refine ⟨_, (Act.bind_ok h1).trans h2, ?_, ⟨fun _ => rfl, hok.2⟩, rfl⟩
  exact hs.of_eq rfl rfl rfl rfl hs.jac.symm hs.fac.symm rfl rfl rfl rfl rfl rfl rfl rfl rfl

theorem quasiP_run (hl : Linear e A G m0 f0) {P : K → V → K → Prop} {s0 : St K V Mat Fac}
    {phi τ0 : K} (b : Bool) (s : St K V Mat Fac) (τ : K)
    (hs : OnLine e G m0 f0 s0 phi τ0 τ s) (hok : tanOk e G P b τ s) :
    ∃ t, quasiPredictorUt e s = (t, .ok ()) ∧ OnLine e G m0 f0 s0 phi τ0 τ t ∧
      tanOk e G P true τ t := by
  obtain ⟨l, h1⟩ := hl.assemble s
  obtain ⟨l', h2⟩ := hl.ut { s with jac := m0, fac := some f0, log := l } rfl
  obtain ⟨l'', h3⟩ := hl.ubar
    { s with jac := m0, fac := some f0, Ut := G e.forcing, log := l' } rfl hs.resVec
  refine ⟨_, (Act.bind_ok h1).trans ((Act.bind_ok h2).trans h3), ?_,
    ⟨fun _ => rfl, hok.2⟩⟩
  exact hs.of_eq rfl rfl rfl rfl hs.jac.symm hs.fac.symm rfl rfl rfl rfl rfl rfl rfl rfl rfl

/-! ## Load control -/

theorem glides_loadControl (hl : Linear e A G m0 f0) (s0 : St K V Mat Fac) (phi τ0 : K) :
    Glides e G m0 f0 s0 phi τ0 (loadControl e) (fun _ _ _ => True) (fun _ => 0) where
  quasi _ s τ hs _ := by
    obtain ⟨l, h1⟩ := hl.assemble s
    exact ⟨_, h1, hs.of_eq rfl rfl rfl rfl hs.jac.symm hs.fac.symm rfl rfl rfl rfl rfl rfl rfl rfl
      rfl, trivial, rfl⟩
  quasiPredictor _ s τ hs _ := by
    obtain ⟨l, h1⟩ := hl.assemble s
    obtain ⟨l', h2⟩ := hl.ubar { s with jac := m0, fac := some f0, log := l } rfl hs.resVec
    refine ⟨_, (Act.bind_ok h1).trans h2, ?_, trivial⟩
    exact hs.of_eq rfl rfl rfl rfl hs.jac.symm hs.fac.symm rfl rfl rfl rfl rfl rfl rfl rfl rfl
  iteration s τ hs _ := by
    obtain ⟨l, h1⟩ := hl.ubar s hs.fac hs.resVec
    refine ⟨_, (Act.bind_ok h1).trans (Act.modify_apply _ _), ?_, trivial, rfl, (zero_smul K _).symm⟩
    rw [add_zero]
    exact hs.of_eq rfl rfl (add_zero _) rfl rfl rfl rfl rfl rfl rfl rfl rfl rfl rfl rfl
  finish s τ hs _ := by
    refine ⟨_, rfl, ?_, ?_, rfl, rfl, rfl, rfl, rfl, hs.guess, hs.U, hs.L, rfl, .inr ⟨rfl, rfl⟩⟩
    · simp only [hs.U, hs.DU]
    · simp only [hs.L, hs.DL]
  frame _ _ _ _ _ _ _ _ := trivial

theorem starts_loadControl (hl : Linear e A G m0 f0) {s0 : St K V Mat Fac}
    (hi : s0.initialized = true) (hgu : s0.guess = none) :
    ∃ p, beginStep e (loadControl e) s0 = (p, .ok ()) ∧
      Starts e G m0 f0 s0 s0.phi s0.len p := by
  rw [begin_eq (s1 := { s0 with
    converged := false, numIt := 0, DU := 0, dU := 0, DL := 0, dL := 0 }) hi rfl hgu]
  change ∃ p, lcPredict e (fun s => s.len) _ = _ ∧ _
  unfold lcPredict
  obtain ⟨l, h1⟩ := hl.assemble { s0 with
    converged := false, numIt := 0, DU := 0, dU := 0, DL := 0, dL := 0 }
  rw [Act.bind_ok h1, Act.bind_ok (Act.modify_apply _ _)]
  obtain ⟨l', h2⟩ := hl.ut { s0 with
    converged := false, numIt := 0, DU := 0, dU := 0, jac := m0, fac := some f0, log := l,
    DL := s0.len, dL := s0.len } rfl
  rw [Act.bind_ok h2]
  exact ⟨_, rfl, ⟨rfl, rfl, rfl, rfl, rfl, rfl, rfl, rfl, rfl, rfl, rfl, hgu, rfl⟩⟩

/-- Load control on a linear structure: a step that starts in equilibrium succeeds in one iteration,
increases the load by the length, and ends in equilibrium; unless the new load is zero. -/
theorem C115_loadControl (hl : Linear e A G m0 f0) (hg : e.geo.Laws) {s : St K V Mat Fac}
    (hi : s.initialized = true) (hgu : s.guess = none) (h0 : A s.U = s.L • e.forcing)
    (hF : e.geo.dot e.forcing e.forcing ≠ 0) (hw : e.geo.dot (G e.forcing) (G e.forcing) ≠ 0)
    (hlen : s.len ≠ 0) (hz : s.L + s.len ≠ 0) (htF : 0 < o.tolF) (htU : 0 < o.tolU)
    (hmax : 2 ≤ o.maxIt) :
    ∃ t, step e o (loadControl e) s = (t, .ok .success) ∧ t.U = s.U + s.len • G e.forcing ∧
      t.L = s.L + s.len ∧ A t.U = t.L • e.forcing ∧ t.numIt = 1 ∧ t.initialized = true ∧
      t.guess = none ∧ (s.adaptive = false → t.len = s.len) ∧ t.adaptive = s.adaptive := by
  obtain ⟨p, hb, hp⟩ := starts_loadControl hl hi hgu
  obtain ⟨t, -, h1, h2, -⟩ := (glides_loadControl hl s s.phi s.len).step (o := o) hl hg h0 htF
    (norm_smul_ne hg hz hF) (norm_smul_ne hg hlen hw) hb hp trivial 0 hmax
    (by rw [norm_zero_smul hg, zero_div]; exact htU) (by simp)
  have e1 : glide (fun _ : K => (0 : K)) s.len (0 + 1) = s.len := by simp [glide]
  rw [e1] at h2
  refine ⟨t, h1, h2.U, h2.L, ?_, h2.numIt, h2.initialized.trans hi, h2.guess, h2.len, h2.adaptive⟩
  rw [h2.U, h2.L, map_add, map_smul, hl.inverse, h0, add_smul]

/-- Whatever the method: a step whose predictor arrives at load factor 0 does not succeed, as the
residual is compared with the load after the predictor. -/
theorem C115_violated_zeroLoad {M : Method K V Mat Fac} (hM : IsMethod e o M) (hg : e.geo.Laws)
    {s p t : St K V Mat Fac} {st : Status} (hb : beginStep e M s = (p, .ok ()))
    (hz : s.L + p.DL = 0) (hmax : 2 ≤ o.maxIt) (h : step e o M s = (t, .ok st)) :
    st ≠ .success := by
  rintro rfl
  obtain ⟨p', -, -, hb', -, hF, -⟩ := C32_success hM h hmax
  rw [hb] at hb'
  obtain rfl : p = p' := (Prod.mk.inj hb').1
  exact hF (by rw [hz]; exact norm_zero_smul hg _)

/-! ## Crisfield -/

/-- Squared length of the increment with load increment 1. -/
def tangentForm (e : Env K V Mat Fac) (G : V →ₗ[K] V) (phi : K) : K :=
  e.geo.dot (G e.forcing) (G e.forcing) + loadWeight e phi

theorem tangentForm_pos (hg : e.geo.Laws) (hw : e.geo.dot (G e.forcing) (G e.forcing) ≠ 0)
    (phi : K) : 0 < tangentForm e G phi :=
  add_pos_of_pos_of_nonneg (lt_of_le_of_ne (hg.nonneg _) (Ne.symm hw))
    (mul_nonneg (sq_nonneg _) (hg.nonneg _))

/-- The side of the previous increment, `σ = 1` for a positive projection on the tangent. -/
def side (e : Env K V Mat Fac) (G : V →ₗ[K] V) (phi σ : K) (DUold : V) (DLold : K) : Prop :=
  (σ = 1 ∧ 0 ≤ e.geo.dot DUold (G e.forcing) + phi ^ 2 * DLold) ∨
    (σ = -1 ∧ e.geo.dot DUold (G e.forcing) + phi ^ 2 * DLold < 0)

theorem side_smul (hg : e.geo.Laws) (hw : e.geo.dot (G e.forcing) (G e.forcing) ≠ 0) {phi σ δ : K}
    (hσ : σ = 1 ∨ σ = -1) (hδ : 0 < σ * δ) : side e G phi σ (δ • G e.forcing) δ := by
  have hp : 0 < e.geo.dot (G e.forcing) (G e.forcing) + phi ^ 2 :=
    add_pos_of_pos_of_nonneg (lt_of_le_of_ne (hg.nonneg _) (Ne.symm hw)) (sq_nonneg _)
  have e1 : e.geo.dot (δ • G e.forcing) (G e.forcing) + phi ^ 2 * δ =
      δ * (e.geo.dot (G e.forcing) (G e.forcing) + phi ^ 2) := by rw [hg.smul_left]; ring
  unfold side
  rw [e1]
  rcases hσ with rfl | rfl
  · exact .inl ⟨rfl, mul_nonneg (by linarith) hp.le⟩
  · exact .inr ⟨rfl, mul_neg_of_neg_of_pos (by linarith) hp⟩

/-- The previous increment is in the direction `σ`: none (and then forward), or one along the line. -/
def Heading (e : Env K V Mat Fac) (G : V →ₗ[K] V) (σ : K) (x : V) (y : K) : Prop :=
  (x = 0 ∧ y = 0 ∧ σ = 1) ∨ ∃ δ, x = δ • G e.forcing ∧ y = δ ∧ 0 < σ * δ

theorem Heading.side (hg : e.geo.Laws) (hw : e.geo.dot (G e.forcing) (G e.forcing) ≠ 0)
    {phi σ : K} (hσ : σ = 1 ∨ σ = -1) {x : V} {y : K} (h : Heading e G σ x y) :
    side e G phi σ x y := by
  rcases h with ⟨rfl, rfl, rfl⟩ | ⟨δ, rfl, rfl, h⟩
  · exact .inl ⟨rfl, by rw [hg.zero_left]; simp⟩
  · exact side_smul hg hw hσ h

/-- The corrector solves for the sphere. -/
theorem lambdas_linear (hg : e.geo.Laws) (hw : e.geo.dot (G e.forcing) (G e.forcing) ≠ 0)
    {s : St K V Mat Fac} {τ σ : K} (hDU : s.DU = τ • G e.forcing) (hDL : s.DL = τ)
    (hUt : s.Ut = G e.forcing) (hUb : s.Ubar = 0) (hlen : 0 < s.len)
    (hs : side e G s.phi σ s.DUold s.DLold) :
    ∃ l, computeLambdas e s = ({ s with
      dL := σ * (s.len / e.geo.sqrt (tangentForm e G s.phi)) - τ
      dU := (σ * (s.len / e.geo.sqrt (tangentForm e G s.phi)) - τ) • G e.forcing
      log := l }, .ok 1) := by
  have ha := tangentForm_pos (e := e) hg hw s.phi
  set a := tangentForm e G s.phi with hadef
  set r := e.geo.sqrt a with hr
  have hr2 : r ^ 2 = a := hg.sqrt_sq _ ha.le
  have hr0 : 0 < r := hg.sqrt_pos ha
  have q1 : (crQuad e s).a0 = a := by simp only [crQuad, hUt, hadef, tangentForm]
  have q2 : (crQuad e s).alpha2 1 = 2 * τ * a := by
    simp only [crQuad, Quad.alpha2, hUt, hUb, hDU, hDL, hg.smul_right, hg.zero_left, hadef,
      tangentForm]
    ring
  have q3 : (crQuad e s).disc 1 = (2 * s.len * r) ^ 2 := by
    rw [Quad.disc, q1, q2, mul_pow, hr2]
    simp only [crQuad, Quad.alpha3, hUb, hDU, hDL, hg.smul_right, hg.smul_left, hg.zero_right,
      ALM.disc]
    have : a = e.geo.dot (G e.forcing) (G e.forcing) + loadWeight e s.phi := rfl
    rw [this]
    ring
  have q4 : e.geo.sqrt ((crQuad e s).disc 1) = 2 * s.len * r :=
    hg.sqrt_eq (by positivity) q3
  have x1 : (-(2 * τ * a) + 2 * s.len * r) / (2 * a) = s.len / r - τ := by
    rw [← hr2]; field_simp; ring
  have x2 : (-(2 * τ * a) - 2 * s.len * r) / (2 * a) = -(s.len / r) - τ := by
    rw [← hr2]; field_simp; ring
  have hq : 0 < s.len / r := div_pos hlen hr0
  have hc : chooseDOT e s (s.len / r - τ) (-(s.len / r) - τ) = σ * (s.len / r) - τ := by
    unfold chooseDOT
    rw [hUt]
    simp only
    rcases hs with ⟨rfl, hω⟩ | ⟨rfl, hω⟩
    · rw [one_mul]
      split
      · rfl
      · rw [if_neg]
        intro hlt
        have := mul_nonneg hq.le hω
        nlinarith
    · rw [if_neg, if_pos]
      · ring
      · have := mul_neg_of_pos_of_neg hq hω
        nlinarith
      · have := mul_neg_of_pos_of_neg hq hω
        intro hlt
        nlinarith
  refine ⟨.roots .real :: s.log, ?_⟩
  unfold computeLambdas
  rw [Act.bind_ok (Act.get_apply s)]
  have hnn : 0 ≤ (crQuad e s).disc 1 := by rw [q3]; positivity
  simp only [hnn, if_true, q1, q2, q4, x1, x2]
  rw [Act.bind_ok (by rfl : lambdaDOT e 1 _ _ s = _), Act.bind_ok (by rfl : emit _ _ = _)]
  simp only [Act.pure_apply, hc, hUb, smul_zero, zero_add, hUt]

theorem glides_crisfield (hl : Linear e A G m0 f0) (hg : e.geo.Laws)
    (hw : e.geo.dot (G e.forcing) (G e.forcing) ≠ 0) {s0 : St K V Mat Fac} {phi τ0 σ : K}
    (hσ : σ = 1 ∨ σ = -1) (hlen : 0 < s0.len) (hrel : o.relax = 1) :
    Glides e G m0 f0 s0 phi τ0 (crisfield e o)
      (tanOk e G fun _ x y => Heading e G σ x y)
      (fun τ => σ * (s0.len / e.geo.sqrt (tangentForm e G phi)) - τ) where
  quasi b s τ hs hok := quasi_run hl b s τ hs hok
  quasiPredictor b s τ hs hok := quasiP_run hl b s τ hs hok
  iteration s τ hs hok := by
    obtain ⟨l, h1⟩ := hl.ubar s hs.fac hs.resVec
    obtain ⟨l', h2⟩ := lambdas_linear hg hw (s := { s with Ubar := 0, log := l }) (τ := τ) (σ := σ)
      hs.DU hs.DL (hok.1 rfl) rfl (by rw [hs.len]; exact hlen) (hok.2.side hg hw hσ)
    have h2 : computeLambdas e { s with Ubar := 0, log := l } = ({ s with
        Ubar := 0
        dL := σ * (s0.len / e.geo.sqrt (tangentForm e G phi)) - τ
        dU := (σ * (s0.len / e.geo.sqrt (tangentForm e G phi)) - τ) • G e.forcing
        log := l' }, .ok 1) := by
      rw [← hs.len, ← hs.phi]
      exact h2
    set x := σ * (s0.len / e.geo.sqrt (tangentForm e G phi)) - τ with hx
    have hτ : 0 < σ * (τ + x) := by
      have h3 : 0 < s0.len / e.geo.sqrt (tangentForm e G phi) :=
        div_pos hlen (hg.sqrt_pos (tangentForm_pos hg hw phi))
      have h4 : σ * σ = 1 := by rcases hσ with rfl | rfl <;> ring
      have h5 : σ * (τ + x) = σ * σ * (s0.len / e.geo.sqrt (tangentForm e G phi)) := by
        rw [hx]; ring
      rw [h5, h4, one_mul]
      exact h3
    have hDU : s.DU + x • G e.forcing = (τ + x) • G e.forcing := by rw [hs.DU, add_smul]
    have hDL : s.DL + x = τ + x := by rw [hs.DL]
    have hrun : ∃ t, (crisfield e o).iteration s = (t, .ok ()) ∧ t = { s with
        Ubar := 0
        dU := x • G e.forcing
        dL := x
        DU := s.DU + x • G e.forcing
        DL := s.DL + x
        DUold := if o.angle = .iteration then s.DU + x • G e.forcing else s.DUold
        DLold := if o.angle = .iteration then s.DL + x else s.DLold
        log := l' } := by
      refine ⟨_, ?_, rfl⟩
      change crIteration e o s = _
      unfold crIteration
      rw [Act.bind_ok h1, Act.bind_ok (Act.get_apply _)]
      simp only
      rw [Act.bind_ok h2, Act.bind_ok (Act.modify_apply _ _)]
      simp only [hrel, ne_eq, not_true_eq_false, and_false, if_false]
      rw [Act.bind_ok (Act.modify_apply _ _), Act.modify_apply]
      by_cases hang : o.angle = .iteration <;> simp [hang]
    obtain ⟨t, ht, rfl⟩ := hrun
    refine ⟨_, ht, ?_, ⟨fun _ => hok.1 rfl, ?_⟩, rfl, rfl⟩
    · exact ⟨hs.U, hs.L, hDU, hDL, hs.jac, hs.fac, hs.resVec, hs.phi, hs.len, hs.adaptive,
        hs.lenOri, hs.initialized, hs.guess, hs.basisF, hs.basisU⟩
    · by_cases hang : o.angle = .iteration
      · simp only [hang, if_true, hDU, hDL]
        exact .inr ⟨_, rfl, rfl, hτ⟩
      · simp only [hang, if_false]
        exact hok.2
  finish s τ hs hok := by
    have hrun : ∃ t, (crisfield e o).iterationFinish s = (t, .ok ()) ∧ t = { s with
        converged := true
        Uprev := s.U
        Lprev := s.L
        U := s.U + s.DU
        L := s.L + s.DL
        DUold := if o.angle = .step then s.DU else s.DUold
        DLold := if o.angle = .step then s.DL else s.DLold } := by
      refine ⟨_, ?_, rfl⟩
      change (acceptStep >>= fun _ => Act.modify _) s = _
      rw [Act.bind_ok (by rfl : acceptStep s = _), Act.modify_apply]
      by_cases hang : o.angle = .step <;> simp [hang]
    obtain ⟨t, ht, rfl⟩ := hrun
    refine ⟨_, ht, by simp only [hs.U, hs.DU], by simp only [hs.L, hs.DL], rfl, rfl, rfl, rfl, rfl,
      hs.guess, hs.U, hs.L, rfl, ?_⟩
    by_cases hang : o.angle = .step
    · exact .inl (by simp only [hang, if_true, hs.DU, hs.DL, and_self])
    · exact .inr (by simp only [hang, if_false, and_self])
  frame b s t τ h h1 h2 h3 := ⟨fun hb => h3.trans (h.1 hb), by rw [h1, h2]; exact h.2⟩

theorem starts_crisfield (hl : Linear e A G m0 f0) (hg : e.geo.Laws)
    (hw : e.geo.dot (G e.forcing) (G e.forcing) ≠ 0) {s0 : St K V Mat Fac} {σ : K}
    (hσ : σ = 1 ∨ σ = -1) (hh : Heading e G σ s0.DUold s0.DLold) (hlen : 0 < s0.len)
    (hi : s0.initialized = true) (hgu : s0.guess = none) :
    ∃ p phi τ0, beginStep e (crisfield e o) s0 = (p, .ok ()) ∧ Starts e G m0 f0 s0 phi τ0 p ∧
      tanOk e G (fun _ x y => Heading e G σ x y) false τ0 p ∧ 0 < σ * τ0 := by
  have hww : 0 < e.geo.dot (G e.forcing) (G e.forcing) := lt_of_le_of_ne (hg.nonneg _) (Ne.symm hw)
  rw [begin_eq (s1 := { s0 with
    converged := false, numIt := 0, DU := 0, Ubar := 0, Ut := 0, DL := 0, dL := 0 }) hi rfl hgu]
  change ∃ p phi τ0, crPredictor e o _ = _ ∧ _
  unfold crPredictor
  obtain ⟨l, h1⟩ := hl.assemble { s0 with
    converged := false, numIt := 0, DU := 0, Ubar := 0, Ut := 0, DL := 0, dL := 0 }
  rw [Act.bind_ok h1]
  obtain ⟨l', h2⟩ := hl.ut { s0 with
    converged := false, numIt := 0, DU := 0, Ubar := 0, Ut := 0, jac := m0, fac := some f0,
    log := l, DL := 0, dL := 0 } rfl
  rw [Act.bind_ok h2, Act.bind_ok (Act.get_apply _)]
  simp only
  obtain ⟨phi, τ0, hτ, h3⟩ : ∃ phi τ0, 0 < σ * τ0 ∧
      (if e.geo.dot s0.DUold s0.DUold = 0 ∧ s0.DLold * s0.DLold = 0 then firstPredictor e o
        else laterPredictor e o) { s0 with
          converged := false, numIt := 0, DU := 0, Ubar := 0, Ut := G e.forcing, jac := m0,
          fac := some f0, log := l', DL := 0, dL := 0 } = ({ s0 with
          converged := false, numIt := 0, DU := 0, Ubar := 0, Ut := G e.forcing, jac := m0,
          fac := some f0, log := l', DL := 0, dL := τ0, dU := τ0 • G e.forcing, phi := phi },
          .ok ()) := by
    rcases id hh with ⟨a1, a2, rfl⟩ | ⟨δ, a1, a2, a3⟩
    · refine ⟨if o.phiUser then s0.phi
          else e.geo.sqrt (e.geo.dot (G e.forcing) (G e.forcing) / e.geo.dot e.forcing e.forcing),
        s0.len / e.geo.sqrt (2 * e.geo.dot (G e.forcing) (G e.forcing)), ?_, ?_⟩
      · rw [one_mul]
        exact div_pos hlen (hg.sqrt_pos (by linarith))
      · rw [if_pos (by rw [a1, a2, hg.zero_left]; simp)]
        simp only [firstPredictor, Act.modify_apply, zero_add, tangentPhi]
    · have hδ : δ ≠ 0 := by rintro rfl; simp at a3
      set phi := (if o.phiUser then s0.phi else
        e.geo.sqrt (e.geo.dot s0.U s0.U / (s0.L ^ 2 * e.geo.dot e.forcing e.forcing))) with hphi
      have ha := tangentForm_pos (e := e) hg hw phi
      have hr0 := hg.sqrt_pos ha
      refine ⟨phi, σ * (s0.len / e.geo.sqrt (tangentForm e G phi)), ?_, ?_⟩
      · rw [← mul_assoc]
        have : σ * σ = 1 := by rcases hσ with rfl | rfl <;> ring
        rw [this, one_mul]
        exact div_pos hlen hr0
      · rw [if_neg]
        · simp only [laterPredictor]
          rw [Act.bind_ok (Act.modify_apply _ _)]
          simp only [lambdaMU, Act.modify_apply, ← hphi]
          have hd : e.geo.dot (G e.forcing) (G e.forcing) + loadWeight e phi =
              tangentForm e G phi := rfl
          have hsg : sgn (e.geo.dot s0.DUold (G e.forcing) + loadWeight e phi * s0.DLold) = σ := by
            rw [a1, a2, hg.smul_left]
            have e1 : δ * e.geo.dot (G e.forcing) (G e.forcing) + loadWeight e phi * δ =
                δ * tangentForm e G phi := by rw [← hd]; ring
            rw [e1, sgn]
            rcases hσ with rfl | rfl
            · have : 0 < δ * tangentForm e G phi := mul_pos (by linarith) ha
              rw [if_pos this, if_neg (not_lt.2 this.le), sub_zero]
            · have : δ * tangentForm e G phi < 0 := mul_neg_of_neg_of_pos (by linarith) ha
              rw [if_neg (not_lt.2 this.le), if_pos this, zero_sub]
          rw [hd, hsg, if_neg hr0.ne']
        · rintro ⟨h, -⟩
          rw [a1, hg.smul_left, hg.smul_right, ← mul_assoc] at h
          exact (mul_pos (mul_self_pos.2 hδ) hww).ne' h
  rw [Act.bind_ok h3, Act.bind_ok (Act.modify_apply _ _), Act.modify_apply]
  by_cases hang : o.angle = .iteration ∨ o.angle = .predictor
  · refine ⟨_, phi, τ0, rfl, ?_, ?_, ?_⟩
    · rw [if_pos hang]
      exact ⟨rfl, rfl, zero_add _, zero_add _, rfl, rfl, rfl, rfl, rfl, rfl, rfl, hgu, rfl⟩
    · rw [if_pos hang]
      refine ⟨fun h => Bool.noConfusion h, ?_⟩
      simp only [zero_add]
      exact .inr ⟨_, rfl, rfl, hτ⟩
    · exact hτ
  · refine ⟨_, phi, τ0, rfl, ?_, ?_, ?_⟩
    · rw [if_neg hang]
      exact ⟨rfl, rfl, zero_add _, zero_add _, rfl, rfl, rfl, rfl, rfl, rfl, rfl, hgu, rfl⟩
    · rw [if_neg hang]
      exact ⟨fun h => Bool.noConfusion h, hh⟩
    · exact hτ

/-- Crisfield's method on a linear structure: a step that starts in equilibrium and moves away from
load 0 succeeds in at most two iterations, moves along the line of equilibria in the direction of the
previous step, and by exactly the prescribed length. -/
theorem C115_crisfield (hl : Linear e A G m0 f0) (hg : e.geo.Laws) {s : St K V Mat Fac} {σ : K}
    (hσ : σ = 1 ∨ σ = -1) (hh : Heading e G σ s.DUold s.DLold) (hL : 0 ≤ σ * s.L)
    (hi : s.initialized = true) (hgu : s.guess = none) (h0 : A s.U = s.L • e.forcing)
    (hF : e.geo.dot e.forcing e.forcing ≠ 0) (hw : e.geo.dot (G e.forcing) (G e.forcing) ≠ 0)
    (hlen : 0 < s.len) (hrel : o.relax = 1) (htF : 0 < o.tolF) (htU : 0 < o.tolU)
    (hmax : 3 ≤ o.maxIt) :
    ∃ t τ, step e o (crisfield e o) s = (t, .ok .success) ∧ t.U = s.U + τ • G e.forcing ∧
      t.L = s.L + τ ∧ 0 < σ * τ ∧ crDistance e t (t.U - s.U) (t.L - s.L) = s.len ∧
      A t.U = t.L • e.forcing ∧ t.numIt ≤ 2 ∧ Heading e G σ t.DUold t.DLold ∧ 0 < t.len ∧
      t.initialized = true ∧ t.guess = none ∧ (s.adaptive = false → t.len = s.len) ∧
      t.adaptive = s.adaptive := by
  obtain ⟨p, phi, τ0, hb, hp, hok, hτ0⟩ := starts_crisfield (o := o) hl hg hw hσ hh hlen hi hgu
  have hM := glides_crisfield (o := o) hl hg hw (s0 := s) (phi := phi) (τ0 := τ0) hσ hlen hrel
  set T := σ * (s.len / e.geo.sqrt (tangentForm e G phi)) with hT
  have hr0 := hg.sqrt_pos (tangentForm_pos (e := e) hg hw phi)
  have hσσ : σ * σ = 1 := by rcases hσ with rfl | rfl <;> ring
  have hTσ : 0 < σ * T := by
    rw [hT, ← mul_assoc, hσσ, one_mul]
    exact div_pos hlen hr0
  have hne : τ0 ≠ 0 := by rintro rfl; simp at hτ0
  have hnz : s.L + τ0 ≠ 0 := by
    intro hc
    have : σ * (s.L + τ0) = 0 := by rw [hc, mul_zero]
    rw [mul_add] at this
    linarith
  have hg1 : glide (fun τ => T - τ) τ0 1 = T := by simp [glide]
  have hg2 : glide (fun τ => T - τ) τ0 2 = T := by simp [glide]
  obtain ⟨j, hj, hgj, t, u, h1, h2, h3, h4, h5⟩ : ∃ j, j ≤ 1 ∧
      glide (fun τ => T - τ) τ0 (j + 1) = T ∧
      ∃ t u, ALM.step e o (crisfield e o) s = (t, .ok .success) ∧
      Ended e G s phi T (1 + j) t ∧ OnLine e G m0 f0 s phi τ0 T u ∧
      tanOk e G (fun _ x y => Heading e G σ x y) true T u ∧
      (t.DUold = T • G e.forcing ∧ t.DLold = T ∨ t.DUold = u.DUold ∧ t.DLold = u.DLold) := by
    by_cases hs : e.geo.norm ((T - τ0) • G e.forcing) / e.geo.norm (τ0 • G e.forcing) < o.tolU
    · have := hM.step (o := o) hl hg h0 htF (norm_smul_ne hg hnz hF) (norm_smul_ne hg hne hw) hb hp
        hok 0 (by omega) hs (by simp)
      rw [hg1] at this
      exact ⟨0, by omega, hg1, this⟩
    · have := hM.step (o := o) hl hg h0 htF (norm_smul_ne hg hnz hF) (norm_smul_ne hg hne hw) hb hp
        hok 1 (by omega)
        (by rw [hg1, sub_self, norm_zero_smul hg, zero_div]; exact htU)
        (fun i hi' => by
          obtain rfl : i = 0 := by omega
          exact hs)
      rw [hg2] at this
      exact ⟨1, le_rfl, hg2, this⟩
  have hdU : t.U - s.U = T • G e.forcing := by rw [h2.U, add_sub_cancel_left]
  have hdL : t.L - s.L = T := by rw [h2.L, add_sub_cancel_left]
  refine ⟨t, T, h1, h2.U, h2.L, hTσ, ?_, ?_, by rw [h2.numIt]; omega, ?_, ?_,
    h2.initialized.trans hi, h2.guess, h2.len, h2.adaptive⟩
  · rw [hdU, hdL, crDistance, h2.phi]
    refine hg.sqrt_eq hlen.le ?_
    have e1 : e.geo.dot (T • G e.forcing) (T • G e.forcing) + loadWeight e phi * T ^ 2 =
        T ^ 2 * tangentForm e G phi := by
      rw [hg.smul_left, hg.smul_right, tangentForm]; ring
    have e2 := hg.sqrt_sq _ (tangentForm_pos (e := e) hg hw phi).le
    have e3 : T ^ 2 = (σ * σ) * (s.len / e.geo.sqrt (tangentForm e G phi)) ^ 2 := by rw [hT]; ring
    rw [e1, e3, hσσ, one_mul, div_pow, e2]
    exact div_mul_cancel₀ _ (tangentForm_pos (e := e) hg hw phi).ne'
  · rw [h2.U, h2.L, map_add, map_smul, hl.inverse, h0, add_smul]
  · rcases h5 with ⟨a, b⟩ | ⟨a, b⟩
    · exact .inr ⟨T, a, b, hTσ⟩
    · rw [a, b]
      exact h4.2
  · have := (C34_step .crisfield h1 (by omega)).2.2
    rw [this]
    split
    · exact hlen
    · split
      · linarith
      · split
        · exact hlen
        · linarith

/-- Hence any number of steps succeeds: started in equilibrium at a load that is not negative, with
the default direction, every step of Crisfield's method on a linear structure ends in equilibrium, at
a larger load, and at the prescribed distance from the previous point. -/
theorem C115_crisfield_path (hl : Linear e A G m0 f0) (hg : e.geo.Laws) {s : St K V Mat Fac}
    (hh : s.DUold = 0 ∧ s.DLold = 0) (hL : 0 ≤ s.L)
    (hi : s.initialized = true) (hgu : s.guess = none) (h0 : A s.U = s.L • e.forcing)
    (hF : e.geo.dot e.forcing e.forcing ≠ 0) (hw : e.geo.dot (G e.forcing) (G e.forcing) ≠ 0)
    (hlen : 0 < s.len) (hrel : o.relax = 1) (htF : 0 < o.tolF) (htU : 0 < o.tolU)
    (hmax : 3 ≤ o.maxIt) (n : ℕ) :
    let at' := fun k => (fun s => (step e o (crisfield e o) s).1)^[k] s
    (step e o (crisfield e o) (at' n)).2 = .ok .success ∧ A (at' n).U = (at' n).L • e.forcing ∧
      (at' n).L < (at' (n + 1)).L ∧
      crDistance e (at' (n + 1)) ((at' (n + 1)).U - (at' n).U) ((at' (n + 1)).L - (at' n).L) =
        (at' n).len := by
  intro at'
  have inv : ∀ n, Heading e G 1 (at' n).DUold (at' n).DLold ∧ 0 ≤ (at' n).L ∧
      (at' n).initialized = true ∧ (at' n).guess = none ∧ A (at' n).U = (at' n).L • e.forcing ∧
      0 < (at' n).len := by
    intro n
    induction n with
    | zero => exact ⟨.inl ⟨hh.1, hh.2, rfl⟩, hL, hi, hgu, h0, hlen⟩
    | succ n ih =>
      obtain ⟨i1, i2, i3, i4, i5, i6⟩ := ih
      obtain ⟨t, τ, h1, -, h3, h4, -, h6, -, h8, h9, h10, h11, -⟩ := C115_crisfield (o := o) hl hg
        (.inl rfl) i1 (by rwa [one_mul]) i3 i4 i5 hF hw i6 hrel htF htU hmax
      have hat : at' (n + 1) = t := by
        simp only [at', Function.iterate_succ_apply'] at h1 ⊢
        rw [h1]
      rw [hat]
      exact ⟨h8, by rw [h3]; linarith, h10, h11, h6, h9⟩
  obtain ⟨i1, i2, i3, i4, i5, i6⟩ := inv n
  obtain ⟨t, τ, h1, -, h3, h4, h5, -⟩ := C115_crisfield (o := o) hl hg
    (.inl rfl) i1 (by rwa [one_mul]) i3 i4 i5 hF hw i6 hrel htF htU hmax
  have hat : at' (n + 1) = t := by
    simp only [at', Function.iterate_succ_apply'] at h1 ⊢
    rw [h1]
  rw [hat, h1]
  exact ⟨rfl, i5, by rw [h3]; linarith, h5⟩

end GsSA.ALM
