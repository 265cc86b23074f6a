import Verif.ALM.CrisfieldSpec
import Verif.ALM.StepProps

/-!
# Crisfield's method (C36, C37, C38)

`e.geo.Laws` holds for every real inner product space (`realGeo_laws`).
-/

namespace GsSA.ALM

open GsSA

set_option linter.unusedSectionVars false

variable {K V Mat Fac : Type} [Field K] [LinearOrder K] [IsStrictOrderedRing K] [AddCommGroup V]
variable [Module K V]
variable {e : Env K V Mat Fac} {o : Opts K}

theorem crDistance_eq (s : St K V Mat Fac) (x : V) (l : K) :
    crDistance e s x l = e.geo.sqrt (crForm e s.phi x l) := rfl

theorem crDistance_of_sq (hg : e.geo.Laws) {s : St K V Mat Fac} {x : V} {l a : K} (ha : 0 ≤ a)
    (h : crForm e s.phi x l = a ^ 2) : crDistance e s x l = a := hg.sqrt_eq ha h

/-! ## C36: the corrector -/

/-- After an iteration without relaxation that had real roots the accumulated increment is on the
sphere, whichever root was chosen. -/
theorem C36_real (hg : e.geo.Laws) (hr : o.relax = 1) {s t : St K V Mat Fac}
    (h : crIteration e o s = (t, .ok ())) (hk : lastRoots t.log = some .real)
    (ha : e.geo.dot t.Ut t.Ut + loadWeight e t.phi ≠ 0) (hlen : 0 ≤ s.len) :
    crDistance e t t.DU t.DL = s.len := by
  obtain ⟨s1, k, -, hk', hlen', -, -, hreal, -, -⟩ := crIteration_length hg hr h
  rw [hk] at hk'
  have := hreal (Option.some.inj hk').symm ha
  rw [hlen'] at this
  exact crDistance_of_sq hg hlen this

/-- The same for the scaling used when neither the quadratic nor its modification has real roots,
unless the point to be scaled is the centre. `s1` is the state after the computation of the
displacement correction. -/
theorem C36_scaled (hg : e.geo.Laws) (hr : o.relax = 1) {s t : St K V Mat Fac}
    (h : crIteration e o s = (t, .ok ())) (hk : lastRoots t.log = some .scaled)
    (ha : criticalLength e { s with Ubar := t.Ubar } ≠ 0) (hlen : 0 ≤ s.len) :
    crDistance e t t.DU t.DL = s.len := by
  obtain ⟨s1, k, hs1, hk', hlen', -, -, -, -, hsc⟩ := crIteration_length hg hr h
  rw [hk] at hk'
  have := hsc (Option.some.inj hk').symm (by rw [hs1]; exact ha)
  rw [hlen'] at this
  exact crDistance_of_sq hg hlen this

/-- With the modified roots the squared distance differs from the squared length by the discriminant
that remains for the damped correction. -/
theorem C36_modified (hg : e.geo.Laws) (hr : o.relax = 1) {s t : St K V Mat Fac}
    (h : crIteration e o s = (t, .ok ())) (hk : lastRoots t.log = some .modified)
    (ha : e.geo.dot t.Ut t.Ut + loadWeight e t.phi ≠ 0) :
    crDistance e t t.DU t.DL ^ 2 = s.len ^ 2 -
      (crQuad e { s with Ubar := t.Ubar }).disc
        ((crQuad e { s with Ubar := t.Ubar }).modified e.geo.sqrt).1 /
          (4 * (e.geo.dot t.Ut t.Ut + loadWeight e t.phi)) := by
  obtain ⟨s1, k, hs1, hk', hlen', hphi, hUt, -, hmod, -⟩ := crIteration_length hg hr h
  rw [hk] at hk'
  have := hmod (Option.some.inj hk').symm ha
  rw [crDistance_eq, hg.sqrt_sq _ (crForm_nonneg hg _ _ _), this, hlen', hUt, hphi, hs1]
  rfl

/-- A step that returns `Success` and whose last iteration had real roots (or used the scaling and
did not end at its start) moved by exactly the length in force, measured with the scaling of that
step. -/
theorem C36_step (hg : e.geo.Laws) (hr : o.relax = 1) (hmax : 2 ≤ o.maxIt) {s t : St K V Mat Fac}
    (h : step e o (crisfield e o) s = (t, .ok .success)) (hlen : 0 ≤ s.len)
    (hk : (lastRoots t.log = some .real ∧ e.geo.dot t.Ut t.Ut + loadWeight e t.phi ≠ 0) ∨
      (lastRoots t.log = some .scaled ∧ (t.U ≠ s.U ∨ t.L ≠ s.L))) :
    crDistance e t (t.U - s.U) (t.L - s.L) = s.len := by
  have hM : IsMethod e o (crisfield e o) := .crisfield
  have key := step_inv hM (s := s) (t := t)
    (P := fun u => u.U = s.U ∧ u.L = s.L ∧ u.len = s.len)
    (Q := fun u => (u.U = s.U ∧ u.L = s.L ∧ u.len = s.len) ∧ ∃ k, lastRoots u.log = some k ∧
      (k = .real → e.geo.dot u.Ut u.Ut + loadWeight e u.phi ≠ 0 →
        crForm e u.phi u.DU u.DL = u.len ^ 2) ∧
      (k = .scaled → (u.DU ≠ 0 ∨ u.DL ≠ 0) → crForm e u.phi u.DU u.DL = u.len ^ 2))
    ?_ ?_ (fun _ h => h.1) ?_ ?_ hmax h
  · obtain ⟨u, v, ⟨⟨h1, h2, h3⟩, k, h4, h5, h6⟩, h7, rfl⟩ := key
    obtain ⟨f1, f2, f3, f4, -, -, f7, f8, -, f10, -⟩ := finishStep_incr hM h7
    simp only at hk ⊢
    rw [f10, h4] at hk
    have hform : crForm e u.phi u.DU u.DL = s.len ^ 2 := by
      rw [← h3]
      rcases hk with ⟨hk, ha⟩ | ⟨hk, hne⟩
      · rw [f7, f8] at ha
        exact h5 (Option.some.inj hk) ha
      · refine h6 (Option.some.inj hk) ?_
        rw [f1, f2, h1, h2] at hne
        rcases hne with hne | hne
        · exact Or.inl fun h0 => hne (by rw [h0, add_zero])
        · exact Or.inr fun h0 => hne (by rw [h0, add_zero])
    apply crDistance_of_sq hg hlen
    simp only
    rw [f1, f2, f7, h1, h2, add_sub_cancel_left, add_sub_cancel_left]
    exact hform
  · intro a b hab ha
    simp only [incr, Incr.mk.injEq] at hab
    obtain ⟨a1, a2, a3, a4, a5, a6, a7, a8, a9, a10, a11, a12⟩ := hab
    rw [a1, a2, a7]
    exact ha
  · intro a b hab ha
    simp only [incrT, incr, Prod.mk.injEq, Incr.mk.injEq] at hab
    obtain ⟨⟨a1, a2, a3, a4, a5, a6, a7, a8, a9, a10, a11, a12⟩, a13⟩ := hab
    rw [a1, a2, a3, a4, a7, a8, a12, a13]
    exact ha
  · intro a b ha hb
    obtain ⟨s1, k, hs1, -, -, h3, h4, -⟩ := crIteration_ok hr hb
    obtain ⟨s2, k, hs2, hk', hl', hphi, hUt, hreal, -, hsc⟩ := crIteration_length hg hr hb
    obtain ⟨s3, k3, hs3, u1, u2, u3, u4, u5, u6, u7, u8, -, -, u10, -, -, hsc3⟩ :=
      crIteration_ok hr hb
    refine ⟨⟨u1.trans ha.1, u2.trans ha.2.1, u5.trans ha.2.2⟩, k, hk', hreal, ?_⟩
    intro hks hne
    refine hsc hks ?_
    intro h0
    have hk3 : k3 = .scaled := by
      rw [u10] at hk'
      simp only [lastRoots, Option.some.injEq] at hk'
      rw [hk', hks]
    obtain ⟨-, v1, v2⟩ := hsc3 hk3
    have hs : criticalLength e s3 = 0 := by
      rw [← h0, hs2, hs3, u8]
    rw [hs] at v1 v2
    simp only [div_zero, zero_smul, zero_sub, zero_mul] at v1 v2
    rw [u3, u4, v1, v2] at hne
    simp at hne
  · intro p hp
    have hi : s.initialized = true := by
      by_contra hi
      rw [beginStep_not_initialized (by simpa using hi)] at hp
      simp at hp
    obtain ⟨u, -⟩ := beginStep_spec hM.lawful hi hp
    exact ⟨u.U, u.L, u.len⟩

/-! ## C37: the predictor -/

theorem factorizeMatrix_ok {m : Mat} {s t : St K V Mat Fac}
    (h : factorizeMatrix e m s = (t, .ok ())) :
    ∃ f, t = { s with fac := f, log := .factor true :: s.log } := by
  unfold factorizeMatrix at h
  rw [Act.bind_ok (Act.get_apply s)] at h
  cases hf : e.factorize s.log.length m with
  | none => simp [hf, Act.bind_apply, emit] at h
  | some f =>
    simp only [hf, Act.bind_apply, emit, Act.modify_apply, Prod.mk.injEq] at h
    exact ⟨some f, h.1.symm⟩

theorem assembleFactorize_ok {s t : St K V Mat Fac} (h : assembleFactorize e s = (t, .ok ())) :
    ∃ m f l, t = { s with jac := m, fac := f, log := l } := by
  unfold assembleFactorize at h
  rw [Act.bind_ok (Act.get_apply s)] at h
  obtain ⟨s1, m, h1, h⟩ := Act.bind_ok_inv h
  unfold computeJacobianAt at h1
  rw [Act.bind_ok (Act.get_apply s)] at h1
  cases hj : e.jacobian s.log.length (s.U + s.DU) s.dU with
  | none => simp [hj, Act.bind_apply, emit] at h1
  | some m' =>
    simp only [hj] at h1
    rw [Act.bind_ok (by rfl : emit _ s = _)] at h1
    obtain ⟨s2, ⟨⟩, h2, h1⟩ := Act.bind_ok_inv h1
    obtain ⟨f2, rfl⟩ := factorizeMatrix_ok h2
    simp only [Act.pure_apply, Prod.mk.injEq, Except.ok.injEq] at h1
    obtain ⟨rfl, rfl⟩ := h1
    rw [Act.bind_ok (Act.modify_apply _ _)] at h
    obtain ⟨f3, rfl⟩ := factorizeMatrix_ok h
    exact ⟨_, f3, _, rfl⟩

/-- The scaling which the predictor of a later step uses. -/
def laterPhi (e : Env K V Mat Fac) (o : Opts K) (s : St K V Mat Fac) : K :=
  if o.phiUser then s.phi
  else e.geo.sqrt (e.geo.dot s.U s.U / (s.L ^ 2 * e.geo.dot e.forcing e.forcing))

/-- The increment of `computeLambdaMU` for a previous increment `(x, l)`. -/
def muIncrement (e : Env K V Mat Fac) (phi len : K) (Ut x : V) (l : K) : K :=
  sgn (e.geo.dot x Ut + loadWeight e phi * l) *
    (if e.geo.sqrt (e.geo.dot Ut Ut + loadWeight e phi) = 0 then len
      else len / e.geo.sqrt (e.geo.dot Ut Ut + loadWeight e phi))

/-- The increments and the scaling after the predictor. -/
theorem beginStep_crisfield {s p : St K V Mat Fac} (h : beginStep e (crisfield e o) s = (p, .ok ())) :
    p.len = s.len ∧
    (usesGuess e s = false → e.geo.dot s.DUold s.DUold = 0 ∧ s.DLold * s.DLold = 0 →
      p.phi = (if o.phiUser then s.phi else
        e.geo.sqrt (e.geo.dot p.Ut p.Ut / e.geo.dot e.forcing e.forcing)) ∧
      p.DL = s.len / e.geo.sqrt (2 * e.geo.dot p.Ut p.Ut) ∧ p.DU = p.DL • p.Ut) ∧
    (usesGuess e s = false → ¬(e.geo.dot s.DUold s.DUold = 0 ∧ s.DLold * s.DLold = 0) →
      p.phi = laterPhi e o s ∧
      p.DL = muIncrement e p.phi s.len p.Ut s.DUold s.DLold ∧ p.DU = p.DL • p.Ut) ∧
    (usesGuess e s = true →
      p.phi = (if o.phiUser then s.phi else
        e.geo.sqrt (e.geo.dot p.Ut p.Ut / e.geo.dot e.forcing e.forcing)) ∧
      p.DL = muIncrement e p.phi s.len p.Ut (-(s.guess.getD 0 - s.U)) (-(s.Lguess - s.L)) ∧
      p.DU = p.DL • p.Ut) := by
  have hi : s.initialized = true := by
    by_contra hi
    rw [beginStep_not_initialized (by simpa using hi)] at h
    simp at h
  unfold beginStep at h
  rw [Act.bind_ok (Act.get_apply s), if_neg (by simp [hi]),
    Act.bind_ok (Act.pure_apply _ _), Act.bind_ok (Act.modify_apply _ _)] at h
  simp only [crisfield] at h
  rw [Act.bind_ok (Act.modify_apply _ _), Act.bind_ok (Act.get_apply _)] at h
  change (if usesGuess e s = true then _ else _ : Act _ _).run _ = _ at h
  split at h
  · next hu =>
    unfold crPredictorGuess at h
    obtain ⟨s1, ⟨⟩, h1, h⟩ := Act.bind_ok_inv h
    obtain ⟨m, f, l, rfl⟩ := assembleFactorize_ok h1
    obtain ⟨s2, ⟨⟩, h2, h⟩ := Act.bind_ok_inv h
    obtain ⟨Ut, rfl⟩ := computeUt_ok h2
    simp only [Act.bind_apply, Act.modify_apply, lambdaMU, Prod.mk.injEq] at h
    obtain ⟨rfl, -⟩ := h
    refine ⟨rfl, fun h => by simp [hu] at h, fun h => by simp [hu] at h, fun _ => ⟨rfl, rfl, rfl⟩⟩
  · next hu =>
    unfold crPredictor at h
    obtain ⟨s1, ⟨⟩, h1, h⟩ := Act.bind_ok_inv h
    obtain ⟨m, f, l, rfl⟩ := assembleFactorize_ok h1
    obtain ⟨s2, ⟨⟩, h2, h⟩ := Act.bind_ok_inv h
    obtain ⟨Ut, rfl⟩ := computeUt_ok h2
    rw [Act.bind_ok (Act.get_apply _)] at h
    simp only at h
    by_cases h0 : e.geo.dot s.DUold s.DUold = 0 ∧ s.DLold * s.DLold = 0
    · rw [if_pos h0] at h
      simp only [Act.bind_apply, Act.modify_apply, firstPredictor, Prod.mk.injEq] at h
      obtain ⟨h, -⟩ := h
      refine ⟨?_, fun _ _ => ?_, fun _ h => absurd h0 h, fun h => absurd h hu⟩
      · rw [← h]
        split <;> rfl
      · rw [← h]
        split
        · exact ⟨rfl, zero_add _, by simp⟩
        · exact ⟨rfl, zero_add _, by simp⟩
    · rw [if_neg h0] at h
      simp only [Act.bind_apply, Act.modify_apply, laterPredictor, lambdaMU, Prod.mk.injEq] at h
      obtain ⟨h, -⟩ := h
      refine ⟨?_, fun _ h => absurd h h0, fun _ _ => ?_, fun h => absurd h hu⟩
      · rw [← h]
        split <;> rfl
      · rw [← h]
        split
        · exact ⟨rfl, zero_add _, by simp⟩
        · exact ⟨rfl, zero_add _, by simp⟩

theorem sgn_sq {x : K} (h : x ≠ 0) : sgn x ^ 2 = 1 := by
  unfold sgn
  rcases lt_or_gt_of_ne h with h | h
  · simp [h, h.not_gt]
  · simp [h, h.not_gt]

theorem sgn_mul_self (x : K) : sgn x * x = |x| := by
  unfold sgn
  rcases lt_trichotomy x 0 with h | h | h
  · simp [h, h.not_gt, abs_of_neg h]
  · simp [h]
  · simp [h, h.not_gt, abs_of_pos h]

theorem crForm_smul (hg : e.geo.Laws) (phi a : K) (Ut : V) :
    crForm e phi (a • Ut) a = a ^ 2 * (e.geo.dot Ut Ut + loadWeight e phi) := by
  simp only [crForm, hg.smul_left, hg.smul_right]
  ring

/-- The first predictor with the default scaling has the prescribed length. -/
theorem C37_first (hg : e.geo.Laws) {s p : St K V Mat Fac}
    (h : beginStep e (crisfield e o) s = (p, .ok ())) (hu : usesGuess e s = false)
    (h0 : e.geo.dot s.DUold s.DUold = 0 ∧ s.DLold * s.DLold = 0) (hphi : o.phiUser = false)
    (hF : e.geo.dot e.forcing e.forcing ≠ 0) (hUt : e.geo.dot p.Ut p.Ut ≠ 0) (hlen : 0 ≤ s.len) :
    crDistance e p p.DU p.DL = s.len := by
  obtain ⟨-, h1, -, -⟩ := beginStep_crisfield h
  obtain ⟨h2, h3, h4⟩ := h1 hu h0
  rw [hphi] at h2
  simp only [Bool.false_eq_true, if_false] at h2
  apply crDistance_of_sq hg hlen
  rw [h4, crForm_smul hg, loadWeight, h2, h3, div_pow,
    hg.sqrt_sq _ (div_nonneg (hg.nonneg _) (hg.nonneg _)),
    hg.sqrt_sq _ (mul_nonneg zero_le_two (hg.nonneg _))]
  field_simp
  ring

/-- With a scaling set by the user the squared length of the first predictor is the prescribed one
times `(Ut·Ut + phi² F·F) / (2 Ut·Ut)`. -/
theorem C37_first_userPhi (hg : e.geo.Laws) {s p : St K V Mat Fac}
    (h : beginStep e (crisfield e o) s = (p, .ok ())) (hu : usesGuess e s = false)
    (h0 : e.geo.dot s.DUold s.DUold = 0 ∧ s.DLold * s.DLold = 0) (hphi : o.phiUser = true)
    (hUt : e.geo.dot p.Ut p.Ut ≠ 0) :
    crDistance e p p.DU p.DL ^ 2 = s.len ^ 2 *
      ((e.geo.dot p.Ut p.Ut + s.phi ^ 2 * e.geo.dot e.forcing e.forcing) /
        (2 * e.geo.dot p.Ut p.Ut)) := by
  obtain ⟨-, h1, -, -⟩ := beginStep_crisfield h
  obtain ⟨h2, h3, h4⟩ := h1 hu h0
  rw [hphi] at h2
  simp only [if_true] at h2
  rw [crDistance_eq, hg.sqrt_sq _ (crForm_nonneg hg _ _ _), h4, crForm_smul hg, loadWeight, h2, h3,
    div_pow, hg.sqrt_sq _ (mul_nonneg zero_le_two (hg.nonneg _))]
  field_simp

theorem muIncrement_length (hg : e.geo.Laws) {phi len l : K} {Ut x : V} (hlen : 0 ≤ len)
    (ha : e.geo.dot Ut Ut + loadWeight e phi ≠ 0)
    (hw : e.geo.dot x Ut + loadWeight e phi * l ≠ 0) :
    crForm e phi (muIncrement e phi len Ut x l • Ut) (muIncrement e phi len Ut x l) = len ^ 2 := by
  have hpos : 0 ≤ e.geo.dot Ut Ut + loadWeight e phi :=
    add_nonneg (hg.nonneg _) (loadWeight_nonneg hg _)
  have hs : e.geo.sqrt (e.geo.dot Ut Ut + loadWeight e phi) ≠ 0 :=
    (hg.sqrt_pos (lt_of_le_of_ne hpos (Ne.symm ha))).ne'
  rw [crForm_smul hg, muIncrement, if_neg hs, mul_pow, sgn_sq hw, one_mul, div_pow,
    hg.sqrt_sq _ hpos, div_mul_cancel₀ _ ha]

/-- A later predictor has the prescribed length, unless the previous increment is orthogonal to the
tangent, in which case it is zero. -/
theorem C37_later (hg : e.geo.Laws) {s p : St K V Mat Fac}
    (h : beginStep e (crisfield e o) s = (p, .ok ())) (hu : usesGuess e s = false)
    (h0 : ¬(e.geo.dot s.DUold s.DUold = 0 ∧ s.DLold * s.DLold = 0))
    (ha : e.geo.dot p.Ut p.Ut + loadWeight e p.phi ≠ 0) (hlen : 0 ≤ s.len) :
    if e.geo.dot s.DUold p.Ut + loadWeight e p.phi * s.DLold = 0 then p.DU = 0 ∧ p.DL = 0
    else crDistance e p p.DU p.DL = s.len := by
  obtain ⟨-, -, h1, -⟩ := beginStep_crisfield h
  obtain ⟨-, h3, h4⟩ := h1 hu h0
  split
  · next hw =>
    have : p.DL = 0 := by
      rw [h3, muIncrement, hw]
      simp [sgn]
    exact ⟨by rw [h4, this, zero_smul], this⟩
  · next hw =>
    apply crDistance_of_sq hg hlen
    rw [h4, h3]
    exact muIncrement_length hg hlen ha hw

/-- A later predictor does not go back: its projection on the previous increment is not negative. -/
theorem C37_forward (hg : e.geo.Laws) {s p : St K V Mat Fac}
    (h : beginStep e (crisfield e o) s = (p, .ok ())) (hu : usesGuess e s = false)
    (h0 : ¬(e.geo.dot s.DUold s.DUold = 0 ∧ s.DLold * s.DLold = 0)) (hlen : 0 ≤ s.len) :
    0 ≤ e.geo.dot s.DUold p.DU + loadWeight e p.phi * (s.DLold * p.DL) := by
  obtain ⟨-, -, h1, -⟩ := beginStep_crisfield h
  obtain ⟨-, h3, h4⟩ := h1 hu h0
  have : e.geo.dot s.DUold p.DU + loadWeight e p.phi * (s.DLold * p.DL) =
      p.DL * (e.geo.dot s.DUold p.Ut + loadWeight e p.phi * s.DLold) := by
    rw [h4, hg.smul_right]
    ring
  rw [this, h3, muIncrement, mul_right_comm, sgn_mul_self]
  refine mul_nonneg (abs_nonneg _) ?_
  split
  · exact hlen
  · exact div_nonneg hlen (hg.sqrt_nonneg _)

/-- When the previous increment is orthogonal to the tangent the step cannot succeed. -/
theorem C37_degenerate (hg : e.geo.Laws) (hmax : 2 ≤ o.maxIt) {s p : St K V Mat Fac}
    (h : beginStep e (crisfield e o) s = (p, .ok ())) (hu : usesGuess e s = false)
    (h0 : ¬(e.geo.dot s.DUold s.DUold = 0 ∧ s.DLold * s.DLold = 0))
    (hw : e.geo.dot s.DUold p.Ut + loadWeight e p.phi * s.DLold = 0) :
    (step e o (crisfield e o) s).2 ≠ .ok .success := by
  intro hs
  rcases hst : step e o (crisfield e o) s with ⟨t, r⟩
  rw [hst] at hs
  simp only at hs
  subst hs
  obtain ⟨p', n, r, hp, -, -, -, hne, -⟩ := C32_success .crisfield hst hmax
  rw [h] at hp
  simp only [Prod.mk.injEq, and_true] at hp
  subst hp
  obtain ⟨-, -, h1, -⟩ := beginStep_crisfield h
  obtain ⟨-, h3, h4⟩ := h1 hu h0
  apply hne
  rw [h4, h3, muIncrement, hw, Geo.norm]
  simp [sgn, hg.zero_left, hg.sqrt_zero]

/-! ## C38: the choice of the root -/

/-- The root chosen has the larger value of the measure used by the code, `x (DUold·Ut + phi²
DLold)`. -/
theorem C38_measure (s : St K V Mat Fac) (x1 x2 : K) :
    let w := e.geo.dot s.DUold s.Ut + s.phi ^ 2 * s.DLold
    (chooseDOT e s x1 x2 = x1 ∨ chooseDOT e s x1 x2 = x2) ∧
      x1 * w ≤ chooseDOT e s x1 x2 * w ∧ x2 * w ≤ chooseDOT e s x1 x2 * w := by
  intro w
  refine ⟨chooseDOT_mem s x1 x2, ?_⟩
  unfold chooseDOT
  simp only
  split
  · next h => exact ⟨le_rfl, h.le⟩
  · next h =>
    split
    · next h' => exact ⟨h'.le, le_rfl⟩
    · next h' => exact ⟨le_rfl, not_lt.1 h'⟩

/-- The projection of the increment after a correction with load update `x` on the previous
increment, in the metric in which the length is measured. -/
def projection (e : Env K V Mat Fac) (s : St K V Mat Fac) (x : K) : K :=
  e.geo.dot s.DUold (s.DU + (s.Ubar + x • s.Ut)) + loadWeight e s.phi * (s.DLold * (s.DL + x))

/-- If the load vector is a unit vector, the chosen root has the larger projection on the previous
increment; so the iteration does not turn back if one of the roots goes forward. -/
theorem C38_projection_partial (hg : e.geo.Laws) (hF : e.geo.dot e.forcing e.forcing = 1)
    (s : St K V Mat Fac) (x1 x2 : K) :
    projection e s x1 ≤ projection e s (chooseDOT e s x1 x2) ∧
      projection e s x2 ≤ projection e s (chooseDOT e s x1 x2) ∧
      (0 < projection e s x1 ∨ 0 < projection e s x2 →
        0 < projection e s (chooseDOT e s x1 x2)) := by
  have key : ∀ x, projection e s x = projection e s 0 +
      x * (e.geo.dot s.DUold s.Ut + s.phi ^ 2 * s.DLold) := by
    intro x
    simp only [projection, loadWeight, hF, hg.add_right, hg.smul_right]
    ring
  obtain ⟨-, h1, h2⟩ := C38_measure (e := e) s x1 x2
  have a1 : projection e s x1 ≤ projection e s (chooseDOT e s x1 x2) := by
    rw [key x1, key (chooseDOT e s x1 x2)]
    linarith
  have a2 : projection e s x2 ≤ projection e s (chooseDOT e s x1 x2) := by
    rw [key x2, key (chooseDOT e s x1 x2)]
    linarith
  refine ⟨a1, a2, ?_⟩
  rintro (h | h)
  · exact h.trans_le a1
  · exact h.trans_le a2

section examples

open Demo

/-- A state in the middle of a step: previous increment `(2, -1)`, load vector 2, scaling 1, length
5/2, tangent 3/2, no residual. -/
private def midState : St ℚ ℚ ℚ ℚ :=
  { start (5 / 2) false with DUold := 2, DLold := -1, Ut := 3 / 2, fac := some 1 }

private def env2 : Env ℚ ℚ ℚ ℚ := { env 0 fine fine with forcing := 2 }

/-- For a load vector of length 2 the choice turns back: the increment after the iteration has the
prescribed length and projection -1 on the previous increment, while the opposite increment, which
belongs to the other root, has the prescribed length and projection 1. -/
theorem C38_violated_longLoad :
    let t := (crIteration env2 (opts 10 5) midState).1
    (crIteration env2 (opts 10 5) midState).2 = .ok () ∧
      crDistance env2 t t.DU t.DL = 5 / 2 ∧ crDistance env2 t (-t.DU) (-t.DL) = 5 / 2 ∧
      projection env2 { midState with Ubar := t.Ubar } t.dL = -1 ∧
      projection env2 { midState with Ubar := t.Ubar } (-t.dL) = 1 := by
  decide +kernel

/-- In a complete step of the nonlinear problem the last roots are real. The examples that need an
exact square root are in `RealDemo`. -/
example : lastRoots (step (env 1 fine fine) (opts 10 5) (crisfield (env 1 fine fine) (opts 10 5))
    (start 1 true)).1.log = some .real := by decide +kernel

end examples

end GsSA.ALM
