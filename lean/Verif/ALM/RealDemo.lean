import Verif.ALM.CrisfieldProps
import Verif.ALM.RiksProps
import Verif.ALM.Metric
import Verif.ALM.ModifiedRoots

/-!
# Examples over the real numbers for the Crisfield and Riks theorems

The theorems of `CrisfieldProps` and `RiksProps` assume an exact square root, so their examples are evaluated over
`ℝ`: one degree of freedom, stiffness 1, load 1, scaling 4/3, length 5/3, previous increment (1, 1).
-/

namespace GsSA.ALM.RealDemo

open GsSA

set_option linter.unusedSimpArgs false

/-- The problem. -/
noncomputable def lin : Env ℝ ℝ ℝ ℝ where
  geo := realGeo ℝ
  forcing := 1
  numDof := 1
  ones := 1
  residual _ u l := some (u - l)
  jacobian _ _ _ := some 1
  factorize _ m := if m = 0 then none else some m
  solve _ f b := some (b / f)
  mul m u := m * u
  vecD f := [f]
  eigs _ m _ := some [m]

/-- The options. -/
noncomputable def linOpts : Opts ℝ where
  maxIt := 10
  tol := 1 / 1000
  tolF := 1 / 1000
  tolU := 1 / 1000
  tau := 1000
  desiredIt := 5
  quasi := false
  quasiInterval := -1
  bifMethod := .nothing
  relax := 1
  spFail := 0
  spTestTol := 1 / 1000
  spTestIt := 5
  spTolE := 1 / 1000
  spTolB := 0
  phiUser := true
  angle := .step

/-- The state before the step. -/
noncomputable def linStart : St ℝ ℝ ℝ ℝ where
  U := 0
  L := 0
  DU := 0
  DL := 0
  dU := 0
  dL := 0
  Ubar := 0
  Ut := 0
  Uprev := 0
  Lprev := 0
  DUold := 1
  DLold := 1
  guess := none
  Lguess := 0
  resVec := 0
  jac := 0
  fac := none
  len := 5/3
  lenPrev := 5/3
  lenOri := 5/3
  adaptive := false
  phi := 4/3
  numIt := 0
  residueF := none
  residueU := none
  basisF := 0
  basisU := 0
  converged := false
  stabVec := []
  negatives := 0
  indicator := 0
  stability := 0
  stabilityPrev := 0
  status := .notStarted
  initialized := true
  v := 0
  DV := 0
  dV := 0
  residueKTPhi := 0
  log := []

theorem lin_sqrt : (lin.geo.sqrt : ℝ → ℝ) = Real.sqrt := rfl
theorem lin_dot (x y : ℝ) : lin.geo.dot x y = x * y := by simp [lin, realGeo, mul_comm]


theorem lin_norm (x : ℝ) : lin.geo.norm x = |x| := by simp [Geo.norm, lin_sqrt, lin_dot, Real.sqrt_mul_self_eq_abs]

theorem lin_forcing : lin.forcing = 1 := rfl
theorem lin_residual (n u l) : lin.residual n u l = some (u-l) := rfl
theorem lin_jacobian (n u l) : lin.jacobian n u l = some 1 := rfl
theorem lin_factorize (n l) : lin.factorize n l = if l = 0 then none else some l := rfl
theorem lin_solve (n f l) : lin.solve n f l = some (l/f) := rfl
theorem lin_mul (m u) : lin.mul m u = m * u := rfl
theorem lin_numDof  : lin.numDof = 1 := rfl



theorem q25 : Real.sqrt 25 = 5 := by
  rw [show (25:ℝ) = 5^2 by norm_num]; exact Real.sqrt_sq (by norm_num)
theorem q9 : Real.sqrt 9 = 3 := by
  rw [show (9:ℝ) = 3^2 by norm_num]; exact Real.sqrt_sq (by norm_num)
theorem q2500 : Real.sqrt 2500 = 50 := by
  rw [show (2500:ℝ) = 50^2 by norm_num]; exact Real.sqrt_sq (by norm_num)
theorem q81 : Real.sqrt 81 = 9 := by
  rw [show (81:ℝ) = 9^2 by norm_num]; exact Real.sqrt_sq (by norm_num)

/-- The state after the predictor. -/
noncomputable def predicted : St ℝ ℝ ℝ ℝ :=
  { linStart with
    DU := 1, DL := 1, dU := 1, dL := 1, Ut := 1, jac := 1, fac := some 1
    log := [.solve true, .factor true, .factor true, .jacobian true] }

theorem predicted_eq : beginStep lin (crisfield lin linOpts) linStart = (predicted, .ok ()) := by
  norm_num [beginStep, Act.bind_apply, crisfield, linStart, usesGuess, crPredictor, lin_dot,
    assembleFactorize, computeJacobianAt, emit, factorizeMatrix, computeUt, solveSystem,
    laterPredictor, lambdaMU, linOpts, lin_sqrt, loadWeight, sgn, lin_forcing, lin_jacobian,
    lin_factorize, lin_solve, predicted, q25, q9]

/-- The state before the first iteration. -/
noncomputable def tested : St ℝ ℝ ℝ ℝ :=
  { predicted with
    resVec := 0, basisF := 1, basisU := 1, residueF := some 0, residueU := some 1, numIt := 1
    log := .residual true :: predicted.log }

/-- The state after the first iteration. -/
noncomputable def corrected : St ℝ ℝ ℝ ℝ :=
  { tested with
    dU := 0, dL := 0, residueU := some 0, stabVec := [0], stability := -1, status := .success
    log := .residual true :: .roots .real :: .solve true :: .solve true :: .factor true ::
      .factor true :: .jacobian true :: tested.log }

theorem corrected_eq :
    iterationBody lin linOpts (crisfield lin linOpts) tested = (corrected, .ok ()) := by
  norm_num [iterationBody, Act.bind_apply, crisfield, quasiIterationUt, crIteration, lin_dot,
    assembleFactorize, computeJacobianAt, emit, factorizeMatrix, computeUt, computeUbar,
    solveSystem, linOpts, lin_sqrt, lin_forcing, lin_residual, lin_jacobian, lin_factorize,
    lin_solve, lin_numDof, predicted, tested, corrected, linStart, computeStability,
    computeStabilityRaw, caught, computeResidual, computeResidualNorms, evalResidual, refreshes,
    stabilityVector, minCoeff, computeLambdas, crQuad, Quad.disc, disc, Quad.alpha2, Quad.alpha3,
    loadWeight, lambdaDOT, chooseDOT, countNegatives, stabilityOf, ratio, lin_norm,
    List.replicate, q2500, q81]

/-- The state after the step. -/
noncomputable def finished : St ℝ ℝ ℝ ℝ :=
  { corrected with converged := true, U := 1, L := 1 }

theorem finished_eq : step lin linOpts (crisfield lin linOpts) linStart = (finished, .ok .success) := by
  have h : stepRaw lin linOpts (crisfield lin linOpts) linStart = (finished, .ok ()) := by
    unfold stepRaw
    rw [Act.bind_ok predicted_eq]
    have h1 : computeResidual lin predicted =
        ({ predicted with resVec := 0, log := .residual true :: predicted.log }, .ok ()) := by
      simp [computeResidual, evalResidual, Act.bind_apply, lin_residual, emit, predicted, linStart]
    rw [Act.bind_ok h1]
    have h2 : ∀ s : St ℝ ℝ ℝ ℝ, s = { predicted with resVec := 0, log := .residual true :: predicted.log } →
        computeResidualNorms lin s = ({ tested with numIt := 0 }, .ok ()) := by
      rintro _ rfl
      simp [computeResidualNorms, predicted, linStart, tested, lin_norm, ratio, lin_forcing]
    rw [Act.bind_ok (h2 _ rfl), if_neg (by simp [linOpts]), Act.bind_ok (Act.pure_apply _ _),
      Act.bind_ok (Act.modify_apply _ _)]
    change iterate lin linOpts _ (8 + 1) tested = _
    unfold iterate
    rw [Act.bind_ok corrected_eq, Act.bind_ok (Act.get_apply _), if_pos (by
      simp [meets, below, corrected, linOpts, tested, predicted, linStart])]
    simp [finishStep, crisfield, Act.bind_apply, acceptStep, linOpts, corrected, tested, predicted,
      linStart, finished]
  simp [step, caught, h, finished, corrected]

theorem lin_laws : lin.geo.Laws := realGeo_laws ℝ

/-- `C36_step`: the step moved by 5/3. -/
example : crDistance lin finished (finished.U - linStart.U) (finished.L - linStart.L) = 5 / 3 :=
  C36_step lin_laws rfl (by simp [linOpts]) finished_eq (by norm_num [linStart]) (Or.inl ⟨rfl, by
    norm_num [lin_dot, loadWeight, finished, corrected, tested, predicted, linStart, lin_forcing]⟩)

theorem q4 : Real.sqrt 4 = 2 := by
  rw [show (4:ℝ) = 2^2 by norm_num]; exact Real.sqrt_sq (by norm_num)

/-- `C36_real`: the increment `(1, 1)`, a residual of -1 and length 1; the discriminant is 4. -/
example : ∃ t, crIteration lin linOpts { linStart with DU := 1, DL := 1, Ut := 1, resVec := -1, fac := some 1, len := 1 } =
    (t, .ok ()) ∧ lastRoots t.log = some .real ∧ crDistance lin t t.DU t.DL = 1 ∧ t.dL ≠ 0 := by
  have h : ∃ t, crIteration lin linOpts
      { linStart with DU := 1, DL := 1, Ut := 1, resVec := -1, fac := some 1, len := 1 } = (t, .ok ()) ∧
      lastRoots t.log = some .real ∧ t.Ut = 1 ∧ t.phi = 4 / 3 ∧ t.dL ≠ 0 := by
    norm_num [crIteration, computeUbar, solveSystem, Act.bind_apply, linStart, lin_solve, emit, lin_dot, lin_forcing,
      computeLambdas, crQuad, Quad.disc, disc, Quad.alpha2, Quad.alpha3, loadWeight, lambdaDOT, chooseDOT, linOpts,
      lin_sqrt, q4]
    simp [lastRoots]
  obtain ⟨t, h, hk, hU, hp, hd⟩ := h
  exact ⟨t, h, hk, C36_real lin_laws rfl h hk (by norm_num [hU, hp, lin_dot, loadWeight, lin_forcing])
    (by norm_num), hd⟩

/-- `C36_modified`: the increment 0, a residual of -2 and length 4/5. The quadratic has no real roots, those of the
modified one have `eta = 9/20`. -/
example : ∃ t, crIteration lin linOpts { linStart with Ut := 1, resVec := -2, fac := some 1, len := 4/5 } =
    (t, .ok ()) ∧ lastRoots t.log = some .modified ∧ crDistance lin t t.DU t.DL ^ 2 < (4/5)^2 ∧ t.Ubar = 2 := by
  have q : Real.sqrt 65536 = 256 := by
    rw [show (65536:ℝ) = 256^2 by norm_num]; exact Real.sqrt_sq (by norm_num)
  have h : ∃ t, crIteration lin linOpts { linStart with Ut := 1, resVec := -2, fac := some 1, len := 4/5 } =
      (t, .ok ()) ∧ lastRoots t.log = some .modified ∧ t.Ut = 1 ∧ t.phi = 4 / 3 ∧ t.Ubar = 2 := by
    norm_num [crIteration, computeUbar, solveSystem, Act.bind_apply, linStart, lin_solve, emit, lin_dot, lin_forcing,
      computeLambdas, crQuad, Quad.disc, disc, Quad.alpha2, Quad.alpha3, Quad.modified, loadWeight, lambdaDOT,
      chooseDOT, linOpts, lin_sqrt, q, q81, abs_of_pos]
    simp [lastRoots]
  obtain ⟨t, h, hk, hU, hp, hb⟩ := h
  refine ⟨t, h, hk, ?_, hb⟩
  rw [C36_modified lin_laws rfl h hk (by norm_num [hU, hp, lin_dot, loadWeight, lin_forcing])]
  norm_num [hU, hp, hb, crQuad, Quad.disc, disc, Quad.alpha2, Quad.alpha3, Quad.modified, linStart, lin_dot,
    lin_forcing, loadWeight, lin_sqrt, q, q81, abs_of_pos]

/-- `C36_modified_eta` and `C36_modified_inside`: the increment 0, a residual of -2 and length 4/5. The quadratic has no real roots, those of the
modified one have `eta = 9/20`. -/
example : ∃ t, crIteration lin linOpts { linStart with Ut := 1, resVec := -2, fac := some 1, len := 4/5 } =
    (t, .ok ()) ∧ lastRoots t.log = some .modified ∧ crDistance lin t t.DU t.DL ≤ 4/5 ∧
      ∃ eta r1 r2 : ℝ, r1 ≤ r2 ∧
        (∀ x : ℝ, (∃ l : ℝ, crDistance lin t (x * 2 + l * 1) l = 4/5) ↔ r1 ≤ x ∧ x ≤ r2) ∧
        (r2 < 1 ∧ eta = r2 - (r2 - r1) / 20 ∨ 1 < r1 ∧ eta = r1 + (r2 - r1) / 20) ∧
        1 / 20 < eta ∧ t.DU = eta * 2 + t.dL * 1 := by
  have q : Real.sqrt 65536 = 256 := by
    rw [show (65536:ℝ) = 256^2 by norm_num]; exact Real.sqrt_sq (by norm_num)
  have h : ∃ t, crIteration lin linOpts { linStart with Ut := 1, resVec := -2, fac := some 1, len := 4/5 } =
      (t, .ok ()) ∧ lastRoots t.log = some .modified ∧ t.Ut = 1 ∧ t.phi = 4 / 3 ∧ t.Ubar = 2 := by
    norm_num [crIteration, computeUbar, solveSystem, Act.bind_apply, linStart, lin_solve, emit, lin_dot, lin_forcing,
      computeLambdas, crQuad, Quad.disc, disc, Quad.alpha2, Quad.alpha3, Quad.modified, loadWeight, lambdaDOT,
      chooseDOT, linOpts, lin_sqrt, q, q81, abs_of_pos]
    simp [lastRoots]
  obtain ⟨t, h, hk, hU, hp, hb⟩ := h
  have ha : lin.geo.dot t.Ut t.Ut + loadWeight lin t.phi ≠ 0 := by
    norm_num [hU, hp, lin_dot, loadWeight, lin_forcing]
  have hne : lin.geo.dot t.Ubar t.Ut ^ 2 ≠
      (lin.geo.dot t.Ut t.Ut + loadWeight lin t.phi) * lin.geo.dot t.Ubar t.Ubar := by
    norm_num [hU, hp, hb, lin_dot, loadWeight, lin_forcing]
  have hl : (0 : ℝ) ≤ 4 / 5 := by norm_num
  refine ⟨t, h, hk, C36_modified_inside lin_laws rfl h hk ha hl hne, ?_⟩
  obtain ⟨eta, r1, r2, h1, h2, h3, h4, h5, -⟩ := C36_modified_eta lin_laws rfl h hk ha hl hne
  refine ⟨eta, r1, r2, h1, fun x => ?_, h3, h4, ?_⟩
  · have := h2 x
    simpa [hb, hU, linStart] using this
  · simpa [hb, hU, linStart] using h5

/-- `C36_scaled`: the increment `(2, 0)`, a residual of -1 and length 4/5. Neither quadratic has usable roots. -/
example : ∃ t, crIteration lin linOpts
    { linStart with U := 1, DU := 2, Ut := 1, resVec := -1, jac := 1, fac := some 1, len := 4/5 } =
    (t, .ok ()) ∧ lastRoots t.log = some .scaled ∧ crDistance lin t t.DU t.DL = 4/5 := by
  have q : Real.sqrt 16384 = 128 := by
    rw [show (16384:ℝ) = 128^2 by norm_num]; exact Real.sqrt_sq (by norm_num)
  have h : ∃ t, crIteration lin linOpts
      { linStart with U := 1, DU := 2, Ut := 1, resVec := -1, jac := 1, fac := some 1, len := 4/5 } =
      (t, .ok ()) ∧ lastRoots t.log = some .scaled ∧ t.Ubar = 1 := by
    norm_num [crIteration, computeUbar, solveSystem, Act.bind_apply, linStart, lin_solve, emit, lin_dot, lin_forcing,
      computeLambdas, crQuad, Quad.disc, disc, Quad.alpha2, Quad.alpha3, Quad.modified, loadWeight, lambdasComplex,
      linOpts, lin_sqrt, q, q81, q25, abs_of_pos, lin_mul]
    simp [lastRoots]

  obtain ⟨t, h, hk, hb⟩ := h
  refine ⟨t, h, hk, C36_scaled lin_laws rfl h hk ?_ (by norm_num)⟩
  norm_num [criticalLength, criticalLoad, crForm, hb, linStart, lin_dot, lin_forcing, loadWeight, lin_sqrt, lin_mul, q25]

/-- `C37_forward`: the predictor of the step does not go back. -/
example : 0 ≤ lin.geo.dot linStart.DUold predicted.DU + loadWeight lin predicted.phi * (linStart.DLold * predicted.DL) :=
  C37_forward lin_laws predicted_eq rfl (by simp [lin_dot, linStart]) (by norm_num [linStart])

/-- `C37_first_userPhi`: the first predictor with the scaling 4/3 is longer than prescribed. -/
example : ∃ p, beginStep lin (crisfield lin linOpts) { linStart with DUold := 0, DLold := 0 } = (p, .ok ()) ∧
    crDistance lin p p.DU p.DL ^ 2 = (5 / 3) ^ 2 * (25 / 18) := by
  have h : ∃ p, beginStep lin (crisfield lin linOpts)
      { linStart with DUold := 0, DLold := 0 } = (p, .ok ()) ∧ p.Ut = 1 := by
    simp [beginStep, Act.bind_apply, crisfield, linStart, usesGuess, crPredictor, lin_dot,
      assembleFactorize, computeJacobianAt, emit, factorizeMatrix, computeUt, solveSystem,
      firstPredictor, linOpts, lin_forcing, lin_jacobian, lin_factorize, lin_solve, tangentPhi]
  obtain ⟨p, h, hUt⟩ := h
  refine ⟨p, h, ?_⟩
  rw [C37_first_userPhi lin_laws h rfl (by simp [lin_dot]) rfl (by simp [lin_dot, hUt])]
  norm_num [lin_dot, hUt, linStart, lin_forcing]

/-- `C37_later` for its predictor. -/
example : crDistance lin predicted predicted.DU predicted.DL = 5 / 3 := by
  have := C37_later lin_laws predicted_eq rfl (by simp [lin_dot, linStart])
    (by norm_num [lin_dot, loadWeight, predicted, linStart, lin_forcing]) (by norm_num [linStart])
  rw [if_neg (by norm_num [lin_dot, loadWeight, predicted, linStart, lin_forcing])] at this
  exact this

/-- `C37_first`: the same problem without previous increment and with the default
scaling. -/
example : ∃ p, beginStep lin (crisfield lin { linOpts with phiUser := false })
    { linStart with DUold := 0, DLold := 0 } = (p, .ok ()) ∧ crDistance lin p p.DU p.DL = 5 / 3 := by
  have h : ∃ p, beginStep lin (crisfield lin { linOpts with phiUser := false })
      { linStart with DUold := 0, DLold := 0 } = (p, .ok ()) ∧ p.Ut = 1 := by
    simp [beginStep, Act.bind_apply, crisfield, linStart, usesGuess, crPredictor, lin_dot,
      assembleFactorize, computeJacobianAt, emit, factorizeMatrix, computeUt, solveSystem,
      firstPredictor, linOpts, lin_forcing, lin_jacobian, lin_factorize, lin_solve, tangentPhi]
  obtain ⟨p, h, hUt⟩ := h
  exact ⟨p, h, C37_first lin_laws h rfl (by simp [lin_dot]) rfl (by simp [lin_dot, lin_forcing])
    (by simp [lin_dot, hUt]) (by norm_num [linStart])⟩

/-- `C37_degenerate`: a previous increment orthogonal to the tangent. -/
example : (step lin linOpts (crisfield lin linOpts)
    { linStart with DUold := 16 / 9, DLold := -1 }).2 ≠ .ok .success := by
  have h : ∃ p, beginStep lin (crisfield lin linOpts)
      { linStart with DUold := 16 / 9, DLold := -1 } = (p, .ok ()) ∧ p.Ut = 1 ∧ p.phi = 4 / 3 := by
    norm_num [beginStep, Act.bind_apply, crisfield, linStart, usesGuess, crPredictor, lin_dot,
      assembleFactorize, computeJacobianAt, emit, factorizeMatrix, computeUt, solveSystem,
      laterPredictor, linOpts, lin_forcing, lin_jacobian, lin_factorize, lin_solve, lambdaMU]
    simp
  obtain ⟨p, h, hUt, hphi⟩ := h
  refine C37_degenerate lin_laws (by simp [linOpts]) h rfl (by norm_num [lin_dot]) ?_
  norm_num [hUt, hphi, lin_dot, loadWeight, lin_forcing]

/-- `C38_measure`, `C38_projection_partial`: the unit load vector of this problem. -/
example (s : St ℝ ℝ ℝ ℝ) (x1 x2 : ℝ) (h : 0 < projection lin s x2) :
    0 < projection lin s (chooseDOT lin s x1 x2) :=
  (C38_projection_partial lin_laws (by simp [lin_dot, lin_forcing]) s x1 x2).2.2 (Or.inr h)

/-! ## Riks -/

/-- The second step: previous increment `(1, 1)`, length 1. -/
noncomputable def rkStart : St ℝ ℝ ℝ ℝ :=
  { linStart with U := 1, L := 1, len := 1, lenPrev := 1 }

/-- The state after the predictor. -/
noncomputable def rkPredicted : St ℝ ℝ ℝ ℝ :=
  { rkStart with
    DU := 1, DL := 1, dU := 1, dL := 1, jac := 1, fac := some 1, phi := 99999999999 / 100000000000
    log := [.factor true, .factor true, .jacobian true] }

theorem rkPredicted_eq : beginStep lin (riks lin) rkStart = (rkPredicted, .ok ()) := by
  norm_num [beginStep, Act.bind_apply, riks, zeroIncrements, linStart, rkStart, usesGuess,
    rkPredictor, lin_dot, assembleFactorize, computeJacobianAt, emit, factorizeMatrix, nearby,
    secant, scaleByLength, lin_norm, lin_forcing, lin_jacobian, lin_factorize, lin_solve,
    lin_numDof, rkPredicted]

/-- The state before the first iteration. -/
noncomputable def rkTested : St ℝ ℝ ℝ ℝ :=
  { rkPredicted with
    resVec := 0, basisF := 2, basisU := 1, residueF := some 0, residueU := some 1, numIt := 1
    log := .residual true :: rkPredicted.log }

/-- The state after the first iteration. -/
noncomputable def rkCorrected : St ℝ ℝ ℝ ℝ :=
  { rkTested with
    dU := 0, dL := 0, Ut := 1, residueU := some 0, stabVec := [0], stability := -1
    status := .success
    log := .residual true :: .solve true :: .solve true :: .factor true ::
      .factor true :: .jacobian true :: rkTested.log }

theorem rkCorrected_eq :
    iterationBody lin linOpts (riks lin) rkTested = (rkCorrected, .ok ()) := by
  norm_num [iterationBody, Act.bind_apply, riks, quasiIterationUt, rkIteration, lin_dot,
    assembleFactorize, computeJacobianAt, emit, factorizeMatrix, computeUt, computeUbar,
    solveSystem, linOpts, lin_forcing, lin_residual, lin_jacobian, lin_factorize,
    lin_solve, lin_numDof, rkPredicted, rkTested, rkCorrected, rkStart, linStart, computeStability,
    computeStabilityRaw, caught, computeResidual, computeResidualNorms, evalResidual, refreshes,
    stabilityVector, minCoeff, countNegatives, stabilityOf, ratio, lin_norm, List.replicate]

/-- The state after the step. -/
noncomputable def rkFinished : St ℝ ℝ ℝ ℝ :=
  { rkCorrected with converged := true, U := 2, L := 2, Uprev := 1, Lprev := 1 }

theorem rkFinished_eq : step lin linOpts (riks lin) rkStart = (rkFinished, .ok .success) := by
  have h : stepRaw lin linOpts (riks lin) rkStart = (rkFinished, .ok ()) := by
    unfold stepRaw
    rw [Act.bind_ok rkPredicted_eq]
    have h1 : computeResidual lin rkPredicted =
        ({ rkPredicted with resVec := 0, log := .residual true :: rkPredicted.log }, .ok ()) := by
      simp [computeResidual, evalResidual, Act.bind_apply, lin_residual, emit, rkPredicted, rkStart]
    rw [Act.bind_ok h1]
    have h2 : ∀ s : St ℝ ℝ ℝ ℝ,
        s = { rkPredicted with resVec := 0, log := .residual true :: rkPredicted.log } →
        computeResidualNorms lin s = ({ rkTested with numIt := 0 }, .ok ()) := by
      rintro _ rfl
      norm_num [computeResidualNorms, rkPredicted, rkStart, linStart, rkTested, lin_norm, ratio,
        lin_forcing]
    rw [Act.bind_ok (h2 _ rfl), if_neg (by simp [linOpts]), Act.bind_ok (Act.pure_apply _ _),
      Act.bind_ok (Act.modify_apply _ _)]
    change iterate lin linOpts _ (8 + 1) rkTested = _
    unfold iterate
    rw [Act.bind_ok rkCorrected_eq, Act.bind_ok (Act.get_apply _), if_pos (by
      simp [meets, below, rkCorrected, linOpts, rkTested, rkPredicted, rkStart])]
    norm_num [finishStep, riks, Act.bind_apply, acceptStep, rkCorrected, rkTested,
      rkPredicted, rkStart, linStart, rkFinished]
  simp [step, caught, h, rkFinished, rkCorrected]

/-- `C40_riks_step`: the step moved by at least 1. -/
example : 1 ≤ rkDistance lin rkFinished (rkFinished.U - rkStart.U) (rkFinished.L - rkStart.L) :=
  (C40_riks_step lin_laws (by simp [linOpts]) rkFinished_eq (by simp [rkStart])
    (by norm_num [rkFinished, rkCorrected, rkTested, rkPredicted])
    (by norm_num [rkFinished, rkCorrected, rkTested, rkPredicted])
    (by norm_num [rkFinished, rkCorrected, rkTested, rkPredicted, rkDenominator, lin_dot])).2

/-- `C40_riks` for one iteration that has something to correct. -/
example : ∃ t, rkIteration lin { rkTested with Ut := 1, resVec := 1 } = (t, .ok ()) ∧
    rkForm lin t.phi t.DU t.DL = 1 + rkForm lin t.phi t.dU t.dL ∧ t.dU ≠ 0 := by
  have h : ∃ t, rkIteration lin { rkTested with Ut := 1, resVec := 1 } = (t, .ok ()) ∧
      t.phi = 99999999999 / 100000000000 ∧ t.DU - t.dU = 1 ∧ t.DL - t.dL = 1 ∧ t.Ut = 1 ∧ t.dU ≠ 0 := by
    norm_num [rkIteration, computeUbar, solveSystem, Act.bind_apply, rkTested, rkPredicted, rkStart,
      lin_solve, emit, lin_dot, lin_forcing, lin_numDof]
  obtain ⟨t, h, h1, h2, h3, h4, h5⟩ := h
  have h' := C40_riks lin_laws h (by rw [h1, h2, h3, h4]; norm_num [rkDenominator, lin_dot])
  refine ⟨t, h, ?_, h5⟩
  rw [h']
  norm_num [rkTested, rkPredicted, rkStart]

/-- `C45_riks_phi`, `C45_riks`: the scaling after the predictor of Riks' method. -/
example : 0 ≤ rkPredicted.phi ∧ rkPredicted.phi ≤ 1 ∧ rkDistance lin rkPredicted (-3) (-3) = 3 := by
  refine ⟨by norm_num [rkPredicted], by norm_num [rkPredicted], ?_⟩
  have h := (C45_riks lin_laws rkPredicted (by norm_num [rkPredicted]) (by norm_num [rkPredicted])).2.1 (-3) 1 1
  simp only [smul_eq_mul, mul_one] at h
  rw [h]
  norm_num [rkDistance, rkPredicted, lin_norm, lin_sqrt]

/-- `C45_crisfield`, `C45_pseudometric`: Crisfield's distance of `(3, 3)` is 5. -/
example : crDistance lin linStart 3 3 = 5 := by
  norm_num [crDistance, linStart, lin_dot, lin_sqrt, lin_forcing, loadWeight, q25]

/-- `C40_consistent` for one iteration of the consistent Crisfield method that has something to correct: the
increment `(1, 1)` with length 1. -/
example : ∃ t, ccIteration lin { rkTested with phi := 1, Ut := 1 } = (t, .ok ()) ∧
    crForm lin t.phi t.DU t.DL = 1 + crForm lin t.phi t.dU t.dL ∧ t.dL ≠ 0 := by
  have h : ∃ t, ccIteration lin { rkTested with phi := 1, Ut := 1 } = (t, .ok ()) ∧ t.phi = 1 ∧
      t.DU = 3 / 4 ∧ t.DL = 3 / 4 ∧ t.dU = -1 / 4 ∧ t.dL = -1 / 4 ∧ t.Ut = 1 := by
    norm_num [ccIteration, computeUbar, solveSystem, Act.bind_apply, rkTested, rkPredicted, rkStart,
      lin_solve, emit, lin_dot, lin_forcing]
  obtain ⟨t, h, h1, h2, h3, h4, h5, h6⟩ := h
  have h' := C40_consistent lin_laws h (by
    norm_num [h1, h2, h3, h4, h5, h6, ccDenominator, lin_dot, loadWeight, lin_forcing])
  refine ⟨t, h, ?_, by norm_num [h5]⟩
  rw [h']
  norm_num [rkTested, rkPredicted, rkStart]

end GsSA.ALM.RealDemo
