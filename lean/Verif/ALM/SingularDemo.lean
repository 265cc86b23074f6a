import Verif.ALM.SingularTest
import Verif.ALM.RealDemo
import Verif.ALM.LinearRun

/-!
# A symmetric structure with an antisymmetric mode

Two degrees of freedom, load `(1, 1)`. The tangent has the eigenvector `(1, 1)` with eigenvalue 1 and
`(1, -1)` with eigenvalue `ε`: for `ε → 0` the structure bifurcates with the mode `(1, -1)`, which is
orthogonal to the load.
-/

namespace GsSA.ALM

open GsSA

section

set_option linter.unusedSectionVars false

variable {K V Mat Fac : Type} [Field K] [LinearOrder K] [IsStrictOrderedRing K] [AddCommGroup V]
variable [Module K V] {e : Env K V Mat Fac} {o : Opts K} {A G : V →ₗ[K] V} {m0 : Mat} {f0 : Fac}

theorem Linear.power (hl : Linear e A G m0 f0) (n : ℕ) : ∀ {s : St K V Mat Fac},
    s.fac = some f0 → ∃ t, powerSteps e n s = (t, .ok ()) := by
  induction n with
  | zero => exact fun _ => ⟨_, rfl⟩
  | succ n ih =>
    intro s hf
    obtain ⟨t, ht⟩ := ih (s := { s with log := .solve true :: s.log, v := normalized e.geo (G s.v) }) hf
    refine ⟨t, ?_⟩
    rw [← ht]
    simp only [powerSteps, solveSystem, Act.bind_apply, Act.get_apply, hf, Option.bind_some,
      hl.solve, emit, Act.modify_apply, Act.pure_apply]

/-- On a linear structure the test of a singular point always returns. -/
theorem Linear.tested (hl : Linear e A G m0 f0) (s : St K V Mat Fac) :
    ∃ t b, testSingularPoint e o true s = (t, .ok b) := by
  obtain ⟨t, ht⟩ := hl.power o.spTestIt
    (s := { s with
      jac := m0, fac := some f0, v := normalized e.geo e.ones
      log := .factor true :: .factor true :: .factor true :: .jacobian true :: s.log }) rfl
  refine ⟨t, decide (|e.geo.dot t.v e.forcing| < o.spTestTol), ?_⟩
  simp only [testSingularPoint, computeJacobianAt, factorizeMatrix, Act.bind_apply, Act.get_apply,
    hl.jacobian, hl.factorize, emit, Act.modify_apply, Act.pure_apply, if_true, ht]

end

end GsSA.ALM

namespace GsSA.ALM.RealDemo

open GsSA

/-- The geometry of the plane. -/
noncomputable def plane : Geo ℝ (ℝ × ℝ) := ⟨fun x y => x.1 * y.1 + x.2 * y.2, Real.sqrt⟩

theorem plane_laws : plane.Laws where
  add_left x y z := by simp [plane]; ring
  smul_left a x y := by simp [plane]; ring
  comm x y := by simp [plane]; ring
  nonneg x := by simp only [plane]; nlinarith [sq_nonneg x.1, sq_nonneg x.2]
  sqrt_nonneg x := Real.sqrt_nonneg x
  sqrt_sq x h := Real.sq_sqrt h

/-- The tangent with the eigenvalue `ε` for `(1, -1)`. -/
noncomputable def arch (ε : ℝ) : ℝ × ℝ →ₗ[ℝ] ℝ × ℝ where
  toFun x := ((1 + ε) / 2 * x.1 + (1 - ε) / 2 * x.2, (1 - ε) / 2 * x.1 + (1 + ε) / 2 * x.2)
  map_add' x y := by ext <;> simp <;> ring
  map_smul' a x := by ext <;> simp <;> ring

/-- The structure, with exact linear algebra. A matrix is its second eigenvalue. -/
noncomputable def archEnv (ε : ℝ) : Env ℝ (ℝ × ℝ) ℝ ℝ where
  geo := plane
  forcing := (1, 1)
  numDof := 2
  ones := (1, 1)
  residual _ u l := some (arch ε u - l • (1, 1))
  jacobian _ _ _ := some ε
  factorize _ m := if m = 0 then none else some m
  solve _ f b := some (arch (1 / f) b)
  mul m u := arch m u
  vecD f := [1, f]
  eigs _ m _ := some [1, m]

theorem arch_arch (a b : ℝ) (x : ℝ × ℝ) : arch a (arch b x) = arch (a * b) x := by
  ext <;> simp [arch] <;> ring

theorem arch_one (x : ℝ × ℝ) : arch 1 x = x := by ext <;> simp [arch]

theorem arch_solves {ε m : ℝ} (hm : m ≠ 0) : SolvesWith (archEnv ε) m (arch m) := by
  intro n f hf k b x hx
  simp only [archEnv, hm, if_false, Option.some.injEq] at hf hx
  subst hf
  rw [← hx, arch_arch, mul_one_div_cancel hm, arch_one]

theorem arch_injective {m : ℝ} (hm : m ≠ 0) : Function.Injective (arch m) := by
  intro x y h
  have := congrArg (arch (1 / m)) h
  rwa [arch_arch, arch_arch, one_div_mul_cancel hm, arch_one, arch_one] at this

/-- **C116** violated: a point next to a bifurcation point, for any distance `ε` of the eigenvalue to
zero, any number of iterations and the tolerance 1. The test returns, and says that it is not a
bifurcation point, while the mode `(1, -1)` with the eigenvalue `ε` is orthogonal to the load. -/
theorem C116_violated_antisymmetric {ε : ℝ} (hε : 0 < ε) {s t : St ℝ (ℝ × ℝ) ℝ ℝ} {b : Bool} (n : ℕ)
    (h : testSingularPoint (archEnv ε) { linOpts with spTestIt := n, spTestTol := 1 } true s =
      (t, .ok b)) :
    b = false ∧ arch ε (1, -1) = ε • (1, -1) ∧ plane.dot (1, -1) (1, 1) = 0 := by
  refine ⟨?_, by ext <;> simp [arch] <;> ring, by simp [plane]⟩
  obtain ⟨-, -, ⟨k, hk⟩, -⟩ := C116_test h
  have hj : t.jac = ε := by
    simp only [archEnv, Option.some.injEq] at hk
    exact hk.symm
  have := C116_violated_ones (e := archEnv ε) plane_laws h
    (hj.symm ▸ arch_solves (m := ε) hε.ne' : SolvesWith _ t.jac (arch ε)) (arch_injective hε.ne') (μ := 1) one_ne_zero (by ext <;> simp [arch, archEnv] <;> ring)
    (by norm_num [archEnv, plane])
  have h2 : ¬b = true := by
    rw [this]
    have : Real.sqrt 2 ≤ 2 := by
      rw [Real.sqrt_le_left (by norm_num)]
      norm_num
    simp only [archEnv, plane, Geo.norm, mul_one, one_mul, not_lt]
    norm_num
  simpa using h2

theorem arch_linear {ε : ℝ} (hε : ε ≠ 0) : Linear (archEnv ε) (arch ε) (arch (1 / ε)) ε ε where
  residual n U L := rfl
  jacobian _ _ _ := rfl
  factorize n := by simp [archEnv, hε]
  solve n b := rfl
  inverse b := by rw [arch_arch, mul_one_div_cancel hε, arch_one]

/-- A state of the plane. -/
noncomputable def archStart (ε : ℝ) : St ℝ (ℝ × ℝ) ℝ ℝ where
  U := 0
  L := 0
  DU := 0
  DL := 0
  dU := 0
  dL := 0
  Ubar := 0
  Ut := 0
  Uprev := 0
  Lprev := 0
  DUold := 0
  DLold := 0
  guess := none
  Lguess := 0
  resVec := 0
  jac := ε
  fac := none
  len := 1
  lenPrev := 1
  lenOri := 1
  adaptive := false
  phi := 1
  numIt := 0
  residueF := none
  residueU := none
  basisF := 0
  basisU := 0
  converged := false
  stabVec := []
  negatives := 0
  indicator := 0
  stability := 0
  stabilityPrev := 0
  status := .success
  initialized := true
  v := 0
  DV := 0
  dV := 0
  residueKTPhi := 0
  log := []

/-- The test returns for every number of iterations, and `C116_violated_antisymmetric`,
`C116_violated_ones`, `C116_unit` and `C116_symmetric` (with the symmetry that exchanges the two
degrees of freedom) apply. -/
example (n : ℕ) : ∃ t, testSingularPoint (archEnv (1 / 1000))
      { linOpts with spTestIt := n, spTestTol := 1 } true (archStart (1 / 1000)) = (t, .ok false) ∧
    t.v.1 = t.v.2 ∧ plane.dot t.v (1, -1) = 0 := by
  obtain ⟨t, b, h⟩ : ∃ t b, testSingularPoint (archEnv (1 / 1000))
      { linOpts with spTestIt := n, spTestTol := 1 } true (archStart (1 / 1000)) = (t, .ok b) :=
    (arch_linear (by norm_num)).tested _
  have hb := C116_violated_antisymmetric (by norm_num) n h
  rw [hb.1] at h
  refine ⟨t, h, ?_⟩
  have hj : t.jac = 1 / 1000 := by
    obtain ⟨-, -, ⟨k, hk⟩, -⟩ := C116_test h
    simp only [archEnv, Option.some.injEq] at hk
    exact hk.symm
  obtain ⟨hs, ho⟩ := C116_symmetric h
    (hj.symm ▸ arch_solves (m := 1 / 1000) (by norm_num) : SolvesWith _ t.jac (arch (1 / 1000)))
    (arch_injective (by norm_num))
    (S := LinearMap.prod (LinearMap.snd ℝ ℝ ℝ) (LinearMap.fst ℝ ℝ ℝ))
    (fun x => by ext <;> simp [arch] <;> ring) (by simp [archEnv])
  refine ⟨?_, ho (fun x y => by simp [archEnv, plane]; ring) (fun x y => by simp [archEnv, plane]; ring)
    _ (by simp)⟩
  have := congrArg Prod.snd hs
  simpa using this

end GsSA.ALM.RealDemo
