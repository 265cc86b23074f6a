import Mathlib.Algebra.Module.LinearMap.Defs
import Verif.ALM.StepSpec
import Verif.ALM.GeoLaws

/-!
# Arc-length steps on a linear structure: the iterations

The internal force is a linear map with a right inverse that the linear solver computes. Started in
equilibrium, all iterates of a step then stay on the line of equilibria, and an iteration is a
function of one number: the load increment.
-/

namespace GsSA.ALM

open GsSA

set_option linter.unusedSectionVars false

variable {K V Mat Fac : Type} [Field K] [LinearOrder K] [IsStrictOrderedRing K] [AddCommGroup V]
variable [Module K V]
variable {e : Env K V Mat Fac} {o : Opts K} {A G : V →ₗ[K] V} {m0 : Mat} {f0 : Fac}

/-- The callbacks of a linear structure with stiffness `A`, and a linear solver that computes
`G`, a right inverse of `A`. -/
structure Linear (e : Env K V Mat Fac) (A G : V →ₗ[K] V) (m0 : Mat) (f0 : Fac) : Prop where
  residual : ∀ n U L, e.residual n U L = some (A U - L • e.forcing)
  jacobian : ∀ n U dU, e.jacobian n U dU = some m0
  factorize : ∀ n, e.factorize n m0 = some f0
  solve : ∀ n b, e.solve n f0 b = some (G b)
  inverse : ∀ b, A (G b) = b

/-! ## The shared parts -/

theorem Linear.assemble (hl : Linear e A G m0 f0) (s : St K V Mat Fac) :
    ∃ l, assembleFactorize e s = ({ s with jac := m0, fac := some f0, log := l }, .ok ()) := by
  refine ⟨.factor true :: .factor true :: .jacobian true :: s.log, ?_⟩
  simp only [assembleFactorize, computeJacobianAt, factorizeMatrix, Act.bind_apply, Act.get_apply,
    hl.jacobian, hl.factorize, emit, Act.modify_apply, Act.pure_apply]

theorem Linear.ut (hl : Linear e A G m0 f0) (s : St K V Mat Fac) (hf : s.fac = some f0) :
    ∃ l, computeUt e s = ({ s with Ut := G e.forcing, log := l }, .ok ()) := by
  refine ⟨.solve true :: s.log, ?_⟩
  simp only [computeUt, solveSystem, Act.bind_apply, Act.get_apply, hf, Option.bind_some, hl.solve,
    emit, Act.modify_apply, Act.pure_apply]

theorem Linear.ubar (hl : Linear e A G m0 f0) (s : St K V Mat Fac) (hf : s.fac = some f0)
    (hr : s.resVec = 0) :
    ∃ l, computeUbar e s = ({ s with Ubar := 0, log := l }, .ok ()) := by
  refine ⟨.solve true :: s.log, ?_⟩
  simp only [computeUbar, solveSystem, Act.bind_apply, Act.get_apply, hf, Option.bind_some,
    hl.solve, emit, Act.modify_apply, Act.pure_apply, hr, neg_zero, map_zero]

theorem Linear.res (hl : Linear e A G m0 f0) (s : St K V Mat Fac)
    (h0 : A s.U = s.L • e.forcing) (hd : s.DU = s.DL • G e.forcing) :
    ∃ l, computeResidual e s = ({ s with resVec := 0, log := l }, .ok ()) := by
  refine ⟨.residual true :: s.log, ?_⟩
  have hz : A (s.U + s.DU) - (s.L + s.DL) • e.forcing = 0 := by
    rw [map_add, hd, map_smul, hl.inverse, h0, add_smul, sub_self]
  simp only [computeResidual, evalResidual, Act.bind_apply, Act.get_apply, hl.residual, emit,
    Act.modify_apply, Act.pure_apply, hz]

/-- The stability computation of an iteration changes only what belongs to it. -/
theorem Linear.stab (hl : Linear e A G m0 f0) (s : St K V Mat Fac) (hj : s.jac = m0)
    (hf : s.fac = some f0) :
    ∃ a b c d st l r, computeStability e o false (-100) s =
      ({ s with
          stabVec := a
          negatives := b
          indicator := c
          stability := d
          status := st
          log := l }, .ok r) := by
  have key : ∃ t r, computeStabilityRaw e o s.U false (-100) s = (t, r) ∧ r ≠ .error .ub ∧
      ∃ a b c d l, t =
        { s with stabVec := a, negatives := b, indicator := c, stability := d, log := l } := by
    obtain ⟨t1, r1, h1, hr1, a1, l1, ht1⟩ : ∃ t r, stabilityVector e o (-100) s = (t, r) ∧
        (r = .ok () ∨ r = .error .solver) ∧ ∃ a l, t = { s with stabVec := a, log := l } := by
      unfold stabilityVector
      rw [Act.bind_ok (Act.get_apply s)]
      cases hb : o.bifMethod with
      | determinant =>
        refine ⟨_, _, rfl, .inl ?_, ?_⟩
        · simp [factorizeMatrix, Act.bind_apply, hj, hl.factorize, emit]
        · refine ⟨e.vecD f0, .factor true :: s.log, ?_⟩
          simp only [factorizeMatrix, Act.bind_apply, hj, hl.factorize, emit, Act.get_apply,
            Act.modify_apply, Option.map_some, Option.getD_some]
          rw [← hf]
      | eigenvalue =>
        simp only
        cases he : e.eigs s.log.length s.jac (-100) with
        | none =>
          exact ⟨_, _, rfl, .inr rfl, s.stabVec, _, rfl⟩
        | some x => exact ⟨_, _, rfl, .inl rfl, _, _, rfl⟩
      | nothing => exact ⟨_, _, rfl, .inl rfl, _, s.log, rfl⟩
      | other => exact ⟨_, _, rfl, .inl rfl, s.stabVec, s.log, rfl⟩
    unfold computeStabilityRaw
    simp only [Bool.false_eq_true, if_false]
    rw [Act.bind_ok (Act.pure_apply () s)]
    rcases hr1 with rfl | rfl
    · rw [Act.bind_ok h1, Act.bind_ok (Act.get_apply t1)]
      subst ht1
      cases hm : minCoeff a1 with
      | none =>
        refine ⟨_, _, by simp only []; rfl, by simp, a1, s.negatives, s.indicator, s.stability, l1,
          rfl⟩
      | some m =>
        exact ⟨_, _, by simp only []; rfl, by simp, a1, _, _, _, l1, rfl⟩
    · rw [Act.bind_error h1]
      subst ht1
      exact ⟨_, _, rfl, by simp, a1, s.negatives, s.indicator, s.stability, l1, rfl⟩
  obtain ⟨t, r, h1, h2, a, b, c, d, l, ht⟩ := key
  cases r with
  | ok u =>
    refine ⟨a, b, c, d, .success, l, .success, ?_⟩
    change caught _ _ s = _
    rw [caught_ok h1, ht]
  | error x =>
    refine ⟨a, b, c, d, statusOf x, l, statusOf x, ?_⟩
    change caught _ _ s = _
    rw [caught_error h1 (fun h => h2 (by rw [h])), ht]

/-! ## Points of the line -/

/-- The iterate whose load increment is `τ`, in a step from `s0` whose predictor was `τ0`. -/
structure OnLine (e : Env K V Mat Fac) (G : V →ₗ[K] V) (m0 : Mat) (f0 : Fac)
    (s0 : St K V Mat Fac) (phi τ0 τ : K) (s : St K V Mat Fac) : Prop where
  U : s.U = s0.U
  L : s.L = s0.L
  DU : s.DU = τ • G e.forcing
  DL : s.DL = τ
  jac : s.jac = m0
  fac : s.fac = some f0
  resVec : s.resVec = 0
  phi : s.phi = phi
  len : s.len = s0.len
  adaptive : s.adaptive = s0.adaptive
  lenOri : s.lenOri = s0.lenOri
  initialized : s.initialized = s0.initialized
  guess : s.guess = none
  basisF : s.basisF = e.geo.norm ((s0.L + τ0) • e.forcing)
  basisU : s.basisU = e.geo.norm (τ0 • G e.forcing)

/-- Members which do not matter for `OnLine`. -/
theorem OnLine.of_eq {s0 s t : St K V Mat Fac} {phi τ0 τ : K} (h : OnLine e G m0 f0 s0 phi τ0 τ s)
    (h1 : t.U = s.U) (h2 : t.L = s.L) (h3 : t.DU = s.DU) (h4 : t.DL = s.DL)
    (h6 : t.jac = s.jac) (h7 : t.fac = s.fac) (h8 : t.resVec = s.resVec) (h9 : t.phi = s.phi)
    (h10 : t.len = s.len) (h11 : t.adaptive = s.adaptive) (h12 : t.lenOri = s.lenOri)
    (h13 : t.initialized = s.initialized) (h14 : t.guess = s.guess) (h15 : t.basisF = s.basisF)
    (h16 : t.basisU = s.basisU) : OnLine e G m0 f0 s0 phi τ0 τ t :=
  ⟨h1.trans h.U, h2.trans h.L, h3.trans h.DU, h4.trans h.DL, h6.trans h.jac,
    h7.trans h.fac, h8.trans h.resVec, h9.trans h.phi, h10.trans h.len, h11.trans h.adaptive,
    h12.trans h.lenOri, h13.trans h.initialized, h14.trans h.guess, h15.trans h.basisF,
    h16.trans h.basisU⟩

/-- What the theorem on iterations needs of a method: recomputing the tangent makes it known, an
iteration moves along the line by `next τ`, and the end of the iterations accepts the point. In
`ok b`, `b` tells if the tangent is known. -/
structure Glides (e : Env K V Mat Fac) (G : V →ₗ[K] V) (m0 : Mat) (f0 : Fac)
    (s0 : St K V Mat Fac) (phi τ0 : K) (M : Method K V Mat Fac)
    (ok : Bool → K → St K V Mat Fac → Prop) (next : K → K) : Prop where
  quasi : ∀ b s τ, OnLine e G m0 f0 s0 phi τ0 τ s → ok b τ s →
    ∃ t, M.quasiIteration s = (t, .ok ()) ∧ OnLine e G m0 f0 s0 phi τ0 τ t ∧ ok true τ t ∧
      t.numIt = s.numIt
  quasiPredictor : ∀ b s τ, OnLine e G m0 f0 s0 phi τ0 τ s → ok b τ s →
    ∃ t, M.quasiPredictor s = (t, .ok ()) ∧ OnLine e G m0 f0 s0 phi τ0 τ t ∧ ok true τ t
  iteration : ∀ s τ, OnLine e G m0 f0 s0 phi τ0 τ s → ok true τ s →
    ∃ t, M.iteration s = (t, .ok ()) ∧ OnLine e G m0 f0 s0 phi τ0 (τ + next τ) t ∧
      ok true (τ + next τ) t ∧ t.numIt = s.numIt ∧ t.dU = next τ • G e.forcing
  finish : ∀ s τ, OnLine e G m0 f0 s0 phi τ0 τ s → ok true τ s →
    ∃ t, M.iterationFinish s = (t, .ok ()) ∧ t.U = s0.U + τ • G e.forcing ∧ t.L = s0.L + τ ∧
      t.numIt = s.numIt ∧ t.adaptive = s.adaptive ∧ t.len = s.len ∧ t.phi = s.phi ∧
      t.initialized = s.initialized ∧ t.guess = none ∧ t.Uprev = s0.U ∧ t.Lprev = s0.L ∧
      t.lenOri = s.lenOri ∧
      (t.DUold = τ • G e.forcing ∧ t.DLold = τ ∨ t.DUold = s.DUold ∧ t.DLold = s.DLold)
  frame : ∀ b s t τ, ok b τ s → t.DUold = s.DUold → t.DLold = s.DLold → t.Ut = s.Ut → ok b τ t

/-- One iteration up to the convergence test. -/
theorem Glides.body (hl : Linear e A G m0 f0) {s0 : St K V Mat Fac} {phi τ0 τ : K}
    {M : Method K V Mat Fac} {ok : Bool → K → St K V Mat Fac → Prop} {next : K → K}
    (hM : Glides e G m0 f0 s0 phi τ0 M ok next) (h0 : A s0.U = s0.L • e.forcing)
    {s : St K V Mat Fac} (hs : OnLine e G m0 f0 s0 phi τ0 τ s) {b : Bool} (hok : ok b τ s)
    (hb : b = true ∨ o.quasi = false) (hn : s.numIt ≠ 0) :
    ∃ t, iterationBody e o M s = (t, .ok ()) ∧ OnLine e G m0 f0 s0 phi τ0 (τ + next τ) t ∧
      ok true (τ + next τ) t ∧ t.numIt = s.numIt ∧
      t.residueF = ratio (e.geo.norm 0) (e.geo.norm ((s0.L + τ0) • e.forcing)) ∧
      t.residueU = ratio (e.geo.norm (next τ • G e.forcing)) (e.geo.norm (τ0 • G e.forcing)) := by
  unfold iterationBody
  rw [Act.bind_ok (Act.get_apply s)]
  obtain ⟨s1, h1, hs1, hok1, hn1⟩ : ∃ t, (if refreshes o s.numIt = true then M.quasiIteration
      else pure ()) s = (t, .ok ()) ∧ OnLine e G m0 f0 s0 phi τ0 τ t ∧ ok true τ t ∧
      t.numIt = s.numIt := by
    split
    · exact hM.quasi b s τ hs hok
    · next hr =>
      rcases hb with rfl | hb
      · exact ⟨s, rfl, hs, hok, rfl⟩
      · exact absurd (by simp [refreshes, hb]) hr
  rw [Act.bind_ok h1]
  obtain ⟨s2, h2, hs2, hok2, hn2, hd2⟩ := hM.iteration s1 τ hs1 hok1
  rw [Act.bind_ok h2]
  obtain ⟨a, b', c, d, st, l, r, h3⟩ := hl.stab (o := o) s2 hs2.jac hs2.fac
  rw [Act.bind_ok h3]
  obtain ⟨l', h4⟩ := hl.res { s2 with
          stabVec := a
          negatives := b'
          indicator := c
          stability := d
          status := st
          log := l } (by simp only [hs2.U, hs2.L, h0]) (by simp only [hs2.DU, hs2.DL])
  rw [Act.bind_ok h4]
  have hn3 : s2.numIt ≠ 0 := by rw [hn2, hn1]; exact hn
  simp only [computeResidualNorms, Act.modify_apply, hn3, if_false]
  refine ⟨_, rfl, ?_, ?_, hn2.trans hn1, by rw [hs2.basisF], by rw [hd2, hs2.basisU]⟩
  · exact hs2.of_eq rfl rfl rfl rfl rfl rfl hs2.resVec.symm rfl rfl rfl rfl rfl rfl rfl rfl
  · exact hM.frame _ _ _ _ hok2 rfl rfl rfl

/-- What a step that ended at the load increment `τ` leaves. -/
structure Ended (e : Env K V Mat Fac) (G : V →ₗ[K] V) (s0 : St K V Mat Fac) (phi τ : K) (n : ℕ)
    (t : St K V Mat Fac) : Prop where
  U : t.U = s0.U + τ • G e.forcing
  L : t.L = s0.L + τ
  numIt : t.numIt = n
  phi : t.phi = phi
  Uprev : t.Uprev = s0.U
  Lprev : t.Lprev = s0.L
  lenPrev : t.lenPrev = s0.len
  len : s0.adaptive = false → t.len = s0.len
  adaptive : t.adaptive = s0.adaptive
  initialized : t.initialized = s0.initialized
  guess : t.guess = none

/-- The load increments of the successive iterates. -/
def glide (next : K → K) (τ : K) : ℕ → K
  | 0 => τ
  | n + 1 => glide next τ n + next (glide next τ n)

theorem glide_succ' (next : K → K) (τ : K) (n : ℕ) :
    glide next τ (n + 1) = glide next (τ + next τ) n := by
  induction n with
  | zero => rfl
  | succ n ih => rw [glide, ih, glide]

/-- The iterations end at the first one whose correction is small enough. -/
theorem Glides.iterate (hl : Linear e A G m0 f0) (hg : e.geo.Laws) {s0 : St K V Mat Fac}
    {phi τ0 : K} {M : Method K V Mat Fac} {ok : Bool → K → St K V Mat Fac → Prop} {next : K → K}
    (hM : Glides e G m0 f0 s0 phi τ0 M ok next) (h0 : A s0.U = s0.L • e.forcing)
    (htF : 0 < o.tolF) (hF : e.geo.norm ((s0.L + τ0) • e.forcing) ≠ 0)
    (hU : e.geo.norm (τ0 • G e.forcing) ≠ 0) (j : ℕ) :
    ∀ (rem : ℕ) (b : Bool) (τ : K) (s : St K V Mat Fac), OnLine e G m0 f0 s0 phi τ0 τ s →
      ok b τ s → (b = true ∨ o.quasi = false) → s.numIt ≠ 0 → s.numIt + rem = o.maxIt → j < rem →
      e.geo.norm (next (glide next τ j) • G e.forcing) / e.geo.norm (τ0 • G e.forcing) < o.tolU →
      (∀ i < j, ¬e.geo.norm (next (glide next τ i) • G e.forcing) /
        e.geo.norm (τ0 • G e.forcing) < o.tolU) →
      ∃ t u, ALM.iterate e o M rem s = (t, .ok ()) ∧
        Ended e G s0 phi (glide next τ (j + 1)) (s.numIt + j) t ∧
        OnLine e G m0 f0 s0 phi τ0 (glide next τ (j + 1)) u ∧ ok true (glide next τ (j + 1)) u ∧
        (t.DUold = glide next τ (j + 1) • G e.forcing ∧ t.DLold = glide next τ (j + 1) ∨
          t.DUold = u.DUold ∧ t.DLold = u.DLold) := by
  induction j with
  | zero =>
    intro rem b τ s hs hok hb hn hmax hj hsmall _
    obtain ⟨rem, rfl⟩ : ∃ r, rem = r + 1 := ⟨rem - 1, by omega⟩
    unfold ALM.iterate
    obtain ⟨t, h1, ht, hokt, hnt, hf, hu⟩ := hM.body (o := o) hl h0 hs hok hb hn
    rw [Act.bind_ok h1, Act.bind_ok (Act.get_apply t)]
    have hm : meets o t = true := by
      simp only [meets, hf, hu, ratio, hF, hU, if_false, below, Bool.and_eq_true,
        decide_eq_true_eq]
      refine ⟨?_, hsmall⟩
      rw [Geo.norm, hg.zero_left, hg.sqrt_zero, zero_div]
      exact htF
    simp only [hm, if_true]
    unfold finishStep
    obtain ⟨u, h2, a1, a2, a3, a4, a5, a6, a7, a8, a9, a10, a11, a12⟩ := hM.finish t _ ht hokt
    rw [Act.bind_ok h2, Act.bind_ok (Act.get_apply u)]
    have hnu : u.numIt ≠ 0 := by rw [a3, hnt]; exact hn
    have haA : u.adaptive = s0.adaptive := a4.trans ht.adaptive
    by_cases had : u.adaptive = true
    · simp only [had, if_true, computeLength, Act.bind_apply, Act.get_apply, hnu, if_false,
        Act.modify_apply]
      refine ⟨_, t, rfl, ⟨a1, a2, by simp only [a3, hnt, add_zero], by simp only [a6, ht.phi], a9,
        a10, by simp only [a5, ht.len], fun hc => ?_, by rw [← haA, had],
        by simp only [a7, ht.initialized], a8⟩, ht, hokt, a12⟩
      rw [a4, ht.adaptive, hc] at had
      cases had
    · simp only [had, Bool.false_eq_true, if_false, Act.modify_apply]
      exact ⟨_, t, rfl, ⟨a1, a2, by simp only [a3, hnt, add_zero], by simp only [a6, ht.phi], a9,
        a10, by simp only [a5, ht.len], fun _ => by simp only [a5, ht.len],
        by rw [← haA, Bool.eq_false_iff.2 had], by simp only [a7, ht.initialized], a8⟩, ht, hokt,
        a12⟩
  | succ j ih =>
    intro rem b τ s hs hok hb hn hmax hj hsmall hbig
    obtain ⟨rem, rfl⟩ : ∃ r, rem = r + 1 := ⟨rem - 1, by omega⟩
    unfold ALM.iterate
    obtain ⟨t, h1, ht, hokt, hnt, hf, hu⟩ := hM.body (o := o) hl h0 hs hok hb hn
    rw [Act.bind_ok h1, Act.bind_ok (Act.get_apply t)]
    have hm : meets o t = false := by
      simp only [meets, hu, ratio, hU, if_false, below, Bool.and_eq_false_iff,
        decide_eq_false_iff_not]
      exact .inr (hbig 0 (Nat.succ_pos _))
    have hlast : ¬t.numIt = o.maxIt - 1 := by omega
    simp only [hm, Bool.false_eq_true, if_false, hlast]
    rw [Act.bind_ok (Act.modify_apply _ _)]
    obtain ⟨v, u, h2, h3, h4, h5, h6⟩ := ih rem true (τ + next τ) { t with numIt := t.numIt + 1 }
      (ht.of_eq rfl rfl rfl rfl rfl rfl rfl rfl rfl rfl rfl rfl rfl rfl rfl)
      (hM.frame _ _ _ _ hokt rfl rfl rfl) (.inl rfl) (Nat.succ_ne_zero _) (by simp only [hnt]; omega) (by omega)
      (by rw [← glide_succ']; exact hsmall)
      (fun i hi => by rw [← glide_succ']; exact hbig (i + 1) (by omega))
    rw [← glide_succ'] at h3 h4 h5 h6
    refine ⟨v, u, h2, ?_, h4, h5, h6⟩
    have : t.numIt + 1 + j = s.numIt + (j + 1) := by omega
    rw [← this]
    exact h3

/-- A predictor on the line, `phi` being the scaling it chooses. -/
structure Starts (e : Env K V Mat Fac) (G : V →ₗ[K] V) (m0 : Mat) (f0 : Fac)
    (s0 : St K V Mat Fac) (phi τ0 : K) (p : St K V Mat Fac) : Prop where
  U : p.U = s0.U
  L : p.L = s0.L
  DU : p.DU = τ0 • G e.forcing
  DL : p.DL = τ0
  jac : p.jac = m0
  fac : p.fac = some f0
  phi : p.phi = phi
  len : p.len = s0.len
  adaptive : p.adaptive = s0.adaptive
  lenOri : p.lenOri = s0.lenOri
  initialized : p.initialized = s0.initialized
  guess : p.guess = none
  numIt : p.numIt = 0

/-- A whole step. -/
theorem Glides.step (hl : Linear e A G m0 f0) (hg : e.geo.Laws) {s0 p : St K V Mat Fac}
    {phi τ0 : K} {M : Method K V Mat Fac} {ok : Bool → K → St K V Mat Fac → Prop} {next : K → K}
    (hM : Glides e G m0 f0 s0 phi τ0 M ok next) (h0 : A s0.U = s0.L • e.forcing)
    (htF : 0 < o.tolF) (hF : e.geo.norm ((s0.L + τ0) • e.forcing) ≠ 0)
    (hU : e.geo.norm (τ0 • G e.forcing) ≠ 0)
    (hb : beginStep e M s0 = (p, .ok ())) (hp : Starts e G m0 f0 s0 phi τ0 p) (hok : ok false τ0 p)
    (j : ℕ) (hj : j + 2 ≤ o.maxIt)
    (hsmall : e.geo.norm (next (glide next τ0 j) • G e.forcing) / e.geo.norm (τ0 • G e.forcing) <
      o.tolU)
    (hbig : ∀ i < j, ¬e.geo.norm (next (glide next τ0 i) • G e.forcing) /
        e.geo.norm (τ0 • G e.forcing) < o.tolU) :
    ∃ t u, ALM.step e o M s0 = (t, .ok .success) ∧
      Ended e G s0 phi (glide next τ0 (j + 1)) (1 + j) t ∧
      OnLine e G m0 f0 s0 phi τ0 (glide next τ0 (j + 1)) u ∧ ok true (glide next τ0 (j + 1)) u ∧
      (t.DUold = glide next τ0 (j + 1) • G e.forcing ∧ t.DLold = glide next τ0 (j + 1) ∨
        t.DUold = u.DUold ∧ t.DLold = u.DLold) := by
  obtain ⟨l, h1⟩ := hl.res p (by rw [hp.U, hp.L, h0]) (by rw [hp.DU, hp.DL])
  obtain ⟨q, hq, hq1, hq2⟩ : ∃ q, computeResidualNorms e { p with resVec := 0, log := l } =
      (q, .ok ()) ∧ OnLine e G m0 f0 s0 phi τ0 τ0 q ∧ ok false τ0 q := by
    refine ⟨_, rfl, ?_, ?_⟩
    · simp only [hp.numIt, if_true]
      exact ⟨hp.U, hp.L, hp.DU, hp.DL, hp.jac, hp.fac, rfl, hp.phi, hp.len, hp.adaptive,
        hp.lenOri, hp.initialized, hp.guess, by simp only [hp.L, hp.DL], by simp only [hp.DU]⟩
    · simp only [hp.numIt, if_true]
      exact hM.frame _ _ _ _ hok rfl rfl rfl
  obtain ⟨r, b, hr, hr1, hr2, hb'⟩ : ∃ r b, (if o.quasi = true then M.quasiPredictor
      else pure ()) q = (r, .ok ()) ∧ OnLine e G m0 f0 s0 phi τ0 τ0 r ∧ ok b τ0 r ∧
      (b = true ∨ o.quasi = false) := by
    split
    · obtain ⟨r, h, h', h''⟩ := hM.quasiPredictor false q _ hq1 hq2
      exact ⟨r, true, h, h', h'', .inl rfl⟩
    · next hc => exact ⟨q, false, rfl, hq1, hq2, .inr (by simpa using hc)⟩
  obtain ⟨t, u, h2, h3, h4, h5, h6⟩ := hM.iterate hl hg h0 htF hF hU j (o.maxIt - 1) b τ0
    { r with stabilityPrev := r.stability, numIt := 1 }
    (hr1.of_eq rfl rfl rfl rfl rfl rfl rfl rfl rfl rfl rfl rfl rfl rfl rfl)
    (hM.frame _ _ _ _ hr2 rfl rfl rfl) hb' (by simp) (by simp only; omega) (by omega) hsmall hbig
  have hraw : stepRaw e o M s0 = (t, .ok ()) := by
    unfold stepRaw
    rw [Act.bind_ok hb, Act.bind_ok h1, Act.bind_ok hq, Act.bind_ok hr,
      Act.bind_ok (Act.modify_apply _ _)]
    exact h2
  refine ⟨{ t with status := .success }, u, ?_, ⟨h3.U, h3.L, h3.numIt, h3.phi, h3.Uprev, h3.Lprev,
    h3.lenPrev, h3.len, h3.adaptive, h3.initialized, h3.guess⟩, h4, h5, h6⟩
  change caught _ _ s0 = _
  rw [caught_ok hraw]

end GsSA.ALM
