import Verif.ALM.BifurcationFound

/-!
# C145: Crisfield's method on a structure whose path is straight up to the bifurcation
-/

namespace GsSA.ALM

open GsSA

set_option linter.unusedSectionVars false

variable {K V Mat Fac : Type} [Field K] [LinearOrder K] [IsStrictOrderedRing K] [AddCommGroup V] [Module K V]
variable {e : Env K V Mat Fac} {o : Opts K}
variable {w : V} {σ : K} {mat : K → Mat} {fac : K → Fac} {spec : K → List K}

/-- A linear map that takes the load to `w`. -/
def loadMap {g : Geo K V} (hg : g.Laws) (F w : V) : V →ₗ[K] V where
  toFun x := (g.dot F x / g.dot F F) • w
  map_add' x y := by rw [hg.add_right, add_div, add_smul]
  map_smul' c x := by rw [hg.smul_right, mul_div_assoc, mul_smul, RingHom.id_apply]

theorem loadMap_load {g : Geo K V} (hg : g.Laws) {F : V} (hF : g.dot F F ≠ 0) (w : V) : loadMap hg F w F = w := by
  change (g.dot F F / g.dot F F) • w = w
  rw [div_self hF, one_smul]

/-- The last increment was along `w`, forwards, or there was none. -/
def Forward (w : V) (s : St K V Mat Fac) : Prop :=
  (s.DUold = 0 ∧ s.DLold = 0) ∨ ∃ δ : K, 0 < δ ∧ s.DUold = δ • w ∧ s.DLold = δ

/-- Increment of the load in a step of length 1. -/
def crSpeed (e : Env K V Mat Fac) (w : V) : K := 1 / e.geo.sqrt (2 * e.geo.dot w w)

theorem Straight.ut (h : Straight e o w σ mat fac spec) {s : St K V Mat Fac} {x : K} (hx : x ≠ σ)
    (hf : s.fac = some (fac x)) : ∃ l, computeUt e s = ({ s with Ut := w, log := l }, .ok ()) := by
  have hload : ∀ n, e.solve n (fac x) e.forcing = some w := by
    intro n
    have := h.load n x 1 hx
    simpa using this
  refine ⟨.solve true :: s.log, ?_⟩
  simp only [computeUt, solveSystem, Act.bind_apply, Act.get_apply, hf, Option.bind_some, hload, emit, Act.modify_apply,
    Act.pure_apply]

theorem Straight.ubar (h : Straight e o w σ mat fac spec) {s : St K V Mat Fac} {x : K} (hx : x ≠ σ)
    (hf : s.fac = some (fac x)) (hr : s.resVec = 0) :
    ∃ l, computeUbar e s = ({ s with Ubar := 0, log := l }, .ok ()) := by
  have h0 : ∀ n, e.solve n (fac x) (-(0 : V)) = some 0 := by
    intro n
    have := h.load n x 0 hx
    simpa using this
  refine ⟨.solve true :: s.log, ?_⟩
  simp only [computeUbar, solveSystem, Act.bind_apply, Act.get_apply, hf, hr, Option.bind_some, h0, emit, Act.modify_apply,
    Act.pure_apply]

/-- The scaling of Crisfield's method on the straight path. -/
def crPhi (e : Env K V Mat Fac) (w : V) : K := e.geo.sqrt (e.geo.dot w w / e.geo.dot e.forcing e.forcing)

theorem crPhi_weight (hg : e.geo.Laws) (hF : e.geo.dot e.forcing e.forcing ≠ 0) (w : V) :
    loadWeight e (crPhi e w) = e.geo.dot w w := by
  unfold loadWeight crPhi
  rw [hg.sqrt_sq _ (div_nonneg (hg.nonneg _) (hg.nonneg _)), div_mul_cancel₀ _ hF]

/-- The predictor moves along the path by the length. -/
theorem Straight.crBegin (h : Straight e o w σ mat fac spec) (hg : e.geo.Laws) {s : St K V Mat Fac}
    (hi : s.initialized = true) (hgu : s.guess = none) (hfw : Forward w s) (hU : s.U = s.L • w) (hL : s.L ≠ σ) (hL0 : s.L ≠ 0)
    (hF : e.geo.dot e.forcing e.forcing ≠ 0) (hw : e.geo.dot w w ≠ 0) (hlen : 0 < s.len) (hphi : o.phiUser = false) :
    ∃ p, beginStep e (crisfield e o) s = (p, .ok ()) ∧ p.U = s.U ∧ p.L = s.L ∧ p.DU = (crSpeed e w * s.len) • w ∧
      p.DL = crSpeed e w * s.len ∧ p.numIt = 0 ∧ p.len = s.len ∧ p.adaptive = s.adaptive ∧ p.phi = crPhi e w ∧
      Forward w p ∧ ready p = ready s := by
  have hww : 0 < e.geo.dot w w := lt_of_le_of_ne (hg.nonneg _) (Ne.symm hw)
  have hr0 : 0 < e.geo.sqrt (2 * e.geo.dot w w) := hg.sqrt_pos (by linarith)
  have hT : 0 < crSpeed e w * s.len := mul_pos (one_div_pos.2 hr0) hlen
  rw [begin_eq (s1 := { s with
    converged := false, numIt := 0, DU := 0, Ubar := 0, Ut := 0, DL := 0, dL := 0 }) hi rfl hgu]
  change ∃ p, crPredictor e o _ = _ ∧ _
  unfold crPredictor
  obtain ⟨l, h1⟩ := h.assemble (x := s.L) (s := { s with
    converged := false, numIt := 0, DU := 0, Ubar := 0, Ut := 0, DL := 0, dL := 0 }) (by simp only [hU, add_zero]) hL
  rw [Act.bind_ok h1]
  obtain ⟨l', h2⟩ := h.ut (x := s.L) (s := { s with
    converged := false, numIt := 0, DU := 0, Ubar := 0, Ut := 0, jac := mat s.L, fac := some (fac s.L),
    log := l, DL := 0, dL := 0 }) hL rfl
  rw [Act.bind_ok h2, Act.bind_ok (Act.get_apply _)]
  simp only
  have h3 : (if e.geo.dot s.DUold s.DUold = 0 ∧ s.DLold * s.DLold = 0 then firstPredictor e o
        else laterPredictor e o) { s with
          converged := false, numIt := 0, DU := 0, Ubar := 0, Ut := w, jac := mat s.L,
          fac := some (fac s.L), log := l', DL := 0, dL := 0 } = ({ s with
          converged := false, numIt := 0, DU := 0, Ubar := 0, Ut := w, jac := mat s.L,
          fac := some (fac s.L), log := l', DL := 0, dL := crSpeed e w * s.len, dU := (crSpeed e w * s.len) • w,
          phi := crPhi e w }, .ok ()) := by
    rcases id hfw with ⟨a1, a2⟩ | ⟨δ, a3, a1, a2⟩
    · rw [if_pos (by rw [a1, a2, hg.zero_left]; simp)]
      simp only [firstPredictor, Act.modify_apply, zero_add, tangentPhi, hphi, Bool.false_eq_true, if_false, crSpeed, crPhi,
        one_div_mul_eq_div]
    · rw [if_neg]
      · simp only [laterPredictor]
        rw [Act.bind_ok (Act.modify_apply _ _)]
        have hp : e.geo.sqrt (e.geo.dot s.U s.U / (s.L ^ 2 * e.geo.dot e.forcing e.forcing)) = crPhi e w := by
          unfold crPhi
          congr 1
          rw [hU, hg.smul_left, hg.smul_right]
          field_simp
        simp only [lambdaMU, Act.modify_apply, hphi, Bool.false_eq_true, if_false, hp, crPhi_weight hg hF]
        have hsg : sgn (e.geo.dot s.DUold w + e.geo.dot w w * s.DLold) = 1 := by
          rw [a1, a2, hg.smul_left]
          have : 0 < δ * e.geo.dot w w + e.geo.dot w w * δ := by positivity
          rw [sgn, if_pos this, if_neg (not_lt.2 this.le), sub_zero]
        have e2 : e.geo.dot w w + e.geo.dot w w = 2 * e.geo.dot w w := by ring
        rw [hsg, e2, if_neg hr0.ne', one_mul]
        simp only [crSpeed, one_div_mul_eq_div]
      · rintro ⟨hc, -⟩
        rw [a1, hg.smul_left, hg.smul_right, ← mul_assoc] at hc
        exact (mul_pos (mul_self_pos.2 a3.ne') hww).ne' hc
  rw [Act.bind_ok h3, Act.bind_ok (Act.modify_apply _ _), Act.modify_apply]
  by_cases hang : o.angle = .iteration ∨ o.angle = .predictor
  · rw [if_pos hang]
    refine ⟨_, rfl, rfl, rfl, zero_add _, zero_add _, rfl, rfl, rfl, rfl, Or.inr ⟨_, hT, ?_, ?_⟩, rfl⟩
    · simp only [zero_add]
    · simp only [zero_add]
  · rw [if_neg hang]
    exact ⟨_, rfl, rfl, rfl, zero_add _, zero_add _, rfl, rfl, rfl, rfl, hfw, rfl⟩

/-- The correction is zero. -/
theorem Straight.crCorrect (h : Straight e o w σ mat fac spec) (hg : e.geo.Laws)
    (hF : e.geo.dot e.forcing e.forcing ≠ 0) (hw : e.geo.dot w w ≠ 0) (hrel : o.relax = 1) {s : St K V Mat Fac} {x : K}
    (hx : x ≠ σ) (hf : s.fac = some (fac x)) (hr : s.resVec = 0) (hUt : s.Ut = w) (hlen : 0 < s.len)
    (hDU : s.DU = (crSpeed e w * s.len) • w) (hDL : s.DL = crSpeed e w * s.len) (hphi : s.phi = crPhi e w)
    (hfw : Forward w s) :
    ∃ l y z, (crisfield e o).iteration s = ({ s with Ubar := 0, dU := 0, dL := 0, DUold := y, DLold := z, log := l }, .ok ()) ∧
      ((y = s.DUold ∧ z = s.DLold) ∨ (y = s.DU ∧ z = s.DL)) := by
  have hww : 0 < e.geo.dot w w := lt_of_le_of_ne (hg.nonneg _) (Ne.symm hw)
  have hG := loadMap_load hg hF w
  set G := loadMap hg e.forcing w with hGd
  obtain ⟨l, h1⟩ := h.ubar hx hf hr
  have hside : side e G s.phi 1 s.DUold s.DLold := by
    refine Or.inl ⟨rfl, ?_⟩
    rw [hG]
    rcases hfw with ⟨a1, a2⟩ | ⟨δ, a3, a1, a2⟩
    · rw [a1, a2, hg.zero_left]
      simp
    · rw [a1, a2, hg.smul_left]
      positivity
  obtain ⟨l', h2⟩ := lambdas_linear (G := G) hg (by rw [hG]; exact hw) (s := { s with Ubar := 0, log := l })
    (τ := crSpeed e w * s.len) (σ := 1) (by rw [hG]; exact hDU) hDL (by rw [hG]; exact hUt) rfl hlen hside
  have hT : (1 : K) * (s.len / e.geo.sqrt (tangentForm e G s.phi)) - crSpeed e w * s.len = 0 := by
    unfold tangentForm
    rw [hphi, crPhi_weight hg hF, hG, crSpeed, one_mul, one_div_mul_eq_div, ← two_mul, sub_self]
  simp only [hT, zero_smul] at h2
  refine ⟨l', if o.angle = .iteration then s.DU else s.DUold, if o.angle = .iteration then s.DL else s.DLold, ?_, ?_⟩
  · change crIteration e o s = _
    unfold crIteration
    rw [Act.bind_ok h1, Act.bind_ok (Act.get_apply _)]
    simp only
    rw [Act.bind_ok h2, Act.bind_ok (Act.modify_apply _ _)]
    simp only [hrel, ne_eq, not_true_eq_false, and_false, if_false]
    rw [Act.bind_ok (Act.modify_apply _ _), Act.modify_apply]
    by_cases hang : o.angle = .iteration <;> simp [hang]
  · by_cases hang : o.angle = .iteration
    · simp [hang]
    · simp [hang]

/-- A step of Crisfield's method on the straight path: it arrives at the load plus the length divided by the root of
twice the square of the displacements per load, or fails since the bifurcation is exactly there. -/
theorem Straight.crStep (h : Straight e o w σ mat fac spec) (hg : e.geo.Laws) {s : St K V Mat Fac}
    (hI : ready s = (none, true)) (hfw : Forward w s) (hU : s.U = s.L • w) (hL : s.L ≠ σ) (hL0 : 0 < s.L)
    (hF : e.geo.dot e.forcing e.forcing ≠ 0) (hw : e.geo.dot w w ≠ 0) (hlen : 0 < s.len) (had : s.adaptive = false)
    (hphi : o.phiUser = false) (hrel : o.relax = 1) (hq : o.quasi = false) (htF : 0 < o.tolF) (htU : 0 < o.tolU)
    (hmax : 2 ≤ o.maxIt) :
    (s.L + crSpeed e w * s.len ≠ σ → ∃ t, ALM.step e o (crisfield e o) s = (t, .ok .success) ∧
      t.U = (s.L + crSpeed e w * s.len) • w ∧ t.L = s.L + crSpeed e w * s.len ∧ ready t = (none, true) ∧ Forward w t) ∧
    (s.L + crSpeed e w * s.len = σ → ∃ t, ALM.step e o (crisfield e o) s = (t, .ok .solverError) ∧
      ready t = (none, true) ∧ Forward w t) := by
  have hww : 0 < e.geo.dot w w := lt_of_le_of_ne (hg.nonneg _) (Ne.symm hw)
  have hT : 0 < crSpeed e w * s.len := mul_pos (one_div_pos.2 (hg.sqrt_pos (by linarith))) hlen
  have hI' := hI
  simp only [ready, Prod.mk.injEq] at hI'
  obtain ⟨p, hb, p1, p2, p3, p4, p6, p7, p8, p9, p10, p11⟩ :=
    h.crBegin hg hI'.2 hI'.1 hfw hU hL hL0.ne' hF hw hlen hphi
  set T := crSpeed e w * s.len with hTd
  have pU : p.U + p.DU = (s.L + T) • w := by rw [p1, p3, hU, add_smul]
  have pL : p.L + p.DL = s.L + T := by rw [p2, p4]
  have hnF : e.geo.norm ((s.L + T) • e.forcing) ≠ 0 := norm_smul_ne hg (by linarith) hF
  have hnU : e.geo.norm (T • w) ≠ 0 := norm_smul_ne hg hT.ne' hw
  obtain ⟨q, hqr, q1, q2, q3, q4, q5, q6, q7, q8, q9, q10, q11, q12, q13⟩ : ∃ q, (stepRaw e o (crisfield e o)).run s =
      (iterate e o (crisfield e o) (o.maxIt - 1)).run q ∧ q.U = s.U ∧ q.L = s.L ∧ q.DU = T • w ∧ q.DL = T ∧
      q.numIt = 1 ∧ q.basisF ≠ 0 ∧ q.basisU ≠ 0 ∧ q.adaptive = false ∧ q.resVec = 0 ∧ q.len = s.len ∧ q.phi = crPhi e w ∧
      Forward w q ∧ ready q = (none, true) := by
    unfold stepRaw
    rw [Act.bind_ok hb, Act.bind_ok (h.res pU pL)]
    unfold computeResidualNorms
    rw [Act.bind_ok (Act.modify_apply _ _)]
    simp only [hq, Bool.false_eq_true, if_false, p6, if_true]
    rw [Act.bind_ok (Act.pure_apply _ _), Act.bind_ok (Act.modify_apply _ _)]
    refine ⟨_, rfl, p1, p2, p3, p4, rfl, ?_, ?_, p8.trans had, rfl, p7, p9, p10, p11.trans hI⟩
    · simp only [pL]
      exact hnF
    · simp only [p3]
      exact hnU
  have qU : q.U + q.DU = (s.L + T) • w := by rw [q1, q3, hU, add_smul]
  have qL : q.L + q.DL = s.L + T := by rw [q2, q4]
  obtain ⟨n, hn⟩ : ∃ n, o.maxIt - 1 = n + 1 := ⟨o.maxIt - 2, by omega⟩
  rw [hn] at hqr
  have href : refreshes o q.numIt = true := by simp [refreshes, hq]
  constructor
  · intro hne
    obtain ⟨l1, a1⟩ := h.assemble qU hne
    obtain ⟨l2, a2⟩ := h.ut hne (s := { q with jac := mat (s.L + T), fac := some (fac (s.L + T)), log := l1 }) rfl
    obtain ⟨l3, y, z, a3, hyz⟩ := h.crCorrect (o := o) hg hF hw hrel (s := { q with
      jac := mat (s.L + T), fac := some (fac (s.L + T)), log := l2, Ut := w }) hne rfl q9 rfl (by simp only [q10]; exact hlen)
      (by simp only [q3, q10]; exact congrArg (· • w) hTd) (by simp only [q4, q10]; exact hTd) q11 q12
    obtain ⟨a, b, c, d, l4, a4⟩ := h.stab hne (s := { q with
      jac := mat (s.L + T), fac := some (fac (s.L + T)), log := l3, Ut := w, Ubar := 0, dU := 0, dL := 0, DUold := y,
      DLold := z }) rfl rfl
    have a5 := h.res (x := s.L + T) (s := { q with
      jac := mat (s.L + T), fac := some (fac (s.L + T)), log := l4, Ut := w, Ubar := 0, dU := 0, dL := 0, DUold := y,
      DLold := z, stabVec := a, negatives := b, indicator := c, stability := d, status := .success }) qU qL
    have hfy : (y = 0 ∧ z = 0) ∨ ∃ δ : K, 0 < δ ∧ y = δ • w ∧ z = δ := by
      rcases hyz with ⟨rfl, rfl⟩ | ⟨rfl, rfl⟩
      · exact q12
      · exact Or.inr ⟨T, hT, q3, q4⟩
    have hbody : ∃ t, (iterationBody e o (crisfield e o)).run q = (t, .ok ()) ∧ t.U = q.U ∧ t.L = q.L ∧
        t.DU = q.DU ∧ t.DL = q.DL ∧ t.adaptive = false ∧ meets o t = true ∧ Forward w t ∧ ready t = (none, true) := by
      unfold iterationBody
      rw [Act.bind_ok (Act.get_apply _)]
      simp only [href, if_true]
      have a1' : ((crisfield e o).quasiIteration).run q = ({ q with
        jac := mat (s.L + T), fac := some (fac (s.L + T)), log := l2, Ut := w }, .ok ()) := (Act.bind_ok a1).trans a2
      rw [Act.bind_ok a1', Act.bind_ok a3, Act.bind_ok a4, Act.bind_ok a5]
      unfold computeResidualNorms
      rw [Act.modify_apply]
      simp only [q5, one_ne_zero, if_false]
      refine ⟨_, rfl, rfl, rfl, rfl, rfl, q8, ?_, hfy, q13⟩
      have hn0 : e.geo.norm (0 : V) = 0 := by
        have := norm_zero_smul hg (0 : V)
        rwa [zero_smul] at this
      simp only [meets, hn0, ratio, q6, q7, if_false, below, zero_div, htF, htU, decide_true, Bool.and_self]
    obtain ⟨t, ht, t1, t2, t3, t4, t5, t6, t7, t8⟩ := hbody
    have hit : ∃ t, (iterate e o (crisfield e o) (n + 1)).run q = (t, .ok ()) ∧ t.U = (s.L + T) • w ∧
        t.L = s.L + T ∧ ready t = (none, true) ∧ Forward w t := by
      rw [iterate, Act.bind_ok ht, Act.bind_ok (Act.get_apply _)]
      simp only [t6, if_true]
      unfold finishStep
      obtain ⟨u, hacc, u1, u2, u3, u4, u5⟩ : ∃ u, ((crisfield e o).iterationFinish).run t = (u, .ok ()) ∧
          u.U = t.U + t.DU ∧ u.L = t.L + t.DL ∧ u.adaptive = false ∧ ready u = (none, true) ∧ Forward w u := by
        change ∃ u, (acceptStep >>= fun _ => Act.modify _) t = _ ∧ _
        rw [Act.bind_ok (by rfl : acceptStep t = _), Act.modify_apply]
        by_cases hang : o.angle = .step
        · rw [if_pos hang]
          exact ⟨_, rfl, rfl, rfl, t5, t8, Or.inr ⟨T, hT, t3.trans q3, t4.trans q4⟩⟩
        · rw [if_neg hang]
          exact ⟨_, rfl, rfl, rfl, t5, t8, t7⟩
      rw [Act.bind_ok hacc, Act.bind_ok (Act.get_apply _)]
      simp only [u3, Bool.false_eq_true, if_false, Act.modify_apply]
      refine ⟨_, rfl, ?_, ?_, u4, u5⟩
      · simp only [u1, t1, t3, qU]
      · simp only [u2, t2, t4, qL]
    obtain ⟨t, ht, t1, t2, t3, t4⟩ := hit
    refine ⟨{ t with status := .success }, ?_, t1, t2, t3, t4⟩
    change (caught _ _).run s = _
    simp only [caught, hqr.trans ht]
  · intro heq
    rw [heq] at qU
    obtain ⟨t, ht, t1, t2⟩ : ∃ t, assembleFactorize e q = (t, .error .solver) ∧ ready t = (none, true) ∧ Forward w t := by
      refine ⟨{ q with fac := none, log := .factor false :: .jacobian true :: q.log }, ?_, q13, q12⟩
      simp only [assembleFactorize, computeJacobianAt, factorizeMatrix, Act.bind_apply, Act.get_apply, qU, h.jacobian,
        h.singular, emit, Act.modify_apply, Act.throw_apply]
    have hit : (iterate e o (crisfield e o) (n + 1)).run q = (t, .error .solver) := by
      unfold iterate iterationBody
      have : ((do
        let s ← Act.get
        (if refreshes o s.numIt then (crisfield e o).quasiIteration else pure ())
        (crisfield e o).iteration
        let _ ← computeStability e o false (-100)
        computeResidual e
        computeResidualNorms e : Act (St K V Mat Fac) Unit)).run q = (t, .error .solver) := by
        rw [Act.bind_ok (Act.get_apply _)]
        simp only [href, if_true]
        refine Act.bind_error ?_
        exact Act.bind_error ht
      exact Act.bind_error this
    refine ⟨{ t with status := .solverError }, ?_, t1, t2⟩
    change (caught _ _).run s = _
    simp only [caught, hqr.trans hit, statusOf]

/-- Crisfield's method follows the straight path. -/
theorem Straight.crFollows (h : Straight e o w σ mat fac spec) (hg : e.geo.Laws)
    (hF : e.geo.dot e.forcing e.forcing ≠ 0) (hw : e.geo.dot w w ≠ 0) (hphi : o.phiUser = false) (hrel : o.relax = 1)
    (hq : o.quasi = false) (htF : 0 < o.tolF) (htU : 0 < o.tolU) (hmax : 2 ≤ o.maxIt) {L : K} (hL : 0 < L) :
    Follows e o (crisfield e o) (fun s => ready s = (none, true) ∧ Forward w s) w σ (crSpeed e w) L where
  method := .crisfield
  frame := by constructor <;> intros <;> rfl
  move _ _ _ := rfl
  length _ _ := rfl
  fixed _ _ := rfl
  step s hI hU hLs hlt had hl := h.crStep hg hI.1 hI.2 hU hlt.ne (by linarith) hF hw hl had hphi hrel hq htF htU hmax

theorem crSpeed_pos (hg : e.geo.Laws) (hw : e.geo.dot w w ≠ 0) : 0 < crSpeed e w :=
  one_div_pos.2 (hg.sqrt_pos (by
    have := lt_of_le_of_ne (hg.nonneg _) (Ne.symm hw)
    linarith))

end GsSA.ALM
