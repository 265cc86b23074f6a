import Mathlib.Tactic.Module
import Verif.ALM.BisectionConverge
import Verif.ALM.LinearProps
import Verif.ALM.SingularDemo

/-!
# C142: bisection with load control on a structure whose path is straight up to the bifurcation
-/

namespace GsSA.ALM

open GsSA

set_option linter.unusedSectionVars false

variable {K V Mat Fac : Type} [Field K] [LinearOrder K] [IsStrictOrderedRing K] [AddCommGroup V] [Module K V]
variable {e : Env K V Mat Fac} {o : Opts K}

/-- Ready for a step without guess. -/
def ready (s : St K V Mat Fac) : Option V × Bool := (s.guess, s.initialized)

theorem framed_ready : Framed (ready : St K V Mat Fac → _) := by constructor <;> intros <;> rfl

theorem keeps_ready_lcPredict (dl : St K V Mat Fac → K) : Keeps (ready : St K V Mat Fac → _) (lcPredict e dl) := by
  unfold lcPredict
  exact Keeps.bind framed_ready.assembleFactorize fun _ => Keeps.bind (Keeps.modify fun _ => rfl)
    fun _ => Keeps.bind (framed_ready.computeUt fun _ _ => rfl) fun _ => Keeps.modify fun _ => rfl

theorem keeps_ready_stepRaw : Keeps (ready : St K V Mat Fac → _) (stepRaw e o (loadControl e)) := by
  have hf := framed_ready (K := K) (V := V) (Mat := Mat) (Fac := Fac)
  have hiter : ∀ rem, Keeps (ready : St K V Mat Fac → _) (iterate e o (loadControl e) rem) := by
    intro rem
    induction rem with
    | zero => exact Keeps.ret _
    | succ rem ih =>
      rw [iterate]
      refine Keeps.bind ?_ fun _ => Keeps.bind Keeps.get fun s => Keeps.ite ?_
        (Keeps.ite (Keeps.bind (Keeps.modify fun _ => rfl) fun _ => Keeps.throw _)
          (Keeps.bind (Keeps.modify fun _ => rfl) fun _ => ih))
      · unfold iterationBody
        refine Keeps.bind Keeps.get fun s => Keeps.bind (Keeps.ite hf.assembleFactorize (Keeps.ret _))
          fun _ => Keeps.bind ?_ fun _ => Keeps.bind (hf.computeStability _ _) fun _ =>
            Keeps.bind hf.computeResidual fun _ => hf.computeResidualNorms
        exact Keeps.bind hf.computeUbar fun _ => Keeps.modify fun _ => rfl
      · unfold finishStep
        refine Keeps.bind (Keeps.modify fun _ => rfl) fun _ => Keeps.bind Keeps.get fun s =>
          Keeps.ite ?_ (Keeps.modify fun _ => rfl)
        unfold computeLength
        exact Keeps.bind Keeps.get fun s => Keeps.ite (Keeps.throw _) (Keeps.modify fun _ => rfl)
  unfold stepRaw beginStep
  exact Keeps.bind
    (Keeps.bind Keeps.get fun s => Keeps.bind (Keeps.ite (Keeps.bind (Keeps.modify fun _ => rfl)
      fun _ => Keeps.throw _) (Keeps.ret _)) fun _ => Keeps.bind (Keeps.modify fun _ => rfl)
      fun _ => Keeps.bind (Keeps.modify fun _ => rfl) fun _ => Keeps.bind Keeps.get fun s =>
      Keeps.ite (keeps_ready_lcPredict _) (keeps_ready_lcPredict _))
    fun _ => Keeps.bind hf.computeResidual fun _ => Keeps.bind hf.computeResidualNorms fun _ =>
    Keeps.bind (Keeps.ite (Keeps.bind hf.assembleFactorize fun _ => hf.computeUbar) (Keeps.ret _))
    fun _ => Keeps.bind (Keeps.modify fun _ => rfl) fun _ => hiter _

/-- The displacements are proportional to the load up to the bifurcation at the load `σ` and beyond; the tangent
depends on the load. -/
structure Straight (e : Env K V Mat Fac) (o : Opts K) (w : V) (σ : K) (mat : K → Mat) (fac : K → Fac)
    (spec : K → List K) : Prop where
  residual : ∀ n (l l' : K), e.residual n (l • w) l' = some ((l - l') • e.forcing)
  jacobian : ∀ n (l : K) d, e.jacobian n (l • w) d = some (mat l)
  factorize : ∀ n l, l ≠ σ → e.factorize n (mat l) = some (fac l)
  singular : ∀ n, e.factorize n (mat σ) = none
  solve : ∀ n l x, ∃ y, e.solve n (fac l) x = some y
  load : ∀ n l (c : K), l ≠ σ → e.solve n (fac l) (c • e.forcing) = some (c • w)
  vector : ∀ l, l ≠ σ → (o.bifMethod = .determinant ∧ e.vecD (fac l) = spec l) ∨
    (o.bifMethod = .eigenvalue ∧ ∀ n, e.eigs n (mat l) (-100) = some (spec l))
  filled : ∀ l, spec l ≠ []

variable {w : V} {σ : K} {mat : K → Mat} {fac : K → Fac} {spec : K → List K}

theorem Straight.assemble (h : Straight e o w σ mat fac spec) {s : St K V Mat Fac} {x : K}
    (hs : s.U + s.DU = x • w) (hx : x ≠ σ) :
    ∃ l, assembleFactorize e s = ({ s with jac := mat x, fac := some (fac x), log := l }, .ok ()) := by
  refine ⟨.factor true :: .factor true :: .jacobian true :: s.log, ?_⟩
  simp only [assembleFactorize, computeJacobianAt, factorizeMatrix, Act.bind_apply, Act.get_apply, hs, h.jacobian,
    h.factorize _ _ hx, emit, Act.modify_apply, Act.pure_apply]

theorem Straight.assemble_fails (h : Straight e o w σ mat fac spec) {s : St K V Mat Fac}
    (hs : s.U + s.DU = σ • w) : ∃ t, assembleFactorize e s = (t, .error .solver) := by
  refine ⟨{ s with fac := none, log := .factor false :: .jacobian true :: s.log }, ?_⟩
  simp only [assembleFactorize, computeJacobianAt, factorizeMatrix, Act.bind_apply, Act.get_apply, hs, h.jacobian,
    h.singular, emit, Act.modify_apply, Act.throw_apply]

theorem Straight.res (h : Straight e o w σ mat fac spec) {s : St K V Mat Fac} {x : K} (hs : s.U + s.DU = x • w)
    (hx : s.L + s.DL = x) :
    computeResidual e s = ({ s with resVec := 0, log := .residual true :: s.log }, .ok ()) := by
  simp only [computeResidual, evalResidual, Act.bind_apply, Act.get_apply, hs, hx, h.residual, sub_self, zero_smul, emit,
    Act.modify_apply, Act.pure_apply]

theorem Straight.stab (h : Straight e o w σ mat fac spec) {s : St K V Mat Fac} {x : K} (hx : x ≠ σ)
    (hj : s.jac = mat x) (hf : s.fac = some (fac x)) :
    ∃ a b c d l, computeStability e o false (-100) s =
      ({ s with stabVec := a, negatives := b, indicator := c, stability := d, status := .success, log := l },
        .ok .success) := by
  obtain ⟨y, hy⟩ : ∃ y, minCoeff (spec x) = some y := by
    have := h.filled x
    cases hsp : spec x with
    | nil => exact absurd hsp this
    | cons a l => exact ⟨_, rfl⟩
  rcases h.vector x hx with ⟨hb, hd⟩ | ⟨hb, hd⟩
  · refine ⟨spec x, countNegatives (spec x), y, stabilityOf y, .factor true :: s.log, ?_⟩
    change (caught _ _).run s = _
    simp only [caught, computeStabilityRaw, Bool.false_eq_true, if_false, Act.bind_apply, Act.pure_apply,
      stabilityVector, hb, Act.get_apply, factorizeMatrix, hj, h.factorize _ _ hx, Act.modify_apply, emit,
      Option.map_some, Option.getD_some, hd, hy]
    rw [← hf]
  · refine ⟨spec x, countNegatives (spec x), y, stabilityOf y, .eig true :: s.log, ?_⟩
    change (caught _ _).run s = _
    simp only [caught, computeStabilityRaw, Bool.false_eq_true, if_false, Act.bind_apply, Act.pure_apply,
      stabilityVector, hb, Act.get_apply, hj, Act.modify_apply, emit, hd, hy]

/-- A step of load control on the straight path: it arrives at the load plus the length, or fails since the
bifurcation is exactly there. -/
theorem Straight.step (h : Straight e o w σ mat fac spec) (hg : e.geo.Laws) {s : St K V Mat Fac}
    (hi : s.initialized = true) (hgu : s.guess = none) (hU : s.U = s.L • w) (hL : s.L ≠ σ)
    (hF : e.geo.dot e.forcing e.forcing ≠ 0) (hw : e.geo.dot w w ≠ 0) (hlen : s.len ≠ 0) (hz : s.L + s.len ≠ 0)
    (had : s.adaptive = false) (hq : o.quasi = false) (htF : 0 < o.tolF) (htU : 0 < o.tolU) (hmax : 2 ≤ o.maxIt) :
    (s.L + s.len ≠ σ → ∃ t, ALM.step e o (loadControl e) s = (t, .ok .success) ∧ t.U = (s.L + s.len) • w ∧
      t.L = s.L + s.len) ∧
    (s.L + s.len = σ → ∃ t, ALM.step e o (loadControl e) s = (t, .ok .solverError)) := by
  -- predictor
  obtain ⟨p, hb, p1, p2, p3, p4, p5, p6, p7, p8, p9⟩ : ∃ p, beginStep e (loadControl e) s = (p, .ok ()) ∧
      p.U = s.U ∧ p.L = s.L ∧ p.DU = s.len • w ∧ p.DL = s.len ∧ p.dU = 0 ∧ p.numIt = 0 ∧ p.len = s.len ∧
      p.adaptive = false ∧ True := by
    rw [begin_eq (s1 := { s with converged := false, numIt := 0, DU := 0, dU := 0, DL := 0, dL := 0 }) hi rfl hgu]
    change ∃ p, lcPredict e (fun s => s.len) _ = _ ∧ _
    unfold lcPredict
    obtain ⟨l, h1⟩ := h.assemble (x := s.L)
      (s := { s with converged := false, numIt := 0, DU := 0, dU := 0, DL := 0, dL := 0 }) (by simp only [hU, add_zero])
      hL
    rw [Act.bind_ok h1, Act.bind_ok (Act.modify_apply _ _)]
    have hload : ∀ n, e.solve n (fac s.L) e.forcing = some w := by
      intro n
      have := h.load n s.L 1 hL
      simpa using this
    have h2 : (computeUt e).run { s with
        converged := false, numIt := 0, DU := 0, dU := 0, jac := mat s.L, fac := some (fac s.L), log := l,
        DL := s.len, dL := s.len } = ({ s with
        converged := false, numIt := 0, DU := 0, dU := 0, jac := mat s.L, fac := some (fac s.L),
        log := .solve true :: l, DL := s.len, dL := s.len, Ut := w }, .ok ()) := by
      simp only [computeUt, solveSystem, Act.bind_apply, Act.get_apply, Option.bind_some, hload, emit,
        Act.modify_apply, Act.pure_apply]
    rw [Act.bind_ok h2]
    exact ⟨_, rfl, rfl, rfl, rfl, rfl, rfl, rfl, rfl, had, trivial⟩
  have pU : p.U + p.DU = (s.L + s.len) • w := by rw [p1, p3, hU, add_smul]
  have pL : p.L + p.DL = s.L + s.len := by rw [p2, p4]
  -- the residual after the predictor
  have hnF : e.geo.norm ((s.L + s.len) • e.forcing) ≠ 0 := norm_smul_ne hg hz hF
  have hnU : e.geo.norm (s.len • w) ≠ 0 := norm_smul_ne hg hlen hw
  obtain ⟨q, hqr, q1, q2, q3, q4, q5, q6, q7, q8, q9⟩ : ∃ q, (stepRaw e o (loadControl e)).run s =
      (iterate e o (loadControl e) (o.maxIt - 1)).run q ∧ q.U = s.U ∧ q.L = s.L ∧ q.DU = s.len • w ∧ q.DL = s.len ∧
      q.numIt = 1 ∧ q.basisF ≠ 0 ∧ q.basisU ≠ 0 ∧ q.adaptive = false ∧ q.resVec = 0 := by
    unfold stepRaw
    rw [Act.bind_ok hb, Act.bind_ok (h.res pU pL)]
    unfold computeResidualNorms
    rw [Act.bind_ok (Act.modify_apply _ _)]
    simp only [hq, Bool.false_eq_true, if_false, p6, if_true]
    rw [Act.bind_ok (Act.pure_apply _ _), Act.bind_ok (Act.modify_apply _ _)]
    refine ⟨_, rfl, p1, p2, p3, p4, rfl, ?_, ?_, p8, rfl⟩
    · simp only [pL]
      exact hnF
    · simp only [p3]
      exact hnU
  have qU : q.U + q.DU = (s.L + s.len) • w := by rw [q1, q3, hU, add_smul]
  have qL : q.L + q.DL = s.L + s.len := by rw [q2, q4]
  obtain ⟨n, hn⟩ : ∃ n, o.maxIt - 1 = n + 1 := ⟨o.maxIt - 2, by omega⟩
  rw [hn] at hqr
  have href : refreshes o q.numIt = true := by simp [refreshes, hq]
  constructor
  · intro hne
    have hit : ∃ t, (iterate e o (loadControl e) (n + 1)).run q = (t, .ok ()) ∧ t.U = (s.L + s.len) • w ∧
        t.L = s.L + s.len := by
      obtain ⟨l1, a1⟩ := h.assemble qU hne
      have h0 : ∀ n, e.solve n (fac (s.L + s.len)) (-(0 : V)) = some 0 := by
        intro n
        have := h.load n (s.L + s.len) 0 hne
        simpa using this
      have a2 : ((loadControl e).iteration).run { q with
          jac := mat (s.L + s.len), fac := some (fac (s.L + s.len)), log := l1, resVec := 0 } = ({ q with
          jac := mat (s.L + s.len), fac := some (fac (s.L + s.len)), log := .solve true :: l1, resVec := 0,
          Ubar := 0, dU := 0, DU := q.DU + 0 }, .ok ()) := by
        simp only [loadControl, lcIteration, computeUbar, solveSystem, Act.bind_apply, Act.get_apply, Option.bind_some, h0, emit,
          Act.modify_apply, Act.pure_apply]
      obtain ⟨a, b, c, d, l2, a3⟩ := h.stab hne (s := { q with
          jac := mat (s.L + s.len), fac := some (fac (s.L + s.len)), log := .solve true :: l1, resVec := 0,
          Ubar := 0, dU := 0, DU := q.DU + 0 }) rfl rfl
      have a4 := h.res (x := s.L + s.len) (s := { q with
          jac := mat (s.L + s.len), fac := some (fac (s.L + s.len)), log := l2, resVec := 0, Ubar := 0, dU := 0,
          DU := q.DU + 0, stabVec := a, negatives := b, indicator := c, stability := d, status := .success })
          (by simp only [add_zero]; exact qU) qL
      have hqv : q.resVec = 0 := q9
      have hbody : ∃ t, (iterationBody e o (loadControl e)).run q = (t, .ok ()) ∧ t.U = q.U ∧ t.L = q.L ∧
          t.DU = q.DU ∧ t.DL = q.DL ∧ t.adaptive = false ∧ meets o t = true := by
        unfold iterationBody
        rw [Act.bind_ok (Act.get_apply _)]
        simp only [href, if_true]
        have a1' : ((loadControl e).quasiIteration).run q = ({ q with
          jac := mat (s.L + s.len), fac := some (fac (s.L + s.len)), log := l1, resVec := 0 }, .ok ()) := by
          rw [← hqv]
          exact a1
        rw [Act.bind_ok a1', Act.bind_ok a2, Act.bind_ok a3, Act.bind_ok a4]
        unfold computeResidualNorms
        rw [Act.modify_apply]
        simp only [q5, one_ne_zero, if_false]
        refine ⟨_, rfl, rfl, rfl, add_zero _, rfl, q8, ?_⟩
        have hn0 : e.geo.norm (0 : V) = 0 := by
          have := norm_zero_smul hg (0 : V)
          rwa [zero_smul] at this
        simp only [meets, hn0, ratio, q6, q7, if_false, below, zero_div, htF, htU, decide_true, Bool.and_self]
      obtain ⟨t, ht, t1, t2, t3, t4, t5, t6⟩ := hbody
      rw [iterate, Act.bind_ok ht, Act.bind_ok (Act.get_apply _)]
      simp only [t6, if_true]
      unfold finishStep
      have hacc : ((loadControl e).iterationFinish).run t = ({ t with
          converged := true, Uprev := t.U, Lprev := t.L, U := t.U + t.DU, L := t.L + t.DL }, .ok ()) := rfl
      rw [Act.bind_ok hacc, Act.bind_ok (Act.get_apply _)]
      simp only [t5, Bool.false_eq_true, if_false, Act.modify_apply]
      refine ⟨_, rfl, ?_, ?_⟩
      · simp only [t1, t3, qU]
      · simp only [t2, t4, qL]
    obtain ⟨t, ht, t1, t2⟩ := hit
    refine ⟨{ t with status := .success }, ?_, t1, t2⟩
    change (caught _ _).run s = _
    simp only [caught, hqr.trans ht]
  · intro heq
    rw [heq] at qU
    obtain ⟨t, ht⟩ := h.assemble_fails qU
    have hit : (iterate e o (loadControl e) (n + 1)).run q = (t, .error .solver) := by
      unfold iterate iterationBody
      have : ((do
        let s ← Act.get
        (if refreshes o s.numIt then (loadControl e).quasiIteration else pure ())
        (loadControl e).iteration
        let _ ← computeStability e o false (-100)
        computeResidual e
        computeResidualNorms e : Act (St K V Mat Fac) Unit)).run q = (t, .error .solver) := by
        rw [Act.bind_ok (Act.get_apply _)]
        simp only [href, if_true]
        exact Act.bind_error ht
      exact Act.bind_error this
    refine ⟨{ t with status := .solverError }, ?_⟩
    change (caught _ _).run s = _
    simp only [caught, hqr.trans hit, statusOf]

/-- The steps of a method in front of the bifurcation at the load `σ`, started at loads of at least `L`: the load
increases by `c` times the length, unless the step fails since the bifurcation is exactly there. -/
structure Follows (e : Env K V Mat Fac) (o : Opts K) (M : Method K V Mat Fac) (I : St K V Mat Fac → Prop) (w : V)
    (σ c L : K) : Prop where
  method : IsMethod e o M
  frame : Framed I
  move : ∀ s U L, I { s with U := U, L := L } = I s
  length : ∀ s l, I { s with len := l } = I s
  fixed : ∀ s c, I { s with adaptive := c } = I s
  step : ∀ s, I s → s.U = s.L • w → L ≤ s.L → s.L < σ → s.adaptive = false → 0 < s.len →
    (s.L + c * s.len ≠ σ → ∃ t, ALM.step e o M s = (t, .ok .success) ∧ t.U = (s.L + c * s.len) • w ∧
      t.L = s.L + c * s.len ∧ I t) ∧
    (s.L + c * s.len = σ → ∃ t, ALM.step e o M s = (t, .ok .solverError) ∧ I t)

variable {M : Method K V Mat Fac} {I : St K V Mat Fac → Prop} {c : K}

/-- Load control follows the straight path. -/
theorem Straight.follows (h : Straight e o w σ mat fac spec) (hg : e.geo.Laws)
    (hF : e.geo.dot e.forcing e.forcing ≠ 0) (hw : e.geo.dot w w ≠ 0) (hq : o.quasi = false) (htF : 0 < o.tolF)
    (htU : 0 < o.tolU) (hmax : 2 ≤ o.maxIt) {L : K} (hL : 0 ≤ L) :
    Follows e o (loadControl e) (fun s => ready s = (none, true)) w σ 1 L where
  method := .loadControl
  frame := by constructor <;> intros <;> rfl
  move _ _ _ := rfl
  length _ _ := rfl
  fixed _ _ := rfl
  step s hI hU hLs hlt had hl := by
    have kept : ∀ t r, ALM.step e o (loadControl e) s = (t, r) → ready t = (none, true) := by
      intro t r hs
      have : ready (ALM.step e o (loadControl e) s).1 = ready s := framed_ready.caught keeps_ready_stepRaw _ s
      rw [hs] at this
      exact this.trans hI
    have hI' := hI
    simp only [ready, Prod.mk.injEq] at hI'
    have key := h.step hg hI'.2 hI'.1 hU hlt.ne hF hw hl.ne' (by linarith) had hq htF htU hmax
    rw [one_mul]
    refine ⟨fun hne => ?_, fun heq => ?_⟩
    · obtain ⟨t, ht, t1, t2⟩ := key.1 hne
      exact ⟨t, ht, t1, t2, kept _ _ ht⟩
    · obtain ⟨t, ht⟩ := key.2 heq
      exact ⟨t, ht, kept _ _ ht⟩

/-- The path of the bisection. -/
theorem Straight.bracket (h : Straight e o w σ mat fac spec) {L ℓ κ : K} (hM : Follows e o M I w σ c L) (hc : 0 < c)
    {k : ℕ} (before : ∀ l, L ≤ l → l < σ → countNegatives (spec l) = k)
    (after : ∀ l, σ < l → l ≤ σ + c * ℓ → countNegatives (spec l) ≠ k)
    (indicator : ∀ l x, L ≤ l → l ≤ σ + c * ℓ → minCoeff (spec l) = some x → |x| ≤ κ * |l - σ|) :
    Bracket e o M I (fun U l => U = l • w ∧ L ≤ l ∧ l ≤ σ + c * ℓ ∧ l ≠ σ)
      (fun _ l => l) (fun _ l => spec l) σ c c ℓ κ k where
  frame := hM.frame
  move := hM.move
  length := hM.length
  fixed := hM.fixed
  kept s t st hI hP hp had hl hll hs := by
    obtain ⟨h1, h2, h3, h4⟩ := hP
    have key := hM.step s hI h1 h2 hp had hl
    by_cases hne : s.L + c * s.len = σ
    · obtain ⟨t', ht, hI'⟩ := key.2 hne
      rw [ht] at hs
      rw [← (Prod.mk.inj hs).1]
      exact hI'
    · obtain ⟨t', ht, -, -, hI'⟩ := key.1 hne
      rw [ht] at hs
      rw [← (Prod.mk.inj hs).1]
      exact hI'
  success s t hI hP hp had hl hll hs := by
    obtain ⟨h1, h2, h3, h4⟩ := hP
    have key := hM.step s hI h1 h2 hp had hl
    have p1 := mul_pos hc hl
    have p2 := mul_le_mul_of_nonneg_left hll hc.le
    by_cases hne : s.L + c * s.len = σ
    · obtain ⟨t', ht, -⟩ := key.2 hne
      rw [ht] at hs
      simp at hs
    · obtain ⟨t', ht, t1, t2, -⟩ := key.1 hne
      rw [ht] at hs
      obtain rfl : t' = t := (Prod.mk.inj hs).1
      refine ⟨⟨by rw [t1, t2], ?_, ?_, by rw [t2]; exact hne⟩, ?_, ?_⟩ <;> rw [t2] <;> linarith
  failure s t st hI hP hp had hl hll hs hst := by
    obtain ⟨h1, h2, h3, h4⟩ := hP
    have key := hM.step s hI h1 h2 hp had hl
    by_cases hne : s.L + c * s.len = σ
    · linarith
    · obtain ⟨t', ht, -⟩ := key.1 hne
      rw [ht] at hs
      exact absurd (Except.ok.inj (Prod.mk.inj hs).2).symm hst
  shows U l hP hne := by
    obtain ⟨rfl, -⟩ := hP
    exact ⟨mat l, fac l, fun n => h.jacobian n l 0, fun n => h.factorize n l hne, fun n x => h.solve n l x,
      h.vector l hne⟩
  exact U l hP heq := absurd heq hP.2.2.2
  before U l hP hp := before l hP.2.1 hp
  after U l hP hp := after l hp hP.2.2.1
  indicator U l hP := by
    have := h.filled l
    cases hsp : spec l with
    | nil => exact absurd hsp this
    | cons a r =>
      refine ⟨_, rfl, indicator l _ hP.2.1 hP.2.2.1 ?_⟩
      rw [hsp]
      rfl

/-- **C142**: bisection on a structure whose displacements are proportional to the load up to the
bifurcation, with a method that follows this path. Two steps halve the length. The bisection returns with an indicator
below the tolerance, so that the error of the load is below the tolerance times `|x₀| / κ'`, where `κ'` is the speed with
which the indicator changes at least. The stored vector comes from the inverse power method with the tangent there. -/
theorem C142_straight (h : Straight e o w σ mat fac spec) {s : St K V Mat Fac} {L tol x₀ κ κ' : K}
    (hM : Follows e o M I w σ c L) (hc : 0 < c) (hI : I s) (hLσ : L < σ) (hd : σ - L ≤ 2 * (c * s.len)) {k : ℕ}
    (before : ∀ l, L ≤ l → l < σ → countNegatives (spec l) = k)
    (after : ∀ l, σ < l → l ≤ σ + c * s.len → countNegatives (spec l) ≠ k)
    (speed : ∀ l x, L ≤ l → l ≤ σ + c * s.len → minCoeff (spec l) = some x →
      κ' * |l - σ| ≤ |x| ∧ |x| ≤ κ * |l - σ|)
    (hx : minCoeff (spec L) = some x₀) (hx0 : x₀ ≠ 0) {i : ℕ}
    (htol : κ * (2 * (c * s.len / 2 ^ i)) < tol * |x₀|) (hmax : 2 * i + 2 ≤ o.maxIt) :
    ∃ t, bisectionSolve e o M (L • w) L tol s = (t, .ok true) ∧ t.U = t.L • w ∧ t.len = s.len ∧
      L ≤ t.L ∧ κ' * |t.L - σ| < tol * |x₀| ∧ t.L ≠ σ ∧ PowerMode e (fac t.L) t.v := by
  have hcl : 0 < c * s.len := by linarith
  have hl : 0 < s.len := (pos_iff_pos_of_mul_pos hcl).1 hc
  have hbr := h.bracket hM hc before after (fun l x h1 h2 h3 => (speed l x h1 h2 h3).2)
  obtain ⟨t, r, hr, ⟨p1, p2, p3, p4⟩, hc⟩ := C142_bisection (x₀ := x₀) (m := 2) (i := i) (tol := tol) (s := s)
    (U := L • w) (L := L) hM.method hbr hc hc.le hI
    ⟨rfl, le_rfl, by linarith, hLσ.ne⟩ hLσ (by linarith) hl le_rfl hx hx0 (by norm_num)
    (by rw [mul_assoc 2 c, mul_div_assoc] at *; exact htol) hmax
  rcases hc with ⟨h1, h2⟩ | ⟨h1, h2, -, ⟨x, h3, h4⟩, m, f, h5, h6, h7⟩
  · exact absurd h2 p4
  · subst h1
    have hm : mat t.L = m := by
      have := h5 0
      rw [p1, h.jacobian] at this
      exact Option.some.inj this
    have hf : fac t.L = f := by
      have := h6 0
      rw [← hm, h.factorize _ _ p4] at this
      exact Option.some.inj this
    exact ⟨t, hr, p1, h2, p2, lt_of_le_of_lt (speed _ _ p2 p3 h3).1 h4, p4, by rw [hf]; exact h7⟩

/-- **C142**: the same for load control. -/
theorem C142_loadControl (h : Straight e o w σ mat fac spec) (hg : e.geo.Laws)
    (hF : e.geo.dot e.forcing e.forcing ≠ 0) (hw : e.geo.dot w w ≠ 0) (hq : o.quasi = false) (htF : 0 < o.tolF)
    (htU : 0 < o.tolU) {s : St K V Mat Fac} (hi : s.initialized = true) (hgu : s.guess = none) {L tol x₀ κ κ' : K}
    (hL : 0 ≤ L) (hLσ : L < σ) (hd : σ - L ≤ 2 * s.len) {k : ℕ}
    (before : ∀ l, L ≤ l → l < σ → countNegatives (spec l) = k)
    (after : ∀ l, σ < l → l ≤ σ + s.len → countNegatives (spec l) ≠ k)
    (speed : ∀ l x, L ≤ l → l ≤ σ + s.len → minCoeff (spec l) = some x →
      κ' * |l - σ| ≤ |x| ∧ |x| ≤ κ * |l - σ|)
    (hx : minCoeff (spec L) = some x₀) (hx0 : x₀ ≠ 0) {i : ℕ}
    (htol : κ * (2 * (s.len / 2 ^ i)) < tol * |x₀|) (hmax : 2 * i + 2 ≤ o.maxIt) :
    ∃ t, bisectionSolve e o (loadControl e) (L • w) L tol s = (t, .ok true) ∧ t.U = t.L • w ∧ t.len = s.len ∧
      L ≤ t.L ∧ κ' * |t.L - σ| < tol * |x₀| ∧ t.L ≠ σ ∧ PowerMode e (fac t.L) t.v := by
  refine C142_straight (κ := κ) h (h.follows hg hF hw hq htF htU (by omega) hL) one_pos (by simp [ready, hi, hgu]) hLσ ?_ before ?_ ?_ hx
    hx0 ?_ hmax <;> simpa only [one_mul]

/-! ## A column -/

namespace RealDemo

/-- The column of `ExtendedProps`: the internal forces are `u - w² / 2` and `(1 - u) w + w³`, the pivots are those of
the factorisation of the tangent. -/
noncomputable def column : Env ℝ (ℝ × ℝ) (ℝ × ℝ × ℝ) (ℝ × ℝ × ℝ) where
  geo := plane
  forcing := (1, 0)
  numDof := 2
  ones := (1, 1)
  residual _ u l := some (u.1 - u.2 ^ 2 / 2 - l, (1 - u.1) * u.2 + u.2 ^ 3)
  jacobian _ u _ := some (1, -u.2, 1 - u.1 + 3 * u.2 ^ 2)
  factorize _ m := if m.1 * m.2.2 - m.2.1 ^ 2 = 0 then none else some m
  solve _ m x := some ((m.2.2 * x.1 - m.2.1 * x.2) / (m.1 * m.2.2 - m.2.1 ^ 2),
    (m.1 * x.2 - m.2.1 * x.1) / (m.1 * m.2.2 - m.2.1 ^ 2))
  mul m x := (m.1 * x.1 + m.2.1 * x.2, m.2.1 * x.1 + m.2.2 * x.2)
  vecD m := [m.1, m.2.2 - m.2.1 ^ 2 / m.1]
  eigs _ _ _ := none

theorem column_straight {o : Opts ℝ} (ho : o.bifMethod = .determinant) :
    Straight column o (1, 0) 1 (fun l => (1, 0, 1 - l)) (fun l => (1, 0, 1 - l)) (fun l => [1, 1 - l]) where
  residual n l l' := by simp [column]
  jacobian n l d := by simp [column]
  factorize n l hl := by
    have : (1 : ℝ) - l ≠ 0 := sub_ne_zero.2 (Ne.symm hl)
    simp [column, this]
  singular n := by simp [column]
  solve n l x := ⟨_, rfl⟩
  load n l c hl := by
    have : (1 : ℝ) - l ≠ 0 := sub_ne_zero.2 (Ne.symm hl)
    simp [column, this]
  vector l hl := Or.inl ⟨ho, by simp [column]⟩
  filled l := by simp

example {o : Opts ℝ} (ho : o.bifMethod = .determinant) (hq : o.quasi = false) (htF : 0 < o.tolF) (htU : 0 < o.tolU)
    (hmax : 18 ≤ o.maxIt) {s : St ℝ (ℝ × ℝ) (ℝ × ℝ × ℝ) (ℝ × ℝ × ℝ)} (hi : s.initialized = true)
    (hgu : s.guess = none) (hl : s.len = 1 / 3) :
    ∃ t, bisectionSolve column o (loadControl column) ((1 / 2 : ℝ) • ((1, 0) : ℝ × ℝ)) (1 / 2) (1 / 100) s =
        (t, .ok true) ∧ t.U = t.L • ((1, 0) : ℝ × ℝ) ∧ t.len = s.len ∧ 1 / 2 ≤ t.L ∧ 1 * |t.L - 1| < 1 / 100 * |(1 / 2 : ℝ)| ∧
        t.L ≠ 1 ∧ PowerMode column (1, 0, 1 - t.L) t.v := by
  have hmin : ∀ l : ℝ, 1 / 2 ≤ l → min 1 (1 - l) = 1 - l := fun l hl => min_eq_right (by linarith)
  refine C142_loadControl (column_straight ho) plane_laws (by simp [column, plane]) (by simp [column, plane]) hq htF htU
    hi hgu (by norm_num) (by norm_num) (by rw [hl]; norm_num) (k := 0) (κ := 1) ?_ ?_ ?_ (i := 8) ?_ (by norm_num) ?_ hmax
  · intro l h1 h2
    have : ¬(1 - l < 0) := by linarith
    simp [countNegatives, this]
  · intro l h1 h2
    have : 1 - l < 0 := by linarith
    simp [countNegatives, this]
  · intro l x h1 h2 hx
    simp only [minCoeff, List.foldl_cons, List.foldl_nil, Option.some.injEq] at hx
    rw [hmin l h1] at hx
    rw [← hx, one_mul, abs_sub_comm]
    exact ⟨le_rfl, le_rfl⟩
  · simp only [minCoeff, List.foldl_cons, List.foldl_nil, Option.some.injEq]
    norm_num
  · rw [hl, abs_of_pos (by norm_num)]
    norm_num

/-- `C142_bisection` on the column, with the constants of load control. -/
example {o : Opts ℝ} (ho : o.bifMethod = .determinant) (hq : o.quasi = false) (htF : 0 < o.tolF) (htU : 0 < o.tolU)
    (hmax : 18 ≤ o.maxIt) {s : St ℝ (ℝ × ℝ) (ℝ × ℝ × ℝ) (ℝ × ℝ × ℝ)} (hi : s.initialized = true)
    (hgu : s.guess = none) (hl : s.len = 1 / 3) :
    ∃ t r, bisectionSolve column o (loadControl column) ((1 / 2 : ℝ) • ((1, 0) : ℝ × ℝ)) (1 / 2) (1 / 100) s = (t, r) ∧
      (t.U = t.L • ((1, 0) : ℝ × ℝ) ∧ 1 / 2 ≤ t.L ∧ t.L ≤ 1 + 1 / 3 ∧ t.L ≠ 1) ∧
      ((r = .error .solver ∧ t.L = 1) ∨ (r = .ok true ∧ t.len = s.len ∧ t.adaptive = s.adaptive ∧
        (∃ x, minCoeff [1, 1 - t.L] = some x ∧ |x| < 1 / 100 * |(1 / 2 : ℝ)|) ∧
        ∃ m f, (∀ n, column.jacobian n t.U 0 = some m) ∧ (∀ n, column.factorize n m = some f) ∧ PowerMode column f t.v)) := by
  have hmin : ∀ l : ℝ, 1 / 2 ≤ l → min 1 (1 - l) = 1 - l := fun l hl => min_eq_right (by linarith)
  have hfol := (column_straight ho).follows plane_laws (by simp [column, plane]) (by simp [column, plane]) hq htF htU
    (by omega) (L := 1 / 2) (by norm_num)
  have hbr := (column_straight ho).bracket hfol one_pos (ℓ := 1 / 3) (κ := 1) (k := 0) ?_ ?_ ?_
  · simp only [one_mul] at hbr
    refine C142_bisection (m := 2) (i := 8) .loadControl hbr one_pos zero_le_one (by simp [ready, hi, hgu])
      ⟨rfl, le_rfl, by norm_num, by norm_num⟩ (by norm_num) (by rw [hl]; norm_num) (by rw [hl]; norm_num) hl.le ?_
      (by norm_num) (by norm_num) ?_ hmax
    · simp only [minCoeff, List.foldl_cons, List.foldl_nil, Option.some.injEq]
      norm_num
    · rw [hl, abs_of_pos (by norm_num)]
      norm_num
  · intro l h1 h2
    have : ¬(1 - l < 0) := by linarith
    simp [countNegatives, this]
  · intro l h1 h2
    have : 1 - l < 0 := by linarith
    simp [countNegatives, this]
  · intro l x h1 h2 hx
    simp only [minCoeff, List.foldl_cons, List.foldl_nil, Option.some.injEq] at hx
    rw [hmin l h1] at hx
    rw [← hx, one_mul, abs_sub_comm]

end RealDemo

namespace Demo

/-- The column with rational numbers. -/
def columnEnv : Env ℚ (ℚ × ℚ) (ℚ × ℚ × ℚ) (ℚ × ℚ × ℚ) where
  geo := geo2
  forcing := (1, 0)
  numDof := 2
  ones := (1, 1)
  residual _ u l := some (u.1 - u.2 ^ 2 / 2 - l, (1 - u.1) * u.2 + u.2 ^ 3)
  jacobian _ u _ := some (1, -u.2, 1 - u.1 + 3 * u.2 ^ 2)
  factorize _ m := if m.1 * m.2.2 - m.2.1 ^ 2 = 0 then none else some m
  solve _ m x := some ((m.2.2 * x.1 - m.2.1 * x.2) / (m.1 * m.2.2 - m.2.1 ^ 2),
    (m.1 * x.2 - m.2.1 * x.1) / (m.1 * m.2.2 - m.2.1 ^ 2))
  mul m x := (m.1 * x.1 + m.2.1 * x.2, m.2.1 * x.1 + m.2.2 * x.2)
  vecD m := [m.1, m.2.2 - m.2.1 ^ 2 / m.1]
  eigs _ _ _ := none

/-- Options for the column. -/
def columnOpts (maxIt : ℕ) : Opts ℚ := { opts maxIt 3 with bifMethod := .determinant }

/-- The column at rest. -/
def columnStart (len : ℚ) : St ℚ (ℚ × ℚ) (ℚ × ℚ × ℚ) (ℚ × ℚ × ℚ) where
  U := 0
  L := 0
  DU := 0
  DL := 0
  dU := 0
  dL := 0
  Ubar := 0
  Ut := 0
  Uprev := 0
  Lprev := 0
  DUold := 0
  DLold := 0
  guess := none
  Lguess := 0
  resVec := 0
  jac := (1, 0, 1)
  fac := none
  len := len
  lenPrev := len
  lenOri := len
  adaptive := false
  phi := 1
  numIt := 0
  residueF := none
  residueU := none
  basisF := 0
  basisU := 0
  converged := false
  stabVec := []
  negatives := 0
  indicator := 0
  stability := 0
  stabilityPrev := 0
  status := .notStarted
  initialized := true
  v := (0, 0)
  DV := 0
  dV := 0
  residueKTPhi := 0
  log := []

/-- The run of `C142_loadControl` with rational numbers; the step that meets the bifurcation fails. -/
example :
    let r := bisectionSolve columnEnv (columnOpts 18) (loadControl columnEnv) (1 / 2, 0) (1 / 2) (1 / 100)
      (columnStart (1 / 3))
    r.2 = .ok true ∧ r.1.L = 383 / 384 ∧ r.1.U = (383 / 384, 0) := by
  decide +kernel

/-- **C142** violated: the flag returned is that of the power iteration. With two iterations allowed, the bisection makes
one step, to an indicator of half the one at the start where a hundredth was asked for, and returns `true`. -/
theorem C142_violated_flag :
    let r := bisectionSolve columnEnv (columnOpts 2) (loadControl columnEnv) (98 / 100, 0) (98 / 100) (1 / 100)
      (columnStart (1 / 100))
    r.2 = .ok true ∧ r.1.L = 99 / 100 ∧ r.1.indicator = 1 / 100 ∧
      (computeStability columnEnv (columnOpts 2) true (-100) { columnStart 1 with U := (98 / 100, 0) }).1.indicator =
        2 / 100 := by
  decide +kernel

end Demo

end GsSA.ALM
