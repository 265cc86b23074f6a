import Verif.ALM.StepSpec

/-!
# Arc-length steps whose corrections contract

An abstract view of the iterations of a step: every correction brings the increments closer to a target,
measured by `err`. What follows for the status and the result of `step` does not depend on the method.
-/

namespace GsSA.ALM

open GsSA

set_option linter.unusedSectionVars false

variable {K V Mat Fac : Type} [Field K] [LinearOrder K] [IsStrictOrderedRing K] [AddCommGroup V]
variable [Module K V]
variable {e : Env K V Mat Fac} {o : Opts K} {M : Method K V Mat Fac}

/-- The part of an iteration that the method supplies, `gsALMBase.hpp` 385-390. -/
def correct (o : Opts K) (M : Method K V Mat Fac) : Act (St K V Mat Fac) Unit := do
  let s ← Act.get
  (if refreshes o s.numIt then M.quasiIteration else pure ())
  M.iteration

/-- `E k` bounds the error of the increments after `k` corrections. The method may keep further facts `P`
on its members. -/
structure Contracts (e : Env K V Mat Fac) (o : Opts K) (M : Method K V Mat Fac) (r : V → K → V) (U : V) (L : K)
    (err : V → K → K) (P : St K V Mat Fac → Prop) (E : ℕ → K) : Prop where
  residual : ∀ n x l, e.residual n x l = some (r x l)
  correct : ∀ s k, s.U = U → s.L = L → s.resVec = r (U + s.DU) (L + s.DL) → P s → err s.DU s.DL ≤ E k →
    ∃ t, correct o M s = (t, .ok ()) ∧ P t ∧ err t.DU t.DL ≤ E (k + 1) ∧ e.geo.norm t.dU ≤ E k + E (k + 1)
  frame : ∀ s t : St K V Mat Fac, t.phi = s.phi → t.len = s.len → t.DUold = s.DUold → t.DLold = s.DLold →
    t.DU = s.DU → t.DL = s.DL → t.dU = s.dU → t.dL = s.dL → t.guess = s.guess → P s → P t

/-- After `n` corrections both tests are passed; `l` bounds residuals by errors. -/
structure Tests (e : Env K V Mat Fac) (o : Opts K) (r : V → K → V) (U : V) (L : K) (err : V → K → K)
    (P : St K V Mat Fac → Prop) (E : ℕ → K) (l bF bU : K) (n : ℕ) : Prop where
  res : ∀ t, P t → err t.DU t.DL ≤ E n → e.geo.norm (r (U + t.DU) (L + t.DL)) ≤ l * E n
  force : l * E n < o.tolF * bF
  step : E (n - 1) + E n < o.tolU * bU
  posF : 0 < bF
  posU : 0 < bU

theorem below_ratio {a b c : K} (hb : 0 < b) (h : a < c * b) : below (ratio a b) c = true := by
  simp only [ratio, hb.ne', if_false, below, decide_eq_true_eq]
  rwa [div_lt_iff₀ hb]

theorem safe_correct (hM : M.Lawful) : Safe (correct o M) := by
  unfold correct
  refine Safe.bind Safe.get fun s => Safe.bind (Safe.ite hM.quasiIteration (Safe.ret ())) fun _ => hM.iteration

theorem iterationBody_eq (s : St K V Mat Fac) {t : St K V Mat Fac} (h : correct o M s = (t, .ok ())) :
    iterationBody e o M s = (do
      let _ ← computeStability e o false (-100)
      computeResidual e
      computeResidualNorms e : Act (St K V Mat Fac) Unit) t := by
  unfold correct at h
  rw [Act.bind_ok (Act.get_apply s)] at h
  obtain ⟨s1, ⟨⟩, h1, h⟩ := Act.bind_ok_inv h
  unfold iterationBody
  rw [Act.bind_ok (Act.get_apply s), Act.bind_ok h1, Act.bind_ok h]

/-- The state of a step between two iterations, after `k` corrections. -/
structure During (r : V → K → V) (U : V) (L : K) (err : V → K → K) (P : St K V Mat Fac → Prop) (E : ℕ → K)
    (k : ℕ) (s : St K V Mat Fac) : Prop where
  atU : s.U = U
  atL : s.L = L
  resVec : s.resVec = r (U + s.DU) (L + s.DL)
  extra : P s
  close : err s.DU s.DL ≤ E k

section

variable {r : V → K → V} {U : V} {L : K} {err : V → K → K} {P : St K V Mat Fac → Prop} {E : ℕ → K}

/-- One iteration. -/
theorem Contracts.body (h : Contracts e o M r U L err P E) (hM : M.Lawful) {s : St K V Mat Fac} {k : ℕ}
    (hs : During r U L err P E k s) (hn : s.numIt ≠ 0) :
    ∃ t, iterationBody e o M s = (t, .ok ()) ∧ During r U L err P E (k + 1) t ∧ Kept s t ∧ Tested e t ∧
      t.residueF = ratio (e.geo.norm (r (U + t.DU) (L + t.DL))) s.basisF ∧
      ∃ x, t.residueU = ratio x s.basisU ∧ x ≤ E k + E (k + 1) := by
  obtain ⟨t1, h1, h2, h3, h4⟩ := h.correct s k hs.atU hs.atL hs.resVec hs.extra hs.close
  have k1 := (safe_correct hM).kept h1
  obtain ⟨t2, st, h5, hf, -⟩ := computeStability_frame (e := e) (o := o) (-100) t1
  have k2 := Kept.of_stab hf
  have e2 : t2.DU = t1.DU ∧ t2.DL = t1.DL ∧ t2.dU = t1.dU ∧ t2.dL = t1.dL ∧ t2.phi = t1.phi ∧
      t2.DUold = t1.DUold ∧ t2.DLold = t1.DLold ∧ t2.guess = t1.guess := by
    simp only [StabFrame] at hf
    refine ⟨?_, ?_, ?_, ?_, ?_, ?_, ?_, ?_⟩ <;> rw [hf]
  obtain ⟨f1, f2, f3, f4, f5, f6, f7, f8⟩ := e2
  have hres : computeResidual e t2 = ({ t2 with
      resVec := r (U + t2.DU) (L + t2.DL), log := .residual true :: t2.log }, .ok ()) := by
    simp only [computeResidual, evalResidual, Act.bind_apply, Act.get_apply, h.residual, emit,
      Act.modify_apply, Act.pure_apply, k2.U, k1.U, hs.atU, k2.L, k1.L, hs.atL]
  have hn2 : t2.numIt ≠ 0 := by rw [k2.numIt, k1.numIt]; exact hn
  have hb : iterationBody e o M s = ({ t2 with
      resVec := r (U + t2.DU) (L + t2.DL), log := .residual true :: t2.log
      residueF := ratio (e.geo.norm (r (U + t2.DU) (L + t2.DL))) t2.basisF
      residueU := ratio (e.geo.norm t2.dU) t2.basisU }, .ok ()) := by
    rw [iterationBody_eq s h1, Act.bind_ok h5, Act.bind_ok hres]
    simp only [computeResidualNorms, Act.modify_apply, hn2, if_false]
  have hspec := iterationBody_spec hM hn hb
  refine ⟨_, hb, ⟨?_, ?_, rfl, ?_, ?_⟩, hspec.1, hspec.2.2 rfl, ?_, e.geo.norm t2.dU, ?_, ?_⟩
  · exact k2.U.trans (k1.U.trans hs.atU)
  · exact k2.L.trans (k1.L.trans hs.atL)
  · exact h.frame t1 _ f5 k2.len f6 f7 f1 f2 f3 f4 f8 h2
  · simp only [f1, f2]; exact h3
  · simp only [k2.basisF, k1.basisF]
  · simp only [k2.basisU, k1.basisU]
  · rw [f3]; exact h4

theorem Tests.meets {l : K} {n : ℕ} {s t : St K V Mat Fac} (hp : Tests e o r U L err P E l s.basisF s.basisU (n + 1))
    (hP : P t) (he : err t.DU t.DL ≤ E (n + 1)) (h1 : t.residueF = ratio (e.geo.norm (r (U + t.DU) (L + t.DL))) s.basisF)
    {x : K} (h2 : t.residueU = ratio x s.basisU) (h3 : x ≤ E n + E (n + 1)) : meets o t = true := by
  rw [ALM.meets, Bool.and_eq_true, h1, h2]
  exact ⟨below_ratio hp.posF ((hp.res t hP he).trans_lt hp.force),
    below_ratio hp.posU (h3.trans_lt (by simpa using hp.step))⟩

/-- How the iterations end. -/
structure Outcome (e : Env K V Mat Fac) (o : Opts K) (U : V) (L : K) (err : V → K → K)
    (P : St K V Mat Fac → Prop) (E : ℕ → K) (s t : St K V Mat Fac) (res : Except Err Unit) : Prop where
  ends : res = .ok () ∨ res = .error .notConverged
  accepted : res = .ok () → t.U = U + t.DU ∧ t.L = L + t.DL ∧ err t.DU t.DL ≤ E t.numIt ∧ Accepted e o s t ∧
    ∃ u, P u ∧ t.guess = u.guess ∧ t.phi = u.phi ∧ t.DU = u.DU ∧ t.DL = u.DL
  rejected : res = .error .notConverged → t.U = U ∧ t.L = L

theorem finish_parts (hM : M.Lawful) {s t : St K V Mat Fac} {r : Except Err Unit} (hn : s.numIt ≠ 0)
    (h : finishStep o M s = (t, r)) :
    t.DU = s.DU ∧ t.DL = s.DL ∧ t.numIt = s.numIt ∧ t.guess = s.guess ∧ t.phi = s.phi := by
  obtain ⟨DUold, DLold, hf⟩ := hM.finish s
  unfold finishStep at h
  rw [Act.bind_ok hf, Act.bind_ok (Act.get_apply _)] at h
  by_cases ha : s.adaptive = true
  · simp only [ha, if_true, computeLength] at h
    rw [Act.bind_ok (Act.get_apply _)] at h
    simp only [hn, if_false, Act.modify_apply, Prod.mk.injEq] at h
    obtain ⟨rfl, rfl⟩ := h
    exact ⟨rfl, rfl, rfl, rfl, rfl⟩
  · simp only [ha, Bool.false_eq_true, if_false, Act.modify_apply, Prod.mk.injEq] at h
    obtain ⟨rfl, rfl⟩ := h
    exact ⟨rfl, rfl, rfl, rfl, rfl⟩

/-- The point is accepted. -/
theorem During.finish (hM : M.Lawful) {k : ℕ} {s t u : St K V Mat Fac} {res : Except Err Unit}
    (ht : During r U L err P E (k + 1) t) (hk : Kept s t) (hT : Tested e t) (hn : s.numIt = k + 1)
    (hlt : s.numIt < o.maxIt) (hm : meets o t = true) (hf : finishStep o M t = (u, res)) :
    res = .ok () ∧ u.numIt = s.numIt ∧ Outcome e o U L err P E s u res := by
  have hn' : t.numIt ≠ 0 := by rw [hk.numIt]; omega
  obtain ⟨rfl, ha⟩ := finishStep_spec hM hn' (by rw [hk.numIt]; exact hlt) hT hm hf
  obtain ⟨d1, d2, d3, d4, d5⟩ := finish_parts hM hn' hf
  refine ⟨rfl, d3.trans hk.numIt, .inl rfl, fun _ => ⟨?_, ?_, ?_, ?_, t, ht.extra, d4, d5, d1, d2⟩, by simp⟩
  · rw [ha.U, ht.atU]
  · rw [ha.L, ht.atL]
  · rw [d1, d2, d3, hk.numIt, hn]; exact ht.close
  · exact ha.of_kept hk.unfinished hk.numIt.ge hk.basisF hk.basisU hk.stabilityPrev

/-- The iterations end with a point whose error is bounded, or with `NotConverged`; they end as soon as the
bounds pass the tests. -/
theorem Contracts.iterate (h : Contracts e o M r U L err P E) (hM : M.Lawful) (rem : ℕ) :
    ∀ (k : ℕ) (s : St K V Mat Fac), During r U L err P E k s → s.numIt = k + 1 → s.numIt + (rem + 1) = o.maxIt →
      ∃ t res, ALM.iterate e o M (rem + 1) s = (t, res) ∧ Outcome e o U L err P E s t res ∧
        ∀ l n, s.numIt ≤ n → n < o.maxIt → Tests e o r U L err P E l s.basisF s.basisU n →
          res = .ok () ∧ t.numIt ≤ n := by
  induction rem with
  | zero =>
    intro k s hs hn hr
    obtain ⟨t, h1, h2, h3, h4, h5, x, h6, h7⟩ := h.body hM hs (by omega)
    unfold ALM.iterate
    rw [Act.bind_ok h1, Act.bind_ok (Act.get_apply t)]
    by_cases hm : meets o t = true
    · simp only [hm, if_true]
      rcases hf : finishStep o M t with ⟨u, res⟩
      obtain ⟨a1, a2, a3⟩ := h2.finish hM h3 h4 hn (by omega) hm hf
      exact ⟨u, res, rfl, a3, fun l n hn' _ _ => ⟨a1, a2.trans_le hn'⟩⟩
    · have hl : t.numIt = o.maxIt - 1 := by rw [h3.numIt]; omega
      simp only [hm, Bool.false_eq_true, if_false, hl, if_true]
      refine ⟨_, _, rfl, ⟨.inr rfl, by simp, fun _ => ⟨h2.atU, h2.atL⟩⟩, fun l n hn' hn'' hp => ?_⟩
      obtain rfl : n = k + 1 := by omega
      exact absurd (hp.meets h2.extra h2.close h5 h6 h7) hm
  | succ rem ih =>
    intro k s hs hn hr
    obtain ⟨t, h1, h2, h3, h4, h5, x, h6, h7⟩ := h.body hM hs (by omega)
    unfold ALM.iterate
    rw [Act.bind_ok h1, Act.bind_ok (Act.get_apply t)]
    by_cases hm : meets o t = true
    · simp only [hm, if_true]
      rcases hf : finishStep o M t with ⟨u, res⟩
      obtain ⟨a1, a2, a3⟩ := h2.finish hM h3 h4 hn (by omega) hm hf
      exact ⟨u, res, rfl, a3, fun l n hn' _ _ => ⟨a1, a2.trans_le hn'⟩⟩
    · have hl : ¬t.numIt = o.maxIt - 1 := by rw [h3.numIt]; omega
      simp only [hm, Bool.false_eq_true, if_false, hl]
      rw [Act.bind_ok (Act.modify_apply _ _)]
      have hu : Unfinished s { t with numIt := t.numIt + 1 } :=
        ⟨h3.1, h3.2, h3.3, h3.4, h3.5, h3.6, h3.10, h3.11⟩
      have hk := h3.numIt
      obtain ⟨u, res, b1, b2, b3⟩ := ih (k + 1) { t with numIt := t.numIt + 1 }
        ⟨h2.atU, h2.atL, h2.resVec, h.frame t _ rfl rfl rfl rfl rfl rfl rfl rfl rfl h2.extra, h2.close⟩
        (by simp only; omega) (by simp only; omega)
      refine ⟨u, res, b1, ⟨b2.ends, fun hres => ?_, b2.rejected⟩, fun l n hn' hn'' hp => ?_⟩
      · obtain ⟨c1, c2, c3, c4, c5⟩ := b2.accepted hres
        exact ⟨c1, c2, c3, c4.of_kept hu (by simp only; omega) h3.basisF h3.basisU h3.stabilityPrev, c5⟩
      · have hne : n ≠ k + 1 := by
          rintro rfl
          exact hm (hp.meets h2.extra h2.close h5 h6 h7)
        refine b3 l n (by simp only; omega) hn'' ?_
        simp only [h3.basisF, h3.basisU]
        exact hp

/-- A whole step, from the state `p` after the predictor: the status is `Success` or `NotConverged`, and
`Success` if the bounds pass the tests within the iterations allowed. -/
theorem Contracts.step (h : Contracts e o M r U L err P E) (hM : M.Lawful) (hq : o.quasi = false)
    (hmax : 2 ≤ o.maxIt) {s p : St K V Mat Fac} (hb : beginStep e M s = (p, .ok ())) (hn : p.numIt = 0)
    (hU : p.U = U) (hL : p.L = L) (hP : P p) (hE : err p.DU p.DL ≤ E 0) :
    ∃ t st, step e o M s = (t, .ok st) ∧ (st = .success ∨ st = .notConverged) ∧
      (st = .success → t.U = U + t.DU ∧ t.L = L + t.DL ∧ err t.DU t.DL ≤ E t.numIt ∧ 1 ≤ t.numIt ∧
        t.numIt < o.maxIt ∧ t.Uprev = U ∧ t.Lprev = L ∧ t.lenPrev = p.len ∧ t.adaptive = p.adaptive ∧
        t.len = (if p.adaptive then p.len * lengthFactor o.desiredIt t.numIt else p.len) ∧
        t.initialized = p.initialized ∧
        ∃ u, P u ∧ t.guess = u.guess ∧ t.phi = u.phi ∧ t.DU = u.DU ∧ t.DL = u.DL) ∧
      (st = .notConverged → t.U = U ∧ t.L = L) ∧
      ∀ l n, 1 ≤ n → n < o.maxIt →
        Tests e o r U L err P E l (e.geo.norm ((L + p.DL) • e.forcing)) (e.geo.norm p.DU) n →
        st = .success ∧ t.numIt ≤ n := by
  have hres : computeResidual e p = ({ p with
      resVec := r (U + p.DU) (L + p.DL), log := .residual true :: p.log }, .ok ()) := by
    simp only [computeResidual, evalResidual, Act.bind_apply, Act.get_apply, h.residual, emit,
      Act.modify_apply, Act.pure_apply, hU, hL]
  obtain ⟨q, hq1, hq2⟩ : ∃ q : St K V Mat Fac, q = { p with
      resVec := r (U + p.DU) (L + p.DL), log := .residual true :: p.log
      basisF := e.geo.norm ((p.L + p.DL) • e.forcing)
      basisU := e.geo.norm p.DU
      residueF := ratio (e.geo.norm (r (U + p.DU) (L + p.DL))) (e.geo.norm ((p.L + p.DL) • e.forcing))
      residueU := ratio (e.geo.norm p.dU) (e.geo.norm p.DU)
      stabilityPrev := p.stability, numIt := 1 } ∧ stepRaw e o M s = ALM.iterate e o M (o.maxIt - 1) q := by
    refine ⟨_, rfl, ?_⟩
    unfold stepRaw
    rw [Act.bind_ok hb, Act.bind_ok hres]
    simp only [computeResidualNorms, Act.bind_apply, Act.modify_apply, hn, if_true, hq, Bool.false_eq_true,
      if_false, Act.pure_apply]
  obtain ⟨rem, hrem⟩ : ∃ rem, o.maxIt - 1 = rem + 1 := ⟨o.maxIt - 2, by omega⟩
  obtain ⟨t, res, a1, a2, a3⟩ := h.iterate hM rem 0 q (by
    subst hq1
    exact ⟨hU, hL, rfl, h.frame p _ rfl rfl rfl rfl rfl rfl rfl rfl rfl hP, hE⟩) (by rw [hq1])
    (by rw [hq1]; simp only; omega)
  rw [hrem] at hq2
  rw [a1] at hq2
  have hF : q.basisF = e.geo.norm ((L + p.DL) • e.forcing) := by rw [hq1, ← hL]
  have hU' : q.basisU = e.geo.norm p.DU := by rw [hq1]
  have e1 : q.numIt = 1 ∧ q.U = U ∧ q.L = L ∧ q.len = p.len ∧ q.adaptive = p.adaptive ∧
      q.initialized = p.initialized := by subst hq1; exact ⟨rfl, hU, hL, rfl, rfl, rfl⟩
  obtain ⟨e1, e2, e3, e4, e5, e6⟩ := e1
  rcases a2.ends with rfl | rfl
  · refine ⟨{ t with status := .success }, .success, ?_, .inl rfl, fun _ => ?_, by simp, fun l n hn1 hn2 hp => ?_⟩
    · change caught _ _ s = _
      rw [caught_ok hq2]
    · obtain ⟨c1, c2, c3, c4, c5⟩ := a2.accepted rfl
      exact ⟨c1, c2, c3, e1 ▸ c4.first, c4.last, c4.Uprev.trans e2, c4.Lprev.trans e3, c4.lenPrev.trans e4,
        c4.adaptive.trans e5, by rw [← e4, ← e5]; exact c4.len, c4.initialized.trans e6, c5⟩
    · exact ⟨rfl, (a3 l n (e1 ▸ hn1) hn2 (by rw [hF, hU']; exact hp)).2⟩
  · refine ⟨{ t with status := .notConverged }, .notConverged, ?_, .inr rfl, by simp,
      fun _ => a2.rejected rfl, fun l n hn1 hn2 hp => ?_⟩
    · change caught _ _ s = _
      rw [caught_error hq2 (by simp)]
      rfl
    · exact absurd (a3 l n (e1 ▸ hn1) hn2 (by rw [hF, hU']; exact hp)).1 (by simp)

end

end GsSA.ALM
