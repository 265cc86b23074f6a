import Verif.ALM.Frame
import Verif.ALM.GeoLaws

/-!
# What a Crisfield iteration and predictor compute
-/

namespace GsSA.ALM

open GsSA

set_option linter.unusedSectionVars false

variable {K V Mat Fac : Type} [Field K] [LinearOrder K] [IsStrictOrderedRing K] [AddCommGroup V]
variable [Module K V]
variable {e : Env K V Mat Fac} {o : Opts K}

/-- Squared length of an increment in the metric of the Crisfield methods. -/
def crForm (e : Env K V Mat Fac) (phi : K) (x : V) (l : K) : K :=
  e.geo.dot x x + loadWeight e phi * l ^ 2

theorem loadWeight_nonneg (hg : e.geo.Laws) (phi : K) : 0 ≤ loadWeight e phi :=
  mul_nonneg (sq_nonneg _) (hg.nonneg _)

theorem crForm_nonneg (hg : e.geo.Laws) (phi : K) (x : V) (l : K) : 0 ≤ crForm e phi x l :=
  add_nonneg (hg.nonneg x) (mul_nonneg (loadWeight_nonneg hg phi) (sq_nonneg l))

/-- The squared length after a correction `eta Ubar + x Ut`, `x`, as a quadratic in `x`. -/
theorem crForm_update (hg : e.geo.Laws) (s : St K V Mat Fac) (eta x : K) :
    crForm e s.phi (s.DU + (eta • s.Ubar + x • s.Ut)) (s.DL + x) =
      s.len ^ 2 + ((crQuad e s).a0 * x ^ 2 + (crQuad e s).alpha2 eta * x + (crQuad e s).alpha3 eta) := by
  simp only [crForm, crQuad, Quad.alpha2, Quad.alpha3, hg.add_left, hg.add_right, hg.smul_left,
    hg.smul_right]
  rw [hg.comm s.Ut s.DU, hg.comm s.Ubar s.DU, hg.comm s.Ut s.Ubar]
  ring

theorem root_of_disc {a b c r x : K} (ha : a ≠ 0) (hr : r ^ 2 = disc a b c)
    (hx : x = (-b + r) / (2 * a) ∨ x = (-b - r) / (2 * a)) : a * x ^ 2 + b * x + c = 0 := by
  unfold disc at hr
  have h2 : (2 : K) * a ≠ 0 := mul_ne_zero two_ne_zero ha
  rcases hx with rfl | rfl
  · field_simp
    linear_combination hr
  · field_simp
    linear_combination hr

theorem vertex_value {a b c x : K} (ha : a ≠ 0) (hx : x = -b / (2 * a)) :
    a * x ^ 2 + b * x + c = -disc a b c / (4 * a) := by
  subst hx
  unfold disc
  field_simp
  ring

/-- Squared length in the scaling branch of `computeLambdasComplex`. -/
theorem crForm_scaled (hg : e.geo.Laws) {phi l : K} {x : V} {len : K}
    (h : e.geo.sqrt (crForm e phi x l) ≠ 0) :
    crForm e phi ((len / e.geo.sqrt (crForm e phi x l)) • x)
      (len / e.geo.sqrt (crForm e phi x l) * l) = len ^ 2 := by
  have h2 := hg.sqrt_sq _ (crForm_nonneg hg phi x l)
  have h3 : crForm e phi ((len / e.geo.sqrt (crForm e phi x l)) • x)
      (len / e.geo.sqrt (crForm e phi x l) * l) =
      (len / e.geo.sqrt (crForm e phi x l)) ^ 2 * crForm e phi x l := by
    simp only [crForm, hg.smul_left, hg.smul_right]
    ring
  have h4 : crForm e phi x l ≠ 0 := by
    intro h0
    rw [h0] at h
    exact h hg.sqrt_zero
  rw [h3, div_pow, h2, div_mul_cancel₀ _ h4]

/-! ## One iteration -/

theorem computeUbar_ok {s t : St K V Mat Fac} (h : computeUbar e s = (t, .ok ())) :
    ∃ x, t = { s with Ubar := x, log := .solve true :: s.log } := by
  unfold computeUbar at h
  rw [Act.bind_ok (Act.get_apply s)] at h
  obtain ⟨s1, x, h1, h⟩ := Act.bind_ok_inv h
  unfold solveSystem at h1
  rw [Act.bind_ok (Act.get_apply s)] at h1
  cases hs : s.fac.bind fun f => e.solve s.log.length f (-s.resVec) with
  | none => simp [hs, Act.bind_apply, emit] at h1
  | some y =>
    simp only [hs, Act.bind_apply, emit, Act.modify_apply, Act.pure_apply, Prod.mk.injEq,
      Except.ok.injEq] at h1
    obtain ⟨rfl, rfl⟩ := h1
    simp only [Act.modify_apply, Prod.mk.injEq] at h
    exact ⟨y, h.1.symm⟩

theorem computeUt_ok {s t : St K V Mat Fac} (h : computeUt e s = (t, .ok ())) :
    ∃ x, t = { s with Ut := x, log := .solve true :: s.log } := by
  unfold computeUt at h
  obtain ⟨s1, x, h1, h⟩ := Act.bind_ok_inv h
  unfold solveSystem at h1
  rw [Act.bind_ok (Act.get_apply s)] at h1
  cases hs : s.fac.bind fun f => e.solve s.log.length f e.forcing with
  | none => simp [hs, Act.bind_apply, emit] at h1
  | some y =>
    simp only [hs, Act.bind_apply, emit, Act.modify_apply, Act.pure_apply, Prod.mk.injEq,
      Except.ok.injEq] at h1
    obtain ⟨rfl, rfl⟩ := h1
    simp only [Act.modify_apply, Prod.mk.injEq] at h
    exact ⟨y, h.1.symm⟩

theorem chooseDOT_mem (s : St K V Mat Fac) (x1 x2 : K) :
    chooseDOT e s x1 x2 = x1 ∨ chooseDOT e s x1 x2 = x2 := by
  unfold chooseDOT
  simp only
  split
  · exact Or.inl rfl
  · split
    · exact Or.inr rfl
    · exact Or.inl rfl

/-- The load increment of `computeLambdasComplex`, `gsALMCrisfield.hpp` 316-318. -/
def criticalLoad (e : Env K V Mat Fac) (s : St K V Mat Fac) : K :=
  e.geo.dot (e.mul s.jac (s.U + s.DU)) e.forcing / e.geo.dot e.forcing e.forcing - s.L

/-- `arcLength_cr`, `gsALMCrisfield.hpp` 320. -/
def criticalLength (e : Env K V Mat Fac) (s : St K V Mat Fac) : K :=
  e.geo.sqrt (crForm e s.phi (s.DU + s.Ubar) (criticalLoad e s))

theorem computeLambdas_ok {s t : St K V Mat Fac} {eta : K}
    (h : computeLambdas e s = (t, .ok eta)) :
    ∃ k dU dL, t = { s with dU := dU, dL := dL, log := .roots k :: s.log } ∧
      (k = .real → eta = 1 ∧ 0 ≤ (crQuad e s).disc 1 ∧ dU = (1 : K) • s.Ubar + dL • s.Ut ∧
        dL = chooseDOT e s
          ((-(crQuad e s).alpha2 1 + e.geo.sqrt ((crQuad e s).disc 1)) / (2 * (crQuad e s).a0))
          ((-(crQuad e s).alpha2 1 - e.geo.sqrt ((crQuad e s).disc 1)) / (2 * (crQuad e s).a0))) ∧
      (k = .modified → (crQuad e s).disc 1 < 0 ∧ eta = ((crQuad e s).modified e.geo.sqrt).1 ∧
        0 ≤ ((crQuad e s).modified e.geo.sqrt).2 ∧ 5 / 100 < eta ∧ dU = eta • s.Ubar + dL • s.Ut ∧
        dL = -(crQuad e s).alpha2 eta / (2 * (crQuad e s).a0)) ∧
      (k = .scaled → (crQuad e s).disc 1 < 0 ∧
        dU = (s.len / criticalLength e s) • (s.DU + s.Ubar) - s.DU ∧
        dL = s.len / criticalLength e s * criticalLoad e s - s.DL) := by
  unfold computeLambdas at h
  rw [Act.bind_ok (Act.get_apply s)] at h
  simp only at h
  split at h
  · next hd =>
    rw [Act.bind_ok (by rfl : lambdaDOT e 1 _ _ s = _), Act.bind_ok (by rfl : emit _ _ = _)] at h
    simp only [Act.pure_apply, Prod.mk.injEq, Except.ok.injEq] at h
    obtain ⟨rfl, rfl⟩ := h
    exact ⟨.real, _, _, rfl, fun _ => ⟨rfl, hd, rfl, rfl⟩, by simp, by simp⟩
  · next hd =>
    split at h
    · next hm =>
      rw [Act.bind_ok (by rfl : lambdaDOT e _ _ _ s = _), Act.bind_ok (by rfl : emit _ _ = _)] at h
      simp only [Act.pure_apply, Prod.mk.injEq, Except.ok.injEq] at h
      obtain ⟨rfl, rfl⟩ := h
      refine ⟨.modified, _, _, rfl, by simp, fun _ => ⟨not_le.1 hd, rfl, hm.1, hm.2, rfl, ?_⟩, by simp⟩
      rcases chooseDOT_mem (e := e) s
        (-(crQuad e s).alpha2 ((crQuad e s).modified e.geo.sqrt).1 / (2 * (crQuad e s).a0))
        (-(crQuad e s).alpha2 ((crQuad e s).modified e.geo.sqrt).1 / (2 * (crQuad e s).a0))
        with h | h <;> exact h
    · rw [Act.bind_ok (by rfl : lambdasComplex e s = _), Act.bind_ok (by rfl : emit _ _ = _)] at h
      simp only [Act.pure_apply, Prod.mk.injEq, Except.ok.injEq] at h
      obtain ⟨rfl, rfl⟩ := h
      exact ⟨.scaled, _, _, rfl, by simp, by simp, fun _ => ⟨not_le.1 hd, rfl, rfl⟩⟩

/-- One Crisfield iteration without relaxation. `Ubar` is the displacement correction computed for
the residual. -/
theorem crIteration_ok (hr : o.relax = 1) {s t : St K V Mat Fac}
    (h : crIteration e o s = (t, .ok ())) :
    ∃ s1 k, s1 = { s with Ubar := s1.Ubar, log := .solve true :: s.log } ∧
      t.U = s.U ∧ t.L = s.L ∧ t.DU = s.DU + t.dU ∧ t.DL = s.DL + t.dL ∧ t.len = s.len ∧
      t.phi = s.phi ∧ t.Ut = s.Ut ∧ t.Ubar = s1.Ubar ∧ t.guess = s.guess ∧ t.jac = s.jac ∧
      t.log = .roots k :: s1.log ∧
      (k = .real → 0 ≤ (crQuad e s1).disc 1 ∧ t.dU = (1 : K) • s1.Ubar + t.dL • s.Ut ∧
        t.dL = chooseDOT e s
          ((-(crQuad e s1).alpha2 1 + e.geo.sqrt ((crQuad e s1).disc 1)) / (2 * (crQuad e s1).a0))
          ((-(crQuad e s1).alpha2 1 - e.geo.sqrt ((crQuad e s1).disc 1)) / (2 * (crQuad e s1).a0))) ∧
      (k = .modified → (crQuad e s1).disc 1 < 0 ∧
        0 ≤ ((crQuad e s1).modified e.geo.sqrt).2 ∧
        5 / 100 < ((crQuad e s1).modified e.geo.sqrt).1 ∧
        t.dU = ((crQuad e s1).modified e.geo.sqrt).1 • s1.Ubar + t.dL • s.Ut ∧
        t.dL = -(crQuad e s1).alpha2 ((crQuad e s1).modified e.geo.sqrt).1 /
          (2 * (crQuad e s1).a0)) ∧
      (k = .scaled → (crQuad e s1).disc 1 < 0 ∧
        t.dU = (s.len / criticalLength e s1) • (s.DU + s1.Ubar) - s.DU ∧
        t.dL = s.len / criticalLength e s1 * criticalLoad e s1 - s.DL) := by
  unfold crIteration at h
  obtain ⟨s1, ⟨⟩, h1, h⟩ := Act.bind_ok_inv h
  obtain ⟨x, hx⟩ := computeUbar_ok h1
  rw [Act.bind_ok (Act.get_apply s1)] at h
  simp only at h
  obtain ⟨s2, eta, h2, h⟩ := Act.bind_ok_inv h
  obtain ⟨k, dU, dL, h3, hreal, hmod, hsc⟩ := computeLambdas_ok h2
  rw [Act.bind_ok (Act.modify_apply _ _)] at h
  simp only [hr, ne_eq, not_true_eq_false, and_false, if_false] at h
  rw [Act.bind_ok (Act.modify_apply _ _)] at h
  simp only [Act.modify_apply, Prod.mk.injEq] at h
  obtain ⟨h, -⟩ := h
  subst hx
  subst h3
  refine ⟨{ s with Ubar := x, log := .solve true :: s.log }, k, rfl, ?_⟩
  have ht : t.U = s.U ∧ t.L = s.L ∧ t.DU = s.DU + dU ∧ t.DL = s.DL + dL ∧ t.dU = dU ∧ t.dL = dL ∧
      t.len = s.len ∧ t.phi = s.phi ∧ t.Ut = s.Ut ∧ t.Ubar = x ∧ t.guess = s.guess ∧
      t.jac = s.jac ∧ t.log = .roots k :: .solve true :: s.log := by
    rw [← h]
    split <;> exact ⟨rfl, rfl, rfl, rfl, rfl, rfl, rfl, rfl, rfl, rfl, rfl, rfl, rfl⟩
  obtain ⟨a1, a2, a3, a4, a5, a6, a7, a8, a9, a10, a11, a12, a13⟩ := ht
  rw [a5, a6]
  refine ⟨a1, a2, a3, a4, a7, a8, a9, a10, a11, a12, a13, fun hk => ?_, fun hk => ?_, fun hk => ?_⟩
  · obtain ⟨-, b2, b3, b4⟩ := hreal hk
    exact ⟨b2, b3, b4⟩
  · obtain ⟨b1, rfl, b3, b4, b5, b6⟩ := hmod hk
    exact ⟨b1, b3, b4, b5, b6⟩
  · exact hsc hk

/-- The squared length after an iteration without relaxation. -/
theorem crIteration_length (hg : e.geo.Laws) (hr : o.relax = 1) {s t : St K V Mat Fac}
    (h : crIteration e o s = (t, .ok ())) :
    ∃ s1 k, s1 = { s with Ubar := t.Ubar, log := .solve true :: s.log } ∧
      lastRoots t.log = some k ∧ t.len = s.len ∧ t.phi = s.phi ∧ t.Ut = s.Ut ∧
      (k = .real → e.geo.dot t.Ut t.Ut + loadWeight e t.phi ≠ 0 →
        crForm e t.phi t.DU t.DL = t.len ^ 2) ∧
      (k = .modified → e.geo.dot t.Ut t.Ut + loadWeight e t.phi ≠ 0 →
        crForm e t.phi t.DU t.DL = t.len ^ 2 -
          (crQuad e s1).disc ((crQuad e s1).modified e.geo.sqrt).1 / (4 * (crQuad e s1).a0)) ∧
      (k = .scaled → criticalLength e s1 ≠ 0 → crForm e t.phi t.DU t.DL = t.len ^ 2) := by
  obtain ⟨s1, k, hs1, h1, h2, h3, h4, h5, h6, h7, h8, -, -, h10, hreal, hmod, hsc⟩ :=
    crIteration_ok hr h
  rw [← h8] at hs1
  refine ⟨s1, k, hs1, by rw [h10]; rfl, h5, h6, h7, fun hk ha => ?_, fun hk ha => ?_,
    fun hk ha => ?_⟩
  · obtain ⟨b1, b2, b3⟩ := hreal hk
    have ha' : (crQuad e s1).a0 ≠ 0 := by rw [hs1]; rw [h7, h6] at ha; exact ha
    have key := crForm_update hg s1 1 t.dL
    have hx := root_of_disc (x := t.dL) ha' (hg.sqrt_sq _ b1)
      (by rw [b3]; exact chooseDOT_mem _ _ _)
    rw [hx, add_zero] at key
    rw [h3, h4, h5, h6, b2]
    rw [hs1] at key ⊢
    exact key
  · obtain ⟨b1, -, -, b2, b3⟩ := hmod hk
    have ha' : (crQuad e s1).a0 ≠ 0 := by rw [hs1]; rw [h7, h6] at ha; exact ha
    have key := crForm_update hg s1 ((crQuad e s1).modified e.geo.sqrt).1 t.dL
    rw [vertex_value ha' b3] at key
    rw [h3, h4, h5, h6, b2]
    have e1 : s1.phi = s.phi := by rw [hs1]
    have e2 : s1.DU = s.DU := by rw [hs1]
    have e3 : s1.DL = s.DL := by rw [hs1]
    have e4 : s1.len = s.len := by rw [hs1]
    have e5 : s1.Ut = s.Ut := by rw [hs1]
    rw [e1, e2, e3, e4, e5] at key
    rw [key]
    simp only [Quad.disc]
    ring
  · obtain ⟨-, b2, b3⟩ := hsc hk
    rw [h3, h4, h5, h6, b2, b3]
    have key := crForm_scaled (len := s.len) hg (phi := s1.phi) (x := s1.DU + s1.Ubar)
      (l := criticalLoad e s1) ha
    have e1 : s1.phi = s.phi := by rw [hs1]
    have e2 : s1.DU = s.DU := by rw [hs1]
    change crForm e s1.phi ((s.len / criticalLength e s1) • (s1.DU + s1.Ubar))
      (s.len / criticalLength e s1 * criticalLoad e s1) = _ at key
    rw [e1, e2] at key
    rw [add_sub_cancel, add_sub_cancel]
    exact key

end GsSA.ALM
