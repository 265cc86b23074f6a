import Verif.ALM.CrisfieldSpec
import Verif.ALM.StepProps

/-!
# Riks' method and the consistent Crisfield method (C40)

Both correctors solve the linearised length constraint. Its error is the squared length of the
correction itself, so the increment is never shorter than the arc length.
-/

namespace GsSA.ALM

open GsSA

set_option linter.unusedSectionVars false

variable {K V Mat Fac : Type} [Field K] [LinearOrder K] [IsStrictOrderedRing K] [AddCommGroup V]
variable [Module K V]
variable {e : Env K V Mat Fac} {o : Opts K}

/-- Squared length of an increment in the metric of Riks' method. -/
def rkForm (e : Env K V Mat Fac) (phi : K) (x : V) (l : K) : K :=
  phi * e.geo.dot x x + (1 - phi) * l ^ 2

theorem rkForm_nonneg (hg : e.geo.Laws) {phi : K} (h0 : 0 ≤ phi) (h1 : phi ≤ 1) (x : V) (l : K) :
    0 ≤ rkForm e phi x l :=
  add_nonneg (mul_nonneg h0 (hg.nonneg x)) (mul_nonneg (sub_nonneg.2 h1) (sq_nonneg l))

theorem rkDistance_eq (hg : e.geo.Laws) (s : St K V Mat Fac) (x : V) (l : K) :
    rkDistance e s x l = e.geo.sqrt (rkForm e s.phi x l) := by
  simp only [rkDistance, rkForm, hg.norm_sq]

/-- The denominator of the load update of Riks' method, for the increment before the iteration. -/
def rkDenominator (e : Env K V Mat Fac) (phi : K) (DU Ut : V) (DL : K) : K :=
  2 * (1 - phi) * DL + 2 * phi * e.geo.dot DU Ut

/-- The denominator of the load update of the consistent Crisfield method. -/
def ccDenominator (e : Env K V Mat Fac) (phi : K) (DU Ut : V) (DL : K) : K :=
  2 * (e.geo.dot DU Ut + loadWeight e phi * DL)

theorem rkIteration_ok {s t : St K V Mat Fac} (h : rkIteration e s = (t, .ok ())) :
    ∃ x b : _, t.U = s.U ∧ t.L = s.L ∧ t.len = s.len ∧ t.phi = s.phi ∧ t.Ut = s.Ut ∧ t.dL = x ∧
      t.dU = b + x • s.Ut ∧ t.DU = s.DU + t.dU ∧ t.DL = s.DL + x ∧
      x = -(s.phi * e.geo.dot s.DU s.DU + (1 - s.phi) * s.DL ^ 2 - s.len * s.len +
        2 * s.phi * e.geo.dot s.DU b) / rkDenominator e s.phi s.DU s.Ut s.DL := by
  unfold rkIteration at h
  obtain ⟨s1, ⟨⟩, h1, h⟩ := Act.bind_ok_inv h
  obtain ⟨b, rfl⟩ := computeUbar_ok h1
  simp only [Act.bind_apply, Act.modify_apply, Prod.mk.injEq, and_true] at h
  subst h
  refine ⟨_, b, rfl, rfl, rfl, rfl, rfl, rfl, rfl, rfl, rfl, ?_⟩
  simp only [add_sub_cancel_left, rkDenominator]

theorem ccIteration_ok (hg : e.geo.Laws) {s t : St K V Mat Fac} (h : ccIteration e s = (t, .ok ())) :
    ∃ x b : _, t.U = s.U ∧ t.L = s.L ∧ t.len = s.len ∧ t.phi = s.phi ∧ t.Ut = s.Ut ∧ t.dL = x ∧
      t.dU = x • s.Ut + b ∧ t.DU = s.DU + t.dU ∧ t.DL = s.DL + x ∧
      x = -(e.geo.dot s.DU s.DU + loadWeight e s.phi * s.DL ^ 2 - s.len * s.len +
        2 * e.geo.dot s.DU b) / ccDenominator e s.phi s.DU s.Ut s.DL := by
  unfold ccIteration at h
  obtain ⟨s1, ⟨⟩, h1, h⟩ := Act.bind_ok_inv h
  obtain ⟨b, rfl⟩ := computeUbar_ok h1
  simp only [Act.bind_apply, Act.modify_apply, Prod.mk.injEq, and_true] at h
  subst h
  refine ⟨_, b, rfl, rfl, rfl, rfl, rfl, rfl, rfl, rfl, rfl, ?_⟩
  simp only [ccDenominator, loadWeight, hg.smul_left]
  congr 1 <;> ring

/-- Riks: after an iteration the squared length is the prescribed one plus that of the iterative
increment. `t.DU - t.dU`, `t.DL - t.dL` is the increment before the iteration. -/
theorem C40_riks (hg : e.geo.Laws) {s t : St K V Mat Fac} (h : rkIteration e s = (t, .ok ()))
    (hd : rkDenominator e t.phi (t.DU - t.dU) t.Ut (t.DL - t.dL) ≠ 0) :
    rkForm e t.phi t.DU t.DL = s.len ^ 2 + rkForm e t.phi t.dU t.dL := by
  obtain ⟨x, b, -, -, -, h4, h5, h6, h7, h8, h9, h10⟩ := rkIteration_ok h
  have e1 : t.DU - t.dU = s.DU := by rw [h8]; exact add_sub_cancel_right _ _
  have e2 : t.DL - t.dL = s.DL := by rw [h9, h6]; exact add_sub_cancel_right _ _
  rw [e1, e2, h4, h5] at hd
  rw [eq_div_iff hd] at h10
  rw [h4, h8, h9, h6, h7]
  simp only [rkForm, rkDenominator, hg.add_left, hg.add_right, hg.smul_left, hg.smul_right] at h10 ⊢
  rw [hg.comm b s.DU, hg.comm s.Ut s.DU]
  linear_combination h10

/-- Consistent Crisfield: the same in its metric. -/
theorem C40_consistent (hg : e.geo.Laws) {s t : St K V Mat Fac} (h : ccIteration e s = (t, .ok ()))
    (hd : ccDenominator e t.phi (t.DU - t.dU) t.Ut (t.DL - t.dL) ≠ 0) :
    crForm e t.phi t.DU t.DL = s.len ^ 2 + crForm e t.phi t.dU t.dL := by
  obtain ⟨x, b, -, -, -, h4, h5, h6, h7, h8, h9, h10⟩ := ccIteration_ok hg h
  have e1 : t.DU - t.dU = s.DU := by rw [h8]; exact add_sub_cancel_right _ _
  have e2 : t.DL - t.dL = s.DL := by rw [h9, h6]; exact add_sub_cancel_right _ _
  rw [e1, e2, h4, h5] at hd
  rw [eq_div_iff hd] at h10
  rw [h4, h8, h9, h6, h7]
  simp only [crForm, ccDenominator, hg.add_left, hg.add_right, hg.smul_left, hg.smul_right] at h10 ⊢
  rw [hg.comm b s.DU, hg.comm s.Ut s.DU]
  linear_combination h10

/-- A state is framed: the members on which the length of the increment depends. -/
private theorem framed_parts {a b : St K V Mat Fac} (h : incrT b = incrT a) :
    b.U = a.U ∧ b.L = a.L ∧ b.DU = a.DU ∧ b.DL = a.DL ∧ b.dU = a.dU ∧ b.dL = a.dL ∧ b.len = a.len ∧
      b.phi = a.phi ∧ b.Ut = a.Ut := by
  simp only [incrT, incr, Prod.mk.injEq, Incr.mk.injEq] at h
  obtain ⟨⟨a1, a2, a3, a4, a5, a6, a7, a8, -⟩, a13⟩ := h
  exact ⟨a1, a2, a3, a4, a5, a6, a7, a8, a13⟩

/-- Generic step theorem for a corrector with the property `form(DU) = len² + form(dU)`. -/
theorem overshoot_step {M : Method K V Mat Fac} (hM : IsMethod e o M) (form : K → V → K → K)
    (den : K → V → V → K → K)
    (hit : ∀ s t, M.iteration s = (t, .ok ()) → t.U = s.U ∧ t.L = s.L ∧ t.len = s.len ∧
      (den t.phi (t.DU - t.dU) t.Ut (t.DL - t.dL) ≠ 0 →
        form t.phi t.DU t.DL = s.len ^ 2 + form t.phi t.dU t.dL))
    (hmax : 2 ≤ o.maxIt) {s t : St K V Mat Fac} (h : step e o M s = (t, .ok .success))
    (hd : den t.phi (t.DU - t.dU) t.Ut (t.DL - t.dL) ≠ 0) :
    form t.phi (t.U - s.U) (t.L - s.L) = s.len ^ 2 + form t.phi t.dU t.dL := by
  have key := step_inv hM (s := s) (t := t)
    (P := fun u => u.U = s.U ∧ u.L = s.L ∧ u.len = s.len)
    (Q := fun u => (u.U = s.U ∧ u.L = s.L ∧ u.len = s.len) ∧
      (den u.phi (u.DU - u.dU) u.Ut (u.DL - u.dL) ≠ 0 →
        form u.phi u.DU u.DL = s.len ^ 2 + form u.phi u.dU u.dL))
    ?_ ?_ (fun _ h => h.1) ?_ ?_ hmax h
  · obtain ⟨u, v, ⟨⟨h1, h2, h3⟩, h4⟩, h7, rfl⟩ := key
    obtain ⟨f1, f2, f3, f4, f5, f6, f7, f8, -⟩ := finishStep_incr hM h7
    simp only at hd ⊢
    rw [f7, f3, f5, f8, f4, f6] at hd
    rw [f1, f2, f7, f5, f6, h1, h2, add_sub_cancel_left, add_sub_cancel_left]
    exact h4 hd
  · intro a b hab ha
    simp only [incr, Incr.mk.injEq] at hab
    obtain ⟨a1, a2, a3, a4, a5, a6, a7, -⟩ := hab
    rw [a1, a2, a7]
    exact ha
  · intro a b hab ha
    obtain ⟨a1, a2, a3, a4, a5, a6, a7, a8, a9⟩ := framed_parts hab
    rw [a1, a2, a3, a4, a5, a6, a7, a8, a9]
    exact ha
  · intro a b ha hb
    obtain ⟨i1, i2, i3, i4⟩ := hit a b hb
    refine ⟨⟨i1.trans ha.1, i2.trans ha.2.1, i3.trans ha.2.2⟩, fun hd => ?_⟩
    rw [i4 hd, ha.2.2]
  · intro p hp
    have hi : s.initialized = true := by
      by_contra hi
      rw [beginStep_not_initialized (by simpa using hi)] at hp
      simp at hp
    obtain ⟨u, -⟩ := beginStep_spec hM.lawful hi hp
    exact ⟨u.U, u.L, u.len⟩

/-- A successful step of Riks' method moved by at least the arc length: the squares differ by that
of the last iterative increment. -/
theorem C40_riks_step (hg : e.geo.Laws) (hmax : 2 ≤ o.maxIt) {s t : St K V Mat Fac}
    (h : step e o (riks e) s = (t, .ok .success)) (hlen : 0 ≤ s.len)
    (h0 : 0 ≤ t.phi) (h1 : t.phi ≤ 1)
    (hd : rkDenominator e t.phi (t.DU - t.dU) t.Ut (t.DL - t.dL) ≠ 0) :
    rkDistance e t (t.U - s.U) (t.L - s.L) ^ 2 = s.len ^ 2 + rkDistance e t t.dU t.dL ^ 2 ∧
      s.len ≤ rkDistance e t (t.U - s.U) (t.L - s.L) := by
  have key := overshoot_step (e := e) (o := o) .riks (rkForm e) (rkDenominator e) (fun a b hab => by
    obtain ⟨x, y, i1, i2, i3, -⟩ := rkIteration_ok hab
    exact ⟨i1, i2, i3, C40_riks hg hab⟩) hmax h hd
  rw [rkDistance_eq hg, rkDistance_eq hg, hg.sqrt_sq _ (rkForm_nonneg hg h0 h1 _ _),
    hg.sqrt_sq _ (rkForm_nonneg hg h0 h1 _ _)]
  refine ⟨key, ?_⟩
  rw [← hg.sqrt_eq hlen rfl]
  refine hg.sqrt_mono (sq_nonneg _) ?_
  rw [key]
  exact le_add_of_nonneg_right (rkForm_nonneg hg h0 h1 _ _)

/-- The same for the consistent Crisfield method. -/
theorem C40_consistent_step (hg : e.geo.Laws) (hmax : 2 ≤ o.maxIt) {s t : St K V Mat Fac}
    (h : step e o (consistentCrisfield e o) s = (t, .ok .success)) (hlen : 0 ≤ s.len)
    (hd : ccDenominator e t.phi (t.DU - t.dU) t.Ut (t.DL - t.dL) ≠ 0) :
    crDistance e t (t.U - s.U) (t.L - s.L) ^ 2 = s.len ^ 2 + crDistance e t t.dU t.dL ^ 2 ∧
      s.len ≤ crDistance e t (t.U - s.U) (t.L - s.L) := by
  have key := overshoot_step (e := e) (o := o) .consistentCrisfield (crForm e) (ccDenominator e)
    (fun a b hab => by
      obtain ⟨x, y, i1, i2, i3, -⟩ := ccIteration_ok hg hab
      exact ⟨i1, i2, i3, C40_consistent hg hab⟩) hmax h hd
  change e.geo.sqrt (crForm e t.phi _ _) ^ 2 = _ + e.geo.sqrt (crForm e t.phi _ _) ^ 2 ∧
    _ ≤ e.geo.sqrt (crForm e t.phi _ _)
  rw [hg.sqrt_sq _ (crForm_nonneg hg _ _ _), hg.sqrt_sq _ (crForm_nonneg hg _ _ _)]
  refine ⟨key, ?_⟩
  rw [← hg.sqrt_eq hlen rfl]
  refine hg.sqrt_mono (sq_nonneg _) ?_
  rw [key]
  exact le_add_of_nonneg_right (crForm_nonneg hg _ _ _)

end GsSA.ALM
