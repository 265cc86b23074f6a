import Verif.ALM.ExtendedNewton

/-!
# Convergence of the extended system to singular points (C141)
-/

namespace GsSA.ALM

open GsSA

set_option linter.unusedSectionVars false

variable {V Mat Fac : Type} [NormedAddCommGroup V] [InnerProductSpace ℝ V]
variable {e : Env ℝ V Mat Fac} {o : Opts ℝ}
variable {G : V → V} {J : V → V →L[ℝ] V} {S : Submodule ℝ V} {Us : V} {Ls : ℝ} {φ : V}
variable {D : V →L[ℝ] V →L[ℝ] V} {ρ m κ : ℝ}

/-- Bounds for the errors of Newton's method with the constants `c` and `d`: the error is multiplied with
`c * error + d`. -/
def newtonBound (c d E : ℝ) : ℕ → ℝ
  | 0 => E
  | k + 1 => (c * newtonBound c d E k + d) * newtonBound c d E k

/-- The errors of the extended system after `k` iterations. -/
noncomputable def extendedBound (D : V →L[ℝ] V →L[ℝ] V) (m κ E : ℝ) (k : ℕ) : ℝ :=
  newtonBound (2 * m * (4 * κ + 2 * ‖D‖ + 2)) (8 * m * κ / 10 ^ 8) E k

theorem newtonBound_spec {c d E : ℝ} (hc : 0 ≤ c) (hd : 0 ≤ d) (hE : 0 ≤ E) (h : c * E + d ≤ 1 / 2) (k : ℕ) :
    0 ≤ newtonBound c d E k ∧ newtonBound c d E k ≤ E / 2 ^ k ∧ newtonBound c d E k ≤ E := by
  induction k with
  | zero => exact ⟨hE, by simp [newtonBound], le_rfl⟩
  | succ k ih =>
    obtain ⟨h1, h2, h3⟩ := ih
    have h4 : c * newtonBound c d E k + d ≤ 1 / 2 := by
      have := mul_le_mul_of_nonneg_left h3 hc
      linarith
    have h5 : newtonBound c d E (k + 1) ≤ 1 / 2 * newtonBound c d E k := mul_le_mul_of_nonneg_right h4 h1
    refine ⟨mul_nonneg (add_nonneg (mul_nonneg hc h1) hd) h1, h5.trans ?_, by linarith⟩
    rw [pow_succ (2 : ℝ) k, ← div_div]
    linarith

theorem extendedBound_succ (k : ℕ) (E : ℝ) : extendedBound D m κ E (k + 1) =
    2 * m * (extendedConst D κ * extendedBound D m κ E k + 4 * κ * fdStep) * extendedBound D m κ E k := by
  unfold extendedBound extendedConst fdStep
  rw [newtonBound]
  ring

/-- The errors are at least halved, and from then on squared up to a factor, except for the error of the difference
quotients. -/
theorem extendedBound_spec {E : ℝ} (hm : 0 ≤ m) (hκ : 0 ≤ κ) (hE : 0 ≤ E)
    (hq : 4 * m * (extendedConst D κ * E + 4 * κ * fdStep) ≤ 1) (k : ℕ) :
    0 ≤ extendedBound D m κ E k ∧ extendedBound D m κ E k ≤ E / 2 ^ k ∧ extendedBound D m κ E k ≤ E := by
  refine newtonBound_spec (by positivity) (by positivity) hE ?_ k
  unfold extendedConst fdStep at hq
  linarith

theorem SingularPt.shift (h : SingularPt e G J S Us Ls φ D ρ m κ) {x w : V} {E : ℝ} (hx : ‖x - Us‖ ≤ E)
    (hw : ‖w - φ‖ ≤ E) (hE : E ≤ 1 / 2) (hρ : E + 2 * fdStep ≤ ρ) : ‖w‖ ≤ 2 ∧ ‖x - Us‖ ≤ ρ ∧
    ‖x + (fdStep : ℝ) • w - Us‖ ≤ ρ := by
  have hε := fdStep_pos
  have hw2 : ‖w‖ ≤ 2 := by
    have h1 : ‖w‖ ≤ ‖w - φ‖ + ‖φ‖ := by simpa using norm_add_le (w - φ) φ
    rw [h.unit] at h1
    linarith
  refine ⟨hw2, by linarith, ?_⟩
  have e1 : x + (fdStep : ℝ) • w - Us = (x - Us) + (fdStep : ℝ) • w := by abel
  rw [e1]
  refine (norm_add_le _ _).trans ?_
  rw [norm_smul, Real.norm_eq_abs, abs_of_pos hε]
  have := mul_le_mul_of_nonneg_left hw2 hε.le
  linarith

/-- One pass of the loop. -/
theorem SingularPt.ends_body (h : SingularPt e G J S Us Ls φ D ρ m κ) (s : St ℝ V Mat Fac) {E : ℝ}
    (hE : ‖s.U + s.DU - Us‖ + |s.L + s.DL - Ls| + ‖s.v + s.DV - φ‖ ≤ E) (hE2 : E ≤ 1 / 2)
    (hρ : E + 2 * fdStep ≤ ρ) (hq : 4 * m * (extendedConst D κ * E + 4 * κ * fdStep) ≤ 1)
    (hS : s.U + s.DU - Us ∈ S) :
    Ends (Fails e Us ρ) (extendedBody e) s fun t _ => t.U = s.U ∧ t.L = s.L ∧ t.v = s.v ∧ t.numIt = s.numIt ∧
      t.U + t.DU - Us ∈ S ∧
      ‖t.U + t.DU - Us‖ + |t.L + t.DL - Ls| + ‖t.v + t.DV - φ‖ ≤
        2 * m * (extendedConst D κ * E + 4 * κ * fdStep) * E ∧
      t.residueKTPhi ≤ (2 * κ + 2 * ‖D‖ + ‖J Us‖) *
        (2 * m * (extendedConst D κ * E + 4 * κ * fdStep) * E) := by
  have hε := fdStep_pos
  have p1 := norm_nonneg (s.U + s.DU - Us)
  have p2 := norm_nonneg (s.v + s.DV - φ)
  have p3 := abs_nonneg (s.L + s.DL - Ls)
  have hx : ‖s.U + s.DU - Us‖ ≤ E := by linarith
  have hw : ‖s.v + s.DV - φ‖ ≤ E := by linarith
  have hE0 : 0 ≤ E := p1.trans hx
  obtain ⟨hw2, hxρ, hx'⟩ := h.shift hx hw hE2 hρ
  have hC : 0 ≤ extendedConst D κ := by
    have := h.posκ
    unfold extendedConst
    positivity
  set E' := 2 * m * (extendedConst D κ * E + 4 * κ * fdStep) * E with hE'
  have hle : E' ≤ E := by
    have h1 : 2 * m * (extendedConst D κ * E + 4 * κ * fdStep) ≤ 1 := by linarith
    exact mul_le_of_le_one_left hE0 h1
  unfold extendedBody
  refine (h.ends_iteration s rfl rfl rfl hxρ hx' hS).bind ?_
  rintro t1 _ ⟨f1, ut, ub, vt, vb, h1, h2, h3, h4, hut, hub, hdL, hdU, hdV⟩
  have hne : inner ℝ ((1 / ‖s.v + s.DV‖) • (s.v + s.DV)) vt ≠ 0 := by
    intro h0
    have := h.regular_near hx hw hE2 hρ hq hut 1 vt
    rw [h0, h1, one_smul, sub_self, h3, quotient, neg_add_cancel, norm_zero, abs_zero, abs_one] at this
    have := norm_nonneg ut
    have := norm_nonneg vt
    linarith
  have hN : NewtonStep J e.forcing (s.U + s.DU) (s.v + s.DV) (G (s.U + s.DU) - (s.L + s.DL) • e.forcing)
      t1.dU t1.dL t1.dV := by
    refine ⟨?_, ?_, ?_⟩
    · rw [hdU, map_add, map_smul, h1, h2]
      abel
    · rw [hdU, hdV, quotient_add, quotient_smul, map_add, map_smul, h3, h4]
      unfold quotient
      module
    · rw [hdV, inner_add_right, inner_smul_right, hdL, div_mul_cancel₀ _ hne]
      ring
  have ha : t1.dU ∈ S := by
    rw [hdU]
    exact S.add_mem (S.smul_mem _ hut) hub
  have hnew := h.newton hE hE2 hρ hq hS ha hN
  rw [← hE'] at hnew
  have g1 : t1.U + (t1.DU + t1.dU) = s.U + s.DU + t1.dU := by rw [f1.hU, f1.hDU, add_assoc]
  have g2 : t1.L + (t1.DL + t1.dL) = s.L + s.DL + t1.dL := by rw [f1.hL, f1.hDL, add_assoc]
  have g3 : t1.v + (t1.DV + t1.dV) = s.v + s.DV + t1.dV := by rw [f1.hv, f1.hDV, add_assoc]
  set x := s.U + s.DU + t1.dU with hxd
  set l := s.L + s.DL + t1.dL with hld
  set w := s.v + s.DV + t1.dV with hwd
  have q1 := norm_nonneg (x - Us)
  have q2 := norm_nonneg (w - φ)
  have q3 := abs_nonneg (l - Ls)
  have nx : ‖x - Us‖ ≤ E' := by linarith
  have nw : ‖w - φ‖ ≤ E' := by linarith
  obtain ⟨nw2, nxρ, -⟩ := h.shift (nx.trans hle) (nw.trans hle) hE2 hρ
  have hxS : x - Us ∈ S := by
    have e1 : x - Us = (s.U + s.DU - Us) + t1.dU := by rw [hxd]; abel
    rw [e1]
    exact S.add_mem hS ha
  have hk : ‖J x w‖ ≤ (2 * κ + 2 * ‖D‖ + ‖J Us‖) * E' := by
    have k1 := h.tangent_near nxρ (by linarith) w
    have k2 := (J Us).le_opNorm (w - φ)
    have e1 : J x w = (J x w - J Us w) + J Us (w - φ) := by rw [map_sub, h.kernel]; abel
    rw [e1]
    refine (norm_add_le _ _).trans ?_
    have pD := norm_nonneg D
    have pJ := norm_nonneg (J Us)
    have pκ := h.posκ
    have k3 : (κ + ‖D‖) * ‖x - Us‖ * ‖w‖ ≤ (κ + ‖D‖) * E' * 2 :=
      mul_le_mul (mul_le_mul_of_nonneg_left nx (by positivity)) nw2 (norm_nonneg w)
        (mul_nonneg (by positivity) (q1.trans nx))
    have k4 := mul_le_mul_of_nonneg_left nw pJ
    linarith
  refine Ends.modify (Ends.get ?_)
  dsimp only
  rw [g1]
  refine (h.ends_refactorize _ nxρ _).bind ?_
  rintro t2 _ ⟨f2, -, -, -, hm⟩
  have a1 : t2.U + t2.DU = x := by rw [← g1, f2.hU, f2.hDU]
  have a2 : t2.L + t2.DL = l := by rw [← g2, f2.hL, f2.hDL]
  have a3 : t2.v + t2.DV = w := by rw [← g3, f2.hv, f2.hDV]
  refine Ends.modify (Ends.get ?_)
  dsimp only
  rw [a1, a2]
  refine (h.ends_residual _ nxρ _).bind ?_
  rintro t3 r ⟨f3, -, -, -, -, hr3, -⟩
  refine Ends.modify (Ends.last ?_)
  have hk3 : t3.residueKTPhi = ‖J x w‖ := by rw [hr3, ← hm w, ← h.norm, a3]
  have b1 : t3.U + t3.DU = x := by rw [← a1, f3.hU, f3.hDU]
  have b2 : t3.L + t3.DL = l := by rw [← a2, f3.hL, f3.hDL]
  have b3 : t3.v + t3.DV = w := by rw [← a3, f3.hv, f3.hDV]
  have c1 : t3.U = s.U := by rw [f3.hU, ← f1.hU]; exact f2.hU
  have c2 : t3.L = s.L := by rw [f3.hL, ← f1.hL]; exact f2.hL
  have c3 : t3.v = s.v := by rw [f3.hv, ← f1.hv]; exact f2.hv
  have c4 : t3.numIt = s.numIt := by rw [f3.hn, ← f1.hn]; exact f2.hn
  split <;> (simp only; rw [b1, b2, b3, hk3]; exact ⟨c1, c2, c3, c4, hxS, hnew, hk⟩)

/-- How the loop ends: the point and the vector are near the singular ones. -/
def Reached (S : Submodule ℝ V) (Us : V) (Ls : ℝ) (φ : V) (v : V) (F : ℕ → ℝ) (n : ℕ) (t : St ℝ V Mat Fac) : Prop :=
  t.numIt < n ∧ t.v = v ∧ t.U - Us ∈ S ∧ ‖t.U - Us‖ + |t.L - Ls| + ‖v + t.DV - φ‖ ≤ F (t.numIt + 1)

theorem SingularPt.ends_loop (h : SingularPt e G J S Us Ls φ D ρ m κ) {E tol : ℝ} (hE0 : 0 ≤ E) (hE2 : E ≤ 1 / 2)
    (hρ : E + 2 * fdStep ≤ ρ) (hq : 4 * m * (extendedConst D κ * E + 4 * κ * fdStep) ≤ 1) {n : ℕ}
    (hn : n ≤ o.maxIt) (htol : (2 * κ + 2 * ‖D‖ + ‖J Us‖) * extendedBound D m κ E n < tol) (rem : ℕ)
    (s : St ℝ V Mat Fac) {v : V} (hv : s.v = v) (hrem : s.numIt + rem = o.maxIt) (hlt : s.numIt < n)
    (hS : s.U + s.DU - Us ∈ S)
    (hs : ‖s.U + s.DU - Us‖ + |s.L + s.DL - Ls| + ‖s.v + s.DV - φ‖ ≤ extendedBound D m κ E s.numIt) :
    Ends (Fails e Us ρ) (extendedLoop e o tol rem) s fun t b =>
      b = true ∧ Reached S Us Ls φ v (extendedBound D m κ E) n t := by
  induction rem generalizing s with
  | zero => omega
  | succ rem ih =>
    obtain ⟨-, -, b3⟩ := extendedBound_spec (D := D) h.posm h.posκ hE0 hq s.numIt
    have hC : 0 ≤ extendedConst D κ := by
      have := h.posκ
      unfold extendedConst
      positivity
    have hq' : 4 * m * (extendedConst D κ * extendedBound D m κ E s.numIt + 4 * κ * fdStep) ≤ 1 := by
      refine le_trans (mul_le_mul_of_nonneg_left ?_ (mul_nonneg (by norm_num) h.posm)) hq
      have := mul_le_mul_of_nonneg_left b3 hC
      linarith
    rw [extendedLoop]
    refine (h.ends_body s hs (b3.trans hE2) (by linarith) hq' hS).bind ?_
    rintro t _ ⟨f1, f2, f3, f4, hS', hb, hk⟩
    rw [← extendedBound_succ] at hb hk
    refine Ends.get ?_
    by_cases ht : t.residueKTPhi < tol
    · rw [if_pos ht]
      unfold addIncrements
      refine Ends.modify (Ends.ret ⟨rfl, ?_, f3.trans hv, hS', ?_⟩)
      · change t.numIt < n
        omega
      · change ‖t.U + t.DU - Us‖ + |t.L + t.DL - Ls| + ‖v + t.DV - φ‖ ≤ extendedBound D m κ E (t.numIt + 1)
        rw [f4, ← hv, ← f3]
        exact hb
    · rw [if_neg ht]
      have hne : s.numIt + 1 ≠ n := by
        rintro rfl
        exact ht (hk.trans_lt htol)
      rw [if_neg (by omega)]
      refine Ends.modify ?_
      exact ih { t with numIt := t.numIt + 1 } (f3.trans hv) (by simp only; omega) (by simp only; omega) hS'
        (by simp only [f4]; exact hb)

/-- **C141**: the extended system converges to singular points at which it is regular. From a point and a vector
within `E` of the singular ones, the iterations end with `true` as soon as the errors have become small enough for
the tolerance; they can only fail in the linear solver. The errors are multiplied with `c * error + d` in every
iteration; `d` is proportional to the step 1e-8 of the difference quotients. -/
theorem C141_extended_converges (h : SingularPt e G J S Us Ls φ D ρ m κ) {U : V} {L E tol : ℝ} {s : St ℝ V Mat Fac}
    (hE : ‖U - Us‖ + |L - Ls| + ‖s.v - φ‖ ≤ E) (hE2 : E ≤ 1 / 2) (hρ : E + 2 / 10 ^ 8 ≤ ρ)
    (hq : 4 * m * ((4 * κ + 2 * ‖D‖ + 2) * E + 4 * κ / 10 ^ 8) ≤ 1) (hS : U - Us ∈ S) {n : ℕ} (h0 : 0 < n)
    (hn : n ≤ o.maxIt) (htol : (2 * κ + 2 * ‖D‖ + ‖J Us‖) * extendedBound D m κ E n < tol) :
    ∃ t res, extendedSolve e o U L tol s = (t, res) ∧
      ((res = .error .solver ∧ ∃ x, ‖x - Us‖ ≤ ρ ∧ SolverFails e x) ∨
        (res = .ok true ∧ t.numIt < n ∧ t.v = s.v ∧ t.U - Us ∈ S ∧
          ‖t.U - Us‖ + |t.L - Ls| + ‖s.v + t.DV - φ‖ ≤ extendedBound D m κ E (t.numIt + 1))) := by
  have p1 := norm_nonneg (U - Us)
  have p2 := norm_nonneg (s.v - φ)
  have p3 := abs_nonneg (L - Ls)
  have hE0 : 0 ≤ E := by linarith
  have hρ' : E + 2 * fdStep ≤ ρ := by
    unfold fdStep
    linarith
  have hq' : 4 * m * (extendedConst D κ * E + 4 * κ * fdStep) ≤ 1 := by
    unfold extendedConst fdStep
    rwa [mul_one_div]
  have hR : Ends (Fails e Us ρ) (extendedSolve e o U L tol) s fun t b =>
      b = true ∧ Reached S Us Ls φ s.v (extendedBound D m κ E) n t := by
    unfold extendedSolve
    refine Ends.modify (Ends.get ?_)
    refine (h.ends_refactorize _ (x := U) (by linarith [fdStep_pos]) _).bind ?_
    rintro t _ ⟨f, -, -, -, -⟩
    unfold clearIncrements
    refine Ends.modify (Ends.modify ?_)
    have f1 : t.U = U := f.hU
    have f2 : t.L = L := f.hL
    have f3 : t.v = s.v := f.hv
    exact h.ends_loop hE0 hE2 hρ' hq' hn htol o.maxIt
      { t with DV := 0, DU := 0, DL := 0, dV := 0, dU := 0, dL := 0, numIt := 0 } f3 (by simp) h0
      (by simpa [f1] using hS) (by simpa [f1, f2, f3, extendedBound, newtonBound] using hE)
  obtain ⟨t, res, h1, ⟨h2, h3⟩ | ⟨b, h2, rfl, h3⟩⟩ := hR
  · exact ⟨t, res, h1, Or.inl ⟨h2, h3⟩⟩
  · exact ⟨t, res, h1, Or.inr ⟨h2, h3⟩⟩

/-- The errors are at least halved by every iteration. -/
theorem C141_extended_rate {E : ℝ} (hm : 0 ≤ m) (hκ : 0 ≤ κ) (hE : 0 ≤ E)
    (hq : 4 * m * ((4 * κ + 2 * ‖D‖ + 2) * E + 4 * κ / 10 ^ 8) ≤ 1) (k : ℕ) :
    extendedBound D m κ E k ≤ E / 2 ^ k ∧ extendedBound D m κ E (k + 1) =
      (2 * m * (4 * κ + 2 * ‖D‖ + 2) * extendedBound D m κ E k + 8 * m * κ / 10 ^ 8) * extendedBound D m κ E k := by
  refine ⟨(extendedBound_spec hm hκ hE ?_ k).2.1, rfl⟩
  unfold extendedConst fdStep
  rwa [mul_one_div]

end GsSA.ALM
