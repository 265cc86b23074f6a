import Verif.ALM.BisectionPath
import Verif.ALM.ExtendedProps
import Verif.ALM.PowerDirection

/-!
# C143: `computeSingularPoint` finds bifurcations by loss of symmetry

Bisection with load control (C142), the inverse power method at its end and the extended system (C141) together.
-/

namespace GsSA.ALM

open GsSA

set_option linter.unusedSectionVars false

variable {V Mat Fac : Type} [NormedAddCommGroup V] [InnerProductSpace ℝ V]
variable {e : Env ℝ V Mat Fac} {o : Opts ℝ}
variable {G : V → V} {J : V → V →L[ℝ] V} {S : Submodule ℝ V} {Us : V} {Ls : ℝ} {φ : V}
variable {D : V →L[ℝ] V →L[ℝ] V} {ρ m κ : ℝ}

/-- The mode may be reversed. -/
theorem SingularPt.sign (h : SingularPt e G J S Us Ls φ D ρ m κ) {s : ℝ} (hs : |s| = 1) :
    SingularPt e G J S Us Ls (s • φ) D ρ m κ where
  dot := h.dot
  norm := h.norm
  residual := h.residual
  tangent := h.tangent
  solves := h.solves
  balance := h.balance
  kernel := by rw [map_smul, h.kernel, smul_zero]
  unit := by rw [norm_smul, Real.norm_eq_abs, hs, h.unit, one_mul]
  load := h.load
  force := h.force
  quad := h.quad
  second := h.second
  symm := h.symm
  regular a ha l b := by
    have hss : s * s = 1 := by rw [← abs_mul_abs_self, hs, one_mul]
    have h1 := h.regular a ha l (s • b)
    have e1 : J Us (s • b) + D φ a = s • (J Us b + D (s • φ) a) := by
      simp only [map_smul, smul_apply, smul_add, smul_smul, hss, one_smul]
    have e2 : inner ℝ φ (s • b) = inner ℝ (s • φ) b := by
      rw [inner_smul_right, real_inner_smul_left]
    rw [e1, e2, norm_smul, norm_smul, Real.norm_eq_abs, hs, one_mul, one_mul] at h1
    exact h1
  posρ := h.posρ
  posm := h.posm
  posκ := h.posκ

/-- The tangent near the singular point. -/
theorem SingularPt.tangent_close (h : SingularPt e G J S Us Ls φ D ρ m κ) {x : V} {r : ℝ} (hx : ‖x - Us‖ ≤ r)
    (hr : r ≤ ρ) : ‖J x - J Us‖ ≤ (κ * r + ‖D‖) * r := by
  have h0 : ‖Us - Us‖ ≤ ρ := by rw [sub_self, norm_zero]; exact h.posρ.le
  have h1 := h.second Us x h0 (hx.trans hr)
  rw [sub_self, norm_zero, zero_add] at h1
  have e1 : J x - J Us = (J x - J Us - D (x - Us)) + D (x - Us) := by abel
  have p := norm_nonneg (x - Us)
  rw [e1]
  calc ‖(J x - J Us - D (x - Us)) + D (x - Us)‖ ≤ κ * ‖x - Us‖ * ‖x - Us‖ + ‖D‖ * ‖x - Us‖ :=
        (norm_add_le _ _).trans (add_le_add h1 (D.le_opNorm _))
    _ = (κ * ‖x - Us‖ + ‖D‖) * ‖x - Us‖ := by ring
    _ ≤ (κ * r + ‖D‖) * r := by
        refine mul_le_mul (add_le_add (mul_le_mul_of_nonneg_left hx h.posκ) le_rfl) hx p ?_
        have := h.posκ
        have := p.trans hx
        positivity

variable {w : V} {σ : ℝ} {mat : ℝ → Mat} {fac : ℝ → Fac} {spec : ℝ → List ℝ}

/-- The vector of the bisection is the mode, up to its sign and an error. -/
theorem Straight.mode (hs : Straight e o w σ mat fac spec) (h : SingularPt e G J S (σ • w) σ φ D ρ m κ)
    (hsym : ∀ x a b, inner ℝ (J x a) b = inner ℝ a (J x b)) {μ α : ℝ} (hμ : 0 < μ)
    (hμ' : ∀ y, inner ℝ φ y = (0 : ℝ) → μ * ‖y‖ ≤ ‖J (σ • w) y‖) (hα : 0 < α) (hα2 : α ≤ 1 / 2)
    (h0 : e.ones ≠ 0) (hones : α * ‖e.ones‖ ≤ |inner ℝ φ e.ones|) {l r η : ℝ} (hl : l ≠ σ)
    (hlr : |l - σ| * ‖w‖ ≤ r) (hr : r ≤ ρ) (hη : (κ * r + ‖D‖) * r ≤ η) (hsmall : 4 * (η * (1 / α + 1) / μ) ≤ 1 / 2)
    {v : V} (hv : PowerMode e (fac l) v) :
    ‖v‖ = 1 ∧ ∃ s : ℝ, |s| = 1 ∧ ‖v - s • φ‖ ≤ 4 * (η * (1 / α + 1) / μ) := by
  have hx : ‖l • w - σ • w‖ ≤ r := by
    rw [← sub_smul, norm_smul, Real.norm_eq_abs]
    exact hlr
  have hJ : ‖J (l • w) - J (σ • w)‖ ≤ η := (h.tangent_close hx hr).trans hη
  have hη0 : 0 ≤ η := (norm_nonneg _).trans hJ
  have hαi : 2 ≤ 1 / α := by
    rw [le_div_iff₀ hα]
    linarith
  have hημ : η ≤ μ / 2 := by
    have h1 : η * 3 / μ ≤ η * (1 / α + 1) / μ :=
      div_le_div_of_nonneg_right (mul_le_mul_of_nonneg_left (by linarith) hη0) hμ.le
    have h2 : η * 3 / μ ≤ 1 / 8 := by linarith
    rw [div_le_iff₀ hμ] at h2
    linarith
  have e1 : 2 * (η * (1 / α + 1) / (μ / 2)) = 4 * (η * (1 / α + 1) / μ) := by
    field_simp
    ring
  have hφ : ‖J (l • w) φ‖ ≤ η := by
    have e2 : J (l • w) φ = (J (l • w) - J (σ • w)) φ := by
      rw [sub_apply, h.kernel, sub_zero]
    rw [e2]
    refine ((J (l • w) - J (σ • w)).le_opNorm φ).trans ?_
    rw [h.unit, mul_one]
    exact hJ
  have hA : ∀ y, inner ℝ φ y = (0 : ℝ) → μ / 2 * ‖y‖ ≤ ‖J (l • w) y‖ := by
    intro y hy
    have h1 := hμ' y hy
    have h2 := (J (l • w) - J (σ • w)).le_opNorm y
    have h3 := mul_le_mul_of_nonneg_right (hJ.trans hημ) (norm_nonneg y)
    have h4 : ‖J (σ • w) y‖ ≤ ‖J (l • w) y‖ + ‖(J (l • w) - J (σ • w)) y‖ := by
      have e2 : J (σ • w) y = J (l • w) y - (J (l • w) - J (σ • w)) y := by
        rw [sub_apply]
        abel
      rw [e2]
      exact norm_sub_le _ _
    linarith
  rw [← e1] at hsmall ⊢
  refine PowerMode.near h.dot h.norm (fun n b y hy => ?_) (hsym _) h.unit (by linarith) hφ hA hα hα2 hones
    (norm_pos_iff.2 h0) hsmall hv
  exact (h.solves 0 (l • w) 0 (mat l) 0 (fac l) n b y (hx.trans hr) (hs.jacobian 0 l 0) (hs.factorize 0 l hl) hy).1

/-- **C143**: `computeSingularPoint` finds the bifurcation with any method that follows the path. The displacements are proportional to the load (`Straight`)
and the symmetric displacements `S` contain them; at the load `σ` the structure loses the symmetry with the mode `φ`
(`SingularPt`), which the starting vector of the power method is not orthogonal to. If the bisection is stopped within
`δ` of `σ` and `E` bounds the error of the point and of the vector then, `computeSingularPoint` ends within the bound of
the extended system, unless the linear solver fails there; with `switch`, it ends in the direction of the mode. -/
theorem C143_straight (h : SingularPt e G J S (σ • w) σ φ D ρ m κ) (hs : Straight e o w σ mat fac spec)
    (hwS : w ∈ S) {M : Method ℝ V Mat Fac} {I : St ℝ V Mat Fac → Prop} {c L : ℝ} (hM : Follows e o M I w σ c L) (hc : 0 < c)
    (hsym : ∀ x a b, inner ℝ (J x a) b = inner ℝ a (J x b)) {μ α : ℝ} (hμ : 0 < μ)
    (hμ' : ∀ y, inner ℝ φ y = (0 : ℝ) → μ * ‖y‖ ≤ ‖J (σ • w) y‖) (hα : 0 < α) (hα2 : α ≤ 1 / 2)
    (h0 : e.ones ≠ 0) (hones : α * ‖e.ones‖ ≤ |inner ℝ φ e.ones|) (hB : o.spTolB ≠ 0)
    {s : St ℝ V Mat Fac} (hI : I s) {x₀ ν ν' : ℝ} (hLσ : L < σ) (hd : σ - L ≤ 2 * (c * s.len)) {k : ℕ}
    (before : ∀ l, L ≤ l → l < σ → countNegatives (spec l) = k)
    (after : ∀ l, σ < l → l ≤ σ + c * s.len → countNegatives (spec l) ≠ k) (hν : 0 < ν')
    (speed : ∀ l x, L ≤ l → l ≤ σ + c * s.len → minCoeff (spec l) = some x →
      ν' * |l - σ| ≤ |x| ∧ |x| ≤ ν * |l - σ|)
    (hx : minCoeff (spec L) = some x₀) (hx0 : x₀ ≠ 0) {i : ℕ}
    (htol : ν * (2 * (c * s.len / 2 ^ i)) < o.spTolB * |x₀|) (hmax : 2 * i + 2 ≤ o.maxIt) {δ E : ℝ}
    (hδ : o.spTolB * |x₀| ≤ ν' * δ)
    (hE : (‖w‖ + 1) * δ + 4 * ((κ * (δ * ‖w‖) + ‖D‖) * (δ * ‖w‖) * (1 / α + 1) / μ) ≤ E) (hE2 : E ≤ 1 / 2)
    (hρ : E + 2 / 10 ^ 8 ≤ ρ) (hq' : 4 * m * ((4 * κ + 2 * ‖D‖ + 2) * E + 4 * κ / 10 ^ 8) ≤ 1) {n : ℕ} (hn0 : 0 < n)
    (hn : n ≤ o.maxIt) (htolE : (2 * κ + 2 * ‖D‖ + ‖J (σ • w)‖) * extendedBound D m κ E n < o.spTolE)
    (sw j : Bool) :
    ∃ t st, computeSingularPoint e o M (L • w) L sw j false s = (t, .ok st) ∧
      ((st = .solverError ∧ ∃ x, ‖x - σ • w‖ ≤ ρ ∧ SolverFails e x) ∨
        ∃ p < n, |t.L - σ| ≤ extendedBound D m κ E (p + 1) ∧
          (sw = false → ‖t.U - σ • w‖ + |t.L - σ| ≤ extendedBound D m κ E (p + 1)) ∧
          (sw = true → ∃ z : ℝ, |z| = 1 ∧
            ‖t.U - (σ • w + (z / o.tau) • φ)‖ ≤ extendedBound D m κ E (p + 1) + E / |o.tau|)) := by
  obtain ⟨t, b1, b2, -, -, b5, b6, b7⟩ := C142_straight (s := { s with U := L • w, L := L }) hs hM hc (by rw [hM.move]; exact hI)
    hLσ hd before after speed hx hx0 htol hmax
  have hδ' : |t.L - σ| < δ := lt_of_mul_lt_mul_left (lt_of_lt_of_le b5 hδ) hν.le
  have hδ0 : 0 < δ := lt_of_le_of_lt (abs_nonneg _) hδ'
  have hκ := h.posκ
  have pw := norm_nonneg w
  have pD := norm_nonneg D
  have q1 : 0 ≤ 4 * ((κ * (δ * ‖w‖) + ‖D‖) * (δ * ‖w‖) * (1 / α + 1) / μ) := by positivity
  have q2 : δ * ‖w‖ ≤ E := by
    have := mul_nonneg hδ0.le pw
    linarith
  have hr : δ * ‖w‖ ≤ ρ := by linarith
  have q3 : |t.L - σ| * ‖w‖ ≤ δ * ‖w‖ := mul_le_mul_of_nonneg_right hδ'.le pw
  obtain ⟨v1, z, z1, z2⟩ := hs.mode h hsym hμ hμ' hα hα2 h0 hones b6 q3 hr le_rfl (by
    have := mul_nonneg (add_nonneg pw zero_le_one) hδ0.le
    linarith) b7
  have hstart : ‖t.U - σ • w‖ + |t.L - σ| + ‖t.v - z • φ‖ ≤ E := by
    rw [b2, ← sub_smul, norm_smul, Real.norm_eq_abs]
    linarith
  have hS : t.U - σ • w ∈ S := by
    rw [b2, ← sub_smul]
    exact S.smul_mem _ hwS
  obtain ⟨u, res, h1, h2⟩ := C141_extended_converges (o := o) (tol := o.spTolE) (s := t) (h.sign z1) hstart hE2 hρ hq' hS
    hn0 hn htolE
  have hraw : (computeSingularPointRaw e o M (L • w) L sw j false).run s =
      (((do
        let converged ← extendedSolve e o t.U t.L o.spTolE
        (if sw && (converged || decide (o.spFail = 1)) then switchBranch e o else pure ())
        Act.modify fun s => { s with stability := s.stabilityPrev } : Act (St ℝ V Mat Fac) Unit)).run t) := by
    simp only [computeSingularPointRaw, Bool.false_eq_true, if_false, Act.bind_apply, Act.pure_apply,
      Act.modify_apply, solveSingularPoint, Act.get_apply, hB, ne_eq, not_false_eq_true, if_true, b1]
  rcases h2 with ⟨rfl, hFail⟩ | ⟨rfl, h3, h4, -, h5⟩
  · refine ⟨{ u with status := .solverError }, .solverError, ?_, Or.inl ⟨rfl, hFail⟩⟩
    have hraw' := hraw.trans (Act.bind_error h1)
    change (caught _ id).run s = _
    simp only [caught, hraw', statusOf]
  · have p1 := norm_nonneg (u.U - σ • w)
    have p2 := norm_nonneg (t.v + u.DV - z • φ)
    have p3 := abs_nonneg (u.L - σ)
    rw [Act.bind_ok h1] at hraw
    cases sw with
    | false =>
      refine ⟨{ u with stability := u.stabilityPrev }, u.status, ?_, Or.inr ⟨u.numIt, h3, ?_, fun _ => ?_, ?_⟩⟩
      · change (caught _ id).run s = _
        simp only [caught, hraw, Bool.false_and, Bool.false_eq_true, if_false, Act.bind_apply, Act.pure_apply, Act.modify_apply, id]
      · simp only
        linarith
      · simp only
        linarith
      · simp
    | true =>
      obtain ⟨u', k1, k2, k3⟩ : ∃ u', (switchBranch e o).run u = (u', .ok ()) ∧ u'.L = u.L ∧
          u'.U = u.U + (1 / o.tau) • t.v := by
        refine ⟨_, rfl, rfl, ?_⟩
        have hn1 : normalized e.geo t.v = t.v := by
          rw [normalized_eq h.dot h.norm (by rw [v1]; exact one_pos), v1, div_one, one_smul]
        simp only [h4, hn1, h.norm, v1]
      refine ⟨{ u' with stability := u'.stabilityPrev }, u'.status, ?_, Or.inr ⟨u.numIt, h3, ?_, ?_, fun _ => ⟨z, z1, ?_⟩⟩⟩
      · change (caught _ id).run s = _
        simp only [caught, hraw, Bool.true_and, Bool.true_or, if_true, Act.bind_apply, k1, Act.modify_apply, id]
      · simp only [k2]
        linarith
      · simp
      · simp only [k3]
        have e1 : u.U + (1 / o.tau) • t.v - (σ • w + (z / o.tau) • φ) =
            (u.U - σ • w) + (1 / o.tau) • (t.v - z • φ) := by
          rw [div_eq_mul_one_div z]
          module
        rw [e1]
        refine (norm_add_le _ _).trans (add_le_add (by linarith) ?_)
        rw [norm_smul, Real.norm_eq_abs, abs_div, abs_one, one_div_mul_eq_div]
        refine div_le_div_of_nonneg_right ?_ (abs_nonneg _)
        have := norm_nonneg (t.U - σ • w)
        have := abs_nonneg (t.L - σ)
        linarith

/-- **C143**: the same for load control. -/
theorem C143_singularPoint (h : SingularPt e G J S (σ • w) σ φ D ρ m κ) (hs : Straight e o w σ mat fac spec)
    (hwS : w ∈ S) (hg : e.geo.Laws) (hF : e.geo.dot e.forcing e.forcing ≠ 0) (hw : e.geo.dot w w ≠ 0)
    (hsym : ∀ x a b, inner ℝ (J x a) b = inner ℝ a (J x b)) {μ α : ℝ} (hμ : 0 < μ)
    (hμ' : ∀ y, inner ℝ φ y = (0 : ℝ) → μ * ‖y‖ ≤ ‖J (σ • w) y‖) (hα : 0 < α) (hα2 : α ≤ 1 / 2)
    (h0 : e.ones ≠ 0) (hones : α * ‖e.ones‖ ≤ |inner ℝ φ e.ones|) (hq : o.quasi = false) (htF : 0 < o.tolF)
    (htU : 0 < o.tolU) (hB : o.spTolB ≠ 0) {s : St ℝ V Mat Fac} (hi : s.initialized = true) (hgu : s.guess = none)
    {L x₀ ν ν' : ℝ} (hL : 0 ≤ L) (hLσ : L < σ) (hd : σ - L ≤ 2 * s.len) {k : ℕ}
    (before : ∀ l, L ≤ l → l < σ → countNegatives (spec l) = k)
    (after : ∀ l, σ < l → l ≤ σ + s.len → countNegatives (spec l) ≠ k) (hν : 0 < ν')
    (speed : ∀ l x, L ≤ l → l ≤ σ + s.len → minCoeff (spec l) = some x →
      ν' * |l - σ| ≤ |x| ∧ |x| ≤ ν * |l - σ|)
    (hx : minCoeff (spec L) = some x₀) (hx0 : x₀ ≠ 0) {i : ℕ}
    (htol : ν * (2 * (s.len / 2 ^ i)) < o.spTolB * |x₀|) (hmax : 2 * i + 2 ≤ o.maxIt) {δ E : ℝ}
    (hδ : o.spTolB * |x₀| ≤ ν' * δ)
    (hE : (‖w‖ + 1) * δ + 4 * ((κ * (δ * ‖w‖) + ‖D‖) * (δ * ‖w‖) * (1 / α + 1) / μ) ≤ E) (hE2 : E ≤ 1 / 2)
    (hρ : E + 2 / 10 ^ 8 ≤ ρ) (hq' : 4 * m * ((4 * κ + 2 * ‖D‖ + 2) * E + 4 * κ / 10 ^ 8) ≤ 1) {n : ℕ} (hn0 : 0 < n)
    (hn : n ≤ o.maxIt) (htolE : (2 * κ + 2 * ‖D‖ + ‖J (σ • w)‖) * extendedBound D m κ E n < o.spTolE)
    (sw j : Bool) :
    ∃ t st, computeSingularPoint e o (loadControl e) (L • w) L sw j false s = (t, .ok st) ∧
      ((st = .solverError ∧ ∃ x, ‖x - σ • w‖ ≤ ρ ∧ SolverFails e x) ∨
        ∃ c < n, |t.L - σ| ≤ extendedBound D m κ E (c + 1) ∧
          (sw = false → ‖t.U - σ • w‖ + |t.L - σ| ≤ extendedBound D m κ E (c + 1)) ∧
          (sw = true → ∃ z : ℝ, |z| = 1 ∧
            ‖t.U - (σ • w + (z / o.tau) • φ)‖ ≤ extendedBound D m κ E (c + 1) + E / |o.tau|)) := by
  refine C143_straight (ν := ν) h hs hwS (hs.follows hg hF hw hq htF htU (by omega) hL) one_pos hsym hμ hμ' hα hα2 h0 hones hB
    (by simp [ready, hi, hgu]) hLσ ?_ before ?_ hν ?_ hx hx0 ?_ hmax hδ hE hE2 hρ hq' hn0 hn htolE sw j <;>
    simpa only [one_mul]

end GsSA.ALM
