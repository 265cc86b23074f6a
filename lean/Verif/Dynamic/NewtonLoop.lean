import Verif.Dynamic.ConvergeSmooth
import Verif.Dynamic.NonlinearSpec

/-!
# The iteration of the nonlinear Newmark method (C138)

With an exact linear solver and small steps the residual of an iteration is a fraction of the one before, whatever the
Jacobians are, if they are bounded.
-/

set_option linter.unusedSectionVars false

namespace GsSA.Dynamic

open GsSA GsSA.Static Set
open GsSA.ALM (Act Err)

variable {V : Type} [NormedAddCommGroup V] [NormedSpace ℝ V]

/-- The structure up to the distance `r` from the motion `x`: the mass is bounded from below, the damping and the
Jacobians are bounded, the residual is Lipschitz. The Jacobians need not be derivatives of the residual. -/
structure Moderate (M C : V →ₗ[ℝ] V) (R : ℝ → V → V) (J : ℝ → V → V →ₗ[ℝ] V) (x : ℝ → V) (a b r m c L k : ℝ) : Prop where
  mass : ∀ w, ‖w‖ ≤ m * ‖M w‖
  damp : ∀ w, ‖C w‖ ≤ c * ‖w‖
  lip : ∀ t ∈ Icc a b, ∀ u u', ‖u - x t‖ ≤ r → ‖u' - x t‖ ≤ r → ‖R t u - R t u'‖ ≤ L * ‖u - u'‖
  jac : ∀ t ∈ Icc a b, ∀ u, ‖u - x t‖ ≤ r → ∀ w, ‖J t u w‖ ≤ k * ‖w‖
  mass_nonneg : 0 ≤ m
  damp_nonneg : 0 ≤ c
  lip_nonneg : 0 ≤ L
  jac_nonneg : 0 ≤ k

/-- The linear solver is exact for all matrices without kernel. -/
def ExactSolver (e : Env ℝ V) : Prop := ∀ A : V →ₗ[ℝ] V, (∀ w, A w = 0 → w = 0) → Solves e A

section

variable {e : Env ℝ V} {o : Opts ℝ} {M C : V →ₗ[ℝ] V} {R : ℝ → V → V} {J : ℝ → V → V →ₗ[ℝ] V} {t dt : ℝ}

theorem renew_callbacks (hcb : Callbacks e M C R J) (P : (V →ₗ[ℝ] V) → Prop) (t : ℝ) (b : Bool) (C' S' : V →ₗ[ℝ] V)
    (s : DSt ℝ V) (h : b = true ∨ C' = C ∧ P S') (hP : P (J t s.u)) :
    ∃ lg S, P S ∧ renew e t b C' S' s = ({ s with log := lg }, .ok (C, S)) := by
  cases b with
  | false =>
    obtain ⟨rfl, h'⟩ : C' = C ∧ P S' := by simpa using h
    exact ⟨s.log, S', h', by simp [renew]⟩
  | true =>
    refine ⟨(.jacobian s.u t, true) :: (.damping s.u t, true) :: s.log, J t s.u, hP, ?_⟩
    simp [renew, computeDamping, computeJacobian, call, Act.bind_apply, hcb.damping, hcb.jacobian]

theorem refresh_callbacks (hz : ¬ o.zeroInterval) (it : ℕ) (s : DSt ℝ V) {p : Prop} (h : it = 0 ∨ p) :
    ∃ b, refresh o it s = (s, .ok b) ∧ (b = true ∨ p) := by
  rcases h with rfl | h
  · exact ⟨true, refresh_zero o s, .inl rfl⟩
  · obtain ⟨b, hb⟩ := refresh_ok hz it s
    exact ⟨b, hb, .inr h⟩

/-- One iteration of Newmark. -/
theorem newmarkLoop_callbacks (hcb : Callbacks e M C R J) (hz : ¬ o.zeroInterval) (P : (V →ₗ[ℝ] V) → Prop) (res0 : ℝ)
    (n it : ℕ) (C' S' : V →ₗ[ℝ] V) (h : it = 0 ∨ C' = C ∧ P S') (rhs : V) (s : DSt ℝ V) (hP : P (J (t + dt) s.u)) :
    ∃ S k lg, P S ∧
      let dA := e.solve k (M + (o.delta * dt) • C + (dt * dt * o.alpha) • S) rhs
      let s' : DSt ℝ V := { s with
        a := s.a + dA, v := s.v + (o.delta * dt) • dA, u := s.u + (o.alpha * dt * dt) • dA, log := lg }
      let rhs' := R (t + dt) s'.u - C s'.v - M s'.a
      newmarkLoop e o t dt M res0 (n + 1) it C' S' rhs s =
        if updNorm (e.norm dA) (e.norm s'.a) < o.tolU ∧ e.norm rhs' / res0 < o.tolF then (s', .ok .success)
        else newmarkLoop e o t dt M res0 n (it + 1) C S rhs' s' := by
  obtain ⟨b, hb1, hb2⟩ := refresh_callbacks hz it s h
  obtain ⟨lg, S, hS, hr⟩ := renew_callbacks hcb P (t + dt) b C' S' s hb2 hP
  refine ⟨S, lg.length, (.residual (s.u + (o.alpha * dt * dt) •
    e.solve lg.length (M + (o.delta * dt) • C + (dt * dt * o.alpha) • S) rhs) (t + dt), true) :: lg, hS, ?_⟩
  simp only [newmarkLoop]
  rw [Act.bind_ok hb1, Act.bind_ok hr]
  simp only [linSolve, computeResidual, call, Act.bind_apply, Act.get_apply, Act.modify_apply,
    Act.pure_apply, hcb.residual]
  split <;> rfl

variable {x : ℝ → V} {a b r m c L k : ℝ}

/-- The matrix of an iteration has a bounded inverse. -/
theorem Moderate.lower (ht : Moderate M C R J x a b r m c L k) {S : V →ₗ[ℝ] V} (hS : ∀ w, ‖S w‖ ≤ k * ‖w‖) {ζ β : ℝ}
    (hζ : 0 ≤ ζ) (hβ : 0 ≤ β) (hA : m * (ζ * c + β * k) ≤ 1 / 2) (w : V) :
    ‖w‖ ≤ 2 * m * ‖(M + ζ • C + β • S) w‖ := by
  have h1 := ht.mass w
  have e1 : M w = (M + ζ • C + β • S) w - ζ • C w - β • S w := by
    simp only [LinearMap.add_apply, LinearMap.smul_apply]; abel
  have h2 : ‖M w‖ ≤ ‖(M + ζ • C + β • S) w‖ + ζ * (c * ‖w‖) + β * (k * ‖w‖) := by
    rw [e1]
    refine (norm_sub_le _ _).trans (add_le_add ((norm_sub_le _ _).trans (add_le_add le_rfl ?_)) ?_)
    · rw [norm_smul, Real.norm_of_nonneg hζ]; exact mul_le_mul_of_nonneg_left (ht.damp w) hζ
    · rw [norm_smul, Real.norm_of_nonneg hβ]; exact mul_le_mul_of_nonneg_left (hS w) hβ
  have h3 := mul_le_mul_of_nonneg_left h2 ht.mass_nonneg
  have h4 := mul_le_mul_of_nonneg_right hA (norm_nonneg w)
  nlinarith

/-- The correction is bounded by the residual, and the next residual by the correction. -/
theorem Moderate.correct (ht : Moderate M C R J x a b r m c L k) (he : ExactSolver e) {S : V →ₗ[ℝ] V}
    (hS : ∀ w, ‖S w‖ ≤ k * ‖w‖) {ζ β : ℝ} (hζ : 0 ≤ ζ) (hβ : 0 ≤ β) (hA : m * (ζ * c + β * k) ≤ 1 / 2) {τ : ℝ}
    (hτ : τ ∈ Icc a b) (n : ℕ) (u v w : V) (hu : ‖u - x τ‖ ≤ r) :
    let g := R τ u - C v - M w
    let d := e.solve n (M + ζ • C + β • S) g
    ‖d‖ ≤ 2 * m * ‖g‖ ∧ (‖u + β • d - x τ‖ ≤ r →
      ‖R τ (u + β • d) - C (v + ζ • d) - M (w + d)‖ ≤ β * (L + k) * ‖d‖) := by
  intro g d
  have hd : (M + ζ • C + β • S) d = g :=
    he _ (fun w hw => by
      have := ht.lower hS hζ hβ hA w
      rw [hw, norm_zero, mul_zero] at this
      exact norm_le_zero_iff.1 this) n g
  refine ⟨by rw [← hd]; exact ht.lower hS hζ hβ hA d, fun hu' => ?_⟩
  have e1 : R τ (u + β • d) - C (v + ζ • d) - M (w + d) = (R τ (u + β • d) - R τ u) + β • S d := by
    have : g = M d + ζ • C d + β • S d := by rw [← hd]; simp
    have h2 : R τ u = M d + ζ • C d + β • S d + C v + M w := by
      rw [← this]; simp only [g]; abel
    rw [h2]
    simp only [map_add, map_smul]
    abel
  rw [e1]
  have h1 := ht.lip τ hτ _ _ hu' hu
  rw [add_sub_cancel_left, norm_smul, Real.norm_of_nonneg hβ] at h1
  have h2 : ‖β • S d‖ ≤ β * (k * ‖d‖) := by
    rw [norm_smul, Real.norm_of_nonneg hβ]; exact mul_le_mul_of_nonneg_left (hS d) hβ
  refine (norm_add_le _ _).trans ?_
  linarith

/-- The state solves the equation of motion at time `τ` up to `residue`. -/
def residue (M C : V →ₗ[ℝ] V) (R : ℝ → V → V) (τ : ℝ) (s : DSt ℝ V) : V := R τ s.u - C s.v - M s.a

/-- One iteration of Newmark near the motion: the next residual is a fraction of the residual, and the state stays near
the motion. -/
theorem newmarkLoop_one (hcb : Callbacks e M C R J) (hz : ¬ o.zeroInterval) (he : ExactSolver e)
    (ht : Moderate M C R J x a b r m c L k) (hζ : 0 ≤ o.delta * dt) (hβ : 0 ≤ o.alpha * dt * dt)
    (hA : m * (o.delta * dt * c + o.alpha * dt * dt * k) ≤ 1 / 2)
    (hθ : 2 * m * (o.alpha * dt * dt * (L + k)) ≤ 1 / 4) (hτ : t + dt ∈ Icc a b) (res0 : ℝ) (n it : ℕ)
    (C' S' : V →ₗ[ℝ] V) (h : it = 0 ∨ C' = C ∧ ∀ w, ‖S' w‖ ≤ k * ‖w‖) (s : DSt ℝ V)
    (hs : ‖s.u - x (t + dt)‖ + 4 / 3 * (o.alpha * dt * dt) * (2 * m * ‖residue M C R (t + dt) s‖) ≤ r) :
    ∃ (S : V →ₗ[ℝ] V) (d : V) (lg : List (Call ℝ V × Bool)), (∀ w, ‖S w‖ ≤ k * ‖w‖) ∧
      ‖d‖ ≤ 2 * m * ‖residue M C R (t + dt) s‖ ∧
      let s' : DSt ℝ V := { s with
        a := s.a + d, v := s.v + (o.delta * dt) • d, u := s.u + (o.alpha * dt * dt) • d, log := lg }
      ‖residue M C R (t + dt) s'‖ ≤ o.alpha * dt * dt * (L + k) * ‖d‖ ∧
      ‖s'.u - x (t + dt)‖ + 4 / 3 * (o.alpha * dt * dt) * (2 * m * ‖residue M C R (t + dt) s'‖) ≤ r ∧
      newmarkLoop e o t dt M res0 (n + 1) it C' S' (residue M C R (t + dt) s) s =
        if updNorm (e.norm d) (e.norm s'.a) < o.tolU ∧ e.norm (residue M C R (t + dt) s') / res0 < o.tolF then
          (s', .ok .success)
        else newmarkLoop e o t dt M res0 n (it + 1) C S (residue M C R (t + dt) s') s' := by
  set β := o.alpha * dt * dt with hβd
  set ζ := o.delta * dt with hζd
  have hm := ht.mass_nonneg
  have hu : ‖s.u - x (t + dt)‖ ≤ r := by
    have : 0 ≤ β * (2 * m * ‖residue M C R (t + dt) s‖) := by positivity
    linarith
  obtain ⟨S, i, lg, hS, h1⟩ := newmarkLoop_callbacks hcb hz (fun S => ∀ w, ‖S w‖ ≤ k * ‖w‖) res0 n it C' S' h
    (residue M C R (t + dt) s) s (ht.jac _ hτ _ hu)
  rw [show dt * dt * o.alpha = β by rw [hβd]; ring] at h1
  simp only [← hζd, ← hβd] at h1
  obtain ⟨h2, h3⟩ := ht.correct he hS hζ hβ hA hτ i s.u s.v s.a hu
  change ‖e.solve i (M + ζ • C + β • S) (residue M C R (t + dt) s)‖ ≤ 2 * m * ‖residue M C R (t + dt) s‖ at h2
  change ‖s.u + β • e.solve i (M + ζ • C + β • S) (residue M C R (t + dt) s) - x (t + dt)‖ ≤ r →
    ‖R (t + dt) (s.u + β • e.solve i (M + ζ • C + β • S) (residue M C R (t + dt) s)) -
      C (s.v + ζ • e.solve i (M + ζ • C + β • S) (residue M C R (t + dt) s)) -
      M (s.a + e.solve i (M + ζ • C + β • S) (residue M C R (t + dt) s))‖ ≤
    β * (L + k) * ‖e.solve i (M + ζ • C + β • S) (residue M C R (t + dt) s)‖ at h3
  generalize e.solve i (M + ζ • C + β • S) (residue M C R (t + dt) s) = d at h1 h2 h3
  have hd : ‖β • d‖ ≤ β * (2 * m * ‖residue M C R (t + dt) s‖) := by
    rw [norm_smul, Real.norm_of_nonneg hβ]; exact mul_le_mul_of_nonneg_left h2 hβ
  have hu1 : ‖s.u + β • d - x (t + dt)‖ ≤ ‖s.u - x (t + dt)‖ + β * (2 * m * ‖residue M C R (t + dt) s‖) := by
    rw [add_sub_right_comm]; exact (norm_add_le _ _).trans (add_le_add le_rfl hd)
  have h0 : 0 ≤ β * (2 * m * ‖residue M C R (t + dt) s‖) := by positivity
  have h4 := h3 (by linarith)
  refine ⟨S, d, lg, hS, h2, h4, ?_, h1⟩
  set s' : DSt ℝ V := { s with a := s.a + d, v := s.v + ζ • d, u := s.u + β • d, log := lg } with hs'
  have h6 : ‖residue M C R (t + dt) s'‖ ≤ 1 / 4 * ‖residue M C R (t + dt) s‖ := by
    have hb : 0 ≤ β * (L + k) := mul_nonneg hβ (add_nonneg ht.lip_nonneg ht.jac_nonneg)
    calc ‖residue M C R (t + dt) s'‖ ≤ β * (L + k) * (2 * m * ‖residue M C R (t + dt) s‖) :=
          h4.trans (mul_le_mul_of_nonneg_left h2 hb)
      _ = 2 * m * (β * (L + k)) * ‖residue M C R (t + dt) s‖ := by ring
      _ ≤ _ := mul_le_mul_of_nonneg_right hθ (norm_nonneg _)
  have h7 : 4 / 3 * β * (2 * m * ‖residue M C R (t + dt) s'‖) ≤
      4 / 3 * β * (2 * m * (1 / 4 * ‖residue M C R (t + dt) s‖)) := by gcongr
  have : ‖s'.u - x (t + dt)‖ ≤ _ := hu1
  linarith

/-- The iterations of Newmark: nothing is thrown, the vectors keep the relations of the method, and one iteration or more
reduces the residual by the factor `2 m β (L + k)`. -/
theorem newmarkLoop_near (hcb : Callbacks e M C R J) (hz : ¬ o.zeroInterval) (he : ExactSolver e)
    (ht : Moderate M C R J x a b r m c L k) (hζ : 0 ≤ o.delta * dt) (hβ : 0 ≤ o.alpha * dt * dt)
    (hA : m * (o.delta * dt * c + o.alpha * dt * dt * k) ≤ 1 / 2)
    (hθ : 2 * m * (o.alpha * dt * dt * (L + k)) ≤ 1 / 4) (hτ : t + dt ∈ Icc a b) (res0 : ℝ) (n : ℕ) :
    ∀ (it : ℕ) (C' S' : V →ₗ[ℝ] V) (_ : it = 0 ∨ C' = C ∧ ∀ w, ‖S' w‖ ≤ k * ‖w‖) (s : DSt ℝ V)
      (_ : ‖s.u - x (t + dt)‖ + 4 / 3 * (o.alpha * dt * dt) * (2 * m * ‖residue M C R (t + dt) s‖) ≤ r),
    ∃ d lg st, let q : DSt ℝ V := { s with
        a := s.a + d, v := s.v + (o.delta * dt) • d, u := s.u + (o.alpha * dt * dt) • d, log := lg }
      newmarkLoop e o t dt M res0 n it C' S' (residue M C R (t + dt) s) s = (q, .ok st) ∧
      ‖q.u - x (t + dt)‖ ≤ r ∧
      ‖residue M C R (t + dt) q‖ ≤
        (if n = 0 then 1 else 2 * m * (o.alpha * dt * dt * (L + k))) * ‖residue M C R (t + dt) s‖ := by
  have hm := ht.mass_nonneg
  have hb : 0 ≤ o.alpha * dt * dt * (L + k) := mul_nonneg hβ (add_nonneg ht.lip_nonneg ht.jac_nonneg)
  have near : ∀ s : DSt ℝ V,
      ‖s.u - x (t + dt)‖ + 4 / 3 * (o.alpha * dt * dt) * (2 * m * ‖residue M C R (t + dt) s‖) ≤ r →
      ‖s.u - x (t + dt)‖ ≤ r := fun s hs => by
    have : 0 ≤ o.alpha * dt * dt * (2 * m * ‖residue M C R (t + dt) s‖) := by positivity
    linarith
  induction n with
  | zero =>
    intro it C' S' h s hs
    exact ⟨0, s.log, .notConverged, by simp [newmarkLoop], by simpa using near s hs, by simp [residue]⟩
  | succ n ih =>
    intro it C' S' h s hs
    obtain ⟨S, d, lg, h1, h2, h3, h4, h5⟩ := newmarkLoop_one hcb hz he ht hζ hβ hA hθ hτ res0 n it C' S' h s hs
    set s' : DSt ℝ V := { s with
      a := s.a + d, v := s.v + (o.delta * dt) • d, u := s.u + (o.alpha * dt * dt) • d, log := lg } with hs'
    have h6 : ‖residue M C R (t + dt) s'‖ ≤
        2 * m * (o.alpha * dt * dt * (L + k)) * ‖residue M C R (t + dt) s‖ :=
      (h3.trans (mul_le_mul_of_nonneg_left h2 hb)).trans (le_of_eq (by ring))
    rw [if_neg (Nat.succ_ne_zero n)]
    by_cases hc : updNorm (e.norm d) (e.norm s'.a) < o.tolU ∧
        e.norm (residue M C R (t + dt) s') / res0 < o.tolF
    · rw [if_pos hc] at h5
      exact ⟨d, lg, .success, h5, near s' h4, h6⟩
    · rw [if_neg hc] at h5
      obtain ⟨d', lg', st, k1, k2, k3⟩ := ih (it + 1) C S (.inr ⟨rfl, h1⟩) s' h4
      have e1 : ({ s' with
            a := s'.a + d', v := s'.v + (o.delta * dt) • d', u := s'.u + (o.alpha * dt * dt) • d',
            log := lg' } : DSt ℝ V) =
          { s with
            a := s.a + (d + d'), v := s.v + (o.delta * dt) • (d + d'), u := s.u + (o.alpha * dt * dt) • (d + d'),
            log := lg' } := by
        simp only [hs', smul_add, add_assoc]
      rw [e1] at k1 k2 k3
      refine ⟨d + d', lg', st, h5.trans k1, k2, k3.trans ?_⟩
      split
      · rw [one_mul]; exact h6
      · refine (mul_le_mul_of_nonneg_right (hθ.trans (by norm_num : (1 / 4 : ℝ) ≤ 1)) (norm_nonneg _)).trans ?_
        rw [one_mul]; exact h6

/-- Two iterations are enough for tolerances that are not small compared to the steps. -/
theorem newmarkLoop_two (hcb : Callbacks e M C R J) (hz : ¬ o.zeroInterval) (he : ExactSolver e)
    (ht : Moderate M C R J x a b r m c L k) (hζ : 0 ≤ o.delta * dt) (hβ : 0 ≤ o.alpha * dt * dt)
    (hA : m * (o.delta * dt * c + o.alpha * dt * dt * k) ≤ 1 / 2)
    (hθ : 2 * m * (o.alpha * dt * dt * (L + k)) ≤ 1 / 4) (hτ : t + dt ∈ Icc a b) (hn : ∀ w, e.norm w = ‖w‖)
    (hU : 4 / 3 * (2 * m * (o.alpha * dt * dt * (L + k))) < o.tolU)
    (hF : (2 * m * (o.alpha * dt * dt * (L + k))) ^ 2 < o.tolF) (n : ℕ) (C' S' : V →ₗ[ℝ] V) (s : DSt ℝ V)
    (h0 : s.a = 0)
    (hs : ‖s.u - x (t + dt)‖ + 4 / 3 * (o.alpha * dt * dt) * (2 * m * ‖residue M C R (t + dt) s‖) ≤ r) :
    (newmarkLoop e o t dt M (nz (e.norm (residue M C R (t + dt) s))) (n + 2) 0 C' S' (residue M C R (t + dt) s) s).2 =
      .ok .success := by
  have hm := ht.mass_nonneg
  have hb : 0 ≤ o.alpha * dt * dt * (L + k) := mul_nonneg hβ (add_nonneg ht.lip_nonneg ht.jac_nonneg)
  set θ := 2 * m * (o.alpha * dt * dt * (L + k)) with hθd
  have hθ0 : 0 ≤ θ := by positivity
  obtain ⟨S, d, lg, h1, h2, h3, h4, h5⟩ := newmarkLoop_one hcb hz he ht hζ hβ hA hθ hτ
    (nz (e.norm (residue M C R (t + dt) s))) (n + 1) 0 C' S' (.inl rfl) s hs
  rw [h5]
  set s' : DSt ℝ V := { s with
    a := s.a + d, v := s.v + (o.delta * dt) • d, u := s.u + (o.alpha * dt * dt) • d, log := lg } with hs'
  split
  · rfl
  obtain ⟨S₂, d₂, lg₂, g1, g2, g3, g4, g5⟩ := newmarkLoop_one hcb hz he ht hζ hβ hA hθ hτ
    (nz (e.norm (residue M C R (t + dt) s))) n 1 C S (.inr ⟨rfl, h1⟩) s' h4
  rw [g5]
  set s₂ : DSt ℝ V := { s' with
    a := s'.a + d₂, v := s'.v + (o.delta * dt) • d₂, u := s'.u + (o.alpha * dt * dt) • d₂, log := lg₂ } with hs₂
  -- the residuals
  have k1 : ‖d₂‖ ≤ θ * ‖d‖ := by
    refine g2.trans ((mul_le_mul_of_nonneg_left h3 (by positivity)).trans (le_of_eq ?_))
    rw [hθd]; ring
  have k2 : ‖residue M C R (t + dt) s₂‖ ≤ θ ^ 2 * ‖residue M C R (t + dt) s‖ := by
    calc _ ≤ o.alpha * dt * dt * (L + k) * (θ * (2 * m * ‖residue M C R (t + dt) s‖)) := by
          refine g3.trans (mul_le_mul_of_nonneg_left (k1.trans ?_) hb)
          gcongr
      _ = θ ^ 2 * ‖residue M C R (t + dt) s‖ := by rw [hθd]; ring
  have ea : s₂.a = d + d₂ := by
    show s.a + d + d₂ = d + d₂
    rw [h0, zero_add]
  have k3 : 3 / 4 * ‖d‖ ≤ ‖s₂.a‖ := by
    have e1 : ‖d‖ ≤ ‖d + d₂‖ + ‖d₂‖ := by simpa using norm_sub_le (d + d₂) d₂
    rw [ea]
    have := mul_le_mul_of_nonneg_right hθ (norm_nonneg d)
    linarith
  rw [if_pos]
  constructor
  · rw [hn, hn]
    unfold updNorm
    split
    · rename_i hne
      have hpos : 0 < ‖s₂.a‖ := lt_of_le_of_ne (norm_nonneg _) (Ne.symm hne)
      refine lt_of_le_of_lt ((div_le_iff₀ hpos).2 ?_) hU
      calc ‖d₂‖ ≤ θ * ‖d‖ := k1
        _ = 4 / 3 * θ * (3 / 4 * ‖d‖) := by ring
        _ ≤ 4 / 3 * θ * ‖s₂.a‖ := mul_le_mul_of_nonneg_left k3 (by positivity)
    · rename_i hne
      have hz0 : ‖s₂.a‖ = 0 := not_not.1 hne
      have hd0 : ‖d‖ = 0 := le_antisymm (by linarith) (norm_nonneg _)
      rw [hd0, mul_zero] at k1
      exact lt_of_le_of_lt (k1.trans (by positivity)) hU
  · rw [hn, hn]
    by_cases hz0 : ‖residue M C R (t + dt) s‖ = 0
    · rw [hz0, mul_zero] at k2
      have : ‖residue M C R (t + dt) s₂‖ = 0 := le_antisymm k2 (norm_nonneg _)
      rw [this, zero_div]
      exact lt_of_le_of_lt (by positivity) hF
    · have hpos : 0 < ‖residue M C R (t + dt) s‖ := lt_of_le_of_ne (norm_nonneg _) (Ne.symm hz0)
      have : nz ‖residue M C R (t + dt) s‖ = ‖residue M C R (t + dt) s‖ := by simp [nz, hz0]
      rw [this]
      exact lt_of_le_of_lt ((div_le_iff₀ hpos).2 k2) hF

end

end GsSA.Dynamic
