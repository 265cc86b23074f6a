import Mathlib.LinearAlgebra.SesquilinearForm.Basic
import Verif.Dynamic.ConvergeProps
import Verif.Dynamic.Stability

/-!
# The implicit integrators converge in the energy norm, for any size of the steps (C133)
-/

set_option linter.unusedSectionVars false

namespace GsSA.Dynamic

open GsSA GsSA.Static Set
open GsSA.ALM (Act Err)

variable {V : Type} [NormedAddCommGroup V] [NormedSpace ℝ V]

/-- Mass and stiffness are symmetric and semidefinite, damping takes energy. -/
structure Passive (B : V →ₗ[ℝ] V →ₗ[ℝ] ℝ) (M C S : V →ₗ[ℝ] V) : Prop where
  comm : ∀ x y, B x y = B y x
  mass_symm : ∀ x y, B x (M y) = B (M x) y
  stiff_symm : ∀ x y, B x (S y) = B (S x) y
  mass_nonneg : ∀ x, 0 ≤ B x (M x)
  stiff_nonneg : ∀ x, 0 ≤ B x (S x)
  damp_nonneg : ∀ x, 0 ≤ B x (C x)

/-- The energy norm of a pair (displacements, velocities): `sqrt (v·Mv + u·Su)`. -/
noncomputable def energyNorm (B : V →ₗ[ℝ] V →ₗ[ℝ] ℝ) (M S : V →ₗ[ℝ] V) (w : V × V) : ℝ :=
  √(B w.2 (M w.2) + B w.1 (S w.1))

theorem energyNorm_nonneg (B : V →ₗ[ℝ] V →ₗ[ℝ] ℝ) (M S : V →ₗ[ℝ] V) (w : V × V) : 0 ≤ energyNorm B M S w :=
  Real.sqrt_nonneg _

section norm

variable {B : V →ₗ[ℝ] V →ₗ[ℝ] ℝ} {M C S : V →ₗ[ℝ] V} (hp : Passive B M C S)
include hp

theorem Passive.eform_nonneg (w : V × V) : 0 ≤ eform B M S w w := by
  rw [eform_apply]; exact add_nonneg (hp.mass_nonneg _) (hp.stiff_nonneg _)

theorem Passive.sq (w : V × V) : energyNorm B M S w ^ 2 = eform B M S w w :=
  Real.sq_sqrt (hp.eform_nonneg w)

theorem Passive.cauchy (z w : V × V) : eform B M S z w ≤ energyNorm B M S z * energyNorm B M S w := by
  refine abs_le_of_sq_le_sq' ?_ (mul_nonneg (energyNorm_nonneg B M S z) (energyNorm_nonneg B M S w)) |>.2
  rw [mul_pow, hp.sq, hp.sq]
  have h := LinearMap.BilinForm.apply_mul_apply_le_of_forall_zero_le (eform B M S) hp.eform_nonneg z w
  rwa [← eform_comm hp.comm hp.mass_symm hp.stiff_symm z w, ← pow_two] at h

theorem Passive.gauge [FiniteDimensional ℝ V] : Gauge (energyNorm B M S) := by
  intro z
  by_cases hz : energyNorm B M S z = 0
  · exact ⟨0, by simp [hz], fun x => by simpa using energyNorm_nonneg B M S x⟩
  · have hz' : 0 < energyNorm B M S z := lt_of_le_of_ne (Real.sqrt_nonneg _) (Ne.symm hz)
    refine ⟨(energyNorm B M S z)⁻¹ • LinearMap.toContinuousLinearMap (eform B M S z), ?_, fun x => ?_⟩
    · show (energyNorm B M S z)⁻¹ * eform B M S z z = _
      rw [← hp.sq]
      field_simp
    · show (energyNorm B M S z)⁻¹ * eform B M S z x ≤ _
      rw [inv_mul_le_iff₀ hz']
      exact hp.cauchy z x

theorem Passive.neg (w : V × V) : energyNorm B M S (-w) = energyNorm B M S w := by
  simp [energyNorm]

/-- A backward step with defect `ρ`. -/
theorem Passive.backward {x z ρ : V × V} (h : eform B M S x (x - z - ρ) ≤ 0) :
    energyNorm B M S x ≤ energyNorm B M S z + energyNorm B M S ρ := by
  rw [map_sub, map_sub, ← hp.sq] at h
  have h1 := hp.cauchy x z
  have h2 := hp.cauchy x ρ
  have h3 : 0 ≤ energyNorm B M S x := Real.sqrt_nonneg _
  have h4 : 0 ≤ energyNorm B M S z := Real.sqrt_nonneg _
  have h5 : 0 ≤ energyNorm B M S ρ := Real.sqrt_nonneg _
  by_contra hc
  push Not at hc
  have h6 : 0 < energyNorm B M S x := by linarith
  nlinarith [mul_lt_mul_of_pos_left hc h6]

/-- A step with the midpoint slope and defect `ρ`. -/
theorem Passive.midpoint {x z ρ : V × V} (h : eform B M S (x + z) (x - z - ρ) ≤ 0) :
    energyNorm B M S x ≤ energyNorm B M S z + energyNorm B M S ρ := by
  have hc := eform_comm hp.comm hp.mass_symm hp.stiff_symm x z
  have h1 := hp.cauchy x ρ
  have h2 := hp.cauchy z ρ
  simp only [map_sub, map_add, LinearMap.add_apply] at h
  have hx := hp.sq x
  have hz := hp.sq z
  have h3 : 0 ≤ energyNorm B M S x := Real.sqrt_nonneg _
  have h4 : 0 ≤ energyNorm B M S z := Real.sqrt_nonneg _
  have h5 : 0 ≤ energyNorm B M S ρ := Real.sqrt_nonneg _
  by_contra hn
  push Not at hn
  have h6 : 0 < energyNorm B M S x + energyNorm B M S z := by linarith
  nlinarith [mul_lt_mul_of_pos_left hn h6]

end norm

/-- **C133**, implicit Euler on a linear structure: first order in the energy norm, whatever the steps. -/
theorem C133_implicit [FiniteDimensional ℝ V] (e : Env ℝ V) (o : Opts ℝ) (M C S : V →ₗ[ℝ] V) (F : ℝ → V)
    (hl : Linear e M C S) (hf : Forced e F) (B : V →ₗ[ℝ] V →ₗ[ℝ] ℝ) (hp : Passive B M C S)
    (x : ℕ → ℝ → V) (a b : ℝ) (hx : Motion M C (fun t u => F t - S u) x 3 a b) (Y : ℝ)
    (hY : ∀ t ∈ Icc a b, energyNorm B M S (x 2 t, x 3 t) ≤ Y)
    (h : ℝ) (l : List ℝ) (hdt : ∀ dt ∈ l, 0 < dt ∧ dt ≤ h)
    (hsol : ∀ dt ∈ l, BlockSolves e dt S (M + dt • C)) (s : DSt ℝ V)
    (ha : a ≤ s.time) (hb : s.time + l.sum ≤ b) :
    let q := (steps none (integrate .implicitEuler false e o) l s).1
    let T := s.time + l.sum
    q.time = T ∧ energyNorm B M S ((q.u, q.v) - (x 0 T, x 1 T)) ≤
      energyNorm B M S ((s.u, s.v) - (x 0 s.time, x 1 s.time)) + Y / 2 * l.sum * h := by
  have hsum : 0 ≤ l.sum := List.sum_nonneg fun x hx => (hdt x hx).1.le
  have hY0 : 0 ≤ Y := (Real.sqrt_nonneg _).trans (hY s.time ⟨ha, by linarith⟩)
  have := accumulate (f := integrate .implicitEuler false e o) (Inv := fun _ => True) (N := energyNorm B M S)
    (y := pair x 0) (ℓ := 0) (c := Y / 2) (p := 1) (a := a) (b := b) (by linarith) le_rfl l hdt
    (fun dt hd s _ ha hb => by
      obtain ⟨q, r, h1, h2, h3, h4⟩ := C60_equations e o M C S F dt s hl hf (hsol dt hd)
      refine ⟨q, r, h1, trivial, h4, ?_⟩
      have hd0 := (hdt dt hd).1.le
      have k1 := backward_le hp.gauge hp.neg hx.smooth.pair hY ha hd0 hb
      have k2 := hx.balance (s.time + dt) ⟨by linarith, hb⟩
      have k3 := hp.backward (x := (q.u, q.v) - pair x 0 (s.time + dt)) (z := (s.u, s.v) - pair x 0 s.time)
        (ρ := -(pair x 0 (s.time + dt) - pair x 0 s.time - dt • pair x 1 (s.time + dt))) (by
          have hdamp := hp.damp_nonneg (q.v - x 1 (s.time + dt))
          set eu := q.u - x 0 (s.time + dt) with heu
          set ev := q.v - x 1 (s.time + dt) with hev
          have a1 : M (ev - (s.v - x 1 s.time) + (x 1 (s.time + dt) - x 1 s.time - dt • x 2 (s.time + dt))) =
              -(dt • C ev) - dt • S eu := by
            have b1 : M (q.v - s.v) = dt • F (s.time + dt) - dt • C q.v - dt • S q.u := by
              rw [← h3]; abel
            have b2 : F (s.time + dt) = M (x 2 (s.time + dt)) + C (x 1 (s.time + dt)) + S (x 0 (s.time + dt)) := by
              rw [k2]; abel
            rw [b2] at b1
            have b3 : ev - (s.v - x 1 s.time) + (x 1 (s.time + dt) - x 1 s.time - dt • x 2 (s.time + dt)) =
                (q.v - s.v) - dt • x 2 (s.time + dt) := by rw [hev]; abel
            rw [b3, map_sub, b1, heu, hev]
            simp only [map_sub, map_smul]
            module
          have a2 : eu - (s.u - x 0 s.time) + (x 0 (s.time + dt) - x 0 s.time - dt • x 1 (s.time + dt)) =
              dt • ev := by
            rw [heu, hev, h2]
            module
          show eform B M S (eu, ev) ((eu, ev) - (s.u - x 0 s.time, s.v - x 1 s.time) -
            -(x 0 (s.time + dt) - x 0 s.time - dt • x 1 (s.time + dt),
              x 1 (s.time + dt) - x 1 s.time - dt • x 2 (s.time + dt))) ≤ 0
          rw [eform_apply, sub_neg_eq_add]
          simp only [Prod.snd_add, Prod.fst_add, Prod.snd_sub, Prod.fst_sub]
          rw [a1, a2]
          simp only [map_sub, map_neg, map_smul, smul_eq_mul]
          have c1 := hp.stiff_symm eu ev
          have c2 := hp.comm (S eu) ev
          nlinarith [mul_nonneg hd0 hdamp])
      rw [hp.neg] at k3
      rw [zero_mul, Real.exp_zero, one_mul]
      refine k3.trans (add_le_add le_rfl (k1.trans (le_of_eq (by ring)))))
    s trivial ha hb
  simpa [pair] using this

/-- One Newmark step with the parameters 1/4 and 1/2 from a state in equilibrium. -/
theorem newmark_error [FiniteDimensional ℝ V] {o : Opts ℝ} {M C S : V →ₗ[ℝ] V} {F : ℝ → V}
    (hα : o.alpha = 1 / 4) (hδ : o.delta = 1 / 2) {B : V →ₗ[ℝ] V →ₗ[ℝ] ℝ} (hp : Passive B M C S)
    {x : ℕ → ℝ → V} {a b Y : ℝ} (hx : Motion M C (fun t u => F t - S u) x 4 a b)
    (hY : ∀ t ∈ Icc a b, energyNorm B M S (x 3 t, x 4 t) ≤ Y) {dt : ℝ} (hd0 : 0 ≤ dt) {s q : DSt ℝ V}
    (hs : M s.a + C s.v + S s.u = F s.time) (ha : a ≤ s.time) (hb : s.time + dt ≤ b)
    (h2 : q.u = s.u + dt • s.v + (dt ^ 2) • ((1 / 2 - o.alpha) • s.a + o.alpha • q.a))
    (h3 : q.v = s.v + dt • ((1 - o.delta) • s.a + o.delta • q.a))
    (h4 : M q.a + C q.v + S q.u = F (s.time + dt)) :
    energyNorm B M S ((q.u, q.v) - pair x 0 (s.time + dt)) ≤
      energyNorm B M S ((s.u, s.v) - pair x 0 s.time) + Y / 12 * dt ^ 3 := by
  have k1 := trapezoid_le hp.gauge hp.neg hx.smooth.pair hY ha hd0 hb
  have k2 := hx.balance (s.time + dt) ⟨by linarith, hb⟩
  have k0 := hx.balance s.time ⟨ha, by linarith⟩
  have k3 := hp.midpoint (x := (q.u, q.v) - pair x 0 (s.time + dt)) (z := (s.u, s.v) - pair x 0 s.time)
    (ρ := -(pair x 0 (s.time + dt) - pair x 0 s.time -
      (dt / 2) • (pair x 1 s.time + pair x 1 (s.time + dt)))) (by
      have hdamp := hp.damp_nonneg ((q.v - x 1 (s.time + dt)) + (s.v - x 1 s.time))
      set eu := q.u - x 0 (s.time + dt) with heu
      set ev := q.v - x 1 (s.time + dt) with hev
      set zu := s.u - x 0 s.time with hzu
      set zv := s.v - x 1 s.time with hzv
      have a0 : M (s.a + q.a - (x 2 s.time + x 2 (s.time + dt))) = -C (ev + zv) - S (eu + zu) := by
        have b1 : M s.a = F s.time - C s.v - S s.u := by rw [← hs]; abel
        have b2 : M q.a = F (s.time + dt) - C q.v - S q.u := by rw [← h4]; abel
        have b3 : M (x 2 s.time) = F s.time - S (x 0 s.time) - C (x 1 s.time) := by rw [← k0]; abel
        have b4 : M (x 2 (s.time + dt)) = F (s.time + dt) - S (x 0 (s.time + dt)) - C (x 1 (s.time + dt)) := by
          rw [← k2]; abel
        rw [heu, hev, hzu, hzv]
        simp only [map_add, map_sub]
        rw [b1, b2, b3, b4]
        abel
      have a1 : ev - zv + (x 1 (s.time + dt) - x 1 s.time - (dt / 2) • (x 2 s.time + x 2 (s.time + dt))) =
          (dt / 2) • (s.a + q.a - (x 2 s.time + x 2 (s.time + dt))) := by
        rw [hev, hzv, h3, hδ]
        module
      have a2 : eu - zu + (x 0 (s.time + dt) - x 0 s.time - (dt / 2) • (x 1 s.time + x 1 (s.time + dt))) =
          (dt / 2) • (ev + zv) := by
        rw [heu, hev, hzu, hzv, h2, h3, hα, hδ]
        module
      show eform B M S ((eu, ev) + (zu, zv)) ((eu, ev) - (zu, zv) -
        -(x 0 (s.time + dt) - x 0 s.time - (dt / 2) • (x 1 s.time + x 1 (s.time + dt)),
          x 1 (s.time + dt) - x 1 s.time - (dt / 2) • (x 2 s.time + x 2 (s.time + dt)))) ≤ 0
      rw [eform_apply, sub_neg_eq_add]
      simp only [Prod.snd_add, Prod.fst_add, Prod.snd_sub, Prod.fst_sub]
      rw [a1, a2, map_smul, a0]
      generalize ev + zv = W at *
      generalize eu + zu = U at *
      simp only [map_sub, map_neg, map_smul, smul_eq_mul]
      have c1 := hp.stiff_symm U W
      have c2 := hp.comm (S U) W
      nlinarith [mul_nonneg hd0 hdamp])
  rw [hp.neg] at k3
  exact k3.trans (add_le_add le_rfl (k1.trans (le_of_eq (by ring))))

/-- **C133**, Newmark with the parameters 1/4 and 1/2 on a linear structure, started in equilibrium: second
order in the energy norm, whatever the steps. -/
theorem C133_newmark [FiniteDimensional ℝ V] (e : Env ℝ V) (o : Opts ℝ) (M C S : V →ₗ[ℝ] V) (F : ℝ → V)
    (hl : Linear e M C S) (hf : Forced e F) (hα : o.alpha = 1 / 4) (hδ : o.delta = 1 / 2)
    (B : V →ₗ[ℝ] V →ₗ[ℝ] ℝ) (hp : Passive B M C S)
    (x : ℕ → ℝ → V) (a b : ℝ) (hx : Motion M C (fun t u => F t - S u) x 4 a b) (Y : ℝ)
    (hY : ∀ t ∈ Icc a b, energyNorm B M S (x 3 t, x 4 t) ≤ Y)
    (h : ℝ) (l : List ℝ) (hdt : ∀ dt ∈ l, 0 < dt ∧ dt ≤ h)
    (hsol : ∀ dt ∈ l, Solves e (M + (o.delta * dt) • C + (dt * dt * o.alpha) • S)) (s : DSt ℝ V)
    (hs : M s.a + C s.v + S s.u = F s.time) (ha : a ≤ s.time) (hb : s.time + l.sum ≤ b) :
    let q := (steps none (integrate .newmark false e o) l s).1
    let T := s.time + l.sum
    q.time = T ∧ energyNorm B M S ((q.u, q.v) - (x 0 T, x 1 T)) ≤
      energyNorm B M S ((s.u, s.v) - (x 0 s.time, x 1 s.time)) + Y / 12 * l.sum * h ^ 2 := by
  have hsum : 0 ≤ l.sum := List.sum_nonneg fun x hx => (hdt x hx).1.le
  have hY0 : 0 ≤ Y := (Real.sqrt_nonneg _).trans (hY s.time ⟨ha, by linarith⟩)
  have := accumulate (f := integrate .newmark false e o) (Inv := fun s => M s.a + C s.v + S s.u = F s.time)
    (N := energyNorm B M S)
    (y := pair x 0) (ℓ := 0) (c := Y / 12) (p := 2) (a := a) (b := b) (by linarith) le_rfl l hdt
    (fun dt hd s hs ha hb => by
      obtain ⟨q, r, h1, h2, h3, h4, h5⟩ := C57_step e o M C S F dt s hl hf (hsol dt hd)
      refine ⟨q, r, h1, by rw [h4, h5], h5, ?_⟩
      rw [zero_mul, Real.exp_zero, one_mul]
      exact newmark_error hα hδ hp hx hY (hdt dt hd).1.le hs ha hb h2 h3 h4)
    s hs ha hb
  simpa [pair] using this

/-! ## Bathe -/

/-- The rates of the errors do no work. -/
theorem Passive.rate_nonpos {B : V →ₗ[ℝ] V →ₗ[ℝ] ℝ} {M C S : V →ₗ[ℝ] V} (hp : Passive B M C S) {u v a : V}
    (h : M a + C v + S u = 0) : eform B M S (u, v) (v, a) ≤ 0 := by
  have h1 : M a = -C v - S u := by
    rw [← sub_eq_zero]; simpa [sub_eq_add_neg, add_comm, add_left_comm, add_assoc] using h
  rw [eform_apply]
  simp only
  rw [h1, map_sub, map_neg]
  have c1 := hp.stiff_symm u v
  have c2 := hp.comm (S u) v
  have c3 := hp.damp_nonneg v
  linarith

theorem Passive.homogeneous {B : V →ₗ[ℝ] V →ₗ[ℝ] ℝ} {M C S : V →ₗ[ℝ] V} (hp : Passive B M C S) {c : ℝ}
    (hc : 0 ≤ c) (w : V × V) : energyNorm B M S (c • w) = c * energyNorm B M S w := by
  have h1 : energyNorm B M S (c • w) ^ 2 = (c * energyNorm B M S w) ^ 2 := by
    rw [hp.sq, mul_pow, hp.sq]
    simp only [map_smul, LinearMap.smul_apply, smul_eq_mul]
    ring
  exact (pow_left_inj₀ (energyNorm_nonneg _ _ _ _) (mul_nonneg hc (energyNorm_nonneg _ _ _ _))
    two_ne_zero).1 h1

/-- The defect of the exact motion in the second stage. -/
theorem bathe_defect [FiniteDimensional ℝ V] {B : V →ₗ[ℝ] V →ₗ[ℝ] ℝ} {M C S : V →ₗ[ℝ] V}
    (hp : Passive B M C S) {y : ℕ → ℝ → V × V} {a b Y g h t : ℝ} (hy : Smooth y 3 a b)
    (hY : ∀ τ ∈ Icc a b, energyNorm B M S (y 3 τ) ≤ Y) (hg0 : 0 < g) (hg1 : g < 1) (hh : 0 ≤ h)
    (ha : a ≤ t) (hb : t + h ≤ b) :
    energyNorm B M S ((g * (2 - g)) • y 0 (t + h) - y 0 (t + g * h) + (1 - g) ^ 2 • y 0 t -
      (g * (1 - g) * h) • y 1 (t + h)) ≤
      Y * h ^ 3 * (g * (2 - g) / 6 + g ^ 3 / 6 + g * (1 - g) / 2) := by
  have hgh : 0 ≤ g * h := mul_nonneg hg0.le hh
  have hgh' : g * h ≤ h := by nlinarith
  have b1 := taylor_le hp.gauge 3 hy hY ha hh hb
  have b2 := taylor_le hp.gauge 3 hy hY ha hgh (by linarith)
  have b3 := taylor_le hp.gauge 2 hy.tail (c := Y) hY ha hh hb
  have c1 := hp.homogeneous (c := g * (2 - g)) (by nlinarith) (y 0 (t + h) - taylor y 3 t h)
  have c3 := hp.homogeneous (c := g * (1 - g) * h)
    (mul_nonneg (mul_nonneg hg0.le (by linarith)) hh)
    (y (0 + 1) (t + h) - taylor (fun k => y (k + 1)) 2 t h)
  have e1 : (g * (2 - g)) • y 0 (t + h) - y 0 (t + g * h) + (1 - g) ^ 2 • y 0 t -
      (g * (1 - g) * h) • y 1 (t + h) =
      (g * (2 - g)) • (y 0 (t + h) - taylor y 3 t h) + -(y 0 (t + g * h) - taylor y 3 t (g * h)) +
        -((g * (1 - g) * h) • (y (0 + 1) (t + h) - taylor (fun k => y (k + 1)) 2 t h)) := by
    simp only [taylor, Finset.sum_range_succ, Finset.sum_range_zero, Nat.factorial]
    push_cast
    module
  rw [e1]
  refine (hp.gauge.add_le _ _).trans ((add_le_add (hp.gauge.add_le _ _) le_rfl).trans ?_)
  rw [hp.neg, hp.neg, c1, c3]
  simp only [Nat.factorial] at b1 b2 b3
  push_cast at b1 b2 b3
  have d1 := mul_le_mul_of_nonneg_left b1 (show 0 ≤ g * (2 - g) by nlinarith)
  have d3 := mul_le_mul_of_nonneg_left b3
    (show 0 ≤ g * (1 - g) * h from mul_nonneg (mul_nonneg hg0.le (by linarith)) hh)
  refine (add_le_add (add_le_add d1 b2) d3).trans (le_of_eq ?_)
  ring

/-- **C133**, Bathe with the parameters 1/4 and 1/2 on a linear structure, started in equilibrium: second order
in the energy norm, whatever the steps. -/
theorem C133_bathe [FiniteDimensional ℝ V] (e : Env ℝ V) (o : Opts ℝ) (M C S : V →ₗ[ℝ] V) (F : ℝ → V)
    (hl : Linear e M C S) (hf : Forced e F) (hα : o.alpha = 1 / 4) (hδ : o.delta = 1 / 2)
    (hg0 : 0 < o.gamma) (hg1 : o.gamma < 1)
    (B : V →ₗ[ℝ] V →ₗ[ℝ] ℝ) (hp : Passive B M C S) (hC : ∀ x y, B x (C y) = B (C x) y)
    (x : ℕ → ℝ → V) (a b : ℝ) (hx : Motion M C (fun t u => F t - S u) x 4 a b) (Y : ℝ)
    (hY : ∀ t ∈ Icc a b, energyNorm B M S (x 3 t, x 4 t) ≤ Y)
    (h : ℝ) (l : List ℝ) (hdt : ∀ dt ∈ l, 0 < dt ∧ dt ≤ h)
    (hs1 : ∀ dt ∈ l, Solves e (M + (o.delta * (o.gamma * dt)) • C +
      ((o.gamma * dt) * (o.gamma * dt) * o.alpha) • S))
    (hs2 : ∀ dt ∈ l, Solves e (S + (((2 - o.gamma) / ((1 - o.gamma) * dt)) ^ 2) • M +
      ((2 - o.gamma) / ((1 - o.gamma) * dt)) • C)) (s : DSt ℝ V)
    (hs : M s.a + C s.v + S s.u = F s.time) (ha : a ≤ s.time) (hb : s.time + l.sum ≤ b) :
    let q := (steps none (integrate .bathe false e o) l s).1
    let T := s.time + l.sum
    let c := Y * (3 * o.gamma ^ 2 - 8 * o.gamma + 10) / (12 * (2 - o.gamma))
    q.time = T ∧ energyNorm B M S ((q.u, q.v) - (x 0 T, x 1 T)) ≤
      energyNorm B M S ((s.u, s.v) - (x 0 s.time, x 1 s.time)) + c * l.sum * h ^ 2 := by
  intro q T c
  have hsum : 0 ≤ l.sum := List.sum_nonneg fun x hx => (hdt x hx).1.le
  have hY0 : 0 ≤ Y := (Real.sqrt_nonneg _).trans (hY s.time ⟨ha, by linarith⟩)
  have hg2 : 0 < 2 - o.gamma := by linarith
  have hc : 0 ≤ c := div_nonneg (mul_nonneg hY0 (by nlinarith)) (by linarith)
  have := accumulate (f := integrate .bathe false e o) (Inv := fun s => M s.a + C s.v + S s.u = F s.time)
    (N := energyNorm B M S)
    (y := pair x 0) (ℓ := 0) (c := c) (p := 2) (a := a) (b := b) hc le_rfl l hdt
    (fun dt hd s hs ha hb => by
      have hd0 := (hdt dt hd).1
      set g := o.gamma with hg
      have hgd : 0 ≤ g * dt := mul_nonneg hg0.le hd0.le
      have hgd' : g * dt ≤ dt := by nlinarith
      -- the step from the state and the step from the exact motion
      set s1 : DSt ℝ V := { s with u := x 0 s.time, v := x 1 s.time, a := x 2 s.time } with hs1'
      have bal : ∀ t ∈ Icc a b, M (x 2 t) + C (x 1 t) + S (x 0 t) = F t := fun t ht => by
        rw [hx.balance t ht]; abel
      have hst : M s1.a + C s1.v + S s1.u = F s1.time := bal s.time ⟨ha, by linarith⟩
      obtain ⟨q0, r0, p0, r0', a1, a2, a3, a4, ⟨b, c', hb1, hb2, hb3⟩, ⟨d, d', hc1, hc2, hc3⟩⟩ :=
        C63_step e o M C S F dt s hl hf hd0.ne' hg0.ne' hg1.ne (hs2 dt hd)
      obtain ⟨q1, r1, p1, r1', A1, A2, A3, A4, ⟨b', c'', Hb1, Hb2, Hb3⟩, ⟨D, D', Hc1, Hc2, Hc3⟩⟩ :=
        C63_step e o M C S F dt s1 hl hf hd0.ne' hg0.ne' hg1.ne (hs2 dt hd)
      obtain ⟨p0', _, k1, k2, k3, k4, -⟩ := C57_step e o M C S F (g * dt) s hl hf (hs1 dt hd)
      obtain ⟨p1', _, K1, K2, K3, K4, -⟩ := C57_step e o M C S F (g * dt) s1 hl hf (hs1 dt hd)
      rw [← hg, k1] at a2
      rw [← hg, K1] at A2
      obtain rfl : p0' = p0 := congrArg Prod.fst a2
      obtain rfl : p1' = p1 := congrArg Prod.fst A2
      refine ⟨q0, r0, a1, by rw [a3, a4], a4, ?_⟩
      rw [zero_mul, Real.exp_zero, one_mul]
      -- the second stage
      have e2 : (1 - g) ^ 2 • s.pt - p0'.pt + (g * (2 - g)) • q0.pt = (g * (1 - g) * dt) • q0.rate := by
        have z1 : (1 - g) ^ 2 • s.u - p0'.u + (g * (2 - g)) • q0.u = (g * (1 - g) * dt) • q0.v := by
          rw [hb1, hb2, hb3]; module
        have z2 : (1 - g) ^ 2 • s.v - p0'.v + (g * (2 - g)) • q0.v = (g * (1 - g) * dt) • q0.a := by
          rw [hc1, hc2, hc3]; module
        exact Prod.ext (by simpa [DSt.pt, DSt.rate] using z1) (by simpa [DSt.pt, DSt.rate] using z2)
      have E2 : (1 - g) ^ 2 • s1.pt - p1'.pt + (g * (2 - g)) • q1.pt = (g * (1 - g) * dt) • q1.rate := by
        have z1 : (1 - g) ^ 2 • s1.u - p1'.u + (g * (2 - g)) • q1.u = (g * (1 - g) * dt) • q1.v := by
          rw [Hb1, Hb2, Hb3]; module
        have z2 : (1 - g) ^ 2 • s1.v - p1'.v + (g * (2 - g)) • q1.v = (g * (1 - g) * dt) • q1.a := by
          rw [Hc1, Hc2, Hc3]; module
        exact Prod.ext (by simpa [DSt.pt, DSt.rate] using z1) (by simpa [DSt.pt, DSt.rate] using z2)
      have e1 : p0'.pt - s.pt = (g * dt / 2) • (s.rate + p0'.rate) := by
        have z1 : p0'.v - s.v = (g * dt / 2) • (s.a + p0'.a) := by rw [k3, hδ]; module
        have z2 : p0'.u - s.u = (g * dt / 2) • (s.v + p0'.v) := by rw [k2, k3, hα, hδ]; module
        exact Prod.ext (by simpa [DSt.pt, DSt.rate] using z2) (by simpa [DSt.pt, DSt.rate] using z1)
      have E1 : p1'.pt - s1.pt = (g * dt / 2) • (s1.rate + p1'.rate) := by
        have z1 : p1'.v - s1.v = (g * dt / 2) • (s1.a + p1'.a) := by rw [K3, hδ]; module
        have z2 : p1'.u - s1.u = (g * dt / 2) • (s1.v + p1'.v) := by rw [K2, K3, hα, hδ]; module
        exact Prod.ext (by simpa [DSt.pt, DSt.rate] using z2) (by simpa [DSt.pt, DSt.rate] using z1)
      -- the difference of the two steps
      have contract : energyNorm B M S ((q0.u, q0.v) - (q1.u, q1.v)) ≤
          energyNorm B M S ((s.u, s.v) - pair x 0 s.time) := by
        have hzero : ∀ {u v w u' v' w' f : V}, M w + C v + S u = f → M w' + C v' + S u' = f →
            M (w - w') + C (v - v') + S (u - u') = 0 := by
          intro u v w u' v' w' f h1 h2
          have : M (w - w') + C (v - v') + S (u - u') = (M w + C v + S u) - (M w' + C v' + S u') := by
            simp only [map_sub]; abel
          rw [this, h1, h2, sub_self]
        have key := bathe_decrease (s := DSt.init (s.u - s1.u) (s.v - s1.v) (s.a - s1.a))
          (p := DSt.init (p0'.u - p1'.u) (p0'.v - p1'.v) (p0'.a - p1'.a))
          (q := DSt.init (q0.u - q1.u) (q0.v - q1.v) (q0.a - q1.a)) B hg0 hg1 hd0 hp.comm hC
          hp.mass_nonneg hp.stiff_nonneg hp.damp_nonneg
          (bathe_relations B hp.comm hp.mass_symm hp.stiff_symm hC (hzero hs hst) (hzero k4 K4) (hzero a3 A3)
            (by
              have := congrArg₂ (· - ·) e1 E1
              have z : (p0'.pt - s.pt) - (p1'.pt - s1.pt) = (p0'.pt - p1'.pt) - (s.pt - s1.pt) := by abel
              rw [z, ← smul_sub] at this
              refine this.trans ?_
              congr 1
              show s.rate + p0'.rate - (s1.rate + p1'.rate) = (s.rate - s1.rate) + (p0'.rate - p1'.rate)
              abel)
            (by
              have := congrArg₂ (· - ·) e2 E2
              rw [← smul_sub] at this
              refine Eq.trans ?_ this
              show (1 - g) ^ 2 • (s.pt - s1.pt) - (p0'.pt - p1'.pt) + (g * (2 - g)) • (q0.pt - q1.pt) = _
              module))
        exact Real.sqrt_le_sqrt key
      -- the local error
      have first : energyNorm B M S ((p1'.u, p1'.v) - pair x 0 (s.time + g * dt)) ≤ Y / 12 * (g * dt) ^ 3 := by
        have := newmark_error (s := s1) (q := p1') hα hδ hp hx hY hgd hst ha
          (show s.time + g * dt ≤ _ by linarith) K2 K3 K4
        have z : ((s1.u, s1.v) - pair x 0 s1.time : V × V) = 0 := sub_self _
        rw [z, hp.gauge.zero_le, zero_add] at this
        exact this
      have def2 := bathe_defect (t := s.time) hp hx.smooth.pair hY hg0 hg1 hd0.le ha hb
      have second := hp.backward (x := (g * (2 - g)) • ((q1.u, q1.v) - pair x 0 (s.time + dt)))
        (z := (p1'.u, p1'.v) - pair x 0 (s.time + g * dt))
        (ρ := -((g * (2 - g)) • pair x 0 (s.time + dt) - pair x 0 (s.time + g * dt) +
          (1 - g) ^ 2 • pair x 0 s.time - (g * (1 - g) * dt) • pair x 1 (s.time + dt))) (by
          have z1 : (g * (2 - g)) • ((q1.u, q1.v) - pair x 0 (s.time + dt)) -
              ((p1'.u, p1'.v) - pair x 0 (s.time + g * dt)) -
              -((g * (2 - g)) • pair x 0 (s.time + dt) - pair x 0 (s.time + g * dt) +
                (1 - g) ^ 2 • pair x 0 s.time - (g * (1 - g) * dt) • pair x 1 (s.time + dt)) =
              (g * (1 - g) * dt) • (q1.v - x 1 (s.time + dt), q1.a - x 2 (s.time + dt)) := by
            have z2 : (q1.v - x 1 (s.time + dt), q1.a - x 2 (s.time + dt)) =
              q1.rate - pair x 1 (s.time + dt) := rfl
            rw [z2, smul_sub (g * (1 - g) * dt) q1.rate, ← E2]
            show (g * (2 - g)) • (q1.pt - pair x 0 (s.time + dt)) - (p1'.pt - pair x 0 (s.time + g * dt)) - _ =
              (1 - g) ^ 2 • pair x 0 s.time - p1'.pt + (g * (2 - g)) • q1.pt - _
            module
          rw [z1, map_smul, map_smul, LinearMap.smul_apply, smul_eq_mul, smul_eq_mul]
          have z3 : eform B M S ((q1.u, q1.v) - pair x 0 (s.time + dt))
              (q1.v - x 1 (s.time + dt), q1.a - x 2 (s.time + dt)) ≤ 0 := by
            refine hp.rate_nonpos (u := q1.u - x 0 (s.time + dt)) (v := q1.v - x 1 (s.time + dt)) ?_
            have z4 : M (q1.a - x 2 (s.time + dt)) + C (q1.v - x 1 (s.time + dt)) + S (q1.u - x 0 (s.time + dt)) =
                (M q1.a + C q1.v + S q1.u) -
                  (M (x 2 (s.time + dt)) + C (x 1 (s.time + dt)) + S (x 0 (s.time + dt))) := by
              simp only [map_sub]; abel
            rw [z4, bal _ ⟨by linarith, hb⟩, A3]
            exact sub_self _
          have z5 : 0 ≤ g * (1 - g) * dt := mul_nonneg (mul_nonneg hg0.le (by linarith)) hd0.le
          have z6 : 0 ≤ g * (2 - g) := by nlinarith
          exact mul_nonpos_of_nonneg_of_nonpos z5 (mul_nonpos_of_nonneg_of_nonpos z6 z3))
      rw [hp.neg, hp.homogeneous (show 0 ≤ g * (2 - g) by nlinarith)] at second
      have hpos : 0 < g * (2 - g) := mul_pos hg0 hg2
      have loc : energyNorm B M S ((q1.u, q1.v) - pair x 0 (s.time + dt)) ≤ c * dt ^ 3 := by
        refine le_of_mul_le_mul_left (second.trans ((add_le_add first def2).trans (le_of_eq ?_))) hpos
        show _ = g * (2 - g) * (Y * (3 * g ^ 2 - 8 * g + 10) / (12 * (2 - g)) * dt ^ 3)
        field_simp
        ring
      have split : (q0.u, q0.v) - pair x 0 (s.time + dt) =
          ((q0.u, q0.v) - (q1.u, q1.v)) + ((q1.u, q1.v) - pair x 0 (s.time + dt)) := by abel
      rw [split]
      exact (hp.gauge.add_le _ _).trans (add_le_add contract loc))
    s hs ha hb
  rw [zero_mul, Real.exp_zero, one_mul] at this
  exact this

/-! ## The oscillator -/

theorem osc_passive : Passive (LinearMap.mul ℝ ℝ) (LinearMap.id : ℝ →ₗ[ℝ] ℝ) 0 LinearMap.id where
  comm x y := mul_comm x y
  mass_symm _ _ := rfl
  stiff_symm _ _ := rfl
  mass_nonneg x := mul_self_nonneg x
  stiff_nonneg x := mul_self_nonneg x
  damp_nonneg x := by simp

theorem cosine_energy (k : ℕ) (t : ℝ) :
    energyNorm (LinearMap.mul ℝ ℝ) LinearMap.id LinearMap.id (cosine k t, cosine (k + 1) t) ≤ 1 := by
  show √(cosine (k + 1) t * cosine (k + 1) t + cosine k t * cosine k t) ≤ 1
  have h1 : cosine (k + 1) t = -Real.sin (t + k * (Real.pi / 2)) := by
    simp only [cosine]
    push_cast
    rw [add_mul, one_mul, ← add_assoc, Real.cos_add_pi_div_two]
  have h2 : cosine (k + 1) t * cosine (k + 1) t + cosine k t * cosine k t = 1 := by
    rw [h1, cosine]
    nlinarith [Real.sin_sq_add_cos_sq (t + k * (Real.pi / 2))]
  rw [h2, Real.sqrt_one]

theorem osc_solves {m : ℝ →ₗ[ℝ] ℝ} (h : m 1 ≠ 0) : Solves osc m := by
  intro n b
  show m (b / m 1) = b
  have : m (b / m 1) = (b / m 1) * m 1 := by
    have := m.map_smul (b / m 1) 1
    simpa using this
  rw [this]
  field_simp

theorem energy_of_norm {u v c : ℝ} (h : energyNorm (LinearMap.mul ℝ ℝ) LinearMap.id LinearMap.id (u, v) ≤ c) :
    u ^ 2 + v ^ 2 ≤ c ^ 2 := by
  have h1 := osc_passive.sq (u, v)
  have h2 := energyNorm_nonneg (LinearMap.mul ℝ ℝ) LinearMap.id LinearMap.id (u, v)
  have h3 : eform (LinearMap.mul ℝ ℝ) LinearMap.id LinearMap.id (u, v) (u, v) = v * v + u * u := rfl
  rw [h3] at h1
  nlinarith

theorem energyNorm_zero : energyNorm (LinearMap.mul ℝ ℝ) LinearMap.id LinearMap.id ((0, 0) : ℝ × ℝ) = 0 := by
  simp [energyNorm]

theorem start_zero : energyNorm (LinearMap.mul ℝ ℝ) LinearMap.id LinearMap.id
    (((1, 0) : ℝ × ℝ) - (cosine 0 0, cosine 1 0)) = 0 := by
  rw [cosine_zero, Real.cos_zero, Real.sin_zero, neg_zero, sub_self]
  exact energyNorm_zero

/-- Implicit Euler, with steps of any sizes up to `h`. -/
example (h : ℝ) (l : List ℝ) (hl : ∀ dt ∈ l, 0 < dt ∧ dt ≤ h) :
    let q := (steps none (integrate .implicitEuler false osc oscOpts) l (DSt.init 1 0 (-1))).1
    (q.u - Real.cos l.sum) ^ 2 + (q.v + Real.sin l.sum) ^ 2 ≤ (l.sum * h / 2) ^ 2 := by
  intro q
  have := (C133_implicit osc oscOpts LinearMap.id 0 LinearMap.id _ osc_linear osc_forced (LinearMap.mul ℝ ℝ)
    osc_passive cosine 0 l.sum (cosine_motion 3 0 _) 1 (fun t _ => cosine_energy 2 t) h l hl
    (fun dt hd n x y => by
      have h0 := (hl dt hd).1
      have hn : 1 + dt ^ 2 ≠ 0 := by positivity
      have hd' : 1 - -dt * dt = 1 + dt ^ 2 := by ring
      simp only [osc, LinearMap.id_apply, LinearMap.neg_apply, LinearMap.smul_apply, LinearMap.add_apply,
        LinearMap.zero_apply, smul_eq_mul, mul_one, mul_zero, add_zero]
      rw [hd']
      constructor
      · field_simp
        ring
      · field_simp
        ring)
    (DSt.init 1 0 (-1)) (le_refl _) (by simp [DSt.init])).2
  simp only [DSt.init, zero_add] at this
  rw [start_zero, zero_add, cosine_zero] at this
  have := energy_of_norm this
  rw [sub_neg_eq_add] at this
  refine this.trans (le_of_eq (by ring))

/-- Newmark, with steps of any sizes up to `h`. -/
example (h : ℝ) (l : List ℝ) (hl : ∀ dt ∈ l, 0 < dt ∧ dt ≤ h) :
    let q := (steps none (integrate .newmark false osc oscOpts) l (DSt.init 1 0 (-1))).1
    (q.u - Real.cos l.sum) ^ 2 + (q.v + Real.sin l.sum) ^ 2 ≤ (l.sum * h ^ 2 / 12) ^ 2 := by
  intro q
  have := (C133_newmark osc oscOpts LinearMap.id 0 LinearMap.id _ osc_linear osc_forced rfl rfl
    (LinearMap.mul ℝ ℝ) osc_passive cosine 0 l.sum (cosine_motion 4 0 _) 1 (fun t _ => cosine_energy 3 t) h l hl
    (fun dt hd => osc_solves (by
      have h0 := (hl dt hd).1
      simp only [LinearMap.add_apply, LinearMap.smul_apply, LinearMap.zero_apply, LinearMap.id_apply,
        smul_eq_mul, oscOpts]
      positivity))
    (DSt.init 1 0 (-1)) (by simp [DSt.init]) (le_refl _) (by simp [DSt.init])).2
  simp only [DSt.init, zero_add] at this
  rw [start_zero, zero_add, cosine_zero] at this
  have := energy_of_norm this
  rw [sub_neg_eq_add] at this
  refine this.trans (le_of_eq (by ring))

/-- Bathe with the split 1/2, with steps of any sizes up to `h`. -/
example (h : ℝ) (l : List ℝ) (hl : ∀ dt ∈ l, 0 < dt ∧ dt ≤ h) :
    let q := (steps none (integrate .bathe false osc oscOpts) l (DSt.init 1 0 (-1))).1
    (q.u - Real.cos l.sum) ^ 2 + (q.v + Real.sin l.sum) ^ 2 ≤ (3 / 8 * l.sum * h ^ 2) ^ 2 := by
  intro q
  have := (C133_bathe osc oscOpts LinearMap.id 0 LinearMap.id _ osc_linear osc_forced rfl rfl
    (by norm_num [oscOpts]) (by norm_num [oscOpts])
    (LinearMap.mul ℝ ℝ) osc_passive (fun x y => by simp) cosine 0 l.sum (cosine_motion 4 0 _) 1
    (fun t _ => cosine_energy 3 t) h l hl
    (fun dt hd => osc_solves (by
      have h0 := (hl dt hd).1
      simp only [LinearMap.add_apply, LinearMap.smul_apply, LinearMap.zero_apply, LinearMap.id_apply,
        smul_eq_mul, oscOpts]
      positivity))
    (fun dt hd => osc_solves (by
      have h0 := (hl dt hd).1
      simp only [LinearMap.add_apply, LinearMap.smul_apply, LinearMap.zero_apply, LinearMap.id_apply,
        smul_eq_mul, mul_zero, add_zero, mul_one]
      positivity))
    (DSt.init 1 0 (-1)) (by simp [DSt.init]) (le_refl _) (by simp [DSt.init])).2
  simp only [DSt.init, zero_add] at this
  rw [start_zero, zero_add, cosine_zero] at this
  have := energy_of_norm this
  rw [sub_neg_eq_add] at this
  refine this.trans (le_of_eq ?_)
  norm_num [oscOpts]

/-! ## Wilson -/

/-- C133 fails for the linear Wilson method: a mass in uniform motion does not move at all, however small the
steps. -/
theorem C133_violated_wilson (e : Env ℝ V) (o : Opts ℝ) (M : V →ₗ[ℝ] V) (hl : Linear e M 0 0)
    (hf : Forced e fun _ => 0) (hM : ∀ x, M x = 0 → x = 0) (hs : Solves e M) (l : List ℝ) (s : DSt ℝ V)
    (ha : s.a = 0) :
    let q := (steps none (integrate .wilson false e o) l s).1
    q.u = s.u ∧ q.v = s.v ∧ q.time = s.time + l.sum ∧
      ∃ x : ℕ → ℝ → V, (∀ p a b, Motion M 0 (fun _ _ => 0) x p a b) ∧ x 0 s.time = s.u ∧ x 1 s.time = s.v ∧
        x 0 q.time = s.u + l.sum • s.v := by
  have key : ∀ (l : List ℝ) (s : DSt ℝ V), s.a = 0 →
      let q := (steps none (integrate .wilson false e o) l s).1
      q.u = s.u ∧ q.v = s.v ∧ q.time = s.time + l.sum := by
    intro l
    induction l with
    | nil => intro s _; simp [steps]
    | cons dt l ih =>
      intro s ha
      have hzero : ∀ n, e.solve n M 0 = 0 := fun n => hM _ (hs n 0)
      have h1 := newmarkL_linear hl hf o s.time (o.gamma * dt) s
      have h2 : ∃ lg, wilsonL e o s.time dt s = ({ s with a := 0, log := lg }, .ok .success) := by
        refine ⟨newmarkCalls o s.time (o.gamma * dt) s ++ s.log, ?_⟩
        simp [wilsonL, Act.bind_apply, onCopy, newmark, h1, ha, hzero]
      obtain ⟨lg, h2⟩ := h2
      have h3 := step_none (integrate .wilson false e o) dt s _ _ h2
      intro q
      have e1 : q = (steps none (integrate .wilson false e o) l
          { s with a := 0, log := lg, time := s.time + dt, status := .success }).1 := by
        show (steps none (integrate .wilson false e o) (dt :: l) s).1 = _
        simp [steps, h3]
      obtain ⟨k1, k2, k3⟩ := ih { s with a := 0, log := lg, time := s.time + dt, status := .success } rfl
      rw [e1, List.sum_cons]
      exact ⟨k1, k2, by rw [k3, add_assoc]⟩
  obtain ⟨k1, k2, k3⟩ := key l s ha
  refine ⟨k1, k2, k3, fun k t => match k with
    | 0 => s.u + (t - s.time) • s.v
    | 1 => s.v
    | _ + 2 => 0, fun p a b => ⟨fun k _ t _ => ?_, fun t _ => by simp⟩, by simp, rfl, by simp [k3]⟩
  match k with
  | 0 =>
    have := (((hasDerivAt_id t).sub_const s.time).smul_const s.v).const_add s.u
    simpa using this
  | 1 => exact hasDerivAt_const t _
  | _ + 2 => exact hasDerivAt_const t _

/-- A mass with velocity 1 at time 1: at 0 instead of 1. -/
example (n : ℕ) :
    (steps none (integrate .wilson false { osc with jacobian := fun _ _ _ => .value 0 } oscOpts)
      (List.replicate (n + 1) (1 / (n + 1 : ℕ))) (DSt.init (0 : ℝ) 1 0)).1.u = 0 :=
  (C133_violated_wilson { osc with jacobian := fun _ _ _ => .value 0 } oscOpts LinearMap.id
    ⟨fun _ _ => rfl, fun _ _ _ => rfl, fun _ _ _ => rfl⟩ (fun _ _ => rfl) (fun _ h => h)
    (fun n b => by simp [osc]) _ _ rfl).1

end GsSA.Dynamic
