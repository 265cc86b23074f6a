import Verif.Dynamic.LoopProps

/-!
# Linear against nonlinear steps: C59, C61

An environment has both a force and a residual; for a linear problem the residual is `F - S U`. The two
versions of an integrator are compared on it.
-/

set_option linter.unusedSectionVars false

namespace GsSA.Dynamic

open GsSA GsSA.Static
open GsSA.ALM (Act Err)

variable {K V : Type} [Field K] [LinearOrder K] [IsStrictOrderedRing K] [AddCommGroup V] [Module K V]

/-- The vectors and the time. -/
def DSt.data (s : DSt K V) : V × V × V × K := (s.u, s.v, s.a, s.time)

theorem eq_of_injective {m : V →ₗ[K] V} (hi : ∀ x, m x = 0 → x = 0) {x y : V} (h : m x = m y) : x = y :=
  sub_eq_zero.1 (hi _ (by rw [map_sub, h, sub_self]))

theorem onCopy_ok {α : Type} {m : Act (DSt K V) α} {s t : DSt K V} {x : α} (h : m s = (t, .ok x)) :
    onCopy m s = ({ t with u := s.u, v := s.v, a := s.a }, .ok (x, t.u, t.v, t.a)) := by
  simp only [onCopy, h]

/-- One step of the two Newmark methods. -/
theorem newmark_agree {e : Env K V} {o : Opts K} {M C S : V →ₗ[K] V} {F : K → V} {dt : K}
    (hl : Linear e M C S) (hf : Forced e F) (hr : Residual e S F) (hz : ¬ o.zeroInterval)
    (hs : Solves e (M + (o.delta * dt) • C + (dt * dt * o.alpha) • S))
    (hi : ∀ x, (M + (o.delta * dt) • C + (dt * dt * o.alpha) • S) x = 0 → x = 0)
    (hm : 1 ≤ o.maxIter) (s₁ s₂ : DSt K V) (h : s₁.data = s₂.data) :
    ∃ q₁ q₂ r₁ r₂, step none (integrate .newmark false e o) dt s₁ = (q₁, .ok r₁) ∧
      step none (integrate .newmark true e o) dt s₂ = (q₂, .ok r₂) ∧ q₁.data = q₂.data ∧
      (2 ≤ o.maxIter → 0 < o.tolU → 0 < o.tolF → e.norm 0 = 0 → r₂ = .success) := by
  simp only [DSt.data, Prod.mk.injEq] at h
  obtain ⟨hu, hv, ha, ht⟩ := h
  have h1 := newmarkL_linear hl hf o s₁.time dt s₁
  obtain ⟨a, lg, r, h2, h3, h4⟩ := newmarkN_linear (t := s₂.time) hl hr hz hs hi hm s₂
  have h5 : e.solve (s₁.log.length + 4) (M + (o.delta * dt) • C + (dt * dt * o.alpha) • S)
      (F (s₁.time + dt) - S (s₁.u + dt • s₁.v + ((1 / 2 - o.alpha) * dt * dt) • s₁.a) -
        C (s₁.v + ((1 - o.delta) * dt) • s₁.a)) = a := by
    refine eq_of_injective hi ?_
    rw [hs, h2, hu, hv, ha, ht]
  simp only [h5] at h1
  refine ⟨_, _, _, _, step_none _ _ _ _ _ h1, step_none _ _ _ _ _ h3, ?_, h4⟩
  simp only [DSt.data, newmarkNext, hu, hv, ha, ht]

/-- On linear problems the linear and the nonlinear Newmark method agree, for any number of steps of any
sizes: the systems are regular and solved exactly, at least one iteration is allowed. -/
theorem C59_newmark (e : Env K V) (o : Opts K) (M C S : V →ₗ[K] V) (F : K → V) (l : List K) (s : DSt K V)
    (hl : Linear e M C S) (hf : Forced e F) (hr : Residual e S F)
    (hz : ¬ (o.quasi = true ∧ o.quasiIt = 0))
    (hs : ∀ dt ∈ l, Solves e (M + (o.delta * dt) • C + (dt * dt * o.alpha) • S))
    (hi : ∀ dt ∈ l, ∀ x, (M + (o.delta * dt) • C + (dt * dt * o.alpha) • S) x = 0 → x = 0)
    (hm : 1 ≤ o.maxIter) :
    let q₁ := steps none (integrate .newmark false e o) l s
    let q₂ := steps none (integrate .newmark true e o) l s
    q₁.1.u = q₂.1.u ∧ q₁.1.v = q₂.1.v ∧ q₁.1.a = q₂.1.a ∧ q₁.1.time = q₂.1.time ∧
      (2 ≤ o.maxIter → 0 < o.tolU → 0 < o.tolF → e.norm 0 = 0 → ∀ r ∈ q₂.2, r = some .success) := by
  suffices H : ∀ s₁ s₂ : DSt K V, s₁.data = s₂.data →
      (steps none (integrate .newmark false e o) l s₁).1.data =
        (steps none (integrate .newmark true e o) l s₂).1.data ∧
      (2 ≤ o.maxIter → 0 < o.tolU → 0 < o.tolF → e.norm 0 = 0 →
        ∀ r ∈ (steps none (integrate .newmark true e o) l s₂).2, r = some .success) by
    obtain ⟨h1, h2⟩ := H s s rfl
    simp only [DSt.data, Prod.mk.injEq] at h1
    exact ⟨h1.1, h1.2.1, h1.2.2.1, h1.2.2.2, h2⟩
  induction l with
  | nil => exact fun s₁ s₂ h => ⟨h, by simp [steps]⟩
  | cons dt l ih =>
    intro s₁ s₂ h
    obtain ⟨q₁, q₂, r₁, r₂, h1, h2, h3, h4⟩ := newmark_agree hl hf hr hz (hs dt (by simp))
      (hi dt (by simp)) hm s₁ s₂ h
    obtain ⟨h5, h6⟩ := ih (fun x hx => hs x (by simp [hx])) (fun x hx => hi x (by simp [hx])) q₁ q₂ h3
    simp only [steps, h1, h2]
    refine ⟨h5, fun a b c d r hr' => ?_⟩
    rcases List.mem_cons.1 hr' with rfl | hr'
    · rw [h4 a b c d]
    · exact h6 a b c d r hr'

/-- The one degree of freedom problem meets the hypotheses. -/
example : Linear (demo fun _ => false) LinearMap.id 0 LinearMap.id ∧
    Forced (demo fun _ => false) (fun _ => 0) ∧ Residual (demo fun _ => false) LinearMap.id (fun _ => 0) ∧
    Solves (demo fun _ => false)
      (LinearMap.id + (demoOpts.delta * 1) • (0 : ℚ →ₗ[ℚ] ℚ) + (1 * 1 * demoOpts.alpha) • LinearMap.id) :=
  ⟨demo_linear, demo_forced _, demo_residual _, demo_solves _ _ (by decide +kernel)⟩

example :
    (steps none (integrate .newmark true (demo fun _ => false) demoOpts) [1, 2] (DSt.init 1 0 0)).1.u =
      (steps none (integrate .newmark false (demo fun _ => false) demoOpts) [1, 2] (DSt.init 1 0 0)).1.u ∧
    (steps none (integrate .newmark true (demo fun _ => false) demoOpts) [1, 2] (DSt.init 1 0 0)).1.u ≠ 1 := by
  decide +kernel

/-- On linear problems the linear and the nonlinear Runge-Kutta method agree, for any number of steps,
including the reported status. -/
theorem C59_rk4 (e : Env K V) (o : Opts K) (M C S : V →ₗ[K] V) (F : K → V) (l : List K) (s : DSt K V)
    (hl : Linear e M C S) (hf : Forced e F) (hr : Residual e S F) :
    let q₁ := steps none (integrate .rk4 false e o) l s
    let q₂ := steps none (integrate .rk4 true e o) l s
    q₁.1.u = q₂.1.u ∧ q₁.1.v = q₂.1.v ∧ q₁.1.a = q₂.1.a ∧ q₁.1.time = q₂.1.time ∧ q₁.2 = q₂.2 := by
  suffices H : ∀ s₁ s₂ : DSt K V, s₁.data = s₂.data ∧ s₁.massInv = s₂.massInv →
      (steps none (integrate .rk4 false e o) l s₁).1.data =
        (steps none (integrate .rk4 true e o) l s₂).1.data ∧
      (steps none (integrate .rk4 false e o) l s₁).2 = (steps none (integrate .rk4 true e o) l s₂).2 by
    obtain ⟨h1, h2⟩ := H s s ⟨rfl, rfl⟩
    simp only [DSt.data, Prod.mk.injEq] at h1
    exact ⟨h1.1, h1.2.1, h1.2.2.1, h1.2.2.2, h2⟩
  induction l with
  | nil => exact fun s₁ s₂ h => ⟨h.1, rfl⟩
  | cons dt l ih =>
    intro s₁ s₂ h
    obtain ⟨lg1, h1⟩ := rk4L_linear hl hf s₁.time dt s₁
    obtain ⟨lg2, h2⟩ := rk4N_linear hl hr s₂.time dt s₂
    have h1' := step_none (integrate .rk4 false e o) dt s₁ _ _ h1
    have h2' := step_none (integrate .rk4 true e o) dt s₂ _ _ h2
    obtain ⟨h0, h3⟩ := h
    simp only [DSt.data, Prod.mk.injEq] at h0
    have hM : minvOf e M s₁ = minvOf e M s₂ := by simp [minvOf, h3]
    simp only [steps, h1', h2', hM, h0.1, h0.2.1, h0.2.2.2]
    refine (fun h => ⟨h.1, by rw [h.2]⟩) (ih _ _ ⟨?_, ?_⟩)
    · simp only [DSt.data, h0.2.2.1]
    · rfl

example :
    (steps none (integrate .rk4 true (demo fun _ => false) demoOpts) [1, 2] (DSt.init 1 0 0)).1.u =
      (steps none (integrate .rk4 false (demo fun _ => false) demoOpts) [1, 2] (DSt.init 1 0 0)).1.u ∧
    (steps none (integrate .rk4 true (demo fun _ => false) demoOpts) [1, 2] (DSt.init 1 0 0)).1.u ≠ 1 := by
  decide +kernel

/-- C59 fails for the explicit Euler method: the two versions have residuals of opposite sign. The velocities
after a step agree only if the residual force has no effect. -/
theorem C59_violated_explicitEuler (e : Env K V) (o : Opts K) (M C S : V →ₗ[K] V) (F : K → V) (dt : K)
    (s : DSt K V) (hl : Linear e M C S) (hf : Forced e F) (hr : Residual e S F) (hm : s.massInv = none) :
    ∃ q₁ q₂ r₁ r₂, step none (integrate .explicitEuler false e o) dt s = (q₁, .ok r₁) ∧
      step none (integrate .explicitEuler true e o) dt s = (q₂, .ok r₂) ∧ q₁.u = q₂.u ∧
      q₁.v - q₂.v = (2 * dt) • e.inverse M (F s.time - S s.u) := by
  obtain ⟨lg1, h1⟩ := explicitEulerL_linear hl hf s.time dt s
  obtain ⟨lg2, h2⟩ := explicitEulerN_linear hl hr s.time dt s
  refine ⟨_, _, _, _, step_none _ _ _ _ _ h1, step_none _ _ _ _ _ h2, rfl, ?_⟩
  have hX : minvOf e M s = e.inverse M := by simp [minvOf, hm]
  simp only [hX, map_sub, map_neg]
  module

/-- A spring with displacement 1: the linear method accelerates towards 0, the nonlinear away from it. -/
example :
    (step none (integrate .explicitEuler false (demo fun _ => false) demoOpts) 1 (DSt.init 1 0 0)).1.v = -1 ∧
    (step none (integrate .explicitEuler true (demo fun _ => false) demoOpts) 1 (DSt.init 1 0 0)).1.v = 1 := by
  decide +kernel

/-! ### Bathe -/

/-- The nonlinear Bathe step on linear problems, with regular systems solved exactly and at least two
iterations allowed: either it gives the state of the linear step, or it reports success after one iteration;
then the equation of motion at the new time has a defect, which is the stiffness times the displacement of
the first stage and is smaller than the tolerance (relative to some vector `f`).

Missing for the full property: equality in the second case, in which the initial residual was computed with
the wrong displacement (`gsDynamicBathe.hpp` 107-122). -/
theorem C59_bathe_partial (e : Env K V) (o : Opts K) (M C S : V →ₗ[K] V) (F : K → V) (dt : K) (s : DSt K V)
    (hl : Linear e M C S) (hf : Forced e F) (hr : Residual e S F)
    (hz : ¬ (o.quasi = true ∧ o.quasiIt = 0))
    (hs1 : Solves e (M + (o.delta * (o.gamma * dt)) • C + ((o.gamma * dt) * (o.gamma * dt) * o.alpha) • S))
    (hi1 : ∀ x, (M + (o.delta * (o.gamma * dt)) • C + ((o.gamma * dt) * (o.gamma * dt) * o.alpha) • S) x = 0
      → x = 0)
    (hs : Solves e (S + (c3 o dt * c3 o dt) • M + c3 o dt • C))
    (hi : ∀ x, (S + (c3 o dt * c3 o dt) • M + c3 o dt • C) x = 0 → x = 0) (hm : 2 ≤ o.maxIter) :
    ∃ q₁ q₂ r₁ r₂, step none (integrate .bathe false e o) dt s = (q₁, .ok r₁) ∧
      step none (integrate .bathe true e o) dt s = (q₂, .ok r₂) ∧ q₁.time = q₂.time ∧
      ((q₁.u = q₂.u ∧ q₁.v = q₂.v ∧ q₁.a = q₂.a ∧
          (3 ≤ o.maxIter → 0 < o.tolU → 0 < o.tolF → e.norm 0 = 0 → e.norm q₂.u ≠ 0 → r₂ = .success)) ∨
        (r₂ = .success ∧ ∃ us f, M q₂.a + C q₂.v + S q₂.u = F (s.time + dt) - S (s.u - us) ∧
          e.norm (S (s.u - us)) / nz (e.norm f) < o.tolF)) := by
  obtain ⟨n, as, lg, has, h1⟩ := batheL_linear hl hf o s.time dt s
  obtain ⟨as', u, lg', r, has', h2, h3⟩ := batheN_linear (t := s.time) (dt := dt) hl hr hz hs1 hi1 hs hi
    (by omega) s
  have e1 : as = as' := by
    refine eq_of_injective hi1 ?_
    rw [has, hs1, has']
  subst e1
  refine ⟨_, _, _, _, step_none _ _ _ _ _ h1, step_none _ _ _ _ _ h2, rfl, ?_⟩
  rcases h3 with ⟨h3, h4⟩ | ⟨h3, h4⟩
  · left
    have e2 : u = e.solve n (S + (c3 o dt * c3 o dt) • M + c3 o dt • C)
          (F (s.time + dt) - M (c1 o dt • s.v + c2 o dt • (newmarkNext o (o.gamma * dt) s as).2 +
            (c1 o dt * c3 o dt) • s.u + (c3 o dt * c2 o dt) • (newmarkNext o (o.gamma * dt) s as).1) -
            C (c2 o dt • (newmarkNext o (o.gamma * dt) s as).1 + c1 o dt • s.u)) := by
      refine eq_of_injective hi ?_
      rw [hs, h3]
      rfl
    simp only [← e2]
    exact ⟨rfl, rfl, rfl, h4⟩
  · right
    rcases h4 with ⟨h4, -⟩ | ⟨h4, f, h5⟩
    · omega
    · refine ⟨h4, (newmarkNext o (o.gamma * dt) s as).1, f, ?_, h5⟩
      simp only [batheEnd]
      generalize newmarkNext o (o.gamma * dt) s as = x at h3
      have e3 : M (c1 o dt • s.v + c2 o dt • x.2 + c3 o dt • (c1 o dt • s.u + c2 o dt • x.1 + c3 o dt • u)) +
          C (c1 o dt • s.u + c2 o dt • x.1 + c3 o dt • u) + S u =
          (S + (c3 o dt * c3 o dt) • M + c3 o dt • C) u +
            (F (s.time + dt) - batheB o dt M C (F (s.time + dt)) s.u s.v x.1 x.2) := by
        simp only [batheB, LinearMap.add_apply, LinearMap.smul_apply, map_add, map_smul]
        module
      rw [e3, h3, map_sub, map_sub]
      abel

theorem batheLoop_norm {e : Env K V} {o : Opts K} {t dt : K} {M : V →ₗ[K] V} {u0 v0 us vs : V} {res0 : K}
    (hN : ∀ x, 0 ≤ e.norm x) {n : ℕ} :
    ∀ {it : ℕ} {C S : V →ₗ[K] V} {rhs : V} {s q : DSt K V},
      batheLoop e o t dt M u0 v0 us vs res0 n it C S rhs s = (q, .ok .success) → e.norm q.u ≠ 0 := by
  induction n with
  | zero =>
    intro it C S rhs s q h
    simp only [batheLoop] at h
    rw [Act.bind_ok (by rfl : Act.modify _ _ = _)] at h
    simp at h
  | succ n ih =>
    intro it C S rhs s q h
    obtain ⟨b, C', S', R, -, -, -, -, h⟩ := batheLoop_inv h
    split at h
    · rename_i hc
      obtain ⟨rfl, -⟩ := h
      intro h0
      have h0' : e.norm (s.u + e.solve (renewCalls (t + dt) b s.u ++ s.log).length
          (S' + (c3 o dt * c3 o dt) • M + c3 o dt • C') rhs) = 0 := h0
      simp only [quotLt, h0', if_true, decide_eq_true_eq] at hc
      exact absurd hc.1 (not_lt.2 (hN _))
    · exact ih h

/-- C59 fails for the Bathe method at rest: the nonlinear step never reports success with a new displacement
of norm 0, for no problem and no number of iterations, because it divides by that norm
(`gsDynamicBathe.hpp` 159). -/
theorem C59_violated_bathe_rest (e : Env K V) (o : Opts K) (dt : K) (s q : DSt K V)
    (hN : ∀ x, 0 ≤ e.norm x)
    (h : step none (integrate .bathe true e o) dt s = (q, .ok .success)) : e.norm q.u ≠ 0 := by
  obtain ⟨q', hq', rfl⟩ := step_inv h
  clear h
  have h := hq'
  simp only [integrate, batheN] at h
  rw [Act.bind_ok (by rfl : Act.get s = (s, .ok s))] at h
  obtain ⟨s0, x, -, h⟩ := Act.bind_ok_inv h
  obtain ⟨s1, M, -, h⟩ := Act.bind_ok_inv h
  obtain ⟨s2, C, -, h⟩ := Act.bind_ok_inv h
  obtain ⟨s3, R, -, h⟩ := Act.bind_ok_inv h
  rw [Act.bind_ok (by rfl : setUVA _ _ _ _ = _)] at h
  have h1 := batheLoop_norm hN h
  exact h1

/-- A structure at rest without load: the linear step succeeds, the nonlinear one does not. -/
example :
    (step none (integrate .bathe false (demo fun _ => false) demoOpts) 1 (DSt.init 0 0 0)).2 = .ok .success ∧
    (step none (integrate .bathe true (demo fun _ => false) demoOpts) 1 (DSt.init 0 0 0)).2 =
      .ok .notConverged := by
  decide +kernel

/-- C59 fails for the Bathe method with one iteration: on a linear problem one Newton iteration should do. -/
theorem C59_violated_bathe_once :
    (step none (integrate .bathe true (demo fun _ => false) { demoOpts with maxIter := 1 }) 1
      (DSt.init 1 0 (-1))).1.u ≠
    (step none (integrate .bathe false (demo fun _ => false) { demoOpts with maxIter := 1 }) 1
      (DSt.init 1 0 (-1))).1.u ∧
    (step none (integrate .newmark true (demo fun _ => false) { demoOpts with maxIter := 1 }) 1
      (DSt.init 1 0 (-1))).1.u =
    (step none (integrate .newmark false (demo fun _ => false) { demoOpts with maxIter := 1 }) 1
      (DSt.init 1 0 (-1))).1.u := by
  decide +kernel

/-- With more iterations the two Bathe methods agree on this problem. -/
example :
    (step none (integrate .bathe true (demo fun _ => false) demoOpts) 1 (DSt.init 1 0 (-1))).1.u =
    (step none (integrate .bathe false (demo fun _ => false) demoOpts) 1 (DSt.init 1 0 (-1))).1.u ∧
    (step none (integrate .bathe true (demo fun _ => false) demoOpts) 1 (DSt.init 1 0 (-1))).2 = .ok .success := by
  decide +kernel

/-- The linear and the nonlinear Wilson step differ (with any `gamma`) by the terms of the old velocity and
acceleration. -/
theorem C59_violated_wilson (e : Env K V) (o : Opts K) (M C S : V →ₗ[K] V) (F : K → V) (dt : K) (s : DSt K V)
    (hl : Linear e M C S) (hf : Forced e F) (hr : Residual e S F)
    (hz : ¬ (o.quasi = true ∧ o.quasiIt = 0))
    (hs1 : Solves e (M + (o.delta * (o.gamma * dt)) • C + ((o.gamma * dt) * (o.gamma * dt) * o.alpha) • S))
    (hi1 : ∀ x, (M + (o.delta * (o.gamma * dt)) • C + ((o.gamma * dt) * (o.gamma * dt) * o.alpha) • S) x = 0
      → x = 0) (hm : 1 ≤ o.maxIter) :
    ∃ q₁ q₂, step none (integrate .wilson false e o) dt s = (q₁, .ok .success) ∧
      step none (integrate .wilson true e o) dt s = (q₂, .ok .success) ∧ q₁.a = q₂.a ∧
      q₂.u - q₁.u = dt • s.v + ((1 / 2 - o.alpha) * dt * dt) • s.a ∧
      q₂.v - q₁.v = ((1 - o.delta) * dt) • s.a := by
  have h1 := newmarkL_linear hl hf o s.time (o.gamma * dt) s
  obtain ⟨a, lg, r, h2, h3, -⟩ := newmarkN_linear (t := s.time) (dt := o.gamma * dt) hl hr hz hs1 hi1 hm s
  have h5 : e.solve (s.log.length + 4)
      (M + (o.delta * (o.gamma * dt)) • C + ((o.gamma * dt) * (o.gamma * dt) * o.alpha) • S)
      (F (s.time + o.gamma * dt) - S (s.u + (o.gamma * dt) • s.v +
        ((1 / 2 - o.alpha) * (o.gamma * dt) * (o.gamma * dt)) • s.a) -
        C (s.v + ((1 - o.delta) * (o.gamma * dt)) • s.a)) = a := by
    refine eq_of_injective hi1 ?_
    rw [hs1, h2]
  simp only [h5] at h1
  let a' := (1 - 1 / o.gamma) • s.a + (1 / o.gamma) • a
  have w1 : wilsonL e o s.time dt s = ({ s with
      a := a', v := s.v + (o.delta * dt) • a', u := s.u + (o.alpha * dt * dt) • a'
      log := newmarkCalls o s.time (o.gamma * dt) s ++ s.log }, .ok .success) := by
    have := onCopy_ok (m := newmark false e o s.time (o.gamma * dt)) h1
    simp only [wilsonL]
    rw [Act.bind_ok this]
    rfl
  have w2 : wilsonN e o s.time dt s = ({ s with
      a := a'
      u := s.u + dt • s.v + ((1 / 2 - o.alpha) * dt * dt) • s.a + (o.alpha * dt * dt) • a'
      v := s.v + ((1 - o.delta) * dt) • s.a + (o.delta * dt) • a'
      log := lg }, .ok .success) := by
    have := onCopy_ok (m := newmark true e o s.time (o.gamma * dt)) h3
    simp only [wilsonN]
    rw [Act.bind_ok this]
    rfl
  refine ⟨_, _, step_none _ _ _ _ _ w1, step_none _ _ _ _ _ w2, rfl, ?_, ?_⟩
  · dsimp only
    abel
  · dsimp only
    abel

example :
    (step none (integrate .wilson true (demo fun _ => false) demoOpts) 1 (DSt.init 0 1 0)).1.u -
    (step none (integrate .wilson false (demo fun _ => false) demoOpts) 1 (DSt.init 0 1 0)).1.u = 1 := by
  decide +kernel

/-! ## C61 -/

theorem implicitEulerLoop_step {e : Env K V} {o : Opts K} {M C S : V →ₗ[K] V} {F : K → V} {t dt : K}
    (hl : Linear e M C S) (hf : Residual e S F) (hz : ¬ o.zeroInterval) (u0 v0 : V) (res0 : K)
    (n it : ℕ) (C' S' : V →ₗ[K] V) (h : it = 0 ∨ C' = C ∧ S' = S) (R : V) (s : DSt K V) :
    ∃ (k : ℕ) (lg : List (Call K V × Bool)),
      let r1 := s.u - u0 - dt • s.v
      let r2 := M (s.v - v0) + dt • C s.v + dt • (-R)
      let d := e.gmres k LinearMap.id (-(dt • LinearMap.id)) (dt • S) (M + dt • C) (-r1) (-r2)
      let s' : DSt K V := { s with u := s.u + d.1, v := s.v + d.2, log := lg }
      implicitEulerLoop e o t dt u0 v0 M res0 (n + 1) it C' S' R s =
        if updNorm (e.norm2 d.1 d.2) (e.norm2 s'.u s'.v) < o.tolU ∧
          e.norm2 r1 r2 / res0 < o.tolF then (s', .ok .success)
        else implicitEulerLoop e o t dt u0 v0 M res0 n (it + 1) C S (F t - S s'.u) s' := by
  have hb : ∃ b, refresh o it s = (s, .ok b) ∧ (b = true ∨ C' = C ∧ S' = S) := by
    rcases h with rfl | h
    · exact ⟨true, refresh_zero o s, Or.inl rfl⟩
    · obtain ⟨b, hb⟩ := refresh_ok hz it s
      exact ⟨b, hb, Or.inr h⟩
  obtain ⟨b, hb1, hb2⟩ := hb
  obtain ⟨lg, hr⟩ := renew_linear hl (t + dt) b C' S' s hb2
  refine ⟨lg.length, (.residual (s.u + (e.gmres lg.length LinearMap.id (-(dt • LinearMap.id)) (dt • S)
    (M + dt • C) (-(s.u - u0 - dt • s.v)) (-(M (s.v - v0) + dt • C s.v + dt • (-R)))).1) t, true) :: lg, ?_⟩
  simp only [implicitEulerLoop]
  rw [Act.bind_ok hb1, Act.bind_ok hr]
  simp only [gmresSolve, setUV, computeResidual, call, Act.bind_apply, Act.get_apply, Act.modify_apply,
    Act.pure_apply, hf _ _ _]
  split <;> rfl

/-- The equations of implicit Euler with force `f`. -/
def eulerEqs (M C S : V →ₗ[K] V) (dt : K) (u0 v0 f u v : V) : Prop :=
  u = u0 + dt • v ∧ M (v - v0) + dt • C v + dt • S u = dt • f

theorem euler_update {M C S : V →ₗ[K] V} {dt : K} {u0 v0 f u v d₁ d₂ : V}
    (h1 : d₁ - dt • d₂ = -(u - u0 - dt • v))
    (h2 : dt • S d₁ + (M + dt • C) d₂ = -(M (v - v0) + dt • C v + dt • (-(f - S u)))) :
    eulerEqs M C S dt u0 v0 f (u + d₁) (v + d₂) := by
  constructor
  · have : d₁ = -(u - u0 - dt • v) + dt • d₂ := by rw [← h1]; abel
    rw [this, smul_add]
    abel
  · have e1 : M (v + d₂ - v0) + dt • C (v + d₂) + dt • S (u + d₁) =
        (dt • S d₁ + (M + dt • C) d₂) + (M (v - v0) + dt • C v + dt • S u) := by
      simp only [map_add, map_sub, LinearMap.add_apply, LinearMap.smul_apply, smul_add]
      abel
    rw [e1, h2]
    simp only [smul_neg, smul_sub]
    abel

theorem implicitEulerLoop_old {e : Env K V} {o : Opts K} {M C S : V →ₗ[K] V} {F : K → V} {t dt : K}
    (hl : Linear e M C S) (hf : Residual e S F) (hz : ¬ o.zeroInterval)
    (hs : BlockSolves e dt S (M + dt • C)) (u0 v0 : V) (res0 : K) (n : ℕ) :
    ∀ (it : ℕ) (s : DSt K V), ∃ u v lg r,
      implicitEulerLoop e o t dt u0 v0 M res0 (n + 1) it C S (F t - S s.u) s =
        ({ s with u := u, v := v, log := lg }, .ok r) ∧ eulerEqs M C S dt u0 v0 (F t) u v := by
  induction n with
  | zero =>
    intro it s
    obtain ⟨k, lg, h⟩ := implicitEulerLoop_step (t := t) hl hf hz u0 v0 res0 0 it C S (Or.inr ⟨rfl, rfl⟩)
      (F t - S s.u) s
    obtain ⟨h1, h2⟩ := hs k (-(s.u - u0 - dt • s.v)) (-(M (s.v - v0) + dt • C s.v + dt • (-(F t - S s.u))))
    rw [h]
    split
    · exact ⟨_, _, lg, _, rfl, euler_update h1 h2⟩
    · exact ⟨_, _, lg, _, rfl, euler_update h1 h2⟩
  | succ n ih =>
    intro it s
    obtain ⟨k, lg, h⟩ := implicitEulerLoop_step (t := t) hl hf hz u0 v0 res0 (n + 1) it C S
      (Or.inr ⟨rfl, rfl⟩) (F t - S s.u) s
    obtain ⟨h1, h2⟩ := hs k (-(s.u - u0 - dt • s.v)) (-(M (s.v - v0) + dt • C s.v + dt • (-(F t - S s.u))))
    rw [h]
    split
    · exact ⟨_, _, lg, _, rfl, euler_update h1 h2⟩
    · obtain ⟨u, v, lg', r, h3, h4⟩ := ih (it + 1) { s with
        u := s.u + (e.gmres k LinearMap.id (-(dt • LinearMap.id)) (dt • S) (M + dt • C)
          (-(s.u - u0 - dt • s.v)) (-(M (s.v - v0) + dt • C s.v + dt • (-(F t - S s.u))))).1
        v := s.v + (e.gmres k LinearMap.id (-(dt • LinearMap.id)) (dt • S) (M + dt • C)
          (-(s.u - u0 - dt • s.v)) (-(M (s.v - v0) + dt • C s.v + dt • (-(F t - S s.u))))).2
        log := lg }
      exact ⟨u, v, lg', r, h3, h4⟩

/-- C61 fails: on a linear problem with time dependent force, solved exactly, from a state that is not
already a solution, the nonlinear implicit Euler step with two or more iterations satisfies the implicit Euler
equations with the force of the *old* time. -/
theorem C61_violated_time (e : Env K V) (o : Opts K) (M C S : V →ₗ[K] V) (F : K → V) (dt : K) (s : DSt K V)
    (hl : Linear e M C S) (hr : Residual e S F) (hz : ¬ (o.quasi = true ∧ o.quasiIt = 0))
    (hs : BlockSolves e dt S (M + dt • C)) (hm : 2 ≤ o.maxIter) (ht : o.tolF ≤ 1)
    (h0 : e.norm2 (-(dt • s.v)) (dt • C s.v + dt • (-(F (s.time + dt) - S s.u))) ≠ 0) :
    ∃ q r, step none (integrate .implicitEuler true e o) dt s = (q, .ok r) ∧ q.u = s.u + dt • q.v ∧
      M (q.v - s.v) + dt • C q.v + dt • S q.u = dt • F s.time ∧ q.time = s.time + dt := by
  obtain ⟨n, hn⟩ : ∃ n, o.maxIter.toNat = n + 1 + 1 := ⟨o.maxIter.toNat - 2, by omega⟩
  let R := F (s.time + dt) - S s.u
  let lg0 : List (Call K V × Bool) := (.residual s.u (s.time + dt), true) ::
    (.damping s.u (s.time + dt), true) :: (.mass (s.time + dt), true) :: s.log
  let res := e.norm2 (-(dt • s.v)) (dt • C s.v + dt • (-R))
  have h1 : implicitEulerN e o s.time dt s =
      implicitEulerLoop e o s.time dt s.u s.v M (nz res) (n + 1 + 1) 0 C 0 R { s with log := lg0 } := by
    simp only [implicitEulerN, computeMass, computeDamping, computeResidual, call, Act.bind_apply,
      Act.get_apply, Act.modify_apply, Act.pure_apply, hl.mass, hl.damping, hr _ _ _, hn]
    rfl
  obtain ⟨k, lg, h2⟩ := implicitEulerLoop_step (t := s.time) (dt := dt) hl hr hz s.u s.v (nz res) (n + 1) 0 C 0
    (Or.inl rfl) R { s with log := lg0 }
  have hres : e.norm2 (s.u - s.u - dt • s.v) (M (s.v - s.v) + dt • C s.v + dt • (-R)) = res := by
    simp only [sub_self, map_zero, zero_add, zero_sub, res]
  have hc : ¬ res / nz res < o.tolF := by
    rw [show nz res = res from if_neg h0, div_self h0]
    exact not_lt.2 ht
  simp only [hres, hc, and_false, if_false] at h2
  obtain ⟨u, v, lg', r, h3, h4, h5⟩ := implicitEulerLoop_old (t := s.time) hl hr hz hs s.u s.v (nz res) n (0 + 1)
    { s with
      u := s.u + (e.gmres k LinearMap.id (-(dt • LinearMap.id)) (dt • S) (M + dt • C)
          (-(s.u - s.u - dt • s.v)) (-(M (s.v - s.v) + dt • C s.v + dt • (-R)))).1
      v := s.v + (e.gmres k LinearMap.id (-(dt • LinearMap.id)) (dt • S) (M + dt • C)
          (-(s.u - s.u - dt • s.v)) (-(M (s.v - s.v) + dt • C s.v + dt • (-R)))).2
      log := lg }
  refine ⟨_, _, step_none _ _ _ _ _ (h1.trans (h2.trans h3)), h4, h5, rfl⟩

/-- A unit mass on a unit spring under the force `t`. -/
def ramp : Env ℚ ℚ := { demo (fun _ => false) with
  force := fun _ t => .value t, residual := fun _ x t => .value (t - x) }

/-- The linear version uses the force at the new time, the nonlinear version that at the old time: the mass
does not move. -/
example :
    (step none (integrate .implicitEuler false ramp demoOpts) 1 (DSt.init 0 0 0)).1.u = 1 / 2 ∧
    (step none (integrate .implicitEuler true ramp demoOpts) 1 (DSt.init 0 0 0)).1.u = 0 ∧
    (step none (integrate .implicitEuler true ramp demoOpts) 1 (DSt.init 0 0 0)).2 = .ok .success := by
  decide +kernel

/-- A residual that is almost constant up to 1, with Jacobian 0. -/
def cliff : Env ℚ ℚ := { demo (fun _ => false) with
  jacobian := fun _ _ _ => .value 0
  residual := fun _ x _ => .value (if x < 1 then 1 else if x = 1 then 1 + 1 / 10 ^ 7 else 1000) }

/-- C61 fails also for a residual that does not depend on time: the step reports success, with tolerances
1/1000 and 1/10^6, in a state in which the residual force is 1000 and the inertia force about 1, since the
convergence test uses the residual before the last update. -/
theorem C61_violated_residual :
    let q := step none (integrate .implicitEuler true cliff demoOpts) 1 (DSt.init 0 0 0)
    q.2 = .ok .success ∧ q.1.v = 1 + 1 / 10 ^ 7 ∧ q.1.u = q.1.v ∧
      cliff.residual 0 q.1.u 1 = .value 1000 := by
  refine ⟨by decide +kernel, by decide +kernel, by decide +kernel, ?_⟩
  have h : (step none (integrate .implicitEuler true cliff demoOpts) 1 (DSt.init 0 0 0)).1.u =
      1 + 1 / 10 ^ 7 := by decide +kernel
  rw [h]
  simp only [cliff, Reply.value.injEq]
  decide +kernel

end GsSA.Dynamic
