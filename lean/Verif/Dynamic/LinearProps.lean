import Mathlib.Algebra.Order.Field.Basic
import Mathlib.LinearAlgebra.BilinearMap
import Mathlib.LinearAlgebra.Prod
import Mathlib.Tactic.Linarith
import Mathlib.Tactic.LinearCombination
import Mathlib.Tactic.FieldSimp
import Mathlib.Tactic.Ring
import Verif.Dynamic.Spec
import Verif.Dynamic.StepProps

/-!
# The linear integrators (C57, C58, C60, C62, C63, C88, C89, C94)

The solver is assumed to solve the systems exactly; all else is proved from the model. A step of
`gsDynamicBase::step` without pre-step callback is `step none`.
-/

set_option linter.unusedSectionVars false

namespace GsSA.Dynamic

open GsSA GsSA.Static
open GsSA.ALM (Act Err)

variable {K V : Type} [Field K] [LinearOrder K] [IsStrictOrderedRing K] [AddCommGroup V] [Module K V]

/-- A step without a pre-step callback. -/
theorem step_none (f : K → K → Act (DSt K V) Status) (dt : K) (s s' : DSt K V) (r : Status)
    (h : f s.time dt s = (s', .ok r)) :
    step none f dt s = ({ s' with time := s'.time + dt, status := r }, .ok r) := by
  simp [step, Act.bind_apply, accepts, h]

/-! ## C57 -/

/-- One linear Newmark step: the Newmark relations, and equilibrium at the new time. -/
theorem C57_step (e : Env K V) (o : Opts K) (M C S : V →ₗ[K] V) (F : K → V) (dt : K) (s : DSt K V)
    (hl : Linear e M C S) (hf : Forced e F)
    (hs : Solves e (M + (o.delta * dt) • C + (dt * dt * o.alpha) • S)) :
    ∃ q r, step none (integrate .newmark false e o) dt s = (q, .ok r) ∧
      q.u = s.u + dt • s.v + (dt ^ 2) • ((1 / 2 - o.alpha) • s.a + o.alpha • q.a) ∧
      q.v = s.v + dt • ((1 - o.delta) • s.a + o.delta • q.a) ∧
      M q.a + C q.v + S q.u = F (s.time + dt) ∧ q.time = s.time + dt := by
  have h := newmarkL_linear hl hf o s.time dt s
  refine ⟨_, _, step_none _ _ _ _ _ h, ?_, ?_, ?_, rfl⟩
  · simp only
    module
  · simp only
    module
  · exact newmark_equilibrium (hs _ _)

/-- Any number of steps of arbitrary sizes: each of them satisfies the relations. -/
theorem C57_history (e : Env K V) (o : Opts K) (M C S : V →ₗ[K] V) (F : K → V) (s : DSt K V)
    (hl : Linear e M C S) (hf : Forced e F) (l₁ l₂ : List K) (dt : K)
    (hs : Solves e (M + (o.delta * dt) • C + (dt * dt * o.alpha) • S)) :
    let f := integrate .newmark false e o
    let p := (steps none f l₁ s).1
    let q := (steps none f (l₁ ++ [dt]) s).1
    let z := (steps none f (l₁ ++ dt :: l₂) s).1
    q.u = p.u + dt • p.v + (dt ^ 2) • ((1 / 2 - o.alpha) • p.a + o.alpha • q.a) ∧
      q.v = p.v + dt • ((1 - o.delta) • p.a + o.delta • q.a) ∧
      M q.a + C q.v + S q.u = F (p.time + dt) ∧ q.time = p.time + dt ∧
      z = (steps none f l₂ q).1 := by
  intro f p q z
  obtain ⟨q', r, h1, h2, h3, h4, h5⟩ := C57_step e o M C S F dt p hl hf hs
  have e1 : q = q' := by
    show (steps none f (l₁ ++ [dt]) s).1 = q'
    rw [steps_append]
    show (step none f dt p).1 = q'
    rw [h1]
  have e2 : z = (steps none f l₂ q).1 := by
    show (steps none f (l₁ ++ dt :: l₂) s).1 = _
    rw [show l₁ ++ dt :: l₂ = (l₁ ++ [dt]) ++ l₂ by simp, steps_append]
  rw [e1] at e2 ⊢
  exact ⟨h2, h3, h4, h5, e2⟩

theorem demo_linear : Linear (demo fun _ => false) LinearMap.id 0 LinearMap.id :=
  ⟨fun _ _ => rfl, fun _ _ _ => rfl, fun _ _ _ => rfl⟩

theorem demo_forced (b : ℕ → Bool) : Forced (demo b) fun _ => 0 := fun _ _ => rfl

theorem demo_residual (b : ℕ → Bool) : Residual (demo b) LinearMap.id fun _ => 0 :=
  fun _ x _ => by simp [demo]

theorem demo_solves (b : ℕ → Bool) (m : ℚ →ₗ[ℚ] ℚ) (h : m 1 ≠ 0) : Solves (demo b) m := by
  intro n x
  have e1 : m (x / m 1) = (x / m 1) * m 1 := by
    conv_lhs => rw [← mul_one (x / m 1), ← smul_eq_mul, map_smul, smul_eq_mul]
  show m (x / m 1) = x
  rw [e1, div_mul_cancel₀ _ h]

example : Linear (demo fun _ => false) LinearMap.id 0 LinearMap.id ∧
    Forced (demo fun _ => false) (fun _ => 0) ∧
    Solves (demo fun _ => false) (LinearMap.id + (demoOpts.delta * 1) • 0 +
      (1 * 1 * demoOpts.alpha) • LinearMap.id) :=
  ⟨demo_linear, demo_forced _, demo_solves _ _ (by decide +kernel)⟩

/-! ## C58 -/

/-- Twice the energy of a state. -/
def energy (B : V →ₗ[K] V →ₗ[K] K) (M S : V →ₗ[K] V) (s : DSt K V) : K := B s.v (M s.v) + B s.u (S s.u)

/-- The balance of energy of one step with the parameters 1/4 and 1/2, without load and from a state in
equilibrium. -/
theorem newmark_balance {e : Env K V} {o : Opts K} {M C S : V →ₗ[K] V} {dt : K} {s : DSt K V}
    (B : V →ₗ[K] V →ₗ[K] K) (hl : Linear e M C S) (hf : Forced e fun _ => 0)
    (ha : o.alpha = 1 / 4) (hd : o.delta = 1 / 2)
    (hs : Solves e (M + (o.delta * dt) • C + (dt * dt * o.alpha) • S))
    (hB : ∀ x y, B x y = B y x) (hM : ∀ x y, B x (M y) = B (M x) y) (hS : ∀ x y, B x (S y) = B (S x) y)
    (heq : M s.a + C s.v + S s.u = 0) :
    let q := (step none (integrate .newmark false e o) dt s).1
    energy B M S q = energy B M S s - dt / 2 * B (s.v + q.v) (C (s.v + q.v)) ∧
      M q.a + C q.v + S q.u = 0 := by
  intro q
  obtain ⟨q', r, h1, h2, h3, h4, -⟩ := C57_step e o M C S _ dt s hl hf hs
  have hq : q = q' := by show (step none _ dt s).1 = q'; rw [h1]
  rw [hq]
  refine ⟨?_, h4⟩
  have hu : q'.u = s.u + (dt / 2) • (s.v + q'.v) := by
    rw [h2, h3, ha, hd]; module
  have hv : q'.v = s.v + (dt / 2) • (s.a + q'.a) := by
    rw [h3, hd]; module
  have hsum : M (s.a + q'.a) + C (s.v + q'.v) + S (s.u + q'.u) = 0 := by
    have : M (s.a + q'.a) + C (s.v + q'.v) + S (s.u + q'.u) =
        (M s.a + C s.v + S s.u) + (M q'.a + C q'.v + S q'.u) := by
      simp only [map_add]; abel
    rw [this, heq, h4, add_zero]
  -- E' - E in terms of sums and differences
  have d1 : B q'.v (M q'.v) - B s.v (M s.v) = B (q'.v - s.v) (M (s.v + q'.v)) := by
    simp only [map_add, map_sub, LinearMap.sub_apply]
    have := hM s.v q'.v
    have h' := hB (M s.v) q'.v
    linear_combination this + h'
  have d2 : B q'.u (S q'.u) - B s.u (S s.u) = B (q'.u - s.u) (S (s.u + q'.u)) := by
    simp only [map_add, map_sub, LinearMap.sub_apply]
    have := hS s.u q'.u
    have h' := hB (S s.u) q'.u
    linear_combination this + h'
  have e1 : q'.v - s.v = (dt / 2) • (s.a + q'.a) := by
    conv_lhs => rw [hv]
    abel
  have e2 : q'.u - s.u = (dt / 2) • (s.v + q'.v) := by rw [hu]; abel
  rw [e1] at d1
  rw [e2] at d2
  have d3 : B (s.a + q'.a) (M (s.v + q'.v)) = B (s.v + q'.v) (M (s.a + q'.a)) := by
    rw [hM, hB]
  have d4 : B (s.v + q'.v) (M (s.a + q'.a)) + B (s.v + q'.v) (C (s.v + q'.v)) +
      B (s.v + q'.v) (S (s.u + q'.u)) = 0 := by
    rw [← map_add, ← map_add, hsum, map_zero]
  simp only [map_smul, LinearMap.smul_apply, smul_eq_mul] at d1 d2
  simp only [energy]
  linear_combination d1 + d2 + dt / 2 * d3 + dt / 2 * d4

/-- Average acceleration conserves the energy exactly, for any number of steps of any sizes. -/
theorem C58_conserved (e : Env K V) (o : Opts K) (M S : V →ₗ[K] V) (s : DSt K V)
    (B : V →ₗ[K] V →ₗ[K] K) (hl : Linear e M 0 S) (hf : Forced e fun _ => 0)
    (ha : o.alpha = 1 / 4) (hd : o.delta = 1 / 2) (l : List K)
    (hs : ∀ dt ∈ l, Solves e (M + (o.delta * dt) • (0 : V →ₗ[K] V) + (dt * dt * o.alpha) • S))
    (hB : ∀ x y, B x y = B y x) (hM : ∀ x y, B x (M y) = B (M x) y) (hS : ∀ x y, B x (S y) = B (S x) y)
    (heq : M s.a + S s.u = 0) :
    let q := (steps none (integrate .newmark false e o) l s).1
    B q.v (M q.v) + B q.u (S q.u) = B s.v (M s.v) + B s.u (S s.u) := by
  induction l generalizing s with
  | nil => rfl
  | cons dt l ih =>
    obtain ⟨h1, h2⟩ := newmark_balance (dt := dt) (s := s) B hl hf ha hd (hs dt (by simp)) hB hM hS
      (by simpa using heq)
    refine (ih _ (fun x hx => hs x (by simp [hx])) (by simpa using h2)).trans ?_
    simpa [energy] using h1

/-- With damping that takes energy out, and steps which are not negative, the energy never increases. -/
theorem C58_damped (e : Env K V) (o : Opts K) (M C S : V →ₗ[K] V) (s : DSt K V)
    (B : V →ₗ[K] V →ₗ[K] K) (hl : Linear e M C S) (hf : Forced e fun _ => 0)
    (ha : o.alpha = 1 / 4) (hd : o.delta = 1 / 2) (l : List K) (hpos : ∀ dt ∈ l, 0 ≤ dt)
    (hs : ∀ dt ∈ l, Solves e (M + (o.delta * dt) • C + (dt * dt * o.alpha) • S))
    (hB : ∀ x y, B x y = B y x) (hM : ∀ x y, B x (M y) = B (M x) y) (hS : ∀ x y, B x (S y) = B (S x) y)
    (hC : ∀ x, 0 ≤ B x (C x)) (heq : M s.a + C s.v + S s.u = 0) :
    let q := (steps none (integrate .newmark false e o) l s).1
    B q.v (M q.v) + B q.u (S q.u) ≤ B s.v (M s.v) + B s.u (S s.u) := by
  induction l generalizing s with
  | nil => exact le_refl _
  | cons dt l ih =>
    obtain ⟨h1, h2⟩ := newmark_balance (dt := dt) (s := s) B hl hf ha hd (hs dt (by simp)) hB hM hS heq
    refine (ih _ (fun x hx => hpos x (by simp [hx])) (fun x hx => hs x (by simp [hx])) h2).trans ?_
    have h3 := hC (s.v + (step none (integrate .newmark false e o) dt s).1.v)
    have h4 := hpos dt (by simp)
    have h5 : 0 ≤ dt / 2 * B (s.v + (step none (integrate .newmark false e o) dt s).1.v)
        (C (s.v + (step none (integrate .newmark false e o) dt s).1.v)) :=
      mul_nonneg (by linarith) h3
    simp only [energy] at h1
    show _ ≤ _
    rw [h1]
    linarith

/-- A swing of one degree of freedom: energy 1 after three steps. -/
example :
    let q := (steps none (integrate .newmark false (demo fun _ => false) demoOpts) [1, 1 / 2, 3]
      (DSt.init (1 : ℚ) 0 (-1))).1
    q.v * q.v + q.u * q.u = 1 ∧ q.u ≠ 1 := by
  decide +kernel

/-! ## C60 -/

/-- `gmres` solves the block system of implicit Euler exactly. -/
def BlockSolves (e : Env K V) (dt : K) (S D : V →ₗ[K] V) : Prop :=
  ∀ n x y, let z := e.gmres n LinearMap.id (-(dt • LinearMap.id)) (dt • S) D x y
    z.1 - dt • z.2 = x ∧ dt • S z.1 + D z.2 = y

/-- The equations of a linear implicit Euler step. -/
theorem C60_equations (e : Env K V) (o : Opts K) (M C S : V →ₗ[K] V) (F : K → V) (dt : K) (s : DSt K V)
    (hl : Linear e M C S) (hf : Forced e F) (hs : BlockSolves e dt S (M + dt • C)) :
    ∃ q r, step none (integrate .implicitEuler false e o) dt s = (q, .ok r) ∧
      q.u = s.u + dt • q.v ∧
      M (q.v - s.v) + dt • C q.v + dt • S q.u = dt • F (s.time + dt) ∧ q.time = s.time + dt := by
  obtain ⟨lg, h⟩ := implicitEulerL_linear hl hf s.time dt s
  obtain ⟨h1, h2⟩ := hs (s.log.length + 4) s.u (dt • F (s.time + dt) + M s.v)
  refine ⟨_, _, step_none _ _ _ _ _ h, sub_eq_iff_eq_add.1 h1, ?_, rfl⟩
  have e1 : ∀ z : V × V, M (z.2 - s.v) + dt • C z.2 + dt • S z.1 =
      dt • S z.1 + (M + dt • C) z.2 - M s.v := by
    intro z
    simp only [map_sub, LinearMap.add_apply, LinearMap.smul_apply]
    abel
  refine (e1 _).trans ?_
  rw [h2]
  abel

/-- Without load, with semidefinite mass, stiffness and damping, the energy never increases, for any number
of steps of any positive sizes. -/
theorem C60_stable (e : Env K V) (o : Opts K) (M C S : V →ₗ[K] V) (s : DSt K V)
    (B : V →ₗ[K] V →ₗ[K] K) (hl : Linear e M C S) (hf : Forced e fun _ => 0) (l : List K)
    (hpos : ∀ dt ∈ l, 0 ≤ dt) (hs : ∀ dt ∈ l, BlockSolves e dt S (M + dt • C))
    (hB : ∀ x y, B x y = B y x) (hM : ∀ x y, B x (M y) = B (M x) y) (hS : ∀ x y, B x (S y) = B (S x) y)
    (hMp : ∀ x, 0 ≤ B x (M x)) (hSp : ∀ x, 0 ≤ B x (S x)) (hC : ∀ x, 0 ≤ B x (C x)) :
    let q := (steps none (integrate .implicitEuler false e o) l s).1
    B q.v (M q.v) + B q.u (S q.u) ≤ B s.v (M s.v) + B s.u (S s.u) := by
  induction l generalizing s with
  | nil => exact le_refl _
  | cons dt l ih =>
    refine (ih _ (fun x hx => hpos x (by simp [hx])) fun x hx => hs x (by simp [hx])).trans ?_
    obtain ⟨q, r, h1, h2, h3, -⟩ := C60_equations e o M C S _ dt s hl hf (hs dt (by simp))
    simp only [h1]
    have h4 := hpos dt (by simp)
    have a1 := hMp (q.v - s.v)
    have a2 := hSp (q.u - s.u)
    have a3 := mul_nonneg h4 (hC q.v)
    have b1 : B (q.v - s.v) (M (q.v - s.v)) =
        2 * B q.v (M (q.v - s.v)) - (B q.v (M q.v) - B s.v (M s.v)) := by
      simp only [map_sub, LinearMap.sub_apply]
      have := hM s.v q.v
      have h' := hB (M s.v) q.v
      linear_combination -this - h'
    have b2 : B (q.u - s.u) (S (q.u - s.u)) =
        2 * B (q.u - s.u) (S q.u) - (B q.u (S q.u) - B s.u (S s.u)) := by
      simp only [map_sub, LinearMap.sub_apply]
      have := hS s.u q.u
      have h' := hB (S s.u) q.u
      linear_combination this + h'
    have e1 : q.u - s.u = dt • q.v := by rw [h2]; abel
    have b3 : B (q.u - s.u) (S q.u) = dt * B q.v (S q.u) := by
      rw [e1]; simp
    have b4 : B q.v (M (q.v - s.v)) + dt * B q.v (C q.v) + dt * B q.v (S q.u) = 0 := by
      have := congrArg (B q.v) h3
      simpa only [map_add, map_smul, smul_eq_mul, smul_zero, map_zero] using this
    linarith

theorem demo_blockSolves (b : ℕ → Bool) (dt : ℚ) (S D : ℚ →ₗ[ℚ] ℚ) (h : D 1 + dt * dt * S 1 ≠ 0) :
    BlockSolves (demo b) dt S D := by
  intro n x y
  have lin : ∀ (m : ℚ →ₗ[ℚ] ℚ) (x : ℚ), m x = x * m 1 := by
    intro m x
    conv_lhs => rw [← mul_one x, ← smul_eq_mul, map_smul, smul_eq_mul]
  simp only [demo, LinearMap.id_apply, LinearMap.neg_apply, LinearMap.smul_apply, smul_eq_mul, mul_one]
  rw [lin S ((D 1 * x - -dt * y) / _), lin D ((1 * y - dt * S 1 * x) / _)]
  have h' : D 1 + dt ^ 2 * S 1 ≠ 0 := by
    intro h0
    exact h (by linear_combination h0)
  have e1 : 1 * D 1 - -dt * (dt * S 1) = D 1 + dt ^ 2 * S 1 := by ring
  rw [e1]
  constructor
  · field_simp
    ring
  · field_simp
    ring

/-- A swing of one degree of freedom with large steps: the energy decreases from 1. -/
example :
    let q := (steps none (integrate .implicitEuler false (demo fun _ => false) demoOpts) [1, 10, 3]
      (DSt.init (1 : ℚ) 0 0)).1
    q.v * q.v + q.u * q.u < 1 ∧ 0 < q.v * q.v + q.u * q.u := by
  decide +kernel

example : BlockSolves (demo fun _ => false) 10 LinearMap.id (LinearMap.id + (10 : ℚ) • 0) :=
  demo_blockSolves _ _ _ _ (by decide +kernel)

/-! ## C62 and C94 -/

/-- The first order form of the system: `(u, v) ↦ (v, X (-S u - C v))`. -/
def firstOrder (X C S : V →ₗ[K] V) : Module.End K (V × V) :=
  LinearMap.prod (LinearMap.snd K V V)
    (X ∘ₗ (-(S ∘ₗ LinearMap.fst K V V) - C ∘ₗ LinearMap.snd K V V))

/-- The polynomial of fourth order. -/
def taylor4 (h : K) (L : Module.End K (V × V)) : Module.End K (V × V) :=
  1 + h • L + (h ^ 2 / 2) • L ^ 2 + (h ^ 3 / 6) • L ^ 3 + (h ^ 4 / 24) • L ^ 4

theorem rkNext_taylor (X C S : V →ₗ[K] V) (t dt : K) (w : V × V) :
    rkNext X C S (fun _ => 0) t dt w = taylor4 dt (firstOrder X C S) w := by
  have hf : ∀ x : V × V, (x.2, X ((0 : V) - S x.1 - C x.2)) = firstOrder X C S x := by
    intro x
    simp [firstOrder]
  simp only [rkNext, hf]
  generalize firstOrder X C S = L
  simp only [taylor4, LinearMap.add_apply, LinearMap.smul_apply, map_add, map_smul, Module.End.one_apply,
    pow_succ, pow_zero, one_mul, Module.End.mul_apply]
  module

/-- What holds of the state along the steps: the vectors, and the mass inverse if there is one. -/
theorem explicit_history {e : Env K V} {M : V →ₗ[K] V} {f : K → K → Act (DSt K V) Status} {h : K}
    {P : Module.End K (V × V)}
    (hstep : ∀ s : DSt K V, minvOf e M s = e.inverse M → ∃ q r, f s.time h s = (q, .ok r) ∧
      (q.u, q.v) = P (s.u, s.v) ∧ q.massInv = some (e.inverse M)) (n : ℕ) (s : DSt K V)
    (hs : s.massInv = none ∨ s.massInv = some (e.inverse M)) :
    let q := (steps none f (List.replicate n h) s).1
    (q.u, q.v) = (P ^ n) (s.u, s.v) := by
  induction n generalizing s with
  | zero => simp [steps]
  | succ n ih =>
    have h0 : minvOf e M s = e.inverse M := by
      rcases hs with hs | hs <;> simp [minvOf, hs]
    obtain ⟨q, r, h1, h2, h3⟩ := hstep s h0
    have h4 := step_none f h s q r h1
    have e1 : (steps none f (List.replicate (n + 1) h) s).1 = (steps none f (List.replicate n h)
        { q with time := q.time + h, status := r }).1 := by
      simp [List.replicate_succ, steps, h4]
    simp only [e1]
    have h5 := ih { q with time := q.time + h, status := r } (Or.inr h3)
    simp only at h5
    rw [h5, h2, pow_succ]
    rfl

/-- Runge-Kutta without load: `n` steps of size `h` from a new object apply the `n`-th power of the fourth
order Taylor polynomial of the exponential of the first order system. -/
theorem C62_taylor (e : Env K V) (o : Opts K) (M C S : V →ₗ[K] V) (h : K) (n : ℕ) (u v a : V)
    (hl : Linear e M C S) (hf : Forced e fun _ => 0) :
    let q := (steps none (integrate .rk4 false e o) (List.replicate n h) (DSt.init u v a)).1
    let L := firstOrder (e.inverse M) C S
    let P : Module.End K (V × V) :=
      1 + h • L + (h ^ 2 / 2) • L ^ 2 + (h ^ 3 / 6) • L ^ 3 + (h ^ 4 / 24) • L ^ 4
    (q.u, q.v) = (P ^ n) (u, v) := by
  refine explicit_history (e := e) (M := M) (fun s hs => ?_) n _ (Or.inl rfl)
  obtain ⟨lg, h1⟩ := rk4L_linear hl hf s.time h s
  exact ⟨_, _, h1, by simp only [hs]; exact rkNext_taylor (e.inverse M) C S s.time h (s.u, s.v),
    by simp only [hs]⟩

/-- Three steps for one degree of freedom. -/
example :
    let q := (steps none (integrate .rk4 false (demo fun _ => false) demoOpts) [1, 1, 1]
      (DSt.init (1 : ℚ) 0 0)).1
    -- (1 + i - 1/2 - i/6 + 1/24)^3 with u - i v
    let c : ℚ := 1 - 1 / 2 + 1 / 24
    let d : ℚ := 1 - 1 / 6
    q.u = c ^ 3 - 3 * c * d ^ 2 ∧ q.v = -(3 * c ^ 2 * d - d ^ 3) := by
  decide +kernel

/-- Explicit Euler without load: `n` steps apply the `n`-th power of `1 + h L`. -/
theorem C94_euler (e : Env K V) (o : Opts K) (M C S : V →ₗ[K] V) (h : K) (n : ℕ) (u v a : V)
    (hl : Linear e M C S) (hf : Forced e fun _ => 0) :
    let q := (steps none (integrate .explicitEuler false e o) (List.replicate n h) (DSt.init u v a)).1
    let L := firstOrder (e.inverse M) C S
    let P : Module.End K (V × V) := 1 + h • L
    (q.u, q.v) = (P ^ n) (u, v) := by
  refine explicit_history (e := e) (M := M) (fun s hs => ?_) n _ (Or.inl rfl)
  obtain ⟨lg, h1⟩ := explicitEulerL_linear hl hf s.time h s
  exact ⟨_, _, h1, by simp [hs, firstOrder], by simp only [hs]⟩

example :
    let q := (steps none (integrate .explicitEuler false (demo fun _ => false) demoOpts) [1, 1, 1]
      (DSt.init (1 : ℚ) 0 0)).1
    q.u = -2 ∧ q.v = -2 := by
  decide +kernel

/-! ## C63 -/

/-- The three-point formula gives the derivative of a parabola. -/
theorem parabola {o : Opts K} {dt : K} {x y z b c : V} (hdt : dt ≠ 0) (hg0 : o.gamma ≠ 0)
    (hg1 : o.gamma ≠ 1) (h1 : y = x + (o.gamma * dt) • b + ((o.gamma * dt) ^ 2) • c)
    (h2 : z = x + dt • b + (dt ^ 2) • c) :
    c1 o dt • x + c2 o dt • y + c3 o dt • z = b + (2 * dt) • c := by
  have hg : (1 : K) - o.gamma ≠ 0 := sub_ne_zero.2 (Ne.symm hg1)
  have k1 : c1 o dt + c2 o dt + c3 o dt = 0 := by
    simp only [c1, c2, c3]
    field_simp
    ring
  have k2 : c2 o dt * (o.gamma * dt) + c3 o dt * dt = 1 := by
    simp only [c2, c3]
    field_simp
    ring
  have k3 : c2 o dt * (o.gamma * dt) ^ 2 + c3 o dt * dt ^ 2 = 2 * dt := by
    simp only [c2, c3]
    field_simp
    ring
  have e1 : c1 o dt • x + c2 o dt • y + c3 o dt • z = (c1 o dt + c2 o dt + c3 o dt) • x +
      (c2 o dt * (o.gamma * dt) + c3 o dt * dt) • b +
      (c2 o dt * (o.gamma * dt) ^ 2 + c3 o dt * dt ^ 2) • c := by
    rw [h1, h2]; module
  rw [e1, k1, k2, k3, zero_smul, one_smul, zero_add]

/-- There is a parabola through three points. -/
theorem exists_parabola {o : Opts K} {dt : K} (hdt : dt ≠ 0) (hg0 : o.gamma ≠ 0)
    (hg1 : o.gamma ≠ 1) (x y z : V) : ∃ b c : V,
      y = x + (o.gamma * dt) • b + ((o.gamma * dt) ^ 2) • c ∧ z = x + dt • b + (dt ^ 2) • c := by
  have hg : (1 : K) - o.gamma ≠ 0 := sub_ne_zero.2 (Ne.symm hg1)
  obtain ⟨g, hgi⟩ : ∃ g : K, g * (dt ^ 2 * (1 - o.gamma)) = 1 := ⟨_, inv_mul_cancel₀ (by positivity)⟩
  obtain ⟨k, hk⟩ : ∃ k : K, k * o.gamma = 1 := ⟨_, inv_mul_cancel₀ hg0⟩
  obtain ⟨d, hd⟩ : ∃ d : K, d * dt = 1 := ⟨_, inv_mul_cancel₀ hdt⟩
  let c : V := g • ((z - x) - k • (y - x))
  refine ⟨d • (z - x) - dt • c, c, ?_, ?_⟩
  · have e1 : x + (o.gamma * dt) • (d • (z - x) - dt • c) + ((o.gamma * dt) ^ 2) • c =
        x + (o.gamma * (d * dt)) • (z - x) - (o.gamma * (g * (dt ^ 2 * (1 - o.gamma)))) • (z - x) +
          ((k * o.gamma) * (g * (dt ^ 2 * (1 - o.gamma)))) • (y - x) := by
      simp only [c]; module
    rw [e1, hd, hgi, hk, mul_one, mul_one, one_smul]
    abel
  · have e1 : x + dt • (d • (z - x) - dt • c) + (dt ^ 2) • c = x + (d * dt) • (z - x) := by module
    rw [e1, hd, one_smul]
    abel

/-- The linear Bathe step: equilibrium at the new time, and velocity and acceleration are the derivatives at
`dt` of the parabolas through the old values at 0, those of the first stage at `gamma dt`, and the new ones
at `dt`. The first stage is the Newmark step. -/
theorem C63_step (e : Env K V) (o : Opts K) (M C S : V →ₗ[K] V) (F : K → V) (dt : K) (s : DSt K V)
    (hl : Linear e M C S) (hf : Forced e F) (hdt : dt ≠ 0) (hg0 : o.gamma ≠ 0) (hg1 : o.gamma ≠ 1)
    (hs2 : Solves e (S + (((2 - o.gamma) / ((1 - o.gamma) * dt)) ^ 2) • M +
      ((2 - o.gamma) / ((1 - o.gamma) * dt)) • C)) :
    ∃ q r p r', step none (integrate .bathe false e o) dt s = (q, .ok r) ∧
      step none (integrate .newmark false e o) (o.gamma * dt) s = (p, .ok r') ∧
      M q.a + C q.v + S q.u = F (s.time + dt) ∧ q.time = s.time + dt ∧
      (∃ b c : V, p.u = s.u + (o.gamma * dt) • b + ((o.gamma * dt) ^ 2) • c ∧
        q.u = s.u + dt • b + (dt ^ 2) • c ∧ q.v = b + (2 * dt) • c) ∧
      (∃ b c : V, p.v = s.v + (o.gamma * dt) • b + ((o.gamma * dt) ^ 2) • c ∧
        q.v = s.v + dt • b + (dt ^ 2) • c ∧ q.a = b + (2 * dt) • c) := by
  obtain ⟨n, as, lg, has, h⟩ := batheL_linear hl hf o s.time dt s
  have h' := newmarkL_linear hl hf o s.time (o.gamma * dt) s
  refine ⟨_, _, _, _, step_none _ _ _ _ _ h, step_none _ _ _ _ _ h', ?_, rfl, ?_, ?_⟩
  · have hs2' : Solves e (S + (c3 o dt * c3 o dt) • M + c3 o dt • C) := by
      rw [pow_two] at hs2
      exact hs2
    have key := hs2' n (F (s.time + dt) - M (c1 o dt • s.v + c2 o dt • (newmarkNext o (o.gamma * dt) s as).2
        + (c1 o dt * c3 o dt) • s.u + (c3 o dt * c2 o dt) • (newmarkNext o (o.gamma * dt) s as).1)
        - C (c2 o dt • (newmarkNext o (o.gamma * dt) s as).1 + c1 o dt • s.u))
    simp only
    generalize e.solve n _ _ = u at key ⊢
    generalize newmarkNext o (o.gamma * dt) s as = x at key ⊢
    have e1 : F (s.time + dt) = (S + (c3 o dt * c3 o dt) • M + c3 o dt • C) u +
        M (c1 o dt • s.v + c2 o dt • x.2 + (c1 o dt * c3 o dt) • s.u + (c3 o dt * c2 o dt) • x.1) +
        C (c2 o dt • x.1 + c1 o dt • s.u) := by rw [key]; abel
    rw [e1]
    simp only [LinearMap.add_apply, LinearMap.smul_apply, map_add, map_smul]
    module
  · subst has
    obtain ⟨b, c, h1, h2⟩ := exists_parabola (V := V) hdt hg0 hg1 s.u _ _
    exact ⟨b, c, h1, h2, parabola hdt hg0 hg1 h1 h2⟩
  · subst has
    obtain ⟨b, c, h1, h2⟩ := exists_parabola (V := V) hdt hg0 hg1 s.v _ _
    exact ⟨b, c, h1, h2, parabola hdt hg0 hg1 h1 h2⟩

/-- Mass 1, stiffness 1, no force: the step from (1, 0, -1) with `dt = 2`. -/
example :
    let q := (step none (integrate .bathe false (demo fun _ => false) demoOpts) 2
      (DSt.init (1 : ℚ) 0 (-1))).1
    q.a + q.u = 0 ∧ q.u = -11 / 65 ∧ q.v = -62 / 65 := by
  decide +kernel

/-! ## C88 -/

section

variable {α : Type}

theorem keepsA_call (c : Call K V) (f : ℕ → Reply α) : Keeps DSt.a (call c f) := by
  intro s
  rcases h : f s.log.length with a | _ | _ <;> simp [Dynamic.call, Act.bind_apply, h]

theorem keepsA_minv (e : Env K V) (M : V →ₗ[K] V) : Keeps DSt.a (computeMassInverse e M) := by
  intro s
  rw [computeMassInverse_apply]

theorem keepsA_implicitEulerLoop (e : Env K V) (o : Opts K) (t dt : K) (u0 v0 : V) (M : V →ₗ[K] V)
    (res0 : K) : ∀ (n it : ℕ) (C S : V →ₗ[K] V) (R : V),
      Keeps DSt.a (implicitEulerLoop e o t dt u0 v0 M res0 n it C S R) := by
  intro n
  induction n with
  | zero => exact fun _ _ _ _ => .ret _
  | succ n ih =>
    intro it C S rhs
    refine Keeps.bind ?_ fun b => .bind ?_ fun CK => .bind .get fun s =>
      .bind (.bind .get fun _ => .ret _) fun d => .bind (.modify fun _ => rfl) fun _ =>
      .bind (keepsA_call _ _) fun R => .ite (.ret _) (ih _ _ _ _)
    · exact .ite (.ret _) (.ite (.ret _) (.ite (.throw _) (.ret _)))
    · exact .ite (.bind .get fun s => .bind (keepsA_call _ _) fun _ => .bind (keepsA_call _ _) fun _ =>
        .ret _) (.ret _)

end

/-- C88 fails: the explicit Euler, Runge-Kutta and implicit Euler methods never change `accelerations()`,
in whatever way their steps end. -/
theorem C88_violated_unchanged (m : Method) (nl : Bool) (e : Env K V) (o : Opts K)
    (hm : m = .explicitEuler ∨ m = .rk4 ∨ m = .implicitEuler) (cb : Option (ℕ → K → K → Bool)) (l : List K)
    (s : DSt K V) : (steps cb (integrate m nl e o) l s).1.a = s.a := by
  have hk : ∀ t dt, Keeps DSt.a (integrate m nl e o t dt) := by
    intro t dt
    rcases hm with rfl | rfl | rfl <;> cases nl <;> simp only [integrate]
    · exact .bind .get fun s => .bind (keepsA_call _ _) fun _ => .bind (keepsA_minv _ _) fun _ =>
        .bind (keepsA_call _ _) fun _ => .bind (keepsA_call _ _) fun _ => .bind (keepsA_call _ _) fun _ =>
        .bind (.modify fun _ => rfl) fun _ => .ret _
    · exact .bind .get fun s => .bind (keepsA_call _ _) fun _ => .bind (keepsA_minv _ _) fun _ =>
        .bind (keepsA_call _ _) fun _ => .bind (keepsA_call _ _) fun _ =>
        .bind (.modify fun _ => rfl) fun _ => .ret _
    · exact .bind .get fun s => .bind (keepsA_call _ _) fun _ => .bind (keepsA_minv _ _) fun _ =>
        .bind (keepsA_call _ _) fun _ => .bind (keepsA_call _ _) fun _ => .bind (keepsA_call _ _) fun _ =>
        .bind (keepsA_call _ _) fun _ => .bind (keepsA_call _ _) fun _ => .bind (keepsA_call _ _) fun _ =>
        .bind (.modify fun _ => rfl) fun _ => .ret _
    · exact .bind .get fun s => .bind (keepsA_call _ _) fun _ => .bind (keepsA_minv _ _) fun _ =>
        .bind (keepsA_call _ _) fun _ => .bind (keepsA_call _ _) fun _ => .bind (keepsA_call _ _) fun _ =>
        .bind (keepsA_call _ _) fun _ => .bind (keepsA_call _ _) fun _ => .bind (keepsA_call _ _) fun _ =>
        .bind (.modify fun _ => rfl) fun _ => .ret _
    · exact .bind .get fun s => .bind (keepsA_call _ _) fun _ => .bind (keepsA_call _ _) fun _ =>
        .bind (keepsA_call _ _) fun _ => .bind (keepsA_call _ _) fun _ =>
        .bind (.bind .get fun _ => .ret _) fun _ => .bind (.modify fun _ => rfl) fun _ => .ret _
    · exact .bind .get fun s => .bind (keepsA_call _ _) fun _ => .bind (keepsA_call _ _) fun _ =>
        .bind (keepsA_call _ _) fun _ => keepsA_implicitEulerLoop e o t dt _ _ _ _ _ _ _ _ _
  have hstep : ∀ dt, Keeps DSt.a (step cb (integrate m nl e o) dt) := fun dt =>
    .bind .get fun s => .ite (.bind (hk _ _) fun _ => .bind (.modify fun _ => rfl) fun _ => .ret _)
      (.bind (.modify fun _ => rfl) fun _ => .ret _)
  induction l generalizing s with
  | nil => rfl
  | cons dt l ih =>
    simp only [steps]
    rw [ih, hstep dt s]

/-- After a step from rest under displacement 1 the acceleration is not 0. -/
example :
    let q := (step none (integrate .implicitEuler false (demo fun _ => false) demoOpts) 1
      (DSt.init (1 : ℚ) 0 0)).1
    q.a = 0 ∧ q.u = 1 / 2 := by
  decide +kernel

/-! ## C89 -/

/-- With a time-independent mass the inverse is computed in the first step: once it is there, explicit Euler
and Runge-Kutta steps give the same result whatever matrix the mass callback returns. -/
theorem C89_cached (m : Method) (nl : Bool) (e : Env K V) (o : Opts K)
    (hm : m = .explicitEuler ∨ m = .rk4) (dt : K) (s : DSt K V) (X : V →ₗ[K] V)
    (hc : e.constMass = true) (hs : s.massInv = some X) (M M' : V →ₗ[K] V)
    (hM : ∀ n t, e.mass n t = .value M) :
    step none (integrate m nl { e with mass := fun _ _ => .value M' } o) dt s =
      step none (integrate m nl e o) dt s := by
  have hi : integrate m nl { e with mass := fun _ _ => .value M' } o s.time dt s =
      integrate m nl e o s.time dt s := by
    rcases hm with rfl | rfl <;> cases nl <;>
      simp only [integrate, explicitEulerL, explicitEulerN, rk4L, rk4N, computeMass, computeForce,
        computeDamping, computeJacobian, computeResidual, computeMassInverse, Act.bind_apply,
        Act.get_apply, Act.modify_apply, Act.pure_apply, call, hM, hc, hs] <;> rfl
  simp only [step, Act.bind_apply, Act.get_apply, accepts, if_true, hi]

/-- And it stays for any number of steps. -/
theorem C89_kept (m : Method) (nl : Bool) (e : Env K V) (o : Opts K)
    (hm : m = .explicitEuler ∨ m = .rk4) (cb : Option (ℕ → K → K → Bool)) (l : List K)
    (s : DSt K V) (X : V →ₗ[K] V) (hc : e.constMass = true) (hs : s.massInv = some X) :
    (steps cb (integrate m nl e o) l s).1.massInv = some X := by
  have hcall : ∀ {α : Type} (c : Call K V) (f : ℕ → Reply α),
      Pres (fun s : DSt K V => s.massInv = some X) (call c f) := by
    intro α c f s hs
    rcases h : f s.log.length with a | _ | _ <;> simp [Dynamic.call, Act.bind_apply, h, hs]
  have hminv : ∀ M : V →ₗ[K] V, Pres (fun s : DSt K V => s.massInv = some X) (computeMassInverse e M) := by
    intro M s hs
    have hs : s.massInv = some X := hs
    simp [computeMassInverse, Act.bind_apply, hc, hs]
  have hk : ∀ t dt, Pres (fun s : DSt K V => s.massInv = some X) (integrate m nl e o t dt) := by
    intro t dt
    rcases hm with rfl | rfl <;> cases nl <;> simp only [integrate]
    · exact .bind .get fun s => .bind (hcall _ _) fun _ => .bind (hminv _) fun _ =>
        .bind (hcall _ _) fun _ => .bind (hcall _ _) fun _ => .bind (hcall _ _) fun _ =>
        .bind (.modify fun _ h => h) fun _ => .ret _
    · exact .bind .get fun s => .bind (hcall _ _) fun _ => .bind (hminv _) fun _ =>
        .bind (hcall _ _) fun _ => .bind (hcall _ _) fun _ =>
        .bind (.modify fun _ h => h) fun _ => .ret _
    · exact .bind .get fun s => .bind (hcall _ _) fun _ => .bind (hminv _) fun _ =>
        .bind (hcall _ _) fun _ => .bind (hcall _ _) fun _ => .bind (hcall _ _) fun _ =>
        .bind (hcall _ _) fun _ => .bind (hcall _ _) fun _ => .bind (hcall _ _) fun _ =>
        .bind (.modify fun _ h => h) fun _ => .ret _
    · exact .bind .get fun s => .bind (hcall _ _) fun _ => .bind (hminv _) fun _ =>
        .bind (hcall _ _) fun _ => .bind (hcall _ _) fun _ => .bind (hcall _ _) fun _ =>
        .bind (hcall _ _) fun _ => .bind (hcall _ _) fun _ => .bind (hcall _ _) fun _ =>
        .bind (.modify fun _ h => h) fun _ => .ret _
  have hstep : ∀ dt, Pres (fun s : DSt K V => s.massInv = some X) (step cb (integrate m nl e o) dt) :=
    fun dt => .bind .get fun s => .ite (.bind (hk _ _) fun _ => .bind (.modify fun _ h => h) fun _ => .ret _)
      (.bind (.modify fun _ h => h) fun _ => .ret _)
  induction l generalizing s with
  | nil => exact hs
  | cons dt l ih => exact ih _ (hstep dt s hs)

/-- Without the cached inverse, that is for a mass depending on time, every step inverts the mass it is
given. -/
theorem C89_timeDependent (e : Env K V) (o : Opts K) (M C S : V →ₗ[K] V) (F : K → V) (dt : K) (s : DSt K V)
    (hl : Linear e M C S) (hf : Forced e F) (hc : e.constMass = false) :
    let q := (step none (integrate .explicitEuler false e o) dt s).1
    q.v = s.v + dt • e.inverse M (F s.time - S s.u - C s.v) ∧ q.massInv = some (e.inverse M) := by
  obtain ⟨lg, h⟩ := explicitEulerL_linear hl hf s.time dt s
  have h0 : minvOf e M s = e.inverse M := by simp [minvOf, hc]
  intro q
  have h2 : q = _ := congrArg Prod.fst (step_none (integrate .explicitEuler false e o) dt s _ _ h)
  rw [h2]
  simp [h0]

/-- The mass is doubled after the first step: nothing changes. -/
example :
    let e := demo fun _ => false
    let s := (step none (integrate .explicitEuler false e demoOpts) 1 (DSt.init (1 : ℚ) 0 0)).1
    s.massInv.map (· 1) = some 1 ∧
      (step none (integrate .explicitEuler false { e with mass := fun _ _ => .value ((2 : ℚ) • LinearMap.id) }
        demoOpts) 1 s).1.v = -2 := by
  decide +kernel

end GsSA.Dynamic
