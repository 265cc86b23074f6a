import Mathlib.Algebra.Algebra.Bilinear
import Verif.Dynamic.LinearProps

/-!
# Stability of the linear integrators (C117)

The energy of a state is a quadratic form on pairs (displacements, velocities); without load and
damping the rate of change of such a pair is orthogonal to it.
-/

set_option linter.unusedSectionVars false

namespace GsSA.Dynamic

open GsSA GsSA.Static
open GsSA.ALM (Act Err)

variable {K V : Type} [Field K] [LinearOrder K] [IsStrictOrderedRing K] [AddCommGroup V] [Module K V]

/-- The energy form on pairs (displacements, velocities). -/
def eform (B : V →ₗ[K] V →ₗ[K] K) (M S : V →ₗ[K] V) : V × V →ₗ[K] V × V →ₗ[K] K :=
  B.compl₁₂ (LinearMap.snd K V V) (M ∘ₗ LinearMap.snd K V V) +
    B.compl₁₂ (LinearMap.fst K V V) (S ∘ₗ LinearMap.fst K V V)

section form

variable {B : V →ₗ[K] V →ₗ[K] K} {M C S : V →ₗ[K] V}

theorem eform_apply (x y : V × V) : eform B M S x y = B x.2 (M y.2) + B x.1 (S y.1) := rfl

theorem eform_comm (hB : ∀ x y, B x y = B y x) (hM : ∀ x y, B x (M y) = B (M x) y)
    (hS : ∀ x y, B x (S y) = B (S x) y) (x y : V × V) : eform B M S x y = eform B M S y x := by
  rw [eform_apply, eform_apply, hM, hS, hB (M x.2), hB (S x.1)]

/-- Displacements and velocities of a state. -/
def DSt.pt (s : DSt K V) : V × V := (s.u, s.v)

/-- Their rates. -/
def DSt.rate (s : DSt K V) : V × V := (s.v, s.a)

theorem energy_eq (s : DSt K V) : energy B M S s = eform B M S s.pt s.pt := rfl

/-- For states in equilibrium the rates change the energy by the work of the damping only. -/
theorem eform_rate (hB : ∀ x y, B x y = B y x) (hS : ∀ x y, B x (S y) = B (S x) y)
    {s t : DSt K V} (hs : M s.a + C s.v + S s.u = 0) (ht : M t.a + C t.v + S t.u = 0) :
    eform B M S s.pt t.rate + eform B M S t.pt s.rate = -(B s.v (C t.v) + B t.v (C s.v)) := by
  have h1 : M t.a = -C t.v - S t.u := by
    rw [← sub_eq_zero]; simpa [sub_eq_add_neg, add_comm, add_left_comm, add_assoc] using ht
  have h2 : M s.a = -C s.v - S s.u := by
    rw [← sub_eq_zero]; simpa [sub_eq_add_neg, add_comm, add_left_comm, add_assoc] using hs
  simp only [eform_apply, DSt.pt, DSt.rate, h1, h2, map_sub, map_neg]
  have h3 := hS s.u t.v
  have h4 := hB (S s.u) t.v
  have h5 := hS t.u s.v
  have h6 := hB (S t.u) s.v
  linear_combination h3 + h4 + h5 + h6

end form

/-! ## Newmark -/

/-- The quadratic form that the Newmark method controls. -/
def newmarkForm (B : V →ₗ[K] V →ₗ[K] K) (M S : V →ₗ[K] V) (o : Opts K) (h : K) (x y : V) : K :=
  B x (S x) + B y (M y) + h ^ 2 * (o.alpha - o.delta / 2) * B y (S y)

/-- The balance of one Newmark step under a constant load, for all parameters. -/
theorem newmark_general {e : Env K V} {o : Opts K} {M C S : V →ₗ[K] V} {f : V} {h : K} {s : DSt K V}
    (B : V →ₗ[K] V →ₗ[K] K) (hl : Linear e M C S) (hf : Forced e fun _ => f)
    (hs : Solves e (M + (o.delta * h) • C + (h * h * o.alpha) • S))
    (hB : ∀ x y, B x y = B y x) (hM : ∀ x y, B x (M y) = B (M x) y) (hS : ∀ x y, B x (S y) = B (S x) y)
    (heq : M s.a + C s.v + S s.u = f) :
    let q := (step none (integrate .newmark false e o) h s).1
    h * newmarkForm B M S o h q.v q.a = h * newmarkForm B M S o h s.v s.a -
        h * ((2 * o.delta - 1) * newmarkForm B M S o h 0 (q.a - s.a)) -
        2 * B (q.v - s.v) (C (q.v - s.v)) ∧
      M q.a + C q.v + S q.u = f := by
  intro q
  obtain ⟨q', r, h1, h2, h3, h4, -⟩ := C57_step e o M C S _ h s hl hf hs
  have hq : q = q' := by show (step none _ h s).1 = q'; rw [h1]
  rw [hq]
  refine ⟨?_, h4⟩
  -- jumps
  set dv := q'.v - s.v with hdv
  set da := q'.a - s.a with hda
  have ev : dv = h • ((1 / 2 : K) • (s.a + q'.a) + (o.delta - 1 / 2) • da) := by
    rw [hdv, h3, hda]; module
  have eu : q'.u - s.u = (h / 2) • (s.v + q'.v) + (h ^ 2 * (o.alpha - o.delta / 2)) • da := by
    rw [h2, h3, hda]; module
  have hj : M da + C dv + S (q'.u - s.u) = 0 := by
    have : M da + C dv + S (q'.u - s.u) = (M q'.a + C q'.v + S q'.u) - (M s.a + C s.v + S s.u) := by
      rw [hda, hdv]; simp only [map_sub]; abel
    rw [this, h4, heq, sub_self]
  have hw := congrArg (B dv) hj
  rw [map_zero, map_add, map_add, eu, map_add, map_add, map_smul, map_smul, map_smul, map_smul] at hw
  simp only [smul_eq_mul] at hw
  -- the terms
  have k1 : B dv (S (s.v + q'.v)) = B q'.v (S q'.v) - B s.v (S s.v) := by
    rw [hdv]
    simp only [map_add, map_sub, LinearMap.sub_apply]
    have a := hS s.v q'.v
    have b := hB (S s.v) q'.v
    linear_combination -a - b
  have k2 : B (s.a + q'.a) (M da) = B q'.a (M q'.a) - B s.a (M s.a) := by
    rw [hda]
    simp only [map_add, map_sub, LinearMap.add_apply]
    have a := hM s.a q'.a
    have b := hB (M s.a) q'.a
    linear_combination a + b
  have k3 : B (s.a + q'.a) (S da) = B q'.a (S q'.a) - B s.a (S s.a) := by
    rw [hda]
    simp only [map_add, map_sub, LinearMap.add_apply]
    have a := hS s.a q'.a
    have b := hB (S s.a) q'.a
    linear_combination a + b
  have k4 : B dv (M da) = h * (1 / 2 * B (s.a + q'.a) (M da) + (o.delta - 1 / 2) * B da (M da)) := by
    rw [ev]
    simp only [map_smul, LinearMap.smul_apply, map_add, LinearMap.add_apply, smul_eq_mul]
  have k5 : B dv (S da) = h * (1 / 2 * B (s.a + q'.a) (S da) + (o.delta - 1 / 2) * B da (S da)) := by
    rw [ev]
    simp only [map_smul, LinearMap.smul_apply, map_add, LinearMap.add_apply, smul_eq_mul]
  simp only [newmarkForm, map_zero, zero_add]
  rw [k4, k5, k1, k2, k3] at hw
  linear_combination 2 * hw

/-- **C117**: the Newmark method under a constant load. For `delta ≥ 1/2`, the form
`v·Sv + a·Ma + h²(alpha - delta/2) a·Sa` never increases in steps of size `h`, provided that the
part of the accelerations is not negative; for `2 alpha ≥ delta` it never is. -/
theorem C117_newmark (e : Env K V) (o : Opts K) (M C S : V →ₗ[K] V) (f : V) (s : DSt K V) {h : K}
    (hh : 0 < h) (n : ℕ) (B : V →ₗ[K] V →ₗ[K] K) (hl : Linear e M C S) (hf : Forced e fun _ => f)
    (hs : Solves e (M + (o.delta * h) • C + (h * h * o.alpha) • S)) (hd : 1 / 2 ≤ o.delta)
    (hB : ∀ x y, B x y = B y x) (hM : ∀ x y, B x (M y) = B (M x) y) (hS : ∀ x y, B x (S y) = B (S x) y)
    (hC : ∀ x, 0 ≤ B x (C x))
    (hp : ∀ x, 0 ≤ B x (M x) + h ^ 2 * (o.alpha - o.delta / 2) * B x (S x))
    (heq : M s.a + C s.v + S s.u = f) :
    let q := (steps none (integrate .newmark false e o) (List.replicate n h) s).1
    B q.v (S q.v) + (B q.a (M q.a) + h ^ 2 * (o.alpha - o.delta / 2) * B q.a (S q.a)) ≤
      B s.v (S s.v) + (B s.a (M s.a) + h ^ 2 * (o.alpha - o.delta / 2) * B s.a (S s.a)) := by
  induction n generalizing s with
  | zero => exact le_refl _
  | succ n ih =>
    obtain ⟨h1, h2⟩ := newmark_general B hl hf hs hB hM hS heq
    refine (ih _ h2).trans ?_
    set q := (step none (integrate .newmark false e o) h s).1
    have a1 : 0 ≤ newmarkForm B M S o h 0 (q.a - s.a) := by
      have := hp (q.a - s.a)
      simpa [newmarkForm] using this
    have a2 := mul_nonneg (show 0 ≤ 2 * o.delta - 1 by linarith) a1
    have a3 := hC (q.v - s.v)
    have a4 := mul_nonneg hh.le a2
    have a5 : h * newmarkForm B M S o h q.v q.a ≤ h * newmarkForm B M S o h s.v s.a := by
      rw [h1]; linarith
    have a6 := le_of_mul_le_mul_left a5 hh
    simp only [newmarkForm] at a6
    show _ ≤ _
    linarith

/-- Linear acceleration (1/6, 1/2) on the oscillator with a step of size 3, below its limit `√12`:
bounded by the start for any number of steps. -/
example (n : ℕ) :
    let o := { demoOpts with alpha := 1 / 6 }
    let q := (steps none (integrate .newmark false (demo fun _ => false) o) (List.replicate n 3)
      (DSt.init (1 : ℚ) 0 (-1))).1
    q.v * q.v + q.a * q.a / 4 ≤ 1 / 4 := by
  intro o q
  have := C117_newmark (demo fun _ => false) o LinearMap.id 0 LinearMap.id 0 (DSt.init (1 : ℚ) 0 (-1))
    (h := 3) (by norm_num) n (LinearMap.mul ℚ ℚ) demo_linear (demo_forced _)
    (demo_solves _ _ (by decide +kernel)) (by norm_num [o, demoOpts]) (fun x y => by simp [mul_comm])
    (fun _ _ => rfl) (fun _ _ => rfl) (fun x => by simp)
    (fun x => by
      simp only [LinearMap.id_apply, LinearMap.mul_apply', o, demoOpts]
      nlinarith [mul_self_nonneg x])
    (by simp [DSt.init])
  simp only [LinearMap.id_apply, LinearMap.mul_apply', o, demoOpts, DSt.init] at this
  show q.v * q.v + q.a * q.a / 4 ≤ 1 / 4
  have e : q = (steps none (integrate .newmark false (demo fun _ => false) o) (List.replicate n 3)
      (DSt.init (1 : ℚ) 0 (-1))).1 := rfl
  simp only [o, demoOpts, DSt.init] at e
  rw [e]
  norm_num at this ⊢
  linarith

/-! ## Bathe -/

/-- The balance of a Bathe step, in terms of six inner products. -/
theorem bathe_algebra {g h xx xy xz yy yz zz cww cwz czz : K}
    (h1 : yy - xx = -(g * h / 2) * cww)
    (h2 : (1 - g) ^ 2 * xz - yz + g * (2 - g) * zz = -(g * (1 - g) * h) * czz)
    (h3 : (1 - g) ^ 2 * xx - xy + g * (2 - g) * xz + (1 - g) ^ 2 * xy - yy + g * (2 - g) * yz +
      2 * (1 - g) * (yz - xz) = -(2 * (g * (1 - g) * h)) * cwz) :
    g * (2 - g) * ((2 - g) ^ 2 * (xx - zz) - (yy + (1 - g) ^ 2 * xx + g ^ 2 * zz - 2 * (1 - g) * xy -
      2 * g * yz + 2 * (1 - g) * g * xz)) =
    g * h * ((2 - g ^ 2) / 2 * cww + 2 * (2 * (1 - g) ^ 2) * cwz +
      ((2 - g) ^ 2 + g ^ 2) * (1 - g) * czz) := by
  linear_combination -(2 - g ^ 2) * h1 - ((2 - g) ^ 2 + g ^ 2) * h2 - 2 * (1 - g) * h3

/-- The balance of energy of three states related like those of a Bathe step: the start `s`, the first
stage `p` and the end `q`. -/
theorem bathe_relations {M C S : V →ₗ[K] V} {g h : K} {s p q : DSt K V} (B : V →ₗ[K] V →ₗ[K] K)
    (hB : ∀ x y, B x y = B y x) (hM : ∀ x y, B x (M y) = B (M x) y) (hS : ∀ x y, B x (S y) = B (S x) y)
    (hC : ∀ x y, B x (C y) = B (C x) y) (heq : M s.a + C s.v + S s.u = 0)
    (k4 : M p.a + C p.v + S p.u = 0) (h3 : M q.a + C q.v + S q.u = 0)
    (e1 : p.pt - s.pt = (g * h / 2) • (s.rate + p.rate))
    (e2 : (1 - g) ^ 2 • s.pt - p.pt + (g * (2 - g)) • q.pt = (g * (1 - g) * h) • q.rate) :
    let d := p.pt - (1 - g) • s.pt - g • q.pt
    let w := s.v + p.v
    g * (2 - g) * ((2 - g) ^ 2 * (energy B M S s - energy B M S q) - eform B M S d d) =
      g * h * ((2 - g ^ 2) / 2 * B w (C w) + 2 * (2 * (1 - g) ^ 2) * B w (C q.v) +
        ((2 - g) ^ 2 + g ^ 2) * (1 - g) * B q.v (C q.v)) := by
  intro d w
  show g * (2 - g) * ((2 - g) ^ 2 * (energy B M S s - energy B M S q) -
      eform B M S (p.pt - (1 - g) • s.pt - g • q.pt) (p.pt - (1 - g) • s.pt - g • q.pt)) =
    g * h * ((2 - g ^ 2) / 2 * B (s.v + p.v) (C (s.v + p.v)) + 2 * (2 * (1 - g) ^ 2) * B (s.v + p.v) (C q.v) +
        ((2 - g) ^ 2 + g ^ 2) * (1 - g) * B q.v (C q.v))
  set P := eform B M S with hP
  have hcomm := eform_comm (B := B) (M := M) (S := S) hB hM hS
  -- orthogonality
  have o1 := eform_rate (B := B) hB hS heq heq
  have o2 := eform_rate (B := B) hB hS heq k4
  have o3 := eform_rate (B := B) hB hS k4 k4
  have o4 := eform_rate (B := B) hB hS h3 h3
  have o5 := eform_rate (B := B) hB hS heq h3
  have o6 := eform_rate (B := B) hB hS k4 h3
  rw [← hP] at o1 o2 o3 o4 o5 o6
  have hCc : ∀ x y, B x (C y) = B y (C x) := fun x y => by rw [hC, hB]
  -- the three equations of `bathe_algebra`
  have f1 : P p.pt p.pt - P s.pt s.pt = -(g * h / 2) * B (s.v + p.v) (C (s.v + p.v)) := by
    have a := congrArg (P (s.pt + p.pt)) e1
    simp only [map_sub, map_smul, map_add, LinearMap.add_apply, smul_eq_mul] at a ⊢
    have b := hcomm s.pt p.pt
    have c := hCc s.v p.v
    linear_combination a - b + (g * h / 2) * (1 / 2 * o1 + o2 + 1 / 2 * o3)
  have f2 : (1 - g) ^ 2 * P s.pt q.pt - P p.pt q.pt + g * (2 - g) * P q.pt q.pt =
      -(g * (1 - g) * h) * B q.v (C q.v) := by
    have a := congrArg (P q.pt) e2
    simp only [map_sub, map_smul, map_add, smul_eq_mul] at a
    have b := hcomm s.pt q.pt
    have c := hcomm p.pt q.pt
    linear_combination a + (1 - g) ^ 2 * b - c + (g * (1 - g) * h) * (1 / 2 * o4)
  have f3 : (1 - g) ^ 2 * P s.pt s.pt - P s.pt p.pt + g * (2 - g) * P s.pt q.pt +
      (1 - g) ^ 2 * P s.pt p.pt - P p.pt p.pt + g * (2 - g) * P p.pt q.pt +
      2 * (1 - g) * (P p.pt q.pt - P s.pt q.pt) =
      -(2 * (g * (1 - g) * h)) * B (s.v + p.v) (C q.v) := by
    have a := congrArg (P (s.pt + p.pt)) e2
    have a' := congrArg (P q.pt) e1
    simp only [map_sub, map_smul, map_add, LinearMap.add_apply, smul_eq_mul] at a a' ⊢
    have b := hcomm s.pt p.pt
    have c := hcomm s.pt q.pt
    have c' := hcomm p.pt q.pt
    have d1 := hCc s.v q.v
    have d2 := hCc p.v q.v
    linear_combination a + 2 * (1 - g) * a' + (1 - g) ^ 2 * b +
      2 * (1 - g) * (c' - c) + (g * (1 - g) * h) * (o5 + o6 + d1 + d2)
  have key := bathe_algebra f1 f2 f3
  rw [energy_eq, energy_eq, ← hP, ← key]
  simp only [map_sub, map_smul, LinearMap.sub_apply, LinearMap.smul_apply, smul_eq_mul]
  have b := hcomm s.pt p.pt
  have c := hcomm s.pt q.pt
  have c' := hcomm p.pt q.pt
  linear_combination -(g * (2 - g)) *
    ((1 - g) * b + g * c' - g * (1 - g) * c)

/-- Such a balance means that the energy does not increase. -/
theorem bathe_decrease {M C S : V →ₗ[K] V} {g h : K} {s p q : DSt K V} (B : V →ₗ[K] V →ₗ[K] K)
    (hg0 : 0 < g) (hg1 : g < 1) (hh : 0 < h) (hB : ∀ x y, B x y = B y x)
    (hC : ∀ x y, B x (C y) = B (C x) y) (hMp : ∀ x, 0 ≤ B x (M x)) (hSp : ∀ x, 0 ≤ B x (S x))
    (hCp : ∀ x, 0 ≤ B x (C x))
    (h1 : let d := p.pt - (1 - g) • s.pt - g • q.pt
      let w := s.v + p.v
      g * (2 - g) * ((2 - g) ^ 2 * (energy B M S s - energy B M S q) - eform B M S d d) =
        g * h * ((2 - g ^ 2) / 2 * B w (C w) + 2 * (2 * (1 - g) ^ 2) * B w (C q.v) +
          ((2 - g) ^ 2 + g ^ 2) * (1 - g) * B q.v (C q.v))) :
    energy B M S q ≤ energy B M S s := by
  have hP : ∀ x, 0 ≤ eform B M S x x := fun x => by
    rw [eform_apply]; exact add_nonneg (hMp _) (hSp _)
  -- the work of the damping
  have hform : ∀ w z : V, 0 ≤ (2 - g ^ 2) / 2 * B w (C w) + 2 * (2 * (1 - g) ^ 2) * B w (C z) +
      ((2 - g) ^ 2 + g ^ 2) * (1 - g) * B z (C z) := by
    intro w z
    have hA : 0 < (2 - g ^ 2) / 2 := by nlinarith
    have k1 := hCp (((2 - g ^ 2) / 2) • w + (2 * (1 - g) ^ 2) • z)
    have k2 : B (((2 - g ^ 2) / 2) • w + (2 * (1 - g) ^ 2) • z)
        (C (((2 - g ^ 2) / 2) • w + (2 * (1 - g) ^ 2) • z)) +
        (1 - g) * (1 - (1 - g) ^ 2) * (2 - g) ^ 2 * B z (C z) =
        (2 - g ^ 2) / 2 * ((2 - g ^ 2) / 2 * B w (C w) + 2 * (2 * (1 - g) ^ 2) * B w (C z) +
          ((2 - g) ^ 2 + g ^ 2) * (1 - g) * B z (C z)) := by
      simp only [map_add, map_smul, LinearMap.add_apply, LinearMap.smul_apply, smul_eq_mul]
      have : B z (C w) = B w (C z) := by rw [hC, hB]
      rw [this]; ring
    have k3 : 0 ≤ (1 - g) * (1 - (1 - g) ^ 2) * (2 - g) ^ 2 * B z (C z) := by
      refine mul_nonneg (mul_nonneg (mul_nonneg (by linarith) ?_) (sq_nonneg _)) (hCp z)
      nlinarith
    have k4 : 0 ≤ (2 - g ^ 2) / 2 * ((2 - g ^ 2) / 2 * B w (C w) + 2 * (2 * (1 - g) ^ 2) * B w (C z) +
          ((2 - g) ^ 2 + g ^ 2) * (1 - g) * B z (C z)) := by rw [← k2]; exact add_nonneg k1 k3
    exact nonneg_of_mul_nonneg_right k4 hA
  have k5 := mul_nonneg (mul_pos hg0 hh).le (hform (s.v + p.v) q.v)
  have k6 : 0 ≤ (2 - g) ^ 2 * (energy B M S s - energy B M S q) -
      eform B M S (p.pt - (1 - g) • s.pt - g • q.pt) (p.pt - (1 - g) • s.pt - g • q.pt) :=
    nonneg_of_mul_nonneg_right (a := g * (2 - g)) (by rw [h1]; exact k5)
      (mul_pos hg0 (by linarith))
  have k7 := hP (p.pt - (1 - g) • s.pt - g • q.pt)
  have k8 : 0 ≤ energy B M S s - energy B M S q :=
    nonneg_of_mul_nonneg_right (a := (2 - g) ^ 2) (by linarith) (pow_pos (by linarith) 2)
  linarith

/-- The balance of energy of a linear Bathe step with the parameters 1/4 and 1/2, without load and
from a state in equilibrium: what is lost is the energy of the deviation of the first stage from the
straight line, and the work of the damping. -/
theorem bathe_balance {e : Env K V} {o : Opts K} {M C S : V →ₗ[K] V} {h : K} {s : DSt K V}
    (B : V →ₗ[K] V →ₗ[K] K) (hl : Linear e M C S) (hf : Forced e fun _ => 0)
    (ha : o.alpha = 1 / 4) (hd : o.delta = 1 / 2) (hh : h ≠ 0) (hg0 : o.gamma ≠ 0) (hg1 : o.gamma ≠ 1)
    (hs1 : Solves e (M + (o.delta * (o.gamma * h)) • C +
      ((o.gamma * h) * (o.gamma * h) * o.alpha) • S))
    (hs2 : Solves e (S + (((2 - o.gamma) / ((1 - o.gamma) * h)) ^ 2) • M +
      ((2 - o.gamma) / ((1 - o.gamma) * h)) • C))
    (hB : ∀ x y, B x y = B y x) (hM : ∀ x y, B x (M y) = B (M x) y) (hS : ∀ x y, B x (S y) = B (S x) y)
    (hC : ∀ x y, B x (C y) = B (C x) y) (heq : M s.a + C s.v + S s.u = 0) :
    let q := (step none (integrate .bathe false e o) h s).1
    let p := (step none (integrate .newmark false e o) (o.gamma * h) s).1
    let d := p.pt - (1 - o.gamma) • s.pt - o.gamma • q.pt
    let w := s.v + p.v
    o.gamma * (2 - o.gamma) * ((2 - o.gamma) ^ 2 * (energy B M S s - energy B M S q) -
      eform B M S d d) = o.gamma * h * ((2 - o.gamma ^ 2) / 2 * B w (C w) +
        2 * (2 * (1 - o.gamma) ^ 2) * B w (C q.v) +
        ((2 - o.gamma) ^ 2 + o.gamma ^ 2) * (1 - o.gamma) * B q.v (C q.v)) ∧
      M q.a + C q.v + S q.u = 0 := by
  intro q p d w
  obtain ⟨q', r, p', r', h1, h2, h3, -, ⟨b, c, hb1, hb2, hb3⟩, ⟨b', c', hc1, hc2, hc3⟩⟩ :=
    C63_step e o M C S _ h s hl hf hh hg0 hg1 hs2
  obtain ⟨p'', r'', k1, k2, k3, k4, -⟩ := C57_step e o M C S _ (o.gamma * h) s hl hf hs1
  have hq : q = q' := by show (step none _ h s).1 = q'; rw [h1]
  have hp : p = p' := by show (step none _ (o.gamma * h) s).1 = p'; rw [h2]
  have hp' : p' = p'' := by rw [h2] at k1; simpa using congrArg Prod.fst k1
  subst hp'
  rw [hq]
  refine ⟨?_, h3⟩
  have hw : w = s.v + p'.v := by show s.v + p.v = _; rw [hp]
  have hd' : d = p'.pt - (1 - o.gamma) • s.pt - o.gamma • q'.pt := by
    show p.pt - _ - o.gamma • q.pt = _; rw [hp, hq]
  rw [hw, hd']
  -- the two stages as relations between pairs
  have e1 : p'.pt - s.pt = (o.gamma * h / 2) • (s.rate + p'.rate) := by
    have a1 : p'.v - s.v = (o.gamma * h / 2) • (s.a + p'.a) := by rw [k3, hd]; module
    have a2 : p'.u - s.u = (o.gamma * h / 2) • (s.v + p'.v) := by rw [k2, k3, ha, hd]; module
    exact Prod.ext (by simpa [DSt.pt, DSt.rate] using a2) (by simpa [DSt.pt, DSt.rate] using a1)
  have e2 : (1 - o.gamma) ^ 2 • s.pt - p'.pt + (o.gamma * (2 - o.gamma)) • q'.pt =
      (o.gamma * (1 - o.gamma) * h) • q'.rate := by
    have a1 : (1 - o.gamma) ^ 2 • s.u - p'.u + (o.gamma * (2 - o.gamma)) • q'.u =
        (o.gamma * (1 - o.gamma) * h) • q'.v := by rw [hb1, hb2, hb3]; module
    have a2 : (1 - o.gamma) ^ 2 • s.v - p'.v + (o.gamma * (2 - o.gamma)) • q'.v =
        (o.gamma * (1 - o.gamma) * h) • q'.a := by rw [hc1, hc2, hc3]; module
    exact Prod.ext (by simpa [DSt.pt, DSt.rate] using a1) (by simpa [DSt.pt, DSt.rate] using a2)
  exact bathe_relations B hB hM hS hC heq k4 h3 e1 e2

/-- **C117**: the Bathe method with the parameters 1/4 and 1/2 and a split in the open interval, on a
structure without load: the energy never increases, for any number of steps of any positive sizes. -/
theorem C117_bathe (e : Env K V) (o : Opts K) (M C S : V →ₗ[K] V) (s : DSt K V) (l : List K)
    (B : V →ₗ[K] V →ₗ[K] K) (hl : Linear e M C S) (hf : Forced e fun _ => 0)
    (ha : o.alpha = 1 / 4) (hd : o.delta = 1 / 2) (hg0 : 0 < o.gamma) (hg1 : o.gamma < 1)
    (hpos : ∀ h ∈ l, 0 < h)
    (hs1 : ∀ h ∈ l, Solves e (M + (o.delta * (o.gamma * h)) • C +
      ((o.gamma * h) * (o.gamma * h) * o.alpha) • S))
    (hs2 : ∀ h ∈ l, Solves e (S + (((2 - o.gamma) / ((1 - o.gamma) * h)) ^ 2) • M +
      ((2 - o.gamma) / ((1 - o.gamma) * h)) • C))
    (hB : ∀ x y, B x y = B y x) (hM : ∀ x y, B x (M y) = B (M x) y) (hS : ∀ x y, B x (S y) = B (S x) y)
    (hC : ∀ x y, B x (C y) = B (C x) y) (hMp : ∀ x, 0 ≤ B x (M x)) (hSp : ∀ x, 0 ≤ B x (S x))
    (hCp : ∀ x, 0 ≤ B x (C x)) (heq : M s.a + C s.v + S s.u = 0) :
    let q := (steps none (integrate .bathe false e o) l s).1
    B q.v (M q.v) + B q.u (S q.u) ≤ B s.v (M s.v) + B s.u (S s.u) := by
  induction l generalizing s with
  | nil => exact le_refl _
  | cons h l ih =>
    have hh := hpos h (by simp)
    obtain ⟨h1, h2⟩ := bathe_balance B hl hf ha hd hh.ne' hg0.ne' hg1.ne (hs1 h (by simp))
      (hs2 h (by simp)) hB hM hS hC heq
    refine (ih _ (fun x hx => hpos x (by simp [hx])) (fun x hx => hs1 x (by simp [hx]))
      (fun x hx => hs2 x (by simp [hx])) h2).trans ?_
    exact bathe_decrease B hg0 hg1 hh hB hC hMp hSp hCp h1

/-- Three steps with a large one, the unit split replaced by 2/3: the energy decreases from 1, for
any number of steps. -/
example (l : List ℚ) (hl : ∀ h ∈ l, 0 < h) :
    let o := { demoOpts with gamma := 2 / 3 }
    let q := (steps none (integrate .bathe false (demo fun _ => false) o) l
      (DSt.init (1 : ℚ) 0 (-1))).1
    q.v * q.v + q.u * q.u ≤ 1 := by
  intro o q
  have := C117_bathe (demo fun _ => false) o LinearMap.id 0 LinearMap.id (DSt.init (1 : ℚ) 0 (-1)) l
    (LinearMap.mul ℚ ℚ) demo_linear (demo_forced _) rfl rfl (by norm_num [o]) (by norm_num [o]) hl
    (fun h hh => demo_solves _ _ (by
      have := hl h hh
      simp only [LinearMap.add_apply, LinearMap.smul_apply, LinearMap.zero_apply, LinearMap.id_apply,
        smul_eq_mul, o, demoOpts]
      positivity))
    (fun h hh => demo_solves _ _ (by
      have := hl h hh
      simp only [LinearMap.add_apply, LinearMap.smul_apply, LinearMap.zero_apply, LinearMap.id_apply,
        smul_eq_mul, mul_zero, add_zero, mul_one]
      positivity))
    (fun x y => by simp [mul_comm]) (fun _ _ => rfl) (fun _ _ => rfl) (fun x y => by simp)
    (fun x => mul_self_nonneg x) (fun x => mul_self_nonneg x) (fun x => by simp)
    (by simp [DSt.init])
  exact le_of_le_of_eq this (by simp [DSt.init])

example :
    let q := (steps none (integrate .bathe false (demo fun _ => false) demoOpts) [1, 100, 1 / 2]
      (DSt.init (1 : ℚ) 0 (-1))).1
    q.v * q.v + q.u * q.u < 1 ∧ 0 < q.v * q.v + q.u * q.u := by
  decide +kernel

/-! ## Explicit methods -/

section explicit

variable {B : V →ₗ[K] V →ₗ[K] K} {M X S : V →ₗ[K] V}

theorem firstOrder_apply (x : V × V) : firstOrder X 0 S x = (x.2, -X (S x.1)) := by
  simp [firstOrder]

/-- Without damping, the first order system is antisymmetric with respect to the energy. -/
theorem eform_skew (hX : ∀ x, M (X x) = x) (hB : ∀ x y, B x y = B y x) (hM : ∀ x y, B x (M y) = B (M x) y)
    (hS : ∀ x y, B x (S y) = B (S x) y) (x y : V × V) :
    eform B M S (firstOrder X 0 S x) y = -eform B M S x (firstOrder X 0 S y) := by
  simp only [eform_apply, firstOrder_apply, map_neg, LinearMap.neg_apply, hX]
  have h1 : B (X (S x.1)) (M y.2) = B x.1 (S y.2) := by rw [hM, hX, hS]
  have h2 : B x.2 (S y.1) = B (S y.1) x.2 := hB _ _
  linear_combination -h1

/-- The energy after a Runge-Kutta step. -/
theorem taylor4_energy (P : V × V →ₗ[K] V × V →ₗ[K] K) (L : Module.End K (V × V))
    (hP : ∀ x y, P x y = P y x) (hL : ∀ x y, P (L x) y = -P x (L y)) (h : K) (w : V × V) :
    P (taylor4 h L w) (taylor4 h L w) = P w w - h ^ 6 / 72 * P (L (L (L w))) (L (L (L w))) +
      h ^ 8 / 576 * P (L (L (L (L w)))) (L (L (L (L w)))) := by
  have odd : ∀ x, P x (L x) = 0 := fun x => by
    have h1 := hL x x
    have h2 := hP (L x) x
    linear_combination (h2 - h1) / (-2)
  simp only [taylor4, LinearMap.add_apply, LinearMap.smul_apply, map_add, map_smul, Module.End.one_apply,
    pow_succ, pow_zero, one_mul, Module.End.mul_apply, smul_eq_mul]
  set a := L w
  set b := L a
  set c := L b
  set d := L c
  have w1 : P w a = 0 := odd w
  have w2 : P w b = -P a a := by have := hL w a; linear_combination this
  have w3 : P w c = 0 := by have := hL w b; have := odd a; linarith
  have w4 : P w d = P b b := by have h1 := hL w c; have h2 := hL a b; linear_combination h1 - h2
  have a2 : P a b = 0 := odd a
  have a3 : P a c = -P b b := by have := hL a b; linear_combination this
  have a4 : P a d = 0 := by have := hL a c; have := odd b; linarith
  have b3 : P b c = 0 := odd b
  have b4 : P b d = -P c c := by have := hL b c; linear_combination this
  have c4 : P c d = 0 := odd c
  rw [hP a w, hP b w, hP c w, hP d w, hP b a, hP c a, hP d a, hP c b, hP d b, hP d c,
    w1, w2, w3, w4, a2, a3, a4, b3, b4, c4]
  ring

/-- A bound of the stiffness by the mass carries over to the energies of the rates. -/
theorem eform_upper (hX : ∀ x, M (X x) = x) (hB : ∀ x y, B x y = B y x) (hS : ∀ x y, B x (S y) = B (S x) y)
    (hSp : ∀ x, 0 ≤ B x (S x)) {t : K} (ht : 0 ≤ t)
    (hr : ∀ x, t * B x (S x) ≤ B x (M x)) (x : V × V) :
    t * eform B M S (firstOrder X 0 S x) (firstOrder X 0 S x) ≤ eform B M S x x := by
  simp only [eform_apply, firstOrder_apply, map_neg, LinearMap.neg_apply, hX, neg_neg]
  set y := X (S x.1) with hy
  have h1 := hr x.2
  have h2 := hr y
  have h3 := hSp (x.1 - t • y)
  have e1 : M y = S x.1 := hX _
  have e2 : B x.1 (S y) = B y (S x.1) := by rw [hS, hB]
  simp only [map_sub, map_smul, LinearMap.sub_apply, LinearMap.smul_apply, smul_eq_mul, e2] at h3
  rw [e1] at h2
  have h4 := mul_le_mul_of_nonneg_left h2 ht
  linarith

/-- So does a bound from below. -/
theorem eform_lower (hX : ∀ x, M (X x) = x) (hB : ∀ x y, B x y = B y x) (hM : ∀ x y, B x (M y) = B (M x) y)
    (hMp : ∀ x, 0 ≤ B x (M x)) {t : K} (ht : 0 ≤ t)
    (hr : ∀ x, t * B x (M x) ≤ B x (S x)) (x : V × V) :
    t * eform B M S x x ≤ eform B M S (firstOrder X 0 S x) (firstOrder X 0 S x) := by
  simp only [eform_apply, firstOrder_apply, map_neg, LinearMap.neg_apply, hX, neg_neg]
  set y := X (S x.1) with hy
  have h1 := hr x.2
  have h2 := hr x.1
  have h3 := hMp (y - t • x.1)
  have e1 : M y = S x.1 := hX _
  have e2 : B y (M x.1) = B x.1 (S x.1) := by rw [hM, e1, hB]
  simp only [map_sub, map_smul, LinearMap.sub_apply, LinearMap.smul_apply, smul_eq_mul, e1, e2] at h3
  have h4 := mul_le_mul_of_nonneg_left h2 ht
  linarith

end explicit

/-- **C117**: Runge-Kutta on an undamped structure without load. If the square of the step size times
the stiffness is at most eight times the mass, the energy never increases. -/
theorem C117_rk4 (e : Env K V) (o : Opts K) (M S : V →ₗ[K] V) (h : K) (n : ℕ) (u v a : V)
    (B : V →ₗ[K] V →ₗ[K] K) (hl : Linear e M 0 S) (hf : Forced e fun _ => 0)
    (hX : ∀ x, M (e.inverse M x) = x)
    (hB : ∀ x y, B x y = B y x) (hM : ∀ x y, B x (M y) = B (M x) y) (hS : ∀ x y, B x (S y) = B (S x) y)
    (hMp : ∀ x, 0 ≤ B x (M x)) (hSp : ∀ x, 0 ≤ B x (S x))
    (hr : ∀ x, h ^ 2 * B x (S x) ≤ 8 * B x (M x)) :
    let q := (steps none (integrate .rk4 false e o) (List.replicate n h) (DSt.init u v a)).1
    B q.v (M q.v) + B q.u (S q.u) ≤ B v (M v) + B u (S u) := by
  intro q
  have hq := C62_taylor e o M 0 S h n u v a hl hf
  have hP : ∀ x, 0 ≤ eform B M S x x := fun x => add_nonneg (hMp _) (hSp _)
  have key : ∀ (n : ℕ) (w : V × V), eform B M S ((taylor4 h (firstOrder (e.inverse M) 0 S) ^ n) w)
      ((taylor4 h (firstOrder (e.inverse M) 0 S) ^ n) w) ≤ eform B M S w w := by
    intro n
    induction n with
    | zero => intro w; simp
    | succ n ih =>
      intro w
      rw [pow_succ, Module.End.mul_apply]
      refine (ih _).trans ?_
      rw [taylor4_energy _ _ (eform_comm hB hM hS) (eform_skew hX hB hM hS)]
      set L := firstOrder (e.inverse M) 0 S
      have h1 := eform_upper (t := h ^ 2 / 8) hX hB hS hSp (by positivity)
        (fun x => by have := hr x; linarith) (L (L (L w)))
      have h2 := mul_le_mul_of_nonneg_left h1 (show 0 ≤ h ^ 6 / 72 by positivity)
      have e1 : h ^ 6 / 72 * (h ^ 2 / 8 * eform B M S (L (L (L (L w)))) (L (L (L (L w))))) =
        h ^ 8 / 576 * eform B M S (L (L (L (L w)))) (L (L (L (L w)))) := by ring
      linarith
  have k := key n (u, v)
  rw [show (taylor4 h (firstOrder (e.inverse M) 0 S) ^ n) (u, v) = (q.u, q.v) from hq.symm] at k
  exact k

/-- **C117**, what is lost: one Runge-Kutta step changes the energy by exactly
`-h^6/72 E(L^3 w) + h^8/576 E(L^4 w)`. -/
theorem C117_rk4_balance (e : Env K V) (o : Opts K) (M S : V →ₗ[K] V) (h : K) (u v a : V)
    (B : V →ₗ[K] V →ₗ[K] K) (hl : Linear e M 0 S) (hf : Forced e fun _ => 0)
    (hX : ∀ x, M (e.inverse M x) = x)
    (hB : ∀ x y, B x y = B y x) (hM : ∀ x y, B x (M y) = B (M x) y) (hS : ∀ x y, B x (S y) = B (S x) y) :
    let q := (step none (integrate .rk4 false e o) h (DSt.init u v a)).1
    let A := fun x => e.inverse M (S x)
    B q.v (M q.v) + B q.u (S q.u) = B v (M v) + B u (S u) -
      h ^ 6 / 72 * (B (A (A u)) (S (A u)) + B (A v) (S (A v))) +
      h ^ 8 / 576 * (B (A (A v)) (S (A v)) + B (A (A u)) (S (A (A u)))) := by
  intro q A
  have hq := C62_taylor e o M 0 S h 1 u v a hl hf
  have k := taylor4_energy _ _ (eform_comm hB hM hS) (eform_skew hX hB hM hS) h (u, v)
  rw [← pow_one (taylor4 h (firstOrder (e.inverse M) 0 S)),
    show (taylor4 h (firstOrder (e.inverse M) 0 S) ^ 1) (u, v) = (q.u, q.v) from hq.symm] at k
  simp only [eform_apply, firstOrder_apply, map_neg, LinearMap.neg_apply, hX, neg_neg] at k
  exact k

/-- **C117**, violated by explicit Euler: on an undamped structure without load the energy grows in
every step; with a stiffness of at least `l` times the mass, by the factor `1 + l h²`. -/
theorem C117_violated_euler (e : Env K V) (o : Opts K) (M S : V →ₗ[K] V) (h l : K) (n : ℕ) (u v a : V)
    (B : V →ₗ[K] V →ₗ[K] K) (hl : Linear e M 0 S) (hf : Forced e fun _ => 0)
    (hX : ∀ x, M (e.inverse M x) = x)
    (hB : ∀ x y, B x y = B y x) (hM : ∀ x y, B x (M y) = B (M x) y) (hS : ∀ x y, B x (S y) = B (S x) y)
    (hMp : ∀ x, 0 ≤ B x (M x)) (hl0 : 0 ≤ l) (hr : ∀ x, l * B x (M x) ≤ B x (S x)) :
    let q := (steps none (integrate .explicitEuler false e o) (List.replicate n h) (DSt.init u v a)).1
    (1 + l * h ^ 2) ^ n * (B v (M v) + B u (S u)) ≤ B q.v (M q.v) + B q.u (S q.u) := by
  intro q
  have hq := C94_euler e o M 0 S h n u v a hl hf
  simp only at hq
  set L := firstOrder (e.inverse M) 0 S with hL
  have key : ∀ (n : ℕ) (w : V × V), (1 + l * h ^ 2) ^ n * eform B M S w w ≤
      eform B M S (((1 + h • L) ^ n) w) (((1 + h • L) ^ n) w) := by
    intro n
    induction n with
    | zero => intro w; simp
    | succ n ih =>
      intro w
      rw [pow_succ (1 + h • L), Module.End.mul_apply]
      refine le_trans ?_ (ih _)
      have h1 : eform B M S ((1 + h • L) w) ((1 + h • L) w) =
          eform B M S w w + h ^ 2 * eform B M S (L w) (L w) := by
        have a1 := eform_skew (X := e.inverse M) hX hB hM hS w w
        rw [← hL] at a1
        simp only [LinearMap.add_apply, LinearMap.smul_apply, Module.End.one_apply, map_add, map_smul,
          smul_eq_mul]
        linear_combination h * a1
      have h2 := eform_lower hX hB hM hMp hl0 hr w
      have h3 := mul_le_mul_of_nonneg_left h2 (sq_nonneg h)
      rw [pow_succ, mul_assoc]
      refine mul_le_mul_of_nonneg_left ?_ (pow_nonneg (by positivity) n)
      rw [h1]
      linarith
  have k := key n (u, v)
  rw [← hq] at k
  exact k

/-- The oscillator with steps of size 2: the bound 8 of Runge-Kutta holds; with size 3 it does not and
the energy grows. -/
example (n : ℕ) :
    let q := (steps none (integrate .rk4 false (demo fun _ => false) demoOpts) (List.replicate n 2)
      (DSt.init (1 : ℚ) 0 0)).1
    q.v * q.v + q.u * q.u ≤ 1 := by
  intro q
  have := C117_rk4 (demo fun _ => false) demoOpts LinearMap.id LinearMap.id 2 n 1 0 0 (LinearMap.mul ℚ ℚ)
    demo_linear (demo_forced _) (fun _ => rfl) (fun x y => by simp [mul_comm]) (fun _ _ => rfl)
    (fun _ _ => rfl) (fun x => mul_self_nonneg x) (fun x => mul_self_nonneg x)
    (fun x => by
      simp only [LinearMap.id_apply, LinearMap.mul_apply']
      nlinarith [mul_self_nonneg x])
  simpa using this

example :
    let q := (step none (integrate .rk4 false (demo fun _ => false) demoOpts) 3 (DSt.init (1 : ℚ) 0 0)).1
    q.v * q.v + q.u * q.u = 1 - 3 ^ 6 / 72 + 3 ^ 8 / 576 ∧ 1 < q.v * q.v + q.u * q.u := by
  decide +kernel

/-- A step of size 1/10 on the oscillator: the energy grows without bound. -/
example (n : ℕ) :
    let q := (steps none (integrate .explicitEuler false (demo fun _ => false) demoOpts)
      (List.replicate n (1 / 10)) (DSt.init (1 : ℚ) 0 0)).1
    (101 / 100) ^ n ≤ q.v * q.v + q.u * q.u := by
  intro q
  have := C117_violated_euler (demo fun _ => false) demoOpts LinearMap.id LinearMap.id (1 / 10) 1 n 1 0 0
    (LinearMap.mul ℚ ℚ) demo_linear (demo_forced _) (fun _ => rfl) (fun x y => by simp [mul_comm])
    (fun _ _ => rfl) (fun _ _ => rfl) (fun x => mul_self_nonneg x) zero_le_one (fun x => by simp)
  have e : (1 + 1 * (1 / 10) ^ 2 : ℚ) = 101 / 100 := by norm_num
  rw [e] at this
  exact le_of_eq_of_le (by simp) this

end GsSA.Dynamic
