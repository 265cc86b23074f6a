import Mathlib.Algebra.Module.LinearMap.Basic
import Mathlib.Algebra.Algebra.Bilinear
import Mathlib.Tactic.FieldSimp
import Mathlib.Tactic.LinearCombination
import Mathlib.Tactic.Positivity
import Mathlib.Topology.Algebra.InfiniteSum.Order
import Mathlib.Analysis.SpecialFunctions.Pow.Real
import Verif.Static.DRProps

/-!
# Property C119: dynamic relaxation of linear structures

The residual is `F - A u` with a symmetric stiffness `A`. With `α` the mass coefficient and `c` the damping
factor, an iteration computes `α M (v' - v) = F - A u - c M v`, `u' = u + v'`.
-/

namespace GsSA.Static

open GsSA DR
open GsSA.ALM (Act Err Event)

set_option linter.unusedSectionVars false

variable {K ι : Type} [Field K] [LinearOrder K] [Fintype ι]

namespace DR

/-- A linear structure with load factor `L`: the residual is `F - A u` and its assembly does not fail. -/
def LinearDR (e : DREnv K ι) (L : K) (A : (ι → K) →ₗ[K] (ι → K)) (F : ι → K) : Prop :=
  ∀ k x, e.residual k L x = some (F - A x)

/-- `xᵀ y`. -/
def dot (x y : ι → K) : K := ∑ i, x i * y i

/-- `Aᵀ = A`. -/
def IsSymm (A : (ι → K) →ₗ[K] (ι → K)) : Prop := ∀ x y, dot x (A y) = dot y (A x)

/-- The members set by `initialize`. -/
structure Initialized (e : DREnv K ι) (o : DROpts K) (s : DRSt K ι) : Prop where
  ready : s.ready = true
  inv : s.massInv = fun i => (e.mass i)⁻¹ * (1 / o.alpha)
  damp : s.damp = fun i => o.damping * e.mass i

theorem initialized (e : DREnv K ι) (o : DROpts K) (s : DRSt K ι) :
    Initialized e o (initializeSolver e o s) := ⟨rfl, rfl, rfl⟩

/-- `xᵀ M y`. -/
def mdot (e : DREnv K ι) (x y : ι → K) : K := ∑ i, x i * (e.mass i * y i)

theorem energy_eq (e : DREnv K ι) (v : ι → K) : energy e v = mdot e v v := rfl

theorem dot_add (x y z : ι → K) : dot x (y + z) = dot x y + dot x z := by
  simp [dot, mul_add, Finset.sum_add_distrib]

theorem add_dot (x y z : ι → K) : dot (x + y) z = dot x z + dot y z := by
  simp [dot, add_mul, Finset.sum_add_distrib]

theorem dot_sub (x y z : ι → K) : dot x (y - z) = dot x y - dot x z := by
  simp [dot, mul_sub, Finset.sum_sub_distrib]

theorem dot_smul (a : K) (x y : ι → K) : dot x (a • y) = a * dot x y := by
  simp only [dot, Pi.smul_apply, smul_eq_mul, Finset.mul_sum]
  exact Finset.sum_congr rfl fun i _ => by ring

theorem smul_dot (a : K) (x y : ι → K) : dot (a • x) y = a * dot x y := by
  simp only [dot, Pi.smul_apply, smul_eq_mul, Finset.mul_sum]
  exact Finset.sum_congr rfl fun i _ => by ring

theorem sub_dot (x y z : ι → K) : dot (x - y) z = dot x z - dot y z := by
  simp [dot, sub_mul, Finset.sum_sub_distrib]

theorem energy_add (e : DREnv K ι) (v w : ι → K) :
    energy e (v + w) = energy e v + 2 * mdot e v w + energy e w := by
  simp only [energy, mdot, Pi.add_apply, Finset.mul_sum, ← Finset.sum_add_distrib]
  exact Finset.sum_congr rfl fun i _ => by ring

/-- An iteration without reset: `y` is the displacement minus the equilibrium. -/
structure Leap (e : DREnv K ι) (o : DROpts K) (A : (ι → K) →ₗ[K] (ι → K)) (v y v' y' : ι → K) : Prop where
  mom : ∀ i, o.alpha * e.mass i * (v' i - v i) = -(A y i) - o.damping * e.mass i * v i
  pos : y' = y + v'

/-- The energy of the iteration: `v` is the velocity, `y` the displacement minus the equilibrium. -/
def lyap (e : DREnv K ι) (o : DROpts K) (A : (ι → K) →ₗ[K] (ι → K)) (v y : ι → K) : K :=
  (o.alpha - o.damping / 2) * energy e v + dot y (A (y - v))

section CharZero

variable [IsStrictOrderedRing K] {e : DREnv K ι} {o : DROpts K} {A : (ι → K) →ₗ[K] (ι → K)}

theorem Leap.energy (hA : IsSymm A) {v y v' y' : ι → K} (h : Leap e o A v y v' y') :
    lyap e o A v' y' = lyap e o A v y - o.damping / 2 * energy e (v + v') := by
  have h1 : o.alpha * (DR.energy e v' - DR.energy e v) =
      -(dot v (A y) + dot v' (A y)) - o.damping * (DR.energy e v + mdot e v v') := by
    simp only [DR.energy, dot, mdot, Finset.mul_sum, ← Finset.sum_add_distrib, ← Finset.sum_sub_distrib,
      ← Finset.sum_neg_distrib]
    refine Finset.sum_congr rfl fun i _ => ?_
    linear_combination (v i + v' i) * h.mom i
  have h2 : dot y' (A (y' - v')) = dot y (A y) + dot v' (A y) := by
    rw [h.pos, add_sub_cancel_right, add_dot]
  have h3 : dot y (A (y - v)) = dot y (A y) - dot v (A y) := by
    rw [map_sub, dot_sub, hA y v]
  rw [lyap, lyap, h2, h3, energy_add]
  linear_combination h1

/-- Splitting of the energy: `y - v/2` is the middle of the last two displacements. -/
theorem lyap_split (hA : IsSymm A) (v y : ι → K) :
    lyap e o A v y = (o.alpha - o.damping / 2) * energy e v - 1 / 4 * dot v (A v) +
      dot (y - (1 / 2 : K) • v) (A (y - (1 / 2 : K) • v)) := by
  have h := hA y v
  simp only [lyap, map_sub, map_smul, dot_sub, sub_dot, dot_smul, smul_dot]
  rw [h]
  ring

theorem energy_smul (a : K) (v : ι → K) : energy e (a • v) = a ^ 2 * energy e v := by
  simp only [energy, Pi.smul_apply, smul_eq_mul, Finset.mul_sum]
  exact Finset.sum_congr rfl fun i _ => by ring

/-- The start: half an acceleration step from `y`. -/
theorem lyap_start {v y : ι → K}
    (h : ∀ i, o.alpha * e.mass i * v i = -(1 / 2) * A y i) :
    lyap e o A v (y + v) = dot y (A y) - (o.alpha + o.damping / 2) * energy e v := by
  have h1 : o.alpha * energy e v = -(1 / 2) * dot v (A y) := by
    simp only [energy, dot, Finset.mul_sum]
    refine Finset.sum_congr rfl fun i _ => ?_
    linear_combination v i * h i
  rw [lyap, add_sub_cancel_right, add_dot]
  linear_combination 2 * h1

/-- A completed pass without reset. -/
theorem Passed.leap {L : K} {F x : ι → K} {r : ℤ} {s t : DRSt K ι} {f : ι → K}
    (hl : LinearDR e L A F) (hx : A x = F) (ha : o.alpha ≠ 0) (hM : ∀ i, e.mass i ≠ 0) (hL : s.L = L)
    (hi : Initialized e o s) (h : Passed e o r s t f) (hr : resetsIn e o r s f = false) :
    Leap e o A s.v (s.U + s.DU - x) t.v (t.U + t.DU - x) := by
  have hf := h.res
  rw [hL, hl, Option.some.injEq] at hf
  obtain ⟨h1, -, h3, -⟩ := h.plain hr
  refine ⟨fun i => ?_, ?_⟩
  · rw [h1]
    have := hM i
    simp only [newV, damped, hi.inv, hi.damp, ← hf, map_sub, hx, Pi.sub_apply]
    field_simp
    ring
  · rw [h.hU, h3, h1]
    abel

theorem Initialized.of_fixed {s t : DRSt K ι} (h : Initialized e o s) (hf : fixed t = fixed s) :
    Initialized e o t := by
  simp only [fixed, Prod.mk.injEq] at hf
  exact ⟨hf.2.2.2.2.trans h.ready, hf.1.trans h.inv, hf.2.1.trans h.damp⟩

theorem load_of_fixed {s t : DRSt K ι} (hf : fixed t = fixed s) : t.L = s.L := by
  simp only [fixed, Prod.mk.injEq] at hf
  exact hf.2.2.1

/-- The start of a linear problem. -/
theorem Started.half {L : K} {F x : ι → K} {s t : DRSt K ι} (hl : LinearDR e L A F) (hx : A x = F)
    (ha : o.alpha ≠ 0) (hM : ∀ i, e.mass i ≠ 0) (hL : s.L = L) (hi : Initialized e o s)
    (h : Started e s t) :
    let y := s.U + (if s.headstart then s.DU else 0) - x
    (∀ i, o.alpha * e.mass i * t.v i = -(1 / 2) * A y i) ∧ t.U + t.DU - x = y + t.v := by
  obtain ⟨k, f, h1, h2, h3⟩ := h.res
  rw [hL, hl, Option.some.injEq] at h1
  refine ⟨fun i => ?_, ?_⟩
  · have := hM i
    rw [h.vdu, h2, ← h1]
    simp only [hi.inv, map_sub, hx, Pi.sub_apply]
    field_simp
    ring
  · rw [h.hU, h3, h.vdu]
    abel

theorem no_fail {L : K} {F : ι → K} {r : ℤ} {w t : DRSt K ι} {y : Err} (hl : LinearDR e L A F)
    (hL : w.L = L) : body e o r w ≠ (t, .error y) := by
  intro h
  unfold body at h
  rcases Act.bind_cases h with ⟨s1, ⟨⟩, h1, h⟩ | ⟨y', h1, -⟩
  · have hL1 : s1.L = L := by
      rw [← hL]
      refine Keeps.run (f := fun s : DRSt K ι => s.L) ?_ h1
      exact Keeps.bind (.modify fun _ => rfl) fun _ => Keeps.bind Keeps.get fun _ =>
        Keeps.bind (keeps_computeResidual (fun _ _ => rfl) e _) fun _ =>
        Keeps.bind (.modify fun _ => rfl) fun _ =>
        Keeps.bind (.modify fun _ => rfl) fun _ => Keeps.bind (.modify fun _ => rfl) fun _ =>
        .modify fun _ => rfl
    rw [Act.bind_ok (Act.get_apply _)] at h
    rcases Act.bind_cases h with ⟨s2, ⟨⟩, h2, h⟩ | ⟨y', h2, -⟩
    · simp [Act.bind_apply] at h
    · split at h2
      · unfold peak at h2
        rw [Act.bind_ok (Act.get_apply _),
          Act.bind_ok (computeResidual_run (by rw [hL1]; exact hl _ _))] at h2
        simp [Act.bind_apply] at h2
      · simp at h2
  · unfold iteration at h1
    rw [Act.bind_ok (Act.modify_apply _ _), Act.bind_ok (Act.get_apply _),
      Act.bind_ok (computeResidual_run (by rw [hL]; exact hl _ _))] at h1
    simp [Act.bind_apply] at h1

theorem no_fail_start {L : K} {F : ι → K} {w t : DRSt K ι} {y : Err} (hl : LinearDR e L A F)
    (hL : w.L = L) : start e w ≠ (t, .error y) := by
  intro h
  subst hL
  by_cases hh : w.headstart = true
  · simp [start, Act.bind_apply, hh, computeResidual, hl _ _, emit] at h
  · simp [start, Act.bind_apply, hh, computeResidual, hl _ _, emit] at h

/-- How `solve` ends on a linear structure, for `maxIt ≥ 2`. -/
theorem linear_rule {L : K} {F : ι → K} (P : ℤ → DRSt K ι → Prop)
    {s t : DRSt K ι} {x : Except Err Status} (hl : LinearDR e L A F) (hL : s.L = L)
    (hs : Initialized e o s) (hm : 2 ≤ o.base.maxIt)
    (h0 : ∀ u, Started e s u → P 0 u)
    (hP : ∀ r w w' f, w.L = L → Initialized e o w → P r w → Passed e o r w w' f →
      P ((if resetsIn e o r w f then 0 else r) + 1) { w' with numIt := w'.numIt + 1 })
    (h : solve e o s = (t, x)) :
    ∃ r w w' f, P r w ∧ w.L = L ∧ Initialized e o w ∧ Passed e o r w w' f ∧ w.numIt < o.base.maxIt ∧
      ((converged e o w' = true ∧ x = .ok .success ∧
          t = { w' with U := w'.U + w'.DU, status := .success }) ∨
       (converged e o w' = false ∧ w'.numIt + 1 = o.base.maxIt ∧ x = .error .notConverged ∧
        t = { w' with U := w'.U + w'.DU, log := .limit :: w'.log })) := by
  obtain ⟨u, y, h1, h2⟩ : ∃ u y, solveRaw e o s = (u, y) ∧
      ((y = .ok () ∧ x = .ok .success ∧ t = { u with status := .success }) ∨
        ∃ z, y = .error z ∧ x = .error z ∧ t = u) := by
    cases x with
    | ok st =>
      obtain ⟨u, h1, h2, rfl⟩ := solve_ok h
      exact ⟨u, _, h1, .inl ⟨rfl, rfl, h2⟩⟩
    | error z => exact ⟨t, _, solve_error.1 h, .inr ⟨z, rfl, rfl, rfl⟩⟩
  rcases solveRaw_rule (P := fun r w => P r w ∧ fixed w = fixed s) hs.ready hm
    (fun w hw => ⟨h0 w hw, hw.fix⟩)
    (fun r w w' f hw hp => ⟨hP r w w' f ((load_of_fixed hw.2).trans hL) (hs.of_fixed hw.2) hw.1 hp,
      hp.fix.trans hw.2⟩) h1 with
    ⟨r, w, w', f, hw, hp, hlt, ⟨hc, rfl, rfl⟩ | ⟨hc, hn, rfl, rfl⟩⟩ | ⟨y', rfl, h3⟩
  · refine ⟨r, w, w', f, hw.1, (load_of_fixed hw.2).trans hL, hs.of_fixed hw.2, hp, hlt, ?_⟩
    rcases h2 with ⟨-, rfl, rfl⟩ | ⟨z, hz, -⟩
    · exact .inl ⟨hc, rfl, rfl⟩
    · cases hz
  · refine ⟨r, w, w', f, hw.1, (load_of_fixed hw.2).trans hL, hs.of_fixed hw.2, hp, hlt, ?_⟩
    rcases h2 with ⟨hz, -⟩ | ⟨z, hz, rfl, rfl⟩
    · cases hz
    · cases hz
      exact .inr ⟨hc, hn, rfl, rfl⟩
  · exfalso
    rcases h3 with ⟨r, w, hw, h3⟩ | h3
    · exact no_fail hl ((load_of_fixed hw.2).trans hL) h3
    · exact no_fail_start (w := { s with Eks := [], peaks := [] }) hl hL h3

end CharZero

end DR

section Stable

variable [IsStrictOrderedRing K] {e : DREnv K ι} {o : DROpts K} {A : (ι → K) →ₗ[K] (ι → K)} {L : K}
  {F : ι → K}

theorem DR.resetsIn_never {o : DROpts K} (hc : o.damping ≠ 0) (hp : o.resetIt < 0) {r : ℤ} (hr : 0 ≤ r)
    (w : DRSt K ι) (f : ι → K) : resetsIn e o r w f = false := by
  simp only [resetsIn, hc, decide_false, Bool.false_and, Bool.false_or, decide_eq_false_iff_not]
  omega

/-- C119: with damping `c > 0` and a negative `ResetIt` (the default) `solve` on a linear structure returns
`Success` or throws `NotConverged`, without velocity resets. With `x` the equilibrium, `y₀` the error of the
starting point, `u` the `displacements` and `v` the `velocities` at the end, the energy
`(α - c/2) vᵀMv + (u - x)ᵀA(u - x - v)` is at most `y₀ᵀAy₀ - (α + c/2) E₀`, with `E₀` the first entry of
`energies`. -/
theorem C119_energy {x : ι → K} {s t : DRSt K ι} {r : Except Err Status}
    (hl : LinearDR e L A F) (hA : IsSymm A) (hx : A x = F) (ha : o.alpha ≠ 0) (hM : ∀ i, 0 < e.mass i)
    (hc : 0 < o.damping) (hp : o.resetIt < 0) (hm : 2 ≤ o.base.maxIt) (hL : s.L = L)
    (hi : Initialized e o s) (h : solve e o s = (t, r)) :
    let y₀ := s.U + (if s.headstart then s.DU else 0) - x
    (r = .ok .success ∨ r = .error .notConverged) ∧ t.peaks = [] ∧
    ∃ E₀, t.Eks.head? = some E₀ ∧
      (o.alpha - o.damping / 2) * energy e t.v + dot (t.U - x) (A (t.U - x - t.v)) ≤
        dot y₀ (A y₀) - (o.alpha + o.damping / 2) * E₀ := by
  intro y₀
  have hM' : ∀ i, e.mass i ≠ 0 := fun i => (hM i).ne'
  let P : ℤ → DRSt K ι → Prop := fun r w => 0 ≤ r ∧ w.peaks = [] ∧ ∃ E₀, w.Eks.head? = some E₀ ∧
    lyap e o A w.v (w.U + w.DU - x) ≤ dot y₀ (A y₀) - (o.alpha + o.damping / 2) * E₀
  have step : ∀ r w w' f, w.L = L → Initialized e o w → P r w → Passed e o r w w' f → P (r + 1) w' := by
    rintro r w w' f hL hi ⟨p1, p2, E₀, p3, p4⟩ hpass
    have hn := resetsIn_never (e := e) hc.ne' hp p1 w f
    refine ⟨by omega, by rw [(hpass.plain hn).2.2.2.2, p2], E₀, by rw [hpass.eks, List.head?_append, p3]; rfl,
      ?_⟩
    rw [(hpass.leap hl hx ha hM' hL hi hn).energy hA]
    have := mul_nonneg (by linarith : 0 ≤ o.damping / 2) (energy_nonneg (fun i => (hM i).le) (w.v + w'.v))
    linarith
  obtain ⟨r', w, w', f, hw, hL', hi', hpass, -, hend⟩ := linear_rule P hl hL hi hm (fun u hu => by
      obtain ⟨h1, h2⟩ := hu.half hl hx ha hM' hL hi
      refine ⟨le_rfl, hu.peaks, u.Ek, by rw [hu.eks]; rfl, ?_⟩
      rw [h2, lyap_start h1, hu.ek]) (fun r w w' f hL hi hw hpass => by
      have := step r w w' f hL hi hw hpass
      rw [resetsIn_never hc.ne' hp hw.1 w f]
      exact this) h
  obtain ⟨-, q2, E₀, q3, q4⟩ := step r' w w' f hL' hi' hw hpass
  rcases hend with ⟨-, rfl, rfl⟩ | ⟨-, -, rfl, rfl⟩
  · exact ⟨.inl rfl, q2, E₀, q3, q4⟩
  · exact ⟨.inr rfl, q2, E₀, q3, q4⟩

/-- C119: if `vᵀAv ≤ κ vᵀMv` with `κ ≤ 4α - 2c`, then the iteration is stable: the strain energy of the error
in the middle of the last step is at most that of the starting point. For non-negative `A` the kinetic
energies satisfy `(α - c/2 - κ/4) E ≤ y₀ᵀAy₀`: they are bounded if `κ < 4α - 2c`. -/
theorem C119_stable {x : ι → K} {s t : DRSt K ι} {r : Except Err Status} {κ : K}
    (hl : LinearDR e L A F) (hA : IsSymm A) (hx : A x = F) (ha : 0 < o.alpha) (hM : ∀ i, 0 < e.mass i)
    (hc : 0 < o.damping) (hp : o.resetIt < 0) (hm : 2 ≤ o.base.maxIt) (hL : s.L = L)
    (hi : Initialized e o s) (hκ : ∀ v, dot v (A v) ≤ κ * energy e v)
    (hs : κ ≤ 4 * o.alpha - 2 * o.damping) (h : solve e o s = (t, r)) :
    let y₀ := s.U + (if s.headstart then s.DU else 0) - x
    let z := t.U - x - (1 / 2 : K) • t.v
    dot z (A z) ≤ dot y₀ (A y₀) ∧
    ((∀ v, 0 ≤ dot v (A v)) → ∀ E ∈ t.Eks, (o.alpha - o.damping / 2 - κ / 4) * E ≤ dot y₀ (A y₀)) := by
  intro y₀ z
  have hM' : ∀ i, e.mass i ≠ 0 := fun i => (hM i).ne'
  have key : ∀ v y : ι → K, lyap e o A v y ≤ dot y₀ (A y₀) →
      dot (y - (1 / 2 : K) • v) (A (y - (1 / 2 : K) • v)) +
        (o.alpha - o.damping / 2 - κ / 4) * energy e v ≤ dot y₀ (A y₀) := by
    intro v y hv
    rw [lyap_split hA] at hv
    have := hκ v
    linarith
  let P : ℤ → DRSt K ι → Prop := fun r w => 0 ≤ r ∧ lyap e o A w.v (w.U + w.DU - x) ≤ dot y₀ (A y₀) ∧
    ((∀ v, 0 ≤ dot v (A v)) → ∀ E ∈ w.Eks, (o.alpha - o.damping / 2 - κ / 4) * E ≤ dot y₀ (A y₀))
  have step : ∀ r w w' f, w.L = L → Initialized e o w → P r w → Passed e o r w w' f → P (r + 1) w' := by
    rintro r w w' f hL hi ⟨p1, p2, p3⟩ hpass
    have hn := resetsIn_never (e := e) hc.ne' hp p1 w f
    have hle : lyap e o A w'.v (w'.U + w'.DU - x) ≤ dot y₀ (A y₀) := by
      rw [(hpass.leap hl hx ha.ne' hM' hL hi hn).energy hA]
      have := mul_nonneg (by linarith : 0 ≤ o.damping / 2) (energy_nonneg (fun i => (hM i).le) (w.v + w'.v))
      linarith
    refine ⟨by omega, hle, fun h0 E hE => ?_⟩
    rw [hpass.eks] at hE
    rcases List.mem_append.1 hE with hE | hE
    · exact p3 h0 E hE
    · rw [List.mem_singleton.1 hE, (hpass.plain hn).2.2.2.1, ← (hpass.plain hn).1]
      have := key _ _ hle
      have := h0 (w'.U + w'.DU - x - (1 / 2 : K) • w'.v)
      linarith
  obtain ⟨r', w, w', f, hw, hL', hi', hpass, -, hend⟩ := linear_rule P hl hL hi hm (fun u hu => by
      obtain ⟨h1, h2⟩ := hu.half hl hx ha.ne' hM' hL hi
      have hle : lyap e o A u.v (u.U + u.DU - x) ≤ dot y₀ (A y₀) := by
        rw [h2, lyap_start h1]
        have := mul_nonneg (by linarith : 0 ≤ o.alpha + o.damping / 2)
          (energy_nonneg (fun i => (hM i).le) u.v)
        linarith
      refine ⟨le_rfl, hle, fun h0 E hE => ?_⟩
      rw [hu.eks] at hE
      rw [List.mem_singleton.1 hE, hu.ek]
      have := key _ _ hle
      have := h0 (u.U + u.DU - x - (1 / 2 : K) • u.v)
      linarith) (fun r w w' f hL hi hw hpass => by
      have := step r w w' f hL hi hw hpass
      rw [resetsIn_never hc.ne' hp hw.1 w f]
      exact this) h
  obtain ⟨-, q2, q3⟩ := step r' w w' f hL' hi' hw hpass
  have q4 := key _ _ q2
  have q5 := mul_nonneg (by linarith : 0 ≤ o.alpha - o.damping / 2 - κ / 4)
    (energy_nonneg (fun i => (hM i).le) w'.v)
  rcases hend with ⟨-, rfl, rfl⟩ | ⟨-, -, rfl, rfl⟩
  · exact ⟨by show dot _ _ ≤ _; linarith, q3⟩
  · exact ⟨by show dot _ _ ≤ _; linarith, q3⟩

end Stable

/-! ## Convergence -/

section Real

open Filter Topology

variable {e : DREnv ℝ ι} {o : DROpts ℝ} {A : (ι → ℝ) →ₗ[ℝ] (ι → ℝ)} {L : ℝ} {F : ι → ℝ}

namespace DR

theorem tendsto_of_energy {v : ℕ → ι → ℝ} (hM : ∀ i, 0 < e.mass i)
    (h : Tendsto (fun k => energy e (v k)) atTop (𝓝 0)) (i : ι) :
    Tendsto (fun k => v k i) atTop (𝓝 0) := by
  have h1 : Tendsto (fun k => energy e (v k) / e.mass i) atTop (𝓝 0) := by
    simpa using h.div_const (e.mass i)
  have h2 : Tendsto (fun k => (v k i) ^ 2) atTop (𝓝 0) := by
    refine squeeze_zero (fun k => sq_nonneg _) (fun k => ?_) h1
    rw [le_div_iff₀ (hM i)]
    have := Finset.single_le_sum (f := fun j => v k j * (e.mass j * v k j))
      (fun j _ => by nlinarith [(hM j).le, mul_nonneg (hM j).le (mul_self_nonneg (v k j))])
      (Finset.mem_univ i)
    simp only [energy]
    nlinarith
  have h3 := h2.sqrt
  simp only [Real.sqrt_sq_eq_abs, Real.sqrt_zero] at h3
  exact (tendsto_zero_iff_abs_tendsto_zero _).2 h3

/-- If `ε xᵀMx ≤ xᵀz` and `z` tends to zero, so does `x`. -/
theorem tendsto_of_coercive {x z : ℕ → ι → ℝ} {ε : ℝ} (hε : 0 < ε) (hM : ∀ i, 0 < e.mass i)
    (h : ∀ k, ε * energy e (x k) ≤ dot (x k) (z k)) (hz : ∀ i, Tendsto (fun k => z k i) atTop (𝓝 0)) :
    Tendsto (fun k => energy e (x k)) atTop (𝓝 0) := by
  have h1 : Tendsto (fun k => ∑ i, (z k i) ^ 2 / (ε ^ 2 * e.mass i)) atTop (𝓝 0) := by
    have : Tendsto (fun k => ∑ i, (z k i) ^ 2 / (ε ^ 2 * e.mass i)) atTop
        (𝓝 (∑ i : ι, (0 : ℝ) ^ 2 / (ε ^ 2 * e.mass i))) :=
      tendsto_finsetSum _ fun i _ => ((hz i).pow 2).div_const _
    simpa using this
  refine squeeze_zero (fun k => energy_nonneg (fun i => (hM i).le) _) (fun k => ?_) h1
  have h2 : dot (x k) (z k) ≤ ε / 2 * energy e (x k) +
      ε / 2 * ∑ i, (z k i) ^ 2 / (ε ^ 2 * e.mass i) := by
    simp only [dot, energy, Finset.mul_sum, ← Finset.sum_add_distrib]
    refine Finset.sum_le_sum fun i _ => ?_
    have hm := hM i
    have : ε / 2 * (x k i * (e.mass i * x k i)) + ε / 2 * ((z k i) ^ 2 / (ε ^ 2 * e.mass i)) -
        x k i * z k i = (ε * e.mass i * x k i - z k i) ^ 2 / (2 * ε * e.mass i) := by
      field_simp
      ring
    have h3 : 0 ≤ (ε * e.mass i * x k i - z k i) ^ 2 / (2 * ε * e.mass i) := by positivity
    linarith
  have h3 := h k
  nlinarith

theorem leap_tendsto {v y : ℕ → ι → ℝ} {κ μ : ℝ} (hA : IsSymm A) (hM : ∀ i, 0 < e.mass i)
    (hc : 0 < o.damping) (hκ : ∀ v, dot v (A v) ≤ κ * energy e v)
    (hs : κ < 4 * o.alpha - 2 * o.damping) (hμ : 0 < μ) (hP : ∀ v, μ * energy e v ≤ dot v (A v))
    (h : ∀ k, Leap e o A (v k) (y k) (v (k + 1)) (y (k + 1))) :
    (∀ i, Tendsto (fun k => v k i) atTop (𝓝 0)) ∧ (∀ i, Tendsto (fun k => A (y k) i) atTop (𝓝 0)) ∧
    ∀ i, Tendsto (fun k => y k i) atTop (𝓝 0) := by
  have hE := fun v => energy_nonneg (e := e) (fun i => (hM i).le) v
  have h0 : ∀ k, 0 ≤ lyap e o A (v k) (y k) := by
    intro k
    rw [lyap_split hA]
    have h1 := hκ (v k)
    have h2 := hP (y k - (1 / 2 : ℝ) • v k)
    have h3 := mul_nonneg hμ.le (hE (y k - (1 / 2 : ℝ) • v k))
    have h4 := mul_nonneg (by linarith : 0 ≤ 4 * o.alpha - 2 * o.damping - κ) (hE (v k))
    linarith
  have hsum : ∀ n, ∑ k ∈ Finset.range n, o.damping / 2 * energy e (v k + v (k + 1)) =
      lyap e o A (v 0) (y 0) - lyap e o A (v n) (y n) := by
    intro n
    induction n with
    | zero => simp
    | succ n ih => rw [Finset.sum_range_succ, ih, (h n).energy hA]; ring
  have hsm : Summable fun k => o.damping / 2 * energy e (v k + v (k + 1)) := by
    refine summable_of_sum_range_le (c := lyap e o A (v 0) (y 0)) (fun k => ?_) fun n => ?_
    · exact mul_nonneg (by linarith) (hE _)
    · rw [hsum]; linarith [h0 n]
  have he : Tendsto (fun k => energy e (v k + v (k + 1))) atTop (𝓝 0) := by
    have := hsm.tendsto_atTop_zero.const_mul (2 / o.damping)
    refine (this.congr fun k => ?_).trans (by simp)
    field_simp
  have hsumv : ∀ i, Tendsto (fun k => (v k + v (k + 1)) i) atTop (𝓝 0) := tendsto_of_energy hM he
  -- `w = (2α - c) M v - A y`
  have hw : ∀ i, Tendsto (fun k => (2 * o.alpha - o.damping) * e.mass i * v k i - A (y k) i) atTop
      (𝓝 0) := by
    intro i
    have := (hsumv i).const_mul (o.alpha * e.mass i)
    rw [mul_zero] at this
    refine this.congr fun k => ?_
    have := (h k).mom i
    simp only [Pi.add_apply]
    linarith
  have hz : ∀ i, Tendsto (fun k => (2 * (2 * o.alpha - o.damping)) * e.mass i * v (k + 1) i -
      A (v (k + 1)) i) atTop (𝓝 0) := by
    intro i
    have h1 := ((hw i).comp (tendsto_add_atTop_nat 1)).sub (hw i)
    have h2 := (hsumv i).const_mul ((2 * o.alpha - o.damping) * e.mass i)
    have h3 := h1.add h2
    simp only [mul_zero, sub_zero, add_zero, Function.comp_def] at h3
    refine h3.congr fun k => ?_
    have hy : A (y (k + 1)) i = A (y k) i + A (v (k + 1)) i := by
      rw [(h k).pos, map_add, Pi.add_apply]
    rw [hy, Pi.add_apply]
    ring
  have hv1 : Tendsto (fun k => energy e (v (k + 1))) atTop (𝓝 0) := by
    refine tendsto_of_coercive (ε := 4 * o.alpha - 2 * o.damping - κ)
      (z := fun k i => (2 * (2 * o.alpha - o.damping)) * e.mass i * v (k + 1) i - A (v (k + 1)) i)
      (by linarith) hM (fun k => ?_) hz
    have h1 : dot (v (k + 1)) (fun i => (2 * (2 * o.alpha - o.damping)) * e.mass i * v (k + 1) i -
        A (v (k + 1)) i) = 2 * (2 * o.alpha - o.damping) * energy e (v (k + 1)) -
          dot (v (k + 1)) (A (v (k + 1))) := by
      simp only [dot, energy, Finset.mul_sum, ← Finset.sum_sub_distrib]
      exact Finset.sum_congr rfl fun i _ => by ring
    rw [h1]
    linarith [hκ (v (k + 1))]
  have hv : ∀ i, Tendsto (fun k => v k i) atTop (𝓝 0) := fun i =>
    (tendsto_add_atTop_iff_nat 1).1 (tendsto_of_energy (v := fun k => v (k + 1)) hM hv1 i)
  have hAy : ∀ i, Tendsto (fun k => A (y k) i) atTop (𝓝 0) := by
    intro i
    have h1 := ((hv i).const_mul ((2 * o.alpha - o.damping) * e.mass i)).sub (hw i)
    simp only [mul_zero, sub_zero] at h1
    exact h1.congr fun k => by ring
  exact ⟨hv, hAy, tendsto_of_energy hM (tendsto_of_coercive hμ hM (fun k => hP (y k)) hAy)⟩

theorem energy_eq_zero (hM : ∀ i, 0 < e.mass i) {v : ι → ℝ} (h : energy e v = 0) : v = 0 := by
  funext i
  have := (Finset.sum_eq_zero_iff_of_nonneg (fun j _ => by
    nlinarith [mul_nonneg (hM j).le (mul_self_nonneg (v j))])).1 h i (Finset.mem_univ i)
  have h1 : e.mass i * (v i * v i) = 0 := by linarith [show v i * (e.mass i * v i) = e.mass i * (v i * v i) by ring]
  simpa [(hM i).ne'] using h1

theorem tendsto_norm (hq : e.sqrt = Real.sqrt) {z : ℕ → ι → ℝ} {a : ι → ℝ}
    (hz : ∀ i, Tendsto (fun k => z k i) atTop (𝓝 (a i))) :
    Tendsto (fun k => norm e (z k)) atTop (𝓝 (norm e a)) := by
  simp only [norm, hq]
  exact (tendsto_finsetSum _ fun i _ => (hz i).mul (hz i)).sqrt

/-- The iterates: velocity and displacement minus equilibrium. -/
noncomputable def iterates (e : DREnv ℝ ι) (o : DROpts ℝ) (A : (ι → ℝ) →ₗ[ℝ] (ι → ℝ)) (y₀ : ι → ℝ) :
    ℕ → (ι → ℝ) × (ι → ℝ)
  | 0 =>
    let v : ι → ℝ := fun i => -(1 / 2) * A y₀ i / (o.alpha * e.mass i)
    (v, y₀ + v)
  | k + 1 =>
    let p := iterates e o A y₀ k
    let v : ι → ℝ := fun i => p.1 i + (-(A p.2 i) - o.damping * e.mass i * p.1 i) / (o.alpha * e.mass i)
    (v, p.2 + v)

theorem iterates_leap (ha : 0 < o.alpha) (hM : ∀ i, 0 < e.mass i) (y₀ : ι → ℝ) (k : ℕ) :
    Leap e o A (iterates e o A y₀ k).1 (iterates e o A y₀ k).2 (iterates e o A y₀ (k + 1)).1
      (iterates e o A y₀ (k + 1)).2 := by
  refine ⟨fun i => ?_, rfl⟩
  have := (hM i).ne'
  have := ha.ne'
  simp only [iterates]
  field_simp
  ring

theorem Leap.unique {v y v' y' v'' y'' : ι → ℝ} (ha : 0 < o.alpha) (hM : ∀ i, 0 < e.mass i)
    (h : Leap e o A v y v' y') (h' : Leap e o A v y v'' y'') : v' = v'' ∧ y' = y'' := by
  have hv : v' = v'' := by
    funext i
    have h1 := (h.mom i).trans (h'.mom i).symm
    have h2 := mul_left_cancel₀ (mul_pos ha (hM i)).ne' h1
    linarith
  exact ⟨hv, by rw [h.pos, h'.pos, hv]⟩

end DR

/-- C119: dynamic relaxation converges on every linear structure. Let `A` be symmetric with
`μ vᵀMv ≤ vᵀAv ≤ κ vᵀMv`, `μ > 0`, `κ < 4α - 2c`, with damping `c > 0` and a negative `ResetIt`. For positive
tolerances and a starting point which is not the equilibrium there is a number of iterations such that `solve`
returns `Success` whenever `maxIt` is at least this number. -/
theorem C119_converges {x : ι → ℝ} {s : DRSt ℝ ι} {κ μ : ℝ}
    (hl : LinearDR e L A F) (hA : IsSymm A) (hx : A x = F) (hq : e.sqrt = Real.sqrt) (ha : 0 < o.alpha)
    (hM : ∀ i, 0 < e.mass i) (hc : 0 < o.damping) (hp : o.resetIt < 0) (hL : s.L = L)
    (hi : Initialized e o s) (hh : s.headstart = false) (hU : s.U ≠ x)
    (hκ : ∀ v, dot v (A v) ≤ κ * energy e v) (hs : κ < 4 * o.alpha - 2 * o.damping)
    (hμ : 0 < μ) (hP : ∀ v, μ * energy e v ≤ dot v (A v))
    (hF : 0 < o.base.theTolF) (hTU : 0 < o.base.theTolU) (hTE : 0 < o.tolE) :
    ∃ N, ∀ m ≥ N, (solve e { o with base := { o.base with maxIt := m } } s).2 = .ok .success := by
  have hM' : ∀ i, e.mass i ≠ 0 := fun i => (hM i).ne'
  set y₀ : ι → ℝ := s.U - x with hy₀
  have hy0 : y₀ ≠ 0 := sub_ne_zero.2 hU
  let V : ℕ → ι → ℝ := fun k => (iterates e o A y₀ k).1
  let Y : ℕ → ι → ℝ := fun k => (iterates e o A y₀ k).2
  have hleap : ∀ k, Leap e o A (V k) (Y k) (V (k + 1)) (Y (k + 1)) := iterates_leap ha hM y₀
  obtain ⟨hv, hAy, hy⟩ := leap_tendsto hA hM hc hκ hs hμ hP hleap
  have hE0 : 0 < energy e (V 0) := by
    refine lt_of_le_of_ne (energy_nonneg (fun i => (hM i).le) _) fun h0 => hy0 ?_
    have h1 := energy_eq_zero hM h0.symm
    have h2 : A y₀ = 0 := by
      funext i
      have h3 : -(1 / 2) * A y₀ i / (o.alpha * e.mass i) = 0 := congrFun h1 i
      have := (mul_pos ha (hM i)).ne'
      rw [div_eq_zero_iff] at h3
      rcases h3 with h3 | h3
      · simpa using h3
      · exact absurd h3 this
    refine energy_eq_zero hM (le_antisymm ?_ (energy_nonneg (fun i => (hM i).le) _))
    have h3 := hP y₀
    rw [h2] at h3
    have h4 : dot y₀ 0 = 0 := by simp [dot]
    rw [h4] at h3
    nlinarith
  set ini := nz (norm e e.forcing) with hini
  have hini0 : 0 < ini := by
    rw [hini, nz]
    split
    · exact one_pos
    · rename_i h0
      refine lt_of_le_of_ne ?_ (Ne.symm h0)
      rw [DR.norm, hq]
      exact Real.sqrt_nonneg _
  have hn0 : DR.norm e 0 = 0 := by simp [DR.norm, hq]
  have hdist : 0 < norm e (x - s.U) := by
    rw [DR.norm, hq]
    refine Real.sqrt_pos.2 (lt_of_le_of_ne (Finset.sum_nonneg fun i _ => mul_self_nonneg _) fun h0 => hy0 ?_)
    funext i
    have := (Finset.sum_eq_zero_iff_of_nonneg (fun j _ => mul_self_nonneg _)).1 h0.symm i (Finset.mem_univ i)
    have h1 : x i - s.U i = 0 := mul_self_eq_zero.1 this
    show s.U i - x i = 0
    linarith
  -- the three tests
  have t1 : ∀ᶠ k in atTop, norm e (fun i => -(A (Y k) i) - o.damping * e.mass i * V k i) / ini <
      o.base.theTolF := by
    have h1 := (tendsto_norm hq (a := 0) (z := fun k i => -(A (Y k) i) - o.damping * e.mass i * V k i)
      fun i => by simpa using (hAy i).neg.sub ((hv i).const_mul (o.damping * e.mass i))).div_const ini
    rw [hn0, zero_div] at h1
    exact h1.eventually_lt_const hF
  have hv' : ∀ i, Tendsto (fun k => V (k + 1) i) atTop (𝓝 0) := fun i =>
    (hv i).comp (tendsto_add_atTop_nat 1)
  have t2 : ∀ᶠ k in atTop, energy e (V (k + 1)) / energy e (V 0) < o.tolE := by
    have h1 : Tendsto (fun k => energy e (V (k + 1))) atTop (𝓝 (energy e 0)) :=
      tendsto_finsetSum _ fun i _ => (hv' i).mul ((hv' i).const_mul (e.mass i))
    have h2 := h1.div_const (energy e (V 0))
    have h3 : energy e (0 : ι → ℝ) = 0 := by simp [energy]
    rw [h3, zero_div] at h2
    exact h2.eventually_lt_const hTE
  have hD : Tendsto (fun k => norm e (Y (k + 1) + x - s.U)) atTop (𝓝 (norm e (x - s.U))) := by
    refine tendsto_norm hq fun i => ?_
    have := (((hy i).comp (tendsto_add_atTop_nat 1)).add_const (x i)).sub_const (s.U i)
    simpa using this
  have t3 : ∀ᶠ k in atTop, 0 < norm e (Y (k + 1) + x - s.U) ∧
      norm e (V (k + 1)) / norm e (Y (k + 1) + x - s.U) < o.base.theTolU := by
    refine (hD.eventually_const_lt hdist).and ?_
    have h1 := (tendsto_norm hq (a := 0) hv').div hD hdist.ne'
    rw [hn0, zero_div] at h1
    exact h1.eventually_lt_const hTU
  obtain ⟨N, hN⟩ := eventually_atTop.1 (t1.and (t2.and t3))
  refine ⟨N + 2, fun m hm => ?_⟩
  set o' : DROpts ℝ := { o with base := { o.base with maxIt := m } } with ho'
  have hi' : Initialized e o' s := ⟨hi.ready, hi.inv, hi.damp⟩
  rcases h : solve e o' s with ⟨t, r⟩
  let P : ℤ → DRSt ℝ ι → Prop := fun r w => 0 ≤ r ∧ w.U = s.U ∧ w.residualIni = ini ∧
    w.Ek0 = energy e (V 0) ∧ ∃ k, w.numIt = k + 1 ∧ w.v = V k ∧ w.U + w.DU - x = Y k
  have step : ∀ r w w' f, w.L = L → Initialized e o' w → P r w → Passed e o' r w w' f →
      resetsIn e o' r w f = false ∧ w'.U = s.U ∧ w'.residualIni = ini ∧ w'.Ek0 = energy e (V 0) ∧
      ∃ k, w'.numIt = k + 1 ∧ w'.v = V (k + 1) ∧ w'.U + w'.DU - x = Y (k + 1) ∧
        w'.residual = norm e (fun i => -(A (Y k) i) - o.damping * e.mass i * V k i) ∧
        w'.du = V (k + 1) ∧ w'.Ek = energy e (V (k + 1)) := by
    rintro r w w' f hL hi ⟨p1, p2, p3, p4, k, p5, p6, p7⟩ hpass
    have hn := resetsIn_never (e := e) (o := o') hc.ne' hp p1 w f
    have hlp := hpass.leap hl hx (o := o') ha.ne' hM' hL hi hn
    rw [p6, p7] at hlp
    obtain ⟨q1, q2⟩ := Leap.unique (o := o') ha hM hlp ⟨(hleap k).mom, (hleap k).pos⟩
    obtain ⟨s1, s2, s3, s4, -⟩ := hpass.plain hn
    refine ⟨hn, hpass.hU.trans p2, ?_, hpass.ek0.trans p4, k, hpass.num.trans p5, q1, q2, ?_, ?_, ?_⟩
    · rw [hpass.ini, p3, if_neg hini0.ne']
    · rw [hpass.rho]
      congr 1
      funext i
      have hf := hpass.res
      rw [hL, hl, Option.some.injEq] at hf
      have h7 : A (Y k) i = A (w.U + w.DU) i - F i := by rw [← p7, map_sub, hx]; rfl
      rw [damped, hi.damp, ← hf, p6, h7, Pi.sub_apply]
      simp only [ho']
      ring
    · rw [s2, ← s1, q1]
    · rw [s4, ← s1, q1]
  obtain ⟨r', w, w', f, hw, hL', hiw, hpass, -, hend⟩ := linear_rule P hl hL hi' (by show 2 ≤ m; omega)
    (fun u hu => by
      obtain ⟨h1, h2⟩ := hu.half hl hx (o := o') ha.ne' hM' hL hi'
      simp only [hh, Bool.false_eq_true, if_false, add_zero] at h1 h2
      have hv0 : u.v = V 0 := by
        funext i
        show u.v i = -(1 / 2) * A y₀ i / (o.alpha * e.mass i)
        rw [eq_div_iff (mul_pos ha (hM i)).ne', hy₀, ← h1 i]
        simp only [ho']
        ring
      refine ⟨le_rfl, hu.hU, hu.ini.1 hh, by rw [hu.ek0, hu.ek, hv0], 0, hu.num, hv0, ?_⟩
      rw [h2, hv0]
      rfl)
    (fun r w w' f hL hi hw hpass => by
      obtain ⟨hn, q1, q2, q3, k, q4, q5, q6, -⟩ := step r w w' f hL hi hw hpass
      rw [hn]
      exact ⟨by have := hw.1; simpa using by omega, q1, q2, q3, k + 1, by simp [q4], q5, q6⟩) h
  obtain ⟨-, q1, q2, q3, k, q4, q5, q6, q7, q8, q9⟩ := step r' w w' f hL' hiw hw hpass
  rcases hend with ⟨-, rfl, -⟩ | ⟨hc, hn, -, -⟩
  · rfl
  · exfalso
    have hk : N ≤ k := by
      have : w'.numIt + 1 = m := hn
      omega
    obtain ⟨a1, a2, a3, a4⟩ := hN k hk
    have hDU : w'.DU = Y (k + 1) + x - s.U := by
      rw [← q6, q1]
      abel
    rw [Bool.eq_false_iff] at hc
    refine hc ?_
    simp only [converged, quotLt, q2, q3, q7, q8, q9, hDU, if_neg hini0.ne', if_neg hE0.ne',
      if_neg a3.ne', Bool.and_eq_true, decide_eq_true_eq]
    exact ⟨⟨a1, a2⟩, a4⟩

end Real

/-! ## The residual at the solution -/

section Residual

variable [IsStrictOrderedRing K] {e : DREnv K ι} {o : DROpts K} {A : (ι → K) →ₗ[K] (ι → K)} {L : K}
  {F : ι → K}

/-- C119: the residual at the solution of a linear structure, for `Success` with damping and without resets.
It is `(1 - c/α) R + (c M - A) v`, where `R` is the vector tested by the residual criterion and `v` the last
update, tested by the update criterion. -/
theorem C119_residual {x : ι → K} {s t : DRSt K ι} {st : Status}
    (hl : LinearDR e L A F) (hx : A x = F) (ha : o.alpha ≠ 0) (hM : ∀ i, e.mass i ≠ 0)
    (hc : o.damping ≠ 0) (hp : o.resetIt < 0) (hm : 2 ≤ o.base.maxIt) (hL : s.L = L)
    (hi : Initialized e o s) (h : solve e o s = (t, .ok st)) :
    ∃ R : ι → K, quotLt (norm e R) t.residualIni o.base.theTolF = true ∧
      quotLt (norm e t.v) (norm e (t.U - s.U)) o.base.theTolU = true ∧
      ∀ i, F i - A t.U i =
        (1 - o.damping / o.alpha) * R i + o.damping * e.mass i * t.v i - A t.v i := by
  obtain ⟨r', w, w', f, hw, hL', hi', hpass, -, hend⟩ := linear_rule
    (P := fun r w => 0 ≤ r ∧ w.U = s.U) hl hL hi hm (fun u hu => ⟨le_rfl, hu.hU⟩)
    (fun r w w' f _ _ hw hpass => by
      rw [resetsIn_never hc hp hw.1 w f]
      exact ⟨by have := hw.1; simpa using by omega, hpass.hU.trans hw.2⟩) h
  rcases hend with ⟨hcv, -, rfl⟩ | ⟨-, -, hx, -⟩
  · have hn := resetsIn_never (e := e) hc hp hw.1 w f
    have hlp := hpass.leap hl hx ha hM hL' hi' hn
    simp only [converged, Bool.and_eq_true] at hcv
    refine ⟨damped w f, by rw [← hpass.rho]; exact hcv.1.1, ?_, fun i => ?_⟩
    · have := hcv.2
      rw [(hpass.plain hn).2.1, ← (hpass.plain hn).1] at this
      show quotLt (norm e w'.v) (norm e (w'.U + w'.DU - s.U)) o.base.theTolU = true
      rwa [hpass.hU, hw.2, add_sub_cancel_left]
    · have h1 := hlp.mom i
      have h2 : w'.U + w'.DU = w.U + w.DU + w'.v := by
        have := hlp.pos
        rw [sub_eq_iff_eq_add] at this
        rw [this]
        abel
      have hf := hpass.res
      rw [hL', hl, Option.some.injEq] at hf
      show F i - A (w'.U + w'.DU) i = (1 - o.damping / o.alpha) * damped w f i +
        o.damping * e.mass i * w'.v i - A w'.v i
      have h3 : A (w.U + w.DU - x) i = A (w.U + w.DU) i - F i := by rw [map_sub, hx]; rfl
      rw [h3] at h1
      rw [h2, map_add, Pi.add_apply, damped, ← hf, hi'.damp, Pi.sub_apply]
      field_simp
      linear_combination -o.damping * h1
  · simp at hx

/-- C119: where a reset puts the displacement, without damping. The middle of the last but one step,
`u - v/2` with `u` and `v` before the iteration, is reached for the residual of the iteration. `_peak`
evaluates the residual again and arrives at `u - v/2 - (α M)⁻¹ A v'/2`, with `v'` the velocity after the
iteration. -/
theorem C119_violated_middle {r : ℤ} {s t : DRSt K ι} {f : ι → K} (hl : LinearDR e L A F)
    (hL : s.L = L) (hi : Initialized e o s) (hc : o.damping = 0)
    (h : Passed e o r s t f) (hr : resetsIn e o r s f = true) (i : ι) :
    (t.U + t.DU) i = (s.U + s.DU) i - s.v i / 2 -
      (e.mass i)⁻¹ * (1 / o.alpha) * A (newV s f) i / 2 := by
  obtain ⟨-, -, -, g, h1, h2, h3⟩ := h.reset hr
  have hf := h.res
  rw [hL, hl, Option.some.injEq] at hf h1
  rw [h3, h2, h.hU, ← h1]
  simp only [Pi.add_apply, Pi.sub_apply, map_add, hi.damp, hi.inv, hc]
  have h4 : newV s f i = s.v i + (e.mass i)⁻¹ * (1 / o.alpha) * (F i - (A s.U i + A s.DU i)) := by
    simp only [newV, damped, hi.damp, hi.inv, hc, ← hf, Pi.sub_apply, map_add, Pi.add_apply]
    ring
  linear_combination (-1 / 2 : K) * h4

end Residual

/-! ## Kinetic damping -/

section Kinetic

variable [IsStrictOrderedRing K] {e : DREnv K (Fin 1)} {o : DROpts K} {L : K}

/-- The state in the loop of `C119_violated_kinetic` before iteration `n`. -/
inductive DR.Orbit (m η : K) : ℕ → K → K → K → Prop
  | start : Orbit m η 1 (-(7 / 4) * η) (-(3 / 4) * η) (m * (49 / 16) * η ^ 2)
  | peak (j : ℕ) (g : K) (hg : g = -(45 / 32) * (249 / 32) ^ j * η) : Orbit m η (3 * j + 2) 0 g 0
  | first (j : ℕ) (g : K) (hg : g = -(45 / 32) * (249 / 32) ^ j * η) :
    Orbit m η (3 * j + 3) (-(7 / 2) * g) (-(5 / 2) * g) (m * (49 / 4) * g ^ 2)
  | second (j : ℕ) (g : K) (hg : g = -(45 / 32) * (249 / 32) ^ j * η) :
    Orbit m η (3 * j + 4) (21 / 4 * g) (11 / 4 * g) (m * (441 / 16) * g ^ 2)

theorem DR.Orbit.far {m η v y E : K} {n : ℕ} (h : Orbit m η n v y E) : 3 / 4 * |η| ≤ |y| := by
  have key : ∀ (j : ℕ) (g : K), g = -(45 / 32) * (249 / 32) ^ j * η → |η| ≤ |g| := by
    rintro j g rfl
    rw [abs_mul, abs_mul, abs_neg, abs_pow, abs_of_pos (by norm_num : (0 : K) < 45 / 32),
      abs_of_pos (by norm_num : (0 : K) < 249 / 32)]
    have : (1 : K) ≤ (249 / 32) ^ j := one_le_pow₀ (by norm_num)
    have : (1 : K) ≤ 45 / 32 * (249 / 32) ^ j := by linarith
    exact le_mul_of_one_le_left (abs_nonneg η) this
  have h0 := abs_nonneg η
  cases h with
  | start => rw [abs_mul, abs_neg, abs_of_pos (by norm_num : (0 : K) < 3 / 4)]
  | peak j g hg => have := key j _ hg; linarith
  | first j g hg =>
    have := key j g hg
    rw [abs_mul, abs_neg, abs_of_pos (by norm_num : (0 : K) < 5 / 2)]
    linarith
  | second j g hg =>
    have := key j g hg
    rw [abs_mul, abs_of_pos (by norm_num : (0 : K) < 11 / 4)]
    linarith

theorem DR.energy_one (v : Fin 1 → K) : energy e v = e.mass 0 * v 0 ^ 2 := by
  simp only [energy, Fin.sum_univ_one]
  ring

/-- C119, violation: without damping (kinetic damping) dynamic relaxation diverges on a single spring of
stiffness `7/2 α m`, although the undamped iteration is stable up to `4 α m`. With `tolF ≤ 3/4` and
`maxIt ≥ 2`, `solve` from zero always throws `NotConverged`, and every third iteration multiplies the error by
`249/32`. -/
theorem C119_violated_kinetic {x : K} {s t : DRSt K (Fin 1)} {r : Except Err Status}
    (ha : 0 < o.alpha) (hM : 0 < e.mass 0) (hc : o.damping = 0) (hp : o.resetIt < 0)
    (hm : 2 ≤ o.base.maxIt) (hq : ∀ x, e.sqrt (x * x) = |x|)
    (hl : ∀ k u, e.residual k L u = some fun _ => 7 / 2 * o.alpha * e.mass 0 * (x - u 0))
    (hF : e.forcing 0 = 7 / 2 * o.alpha * e.mass 0 * x) (hx : x ≠ 0) (hT : o.base.theTolF ≤ 3 / 4)
    (hL : s.L = L) (hi : Initialized e o s) (hh : s.headstart = false) (hU : s.U = 0)
    (h : solve e o s = (t, r)) :
    r = .error .notConverged ∧
    ∀ j, o.base.maxIt = 3 * j + 2 → t.U 0 - x = 45 / 32 * (249 / 32) ^ j * x := by
  set k := 7 / 2 * o.alpha * e.mass 0 with hk
  have hk0 : 0 < k := by positivity
  let A : (Fin 1 → K) →ₗ[K] (Fin 1 → K) := k • LinearMap.id
  have hlin : LinearDR e L A fun _ => k * x := by
    intro n u
    rw [hl n u]
    congr 1
    funext i
    fin_cases i
    show k * (x - u 0) = k * x - k * u 0
    ring
  have hini : nz (norm e e.forcing) = k * |x| := by
    have h1 : norm e e.forcing = k * |x| := by
      rw [DR.norm, Fin.sum_univ_one, hq, hF, abs_mul, abs_of_pos hk0]
    rw [h1, nz, if_neg (mul_pos hk0 (abs_pos.2 hx)).ne']
  have hi0 : 0 < k * |x| := mul_pos hk0 (abs_pos.2 hx)
  let P : ℤ → DRSt K (Fin 1) → Prop := fun r w => 0 ≤ r ∧ w.residualIni = k * |x| ∧
    Orbit (e.mass 0) (-x) w.numIt (w.v 0) (w.U 0 + w.DU 0 - x) w.Ek
  have step : ∀ r w w' f, w.L = L → Initialized e o w → P r w → Passed e o r w w' f →
      Orbit (e.mass 0) (-x) (w'.numIt + 1) (w'.v 0) (w'.U 0 + w'.DU 0 - x) w'.Ek ∧
      w'.residualIni = k * |x| ∧ w'.residual = k * |w.U 0 + w.DU 0 - x| := by
    rintro r w w' f hL hi ⟨p1, p2, p3⟩ hpass
    have hf := hpass.res
    rw [hL, hl, Option.some.injEq] at hf
    have hf0 : f 0 = -(k * (w.U 0 + w.DU 0 - x)) := by
      rw [← hf]
      simp only [Pi.add_apply]
      ring
    have hv : newV w f 0 = w.v 0 - 7 / 2 * (w.U 0 + w.DU 0 - x) := by
      simp only [newV, damped, hi.inv, hi.damp, hc, hf0, hk]
      field_simp
      ring
    refine ⟨?_, by rw [hpass.ini, p2, if_neg hi0.ne'], ?_⟩
    · have hno : resetsIn e o r w f = decide (e.mass 0 * (newV w f 0) ^ 2 < w.Ek) := by
        have : ¬r = o.resetIt := by omega
        simp [resetsIn, hc, energy_one, this]
      have plain : ¬e.mass 0 * (newV w f 0) ^ 2 < w.Ek → w'.v 0 = newV w f 0 ∧
          w'.U 0 + w'.DU 0 - x = w.U 0 + w.DU 0 - x + newV w f 0 ∧
          w'.Ek = e.mass 0 * (newV w f 0) ^ 2 := by
        intro hn
        rw [decide_eq_false hn] at hno
        obtain ⟨q1, -, q3, q4, -⟩ := hpass.plain hno
        refine ⟨by rw [q1], ?_, by rw [q4, energy_one]⟩
        rw [hpass.hU, q3, Pi.add_apply]
        ring
      have reset : e.mass 0 * (newV w f 0) ^ 2 < w.Ek → w'.v 0 = 0 ∧ w'.Ek = 0 ∧
          w'.U 0 + w'.DU 0 - x = w.U 0 + w.DU 0 - x - 1 / 2 * newV w f 0 -
            7 / 4 * (w.U 0 + w.DU 0 - x + newV w f 0) := by
        intro hn
        rw [decide_eq_true hn] at hno
        obtain ⟨q1, q2, -, g, q3, q4, q5⟩ := hpass.reset hno
        rw [hL, hl, Option.some.injEq] at q3
        refine ⟨by rw [q1]; rfl, q2, ?_⟩
        rw [hpass.hU, q5, Pi.add_apply, Pi.add_apply, q4, ← q3]
        simp only [Pi.add_apply, hi.inv, hi.damp, hc, hk]
        field_simp
        ring
      rw [hpass.num]
      rw [hv] at plain reset
      generalize hY : w.U 0 + w.DU 0 - x = Y at *
      generalize hV : w.v 0 = V at *
      generalize hEk : w.Ek = E at *
      generalize w.numIt = n at *
      have sq : 0 < e.mass 0 * x ^ 2 := by positivity
      cases p3 with
      | start =>
        obtain ⟨q1, q2, q3⟩ := reset (by nlinarith)
        rw [q1, q2, q3]
        exact Orbit.peak (m := e.mass 0) (η := -x) 0 _ (by ring)
      | peak j g hg =>
        obtain ⟨q1, q2, q3⟩ := plain (by
          have : 0 ≤ e.mass 0 * (0 - 7 / 2 * Y) ^ 2 := by positivity
          linarith)
        rw [q1, q2, q3]
        have := Orbit.first (m := e.mass 0) (η := -x) j Y hg
        convert this using 1 <;> ring
      | first j g hg =>
        obtain ⟨q1, q2, q3⟩ := plain (by
          have : 0 ≤ e.mass 0 * g ^ 2 := by positivity
          nlinarith)
        rw [q1, q2, q3]
        have := Orbit.second (m := e.mass 0) (η := -x) j g hg
        convert this using 1 <;> ring
      | second j g hg =>
        have hg0 : 0 < e.mass 0 * g ^ 2 := by
          have h1 : g ≠ 0 := by
            rw [hg]
            have : ((249 : K) / 32) ^ j ≠ 0 := pow_ne_zero _ (by norm_num)
            refine mul_ne_zero (mul_ne_zero (by norm_num) this) (neg_ne_zero.2 hx)
          positivity
        obtain ⟨q1, q2, q3⟩ := reset (by nlinarith)
        rw [q1, q2, q3]
        have := Orbit.peak (m := e.mass 0) (η := -x) (j + 1) (249 / 32 * g) (by rw [hg, pow_succ]; ring)
        convert this using 1 <;> ring
    · rw [hpass.rho, DR.norm, Fin.sum_univ_one, hq, damped, hi.damp, hc, hf0]
      simp only [zero_mul, sub_zero, abs_neg, abs_mul, abs_of_pos hk0]
  obtain ⟨r', w, w', f, hw, hL', hi', hpass, -, hend⟩ := linear_rule P hlin hL hi hm
    (fun u hu => by
      obtain ⟨n, f, h1, h2, h3⟩ := hu.res
      rw [hL, hl, Option.some.injEq, hh, hU] at h1
      have hf0 : f 0 = k * x := by rw [← h1]; simp
      have hv0 : u.v 0 = 7 / 4 * x := by
        rw [hu.vdu, h2, hi.inv]
        simp only [hf0, hk]
        field_simp
        ring
      refine ⟨le_rfl, by rw [hu.ini.1 hh, hini], ?_⟩
      rw [hu.num]
      have := Orbit.start (m := e.mass 0) (η := -x)
      convert this using 1
      · rw [hv0]; ring
      · rw [hu.hU, h3, ← hu.vdu, hh, hU]
        simp only [Pi.add_apply, Pi.zero_apply, Bool.false_eq_true, if_false, hv0]
        ring
      · rw [hu.ek, energy_one, hv0]; ring)
    (fun r w w' f hL hi hw hpass => by
      obtain ⟨q1, q2, -⟩ := step r w w' f hL hi hw hpass
      refine ⟨?_, q2, q1⟩
      have := hw.1
      split <;> omega) h
  obtain ⟨q1, q2, q3⟩ := step r' w w' f hL' hi' hw hpass
  rcases hend with ⟨hcv, -, -⟩ | ⟨-, hn, rfl, rfl⟩
  · exfalso
    simp only [converged, Bool.and_eq_true] at hcv
    have h1 := hcv.1.1
    rw [q2, q3, quotLt, if_neg hi0.ne', decide_eq_true_eq, div_lt_iff₀ hi0] at h1
    have h2 := hw.2.2.far
    rw [abs_neg] at h2
    have h3 := mul_le_mul_of_nonneg_left h2 hk0.le
    have h4 := mul_le_mul_of_nonneg_right hT hi0.le
    linarith
  · refine ⟨rfl, fun j hj => ?_⟩
    rw [hn, hj] at q1
    show w'.U 0 + w'.DU 0 - x = _
    generalize w'.v 0 = v at q1
    generalize w'.U 0 + w'.DU 0 - x = y at q1 ⊢
    generalize w'.Ek = E at q1
    generalize hN : 3 * j + 2 = N at q1
    cases q1 with
    | start => omega
    | peak j' g hg =>
      obtain rfl : j = j' := by omega
      rw [hg]
      ring
    | first j' g hg => omega
    | second j' g hg => omega

end Kinetic

/-! ## Examples: two springs in a row, the last node pulled -/

namespace Demo

/-- Stiffness of a fixed node, two springs and two free nodes. -/
def chainA (K : Type) [Field K] : (Fin 2 → K) →ₗ[K] (Fin 2 → K) where
  toFun u := ![2 * u 0 - u 1, u 1 - u 0]
  map_add' u v := by
    funext i
    fin_cases i <;> simp <;> ring
  map_smul' a u := by
    funext i
    fin_cases i <;> simp <;> ring

/-- Unit masses, unit load on the last node. -/
def chain (K : Type) [Field K] (q : K → K) : DREnv K (Fin 2) where
  mass _ := 1
  forcing := ![0, 1]
  residual _ _ u := some (![0, 1] - chainA K u)
  sqrt := q

/-- The default damping 1, mass coefficient 2 and `ResetIt = -1`. -/
def chainOpts (K : Type) [Field K] (maxIt : ℕ) : DROpts K :=
  ⟨⟨1 / 100, -1, -1, maxIt, 1⟩, 1, 2, 1 / 100, -1⟩

/-- An initialized solver. -/
def chainNew (K : Type) [Field K] [LinearOrder K] (q : K → K) (maxIt : ℕ) : DRSt K (Fin 2) :=
  initializeSolver (chain K q) (chainOpts K maxIt) (ctor (chain K q)
    ⟨0, 0, 0, 0, 0, 0, 0, 17, true, 17, 17, 17, 17, 17, 17, 17, [17], .otherError, true, [], []⟩)

variable {K : Type} [Field K] [LinearOrder K] [IsStrictOrderedRing K] {q : K → K}

theorem chain_linear (L : K) : LinearDR (chain K q) L (chainA K) ![0, 1] := fun _ _ => rfl

theorem chain_dot (u v : Fin 2 → K) :
    dot u (chainA K v) = u 0 * (2 * v 0 - v 1) + u 1 * (v 1 - v 0) := by
  simp [dot, chainA, Fin.sum_univ_two]

theorem chain_symm : IsSymm (chainA K) := by
  intro u v
  rw [chain_dot, chain_dot]
  ring

theorem chain_eq : chainA K ![1, 2] = ![0, 1] := by
  funext i
  fin_cases i <;> norm_num [chainA]

theorem chain_energy (v : Fin 2 → K) : energy (chain K q) v = v 0 ^ 2 + v 1 ^ 2 := by
  simp [energy, chain, Fin.sum_univ_two]
  ring

theorem chain_upper (v : Fin 2 → K) : dot v (chainA K v) ≤ 3 * energy (chain K q) v := by
  rw [chain_dot, chain_energy]
  nlinarith [sq_nonneg (v 0 + v 1), sq_nonneg (v 1)]

theorem chain_lower (v : Fin 2 → K) : 1 / 4 * energy (chain K q) v ≤ dot v (chainA K v) := by
  rw [chain_dot, chain_energy]
  nlinarith [sq_nonneg (7 * v 0 - 4 * v 1), sq_nonneg (v 1)]

end Demo

/-- For 8 iterations from zero: the energy at the end is below its initial value, which is
`0·0 + 2·1 = 2` minus `5/2 · 1/16`. -/
example {t : DRSt ℚ (Fin 2)} {r : Except Err Status}
    (h : solve (Demo.chain ℚ Rat.sqrt) (Demo.chainOpts ℚ 9) (Demo.chainNew ℚ Rat.sqrt 9) = (t, r)) :
    (r = .ok .success ∨ r = .error .notConverged) ∧ t.peaks = [] ∧ ∃ E₀, t.Eks.head? = some E₀ ∧
      (2 - 1 / 2) * energy (Demo.chain ℚ Rat.sqrt) t.v +
        dot (t.U - ![1, 2]) (Demo.chainA ℚ (t.U - ![1, 2] - t.v)) ≤ 2 - (2 + 1 / 2) * E₀ := by
  have h1 := C119_energy (Demo.chain_linear _) Demo.chain_symm Demo.chain_eq (by decide +kernel)
    (fun i => one_pos) (by decide +kernel) (by decide +kernel) (by decide +kernel) rfl
    (initialized _ _ _) h
  have h2 : dot ((0 : Fin 2 → ℚ) + 0 - ![1, 2]) (Demo.chainA ℚ (0 + 0 - ![1, 2])) = 2 := by
    rw [Demo.chain_dot]; norm_num
  obtain ⟨h3, h4, E₀, h5, h6⟩ := h1
  exact ⟨h3, h4, E₀, h5, h6.trans_eq (congrArg (· - _) h2)⟩

/-- The same run is stable: the strain energy of the error never exceeds 2, the kinetic energies never
exceed 8/3. -/
example {m : ℕ} (hm : 2 ≤ m) {t : DRSt ℚ (Fin 2)} {r : Except Err Status}
    (h : solve (Demo.chain ℚ Rat.sqrt) (Demo.chainOpts ℚ m) (Demo.chainNew ℚ Rat.sqrt m) = (t, r)) :
    ∀ E ∈ t.Eks, (2 - 1 / 2 - 3 / 4) * E ≤ 2 := by
  have h1 := (C119_stable (Demo.chain_linear _) Demo.chain_symm Demo.chain_eq
    (show (0 : ℚ) < (Demo.chainOpts ℚ m).alpha from two_pos) (fun i => one_pos)
    (show (0 : ℚ) < (Demo.chainOpts ℚ m).damping from one_pos) (show (-1 : ℤ) < 0 by decide) hm rfl
    (initialized _ _ _) Demo.chain_upper (show (3 : ℚ) ≤ 4 * 2 - 2 * 1 by norm_num) h).2
    (fun v => by
      rw [Demo.chain_dot]
      nlinarith [sq_nonneg (v 0 - v 1), sq_nonneg (v 0)])
  have h2 : dot ((0 : Fin 2 → ℚ) + 0 - ![1, 2]) (Demo.chainA ℚ (0 + 0 - ![1, 2])) = 2 := by
    rw [Demo.chain_dot]; norm_num
  exact fun E hE => (h1 E hE).trans_eq h2

/-- Over the real numbers, `Success` for all sufficiently large `maxIt`. -/
example : ∃ N, ∀ m ≥ N, (solve (Demo.chain ℝ Real.sqrt) (Demo.chainOpts ℝ m)
    (Demo.chainNew ℝ Real.sqrt 2)).2 = .ok .success :=
  C119_converges (o := Demo.chainOpts ℝ 2) (Demo.chain_linear _) Demo.chain_symm Demo.chain_eq rfl
    (show (0 : ℝ) < 2 from two_pos) (fun i => one_pos) (show (0 : ℝ) < 1 from one_pos)
    (show (-1 : ℤ) < 0 by decide) rfl (initialized _ _ _) rfl
    (fun h => by
      have := congrFun h 0
      simp [Demo.chainNew, initializeSolver, reset] at this)
    Demo.chain_upper (show (3 : ℝ) < 4 * 2 - 2 * 1 by norm_num) (by norm_num : (0 : ℝ) < 1 / 4)
    Demo.chain_lower (by norm_num [Demo.chainOpts, Opts.theTolF])
    (by norm_num [Demo.chainOpts, Opts.theTolU]) (by norm_num [Demo.chainOpts])

/-- A run which succeeds, and the residual there. -/
example :
    let o : DROpts ℚ := { Demo.chainOpts ℚ 40 with base := ⟨1 / 2, -1, -1, 40, 1⟩, tolE := 1 / 2 }
    let r := solve (Demo.chain ℚ Rat.sqrt) o (Demo.chainNew ℚ Rat.sqrt 40)
    r.2 = .ok .success ∧ 3 ≤ r.1.numIt ∧
    ∃ R : Fin 2 → ℚ, ∀ i, (![0, 1] : Fin 2 → ℚ) i - Demo.chainA ℚ r.1.U i =
      (1 - 1 / 2) * R i + 1 * 1 * r.1.v i - Demo.chainA ℚ r.1.v i := by
  intro o r
  have h0 : r.2 = .ok .success ∧ 3 ≤ r.1.numIt := by decide +kernel
  refine ⟨h0.1, h0.2, ?_⟩
  obtain ⟨R, -, -, h⟩ := C119_residual (o := o) (Demo.chain_linear _) Demo.chain_eq
    (show (2 : ℚ) ≠ 0 by decide) (fun i => one_ne_zero) (show (1 : ℚ) ≠ 0 by decide)
    (show (-1 : ℤ) < 0 by decide) (show 2 ≤ 40 by decide) rfl (initialized _ _ _)
    (Prod.ext rfl h0.1 : r = (r.1, .ok .success))
  exact ⟨R, h⟩

/-- A reset of a spring of stiffness 1 at the displacement 2 with velocity 1. The middle of the step before is
3/2, the displacement after the reset is 2. -/
example :
    let s : DRSt ℚ (Fin 1) := { Demo.drnew (fun _ u => some (-u)) (Demo.dropts 9 0 (-1)) with
      DU := fun _ => 2, v := fun _ => 1, Ek := 5 }
    let t := (body (Demo.drenv fun _ u => some (-u)) (Demo.dropts 9 0 (-1)) 0 s).1
    t.peaks = [s.numIt] ∧ t.DU 0 = 2 := by
  decide +kernel

/-- The diverging spring with `maxIt = 5`: the error is `45/32 · 249/32 > 10`. -/
example :
    let f : ℕ → ℚ → Option ℚ := fun _ u => some (7 / 2 * (1 - u))
    let e : DREnv ℚ (Fin 1) := { Demo.drenv f with forcing := fun _ => 7 / 2 }
    let o := Demo.dropts 5 0 (-1)
    let r := solve e o (initializeSolver e o (ctor e Demo.drraw))
    r.2 = .error .notConverged ∧ r.1.U 0 - 1 = 45 / 32 * (249 / 32) ∧ r.1.peaks = [1, 4] := by
  decide +kernel

/-- The same for every number of iterations. -/
example (m : ℕ) (hm : 2 ≤ m) :
    let f : ℕ → ℚ → Option ℚ := fun _ u => some (7 / 2 * (1 - u))
    let e : DREnv ℚ (Fin 1) := { Demo.drenv f with forcing := fun _ => 7 / 2 }
    let o := Demo.dropts m 0 (-1)
    (solve e o (initializeSolver e o (ctor e Demo.drraw))).2 = .error .notConverged := by
  intro f e o
  refine (C119_violated_kinetic (x := 1) (L := 0) (e := e) (o := o) one_pos one_pos rfl
    (show (-1 : ℤ) < 0 by decide) hm Rat.sqrt_eq (fun k u => ?_) ?_ one_ne_zero ?_ rfl (initialized _ _ _) rfl rfl rfl).1
  · simp [e, o, f, Demo.drenv, Demo.dropts]
  · simp [e, o, Demo.drenv, Demo.dropts]
  · norm_num [o, Demo.dropts, Opts.theTolF]

end GsSA.Static
