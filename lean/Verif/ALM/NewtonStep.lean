import Verif.ALM.Contraction
import Verif.ALM.RiksProps
import Verif.Static.Convergence

/-!
# Load control, Riks and consistent Crisfield as Newton methods

With a tangent computed in every iteration, the corrections of three of the four methods are those of
Newton's method for the equations of equilibrium together with the equation of the method for the length.
-/

namespace GsSA.ALM

open GsSA
open GsSA.Static.Newton (IsNorm)

set_option linter.unusedSectionVars false

variable {K V Mat Fac : Type} [Field K] [LinearOrder K] [IsStrictOrderedRing K] [AddCommGroup V]
variable [Module K V]
variable {e : Env K V Mat Fac} {o : Opts K} {M : Method K V Mat Fac}

/-! ## Linear systems -/

/-- At `u` the tangent is assembled and factorised, and the linear solver solves with it. -/
def Solvable (e : Env K V Mat Fac) (J : V → V →ₗ[K] V) (u : V) : Prop :=
  ∀ n du, ∃ m, e.jacobian n u du = some m ∧
    ∀ j, ∃ f, e.factorize j m = some f ∧ ∀ i b, ∃ y, e.solve i f b = some y ∧ J u y = b

theorem Solvable.assemble {J : V → V →ₗ[K] V} {s : St K V Mat Fac} (h : Solvable e J (s.U + s.DU)) :
    ∃ m f l, assembleFactorize e s = ({ s with jac := m, fac := some f, log := l }, .ok ()) ∧
      ∀ i b, ∃ y, e.solve i f b = some y ∧ J (s.U + s.DU) y = b := by
  obtain ⟨m, h1, h2⟩ := h s.log.length s.dU
  obtain ⟨f, h3, -⟩ := h2 (s.log.length + 1)
  obtain ⟨f', h4, h5⟩ := h2 (s.log.length + 1 + 1)
  refine ⟨m, f', .factor true :: .factor true :: .jacobian true :: s.log, ?_, h5⟩
  simp only [assembleFactorize, computeJacobianAt, factorizeMatrix, Act.bind_apply, Act.get_apply, h1, emit,
    Act.modify_apply, Act.pure_apply, List.length_cons, h3, h4]

theorem solve_ut {J : V → V →ₗ[K] V} {u : V} {f : Fac} {s : St K V Mat Fac} (hf : s.fac = some f)
    (h : ∀ i b, ∃ y, e.solve i f b = some y ∧ J u y = b) :
    ∃ y l, computeUt e s = ({ s with Ut := y, log := l }, .ok ()) ∧ J u y = e.forcing := by
  obtain ⟨y, h1, h2⟩ := h s.log.length e.forcing
  refine ⟨y, .solve true :: s.log, ?_, h2⟩
  simp only [computeUt, solveSystem, Act.bind_apply, Act.get_apply, hf, Option.bind_some, h1,
    emit, Act.modify_apply, Act.pure_apply]

theorem solve_ubar {J : V → V →ₗ[K] V} {u : V} {f : Fac} {s : St K V Mat Fac} (hf : s.fac = some f)
    (h : ∀ i b, ∃ y, e.solve i f b = some y ∧ J u y = b) :
    ∃ y l, computeUbar e s = ({ s with Ubar := y, log := l }, .ok ()) ∧ J u y = -s.resVec := by
  obtain ⟨y, h1, h2⟩ := h s.log.length (-s.resVec)
  refine ⟨y, .solve true :: s.log, ?_, h2⟩
  simp only [computeUbar, solveSystem, Act.bind_apply, Act.get_apply, hf, Option.bind_some, h1,
    emit, Act.modify_apply, Act.pure_apply]

theorem refreshes_full (hq : o.quasi = false) (n : ℕ) : refreshes o n = true := by simp [refreshes, hq]

/-! ## Newton methods -/

/-- The corrections of the method solve the linearised equations of equilibrium and a linearised equation
`c` for the increments, whose derivative at `x` is `c' x`. -/
structure Newtonian (e : Env K V Mat Fac) (o : Opts K) (M : Method K V Mat Fac) (J : V → V →ₗ[K] V)
    (c : V × K → K) (c' : V × K → V × K → K) (P : St K V Mat Fac → Prop) : Prop where
  sub : ∀ x y z, c' x (y - z) = c' x y - c' x z
  correct : ∀ s : St K V Mat Fac, Solvable e J (s.U + s.DU) → P s →
    (∀ w, J (s.U + s.DU) w = e.forcing → c' (s.DU, s.DL) (w, 1) ≠ 0) →
    ∃ t dl, correct o M s = (t, .ok ()) ∧ P t ∧ t.DU = s.DU + t.dU ∧ t.DL = s.DL + dl ∧
      J (s.U + s.DU) t.dU - dl • e.forcing = -s.resVec ∧ c' (s.DU, s.DL) (t.dU, dl) = -c (s.DU, s.DL)
  frame : ∀ s t : St K V Mat Fac, t.phi = s.phi → t.len = s.len → t.DUold = s.DUold → t.DLold = s.DLold →
    t.DU = s.DU → t.DL = s.DL → t.dU = s.dU → t.dL = s.dL → t.guess = s.guess → P s → P t

/-- The constraint of load control. -/
def lcConstraint (len : K) (x : V × K) : K := x.2 - len

/-- Load control. -/
theorem newtonian_loadControl (hq : o.quasi = false) (J : V → V →ₗ[K] V) (len : K) (gu : Option V) :
    Newtonian e o (loadControl e) J (lcConstraint len) (fun _ y => y.2) fun s => s.DL = len ∧ s.guess = gu where
  sub _ _ _ := rfl
  correct s hs hP _ := by
    obtain ⟨m, f, l, h1, h2⟩ := hs.assemble
    obtain ⟨y, l', h3, h4⟩ := solve_ubar (e := e) (s := { s with jac := m, fac := some f, log := l }) rfl h2
    refine ⟨{ s with jac := m, fac := some f, Ubar := y, log := l', dU := y, DU := s.DU + y }, 0, ?_,
      ⟨hP.1, hP.2⟩, rfl, (add_zero _).symm, ?_, ?_⟩
    · unfold correct
      rw [Act.bind_ok (Act.get_apply s), refreshes_full hq]
      simp only [if_true, loadControl]
      rw [Act.bind_ok h1]
      unfold lcIteration
      rw [Act.bind_ok h3]
      rfl
    · simp only [zero_smul, sub_zero]; exact h4
    · simp only [lcConstraint, hP.1, sub_self, neg_zero]
  frame s t _ _ _ _ _ h6 _ _ h9 hP := ⟨h6.trans hP.1, h9.trans hP.2⟩

/-- The derivative of the length of Riks' method. -/
def rkSlope (e : Env K V Mat Fac) (phi : K) (x y : V × K) : K :=
  2 * phi * e.geo.dot x.1 y.1 + 2 * (1 - phi) * x.2 * y.2

/-- Riks. -/
theorem newtonian_riks (hq : o.quasi = false) (hg : e.geo.Laws) (J : V → V →ₗ[K] V) (phi len : K) :
    Newtonian e o (riks e) J (fun x => rkForm e phi x.1 x.2 - len ^ 2) (rkSlope e phi)
      fun s => s.phi = phi ∧ s.len = len where
  sub x y z := by
    simp only [rkSlope, Prod.fst_sub, Prod.snd_sub, hg.sub_right]; ring
  correct s hs hP hd := by
    obtain ⟨m, f, l, h1, h2⟩ := hs.assemble
    obtain ⟨w, l', h3, h4⟩ := solve_ut (e := e) (s := { s with jac := m, fac := some f, log := l }) rfl h2
    obtain ⟨b, l'', h5, h6⟩ := solve_ubar (e := e)
      (s := { s with jac := m, fac := some f, Ut := w, log := l' }) rfl h2
    have hd' := hd w h4
    have hrun : ∃ t, correct o (riks e) s = (t, .ok ()) ∧ t.phi = s.phi ∧ t.len = s.len ∧
        t.DU = s.DU + t.dU ∧ t.DL = s.DL + t.dL ∧ t.dU = b + t.dL • w ∧
        t.dL = -(rkForm e s.phi s.DU s.DL - s.len * s.len + 2 * s.phi * e.geo.dot s.DU b) /
          (2 * (1 - s.phi) * s.DL + 2 * s.phi * e.geo.dot s.DU w) := by
      unfold correct
      rw [Act.bind_ok (Act.get_apply s), refreshes_full hq]
      simp only [if_true, riks, quasiIterationUt]
      rw [Act.bind_ok ((Act.bind_ok h1).trans h3)]
      unfold rkIteration
      rw [Act.bind_ok h5, Act.bind_ok (Act.modify_apply _ _)]
      refine ⟨_, rfl, rfl, rfl, rfl, rfl, rfl, ?_⟩
      simp only [add_sub_cancel_left, rkForm]
    obtain ⟨t, r1, r2, r3, r4, r5, r6, r7⟩ := hrun
    refine ⟨t, t.dL, r1, ⟨r2.trans hP.1, r3.trans hP.2⟩, r4, r5, ?_, ?_⟩
    · rw [r6, map_add, map_smul, h4, h6]
      simp
    · have hne : 2 * (1 - s.phi) * s.DL + 2 * s.phi * e.geo.dot s.DU w ≠ 0 := by
        rw [hP.1]
        intro h0
        apply hd'
        simp only [rkSlope]
        linear_combination h0
      rw [eq_div_iff hne] at r7
      rw [r6]
      simp only [rkSlope, hg.add_right, hg.smul_right]
      rw [hP.1, hP.2] at r7
      linear_combination r7
  frame s t h1 h2 _ _ _ _ _ _ _ hP := ⟨h1.trans hP.1, h2.trans hP.2⟩

/-- The derivative of the length of the consistent Crisfield method. -/
def ccSlope (e : Env K V Mat Fac) (phi : K) (x y : V × K) : K :=
  2 * e.geo.dot x.1 y.1 + 2 * loadWeight e phi * x.2 * y.2

/-- Consistent Crisfield. -/
theorem newtonian_consistent (hq : o.quasi = false) (hg : e.geo.Laws) (J : V → V →ₗ[K] V) (phi len : K) :
    Newtonian e o (consistentCrisfield e o) J (fun x => crForm e phi x.1 x.2 - len ^ 2) (ccSlope e phi)
      fun s => s.phi = phi ∧ s.len = len where
  sub x y z := by
    simp only [ccSlope, Prod.fst_sub, Prod.snd_sub, hg.sub_right]; ring
  correct s hs hP hd := by
    obtain ⟨m, f, l, h1, h2⟩ := hs.assemble
    obtain ⟨w, l', h3, h4⟩ := solve_ut (e := e) (s := { s with jac := m, fac := some f, log := l }) rfl h2
    obtain ⟨b, l'', h5, h6⟩ := solve_ubar (e := e)
      (s := { s with jac := m, fac := some f, Ut := w, log := l' }) rfl h2
    have hd' := hd w h4
    have hrun : ∃ t, correct o (consistentCrisfield e o) s = (t, .ok ()) ∧ t.phi = s.phi ∧ t.len = s.len ∧
        t.DU = s.DU + t.dU ∧ t.DL = s.DL + t.dL ∧ t.dU = t.dL • w + b ∧
        t.dL = -(crForm e s.phi s.DU s.DL - s.len * s.len + 2 * e.geo.dot s.DU b) /
          (2 * e.geo.dot s.DU w + 2 * loadWeight e s.phi * s.DL) := by
      unfold correct
      rw [Act.bind_ok (Act.get_apply s), refreshes_full hq]
      simp only [if_true, consistentCrisfield, quasiIterationUt]
      rw [Act.bind_ok ((Act.bind_ok h1).trans h3)]
      unfold ccIteration
      rw [Act.bind_ok h5, Act.bind_ok (Act.modify_apply _ _)]
      refine ⟨_, rfl, rfl, rfl, rfl, rfl, rfl, ?_⟩
      simp only [crForm, loadWeight, hg.smul_left]
      congr 1 <;> ring
    obtain ⟨t, r1, r2, r3, r4, r5, r6, r7⟩ := hrun
    refine ⟨t, t.dL, r1, ⟨r2.trans hP.1, r3.trans hP.2⟩, r4, r5, ?_, ?_⟩
    · rw [r6, map_add, map_smul, h4, h6]
      simp
    · have hne : 2 * e.geo.dot s.DU w + 2 * loadWeight e s.phi * s.DL ≠ 0 := by
        rw [hP.1]
        intro h0
        apply hd'
        simp only [ccSlope]
        linear_combination h0
      rw [eq_div_iff hne] at r7
      rw [r6]
      simp only [ccSlope, hg.add_right, hg.smul_right]
      rw [hP.1, hP.2] at r7
      linear_combination r7
  frame s t h1 h2 _ _ _ _ _ _ _ hP := ⟨h1.trans hP.1, h2.trans hP.2⟩

/-! ## Regular solutions -/

/-- The increments `x₀` lead from `(U, L)` to an equilibrium at the length asked for. At distance at most `d`
from them the linear solver works, the inverse of the derivative of the whole system is bounded by `b`, and
the system is approximated by its derivative to second order with constant `g`. -/
structure Regular (e : Env K V Mat Fac) (r : V → K → V) (J : V → V →ₗ[K] V) (c : V × K → K)
    (c' : V × K → V × K → K) (N N' : V × K → K) (U : V) (L : K) (x₀ : V × K) (d b g : K) : Prop where
  residual : ∀ n x l, e.residual n x l = some (r x l)
  norm : IsNorm N
  norm' : IsNorm N'
  dom : ∀ y, e.geo.norm y.1 ≤ N y
  solvable : ∀ x : V × K, N (x - x₀) ≤ d → Solvable e J (U + x.1)
  inv : ∀ x : V × K, N (x - x₀) ≤ d → ∀ y : V × K, N y ≤ b * N' (J (U + x.1) y.1 - y.2 • e.forcing, c' x y)
  quad : ∀ x : V × K, N (x - x₀) ≤ d →
    N' (r (U + x.1) (L + x.2) + (J (U + x.1) (x₀ - x).1 - (x₀ - x).2 • e.forcing), c x + c' x (x₀ - x)) ≤
      g * N (x - x₀) ^ 2
  pos : 0 ≤ b

variable {r : V → K → V} {J : V → V →ₗ[K] V} {c : V × K → K} {c' : V × K → V × K → K} {N N' : V × K → K}
variable {U : V} {L : K} {x₀ : V × K} {d b g : K} {P : St K V Mat Fac → Prop}

/-- The denominators of the methods do not vanish. -/
theorem Regular.slope_ne (h : Regular e r J c c' N N' U L x₀ d b g) {x : V × K} (hx : N (x - x₀) ≤ d) {w : V}
    (hw : J (U + x.1) w = e.forcing) : c' x (w, 1) ≠ 0 := by
  intro h0
  have h1 := h.inv x hx (w, 1)
  simp only [hw, one_smul, sub_self, h0] at h1
  rw [(h.norm'.zero (0, 0)).2 rfl, mul_zero] at h1
  have h2 := (h.norm.zero (w, 1)).1 (le_antisymm h1 (h.norm.nonneg _))
  exact one_ne_zero (congrArg Prod.snd h2)

/-- The error after a Newton correction. -/
theorem Regular.contract (h : Regular e r J c c' N N' U L x₀ d b g) (hsub : ∀ x y z, c' x (y - z) = c' x y - c' x z)
    {x y : V × K} (hx : N (x - x₀) ≤ d) (h1 : J (U + x.1) y.1 - y.2 • e.forcing = -r (U + x.1) (L + x.2))
    (h2 : c' x y = -c x) : N (x + y - x₀) ≤ b * g * N (x - x₀) ^ 2 := by
  have h3 := h.inv x hx (x + y - x₀)
  have e0 : x + y - x₀ = y - (x₀ - x) := by abel
  have e1 : (J (U + x.1) (x + y - x₀).1 - (x + y - x₀).2 • e.forcing, c' x (x + y - x₀)) =
      -(r (U + x.1) (L + x.2) + (J (U + x.1) (x₀ - x).1 - (x₀ - x).2 • e.forcing), c x + c' x (x₀ - x)) := by
    rw [e0]
    ext
    · simp only [Prod.fst_sub, Prod.snd_sub, map_sub, sub_smul, Prod.neg_mk] at h1 ⊢
      have : J (U + x.1) y.1 = -r (U + x.1) (L + x.2) + y.2 • e.forcing := by rw [← h1]; abel
      rw [this]
      abel
    · simp only [hsub, h2, Prod.neg_mk]; ring
  rw [e1] at h3
  have h4 : ∀ z, N' (-z) = N' z := fun z => by simpa using h.norm'.comm 0 z
  rw [h4] at h3
  refine h3.trans ?_
  rw [mul_assoc]
  exact mul_le_mul_of_nonneg_left (h.quad x hx) h.pos

/-- Errors of Newton's method. -/
structure QuadBounds (d b g : K) (E : ℕ → K) : Prop where
  next : ∀ k, b * g * E k ^ 2 ≤ E (k + 1)
  le : ∀ k, E k ≤ d

/-- Newton methods contract near regular solutions. -/
theorem Regular.contracts (h : Regular e r J c c' N N' U L x₀ d b g) (hg : 0 ≤ g)
    (hM : Newtonian e o M J c c' P) {E : ℕ → K} (hE : QuadBounds d b g E) :
    Contracts e o M r U L (fun x l => N ((x, l) - x₀)) P E where
  residual := h.residual
  correct s k hU hL hr hP hk := by
    have hx : N ((s.DU, s.DL) - x₀) ≤ d := hk.trans (hE.le k)
    obtain ⟨t, dl, h1, h2, h3, h4, h5, h6⟩ := hM.correct s (by rw [hU]; exact h.solvable (s.DU, s.DL) hx) hP
      (fun w hw => h.slope_ne hx (by rw [hU] at hw; exact hw))
    have hc := h.contract hM.sub (x := (s.DU, s.DL)) (y := (t.dU, dl)) hx
      (by rw [hU, hr] at h5; exact h5) h6
    have e1 : ((t.DU, t.DL) : V × K) = (s.DU, s.DL) + (t.dU, dl) := by rw [h3, h4]; rfl
    have hnext : N ((t.DU, t.DL) - x₀) ≤ E (k + 1) := by
      rw [e1]
      refine hc.trans (le_trans ?_ (hE.next k))
      exact mul_le_mul_of_nonneg_left (pow_le_pow_left₀ (h.norm.nonneg _) hk 2) (mul_nonneg h.pos hg)
    refine ⟨t, h1, h2, hnext, (h.dom (t.dU, dl)).trans ?_⟩
    have e2 : ((t.dU, dl) : V × K) = ((t.DU, t.DL) - x₀) - ((s.DU, s.DL) - x₀) := by rw [e1]; abel
    rw [e2]
    refine (h.norm.sub _ _).trans ?_
    rw [add_comm]
    exact add_le_add hk hnext
  frame := hM.frame

end GsSA.ALM
