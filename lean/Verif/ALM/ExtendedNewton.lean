import Mathlib.Analysis.InnerProductSpace.Basic
import Mathlib.Analysis.Normed.Operator.BoundedLinearMaps
import Verif.ALM.SingularProps

/-!
# The iterations of the extended system near a singular point (C141)

An iteration of `_extendedSystemIteration` is one of Newton's method for the equations `r(U, L) = 0`,
`K(U) φ = 0`, `‖φ‖ = 1`, with a difference quotient for the derivative of `K`.
-/

namespace GsSA.ALM

open GsSA

set_option linter.unusedSectionVars false

/-! ## Actions which fail only in the linear solver -/

section

variable {σ α β : Type}

/-- The action ends with `Q`, or it fails in the linear solver, and then `F` holds. -/
def Ends (F : Prop) (m : Act σ α) (s : σ) (Q : σ → α → Prop) : Prop :=
  ∃ t res, m s = (t, res) ∧ ((res = .error .solver ∧ F) ∨ ∃ a, res = .ok a ∧ Q t a)

theorem Ends.bind {F : Prop} {m : Act σ α} {f : α → Act σ β} {s : σ} {Q : σ → α → Prop} {R : σ → β → Prop}
    (h : Ends F m s Q) (hf : ∀ t a, Q t a → Ends F (f a) t R) : Ends F (m >>= f) s R := by
  obtain ⟨t, res, h1, ⟨rfl, hF⟩ | ⟨a, rfl, hQ⟩⟩ := h
  · exact ⟨t, _, Act.bind_error h1, Or.inl ⟨rfl, hF⟩⟩
  · obtain ⟨u, r, h2, h3⟩ := hf t a hQ
    exact ⟨u, r, (Act.bind_ok h1).trans h2, h3⟩

theorem Ends.get {F : Prop} {f : σ → Act σ β} {s : σ} {R : σ → β → Prop} (h : Ends F (f s) s R) :
    Ends F (Act.get >>= f) s R := by
  obtain ⟨u, r, h2, h3⟩ := h
  exact ⟨u, r, (Act.bind_ok (Act.get_apply s)).trans h2, h3⟩

theorem Ends.modify {F : Prop} {g : σ → σ} {f : Unit → Act σ β} {s : σ} {R : σ → β → Prop}
    (h : Ends F (f ()) (g s) R) : Ends F (Act.modify g >>= f) s R := by
  obtain ⟨u, r, h2, h3⟩ := h
  exact ⟨u, r, (Act.bind_ok (Act.modify_apply g s)).trans h2, h3⟩

theorem Ends.last {F : Prop} {g : σ → σ} {s : σ} {R : σ → Unit → Prop} (h : R (g s) ()) :
    Ends F (Act.modify g) s R := ⟨g s, _, Act.modify_apply g s, Or.inr ⟨(), rfl, h⟩⟩

theorem Ends.ret {F : Prop} {a : α} {s : σ} {R : σ → α → Prop} (h : R s a) :
    Ends F (pure a) s R := ⟨s, _, Act.pure_apply a s, Or.inr ⟨a, rfl, h⟩⟩

end

variable {V Mat Fac : Type} [NormedAddCommGroup V] [InnerProductSpace ℝ V]
variable {e : Env ℝ V Mat Fac} {o : Opts ℝ}

/-- The linear solver fails with the tangent at `x`. -/
def SolverFails (e : Env ℝ V Mat Fac) (x : V) : Prop :=
  ∃ n dx m, e.jacobian n x dx = some m ∧ ∃ i, e.factorize i m = none ∨
    ∃ f, e.factorize i m = some f ∧ ∃ j b, e.solve j f b = none

/-- A singular point `(Us, Ls)` of a structure with internal forces `G` and tangents `J`, with the unit vector `φ`
in the kernel of the tangent, on which the extended system is regular with constant `m` among the increments of
displacements in the space `S`. `S` contains the internal forces and the load; it is the whole space for limit
points, and that of symmetric displacements for bifurcations by loss of symmetry. `D` is the derivative of `J` at
`Us`. All functions need to be defined up to the distance `ρ` from `Us`. -/
structure SingularPt (e : Env ℝ V Mat Fac) (G : V → V) (J : V → V →L[ℝ] V) (S : Submodule ℝ V) (Us : V) (Ls : ℝ)
    (φ : V) (D : V →L[ℝ] V →L[ℝ] V) (ρ m κ : ℝ) : Prop where
  dot : ∀ x y, e.geo.dot x y = inner ℝ x y
  norm : ∀ x, e.geo.norm x = ‖x‖
  residual : ∀ n x l, ‖x - Us‖ ≤ ρ → e.residual n x l = some (G x - l • e.forcing)
  tangent : ∀ n x dx, ‖x - Us‖ ≤ ρ → ∃ m, e.jacobian n x dx = some m ∧ ∀ y, e.mul m y = J x y
  solves : ∀ n x dx m i f j b y, ‖x - Us‖ ≤ ρ → e.jacobian n x dx = some m → e.factorize i m = some f →
    e.solve j f b = some y → J x y = b ∧ (x - Us ∈ S → b ∈ S → y ∈ S)
  balance : G Us = Ls • e.forcing
  kernel : J Us φ = 0
  unit : ‖φ‖ = 1
  load : e.forcing ∈ S
  force : ∀ x, x - Us ∈ S → ‖x - Us‖ ≤ ρ → G x ∈ S
  quad : ∀ x, ‖x - Us‖ ≤ ρ → ‖G x - G Us - J x (x - Us)‖ ≤ κ * ‖x - Us‖ ^ 2
  second : ∀ x x', ‖x - Us‖ ≤ ρ → ‖x' - Us‖ ≤ ρ →
    ‖J x' - J x - D (x' - x)‖ ≤ κ * (‖x - Us‖ + ‖x' - x‖) * ‖x' - x‖
  symm : ∀ a b, D a b = D b a
  regular : ∀ a ∈ S, ∀ (l : ℝ) b,
    ‖a‖ + |l| + ‖b‖ ≤ m * (‖J Us a - l • e.forcing‖ + ‖J Us b + D φ a‖ + |inner ℝ φ b|)
  posρ : 0 < ρ
  posm : 0 ≤ m
  posκ : 0 ≤ κ

variable {G : V → V} {J : V → V →L[ℝ] V} {S : Submodule ℝ V} {Us : V} {Ls : ℝ} {φ : V}
variable {D : V →L[ℝ] V →L[ℝ] V} {ρ m κ : ℝ}

/-! ## The run of an iteration -/

/-- Failure of the linear solver near the singular point. -/
def Fails (e : Env ℝ V Mat Fac) (Us : V) (ρ : ℝ) : Prop := ∃ x, ‖x - Us‖ ≤ ρ ∧ SolverFails e x

/-- `f` solves with the tangent at `x`. -/
def Factor (e : Env ℝ V Mat Fac) (J : V → V →L[ℝ] V) (S : Submodule ℝ V) (Us : V) (ρ : ℝ) (x : V) (f : Fac) : Prop :=
  ∀ i b, (e.solve i f b = none → Fails e Us ρ) ∧
    ∀ y, e.solve i f b = some y → J x y = b ∧ (x - Us ∈ S → b ∈ S → y ∈ S)

/-- The parts of the state which an iteration keeps. -/
structure SameFrame (s t : St ℝ V Mat Fac) : Prop where
  hU : t.U = s.U
  hL : t.L = s.L
  hv : t.v = s.v
  hDU : t.DU = s.DU
  hDL : t.DL = s.DL
  hDV : t.DV = s.DV
  hn : t.numIt = s.numIt

theorem SameFrame.trans {s t u : St ℝ V Mat Fac} (h : SameFrame s t) (h' : SameFrame t u) : SameFrame s u :=
  ⟨h'.1.trans h.1, h'.2.trans h.2, h'.3.trans h.3, h'.4.trans h.4, h'.5.trans h.5, h'.6.trans h.6, h'.7.trans h.7⟩

theorem SingularPt.ends_factorize (h : SingularPt e G J S Us Ls φ D ρ m κ) {x dx : V} (hx : ‖x - Us‖ ≤ ρ) {n : ℕ}
    {A : Mat} (hA : e.jacobian n x dx = some A) (s : St ℝ V Mat Fac) :
    Ends (Fails e Us ρ) (factorizeMatrix e A) s fun t _ =>
      SameFrame s t ∧ t.dU = s.dU ∧ t.jac = s.jac ∧ ∃ f, t.fac = some f ∧ Factor e J S Us ρ x f := by
  unfold factorizeMatrix
  refine Ends.get ?_
  cases hf : e.factorize s.log.length A with
  | none =>
    refine ⟨{ s with fac := none, log := .factor false :: s.log }, _, ?_,
      Or.inl ⟨rfl, x, hx, n, dx, A, hA, s.log.length, Or.inl hf⟩⟩
    simp only [Act.bind_apply, Act.modify_apply, emit, Act.throw_apply]
  | some f =>
    refine Ends.modify (Ends.last ⟨⟨rfl, rfl, rfl, rfl, rfl, rfl, rfl⟩, rfl, rfl, f, rfl,
      fun i b => ⟨fun hn => ?_, fun y hy => ?_⟩⟩)
    · exact ⟨x, hx, n, dx, A, hA, s.log.length, Or.inr ⟨f, hf, i, b, hn⟩⟩
    · exact h.solves n x dx A _ f i b y hx hA hf hy

theorem SingularPt.ends_jacobian (h : SingularPt e G J S Us Ls φ D ρ m κ) {x : V} (dx : V) (hx : ‖x - Us‖ ≤ ρ)
    (s : St ℝ V Mat Fac) :
    Ends (Fails e Us ρ) (computeJacobianAt e x dx) s fun t A =>
      SameFrame s t ∧ t.dU = s.dU ∧ t.jac = s.jac ∧ (∃ n, e.jacobian n x dx = some A) ∧ ∀ y, e.mul A y = J x y := by
  obtain ⟨A, hA, hm⟩ := h.tangent s.log.length x dx hx
  unfold computeJacobianAt
  refine Ends.get ?_
  rw [hA]
  refine Ends.modify ((h.ends_factorize hx hA _).bind ?_)
  rintro t _ ⟨hf, hd, hj, -⟩
  exact Ends.ret ⟨⟨hf.1, hf.2, hf.3, hf.4, hf.5, hf.6, hf.7⟩, hd, hj, ⟨_, hA⟩, hm⟩

theorem SingularPt.ends_refactorize (h : SingularPt e G J S Us Ls φ D ρ m κ) {x : V} (dx : V) (hx : ‖x - Us‖ ≤ ρ)
    (s : St ℝ V Mat Fac) :
    Ends (Fails e Us ρ) (refactorize e x dx) s fun t _ =>
      SameFrame s t ∧ t.dU = s.dU ∧ (∃ f, t.fac = some f ∧ Factor e J S Us ρ x f) ∧
        (∃ n, e.jacobian n x dx = some t.jac) ∧ ∀ y, e.mul t.jac y = J x y := by
  unfold refactorize
  refine (h.ends_jacobian dx hx s).bind ?_
  rintro t A ⟨hs, hd, hj, ⟨n, hA⟩, hm⟩
  refine Ends.modify ?_
  obtain ⟨u, r, h1, h2⟩ := h.ends_factorize hx hA { t with jac := A }
  refine ⟨u, r, h1, h2.imp_right ?_⟩
  rintro ⟨⟨⟩, rfl, hs', hd', hj', hF⟩
  have hj2 : u.jac = A := hj'
  refine ⟨(), rfl, hs.trans ⟨hs'.1, hs'.2, hs'.3, hs'.4, hs'.5, hs'.6, hs'.7⟩, hd'.trans hd, hF, ⟨n, ?_⟩, ?_⟩
  · rw [hj2]; exact hA
  · rw [hj2]; exact hm

theorem Factor.ends_solve {x : V} {f : Fac} (h : Factor e J S Us ρ x f) (b : V) {s : St ℝ V Mat Fac}
    (hs : s.fac = some f) :
    Ends (Fails e Us ρ) (solveSystem e b) s fun t y =>
      SameFrame s t ∧ t.jac = s.jac ∧ t.fac = some f ∧ J x y = b ∧ (x - Us ∈ S → b ∈ S → y ∈ S) := by
  unfold solveSystem
  refine Ends.get ?_
  have hb : (s.fac.bind fun f => e.solve s.log.length f b) = e.solve s.log.length f b := by
    rw [hs, Option.bind_some]
  rw [hb]
  cases hy : e.solve s.log.length f b with
  | none =>
    refine ⟨{ s with log := .solve false :: s.log }, _, ?_, Or.inl ⟨rfl, (h _ _).1 hy⟩⟩
    simp only [Act.bind_apply, Act.modify_apply, emit, Act.throw_apply]
  | some y =>
    exact Ends.modify (Ends.ret ⟨⟨rfl, rfl, rfl, rfl, rfl, rfl, rfl⟩, rfl, hs, (h _ _).2 y hy⟩)

theorem SingularPt.ends_residual (h : SingularPt e G J S Us Ls φ D ρ m κ) {x : V} (l : ℝ) (hx : ‖x - Us‖ ≤ ρ)
    (s : St ℝ V Mat Fac) :
    Ends (Fails e Us ρ) (evalResidual e x l) s fun t r =>
      SameFrame s t ∧ t.dU = s.dU ∧ t.dL = s.dL ∧ t.dV = s.dV ∧ t.jac = s.jac ∧ t.residueKTPhi = s.residueKTPhi ∧
        r = G x - l • e.forcing := by
  unfold evalResidual
  refine Ends.get ?_
  rw [h.residual _ _ _ hx]
  exact Ends.modify (Ends.ret ⟨⟨rfl, rfl, rfl, rfl, rfl, rfl, rfl⟩, rfl, rfl, rfl, rfl, rfl, rfl⟩)

/-- The iteration solves two systems with the load and two with the residuals, and combines them by the
constraint. -/
theorem SingularPt.ends_iteration (h : SingularPt e G J S Us Ls φ D ρ m κ) (s : St ℝ V Mat Fac) {x w : V} {L : ℝ}
    (ex : s.U + s.DU = x) (eL : s.L + s.DL = L) (ew : s.v + s.DV = w) (hx : ‖x - Us‖ ≤ ρ)
    (hx' : ‖x + (fdStep : ℝ) • w - Us‖ ≤ ρ) (hS : x - Us ∈ S) :
    Ends (Fails e Us ρ) (extendedIteration e) s fun t _ => SameFrame s t ∧ ∃ ut ub vt vb,
      J x ut = e.forcing ∧ J x ub = -(G x - L • e.forcing) ∧
      J x vt = -((1 / fdStep : ℝ) • (J (x + (fdStep : ℝ) • w) ut - J x ut)) ∧
      J x vb = -(J x w + (1 / fdStep : ℝ) • (J (x + (fdStep : ℝ) • w) ub - J x ub)) ∧
      ut ∈ S ∧ ub ∈ S ∧
      t.dL = -(inner ℝ ((1 / ‖w‖) • w) vb + ‖w‖ - 1) / inner ℝ ((1 / ‖w‖) • w) vt ∧
      t.dU = t.dL • ut + ub ∧ t.dV = t.dL • vt + vb := by
  unfold extendedIteration
  refine Ends.get ?_
  rw [ex, eL, ew]
  refine (h.ends_residual _ hx s).bind ?_
  rintro s1 r ⟨f1, -, -, -, -, -, hr⟩
  refine Ends.modify ((h.ends_refactorize _ hx _).bind ?_)
  rintro s2 _ ⟨f2, -, ⟨f, hf1, hf⟩, ⟨n, hA⟩, hm⟩
  have F2 : SameFrame s s2 := f1.trans ⟨f2.1, f2.2, f2.3, f2.4, f2.5, f2.6, f2.7⟩
  clear f1 f2
  refine (hf.ends_solve _ hf1).bind ?_
  rintro s3 ut ⟨f3, j3, hf3, h1, h1'⟩
  refine Ends.modify ((hf.ends_solve (s := { s3 with Ut := ut }) _ hf3).bind ?_)
  rintro s4 ub ⟨f4, j4, hf4, h2, h2'⟩
  have F4 : SameFrame s s4 := F2.trans (f3.trans ⟨f4.1, f4.2, f4.3, f4.4, f4.5, f4.6, f4.7⟩)
  have J4 : s4.jac = s2.jac := j4.trans j3
  clear f3 f4
  refine Ends.modify ((h.ends_jacobian 0 hx' _).bind ?_)
  rintro s5 B ⟨f5, -, j5, -, hB⟩
  have F5 : SameFrame s s5 := F4.trans ⟨f5.1, f5.2, f5.3, f5.4, f5.5, f5.6, f5.7⟩
  have J5 : s5.jac = s2.jac := Eq.trans j5 J4
  clear f5
  refine Ends.get ?_
  have W5 : s5.v + s5.DV = w := by rw [F5.hv, F5.hDV, ew]
  rw [J5, W5]
  refine (h.ends_factorize hx hA _).bind ?_
  rintro s6 _ ⟨f6, -, j6, g, hg1, hg⟩
  refine (hg.ends_solve _ hg1).bind ?_
  rintro s7 vt ⟨f7, j7, hg2, h3, -⟩
  refine (hg.ends_solve _ hg2).bind ?_
  rintro s8 vb ⟨f8, j8, -, h4, -⟩
  have F8 : SameFrame s s8 := ((F5.trans f6).trans f7).trans f8
  have hrS : -r ∈ S := by
    rw [hr]
    exact S.neg_mem (S.sub_mem (h.force _ hS hx) (S.smul_mem _ h.load))
  refine Ends.last ⟨F8.trans ⟨rfl, rfl, rfl, rfl, rfl, rfl, rfl⟩, ut, ub, vt, vb, h1, by rw [h2, hr], ?_, ?_,
    h1' hS h.load, h2' hS hrS, ?_, rfl, rfl⟩
  · rw [h3, hB, h1, smul_sub]
  · rw [h4, hB, hm, h2, sub_neg_eq_add]
  · simp only [h.norm, h.dot]

/-! ## Newton's method -/

/-- The constant of the estimates. -/
noncomputable def extendedConst (D : V →L[ℝ] V →L[ℝ] V) (κ : ℝ) : ℝ := 4 * κ + 2 * ‖D‖ + 2

/-- The difference quotient of the tangent. -/
noncomputable def quotient (J : V → V →L[ℝ] V) (x w a : V) : V :=
  (1 / fdStep : ℝ) • (J (x + (fdStep : ℝ) • w) a - J x a)

theorem fdStep_pos : (0 : ℝ) < fdStep := by unfold fdStep; positivity

/-- A step of Newton's method for the extended system. -/
structure NewtonStep (J : V → V →L[ℝ] V) (f : V) (x w r : V) (a : V) (l : ℝ) (b : V) : Prop where
  first : J x a - l • f = -r
  second : J x b + quotient J x w a = -J x w
  third : inner ℝ ((1 / ‖w‖) • w) b = 1 - ‖w‖

theorem quotient_add (x w a b : V) : quotient J x w (a + b) = quotient J x w a + quotient J x w b := by
  unfold quotient
  rw [map_add, map_add]
  module

theorem quotient_smul (x w a : V) (c : ℝ) : quotient J x w (c • a) = c • quotient J x w a := by
  unfold quotient
  rw [map_smul, map_smul]
  module

theorem SingularPt.second_apply (h : SingularPt e G J S Us Ls φ D ρ m κ) {x x' : V} (hx : ‖x - Us‖ ≤ ρ)
    (hx' : ‖x' - Us‖ ≤ ρ) (a : V) :
    ‖J x' a - J x a - D (x' - x) a‖ ≤ κ * (‖x - Us‖ + ‖x' - x‖) * ‖x' - x‖ * ‖a‖ := by
  have h1 := (J x' - J x - D (x' - x)).le_of_opNorm_le (h.second x x' hx hx') a
  simpa using h1

/-- The quotient approximates the derivative. -/
theorem SingularPt.quotient_near (h : SingularPt e G J S Us Ls φ D ρ m κ) {x w : V} (hx : ‖x - Us‖ ≤ ρ)
    (hx' : ‖x + (fdStep : ℝ) • w - Us‖ ≤ ρ) (hw : ‖w‖ ≤ 2) (a : V) :
    ‖quotient J x w a - D w a‖ ≤ (2 * κ * ‖x - Us‖ + 4 * κ * fdStep) * ‖a‖ := by
  have hε := fdStep_pos
  have h1 := h.second_apply hx hx' a
  rw [add_sub_cancel_left, norm_smul, Real.norm_eq_abs, abs_of_pos hε] at h1
  have e1 : quotient J x w a - D w a =
      (1 / fdStep : ℝ) • (J (x + (fdStep : ℝ) • w) a - J x a - D ((fdStep : ℝ) • w) a) := by
    unfold quotient
    rw [map_smul, smul_apply, smul_sub _ (J (x + (fdStep : ℝ) • w) a - J x a), smul_smul,
      one_div, inv_mul_cancel₀ hε.ne', one_smul]
  rw [e1, norm_smul, Real.norm_eq_abs, abs_of_pos (by positivity)]
  refine (mul_le_mul_of_nonneg_left h1 (by positivity)).trans ?_
  have e2 : 1 / fdStep * (κ * (‖x - Us‖ + fdStep * ‖w‖) * (fdStep * ‖w‖) * ‖a‖) =
      κ * (‖x - Us‖ + fdStep * ‖w‖) * ‖w‖ * ‖a‖ := by
    field_simp
  rw [e2]
  refine mul_le_mul_of_nonneg_right ?_ (norm_nonneg a)
  have p1 := norm_nonneg (x - Us)
  have p2 := norm_nonneg w
  have h3 : fdStep * ‖w‖ ≤ fdStep * 2 := mul_le_mul_of_nonneg_left hw hε.le
  have h4 : κ * (‖x - Us‖ + fdStep * ‖w‖) ≤ κ * (‖x - Us‖ + fdStep * 2) :=
    mul_le_mul_of_nonneg_left (by linarith) h.posκ
  have h5 := mul_le_mul h4 hw p2 (mul_nonneg h.posκ (by positivity))
  linarith

/-- The tangent near the singular point. -/
theorem SingularPt.tangent_near (h : SingularPt e G J S Us Ls φ D ρ m κ) {x : V} (hx : ‖x - Us‖ ≤ ρ)
    (h1 : ‖x - Us‖ ≤ 1) (a : V) : ‖J x a - J Us a‖ ≤ (κ + ‖D‖) * ‖x - Us‖ * ‖a‖ := by
  have h2 := h.second_apply (x := Us) (x' := x) (by simpa using h.posρ.le) hx a
  rw [sub_self, norm_zero, zero_add] at h2
  have e1 : J x a - J Us a = (J x a - J Us a - D (x - Us) a) + D (x - Us) a := by abel
  rw [e1]
  refine (norm_add_le _ _).trans ?_
  have h3 : ‖D (x - Us) a‖ ≤ ‖D‖ * ‖x - Us‖ * ‖a‖ := D.le_opNorm₂ _ _
  have p1 := norm_nonneg (x - Us)
  have h4 : κ * ‖x - Us‖ * ‖x - Us‖ * ‖a‖ ≤ κ * ‖x - Us‖ * ‖a‖ := by
    refine mul_le_mul_of_nonneg_right ?_ (norm_nonneg a)
    exact mul_le_of_le_one_right (mul_nonneg h.posκ p1) h1
  linarith

/-- The direction of a vector near a unit vector. -/
theorem direction_near {w : V} (hφ : ‖φ‖ = 1) (hw : ‖w - φ‖ ≤ 1 / 2) : ‖(1 / ‖w‖) • w - φ‖ ≤ 2 * ‖w - φ‖ := by
  have h1 : |‖w‖ - ‖φ‖| ≤ ‖w - φ‖ := abs_norm_sub_norm_le w φ
  rw [hφ] at h1
  have h2 := abs_le.1 h1
  have hp : 0 < ‖w‖ := by linarith
  have e1 : (1 / ‖w‖) • w - φ = ((1 / ‖w‖) • w - w) + (w - φ) := by abel
  have e2 : (1 / ‖w‖) • w - w = ((1 - ‖w‖) / ‖w‖) • w := by
    rw [sub_div, div_self hp.ne', sub_smul, one_smul]
  have h3 : ‖(1 / ‖w‖) • w - w‖ = |1 - ‖w‖| := by
    rw [e2, norm_smul, Real.norm_eq_abs, abs_div, abs_of_pos hp, div_mul_cancel₀ _ hp.ne']
  rw [e1]
  refine (norm_add_le _ _).trans ?_
  rw [h3, abs_sub_comm]
  linarith

theorem direction_inner {w : V} (hφ : ‖φ‖ = 1) (hw : ‖w - φ‖ ≤ 1 / 2) :
    |1 - ‖w‖ + inner ℝ ((1 / ‖w‖) • w) (w - φ)| ≤ 2 * ‖w - φ‖ ^ 2 := by
  have h1 : |‖w‖ - ‖φ‖| ≤ ‖w - φ‖ := abs_norm_sub_norm_le w φ
  rw [hφ] at h1
  have h2 := abs_le.1 h1
  have hp : 0 < ‖w‖ := by linarith
  have h3 := direction_near hφ hw
  have h4 : ‖(1 / ‖w‖) • w‖ = 1 := by
    rw [norm_smul, Real.norm_eq_abs, abs_of_pos (by positivity), one_div, inv_mul_cancel₀ hp.ne']
  have h5 := @norm_sub_sq_real V _ _ ((1 / ‖w‖) • w) φ
  rw [h4, hφ] at h5
  have h6 : inner ℝ ((1 / ‖w‖) • w) w = ‖w‖ := by
    rw [inner_smul_left, real_inner_self_eq_norm_sq]
    simp only [one_div, conj_trivial]
    field_simp
  rw [inner_sub_right, h6]
  have h7 : 1 - ‖w‖ + (‖w‖ - inner ℝ ((1 / ‖w‖) • w) φ) = ‖(1 / ‖w‖) • w - φ‖ ^ 2 / 2 := by linarith
  rw [h7, abs_of_nonneg (by positivity)]
  have h8 := pow_le_pow_left₀ (norm_nonneg _) h3 2
  rw [mul_pow] at h8
  linarith

/-- The extended system stays regular near the singular point. -/
theorem SingularPt.regular_near (h : SingularPt e G J S Us Ls φ D ρ m κ) {x w : V} {E : ℝ} (hx : ‖x - Us‖ ≤ E)
    (hw : ‖w - φ‖ ≤ E) (hE : E ≤ 1 / 2) (hρ : E + 2 * fdStep ≤ ρ)
    (hq : 4 * m * (extendedConst D κ * E + 4 * κ * fdStep) ≤ 1) {a : V} (ha : a ∈ S) (l : ℝ) (b : V) :
    ‖a‖ + |l| + ‖b‖ ≤ 2 * m * (‖J x a - l • e.forcing‖ + ‖J x b + quotient J x w a‖ +
      |inner ℝ ((1 / ‖w‖) • w) b|) := by
  have hε := fdStep_pos
  have hE0 : 0 ≤ E := (norm_nonneg _).trans hx
  have hw2 : ‖w‖ ≤ 2 := by
    have h1 : ‖w‖ ≤ ‖w - φ‖ + ‖φ‖ := by simpa using norm_add_le (w - φ) φ
    rw [h.unit] at h1
    linarith
  have hxρ : ‖x - Us‖ ≤ ρ := by linarith
  have hx' : ‖x + (fdStep : ℝ) • w - Us‖ ≤ ρ := by
    have e1 : x + (fdStep : ℝ) • w - Us = (x - Us) + (fdStep : ℝ) • w := by abel
    rw [e1]
    refine (norm_add_le _ _).trans ?_
    rw [norm_smul, Real.norm_eq_abs, abs_of_pos hε]
    have := mul_le_mul_of_nonneg_left hw2 hε.le
    linarith
  have hreg := h.regular a ha l b
  have t1 := h.tangent_near hxρ (by linarith) a
  have t2 := h.tangent_near hxρ (by linarith) b
  have t3 := h.quotient_near hxρ hx' hw2 a
  have t4 : ‖D w a - D φ a‖ ≤ ‖D‖ * ‖w - φ‖ * ‖a‖ := by
    have := D.le_opNorm₂ (w - φ) a
    rwa [map_sub, sub_apply] at this
  have t5 : |inner ℝ ((1 / ‖w‖) • w - φ) b| ≤ 2 * ‖w - φ‖ * ‖b‖ :=
    (abs_real_inner_le_norm _ _).trans (mul_le_mul_of_nonneg_right (direction_near h.unit (hw.trans hE)) (norm_nonneg b))
  have n1 : ‖J Us a - l • e.forcing‖ ≤ ‖J x a - l • e.forcing‖ + (κ + ‖D‖) * E * ‖a‖ := by
    have e1 : J Us a - l • e.forcing = (J x a - l • e.forcing) - (J x a - J Us a) := by abel
    rw [e1]
    refine (norm_sub_le _ _).trans (add_le_add le_rfl (t1.trans ?_))
    refine mul_le_mul_of_nonneg_right (mul_le_mul_of_nonneg_left hx ?_) (norm_nonneg a)
    exact add_nonneg h.posκ (norm_nonneg D)
  have n2 : ‖J Us b + D φ a‖ ≤ ‖J x b + quotient J x w a‖ + ((κ + ‖D‖) * E * ‖b‖ +
      (2 * κ * E + 4 * κ * fdStep) * ‖a‖ + ‖D‖ * E * ‖a‖) := by
    have e1 : J Us b + D φ a = (J x b + quotient J x w a) - (J x b - J Us b) - (quotient J x w a - D w a) -
        (D w a - D φ a) := by abel
    rw [e1]
    refine (norm_sub_le _ _).trans ?_
    refine (add_le_add ((norm_sub_le _ _).trans (add_le_add (norm_sub_le _ _) le_rfl)) le_rfl).trans ?_
    have u1 : (κ + ‖D‖) * ‖x - Us‖ * ‖b‖ ≤ (κ + ‖D‖) * E * ‖b‖ :=
      mul_le_mul_of_nonneg_right (mul_le_mul_of_nonneg_left hx (add_nonneg h.posκ (norm_nonneg D))) (norm_nonneg b)
    have u2 : (2 * κ * ‖x - Us‖ + 4 * κ * fdStep) * ‖a‖ ≤ (2 * κ * E + 4 * κ * fdStep) * ‖a‖ := by
      refine mul_le_mul_of_nonneg_right ?_ (norm_nonneg a)
      have := mul_le_mul_of_nonneg_left hx (mul_nonneg two_pos.le h.posκ)
      linarith
    have u3 : ‖D‖ * ‖w - φ‖ * ‖a‖ ≤ ‖D‖ * E * ‖a‖ :=
      mul_le_mul_of_nonneg_right (mul_le_mul_of_nonneg_left hw (norm_nonneg D)) (norm_nonneg a)
    linarith
  have n3 : |inner ℝ φ b| ≤ |inner ℝ ((1 / ‖w‖) • w) b| + 2 * E * ‖b‖ := by
    have e1 : inner ℝ φ b = inner ℝ ((1 / ‖w‖) • w) b - inner ℝ ((1 / ‖w‖) • w - φ) b := by
      rw [inner_sub_left]; ring
    rw [e1]
    refine (abs_sub _ _).trans (add_le_add le_rfl (t5.trans ?_))
    exact mul_le_mul_of_nonneg_right (by linarith) (norm_nonneg b)
  set X := ‖J x a - l • e.forcing‖ + ‖J x b + quotient J x w a‖ + |inner ℝ ((1 / ‖w‖) • w) b| with hX
  have n4 : ‖J Us a - l • e.forcing‖ + ‖J Us b + D φ a‖ + |inner ℝ φ b| ≤
      X + (extendedConst D κ * E + 4 * κ * fdStep) * (‖a‖ + |l| + ‖b‖) := by
    unfold extendedConst
    have pa := norm_nonneg a
    have pb := norm_nonneg b
    have pl := abs_nonneg l
    have pD := norm_nonneg D
    have pκ := h.posκ
    have v1 : 0 ≤ κ * E * ‖a‖ := by positivity
    have v2 : 0 ≤ κ * E * ‖b‖ := by positivity
    have v3 : 0 ≤ ‖D‖ * E * ‖b‖ := by positivity
    have v4 : 0 ≤ κ * fdStep * ‖b‖ := by positivity
    have v5 : 0 ≤ E * ‖a‖ := by positivity
    have v6 : 0 ≤ (4 * κ * E + 2 * ‖D‖ * E + 2 * E + 4 * κ * fdStep) * |l| := by positivity
    linarith only [n1, n2, n3, hX, v1, v2, v3, v4, v5, v6]
  have n5 := mul_le_mul_of_nonneg_left n4 h.posm
  have n6 : m * (extendedConst D κ * E + 4 * κ * fdStep) * (‖a‖ + |l| + ‖b‖) ≤ 1 / 4 * (‖a‖ + |l| + ‖b‖) :=
    mul_le_mul_of_nonneg_right (by linarith) (by positivity)
  have n7 : 0 ≤ m * X := mul_nonneg h.posm (by positivity)
  have n8 : ‖a‖ + |l| + ‖b‖ ≤ m * X + 1 / 4 * (‖a‖ + |l| + ‖b‖) := by
    refine hreg.trans (n5.trans ?_)
    linarith
  linarith

/-- The error after a step of Newton's method. -/
theorem SingularPt.newton (h : SingularPt e G J S Us Ls φ D ρ m κ) {x w a b : V} {L l E : ℝ}
    (hE : ‖x - Us‖ + |L - Ls| + ‖w - φ‖ ≤ E) (hE2 : E ≤ 1 / 2) (hρ : E + 2 * fdStep ≤ ρ)
    (hq : 4 * m * (extendedConst D κ * E + 4 * κ * fdStep) ≤ 1) (hS : x - Us ∈ S) (ha : a ∈ S)
    (hN : NewtonStep J e.forcing x w (G x - L • e.forcing) a l b) :
    ‖x + a - Us‖ + |L + l - Ls| + ‖w + b - φ‖ ≤
      2 * m * (extendedConst D κ * E + 4 * κ * fdStep) * E := by
  have hε := fdStep_pos
  have p1 := norm_nonneg (x - Us)
  have p2 := norm_nonneg (w - φ)
  have p3 := abs_nonneg (L - Ls)
  have hx : ‖x - Us‖ ≤ E := by linarith
  have hw : ‖w - φ‖ ≤ E := by linarith
  have hE0 : 0 ≤ E := p1.trans hx
  have hw2 : ‖w‖ ≤ 2 := by
    have h1 : ‖w‖ ≤ ‖w - φ‖ + ‖φ‖ := by simpa using norm_add_le (w - φ) φ
    rw [h.unit] at h1
    linarith
  have hxρ : ‖x - Us‖ ≤ ρ := by linarith
  have hx' : ‖x + (fdStep : ℝ) • w - Us‖ ≤ ρ := by
    have e1 : x + (fdStep : ℝ) • w - Us = (x - Us) + (fdStep : ℝ) • w := by abel
    rw [e1]
    refine (norm_add_le _ _).trans ?_
    rw [norm_smul, Real.norm_eq_abs, abs_of_pos hε]
    have := mul_le_mul_of_nonneg_left hw2 hε.le
    linarith
  have hR := h.regular_near hx hw hE2 hρ hq (S.add_mem hS ha) (L + l - Ls) (w + b - φ)
  have e0 : x - Us + a = x + a - Us := by abel
  rw [e0] at hR
  refine hR.trans ?_
  -- the three residuals
  have r1 : ‖J x (x + a - Us) - (L + l - Ls) • e.forcing‖ ≤ κ * E ^ 2 := by
    have e1 : J x (x + a - Us) - (L + l - Ls) • e.forcing = -(G x - G Us - J x (x - Us)) := by
      have e2 : x + a - Us = a + (x - Us) := by abel
      have e3 := hN.first
      rw [sub_eq_iff_eq_add] at e3
      rw [e2, map_add, e3, h.balance]
      module
    rw [e1, norm_neg]
    exact (h.quad x hxρ).trans (mul_le_mul_of_nonneg_left (pow_le_pow_left₀ p1 hx 2) h.posκ)
  have r2 : ‖J x (w + b - φ) + quotient J x w (x + a - Us)‖ ≤
      (2 * κ * E + 4 * κ * fdStep) * E + ‖D‖ * E * E + κ * E ^ 2 := by
    have e1 : J x (w + b - φ) + quotient J x w (x + a - Us) =
        (quotient J x w (x - Us) - D w (x - Us)) + D (w - φ) (x - Us) -
          (J x φ - J Us φ - D (x - Us) φ) := by
      have e2 : x + a - Us = a + (x - Us) := by abel
      have e3 := hN.second
      have e4 : w + b - φ = b + (w - φ) := by abel
      rw [e2, e4, quotient_add, map_add, map_sub (J x), map_sub D, sub_apply, h.kernel,
        h.symm (x - Us) φ]
      have e5 : J x b + (J x w - J x φ) + (quotient J x w a + quotient J x w (x - Us)) =
          (J x b + quotient J x w a) + J x w - J x φ + quotient J x w (x - Us) := by abel
      rw [e5, e3]
      abel
    rw [e1]
    refine (norm_sub_le _ _).trans (add_le_add ((norm_add_le _ _).trans (add_le_add ?_ ?_)) ?_)
    · refine (h.quotient_near hxρ hx' hw2 (x - Us)).trans ?_
      refine mul_le_mul ?_ hx p1 ?_
      · have := mul_le_mul_of_nonneg_left hx (mul_nonneg two_pos.le h.posκ)
        linarith
      · have := h.posκ
        positivity
    · refine (D.le_opNorm₂ _ _).trans (mul_le_mul (mul_le_mul_of_nonneg_left hw (norm_nonneg D)) hx p1 ?_)
      positivity
    · have h2 := h.second_apply (x := Us) (x' := x) (by simpa using h.posρ.le) hxρ φ
      rw [sub_self, norm_zero, zero_add, h.unit, mul_one] at h2
      refine h2.trans ?_
      rw [mul_assoc, ← pow_two]
      exact mul_le_mul_of_nonneg_left (pow_le_pow_left₀ p1 hx 2) h.posκ
  have r3 : |inner ℝ ((1 / ‖w‖) • w) (w + b - φ)| ≤ 2 * E ^ 2 := by
    have e1 : w + b - φ = b + (w - φ) := by abel
    rw [e1, inner_add_right, hN.third]
    refine (direction_inner h.unit (hw.trans hE2)).trans ?_
    exact mul_le_mul_of_nonneg_left (pow_le_pow_left₀ p2 hw 2) two_pos.le
  rw [mul_assoc (2 * m)]
  refine mul_le_mul_of_nonneg_left ?_ (mul_nonneg two_pos.le h.posm)
  unfold extendedConst
  have v1 : 0 ≤ ‖D‖ * E * E := by positivity
  linarith only [r1, r2, r3, v1]

end GsSA.ALM
