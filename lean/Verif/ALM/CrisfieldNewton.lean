import Verif.ALM.NewtonProps
import Verif.ALM.Metric

/-!
# Crisfield's method near a regular equilibrium (C135)

The correction of Crisfield's method solves the linearised equations of equilibrium and the exact equation for
the length, which has two roots. Of the two, the one close to the equilibrium is taken if the old increments
point to the right side.
-/

namespace GsSA.ALM

open GsSA

set_option linter.unusedSectionVars false

variable {K V Mat Fac : Type} [Field K] [LinearOrder K] [IsStrictOrderedRing K] [AddCommGroup V]
variable [Module K V]
variable {e : Env K V Mat Fac} {o : Opts K}

/-! ## The norm of displacements -/

theorem Geo.Laws.psd {g : Geo K V} (h : g.Laws) : PSD (fun x (_ : K) => g.dot x x) (fun x _ y _ => g.dot x y) where
  nonneg x _ := h.nonneg x
  expand x l y m c := by
    simp only [h.add_left, h.add_right, h.smul_left, h.smul_right]
    rw [h.comm y x]
    ring

theorem Geo.Laws.cauchy {g : Geo K V} (h : g.Laws) (x y : V) : |g.dot x y| ≤ g.norm x * g.norm y := by
  refine abs_le_of_sq_le_sq ?_ (mul_nonneg (h.norm_nonneg x) (h.norm_nonneg y))
  rw [mul_pow, h.norm_sq, h.norm_sq]
  exact h.psd.cauchy x 0 y 0

theorem Geo.Laws.norm_add {g : Geo K V} (h : g.Laws) (x y : V) : g.norm (x + y) ≤ g.norm x + g.norm y :=
  h.psd.triangle h x 0 y 0

theorem Geo.Laws.norm_smul {g : Geo K V} (h : g.Laws) (a : K) (x : V) : g.norm (a • x) = |a| * g.norm x := by
  refine h.sqrt_eq (mul_nonneg (abs_nonneg _) (h.norm_nonneg _)) ?_
  rw [mul_pow, sq_abs, h.norm_sq, h.smul_left, h.smul_right]
  ring

theorem Geo.Laws.norm_neg {g : Geo K V} (h : g.Laws) (x : V) : g.norm (-x) = g.norm x := by
  have := h.norm_smul (-1) x
  rwa [neg_one_smul, abs_neg, abs_one, one_mul] at this

theorem Geo.Laws.norm_sub {g : Geo K V} (h : g.Laws) (x y : V) : g.norm (x - y) ≤ g.norm x + g.norm y := by
  rw [sub_eq_add_neg, ← h.norm_neg y]
  exact h.norm_add x (-y)

/-- The size of increments. -/
def size (e : Env K V Mat Fac) (x : V × K) : K := max (e.geo.norm x.1) |x.2|

theorem size_nonneg (e : Env K V Mat Fac) (x : V × K) : 0 ≤ size e x := (abs_nonneg _).trans (le_max_right _ _)

/-! ## Roots of the quadratic -/

theorem root_near {a β c r μ : K} (ha : 0 < a) (hμ : 0 < μ) (hβ : μ ≤ β) (hr0 : 0 ≤ r)
    (hr : r ^ 2 = 4 * β ^ 2 - 4 * a * c) : |(r - 2 * β) / (2 * a)| ≤ |c| / μ := by
  have h1 : |r - 2 * β| * (r + 2 * β) = 4 * a * |c| := by
    have h2 : (r - 2 * β) * (r + 2 * β) = -(4 * a * c) := by linear_combination hr
    have h3 := congrArg abs h2
    rwa [abs_mul, abs_neg, abs_mul, abs_of_pos (by linarith : 0 < r + 2 * β),
      abs_of_pos (by linarith : 0 < 4 * a)] at h3
  have h4 : |r - 2 * β| * (2 * μ) ≤ 4 * a * |c| := by
    rw [← h1]
    exact mul_le_mul_of_nonneg_left (by linarith) (abs_nonneg _)
  rw [abs_div, abs_of_pos (by linarith : 0 < 2 * a), div_le_div_iff₀ (by linarith) hμ]
  linarith

theorem chooseDOT_pos {s : St K V Mat Fac} {x1 x2 : K} (hx : x2 ≤ x1)
    (hw : 0 ≤ e.geo.dot s.DUold s.Ut + s.phi ^ 2 * s.DLold) : chooseDOT e s x1 x2 = x1 := by
  have h1 := mul_le_mul_of_nonneg_right hx hw
  unfold chooseDOT
  simp only [h1.not_gt, if_false, ite_self]

theorem chooseDOT_neg {s : St K V Mat Fac} {x1 x2 : K} (hx : x2 ≤ x1)
    (hw : e.geo.dot s.DUold s.Ut + s.phi ^ 2 * s.DLold < 0) : chooseDOT e s x1 x2 = x2 := by
  unfold chooseDOT
  simp only
  rcases hx.eq_or_lt with rfl | hx
  · simp
  · have h1 := mul_lt_mul_of_neg_right hx hw
    simp only [h1.not_gt, h1, if_false, if_true]

/-! ## Regular solutions -/

/-- The increments `x₀` lead from `(U, L)` to an equilibrium at the length asked for. At distance at most `d`
from them the linear solver works, the inverse of the tangent is bounded by `b`, the equations of equilibrium
are approximated by their derivative to second order with constant `g`, and the tangent to the path crosses
the sphere with speed at least `μ`, outwards if `σ = 1` and inwards if `σ = -1`. -/
structure CrRegular (e : Env K V Mat Fac) (r : V → K → V) (J : V → V →ₗ[K] V) (phi len : K) (U : V) (L : K)
    (x₀ : V × K) (σ d b g W μ : K) : Prop where
  residual : ∀ n x l, e.residual n x l = some (r x l)
  solvable : ∀ x : V × K, size e (x - x₀) ≤ d → Solvable e J (U + x.1)
  inv : ∀ x : V × K, size e (x - x₀) ≤ d → ∀ v, e.geo.norm v ≤ b * e.geo.norm (J (U + x.1) v)
  quad : ∀ x : V × K, size e (x - x₀) ≤ d →
    e.geo.norm (r (U + x.1) (L + x.2) + (J (U + x.1) (x₀ - x).1 - (x₀ - x).2 • e.forcing)) ≤
      g * size e (x - x₀) ^ 2
  length : crForm e phi x₀.1 x₀.2 = len ^ 2
  tangent : ∀ x : V × K, size e (x - x₀) ≤ d → ∀ w, J (U + x.1) w = e.forcing →
    e.geo.norm w ≤ W ∧ μ ≤ σ * (e.geo.dot x₀.1 w + loadWeight e phi * x₀.2)
  sign : σ = 1 ∨ σ = -1
  step : b * g * d ^ 2 * W ≤ μ / 2
  real : (W ^ 2 + loadWeight e phi) * ((2 * e.geo.norm x₀.1 + b * g * d ^ 2) * (b * g * d ^ 2)) ≤ μ ^ 2 / 4
  posb : 0 ≤ b
  posg : 0 ≤ g
  posW : 0 ≤ W
  posμ : 0 < μ

/-- Old increments that lead to the right root. The measure is that of `computeLambdaDOT`. -/
def Points (e : Env K V Mat Fac) (J : V → V →ₗ[K] V) (phi : K) (U : V) (x₀ : V × K) (σ d : K) (a : V) (l : K) : Prop :=
  ∀ x : V × K, size e (x - x₀) ≤ d → ∀ w, J (U + x.1) w = e.forcing →
    (σ = 1 ∧ 0 ≤ e.geo.dot a w + phi ^ 2 * l) ∨ (σ = -1 ∧ e.geo.dot a w + phi ^ 2 * l < 0)

/-- The factor between the square of an error and the next one. -/
def crRate (e : Env K V Mat Fac) (x₀ : V × K) (d b g W μ : K) : K :=
  b * g * (1 + 2 * (2 * e.geo.norm x₀.1 + b * g * d ^ 2) / μ * (W + 1))

variable {r : V → K → V} {J : V → V →ₗ[K] V} {phi len : K} {U : V} {L : K} {x₀ : V × K} {σ d b g W μ : K}

theorem CrRegular.rate_nonneg (h : CrRegular e r J phi len U L x₀ σ d b g W μ) (hg : e.geo.Laws) :
    0 ≤ crRate e x₀ d b g W μ := by
  have := h.posb
  have := h.posg
  have := h.posW
  have := h.posμ
  have := hg.norm_nonneg x₀.1
  unfold crRate
  positivity

/-- The correction. -/
theorem CrRegular.roots (h : CrRegular e r J phi len U L x₀ σ d b g W μ) (hg : e.geo.Laws) {s : St K V Mat Fac}
    (hphi : s.phi = phi) (hlen : s.len = len) (hx : size e ((s.DU, s.DL) - x₀) ≤ d)
    (hw : J (U + s.DU) s.Ut = e.forcing) (hb : J (U + s.DU) s.Ubar = -r (U + s.DU) (L + s.DL))
    (hp : Points e J phi U x₀ σ d s.DUold s.DLold) :
    0 ≤ (crQuad e s).disc 1 ∧
    let dl := chooseDOT e s
      ((-(crQuad e s).alpha2 1 + e.geo.sqrt ((crQuad e s).disc 1)) / (2 * (crQuad e s).a0))
      ((-(crQuad e s).alpha2 1 - e.geo.sqrt ((crQuad e s).disc 1)) / (2 * (crQuad e s).a0))
    size e ((s.DU + (s.Ubar + dl • s.Ut), s.DL + dl) - x₀) ≤
      crRate e x₀ d b g W μ * size e ((s.DU, s.DL) - x₀) ^ 2 := by
  set w := s.Ut with hwd
  set A := loadWeight e phi with hA
  have hA0 : 0 ≤ A := loadWeight_nonneg hg phi
  set E := size e ((s.DU, s.DL) - x₀) with hE
  have hE0 : 0 ≤ E := size_nonneg _ _
  set R := e.geo.norm x₀.1 with hR
  have hR0 : 0 ≤ R := hg.norm_nonneg _
  obtain ⟨hW, hμ⟩ := h.tangent (s.DU, s.DL) hx w hw
  have hw0 := hg.norm_nonneg w
  set t₀ := x₀.2 - s.DL with ht₀
  set v := s.DU + (s.Ubar + t₀ • w) - x₀.1 with hv
  have hbg : 0 ≤ b * g := mul_nonneg h.posb h.posg
  have hvn : e.geo.norm v ≤ b * g * E ^ 2 := by
    have h1 := h.inv (s.DU, s.DL) hx v
    have h2 := h.quad (s.DU, s.DL) hx
    have e1 : J (U + s.DU) v =
        -(r (U + s.DU) (L + s.DL) + (J (U + s.DU) (x₀ - (s.DU, s.DL)).1 - (x₀ - (s.DU, s.DL)).2 • e.forcing)) := by
      have e2 : v = s.Ubar + t₀ • w - (x₀.1 - s.DU) := by rw [hv]; abel
      rw [e2, map_sub, map_add, map_smul, hw, hb]
      simp only [Prod.fst_sub, Prod.snd_sub]
      abel
    rw [e1, hg.norm_neg] at h1
    refine h1.trans ?_
    rw [mul_assoc]
    exact mul_le_mul_of_nonneg_left h2 h.posb
  have hv0 := hg.norm_nonneg v
  have hη : b * g * E ^ 2 ≤ b * g * d ^ 2 :=
    mul_le_mul_of_nonneg_left (pow_le_pow_left₀ hE0 hx 2) hbg
  set η := b * g * d ^ 2 with hηd
  have hvη := hvn.trans hη
  have hy : s.DU + (s.Ubar + t₀ • w) = x₀.1 + v := by rw [hv]; abel
  -- the quadratic seen from the load of the solution
  set a := (crQuad e s).a0 with ha
  have ha' : a = e.geo.dot w w + A := by rw [ha, hA, ← hphi]; rfl
  set β := e.geo.dot x₀.1 w + A * x₀.2 + e.geo.dot v w with hβ
  set c := 2 * e.geo.dot x₀.1 v + e.geo.dot v v with hc
  have hα2 : (crQuad e s).alpha2 1 = 2 * β - 2 * a * t₀ := by
    have e1 : e.geo.dot v w = e.geo.dot s.DU w + (e.geo.dot s.Ubar w + t₀ * e.geo.dot w w) - e.geo.dot x₀.1 w := by
      rw [hv, hg.sub_left, hg.add_left, hg.add_left, hg.smul_left]
    rw [hβ, e1, ha', hA, ← hphi]
    simp only [crQuad, Quad.alpha2, ← hwd, hg.comm w s.DU, ht₀]
    ring
  have hα3 : (crQuad e s).alpha3 1 = c - 2 * β * t₀ + a * t₀ ^ 2 := by
    have h1 := crForm_update hg s 1 t₀
    rw [one_smul, ← hwd, hy, hphi, hlen] at h1
    have h2 : crForm e phi (x₀.1 + v) (s.DL + t₀) = len ^ 2 + c := by
      rw [← h.length, hc, ht₀]
      simp only [crForm, hg.add_left, hg.add_right, hg.comm v x₀.1]
      ring
    rw [h2, hα2, ← ha] at h1
    linear_combination -h1
  have hdisc : (crQuad e s).disc 1 = 4 * β ^ 2 - 4 * a * c := by
    simp only [Quad.disc, disc, hα2, hα3, ← ha]
    ring
  have hvw : |e.geo.dot v w| ≤ μ / 2 := by
    refine (hg.cauchy v w).trans (le_trans ?_ h.step)
    exact mul_le_mul hvη hW hw0 (hv0.trans hvη)
  have hσβ : μ / 2 ≤ σ * β := by
    have h1 : -(μ / 2) ≤ σ * e.geo.dot v w := by
      rcases h.sign with h0 | h0 <;> rw [h0] <;> rw [abs_le] at hvw <;> linarith
    have h2 : σ * β = σ * (e.geo.dot x₀.1 w + A * x₀.2) + σ * e.geo.dot v w := by rw [hβ]; ring
    linarith
  have hσ2 : σ ^ 2 = 1 := by rcases h.sign with h0 | h0 <;> rw [h0] <;> norm_num
  have hβ2 : μ ^ 2 / 4 ≤ β ^ 2 := by
    have h1 := pow_le_pow_left₀ (by have := h.posμ; linarith) hσβ 2
    rw [mul_pow, hσ2, one_mul] at h1
    linarith
  have hcv : |c| ≤ (2 * R + η) * (b * g * E ^ 2) := by
    rw [hc]
    refine (abs_add_le _ _).trans ?_
    rw [abs_mul, abs_of_pos (two_pos : (0 : K) < 2), abs_of_nonneg (hg.nonneg v), ← hg.norm_sq]
    have h1 := hg.cauchy x₀.1 v
    have h2 := mul_le_mul_of_nonneg_left hvn hR0
    have h3 : e.geo.norm v ^ 2 ≤ η * (b * g * E ^ 2) := by
      rw [sq]
      exact mul_le_mul hvη hvn hv0 (hv0.trans hvη)
    linarith
  have ha1 : a ≤ W ^ 2 + A := by
    rw [ha', ← hg.norm_sq]
    have := pow_le_pow_left₀ hw0 hW 2
    linarith
  have ha0 : 0 ≤ a := by rw [ha']; exact add_nonneg (hg.nonneg _) hA0
  have hη0 : 0 ≤ η := hv0.trans hvη
  have hac : a * |c| ≤ β ^ 2 := by
    refine le_trans ?_ hβ2
    refine le_trans ?_ h.real
    refine mul_le_mul ha1 ?_ (abs_nonneg _) (by positivity)
    exact hcv.trans (mul_le_mul_of_nonneg_left hη (by positivity))
  have hd0 : 0 ≤ (crQuad e s).disc 1 := by
    rw [hdisc]
    have := mul_le_mul_of_nonneg_left (le_abs_self c) ha0
    linarith
  have hapos : 0 < a := by
    rcases ha0.eq_or_lt with h0 | h0
    · exfalso
      rw [ha'] at h0
      have h1 : e.geo.dot w w = 0 := le_antisymm (by linarith) (hg.nonneg w)
      have h2 : A = 0 := by linarith
      have h3 : e.geo.norm w = 0 := by
        have := hg.norm_sq w
        rw [h1] at this
        exact pow_eq_zero_iff (two_ne_zero) |>.1 this
      have h4 := hg.cauchy x₀.1 w
      rw [h3, mul_zero] at h4
      have h5 := abs_nonpos_iff.1 h4
      rw [h5, ← hA, h2] at hμ
      have := h.posμ
      simp only [zero_mul, add_zero, mul_zero] at hμ
      linarith
    · exact h0
  refine ⟨hd0, ?_⟩
  set ρ := e.geo.sqrt ((crQuad e s).disc 1) with hρ
  have hρ0 : 0 ≤ ρ := hg.sqrt_nonneg _
  have hρ2 : ρ ^ 2 = 4 * β ^ 2 - 4 * a * c := by rw [hρ, hg.sqrt_sq _ hd0, hdisc]
  have hle : (-(crQuad e s).alpha2 1 - ρ) / (2 * a) ≤ (-(crQuad e s).alpha2 1 + ρ) / (2 * a) :=
    div_le_div_of_nonneg_right (by linarith) (by linarith)
  intro dl
  have hdl : |dl - t₀| ≤ |c| / (μ / 2) := by
    have hμ2 : 0 < μ / 2 := half_pos h.posμ
    rcases hp (s.DU, s.DL) hx w hw with ⟨h0, h1⟩ | ⟨h0, h1⟩
    · have h2 : dl = (-(crQuad e s).alpha2 1 + ρ) / (2 * a) := chooseDOT_pos hle (by rw [hphi]; exact h1)
      have h3 : dl - t₀ = (ρ - 2 * β) / (2 * a) := by
        rw [h2, hα2]; field_simp; ring
      rw [h3]
      exact root_near hapos hμ2 (by rw [h0, one_mul] at hσβ; exact hσβ) hρ0 hρ2
    · have h2 : dl = (-(crQuad e s).alpha2 1 - ρ) / (2 * a) := chooseDOT_neg hle (by rw [hphi]; exact h1)
      have h3 : dl - t₀ = -((ρ - 2 * (-β)) / (2 * a)) := by
        rw [h2, hα2]; field_simp; ring
      rw [h3, abs_neg]
      exact root_near hapos hμ2 (by rw [h0] at hσβ; linarith) hρ0 (by rw [hρ2]; ring)
  have hdl' : |dl - t₀| ≤ 2 * (2 * R + η) / μ * (b * g * E ^ 2) := by
    refine hdl.trans ?_
    have e1 : 2 * (2 * R + η) / μ * (b * g * E ^ 2) = (2 * R + η) * (b * g * E ^ 2) / (μ / 2) := by
      have := h.posμ.ne'
      field_simp
    rw [e1]
    exact div_le_div_of_nonneg_right hcv (half_pos h.posμ).le
  have hfin : b * g * E ^ 2 + |dl - t₀| * (W + 1) ≤ crRate e x₀ d b g W μ * E ^ 2 := by
    have h1 := mul_le_mul_of_nonneg_right hdl' (by have := h.posW; linarith : 0 ≤ W + 1)
    unfold crRate
    rw [← hR, ← hηd]
    linarith
  refine max_le (le_trans ?_ hfin) (le_trans ?_ hfin)
  · have e1 : ((s.DU + (s.Ubar + dl • w), s.DL + dl) - x₀).1 = v + (dl - t₀) • w := by
      simp only [Prod.fst_sub, hv, sub_smul]
      abel
    rw [e1]
    refine (hg.norm_add _ _).trans (add_le_add hvn ?_)
    rw [hg.norm_smul]
    refine mul_le_mul_of_nonneg_left (hW.trans (by linarith)) (abs_nonneg _)
  · have e1 : ((s.DU + (s.Ubar + dl • w), s.DL + dl) - x₀).2 = dl - t₀ := by
      simp only [Prod.snd_sub, ht₀]
      ring
    rw [e1]
    have h1 : 0 ≤ b * g * E ^ 2 := by positivity
    have h2 := mul_nonneg (abs_nonneg (dl - t₀)) h.posW
    linarith

/-- What Crisfield's method keeps during a step. -/
def CrKept (e : Env K V Mat Fac) (J : V → V →ₗ[K] V) (phi len : K) (U : V) (x₀ : V × K) (σ d : K)
    (gu : Option V) (s : St K V Mat Fac) : Prop :=
  s.phi = phi ∧ s.len = len ∧ Points e J phi U x₀ σ d s.DUold s.DLold ∧ s.guess = gu

/-- Crisfield's method contracts near regular solutions. -/
theorem CrRegular.contracts (h : CrRegular e r J phi len U L x₀ σ d b g W μ) (hg : e.geo.Laws)
    (hq : o.quasi = false) (hr : o.relax = 1)
    (hp : o.angle = .iteration → ∀ x : V × K, size e (x - x₀) ≤ d → Points e J phi U x₀ σ d x.1 x.2) {E : ℕ → K}
    (hE : QuadBounds d (crRate e x₀ d b g W μ) 1 E) (gu : Option V) :
    Contracts e o (crisfield e o) r U L (fun x l => size e ((x, l) - x₀)) (CrKept e J phi len U x₀ σ d gu) E where
  residual := h.residual
  correct s k hU hL hres hP hk := by
    have hx := hk.trans (hE.le k)
    obtain ⟨m, f, l, h1, h2⟩ := Solvable.assemble (e := e) (J := J) (s := s)
      (by rw [hU]; exact h.solvable (s.DU, s.DL) hx)
    obtain ⟨w, l', h3, h4⟩ := solve_ut (e := e) (s := { s with jac := m, fac := some f, log := l }) rfl h2
    obtain ⟨v, l'', h5, h6⟩ := solve_ubar (e := e)
      (s := { s with jac := m, fac := some f, Ut := w, log := l' }) rfl h2
    rw [hU] at h4 h6
    rw [hres] at h6
    obtain ⟨s1, hs1⟩ : ∃ s1 : St K V Mat Fac, s1 = { s with
      jac := m, fac := some f, Ut := w, Ubar := v, log := l'' } := ⟨_, rfl⟩
    obtain ⟨c1, c2⟩ := h.roots (s := s1) hg (by rw [hs1]; exact hP.1) (by rw [hs1]; exact hP.2.1)
      (by rw [hs1]; exact hx) (by rw [hs1]; exact h4) (by rw [hs1]; exact h6) (by rw [hs1]; exact hP.2.2.1)
    simp only at c2
    obtain ⟨dl, hdl⟩ : ∃ dl, dl = chooseDOT e s1
      ((-(crQuad e s1).alpha2 1 + e.geo.sqrt ((crQuad e s1).disc 1)) / (2 * (crQuad e s1).a0))
      ((-(crQuad e s1).alpha2 1 - e.geo.sqrt ((crQuad e s1).disc 1)) / (2 * (crQuad e s1).a0)) := ⟨_, rfl⟩
    rw [← hdl] at c2
    have e1 : s1.DU = s.DU ∧ s1.DL = s.DL ∧ s1.Ubar = v ∧ s1.Ut = w := by rw [hs1]; exact ⟨rfl, rfl, rfl, rfl⟩
    obtain ⟨e1, e2, e3, e4⟩ := e1
    rw [e1, e2, e3, e4] at c2
    have hnext : size e ((s.DU + (v + dl • w), s.DL + dl) - x₀) ≤ E (k + 1) := by
      refine c2.trans (le_trans ?_ (hE.next k))
      rw [mul_one]
      exact mul_le_mul_of_nonneg_left (pow_le_pow_left₀ (size_nonneg _ _) hk 2) (h.rate_nonneg hg)
    have hrun : ∃ t, correct o (crisfield e o) s = (t, .ok ()) ∧ t.DU = s.DU + (v + dl • w) ∧ t.DL = s.DL + dl ∧
        t.dU = v + dl • w ∧ t.phi = s.phi ∧ t.len = s.len ∧ t.guess = s.guess ∧
        ((o.angle = .iteration ∧ t.DUold = t.DU ∧ t.DLold = t.DL) ∨ (t.DUold = s.DUold ∧ t.DLold = s.DLold)) := by
      have hlam : computeLambdas e s1 = ({ s1 with
          dL := dl, dU := (1 : K) • s1.Ubar + dl • s1.Ut, log := .roots .real :: s1.log }, .ok 1) := by
        unfold computeLambdas
        rw [Act.bind_ok (Act.get_apply s1)]
        simp only [c1, if_true]
        rw [Act.bind_ok (by rfl : lambdaDOT e 1 _ _ s1 = _), Act.bind_ok (by rfl : emit _ _ = _)]
        rw [Act.pure_apply]
        simp only [← hdl]
      unfold correct
      rw [Act.bind_ok (Act.get_apply s), refreshes_full hq]
      simp only [if_true, crisfield, quasiIterationUt]
      rw [Act.bind_ok ((Act.bind_ok h1).trans h3)]
      unfold crIteration
      rw [Act.bind_ok h5, ← hs1, Act.bind_ok (Act.get_apply s1)]
      simp only
      rw [Act.bind_ok hlam, Act.bind_ok (Act.modify_apply _ _)]
      simp only [hr, ne_eq, not_true_eq_false, and_false, if_false]
      rw [Act.bind_ok (Act.modify_apply _ _), Act.modify_apply]
      by_cases ha : o.angle = .iteration
      · simp only [ha, if_true, one_smul]
        refine ⟨_, rfl, ?_, ?_, ?_, ?_, ?_, ?_, .inl ⟨trivial, rfl, rfl⟩⟩ <;> simp only [e1, e2, e3, e4] <;> rw [hs1]
      · simp only [ha, if_false, one_smul]
        refine ⟨_, rfl, ?_, ?_, ?_, ?_, ?_, ?_, .inr ⟨?_, ?_⟩⟩ <;> simp only [e1, e2, e3, e4] <;> rw [hs1]
    obtain ⟨t, r1, r2, r3, r4, r5, r6, r8, r7⟩ := hrun
    rw [← r2, ← r3] at hnext
    refine ⟨t, r1, ⟨r5.trans hP.1, r6.trans hP.2.1, ?_, r8.trans hP.2.2.2⟩, hnext, ?_⟩
    · rcases r7 with ⟨a1, a2, a3⟩ | ⟨a2, a3⟩
      · rw [a2, a3]
        exact hp a1 (t.DU, t.DL) (hnext.trans (hE.le (k + 1)))
      · rw [a2, a3]
        exact hP.2.2.1
    · have e5 : t.dU = ((t.DU, t.DL) - x₀).1 - ((s.DU, s.DL) - x₀).1 := by
        simp only [Prod.fst_sub, r2, r4]
        abel
      rw [e5, add_comm]
      exact (hg.norm_sub _ _).trans (add_le_add ((le_max_left _ _).trans hnext) ((le_max_left _ _).trans hk))
  frame s t h1 h2 h3 h4 _ _ _ _ h9 hP :=
    ⟨h1.trans hP.1, h2.trans hP.2.1, by rw [h3, h4]; exact hP.2.2.1, h9.trans hP.2.2.2⟩

/-- **C135**. If the predictor of Crisfield's method ends close enough to a regular solution of the equilibrium
equations at the length of the step, and the old increments point to its side, the step ends with `Success` or
`NotConverged`; with `Success` the error has been squared in every iteration; and it is `Success` once the
bounds pass the tests. Nothing is relaxed. -/
theorem C135_crisfield (hg : e.geo.Laws) (hq : o.quasi = false) (hr : o.relax = 1) (hmax : 2 ≤ o.maxIt)
    {s p : St K V Mat Fac} (hb : beginStep e (crisfield e o) s = (p, .ok ())) (hi : s.initialized = true)
    (h : CrRegular e r J p.phi s.len s.U s.L x₀ σ d b g W μ) (hp : Points e J p.phi s.U x₀ σ d p.DUold p.DLold)
    (hp' : o.angle = .iteration → ∀ x : V × K, size e (x - x₀) ≤ d → Points e J p.phi s.U x₀ σ d x.1 x.2)
    (hd : size e ((p.DU, p.DL) - x₀) ≤ d) (hc : crRate e x₀ d b g W μ * size e ((p.DU, p.DL) - x₀) ≤ 1) :
    Converges e o (crisfield e o) r (size e) x₀ d (crRate e x₀ d b g W μ) 1 s p := by
  have hE := quadError_bounds (h.rate_nonneg hg) zero_le_one (size_nonneg e ((p.DU, p.DL) - x₀)) hd (by rwa [mul_one])
  have hM := lawful_crisfield e o
  obtain ⟨b1, b2, b3, -⟩ := beginStep_spec hM hi hb
  obtain ⟨t, st, h1, h2, h3, h4, h5⟩ := (h.contracts hg hq hr hp' hE p.guess).step hM hq hmax hb b3 b1.U b1.L
    ⟨rfl, b1.len, hp, rfl⟩ (by rw [quadError_zero])
  refine ⟨⟨t, st, h1, h2⟩, fun u hu => ?_, fun u hu => ?_, fun l n hl hl0 hn => ?_⟩
  · rw [h1, Prod.mk.injEq, Except.ok.injEq] at hu
    obtain ⟨rfl, rfl⟩ := hu
    obtain ⟨k1, k2, k3, k4, k5, -⟩ := h3 rfl
    refine ⟨k4, k5, ?_⟩
    rw [k1, k2, add_sub_cancel_left, add_sub_cancel_left]
    exact k3
  · rw [h1, Prod.mk.injEq, Except.ok.injEq] at hu
    obtain ⟨rfl, rfl⟩ := hu
    exact h4 rfl
  · obtain ⟨rfl, k2⟩ := h5 l n hn.pos hn.lt ⟨fun t _ hxy => (hl (t.DU, t.DL) (hxy.trans (hE.le n))).trans
      (mul_le_mul_of_nonneg_left hxy hl0), hn.force, hn.step, hn.load, hn.moves⟩
    exact ⟨t, h1, k2⟩

end GsSA.ALM
