import Mathlib.Algebra.Order.Archimedean.Basic
import Verif.ALM.LinearProps

/-!
# Riks' method and the consistent Crisfield method on a linear structure (C115)

Both correct the load increment by Newton's method for the constraint, so a step converges, but not
in a fixed number of iterations.
-/

namespace GsSA.ALM

open GsSA

set_option linter.unusedSectionVars false

variable {K V Mat Fac : Type} [Field K] [LinearOrder K] [IsStrictOrderedRing K] [AddCommGroup V]
variable [Module K V]
variable {e : Env K V Mat Fac} {o : Opts K} {A G : V →ₗ[K] V} {m0 : Mat} {f0 : Fac}

/-! ## Newton's method for `a τ² = l²` -/

/-- The correction. -/
def heron (a l τ : K) : K := -(a * τ ^ 2 - l * l) / (2 * a * τ)

theorem heron_next {a l τ : K} (ha : a ≠ 0) (hτ : τ ≠ 0) :
    τ + heron a l τ = (a * τ ^ 2 + l * l) / (2 * a * τ) := by
  unfold heron
  field_simp
  ring

/-- The defect after a correction. -/
theorem heron_defect {a l τ : K} (ha : a ≠ 0) (hτ : τ ≠ 0) :
    a * (τ + heron a l τ) ^ 2 - l * l = a * heron a l τ ^ 2 := by
  unfold heron
  field_simp
  ring

theorem heron_side {a l τ σ : K} (ha : 0 < a) (hσ : σ = 1 ∨ σ = -1) (hτ : 0 < σ * τ) :
    0 < σ * (τ + heron a l τ) := by
  have hne : τ ≠ 0 := by rintro rfl; simp at hτ
  have hσσ : σ * σ = 1 := by rcases hσ with rfl | rfl <;> ring
  have e1 : σ * (τ + heron a l τ) = (a * τ ^ 2 + l * l) / (2 * a * (σ * τ)) := by
    rw [heron_next ha.ne' hne]
    have hσ0 : σ ≠ 0 := by rintro rfl; simp at hσσ
    field_simp
    rw [show σ ^ 2 = 1 by rw [sq, hσσ]]
    try ring
  rw [e1]
  have : 0 < a * τ ^ 2 := mul_pos ha (by positivity)
  exact div_pos (by nlinarith [mul_self_nonneg l]) (by positivity)

/-- The distance of an iterate from the exact increment `R`. -/
theorem heron_error {a R τ : K} (ha : a ≠ 0) (hτ : τ ≠ 0) {l : K} (hl : l * l = a * R ^ 2) :
    τ + heron a l τ - R = (τ - R) ^ 2 / (2 * τ) := by
  rw [heron_next ha hτ, hl]
  field_simp
  ring

theorem heron_neg (a l τ : K) : heron a l (-τ) = -heron a l τ := by
  unfold heron
  rw [neg_sq, mul_neg, div_neg]

theorem glide_heron_neg (a l τ : K) (n : ℕ) :
    glide (heron a l) (-τ) n = -glide (heron a l) τ n := by
  induction n with
  | zero => rfl
  | succ n ih => rw [glide, glide, ih, heron_neg]; ring

/-- Newton's method converges. -/
theorem heron_small_pos [Archimedean K] {a R l τ : K} (ha : 0 < a) (hR : 0 < R)
    (hl : l * l = a * R ^ 2) (hτ : 0 < τ) {ε : K} (hε : 0 < ε) :
    ∃ j, |heron a l (glide (heron a l) τ j)| < ε := by
  have hpos : ∀ n, 0 < glide (heron a l) τ n := by
    intro n
    induction n with
    | zero => exact hτ
    | succ n ih =>
      have := heron_side (l := l) ha (.inl rfl) (by rw [one_mul]; exact ih)
      rwa [one_mul] at this
  have herr : ∀ n, glide (heron a l) τ (n + 1) - R =
      (glide (heron a l) τ n - R) ^ 2 / (2 * glide (heron a l) τ n) := fun n =>
    heron_error ha.ne' (hpos n).ne' hl
  have hge : ∀ n, 0 ≤ glide (heron a l) τ (n + 1) - R := fun n => by
    rw [herr]
    exact div_nonneg (sq_nonneg _) (by linarith [hpos n])
  have hhalf : ∀ n, glide (heron a l) τ (n + 2) - R ≤ (glide (heron a l) τ (n + 1) - R) / 2 := by
    intro n
    rw [herr (n + 1)]
    have h1 := hpos (n + 1)
    have h2 := hge n
    rw [div_le_div_iff₀ (by linarith) two_pos]
    nlinarith [mul_nonneg h2 hR.le]
  have hbound : ∀ n, glide (heron a l) τ (n + 1) - R ≤
      (glide (heron a l) τ 1 - R) / 2 ^ n := by
    intro n
    induction n with
    | zero => simp
    | succ n ih =>
      refine (hhalf n).trans ?_
      rw [pow_succ, ← div_div]
      exact div_le_div_of_nonneg_right ih two_pos.le
  obtain ⟨n, hn⟩ : ∃ n : ℕ, (glide (heron a l) τ 1 - R) / ε < 2 ^ n := pow_unbounded_of_one_lt _ one_lt_two
  refine ⟨n + 1, ?_⟩
  have hstep : heron a l (glide (heron a l) τ (n + 1)) =
      (glide (heron a l) τ (n + 2) - R) - (glide (heron a l) τ (n + 1) - R) := by
    have : glide (heron a l) τ (n + 2) = glide (heron a l) τ (n + 1) +
        heron a l (glide (heron a l) τ (n + 1)) := rfl
    rw [this]; ring
  have h1 := hge n
  have h2 := hge (n + 1)
  have h3 := hhalf n
  have h4 := hbound n
  have h5 : (glide (heron a l) τ 1 - R) / 2 ^ n < ε := by
    rw [div_lt_iff₀ hε] at hn
    rw [div_lt_iff₀ (by positivity)]
    linarith
  rw [hstep, abs_lt]
  constructor <;> linarith

theorem heron_small [Archimedean K] {a R l τ : K} (ha : 0 < a) (hR : 0 < R)
    (hl : l * l = a * R ^ 2) (hτ : τ ≠ 0) {ε : K} (hε : 0 < ε) :
    ∃ j, |heron a l (glide (heron a l) τ j)| < ε := by
  rcases lt_or_gt_of_ne hτ with h | h
  · obtain ⟨j, hj⟩ := heron_small_pos ha hR hl (τ := -τ) (by linarith) hε
    refine ⟨j, ?_⟩
    rwa [glide_heron_neg, heron_neg, abs_neg] at hj
  · exact heron_small_pos ha hR hl h hε

theorem norm_smul_eq {g : Geo K V} (hg : g.Laws) (c : K) (x : V) :
    g.norm (c • x) = |c| * g.norm x := by
  refine hg.sqrt_eq (mul_nonneg (abs_nonneg _) (hg.norm_nonneg x)) ?_
  rw [mul_pow, sq_abs, hg.norm_sq, hg.smul_left, hg.smul_right]
  ring

/-- The previous point seen from the current one: on the line, in the direction `σ`; a point that is
not distinguished from the current one counts as forward. -/
def Arriving (e : Env K V Mat Fac) (G : V →ₗ[K] V) (σ : K) (s : St K V Mat Fac) : Prop :=
  ∃ δ, s.U - s.Uprev = δ • G e.forcing ∧ s.L - s.Lprev = δ ∧
    (nearby e s.U s.Uprev s.L s.Lprev = true → σ = 1) ∧
    (nearby e s.U s.Uprev s.L s.Lprev = false → 0 < σ * δ)

/-- A step of a method which corrects by `heron`. -/
theorem newton_step [Archimedean K] (hl : Linear e A G m0 f0) (hg : e.geo.Laws)
    {s p : St K V Mat Fac} {phi τ0 a σ : K} {M : Method K V Mat Fac}
    (hσ : σ = 1 ∨ σ = -1) (ha : 0 < a)
    (hM : Glides e G m0 f0 s phi τ0 M
      (tanOk e G fun τ _ _ => 0 < σ * τ) (heron a s.len))
    (hL : 0 ≤ σ * s.L) (h0 : A s.U = s.L • e.forcing)
    (hF : e.geo.dot e.forcing e.forcing ≠ 0) (hw : e.geo.dot (G e.forcing) (G e.forcing) ≠ 0)
    (hlen : 0 < s.len) (hb : beginStep e M s = (p, .ok ())) (hp : Starts e G m0 f0 s phi τ0 p)
    (hτ0 : 0 < σ * τ0) {tolF tolU : K} (htF : 0 < tolF) (htU : 0 < tolU) :
    ∃ N, ∀ o : Opts K, o.tolF = tolF → o.tolU = tolU → N ≤ o.maxIt →
      ∃ t τ x, step e o M s = (t, .ok .success) ∧ Ended e G s phi τ t.numIt t ∧
        0 < σ * τ ∧ a * τ ^ 2 = s.len ^ 2 + a * x ^ 2 ∧
        |x| < tolU * |τ0| ∧ t.numIt + 1 ≤ N := by
  have hne : τ0 ≠ 0 := by rintro rfl; simp at hτ0
  have hnz : s.L + τ0 ≠ 0 := by
    intro hc
    have : σ * (s.L + τ0) = 0 := by rw [hc, mul_zero]
    rw [mul_add] at this
    linarith
  have hr0 := hg.sqrt_pos ha
  have hR : 0 < s.len / e.geo.sqrt a := div_pos hlen hr0
  have hlR : s.len * s.len = a * (s.len / e.geo.sqrt a) ^ 2 := by
    rw [div_pow, hg.sqrt_sq _ ha.le]
    field_simp
  have hw0 : 0 < e.geo.norm (G e.forcing) :=
    hg.sqrt_pos (lt_of_le_of_ne (hg.nonneg _) (Ne.symm hw))
  have hex := heron_small ha hR hlR hne (mul_pos htU (abs_pos.2 hne))
  have hiff : ∀ x : K, e.geo.norm (x • G e.forcing) / e.geo.norm (τ0 • G e.forcing) < tolU ↔
      |x| < tolU * |τ0| := fun x => by
    rw [norm_smul_eq hg, norm_smul_eq hg, mul_div_mul_right _ _ hw0.ne',
      div_lt_iff₀ (abs_pos.2 hne)]
  classical
  set j := Nat.find hex with hj
  have hside : ∀ n, 0 < σ * glide (heron a s.len) τ0 n := by
    intro n
    induction n with
    | zero => exact hτ0
    | succ n ih => exact heron_side ha hσ ih
  refine ⟨j + 2, fun o ho1 ho2 hmax => ?_⟩
  have hps : tanOk e G (fun τ _ _ => 0 < σ * τ) false τ0 p :=
    ⟨fun h => Bool.noConfusion h, hτ0⟩
  obtain ⟨t, u, h1, h2, -⟩ := hM.step (o := o) hl hg h0 (by rw [ho1]; exact htF)
    (norm_smul_ne hg hnz hF) (norm_smul_ne hg hne hw) hb hp hps j hmax
    (by rw [ho2, hiff]; exact Nat.find_spec hex)
    (fun i hi => by rw [ho2, hiff]; exact Nat.find_min hex hi)
  have hn := h2.numIt
  refine ⟨t, _, heron a s.len (glide (heron a s.len) τ0 j), h1, hn ▸ h2, hside _, ?_,
    Nat.find_spec hex, by omega⟩
  have hg0 : glide (heron a s.len) τ0 j ≠ 0 := by
    intro hc
    have := hside j
    rw [hc] at this
    simp at this
  have := heron_defect (l := s.len) ha.ne' hg0
  have e1 : glide (heron a s.len) τ0 (j + 1) = glide (heron a s.len) τ0 j +
    heron a s.len (glide (heron a s.len) τ0 j) := rfl
  rw [e1]
  linear_combination this

/-! ## Riks -/

/-- The scaling of Riks' method. -/
def rkPhi (e : Env K V Mat Fac) : K :=
  if e.numDof = 1 then 99999999999 / 100000000000 else 1 / (e.numDof : K)

theorem rkPhi_bounds (e : Env K V Mat Fac) : 0 ≤ (rkPhi e : K) ∧ (rkPhi e : K) ≤ 1 := by
  unfold rkPhi
  split
  · constructor <;> norm_num
  · refine ⟨by positivity, ?_⟩
    rcases Nat.eq_zero_or_pos e.numDof with h | h
    · rw [h]; simp
    · rw [div_le_one (by exact_mod_cast h)]
      exact_mod_cast h

/-- Squared length, in Riks' metric, of the increment with load increment 1. -/
def rkTangent (e : Env K V Mat Fac) (G : V →ₗ[K] V) : K :=
  rkPhi e * e.geo.dot (G e.forcing) (G e.forcing) + (1 - rkPhi e)

theorem rkTangent_pos (hg : e.geo.Laws) (hw : e.geo.dot (G e.forcing) (G e.forcing) ≠ 0) :
    0 < rkTangent e G := by
  obtain ⟨h0, h1⟩ := rkPhi_bounds e
  have hww : 0 < e.geo.dot (G e.forcing) (G e.forcing) := lt_of_le_of_ne (hg.nonneg _) (Ne.symm hw)
  unfold rkTangent
  rcases h1.lt_or_eq with h | h
  · have := mul_nonneg h0 hww.le
    linarith
  · rw [h]; linarith

theorem glides_riks (hl : Linear e A G m0 f0) (hg : e.geo.Laws)
    (hw : e.geo.dot (G e.forcing) (G e.forcing) ≠ 0) {s0 : St K V Mat Fac} {τ0 σ : K}
    (hσ : σ = 1 ∨ σ = -1) :
    Glides e G m0 f0 s0 (rkPhi e) τ0 (riks e)
      (tanOk e G fun τ _ _ => 0 < σ * τ) (heron (rkTangent e G) s0.len) where
  quasi b s τ hs hok := quasi_run hl b s τ hs hok
  quasiPredictor b s τ hs hok := quasiP_run hl b s τ hs hok
  iteration s τ hs hok := by
    obtain ⟨l, h1⟩ := hl.ubar s hs.fac hs.resVec
    set x := heron (rkTangent e G) s0.len τ with hx
    have hrun : ∃ t, (riks e).iteration s = (t, .ok ()) ∧ t = { s with
        Ubar := 0
        dU := x • G e.forcing
        dL := x
        DU := s.DU + x • G e.forcing
        DL := s.DL + x
        log := l } := by
      refine ⟨_, ?_, rfl⟩
      change rkIteration e s = _
      unfold rkIteration
      rw [Act.bind_ok h1, Act.bind_ok (Act.modify_apply _ _), Act.modify_apply]
      have hval : -(s.phi * e.geo.dot (s.U + s.DU - s.U) (s.U + s.DU - s.U) +
          (1 - s.phi) * (s.L + s.DL - s.L) ^ 2 - s.len * s.len + 2 * s.phi * e.geo.dot s.DU 0) /
          (2 * (1 - s.phi) * s.DL + 2 * s.phi * e.geo.dot s.DU (G e.forcing)) = x := by
        rw [hx, heron, add_sub_cancel_left, add_sub_cancel_left, hs.DU, hs.DL, hs.phi, hs.len]
        simp only [hg.smul_left, hg.smul_right, hg.zero_right, rkTangent]
        congr 1 <;> ring
      simp only [hval, hok.1 rfl, zero_add]
    obtain ⟨t, ht, rfl⟩ := hrun
    refine ⟨_, ht, ?_, ⟨fun _ => hok.1 rfl, heron_side (rkTangent_pos hg hw) hσ hok.2⟩, rfl, rfl⟩
    exact ⟨hs.U, hs.L, by rw [hs.DU, add_smul], by rw [hs.DL], hs.jac, hs.fac, hs.resVec, hs.phi,
      hs.len, hs.adaptive, hs.lenOri, hs.initialized, hs.guess, hs.basisF, hs.basisU⟩
  finish s τ hs _ := by
    refine ⟨_, rfl, ?_, ?_, rfl, rfl, rfl, rfl, rfl, hs.guess, hs.U, hs.L, rfl, .inr ⟨rfl, rfl⟩⟩
    · simp only [hs.U, hs.DU]
    · simp only [hs.L, hs.DL]
  frame b s t τ h h1 h2 h3 := ⟨fun hb => h3.trans (h.1 hb), h.2⟩

theorem starts_riks (hl : Linear e A G m0 f0) (hg : e.geo.Laws)
    (hw : e.geo.dot (G e.forcing) (G e.forcing) ≠ 0) {s0 : St K V Mat Fac} {σ : K}
    (hh : Arriving e G σ s0) (hlen : 0 < s0.len) (hprev : 0 < s0.lenPrev)
    (hi : s0.initialized = true) (hgu : s0.guess = none) :
    ∃ p τ0, beginStep e (riks e) s0 = (p, .ok ()) ∧ Starts e G m0 f0 s0 (rkPhi e) τ0 p ∧
      0 < σ * τ0 := by
  obtain ⟨δ, d1, d2, d3, d4⟩ := hh
  have hww : 0 < e.geo.dot (G e.forcing) (G e.forcing) := lt_of_le_of_ne (hg.nonneg _) (Ne.symm hw)
  rw [begin_eq (s1 := { s0 with
    converged := false, numIt := 0, DU := 0, dU := 0, DL := 0, dL := 0 }) hi rfl hgu]
  change ∃ p τ0, rkPredictor e _ = _ ∧ _
  unfold rkPredictor
  obtain ⟨l, h1⟩ := hl.assemble { s0 with
    converged := false, numIt := 0, DU := 0, dU := 0, DL := 0, dL := 0 }
  rw [Act.bind_ok h1, Act.bind_ok (Act.modify_apply _ _), Act.bind_ok (Act.get_apply _)]
  simp only
  by_cases hn : nearby e s0.U s0.Uprev s0.L s0.Lprev = true
  · rw [if_pos hn]
    unfold unitTangent
    rw [Act.bind_apply]
    simp only [Act.bind_apply]
    obtain ⟨l', h2⟩ := hl.ut { s0 with
      converged := false, numIt := 0, DU := 0, dU := 0, DL := 0, dL := 0, jac := m0,
      fac := some f0, log := l,
      phi := if e.numDof = 1 then 99999999999 / 100000000000 else 1 / (e.numDof : K) } rfl
    rw [h2]
    simp only [Act.modify_apply, scaleByLength, zero_mul, add_zero]
    refine ⟨_, s0.len / e.geo.sqrt (e.geo.dot (G e.forcing) (G e.forcing)), rfl, ?_, ?_⟩
    · refine ⟨rfl, rfl, ?_, ?_, rfl, rfl, rfl, rfl, rfl, rfl, rfl, hgu, rfl⟩
      · simp only [zero_add, smul_smul]
        congr 1; ring
      · simp only [zero_add]; ring
    · rw [d3 hn, one_mul]
      exact div_pos hlen (hg.sqrt_pos hww)
  · rw [if_neg hn]
    have hn' : nearby e s0.U s0.Uprev s0.L s0.Lprev = false := by simpa using hn
    simp only [Act.bind_apply, secant, Act.modify_apply, scaleByLength]
    refine ⟨_, δ * (s0.len / s0.lenPrev), rfl, ?_, ?_⟩
    · refine ⟨rfl, rfl, ?_, ?_, rfl, rfl, rfl, rfl, rfl, rfl, rfl, hgu, rfl⟩
      · simp only [zero_add, d1, smul_smul]
        congr 1; ring
      · simp only [zero_add, d2]; ring
    · rw [← mul_assoc]
      exact mul_pos (d4 hn') (div_pos hlen hprev)

/-- Riks' method on a linear structure: with enough iterations, a step that starts in equilibrium and
moves away from load 0 succeeds; it moves along the line of equilibria, in the direction of the
previous step, by at least the prescribed length; the excess is the length of the last correction,
which is smaller than `TolU` times the predictor. -/
theorem C115_riks [Archimedean K] (hl : Linear e A G m0 f0) (hg : e.geo.Laws)
    {s : St K V Mat Fac} {σ : K} (hσ : σ = 1 ∨ σ = -1) (hh : Arriving e G σ s) (hL : 0 ≤ σ * s.L)
    (hi : s.initialized = true) (hgu : s.guess = none) (h0 : A s.U = s.L • e.forcing)
    (hF : e.geo.dot e.forcing e.forcing ≠ 0) (hw : e.geo.dot (G e.forcing) (G e.forcing) ≠ 0)
    (hlen : 0 < s.len) (hprev : 0 < s.lenPrev) {tolF tolU : K} (htF : 0 < tolF) (htU : 0 < tolU) :
    ∃ N, ∀ o : Opts K, o.tolF = tolF → o.tolU = tolU → N ≤ o.maxIt →
      ∃ t τ x, step e o (riks e) s = (t, .ok .success) ∧ t.U = s.U + τ • G e.forcing ∧
        t.L = s.L + τ ∧ 0 < σ * τ ∧ A t.U = t.L • e.forcing ∧
        rkDistance e t (t.U - s.U) (t.L - s.L) ^ 2 =
          s.len ^ 2 + rkDistance e t (x • G e.forcing) x ^ 2 ∧
        s.len ≤ rkDistance e t (t.U - s.U) (t.L - s.L) ∧ t.numIt < N := by
  obtain ⟨p, τ0, hb, hp, hτ0⟩ := starts_riks hl hg hw hh hlen hprev hi hgu
  have ha := rkTangent_pos (e := e) hg hw
  obtain ⟨N, hN⟩ := newton_step hl hg hσ ha (glides_riks hl hg hw hσ) hL h0 hF hw hlen hb hp hτ0
    htF htU
  refine ⟨N, fun o h1 h2 h3 => ?_⟩
  obtain ⟨t, τ, x, a1, a2, a3, a4, -, a6⟩ := hN o h1 h2 h3
  have hphi := rkPhi_bounds e
  have hd : ∀ y : K, rkDistance e t (y • G e.forcing) y ^ 2 = rkTangent e G * y ^ 2 := fun y => by
    have e1 : t.phi * e.geo.norm (y • G e.forcing) ^ 2 + (1 - t.phi) * y ^ 2 =
        rkTangent e G * y ^ 2 := by
      rw [hg.norm_sq, hg.smul_left, hg.smul_right, a2.phi, rkTangent]; ring
    rw [rkDistance, e1, hg.sqrt_sq _ (mul_nonneg ha.le (sq_nonneg _))]
  have hdU : t.U - s.U = τ • G e.forcing := by rw [a2.U, add_sub_cancel_left]
  have hdL : t.L - s.L = τ := by rw [a2.L, add_sub_cancel_left]
  have key : rkDistance e t (t.U - s.U) (t.L - s.L) ^ 2 =
      s.len ^ 2 + rkDistance e t (x • G e.forcing) x ^ 2 := by
    rw [hdU, hdL, hd, hd]
    exact a4
  refine ⟨t, τ, x, a1, a2.U, a2.L, a3, ?_, key, ?_, by omega⟩
  · rw [a2.U, a2.L, map_add, map_smul, hl.inverse, h0, add_smul]
  · refine le_of_abs_le (abs_le_of_sq_le_sq ?_ (hg.sqrt_nonneg _))
    rw [key]
    linarith [sq_nonneg (rkDistance e t (x • G e.forcing) x)]

/-- After a step forward, or without a previous point, the next step goes forward. -/
theorem arriving_forward (hg : e.geo.Laws) {s : St K V Mat Fac} {δ : K} (hδ : 0 ≤ δ)
    (h1 : s.U - s.Uprev = δ • G e.forcing) (h2 : s.L - s.Lprev = δ) : Arriving e G 1 s := by
  refine ⟨δ, h1, h2, fun _ => rfl, fun h => ?_⟩
  rw [one_mul]
  rcases hδ.eq_or_lt with h0 | h0
  · exfalso
    rw [← h0, zero_smul] at h1
    rw [← h0] at h2
    simp only [nearby, h1, h2, Geo.norm, hg.zero_left, hg.sqrt_zero] at h
    norm_num at h
  · exact h0

/-! ## Consistent Crisfield -/

theorem glides_consistent (hl : Linear e A G m0 f0) (hg : e.geo.Laws)
    (hw : e.geo.dot (G e.forcing) (G e.forcing) ≠ 0) {s0 : St K V Mat Fac} {phi τ0 σ : K}
    (hσ : σ = 1 ∨ σ = -1) :
    Glides e G m0 f0 s0 phi τ0 (consistentCrisfield e o)
      (tanOk e G fun τ _ _ => 0 < σ * τ) (heron (tangentForm e G phi) s0.len) where
  quasi b s τ hs hok := quasi_run hl b s τ hs hok
  quasiPredictor b s τ hs hok := quasiP_run hl b s τ hs hok
  iteration s τ hs hok := by
    obtain ⟨l, h1⟩ := hl.ubar s hs.fac hs.resVec
    set x := heron (tangentForm e G phi) s0.len τ with hx
    have hrun : ∃ t, (consistentCrisfield e o).iteration s = (t, .ok ()) ∧ t = { s with
        Ubar := 0
        dU := x • G e.forcing
        dL := x
        DU := s.DU + x • G e.forcing
        DL := s.DL + x
        log := l } := by
      refine ⟨_, ?_, rfl⟩
      change ccIteration e s = _
      unfold ccIteration
      rw [Act.bind_ok h1, Act.bind_ok (Act.modify_apply _ _), Act.modify_apply]
      have hval : -(e.geo.dot s.DU s.DU + s.phi * s.phi * s.DL * s.DL *
          e.geo.dot e.forcing e.forcing - s.len * s.len + e.geo.dot ((2 : K) • s.DU) 0) /
          (e.geo.dot ((2 : K) • s.DU) (G e.forcing) + s.phi * s.phi * 2 * s.DL *
            e.geo.dot e.forcing e.forcing) = x := by
        rw [hx, heron, hs.DU, hs.DL, hs.phi, hs.len]
        simp only [hg.smul_left, hg.smul_right, hg.zero_right, tangentForm, loadWeight]
        congr 1 <;> ring
      simp only [hval, hok.1 rfl, add_zero]
    obtain ⟨t, ht, rfl⟩ := hrun
    refine ⟨_, ht, ?_, ⟨fun _ => hok.1 rfl, heron_side (tangentForm_pos hg hw _) hσ hok.2⟩, rfl,
      rfl⟩
    exact ⟨hs.U, hs.L, by rw [hs.DU, add_smul], by rw [hs.DL], hs.jac, hs.fac, hs.resVec, hs.phi,
      hs.len, hs.adaptive, hs.lenOri, hs.initialized, hs.guess, hs.basisF, hs.basisU⟩
  finish s τ hs _ := by
    refine ⟨_, rfl, ?_, ?_, rfl, rfl, rfl, rfl, rfl, hs.guess, hs.U, hs.L, rfl,
      .inl ⟨hs.DU, hs.DL⟩⟩
    · simp only [hs.U, hs.DU]
    · simp only [hs.L, hs.DL]
  frame b s t τ h h1 h2 h3 := ⟨fun hb => h3.trans (h.1 hb), h.2⟩

theorem starts_consistent (hl : Linear e A G m0 f0) (hg : e.geo.Laws)
    (hw : e.geo.dot (G e.forcing) (G e.forcing) ≠ 0) {s0 : St K V Mat Fac} {σ : K}
    (hh : Arriving e G σ s0) (hlen : 0 < s0.len) (hprev : 0 < s0.lenPrev)
    (hi : s0.initialized = true) (hgu : s0.guess = none) :
    ∃ p phi τ0, beginStep e (consistentCrisfield e o) s0 = (p, .ok ()) ∧
      Starts e G m0 f0 s0 phi τ0 p ∧ 0 < σ * τ0 := by
  obtain ⟨δ, d1, d2, d3, d4⟩ := hh
  have hww : 0 < e.geo.dot (G e.forcing) (G e.forcing) := lt_of_le_of_ne (hg.nonneg _) (Ne.symm hw)
  rw [begin_eq (s1 := { s0 with
    converged := false, numIt := 0, DU := 0, dU := 0, DL := 0, dL := 0 }) hi rfl hgu]
  change ∃ p phi τ0, ccPredict e o (fun s => ((s.U, s.L), (s.Uprev, s.Lprev))) _ = _ ∧ _
  unfold ccPredict
  obtain ⟨l, h1⟩ := hl.assemble { s0 with
    converged := false, numIt := 0, DU := 0, dU := 0, DL := 0, dL := 0 }
  rw [Act.bind_ok h1, Act.bind_ok (Act.get_apply _)]
  simp only
  by_cases hn : nearby e s0.U s0.Uprev s0.L s0.Lprev = true
  · rw [if_pos hn]
    unfold unitTangent
    rw [Act.bind_apply]
    simp only [Act.bind_apply]
    obtain ⟨l', h2⟩ := hl.ut { s0 with
      converged := false, numIt := 0, DU := 0, dU := 0, DL := 0, dL := 0, jac := m0,
      fac := some f0, log := l } rfl
    rw [h2]
    simp only [Act.modify_apply, scaleByLength, zero_mul, add_zero]
    refine ⟨_, tangentPhi e o { s0 with Ut := G e.forcing }, s0.len / e.geo.sqrt (e.geo.dot (G e.forcing) (G e.forcing)), rfl, ?_, ?_⟩
    · refine ⟨rfl, rfl, ?_, ?_, rfl, rfl, rfl, rfl, rfl, rfl, rfl, hgu, rfl⟩
      · simp only [zero_add, smul_smul]
        congr 1; ring
      · simp only [zero_add]; ring
    · rw [d3 hn, one_mul]
      exact div_pos hlen (hg.sqrt_pos hww)
  · rw [if_neg hn]
    have hn' : nearby e s0.U s0.Uprev s0.L s0.Lprev = false := by simpa using hn
    simp only [Act.bind_apply, secant, Act.modify_apply, scaleByLength]
    refine ⟨_, tangentPhi e o s0, δ * (s0.len / s0.lenPrev), rfl, ?_, ?_⟩
    · refine ⟨rfl, rfl, ?_, ?_, rfl, rfl, rfl, rfl, rfl, rfl, rfl, hgu, rfl⟩
      · simp only [zero_add, d1, smul_smul]
        congr 1; ring
      · simp only [zero_add, d2]; ring
    · rw [← mul_assoc]
      exact mul_pos (d4 hn') (div_pos hlen hprev)

/-- The same for the consistent Crisfield method, in Crisfield's metric. The scaling `phiUser` is part
of the method and so is fixed beforehand. -/
theorem C115_consistent [Archimedean K] (hl : Linear e A G m0 f0) (hg : e.geo.Laws)
    {s : St K V Mat Fac} {σ : K} (hσ : σ = 1 ∨ σ = -1) (hh : Arriving e G σ s) (hL : 0 ≤ σ * s.L)
    (hi : s.initialized = true) (hgu : s.guess = none) (h0 : A s.U = s.L • e.forcing)
    (hF : e.geo.dot e.forcing e.forcing ≠ 0) (hw : e.geo.dot (G e.forcing) (G e.forcing) ≠ 0)
    (hlen : 0 < s.len) (hprev : 0 < s.lenPrev) (htF : 0 < o.tolF) (htU : 0 < o.tolU) :
    ∃ N, ∀ m, N ≤ m →
      ∃ t τ x, step e { o with maxIt := m } (consistentCrisfield e { o with maxIt := m }) s =
          (t, .ok .success) ∧ t.U = s.U + τ • G e.forcing ∧
        t.L = s.L + τ ∧ 0 < σ * τ ∧ A t.U = t.L • e.forcing ∧
        crDistance e t (t.U - s.U) (t.L - s.L) ^ 2 =
          s.len ^ 2 + crDistance e t (x • G e.forcing) x ^ 2 ∧
        s.len ≤ crDistance e t (t.U - s.U) (t.L - s.L) ∧ t.numIt < N := by
  obtain ⟨p, phi, τ0, hb, hp, hτ0⟩ := starts_consistent (o := o) hl hg hw hh hlen hprev hi hgu
  have ha := tangentForm_pos (e := e) hg hw phi
  obtain ⟨N, hN⟩ := newton_step hl hg hσ ha (glides_consistent (o := o) hl hg hw hσ) hL h0 hF hw
    hlen hb hp hτ0 htF htU
  refine ⟨N, fun m h3 => ?_⟩
  obtain ⟨t, τ, x, a1, a2, a3, a4, -, a6⟩ := hN { o with maxIt := m } rfl rfl h3
  have hd : ∀ y : K, crDistance e t (y • G e.forcing) y ^ 2 = tangentForm e G phi * y ^ 2 :=
    fun y => by
      have e1 : e.geo.dot (y • G e.forcing) (y • G e.forcing) + loadWeight e t.phi * y ^ 2 =
          tangentForm e G phi * y ^ 2 := by
        rw [hg.smul_left, hg.smul_right, a2.phi, tangentForm]; ring
      rw [crDistance, e1, hg.sqrt_sq _ (mul_nonneg ha.le (sq_nonneg _))]
  have hdU : t.U - s.U = τ • G e.forcing := by rw [a2.U, add_sub_cancel_left]
  have hdL : t.L - s.L = τ := by rw [a2.L, add_sub_cancel_left]
  have key : crDistance e t (t.U - s.U) (t.L - s.L) ^ 2 =
      s.len ^ 2 + crDistance e t (x • G e.forcing) x ^ 2 := by
    rw [hdU, hdL, hd, hd]
    exact a4
  refine ⟨t, τ, x, a1, a2.U, a2.L, a3, ?_, key, ?_, by omega⟩
  · rw [a2.U, a2.L, map_add, map_smul, hl.inverse, h0, add_smul]
  · refine le_of_abs_le (abs_le_of_sq_le_sq ?_ (hg.sqrt_nonneg _))
    rw [key]
    linarith [sq_nonneg (crDistance e t (x • G e.forcing) x)]

end GsSA.ALM
