import Verif.ALM.RiksProps
import Verif.Driver.Steps

/-!
# The distances are semi-norms, and what follows for the errors of a correction (C45)
-/

namespace GsSA.ALM

open GsSA

set_option linter.unusedSectionVars false

variable {K V Mat Fac : Type} [Field K] [LinearOrder K] [IsStrictOrderedRing K] [AddCommGroup V]
variable [Module K V]
variable {e : Env K V Mat Fac}

/-- A non-negative quadratic form `q` with polar form `b`, as used for both metrics. -/
structure PSD (q : V → K → K) (b : V → K → V → K → K) : Prop where
  nonneg : ∀ x l, 0 ≤ q x l
  expand : ∀ x l y m c, q (x + c • y) (l + c * m) = q x l + 2 * c * b x l y m + c ^ 2 * q y m

/-- Cauchy-Schwarz for the polar form. -/
theorem PSD.cauchy {q : V → K → K} {b : V → K → V → K → K} (h : PSD q b) (x : V) (l : K) (y : V)
    (m : K) : b x l y m ^ 2 ≤ q x l * q y m := by
  have key : ∀ c, 0 ≤ q x l + 2 * c * b x l y m + c ^ 2 * q y m := fun c => by
    rw [← h.expand]
    exact h.nonneg _ _
  rcases (h.nonneg y m).eq_or_lt with h0 | h0
  · rw [← h0, mul_zero]
    by_contra hb
    rw [not_le] at hb
    have hb0 : b x l y m ≠ 0 := by
      intro hz
      rw [hz] at hb
      simp at hb
    have := key (-(q x l + 1) / (2 * b x l y m))
    rw [← h0, mul_zero, add_zero] at this
    have e1 : 2 * (-(q x l + 1) / (2 * b x l y m)) * b x l y m = -(q x l + 1) := by
      field_simp
    rw [e1] at this
    linarith
  · have := key (-b x l y m / q y m)
    have e1 : q x l + 2 * (-b x l y m / q y m) * b x l y m + (-b x l y m / q y m) ^ 2 * q y m =
        (q x l * q y m - b x l y m ^ 2) / q y m := by
      field_simp
      ring
    rw [e1] at this
    have := (div_nonneg_iff.1 this).resolve_right (fun h => absurd h.2 (not_le.2 h0))
    linarith [this.1]

/-- The triangle inequality for the root of such a form. -/
theorem PSD.triangle {g : Geo K V} (hg : g.Laws) {q : V → K → K} {b : V → K → V → K → K}
    (h : PSD q b) (x : V) (l : K) (y : V) (m : K) :
    g.sqrt (q (x + y) (l + m)) ≤ g.sqrt (q x l) + g.sqrt (q y m) := by
  have hx := hg.sqrt_sq _ (h.nonneg x l)
  have hy := hg.sqrt_sq _ (h.nonneg y m)
  have nx := hg.sqrt_nonneg (q x l)
  have ny := hg.sqrt_nonneg (q y m)
  have hb : b x l y m ≤ g.sqrt (q x l) * g.sqrt (q y m) := by
    refine le_of_abs_le (abs_le_of_sq_le_sq ?_ (mul_nonneg nx ny))
    rw [mul_pow, hx, hy]
    exact h.cauchy x l y m
  have e1 : q (x + y) (l + m) = q x l + 2 * b x l y m + q y m := by
    have := h.expand x l y m 1
    simpa using this
  rw [← hg.sqrt_eq (add_nonneg nx ny) rfl]
  refine hg.sqrt_mono (h.nonneg _ _) ?_
  rw [e1]
  linear_combination 2 * hb - hx - hy

theorem crForm_psd (hg : e.geo.Laws) (phi : K) : PSD (crForm e phi)
    (fun x l y m => e.geo.dot x y + loadWeight e phi * (l * m)) where
  nonneg := crForm_nonneg hg phi
  expand x l y m c := by
    simp only [crForm, hg.add_left, hg.add_right, hg.smul_left, hg.smul_right]
    rw [hg.comm y x]
    ring

theorem rkForm_psd (hg : e.geo.Laws) {phi : K} (h0 : 0 ≤ phi) (h1 : phi ≤ 1) : PSD (rkForm e phi)
    (fun x l y m => phi * e.geo.dot x y + (1 - phi) * (l * m)) where
  nonneg := rkForm_nonneg hg h0 h1
  expand x l y m c := by
    simp only [rkForm, hg.add_left, hg.add_right, hg.smul_left, hg.smul_right]
    rw [hg.comm y x]
    ring

/-- Crisfield's distance is a semi-norm, for every scaling. -/
theorem C45_crisfield (hg : e.geo.Laws) (s : St K V Mat Fac) :
    (∀ x l, 0 ≤ crDistance e s x l) ∧
    (∀ c x l, crDistance e s (c • x) (c * l) = |c| * crDistance e s x l) ∧
    (∀ x l y m, crDistance e s (x + y) (l + m) ≤ crDistance e s x l + crDistance e s y m) := by
  refine ⟨fun x l => hg.sqrt_nonneg _, fun c x l => ?_, fun x l y m =>
    (crForm_psd hg s.phi).triangle hg x l y m⟩
  refine hg.sqrt_eq (mul_nonneg (abs_nonneg _) (hg.sqrt_nonneg _)) ?_
  change _ = (|c| * e.geo.sqrt (crForm e s.phi x l)) ^ 2
  rw [mul_pow |c|, sq_abs, hg.sqrt_sq _ (crForm_nonneg hg _ _ _), crForm, hg.smul_left,
    hg.smul_right]
  ring

/-- Hence the distance of two points is a pseudo-metric as required by `C45_errors` below. -/
theorem C45_pseudometric (hg : e.geo.Laws) (s : St K V Mat Fac) :
    (∀ x : V × K, crDistance e s (x.1 - x.1) (x.2 - x.2) = 0) ∧
    (∀ x y z : V × K, crDistance e s (x.1 - z.1) (x.2 - z.2) ≤
      crDistance e s (x.1 - y.1) (x.2 - y.2) + crDistance e s (y.1 - z.1) (y.2 - z.2)) := by
  refine ⟨fun x => ?_, fun x y z => ?_⟩
  · rw [sub_self, sub_self, crDistance, hg.zero_left]
    simp [hg.sqrt_zero]
  · have := (C45_crisfield hg s).2.2 (x.1 - y.1) (x.2 - y.2) (y.1 - z.1) (y.2 - z.2)
    rwa [sub_add_sub_cancel, sub_add_sub_cancel] at this

/-- Riks' distance is a semi-norm for a scaling between 0 and 1. -/
theorem C45_riks (hg : e.geo.Laws) (s : St K V Mat Fac) (h0 : 0 ≤ s.phi) (h1 : s.phi ≤ 1) :
    (∀ x l, 0 ≤ rkDistance e s x l) ∧
    (∀ c x l, rkDistance e s (c • x) (c * l) = |c| * rkDistance e s x l) ∧
    (∀ x l y m, rkDistance e s (x + y) (l + m) ≤ rkDistance e s x l + rkDistance e s y m) := by
  refine ⟨fun x l => hg.sqrt_nonneg _, fun c x l => ?_, fun x l y m => ?_⟩
  · rw [rkDistance_eq hg, rkDistance_eq hg]
    refine hg.sqrt_eq (mul_nonneg (abs_nonneg _) (hg.sqrt_nonneg _)) ?_
    rw [mul_pow, sq_abs, hg.sqrt_sq _ (rkForm_nonneg hg h0 h1 _ _), rkForm, rkForm, hg.smul_left,
      hg.smul_right]
    ring
  · simp only [rkDistance_eq hg]
    exact (rkForm_psd hg h0 h1).triangle hg x l y m

/-- The scaling which the predictor of Riks' method chooses is between 0 and 1. -/
theorem C45_riks_phi {s p : St K V Mat Fac} (h : rkPredictor e s = (p, .ok ())) :
    0 ≤ p.phi ∧ p.phi ≤ 1 := by
  have hk : ∀ u : St K V Mat Fac, u.phi =
      (if e.numDof = 1 then 99999999999 / 100000000000 else 1 / (e.numDof : K)) →
      0 ≤ u.phi ∧ u.phi ≤ 1 := by
    intro u hu
    rw [hu]
    split
    · constructor
      · positivity
      · rw [div_le_one (by norm_num)]
        norm_num
    · refine ⟨by positivity, ?_⟩
      rcases Nat.eq_zero_or_pos e.numDof with h0 | h0
      · simp [h0]
      · rw [div_le_one (by exact_mod_cast h0)]
        exact_mod_cast h0
  unfold rkPredictor at h
  obtain ⟨s1, ⟨⟩, -, h⟩ := Act.bind_ok_inv h
  rw [Act.bind_ok (Act.modify_apply _ _), Act.bind_ok (Act.get_apply _)] at h
  obtain ⟨s2, ⟨⟩, h2, h⟩ := Act.bind_ok_inv h
  have hs2 : s2.phi =
      (if e.numDof = 1 then 99999999999 / 100000000000 else 1 / (e.numDof : K)) := by
    have hn : ∀ b : Bool, ∀ u : St K V Mat Fac,
        (if b = true then unitTangent e else secant s1.U s1.Uprev s1.L s1.Lprev).run u =
          (s2, .ok ()) → s2.phi = u.phi := by
      intro b u h2
      cases b
      · simp only [Bool.false_eq_true, if_false, secant, Act.modify_apply, Prod.mk.injEq,
          and_true] at h2
        subst h2
        rfl
      · simp only [if_true] at h2
        unfold unitTangent at h2
        obtain ⟨s3, ⟨⟩, h3, h2⟩ := Act.bind_ok_inv h2
        obtain ⟨x, rfl⟩ := computeUt_ok h3
        simp only [Act.modify_apply, Prod.mk.injEq, and_true] at h2
        subst h2
        rfl
    exact hn _ _ h2
  simp only [Act.bind_apply, scaleByLength, Act.modify_apply, Prod.mk.injEq, and_true] at h
  subst h
  exact hk _ hs2

end GsSA.ALM

namespace GsSA.APALM

open GsSA

variable {A K S : Type*} [Field K] [LinearOrder K] [IsStrictOrderedRing K]

/-- The solver keeps its solution when lengths and the previous point are set, and `setSolution`
sets it (`gsALMBase.h` 117-121, 185-194). -/
structure Solver.Keeps (M : Solver A K S) : Prop where
  length : ∀ a l, M.sol (M.setLength a l) = M.sol a
  previous : ∀ a x, M.sol (M.setPrevious a x) = M.sol a
  solution : ∀ a x, M.sol (M.setSolution a x) = x

/-- What the correction loop maintains when the distance does not change during it. -/
structure CorrChain (M : Solver A K S) (d : S → S → K) (start : S) (s : CState A K S) : Prop where
  le : d s.old start ≤ s.ds.sum
  last : ∀ x, s.sols.getLast? = some x → x = s.old
  sol : M.sol s.alm = s.old

theorem CorrChain.body {M : Solver A K S} {d : S → S → K} (hM : M.Keeps)
    (hd : ∀ a x y, M.dist a x y = d x y)
    (tri : ∀ x y z, d x z ≤ d x y + d y z) {dL0 : K} {start : S} {s : CState A K S}
    (h : CorrChain M d start s) : CorrChain M d start (corrBody M dL0 s) := by
  unfold corrBody
  rcases M.step s.alm with ⟨st, a⟩
  simp only
  split
  · exact ⟨h.le, h.last, hM.solution _ _⟩
  · refine ⟨?_, fun x hx => ?_, hM.length _ _⟩
    · simp only [List.sum_append, List.sum_cons, List.sum_nil, add_zero, hd]
      have := tri (M.sol a) s.old start
      linarith [h.le]
    · simpa using hx.symm

theorem CorrChain.loop {M : Solver A K S} {d : S → S → K} (hM : M.Keeps)
    (hd : ∀ a x y, M.dist a x y = d x y)
    (tri : ∀ x y z, d x z ≤ d x y + d y z) {dL0 : K} {start : S} (fuel : ℕ) {s t : CState A K S}
    (h : CorrChain M d start s) (hl : corrLoop M dL0 fuel s = some t) : CorrChain M d start t := by
  induction fuel generalizing s with
  | zero => simp [corrLoop] at hl
  | succ n ih =>
    unfold corrLoop at hl
    split at hl
    · simp only [Option.some.injEq] at hl
      exact hl ▸ h
    · exact ih (h.body hM hd tri) hl

/-- If all distances of a correction are measured with one pseudo-metric, the total error which
`submit` computes from them (the sum of the distances minus the distance of start and reference) is
not negative, and the distance covered is at most the sum of the distances of the substeps. -/
theorem C45_errors {M : Solver A K S} {d : S → S → K} (hM : M.Keeps)
    (hd : ∀ a x y, M.dist a x y = d x y)
    (refl : ∀ x, d x x = 0) (tri : ∀ x y z, d x z ≤ d x y + d y z)
    {n fuel : ℕ} {a : A} {Dt : K} {start prev ref : S} {c : Corr K S}
    (h : correction M n fuel a Dt start prev ref = some (.ok c)) :
    c.upper ≤ c.ds.sum ∧ c.lower ≤ c.ds.dropLast.sum := by
  unfold correction at h
  rw [Option.map_eq_some_iff] at h
  obtain ⟨t, ht, h⟩ := h
  have hc : CorrChain M d start t := by
    refine CorrChain.loop hM hd tri fuel ?_ ht
    refine ⟨by simp [corrStart, refl], by simp [corrStart], ?_⟩
    simp only [corrStart]
    rw [hM.previous, hM.solution]
  unfold corrFinish at h
  cases hl : t.sols.getLast? with
  | none => simp [hl] at h
  | some last =>
    simp only [hl, Except.ok.injEq] at h
    subst h
    have h1 := hc.le
    simp only [hd, hc.sol, hc.last _ hl, List.sum_append, List.sum_cons, List.sum_nil, add_zero,
      List.dropLast_concat]
    exact ⟨by linarith [tri ref t.old start], h1⟩

/-- The lower error `Dt - lowerDistance` is not negative either if the substeps are not longer
than prescribed in total. -/
theorem C45_lowerError {M : Solver A K S} {d : S → S → K} (hM : M.Keeps)
    (hd : ∀ a x y, M.dist a x y = d x y)
    (refl : ∀ x, d x x = 0) (tri : ∀ x y z, d x z ≤ d x y + d y z)
    {n fuel : ℕ} {a : A} {Dt : K} {start prev ref : S} {c : Corr K S}
    (h : correction M n fuel a Dt start prev ref = some (.ok c)) (hs : c.ds.dropLast.sum ≤ Dt) :
    0 ≤ Dt - c.lower :=
  sub_nonneg.2 ((C45_errors hM hd refl tri h).2.trans hs)

/-- A solver on the line, whose steps go right by the length: the metric is the distance of
numbers. -/
private def walker : Solver (ℚ × ℚ) ℚ ℚ where
  setLength a l := (l, a.2)
  setSolution a x := (a.1, x)
  setPrevious a _ := a
  step a := (.success, (a.1, a.2 + a.1))
  sol a := a.2
  dist _ x y := |x - y|
  singular a _ := (false, a)
  switchBranch a := a

example : ∃ c, correction walker 2 5 (0, 0) 1 0 0 (3 / 2) = some (.ok c) ∧ c.upper ≤ c.ds.sum ∧
    0 ≤ 1 - c.lower := by
  have hM : walker.Keeps := ⟨fun _ _ => rfl, fun _ _ => rfl, fun _ _ => rfl⟩
  have hd : ∀ a x y, walker.dist a x y = |x - y| := fun _ _ _ => rfl
  have tri : ∀ x y z : ℚ, |x - z| ≤ |x - y| + |y - z| := fun x y z => abs_sub_le x y z
  have h : correction walker 2 5 (0, 0) 1 0 0 (3 / 2) =
      some (.ok ⟨[1 / 2, 1 / 2, 1 / 2], [1 / 2, 1], 3 / 2, 1⟩) := by
    have hh : Status.halves .success = false := rfl
    norm_num [correction, corrLoop, corrStart, corrBody, corrFinish, walker, hh, abs_of_nonneg]
  exact ⟨_, h, (C45_errors hM hd (by simp) tri h).1,
    C45_lowerError hM hd (by simp) tri h (by norm_num)⟩

end GsSA.APALM
