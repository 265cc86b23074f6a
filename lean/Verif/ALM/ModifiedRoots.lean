import Verif.ALM.CrisfieldProps
import Verif.ALM.Metric

/-!
# The damped correction of Crisfield's method (C36)

If the line along which the load update is sought misses the sphere, the correction is damped. Where
the damping factor lies, in terms of the sphere only.
-/

namespace GsSA.ALM

open GsSA

set_option linter.unusedSectionVars false

variable {K V Mat Fac : Type} [Field K] [LinearOrder K] [IsStrictOrderedRing K] [AddCommGroup V]
variable [Module K V]
variable {e : Env K V Mat Fac} {o : Opts K}

/-- Where the modified roots put `eta`: if the line of the undamped correction misses the sphere, the
two values at which the line touches it lie on one side of 1, and `eta` is taken between them, a
twentieth of their distance from the one nearer to 1. The second and third branches of the code are
never taken. -/
theorem Quad.modified_between {q : Quad K} {sqrt : K → K} (hs0 : ∀ x, 0 ≤ sqrt x)
    (hs : ∀ x, 0 ≤ x → sqrt x ^ 2 = x) (hα : q.b1 * q.b1 - 4 * q.a0 * q.c2 < 0)
    (h1 : q.disc 1 < 0) (hd : 0 ≤ (q.modified sqrt).2) :
    ∃ r1 r2, r1 ≤ r2 ∧ (∀ x, q.disc x = (4 * q.a0 * q.c2 - q.b1 * q.b1) * (x - r1) * (r2 - x)) ∧
      (r2 < 1 ∧ (q.modified sqrt).1 = r2 - (r2 - r1) / 20 ∨
        1 < r1 ∧ (q.modified sqrt).1 = r1 + (r2 - r1) / 20) := by
  set α1 := q.b1 * q.b1 - 4 * q.a0 * q.c2 with hα1
  set α2 := 2 * q.b0 * q.b1 - 4 * q.a0 * q.c1 with hα2
  set α3 := q.b0 * q.b0 - 4 * q.a0 * q.c0 with hα3
  have hf : ∀ x, q.disc x = α1 * x ^ 2 + α2 * x + α3 := fun x => by
    simp only [Quad.disc, ALM.disc, Quad.alpha2, Quad.alpha3, hα1, hα2, hα3]; ring
  have hd' : 0 ≤ ALM.disc α1 α2 α3 := by
    by_contra hc
    unfold Quad.modified at hd
    rw [← hα1, ← hα2, ← hα3] at hd
    simp only [hc, if_false] at hd
  set d := ALM.disc α1 α2 α3 with hdd
  have hα0 : α1 ≠ 0 := hα.ne
  set r1 := (-α2 + sqrt d) / (2 * α1) with hr1
  set r2 := (-α2 - sqrt d) / (2 * α1) with hr2
  have hle : r1 ≤ r2 := by
    rw [hr1, hr2]
    apply div_le_div_of_nonpos_of_le (by linarith)
    have := hs0 d
    linarith
  have hsum : r1 + r2 = -α2 / α1 := by rw [hr1, hr2]; field_simp; ring
  have hprod : r1 * r2 = α3 / α1 := by
    have := hs d hd'
    rw [hr1, hr2]
    field_simp
    have h4 : (-α2 + sqrt d) * (-α2 - sqrt d) = 4 * α1 * α3 := by
      have h5 : d = α2 ^ 2 - 4 * α1 * α3 := rfl
      have : (-α2 + sqrt d) * (-α2 - sqrt d) = α2 ^ 2 - sqrt d ^ 2 := by ring
      rw [this, hs d hd', h5]; ring
    linear_combination h4
  have hfac : ∀ x, q.disc x = -α1 * (x - r1) * (r2 - x) := fun x => by
    rw [hf]
    have e1 : α2 = -(r1 + r2) * α1 := by rw [hsum]; field_simp
    have e2 : α3 = (r1 * r2) * α1 := by rw [hprod]; field_simp
    rw [e1, e2]; ring
  have hval : (q.modified sqrt).1 =
      if r2 < 1 then r2 - 5 / 100 * |r2 - r1|
      else if 1 < r2 ∧ -α2 / α1 < 1 then r2 + 5 / 100 * |r2 - r1|
      else if r1 < 1 ∧ 1 < -α2 / α1 then r1 - 5 / 100 * |r2 - r1|
      else if 1 < r1 then r1 + 5 / 100 * |r2 - r1|
      else 1 := by
    unfold Quad.modified
    rw [← hα1, ← hα2, ← hα3]
    simp only [← hdd, hd', if_true, ← hr1, ← hr2, min_eq_left hle, max_eq_right hle]
  refine ⟨r1, r2, hle, fun x => by rw [hfac, hα1]; ring, ?_⟩
  rw [abs_of_nonneg (by linarith)] at hval
  rw [hfac] at h1
  by_cases hlt : r2 < 1
  · refine .inl ⟨hlt, ?_⟩
    rw [hval, if_pos hlt]; ring
  · have hr : 1 < r1 := by
      by_contra hc
      have := mul_nonneg (mul_nonneg (by linarith : 0 ≤ -α1) (by linarith : 0 ≤ 1 - r1))
        (by linarith : 0 ≤ r2 - 1)
      linarith
    refine .inr ⟨hr, ?_⟩
    rw [hval, if_neg hlt, if_neg, if_neg, if_pos hr]
    · ring
    · rintro ⟨h, -⟩; linarith
    · rintro ⟨-, h⟩; rw [← hsum] at h; linarith

/-- A quadratic with positive leading coefficient has a root iff its discriminant is not negative. -/
theorem exists_root_iff {g : Geo K V} (hg : g.Laws) {a b c : K} (ha : 0 < a) :
    (∃ x, a * x ^ 2 + b * x + c = 0) ↔ 0 ≤ disc a b c := by
  constructor
  · rintro ⟨x, hx⟩
    have : disc a b c = (2 * a * x + b) ^ 2 := by
      simp only [disc]; linear_combination (-4 * a) * hx
    rw [this]
    exact sq_nonneg _
  · intro h
    exact ⟨(-b + g.sqrt (disc a b c)) / (2 * a), root_of_disc ha.ne' (hg.sqrt_sq _ h) (.inl rfl)⟩

/-- Twice Cauchy-Schwarz: the discriminant is a concave function of the damping. -/
theorem crQuad_concave (hg : e.geo.Laws) (s : St K V Mat Fac)
    (hne : e.geo.dot s.Ubar s.Ut ^ 2 ≠
      (e.geo.dot s.Ut s.Ut + loadWeight e s.phi) * e.geo.dot s.Ubar s.Ubar) :
    (crQuad e s).b1 * (crQuad e s).b1 - 4 * (crQuad e s).a0 * (crQuad e s).c2 < 0 := by
  have h := (crForm_psd hg s.phi).cauchy s.Ubar 0 s.Ut 1
  simp only [crForm, mul_zero, add_zero, mul_one, ne_eq, OfNat.ofNat_ne_zero,
    not_false_eq_true, zero_pow, one_pow] at h
  have h' := lt_of_le_of_ne h (by rw [mul_comm]; exact mul_comm (e.geo.dot s.Ubar s.Ubar) _ ▸ hne)
  simp only [crQuad]
  linarith

/-- Which damping an iteration with modified roots uses. The line of the damped correction meets the
sphere exactly for the dampings between some `r1` and `r2`; 1 is not one of them; the damping is
taken between them, a twentieth of the way from the end nearer to 1, and is more than 1/20. -/
theorem C36_modified_eta (hg : e.geo.Laws) (hr : o.relax = 1) {s t : St K V Mat Fac}
    (h : crIteration e o s = (t, .ok ())) (hk : lastRoots t.log = some .modified)
    (ha : e.geo.dot t.Ut t.Ut + loadWeight e t.phi ≠ 0) (hlen : 0 ≤ s.len)
    (hne : e.geo.dot t.Ubar t.Ut ^ 2 ≠
      (e.geo.dot t.Ut t.Ut + loadWeight e t.phi) * e.geo.dot t.Ubar t.Ubar) :
    ∃ eta r1 r2 : K, r1 ≤ r2 ∧
      (∀ x : K, (∃ l : K, crDistance e t (s.DU + (x • t.Ubar + l • t.Ut)) (s.DL + l) = s.len) ↔
        r1 ≤ x ∧ x ≤ r2) ∧
      (r2 < 1 ∧ eta = r2 - (r2 - r1) / 20 ∨ 1 < r1 ∧ eta = r1 + (r2 - r1) / 20) ∧
      1 / 20 < eta ∧ t.DU = s.DU + (eta • t.Ubar + t.dL • t.Ut) ∧ t.DL = s.DL + t.dL := by
  obtain ⟨s1, k, hs1, -, -, h3, h4, h5, h6, h7, h8, -, -, h10, -, hmod, -⟩ := crIteration_ok hr h
  rw [← h8] at hs1
  have hk' : k = .modified := by
    rw [h10] at hk
    exact Option.some.inj hk
  obtain ⟨b1, b2, b3, b4, -⟩ := hmod hk'
  have e1 : s1.phi = t.phi := by rw [hs1, h6]
  have e2 : s1.DU = s.DU := by rw [hs1]
  have e3 : s1.DL = s.DL := by rw [hs1]
  have e4 : s1.len = s.len := by rw [hs1]
  have e5 : s1.Ut = t.Ut := by rw [hs1, h7]
  have e6 : s1.Ubar = t.Ubar := by rw [hs1]
  have ha' : 0 < (crQuad e s1).a0 := by
    have h0 : (crQuad e s1).a0 = crForm e t.phi t.Ut 1 := by
      simp only [crQuad, crForm, e1, e5]; ring
    refine lt_of_le_of_ne (h0 ▸ crForm_nonneg hg _ _ _) (Ne.symm ?_)
    simp only [crQuad, e1, e5]
    exact ha
  have hc := crQuad_concave hg s1 (by rw [e1, e5, e6]; exact hne)
  obtain ⟨r1, r2, hle, hdisc, heta⟩ :=
    Quad.modified_between hg.sqrt_nonneg (fun x hx => hg.sqrt_sq x hx) hc b1 b2
  refine ⟨_, r1, r2, hle, fun x => ?_, heta, by linarith, by rw [h3, b4, h7, ← e6], h4⟩
  have key : (∃ l : K, crDistance e t (s.DU + (x • t.Ubar + l • t.Ut)) (s.DL + l) = s.len) ↔
      0 ≤ (crQuad e s1).disc x := by
    rw [Quad.disc, ← exists_root_iff hg ha']
    refine exists_congr fun l => ?_
    have hu := crForm_update hg s1 x l
    rw [e1, e2, e3, e4, e5, e6] at hu
    constructor
    · intro hl
      have : crForm e t.phi (s.DU + (x • t.Ubar + l • t.Ut)) (s.DL + l) = s.len ^ 2 := by
        rw [← hl, crDistance_eq, hg.sqrt_sq _ (crForm_nonneg hg _ _ _)]
      linarith
    · intro hl
      exact crDistance_of_sq hg hlen (by rw [hu, hl, add_zero])
  rw [key, hdisc]
  have hpos : 0 < 4 * (crQuad e s1).a0 * (crQuad e s1).c2 - (crQuad e s1).b1 * (crQuad e s1).b1 := by
    linarith
  constructor
  · intro h0
    rw [mul_assoc] at h0
    have h0 := nonneg_of_mul_nonneg_right h0 hpos
    constructor
    · by_contra hx
      rw [not_le] at hx
      have := mul_neg_of_neg_of_pos (sub_neg.2 hx) (by linarith : 0 < r2 - x)
      linarith
    · by_contra hx
      rw [not_le] at hx
      have := mul_neg_of_pos_of_neg (by linarith : 0 < x - r1) (sub_neg.2 hx)
      linarith
  · rintro ⟨h1, h2⟩
    exact mul_nonneg (mul_nonneg hpos.le (sub_nonneg.2 h1)) (sub_nonneg.2 h2)

/-- Hence such an iteration ends inside the sphere. -/
theorem C36_modified_inside (hg : e.geo.Laws) (hr : o.relax = 1) {s t : St K V Mat Fac}
    (h : crIteration e o s = (t, .ok ())) (hk : lastRoots t.log = some .modified)
    (ha : e.geo.dot t.Ut t.Ut + loadWeight e t.phi ≠ 0) (hlen : 0 ≤ s.len)
    (hne : e.geo.dot t.Ubar t.Ut ^ 2 ≠
      (e.geo.dot t.Ut t.Ut + loadWeight e t.phi) * e.geo.dot t.Ubar t.Ubar) :
    crDistance e t t.DU t.DL ≤ s.len := by
  obtain ⟨s1, k, hs1, -, -, -, -, -, h6, h7, h8, -, -, h10, -, hmod, -⟩ := crIteration_ok hr h
  rw [← h8] at hs1
  have hk' : k = .modified := by
    rw [h10] at hk
    exact Option.some.inj hk
  obtain ⟨b1, b2, -⟩ := hmod hk'
  have e1 : s1.phi = t.phi := by rw [hs1, h6]
  have e5 : s1.Ut = t.Ut := by rw [hs1, h7]
  have e6 : s1.Ubar = t.Ubar := by rw [hs1]
  have hc := crQuad_concave hg s1 (by rw [e1, e5, e6]; exact hne)
  obtain ⟨r1, r2, hle, hdisc, heta⟩ :=
    Quad.modified_between hg.sqrt_nonneg (fun x hx => hg.sqrt_sq x hx) hc b1 b2
  have hd : 0 ≤ (crQuad e s1).disc ((crQuad e s1).modified e.geo.sqrt).1 := by
    rw [hdisc]
    refine mul_nonneg (mul_nonneg (by linarith) ?_) ?_ <;>
      rcases heta with ⟨-, he⟩ | ⟨-, he⟩ <;> rw [he] <;> linarith
  have key := C36_modified hg hr h hk ha
  have hs2 : crQuad e { s with Ubar := t.Ubar } = crQuad e s1 := by rw [hs1]; rfl
  rw [hs2] at key
  have hpos : 0 < e.geo.dot t.Ut t.Ut + loadWeight e t.phi := by
    have h0 : e.geo.dot t.Ut t.Ut + loadWeight e t.phi = crForm e t.phi t.Ut 1 := by
      simp only [crForm]; ring
    exact lt_of_le_of_ne (h0 ▸ crForm_nonneg hg _ _ _) (Ne.symm ha)
  refine le_of_abs_le (abs_le_of_sq_le_sq ?_ hlen)
  rw [key]
  have := div_nonneg hd (by linarith : 0 ≤ 4 * (e.geo.dot t.Ut t.Ut + loadWeight e t.phi))
  linarith

end GsSA.ALM
