import Mathlib.Analysis.Calculus.DerivativeTest
import Mathlib.Analysis.Calculus.FDeriv.Symmetric
import Mathlib.Topology.Order.Compact
import Verif.Oracle.ReferenceFirst

/-!
# C148: the simply supported plate has no lower frequency
-/

namespace GsSA.Oracle

/-- The derivative in the first direction; used in proofs only. -/
noncomputable def px (w : ℝ → ℝ → ℝ) : ℝ → ℝ → ℝ := fun x y => deriv (fun x => w x y) x

/-- The derivative in the second direction; used in proofs only. -/
noncomputable def py (w : ℝ → ℝ → ℝ) : ℝ → ℝ → ℝ := fun x y => deriv (fun y => w x y) y

/-- `n` continuous derivatives in both directions together. -/
abbrev Smooth (n : ℕ) (w : ℝ → ℝ → ℝ) : Prop := ContDiff ℝ n fun z : ℝ × ℝ => w z.1 z.2

theorem px_eq {w : ℝ → ℝ → ℝ} (h : Smooth 1 w) (z : ℝ × ℝ) :
    px w z.1 z.2 = fderiv ℝ (fun z : ℝ × ℝ => w z.1 z.2) z (1, 0) := by
  have h1 := (h.differentiable (by norm_num) z).hasFDerivAt
  have h2 : HasDerivAt (fun x : ℝ => (x, z.2)) ((1 : ℝ), (0 : ℝ)) z.1 := (hasDerivAt_id' z.1).prodMk (hasDerivAt_const _ _)
  exact (HasFDerivAt.comp_hasDerivAt (f := fun x : ℝ => (x, z.2)) z.1 h1 h2).deriv

theorem py_eq {w : ℝ → ℝ → ℝ} (h : Smooth 1 w) (z : ℝ × ℝ) :
    py w z.1 z.2 = fderiv ℝ (fun z : ℝ × ℝ => w z.1 z.2) z (0, 1) := by
  have h1 := (h.differentiable (by norm_num) z).hasFDerivAt
  have h2 : HasDerivAt (fun y : ℝ => (z.1, y)) ((0 : ℝ), (1 : ℝ)) z.2 := (hasDerivAt_const _ _).prodMk (hasDerivAt_id' z.2)
  exact (HasFDerivAt.comp_hasDerivAt (f := fun y : ℝ => (z.1, y)) z.2 h1 h2).deriv

theorem Smooth.le {n m : ℕ} {w : ℝ → ℝ → ℝ} (h : Smooth n w) (hm : m ≤ n) : Smooth m w :=
  ContDiff.of_le h (by exact_mod_cast hm)

theorem smooth_px {n : ℕ} {w : ℝ → ℝ → ℝ} (h : Smooth (n + 1) w) : Smooth n (px w) := by
  have h1 : Smooth 1 w := h.le (by omega)
  have e : (fun z : ℝ × ℝ => px w z.1 z.2) = fun z => fderiv ℝ (fun z : ℝ × ℝ => w z.1 z.2) z (1, 0) :=
    funext fun z => px_eq h1 z
  unfold Smooth
  rw [e]
  exact (h.fderiv_right (m := n) (by norm_cast)).clm_apply contDiff_const

theorem smooth_py {n : ℕ} {w : ℝ → ℝ → ℝ} (h : Smooth (n + 1) w) : Smooth n (py w) := by
  have h1 : Smooth 1 w := h.le (by omega)
  have e : (fun z : ℝ × ℝ => py w z.1 z.2) = fun z => fderiv ℝ (fun z : ℝ × ℝ => w z.1 z.2) z (0, 1) :=
    funext fun z => py_eq h1 z
  unfold Smooth
  rw [e]
  exact (h.fderiv_right (m := n) (by norm_cast)).clm_apply contDiff_const

theorem px_py {w : ℝ → ℝ → ℝ} (h : Smooth 2 w) : px (py w) = py (px w) := by
  have h1 : Smooth 1 w := h.le (by omega)
  have ex : (fun z : ℝ × ℝ => px w z.1 z.2) = fun z => fderiv ℝ (fun z : ℝ × ℝ => w z.1 z.2) z (1, 0) :=
    funext fun z => px_eq h1 z
  have ey : (fun z : ℝ × ℝ => py w z.1 z.2) = fun z => fderiv ℝ (fun z : ℝ × ℝ => w z.1 z.2) z (0, 1) :=
    funext fun z => py_eq h1 z
  have hd : ContDiff ℝ 1 (fderiv ℝ fun z : ℝ × ℝ => w z.1 z.2) := ContDiff.fderiv_right (n := 2) h (by norm_num)
  funext x y
  have a := px_eq (smooth_py (n := 1) h) (x, y)
  have b := py_eq (smooth_px (n := 1) h) (x, y)
  have d := (hd.differentiable (by norm_num) (x, y)).hasFDerivAt
  rw [ey, (d.clm_apply (hasFDerivAt_const _ _)).fderiv] at a
  rw [ex, (d.clm_apply (hasFDerivAt_const _ _)).fderiv] at b
  have s : IsSymmSndFDerivAt ℝ (fun z : ℝ × ℝ => w z.1 z.2) (x, y) :=
    ContDiffAt.isSymmSndFDerivAt (n := 2) h.contDiffAt (by simp)
  have s' := s (1, 0) (0, 1)
  simp at a b
  rw [a, b]
  exact s'

theorem mixed {w : ℝ → ℝ → ℝ} (h : Smooth 4 w) : px (px (py (py w))) = py (py (px (px w))) := by
  rw [px_py (smooth_py (n := 2) (h.le (by omega))), px_py (w := w) (h.le (by omega)),
    px_py (smooth_py (n := 2) (smooth_px (n := 3) h)), px_py (w := px w) (smooth_px (n := 2) (h.le (by omega)))]

/-! ### Maxima -/

theorem dd_nonpos {f : ℝ → ℝ} (hf : ContDiff ℝ 2 f) {x : ℝ} (h : IsLocalMax f x) : dd f x ≤ 0 := by
  by_contra hc
  rw [not_le] at hc
  have hmin := isLocalMin_of_deriv_deriv_pos hc h.deriv_eq_zero hf.continuous.continuousAt
  have he : f =ᶠ[nhds x] fun _ => f x := by
    filter_upwards [h, hmin] with y h1 h2
    exact le_antisymm h1 h2
  have h2 : deriv (deriv f) x = 0 := by
    rw [he.deriv.deriv_eq]
    simp
  exact absurd h2 hc.ne'

theorem max_square {g : ℝ → ℝ → ℝ} (hg : ContinuousOn (fun z : ℝ × ℝ => g z.1 z.2) (Set.Icc 0 1 ×ˢ Set.Icc 0 1))
    (hz : ∀ z, g 0 z = 0 ∧ g 1 z = 0 ∧ g z 0 = 0 ∧ g z 1 = 0) {x y : ℝ} (hx : x ∈ Set.Icc (0 : ℝ) 1)
    (hy : y ∈ Set.Icc (0 : ℝ) 1) (hp : 0 < g x y) :
    ∃ a ∈ Set.Ioo (0 : ℝ) 1, ∃ b ∈ Set.Ioo (0 : ℝ) 1, 0 < g a b ∧
      ∀ x ∈ Set.Icc (0 : ℝ) 1, ∀ y ∈ Set.Icc (0 : ℝ) 1, g x y ≤ g a b := by
  obtain ⟨⟨a, b⟩, hab, hm⟩ := (isCompact_Icc.prod isCompact_Icc).exists_isMaxOn ⟨(x, y), hx, hy⟩ hg
  have hle : ∀ x ∈ Set.Icc (0 : ℝ) 1, ∀ y ∈ Set.Icc (0 : ℝ) 1, g x y ≤ g a b := fun x hx y hy => hm (Set.mk_mem_prod hx hy)
  have hpos : 0 < g a b := hp.trans_le (hle x hx y hy)
  obtain ⟨ha, hb⟩ := hab
  simp only at ha hb
  refine ⟨a, ⟨lt_of_le_of_ne ha.1 ?_, lt_of_le_of_ne ha.2 ?_⟩, b, ⟨lt_of_le_of_ne hb.1 ?_, lt_of_le_of_ne hb.2 ?_⟩, hpos, hle⟩
  · rintro rfl
    rw [(hz b).1] at hpos
    exact lt_irrefl _ hpos
  · rintro rfl
    rw [(hz b).2.1] at hpos
    exact lt_irrefl _ hpos
  · rintro rfl
    rw [(hz a).2.2.1] at hpos
    exact lt_irrefl _ hpos
  · rintro rfl
    rw [(hz a).2.2.2] at hpos
    exact lt_irrefl _ hpos

theorem slice_x {n : ℕ} {w : ℝ → ℝ → ℝ} (h : Smooth n w) (y : ℝ) : ContDiff ℝ n fun x => w x y :=
  ContDiff.comp (f := fun x : ℝ => (x, y)) h (contDiff_id.prodMk contDiff_const)

theorem slice_y {n : ℕ} {w : ℝ → ℝ → ℝ} (h : Smooth n w) (x : ℝ) : ContDiff ℝ n fun y => w x y :=
  ContDiff.comp (f := fun y : ℝ => (x, y)) h (contDiff_const.prodMk contDiff_id)

/-- At a place inside where `w - c` is largest the second derivatives are not positive. -/
theorem laplace_nonpos {w : ℝ → ℝ → ℝ} (h : Smooth 2 w) {a b : ℝ} (ha : a ∈ Set.Ioo (0 : ℝ) 1) (hb : b ∈ Set.Ioo (0 : ℝ) 1)
    (hm : ∀ x ∈ Set.Icc (0 : ℝ) 1, ∀ y ∈ Set.Icc (0 : ℝ) 1, w x y ≤ w a b) :
    px (px w) a b + py (py w) a b ≤ 0 := by
  have h1 : px (px w) a b ≤ 0 := by
    refine dd_nonpos (f := fun x => w x b) (slice_x h b) ?_
    filter_upwards [Ioo_mem_nhds ha.1 ha.2] with x hx
    exact hm x (Set.Ioo_subset_Icc_self hx) b (Set.Ioo_subset_Icc_self hb)
  have h2 : py (py w) a b ≤ 0 := by
    refine dd_nonpos (f := fun y => w a y) (slice_y h a) ?_
    filter_upwards [Ioo_mem_nhds hb.1 hb.2] with y hy
    exact hm a (Set.Ioo_subset_Icc_self ha) y (Set.Ioo_subset_Icc_self hy)
  linarith

theorem pos_absurd {mu : ℝ} (hmu : 0 < mu) {u : ℝ → ℝ → ℝ} (h : Smooth 2 u)
    (he : ∀ x y, px (px u) x y + py (py u) x y = mu * u x y) (hz : ∀ z, u 0 z = 0 ∧ u 1 z = 0 ∧ u z 0 = 0 ∧ u z 1 = 0)
    {x y : ℝ} (hx : x ∈ Set.Icc (0 : ℝ) 1) (hy : y ∈ Set.Icc (0 : ℝ) 1) : u x y ≤ 0 := by
  by_contra hp
  rw [not_le] at hp
  obtain ⟨a, ha, b, hb, h1, h2⟩ := max_square h.continuous.continuousOn hz hx hy hp
  have := laplace_nonpos h ha hb h2
  rw [he] at this
  exact absurd (mul_pos hmu h1) (not_lt.2 this)

/-- The positive function with which the plate is compared: the first mode of a square that is a little larger. -/
noncomputable def around (s : ℝ) (x y : ℝ) : ℝ := Real.cos (s * (x - 1 / 2)) * Real.cos (s * (y - 1 / 2))

theorem smooth_around (s : ℝ) (n : ℕ) : Smooth n (around s) := by
  unfold Smooth around
  fun_prop

theorem deriv2_cos (s K : ℝ) (x : ℝ) :
    deriv (deriv fun x => Real.cos (s * (x - 1 / 2)) * K) x = -(s ^ 2) * (Real.cos (s * (x - 1 / 2)) * K) := by
  have l : ∀ x : ℝ, HasDerivAt (fun x : ℝ => s * (x - 1 / 2)) (s * 1) x := fun x =>
    ((hasDerivAt_id' x).sub_const (1 / 2)).const_mul s
  have h1 : deriv (fun x => Real.cos (s * (x - 1 / 2)) * K) = fun x => -Real.sin (s * (x - 1 / 2)) * (s * 1) * K :=
    funext fun x => ((l x).cos.mul_const K).deriv
  rw [h1]
  refine (((((l x).sin).neg).mul_const (s * 1)).mul_const K).deriv.trans ?_
  ring

theorem laplace_around (s x y : ℝ) :
    px (px (around s)) x y = -(s ^ 2) * around s x y ∧ py (py (around s)) x y = -(s ^ 2) * around s x y := by
  constructor
  · exact deriv2_cos s (Real.cos (s * (y - 1 / 2))) x
  · have h := deriv2_cos s (Real.cos (s * (x - 1 / 2))) y
    have e : (fun y => Real.cos (s * (y - 1 / 2)) * Real.cos (s * (x - 1 / 2))) = fun y => around s x y :=
      funext fun y => mul_comm _ _
    rw [e] at h
    refine h.trans ?_
    rw [around]
    ring

theorem around_pos {s : ℝ} (h0 : 0 < s) (h1 : s < Real.pi) {x y : ℝ} (hx : x ∈ Set.Icc (0 : ℝ) 1)
    (hy : y ∈ Set.Icc (0 : ℝ) 1) : 0 < around s x y := by
  have : ∀ x ∈ Set.Icc (0 : ℝ) 1, 0 < Real.cos (s * (x - 1 / 2)) := by
    intro x hx
    obtain ⟨hx0, hx1⟩ := hx
    refine Real.cos_pos_of_mem_Ioo ⟨?_, ?_⟩
    · nlinarith
    · nlinarith
  exact mul_pos (this x hx) (this y hy)

theorem dd_lin {f g : ℝ → ℝ} (hf : ContDiff ℝ 2 f) (hg : ContDiff ℝ 2 g) (c : ℝ) (x : ℝ) :
    dd (fun x => f x + c * g x) x = dd f x + c * dd g x := by
  have f1 : Differentiable ℝ f := hf.differentiable (by norm_num)
  have g1 : Differentiable ℝ g := hg.differentiable (by norm_num)
  have f2 : Differentiable ℝ (deriv f) := (hf.iterate_deriv' 1 1).differentiable (by norm_num)
  have g2 : Differentiable ℝ (deriv g) := (hg.iterate_deriv' 1 1).differentiable (by norm_num)
  have h1 : deriv (fun x => f x + c * g x) = fun x => deriv f x + c * deriv g x :=
    funext fun x => ((f1 x).hasDerivAt.add ((g1 x).hasDerivAt.const_mul c)).deriv
  rw [dd, h1]
  exact ((f2 x).hasDerivAt.add ((g2 x).hasDerivAt.const_mul c)).deriv

theorem membrane_bound {mu s : ℝ} (h0 : 0 < s) (h1 : s < Real.pi) {w : ℝ → ℝ → ℝ} (h : Smooth 2 w)
    (he : ∀ x ∈ Set.Icc (0 : ℝ) 1, ∀ y ∈ Set.Icc (0 : ℝ) 1, px (px w) x y + py (py w) x y = -mu * w x y)
    (hz : ∀ z, w 0 z = 0 ∧ w 1 z = 0 ∧ w z 0 = 0 ∧ w z 1 = 0)
    {x y : ℝ} (hx : x ∈ Set.Icc (0 : ℝ) 1) (hy : y ∈ Set.Icc (0 : ℝ) 1) (hp : 0 < w x y) : 2 * s ^ 2 ≤ mu := by
  have pos : ∀ x ∈ Set.Icc (0 : ℝ) 1, ∀ y ∈ Set.Icc (0 : ℝ) 1, 0 < around s x y := fun x hx y hy => around_pos h0 h1 hx hy
  obtain ⟨a, ha, b, hb, g1, g2⟩ := max_square (g := fun x y => w x y / around s x y)
    (h.continuous.continuousOn.div (smooth_around s 2).continuous.continuousOn fun z hz => (pos z.1 hz.1 z.2 hz.2).ne')
    (fun z => by simp [hz z]) hx hy (div_pos hp (pos x hx y hy))
  have hab := pos a (Set.Ioo_subset_Icc_self ha) b (Set.Ioo_subset_Icc_self hb)
  obtain ⟨M, hM⟩ : ∃ M, w a b / around s a b = M := ⟨_, rfl⟩
  simp only [hM] at g1 g2
  have hw : w a b = M * around s a b := by rw [← hM, div_mul_cancel₀ _ hab.ne']
  have hsm : Smooth 2 fun x y => w x y + -M * around s x y := ContDiff.add h (contDiff_const.mul (smooth_around s 2))
  have k := laplace_nonpos hsm ha hb fun x hx y hy => by
    have := (div_le_iff₀ (pos x hx y hy)).1 (g2 x hx y hy)
    linarith
  have kx : px (px fun x y => w x y + -M * around s x y) a b = px (px w) a b + -M * px (px (around s)) a b :=
    dd_lin (slice_x h b) (slice_x (smooth_around s 2) b) (-M) a
  have ky : py (py fun x y => w x y + -M * around s x y) a b = py (py w) a b + -M * py (py (around s)) a b :=
    dd_lin (slice_y h a) (slice_y (smooth_around s 2) a) (-M) b
  rw [kx, ky, (laplace_around s a b).1, (laplace_around s a b).2] at k
  have e := he a (Set.Ioo_subset_Icc_self ha) b (Set.Ioo_subset_Icc_self hb)
  rw [hw] at e
  have : M * around s a b * (2 * s ^ 2 - mu) ≤ 0 := by linarith
  have := nonpos_of_mul_nonpos_right this (mul_pos g1 hab)
  linarith

theorem first_membrane {mu : ℝ} {w : ℝ → ℝ → ℝ} (h : Smooth 2 w)
    (he : ∀ x ∈ Set.Icc (0 : ℝ) 1, ∀ y ∈ Set.Icc (0 : ℝ) 1, px (px w) x y + py (py w) x y = -mu * w x y)
    (hz : ∀ z, w 0 z = 0 ∧ w 1 z = 0 ∧ w z 0 = 0 ∧ w z 1 = 0)
    {x y : ℝ} (hx : x ∈ Set.Icc (0 : ℝ) 1) (hy : y ∈ Set.Icc (0 : ℝ) 1) (hp : 0 < w x y) : 2 * Real.pi ^ 2 ≤ mu := by
  by_contra hc
  rw [not_le] at hc
  have hpi := Real.pi_pos
  have ht : 0 < (max mu 0 / 2 + Real.pi ^ 2) / 2 := by positivity
  have hl : max mu 0 < 2 * Real.pi ^ 2 := max_lt hc (by positivity)
  have b := membrane_bound (s := Real.sqrt ((max mu 0 / 2 + Real.pi ^ 2) / 2)) (Real.sqrt_pos.2 ht)
    ((Real.sqrt_lt' hpi).2 (by linarith)) h he hz hx hy hp
  rw [Real.sq_sqrt ht.le] at b
  linarith [le_max_left mu 0]

theorem dd_neg' (f : ℝ → ℝ) (x : ℝ) : dd (fun x => -f x) x = -dd f x := by
  have h : deriv (fun x => -f x) = fun x => -deriv f x := funext fun x => deriv.fun_neg
  rw [dd, h]
  exact deriv.fun_neg

theorem plate_membrane {D m omega : ℝ} (hD : 0 < D) (hm : 0 < m) (ho : 0 < omega) {w : ℝ → ℝ → ℝ} (h : PlateMode D m omega w)
    {x y : ℝ} (hx : x ∈ Set.Icc (0 : ℝ) 1) (hy : y ∈ Set.Icc (0 : ℝ) 1) :
    px (px w) x y + py (py w) x y = -(omega * Real.sqrt (m / D)) * w x y := by
  have hs : Smooth 4 w := h.smooth
  have hxx : Smooth 2 (px (px w)) := smooth_px (smooth_px hs)
  have hyy : Smooth 2 (py (py w)) := smooth_py (smooth_py hs)
  have h2 : Smooth 2 w := hs.le (by omega)
  obtain ⟨mu, hmu⟩ : ∃ mu, omega * Real.sqrt (m / D) = mu := ⟨_, rfl⟩
  have hmu0 : 0 < mu := by rw [← hmu]; exact mul_pos ho (Real.sqrt_pos.2 (by positivity))
  have hsq : D * mu ^ 2 = m * omega ^ 2 := by
    rw [← hmu, mul_pow, Real.sq_sqrt (by positivity)]
    field_simp
  rw [hmu]
  have hu : Smooth 2 fun x y => px (px w) x y + 1 * py (py w) x y + mu * w x y :=
    (ContDiff.add hxx (contDiff_const.mul hyy)).add (contDiff_const.mul h2)
  have hv : Smooth 2 fun x y => px (px w) x y + 1 * py (py w) x y := ContDiff.add hxx (contDiff_const.mul hyy)
  have ux : ∀ x y, px (px fun x y => px (px w) x y + 1 * py (py w) x y + mu * w x y) x y =
      px (px (px (px w))) x y + 1 * px (px (py (py w))) x y + mu * px (px w) x y := by
    intro x y
    refine (dd_lin (slice_x hv y) (slice_x h2 y) mu x).trans ?_
    rw [dd_lin (slice_x hxx y) (slice_x hyy y) 1 x]
    rfl
  have uy : ∀ x y, py (py fun x y => px (px w) x y + 1 * py (py w) x y + mu * w x y) x y =
      py (py (px (px w))) x y + 1 * py (py (py (py w))) x y + mu * py (py w) x y := by
    intro x y
    refine (dd_lin (slice_y hv x) (slice_y h2 x) mu y).trans ?_
    rw [dd_lin (slice_y hxx x) (slice_y hyy x) 1 y]
    rfl
  have he : ∀ x y, px (px fun x y => px (px w) x y + 1 * py (py w) x y + mu * w x y) x y +
      py (py fun x y => px (px w) x y + 1 * py (py w) x y + mu * w x y) x y =
      mu * (px (px w) x y + 1 * py (py w) x y + mu * w x y) := by
    intro x y
    rw [ux, uy, mixed hs]
    have e : D * (px (px (px (px w))) x y + 2 * py (py (px (px w))) x y + py (py (py (py w))) x y) = m * omega ^ 2 * w x y :=
      h.motion x y
    rw [← hsq, mul_assoc] at e
    have e' := mul_left_cancel₀ hD.ne' e
    linear_combination e'
  have cy : ∀ {c : ℝ}, (∀ z, w c z = 0) → ∀ z, py (py w) c z = 0 := by
    intro c hc z
    have e : (fun y => w c y) = fun _ => 0 := funext hc
    show deriv (deriv fun y => w c y) z = 0
    simp [e]
  have cx : ∀ {c : ℝ}, (∀ z, w z c = 0) → ∀ z, px (px w) z c = 0 := by
    intro c hc z
    have e : (fun x => w x c) = fun _ => 0 := funext hc
    show deriv (deriv fun x => w x c) z = 0
    simp [e]
  have hz : ∀ z, (px (px w) 0 z + 1 * py (py w) 0 z + mu * w 0 z = 0) ∧ (px (px w) 1 z + 1 * py (py w) 1 z + mu * w 1 z = 0) ∧
      (px (px w) z 0 + 1 * py (py w) z 0 + mu * w z 0 = 0) ∧ (px (px w) z 1 + 1 * py (py w) z 1 + mu * w z 1 = 0) := by
    intro z
    obtain ⟨a1, a2, a3, a4, a5, a6, a7, a8⟩ := h.sides z
    have b5 : px (px w) 0 z = 0 := a5
    have b6 : px (px w) 1 z = 0 := a6
    have b7 : py (py w) z 0 = 0 := a7
    have b8 : py (py w) z 1 = 0 := a8
    rw [a1, a2, a3, a4, b5, b6, b7, b8, cy (fun z => (h.sides z).1), cy (fun z => (h.sides z).2.1),
      cx (fun z => (h.sides z).2.2.1), cx (fun z => (h.sides z).2.2.2.1)]
    simp
  have le := pos_absurd hmu0 hu he hz hx hy
  have ge := pos_absurd hmu0 (u := fun x y => -(px (px w) x y + 1 * py (py w) x y + mu * w x y)) hu.neg
    (fun x y => by
      have e1 : px (px fun x y => -(px (px w) x y + 1 * py (py w) x y + mu * w x y)) x y = _ :=
        dd_neg' (fun x => px (px w) x y + 1 * py (py w) x y + mu * w x y) x
      have e2 : py (py fun x y => -(px (px w) x y + 1 * py (py w) x y + mu * w x y)) x y = _ :=
        dd_neg' (fun y => px (px w) x y + 1 * py (py w) x y + mu * w x y) y
      rw [e1, e2]
      have := he x y
      simp only [px, py, dd] at this ⊢
      linarith)
    (fun z => by simpa only [neg_eq_zero] using hz z) hx hy
  linarith

theorem plate_bound {D m omega : ℝ} (hD : 0 < D) (hm : 0 < m) (ho : 0 < omega) {w : ℝ → ℝ → ℝ} (h : PlateMode D m omega w)
    {x y : ℝ} (hx : x ∈ Set.Icc (0 : ℝ) 1) (hy : y ∈ Set.Icc (0 : ℝ) 1) (hw : w x y ≠ 0) :
    2 * Real.pi ^ 2 * Real.sqrt (D / m) ≤ omega := by
  have hs : Smooth 2 w := Smooth.le (n := 4) h.smooth (by omega)
  have he := fun x hx y hy => plate_membrane (x := x) (y := y) hD hm ho h hx hy
  have hz := fun z => (⟨(h.sides z).1, (h.sides z).2.1, (h.sides z).2.2.1, (h.sides z).2.2.2.1⟩ :
    w 0 z = 0 ∧ w 1 z = 0 ∧ w z 0 = 0 ∧ w z 1 = 0)
  have key : 2 * Real.pi ^ 2 ≤ omega * Real.sqrt (m / D) := by
    rcases lt_or_gt_of_ne hw with hn | hp
    · refine first_membrane (w := fun x y => -w x y) hs.neg (fun x hx y hy => ?_) (fun z => ?_) hx hy (neg_pos.2 hn)
      · have e1 : px (px fun x y => -w x y) x y = _ := dd_neg' (fun x => w x y) x
        have e2 : py (py fun x y => -w x y) x y = _ := dd_neg' (fun y => w x y) y
        rw [e1, e2]
        have := he x hx y hy
        simp only [px, py, dd] at this ⊢
        linarith
      · simpa only [neg_eq_zero] using hz z
    · exact first_membrane hs he hz hx hy hp
  have e : Real.sqrt (m / D) * Real.sqrt (D / m) = 1 := by
    rw [← Real.sqrt_mul (by positivity), div_mul_div_cancel₀ hD.ne', div_self hm.ne', Real.sqrt_one]
  calc 2 * Real.pi ^ 2 * Real.sqrt (D / m) ≤ omega * Real.sqrt (m / D) * Real.sqrt (D / m) := by gcongr
    _ = omega := by rw [mul_assoc, e, mul_one]

/-- **C148**: the first frequency printed for the simply supported plate is the lowest one up to a relative error of
10⁻¹⁰. -/
theorem C148_first_plate {D m : ℝ} (hD : 0 < D) (hm : 0 < m) {sorted : List ℝ} (hs : sorted.Perm (modalPlate D m))
    (hle : sorted.Pairwise (· ≤ ·)) :
    ∃ p omega, sorted[0]? = some p ∧ |p - omega| ≤ 1e-10 * omega ∧
      IsLeast {o | 0 < o ∧ ∃ w, PlateMode D m o w ∧ ∃ x ∈ Set.Icc (0 : ℝ) 1, ∃ y ∈ Set.Icc (0 : ℝ) 1, w x y ≠ 0} omega := by
  obtain ⟨⟨p, hp, hc⟩, hall⟩ := C148_plate hD hm hs hle
  have hpi := Real.pi_pos
  have hpos : 0 < 2 * Real.pi ^ 2 * Real.sqrt (D / m) := by
    have := Real.sqrt_pos.2 (div_pos hD hm)
    positivity
  refine ⟨p, _, hp, hc, ⟨hpos, fun x y => Real.sin ((1 : ℕ) * Real.pi * x) * Real.sin ((1 : ℕ) * Real.pi * y), ?_,
    1 / 2, ⟨by norm_num, by norm_num⟩, 1 / 2, ⟨by norm_num, by norm_num⟩, ?_⟩, ?_⟩
  · have h := plate_mode hD hm 1 1
    rwa [Nat.cast_one, show (1 : ℝ) ^ 2 + 1 ^ 2 = 2 by norm_num, ← Nat.cast_one (R := ℝ)] at h
  · show Real.sin ((1 : ℕ) * Real.pi * (1 / 2)) * Real.sin ((1 : ℕ) * Real.pi * (1 / 2)) ≠ 0
    rw [show ((1 : ℕ) : ℝ) * Real.pi * (1 / 2) = Real.pi / 2 by push_cast; ring, Real.sin_pi_div_two]
    norm_num
  · rintro o ⟨ho, w, hw, x, hx, y, hy, hne⟩
    exact plate_bound hD hm ho hw hx hy hne

/-- A plate with stiffness 2 and mass 3. -/
example : ∃ sorted : List ℝ, ∃ p omega, sorted.Perm (modalPlate 2 3) ∧ sorted[0]? = some p ∧ |p - omega| ≤ 1e-10 * omega ∧
    IsLeast {o | 0 < o ∧ ∃ w, PlateMode 2 3 o w ∧ ∃ x ∈ Set.Icc (0 : ℝ) 1, ∃ y ∈ Set.Icc (0 : ℝ) 1, w x y ≠ 0} omega := by
  have h := List.pairwise_mergeSort (le := fun a b : ℝ => decide (a ≤ b)) (by simpa using fun a b c => le_trans)
    (by simpa using le_total) (modalPlate 2 3)
  obtain ⟨p, omega, h1⟩ := C148_first_plate (D := 2) (m := 3) (by norm_num) (by norm_num)
    (List.mergeSort_perm (modalPlate 2 3) _) (by simpa using h)
  exact ⟨_, p, omega, List.mergeSort_perm _ _, h1⟩

end GsSA.Oracle
