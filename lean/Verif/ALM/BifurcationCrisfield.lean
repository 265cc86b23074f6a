import Verif.ALM.BifurcationProps
import Verif.ALM.BisectionCrisfield

/-!
# C145: Crisfield's method finds bifurcations
-/

namespace GsSA.ALM

open GsSA

set_option linter.unusedSectionVars false

section

variable {K V Mat Fac : Type} [Field K] [LinearOrder K] [IsStrictOrderedRing K] [AddCommGroup V] [Module K V]
variable {e : Env K V Mat Fac} {o : Opts K}
variable {w : V} {σ : K} {mat : K → Mat} {fac : K → Fac} {spec : K → List K}

/-- **C145**: bisection with Crisfield's method finds the bifurcation, as with load control (`C142_loadControl`). -/
theorem C145_bisection (h : Straight e o w σ mat fac spec) (hg : e.geo.Laws)
    (hF : e.geo.dot e.forcing e.forcing ≠ 0) (hw : e.geo.dot w w ≠ 0) (hphi : o.phiUser = false) (hrel : o.relax = 1)
    (hq : o.quasi = false) (htF : 0 < o.tolF) (htU : 0 < o.tolU) {s : St K V Mat Fac} (hi : s.initialized = true)
    (hgu : s.guess = none) (hfw : Forward w s) {L tol x₀ κ κ' : K}
    (hL : 0 < L) (hLσ : L < σ) (hd : σ - L ≤ 2 * (crSpeed e w * s.len)) {k : ℕ}
    (before : ∀ l, L ≤ l → l < σ → countNegatives (spec l) = k)
    (after : ∀ l, σ < l → l ≤ σ + crSpeed e w * s.len → countNegatives (spec l) ≠ k)
    (speed : ∀ l x, L ≤ l → l ≤ σ + crSpeed e w * s.len → minCoeff (spec l) = some x →
      κ' * |l - σ| ≤ |x| ∧ |x| ≤ κ * |l - σ|)
    (hx : minCoeff (spec L) = some x₀) (hx0 : x₀ ≠ 0) {i : ℕ}
    (htol : κ * (2 * (crSpeed e w * s.len / 2 ^ i)) < tol * |x₀|) (hmax : 2 * i + 2 ≤ o.maxIt) :
    ∃ t, bisectionSolve e o (crisfield e o) (L • w) L tol s = (t, .ok true) ∧ t.U = t.L • w ∧ t.len = s.len ∧
      L ≤ t.L ∧ κ' * |t.L - σ| < tol * |x₀| ∧ t.L ≠ σ ∧ PowerMode e (fac t.L) t.v :=
  C142_straight (κ := κ) h (h.crFollows hg hF hw hphi hrel hq htF htU (by omega) hL) (crSpeed_pos hg hw)
    ⟨by simp [ready, hi, hgu], hfw⟩ hLσ hd before after speed hx hx0 htol hmax

end

variable {V Mat Fac : Type} [NormedAddCommGroup V] [InnerProductSpace ℝ V]
variable {e : Env ℝ V Mat Fac} {o : Opts ℝ} {G : V → V} {J : V → V →L[ℝ] V} {S : Submodule ℝ V} {φ : V}
variable {D : V →L[ℝ] V →L[ℝ] V} {ρ m κ : ℝ}
variable {w : V} {σ : ℝ} {mat : ℝ → Mat} {fac : ℝ → Fac} {spec : ℝ → List ℝ}

/-- **C145**: `computeSingularPoint` with Crisfield's method finds the bifurcation (`C143_straight`). -/
theorem C145_crisfield (h : SingularPt e G J S (σ • w) σ φ D ρ m κ) (hs : Straight e o w σ mat fac spec)
    (hwS : w ∈ S) (hg : e.geo.Laws) (hF : e.geo.dot e.forcing e.forcing ≠ 0) (hw : e.geo.dot w w ≠ 0)
    (hsym : ∀ x a b, inner ℝ (J x a) b = inner ℝ a (J x b)) {μ α : ℝ} (hμ : 0 < μ)
    (hμ' : ∀ y, inner ℝ φ y = (0 : ℝ) → μ * ‖y‖ ≤ ‖J (σ • w) y‖) (hα : 0 < α) (hα2 : α ≤ 1 / 2)
    (h0 : e.ones ≠ 0) (hones : α * ‖e.ones‖ ≤ |inner ℝ φ e.ones|) (hphi : o.phiUser = false) (hrel : o.relax = 1) (hq : o.quasi = false) (htF : 0 < o.tolF)
    (htU : 0 < o.tolU) (hB : o.spTolB ≠ 0) {s : St ℝ V Mat Fac} (hi : s.initialized = true) (hgu : s.guess = none) (hfw : Forward w s)
    {L x₀ ν ν' : ℝ} (hL : 0 < L) (hLσ : L < σ) (hd : σ - L ≤ 2 * (crSpeed e w * s.len)) {k : ℕ}
    (before : ∀ l, L ≤ l → l < σ → countNegatives (spec l) = k)
    (after : ∀ l, σ < l → l ≤ σ + crSpeed e w * s.len → countNegatives (spec l) ≠ k) (hν : 0 < ν')
    (speed : ∀ l x, L ≤ l → l ≤ σ + crSpeed e w * s.len → minCoeff (spec l) = some x →
      ν' * |l - σ| ≤ |x| ∧ |x| ≤ ν * |l - σ|)
    (hx : minCoeff (spec L) = some x₀) (hx0 : x₀ ≠ 0) {i : ℕ}
    (htol : ν * (2 * (crSpeed e w * s.len / 2 ^ i)) < o.spTolB * |x₀|) (hmax : 2 * i + 2 ≤ o.maxIt) {δ E : ℝ}
    (hδ : o.spTolB * |x₀| ≤ ν' * δ)
    (hE : (‖w‖ + 1) * δ + 4 * ((κ * (δ * ‖w‖) + ‖D‖) * (δ * ‖w‖) * (1 / α + 1) / μ) ≤ E) (hE2 : E ≤ 1 / 2)
    (hρ : E + 2 / 10 ^ 8 ≤ ρ) (hq' : 4 * m * ((4 * κ + 2 * ‖D‖ + 2) * E + 4 * κ / 10 ^ 8) ≤ 1) {n : ℕ} (hn0 : 0 < n)
    (hn : n ≤ o.maxIt) (htolE : (2 * κ + 2 * ‖D‖ + ‖J (σ • w)‖) * extendedBound D m κ E n < o.spTolE)
    (sw j : Bool) :
    ∃ t st, computeSingularPoint e o (crisfield e o) (L • w) L sw j false s = (t, .ok st) ∧
      ((st = .solverError ∧ ∃ x, ‖x - σ • w‖ ≤ ρ ∧ SolverFails e x) ∨
        ∃ c < n, |t.L - σ| ≤ extendedBound D m κ E (c + 1) ∧
          (sw = false → ‖t.U - σ • w‖ + |t.L - σ| ≤ extendedBound D m κ E (c + 1)) ∧
          (sw = true → ∃ z : ℝ, |z| = 1 ∧
            ‖t.U - (σ • w + (z / o.tau) • φ)‖ ≤ extendedBound D m κ E (c + 1) + E / |o.tau|)) :=
  C143_straight (ν := ν) h hs hwS (hs.crFollows hg hF hw hphi hrel hq htF htU (by omega) hL) (crSpeed_pos hg hw) hsym hμ
    hμ' hα hα2 h0 hones hB ⟨by simp [ready, hi, hgu], hfw⟩ hLσ hd before after hν speed hx hx0 htol hmax hδ hE hE2 hρ hq'
    hn0 hn htolE sw j

namespace RealDemo

example {o : Opts ℝ} (ho : o.bifMethod = .determinant) (hphi : o.phiUser = false) (hrel : o.relax = 1)
    (hq : o.quasi = false) (htF : 0 < o.tolF) (htU : 0 < o.tolU)
    (hmax : 18 ≤ o.maxIt) {s : St ℝ (ℝ × ℝ) (ℝ × ℝ × ℝ) (ℝ × ℝ × ℝ)} (hi : s.initialized = true)
    (hgu : s.guess = none) (hfw : Forward ((1, 0) : ℝ × ℝ) s) (hl : s.len = 1 / 2) :
    ∃ t, bisectionSolve column o (crisfield column o) ((1 / 2 : ℝ) • ((1, 0) : ℝ × ℝ)) (1 / 2) (1 / 100) s =
        (t, .ok true) ∧ t.U = t.L • ((1, 0) : ℝ × ℝ) ∧ t.len = s.len ∧ 1 / 2 ≤ t.L ∧ 1 * |t.L - 1| < 1 / 100 * |(1 / 2 : ℝ)| ∧
        t.L ≠ 1 ∧ PowerMode column (1, 0, 1 - t.L) t.v := by
  have hmin : ∀ l : ℝ, 1 / 2 ≤ l → min 1 (1 - l) = 1 - l := fun l hl => min_eq_right (by linarith)
  have hs : crSpeed column ((1, 0) : ℝ × ℝ) = 1 / Real.sqrt 2 := by simp [crSpeed, column, plane]
  have hs1 : 1 / 2 ≤ crSpeed column ((1, 0) : ℝ × ℝ) := by
    rw [hs]
    refine one_div_le_one_div_of_le (by positivity) ?_
    rw [Real.sqrt_le_left (by norm_num)]
    norm_num
  have hs2 : crSpeed column ((1, 0) : ℝ × ℝ) ≤ 1 := by
    rw [hs, div_le_one (by positivity)]
    exact Real.one_le_sqrt.2 (by norm_num)
  refine C145_bisection (column_straight ho) plane_laws (by simp [column, plane]) (by simp [column, plane]) hphi hrel hq htF htU
    hi hgu hfw (by norm_num) (by norm_num) (by rw [hl]; linarith) (k := 0) (κ := 1) ?_ ?_ ?_ (i := 8) ?_ (by norm_num) ?_ hmax
  · intro l h1 h2
    have : ¬(1 - l < 0) := by linarith
    simp [countNegatives, this]
  · intro l h1 h2
    have : 1 - l < 0 := by linarith
    simp [countNegatives, this]
  · intro l x h1 h2 hx
    simp only [minCoeff, List.foldl_cons, List.foldl_nil, Option.some.injEq] at hx
    rw [hmin l h1] at hx
    rw [← hx, one_mul, abs_sub_comm]
    exact ⟨le_rfl, le_rfl⟩
  · simp only [minCoeff, List.foldl_cons, List.foldl_nil, Option.some.injEq]
    norm_num
  · rw [hl, abs_of_pos (by norm_num)]
    norm_num
    linarith

/-- From the load 1/2 with steps of the length 1/2, Crisfield's method finds the bifurcation at the load 1 up to 1/1000. -/
example {o : Opts ℝ} (ho : o.bifMethod = .determinant) (hphi : o.phiUser = false) (hrel : o.relax = 1)
    (hq : o.quasi = false) (htF : 0 < o.tolF) (htU : 0 < o.tolU)
    (hmax : 32 ≤ o.maxIt) (hB : o.spTolB = 1 / 10000) (hE : 1 / 1000 ≤ o.spTolE)
    {s : St ℝ ℂ (ℝ × ℝ × ℝ) (ℝ × ℝ × ℝ)} (hi : s.initialized = true) (hgu : s.guess = none) (hfw : Forward (1 : ℂ) s)
    (hl : s.len = 1 / 2) :
    ∃ t st, computeSingularPoint forkColumn o (crisfield forkColumn o) ((1 / 2 : ℝ) • (1 : ℂ)) (1 / 2) false true false s =
        (t, .ok st) ∧
      ((st = .solverError ∧ ∃ x, ‖x - (1 : ℝ) • (1 : ℂ)‖ ≤ 1 ∧ SolverFails forkColumn x) ∨
        ‖t.U - (1 : ℝ) • (1 : ℂ)‖ + |t.L - 1| ≤ 1 / 1000) := by
  have hmin : ∀ l : ℝ, 1 / 2 ≤ l → min 1 (1 - l) = 1 - l := fun l hl => min_eq_right (by linarith)
  have hs : crSpeed forkColumn (1 : ℂ) = 1 / Real.sqrt 2 := by simp [crSpeed, forkColumn, realGeo]
  have hs1 : 1 / 2 ≤ crSpeed forkColumn (1 : ℂ) := by
    rw [hs]
    refine one_div_le_one_div_of_le (by positivity) ?_
    rw [Real.sqrt_le_left (by norm_num)]
    norm_num
  have hs2 : crSpeed forkColumn (1 : ℂ) ≤ 1 := by
    rw [hs, div_le_one (by positivity)]
    exact Real.one_le_sqrt.2 (by norm_num)
  have hD := forkD_norm
  have hD0 := norm_nonneg forkD
  have hq' : 4 * 3 * ((4 * 6 + 2 * ‖forkD‖ + 2) * (1 / 500 : ℝ) + 4 * 6 / 10 ^ 8) ≤ 1 := by linarith
  have hJ : ‖forkJ ((1 : ℝ) • (1 : ℂ))‖ ≤ 1 := by
    refine ContinuousLinearMap.opNorm_le_bound _ (by norm_num) fun a => ?_
    rw [forkJ_apply]
    have := Complex.abs_re_le_norm a
    simpa using this
  have hb := fun k => (C141_extended_rate (D := forkD) (m := 3) (κ := 6) (by norm_num) (by norm_num) (by norm_num) hq' k).1
  have key := C145_crisfield (s := s) (L := 1 / 2) (x₀ := 1 / 2) (ν := 1) (ν' := 1) (k := 0) (i := 15)
    (δ := 1 / 20000) (E := 1 / 500) (n := 10) (μ := 1) (α := 1 / 2) forkColumn_bifurcation (forkColumn_straight ho)
    (by rw [mem_realLine]; simp) (realGeo_laws ℂ) (by simp [forkColumn, realGeo]) (by simp [forkColumn, realGeo]) ?_ one_pos ?_ (by norm_num) le_rfl
    (by
      intro h
      have := congrArg Complex.re h
      simp [forkColumn] at this) ?_ hphi hrel hq htF htU (by rw [hB]; norm_num) hi hgu hfw (by norm_num) (by norm_num)
    (by rw [hl]; linarith) ?_ ?_ one_pos ?_ ?_ (by norm_num) ?_ (by omega) ?_ ?_ (by norm_num) (by norm_num) hq'
    (by norm_num) (by omega) ?_ false true
  · obtain ⟨t, st, h1, h2⟩ := key
    refine ⟨t, st, h1, h2.imp_right ?_⟩
    rintro ⟨c, -, -, h3, -⟩
    refine (h3 rfl).trans ((hb (c + 1)).trans ?_)
    have : (1 : ℝ) ≤ 2 ^ c := one_le_pow₀ (by norm_num)
    rw [pow_succ (2 : ℝ), div_div, div_le_div_iff₀ (by positivity) (by norm_num)]
    linarith
  · intro x a b
    rw [forkJ_apply, forkJ_apply]
    simp only [Complex.inner, Complex.mul_re, Complex.conj_re, Complex.conj_im, pair_re, pair_im]
    ring
  · intro y hy
    rw [forkJ_apply]
    simp [Complex.inner] at hy
    have := Complex.norm_le_abs_re_add_abs_im y
    rw [hy, abs_zero, add_zero] at this
    simpa using this
  · have h3 : ‖forkColumn.ones‖ ≤ 2 := by
      refine (norm_add_le _ _).trans ?_
      simp
      norm_num
    have h4 : inner ℝ Complex.I forkColumn.ones = (1 : ℝ) := by simp [Complex.inner, forkColumn]
    rw [h4, abs_one]
    linarith
  · intro l h1 h2
    have : ¬(1 - l < 0) := by linarith
    simp [countNegatives, this]
  · intro l h1 h2
    have : 1 - l < 0 := by linarith
    simp [countNegatives, this]
  · intro l x h1 h2 hx
    simp only [minCoeff, List.foldl_cons, List.foldl_nil, Option.some.injEq] at hx
    rw [hmin l h1] at hx
    rw [← hx, one_mul, abs_sub_comm]
    exact ⟨le_rfl, le_rfl⟩
  · simp only [minCoeff, List.foldl_cons, List.foldl_nil, Option.some.injEq]
    norm_num
  · rw [hl, hB, abs_of_pos (by norm_num)]
    norm_num
    linarith
  · rw [hB, abs_of_pos (by norm_num)]
    norm_num
  · rw [norm_one]
    norm_num
    linarith
  · have h3 := hb 10
    have h4 := (extendedBound_spec (D := forkD) (m := 3) (κ := 6) (E := 1 / 500) (by norm_num) (by norm_num) (by norm_num)
      (by unfold extendedConst fdStep; linarith) 10).1
    have h5 : 2 * 6 + 2 * ‖forkD‖ + ‖forkJ ((1 : ℝ) • (1 : ℂ))‖ ≤ 19 := by linarith
    have h6 := mul_le_mul_of_nonneg_right h5 h4
    norm_num at h3
    linarith

end RealDemo

end GsSA.ALM
