import Verif.ALM.LinearNewton
import Verif.ALM.RealDemo

/-!
# Examples for the steps on a linear structure (C115)

The problem of `RealDemo`: one degree of freedom, stiffness 1, load 1.
-/

namespace GsSA.ALM.RealDemo

open GsSA

theorem lin_linear : Linear lin LinearMap.id LinearMap.id 1 1 where
  residual n U L := by simp [lin_residual, lin_forcing]
  jacobian _ _ _ := rfl
  factorize n := by simp [lin_factorize]
  solve n b := by simp [lin_solve]
  inverse b := rfl

theorem lin_forcing_ne : lin.geo.dot lin.forcing lin.forcing ≠ 0 := by
  norm_num [lin_dot, lin_forcing]

/-- `C115_loadControl`. -/
example : ∃ t, step lin linOpts (loadControl lin) linStart = (t, .ok .success) ∧ t.U = 5/3 ∧ t.L = 5/3 := by
  obtain ⟨t, h1, h2, h3, -⟩ := C115_loadControl (o := linOpts) (s := linStart) lin_linear lin_laws rfl rfl
    (by simp [linStart]) lin_forcing_ne lin_forcing_ne (by norm_num [linStart]) (by norm_num [linStart])
    (by norm_num [linOpts]) (by norm_num [linOpts]) (by simp [linOpts])
  refine ⟨t, h1, ?_, ?_⟩
  · rw [h2]; norm_num [linStart, lin_forcing]
  · rw [h3]; norm_num [linStart]

/-- `C115_violated_zeroLoad`: from the equilibrium at load -5/3 with length 5/3. -/
example : (step lin linOpts (loadControl lin) { linStart with U := -5/3, L := -5/3 }).2 ≠ .ok .success := by
  obtain ⟨p, hb, hp⟩ := starts_loadControl (s0 := { linStart with U := -5/3, L := -5/3 }) lin_linear rfl rfl
  obtain ⟨t, st, h, -⟩ := C31_total (e := lin) (o := linOpts) (.loadControl)
    { linStart with U := -5/3, L := -5/3 }
  have := C115_violated_zeroLoad .loadControl lin_laws hb (by rw [hp.DL]; norm_num [linStart])
    (by simp [linOpts]) h
  rw [h]
  simpa using this

/-- `C115_crisfield`: backwards from load 0. -/
example : ∃ t τ, step lin linOpts (crisfield lin linOpts) { linStart with DUold := -1, DLold := -1 } =
    (t, .ok .success) ∧ t.U = τ ∧ t.L = τ ∧ τ < 0 ∧ crDistance lin t t.U t.L = 5/3 := by
  obtain ⟨t, τ, h1, h2, h3, h4, h5, -⟩ := C115_crisfield (o := linOpts)
    (s := { linStart with DUold := -1, DLold := -1 }) (σ := -1) lin_linear lin_laws (.inr rfl)
    (.inr ⟨-1, by simp [lin_forcing], rfl, by norm_num⟩) (by simp [linStart]) rfl rfl
    (by simp [linStart]) lin_forcing_ne lin_forcing_ne (by norm_num [linStart]) rfl
    (by norm_num [linOpts]) (by norm_num [linOpts]) (by simp [linOpts])
  refine ⟨t, τ, h1, by rw [h2]; simp [linStart, lin_forcing], by rw [h3]; simp [linStart], by linarith, ?_⟩
  simpa [linStart] using h5

/-- `C115_crisfield_path`: any number of steps. -/
example (n : ℕ) : (step lin linOpts (crisfield lin linOpts)
    ((fun s => (step lin linOpts (crisfield lin linOpts) s).1)^[n]
      { linStart with DUold := 0, DLold := 0 })).2 = .ok .success :=
  (C115_crisfield_path (o := linOpts) (s := { linStart with DUold := 0, DLold := 0 }) lin_linear lin_laws
    ⟨rfl, rfl⟩ (by simp [linStart]) rfl rfl (by simp [linStart]) lin_forcing_ne lin_forcing_ne
    (by norm_num [linStart]) rfl (by norm_num [linOpts]) (by norm_num [linOpts]) (by simp [linOpts]) n).1

/-- `C115_riks`: the first step. -/
example : ∃ N, ∀ m, N ≤ m → ∃ t, step lin { linOpts with maxIt := m } (riks lin) linStart = (t, .ok .success) ∧
    0 < t.L ∧ t.U = t.L ∧ 5/3 ≤ rkDistance lin t t.U t.L := by
  obtain ⟨N, hN⟩ := C115_riks (s := linStart) (σ := 1) (tolF := 1/1000) (tolU := 1/1000) lin_linear lin_laws
    (.inl rfl) (arriving_forward lin_laws le_rfl (by simp [linStart]) (by simp [linStart]))
    (by simp [linStart]) rfl rfl (by simp [linStart]) lin_forcing_ne lin_forcing_ne (by norm_num [linStart])
    (by norm_num [linStart]) (by norm_num) (by norm_num)
  refine ⟨N, fun m hm => ?_⟩
  obtain ⟨t, τ, x, h1, h2, h3, h4, -, -, h6, -⟩ := hN { linOpts with maxIt := m } rfl rfl hm
  refine ⟨t, h1, by rw [h3]; simpa [linStart] using h4, by rw [h2, h3]; simp [linStart, lin_forcing], ?_⟩
  simpa [linStart] using h6

/-- `C115_consistent`: a step backwards, the previous point being at load 1. -/
example : ∃ N, ∀ m, N ≤ m → ∃ t, step lin { linOpts with maxIt := m }
    (consistentCrisfield lin { linOpts with maxIt := m }) { linStart with Uprev := 1, Lprev := 1 } = (t, .ok .success) ∧
    t.L < 0 ∧ 5/3 ≤ crDistance lin t t.U t.L := by
  obtain ⟨N, hN⟩ := C115_consistent (o := linOpts) (s := { linStart with Uprev := 1, Lprev := 1 }) (σ := -1)
    lin_linear lin_laws (.inr rfl)
    ⟨-1, by simp [linStart, lin_forcing], by simp [linStart],
      by intro h; norm_num [nearby, lin_norm, linStart] at h, by norm_num⟩
    (by simp [linStart]) rfl rfl (by simp [linStart]) lin_forcing_ne lin_forcing_ne (by norm_num [linStart])
    (by norm_num [linStart]) (by norm_num [linOpts]) (by norm_num [linOpts])
  refine ⟨N, fun m hm => ?_⟩
  obtain ⟨t, τ, x, h1, h2, h3, h4, -, -, h6, -⟩ := hN m hm
  refine ⟨t, h1, by rw [h3]; simp only [linStart]; linarith, ?_⟩
  simpa [linStart] using h6

end GsSA.ALM.RealDemo
