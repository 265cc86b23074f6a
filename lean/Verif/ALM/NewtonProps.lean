import Verif.ALM.NewtonStep
import Mathlib.Algebra.Order.Archimedean.Basic

/-!
# Arc-length steps near a regular equilibrium (C134)
-/

namespace GsSA.ALM

open GsSA
open GsSA.Static.Newton (IsNorm)

set_option linter.unusedSectionVars false

variable {K V Mat Fac : Type} [Field K] [LinearOrder K] [IsStrictOrderedRing K] [AddCommGroup V]
variable [Module K V]
variable {e : Env K V Mat Fac} {o : Opts K} {M : Method K V Mat Fac}
variable {r : V → K → V} {J : V → V →ₗ[K] V} {c : V × K → K} {c' : V × K → V × K → K} {N N' : V × K → K}
variable {x₀ : V × K} {d b g : K} {P : St K V Mat Fac → Prop}

/-- The bound of the error after `k` iterations, if the predictor has error `E₀`. -/
def quadError (b g E₀ : K) (k : ℕ) : K := (b * g * E₀) ^ (2 ^ k - 1) * E₀

theorem quadError_zero (b g E₀ : K) : quadError b g E₀ 0 = E₀ := by simp [quadError]

theorem quadError_succ (b g E₀ : K) (k : ℕ) : quadError b g E₀ (k + 1) = b * g * quadError b g E₀ k ^ 2 := by
  have h1 : 2 ^ (k + 1) - 1 = 2 * (2 ^ k - 1) + 1 := by
    have := Nat.one_le_two_pow (n := k)
    rw [pow_succ]; omega
  rw [quadError, quadError, h1]
  ring

theorem quadError_bounds {E₀ : K} (hb : 0 ≤ b) (hg : 0 ≤ g) (h0 : 0 ≤ E₀) (hd : E₀ ≤ d) (hq : b * g * E₀ ≤ 1) :
    QuadBounds d b g (quadError b g E₀) where
  next k := (quadError_succ b g E₀ k).ge
  le _ := (mul_le_of_le_one_left h0 (pow_le_one₀ (mul_nonneg (mul_nonneg hb hg) h0) hq)).trans hd

/-- The bounds pass the tests at iteration `n`. -/
structure Small (e : Env K V Mat Fac) (o : Opts K) (s p : St K V Mat Fac) (b g E₀ l : K) (n : ℕ) : Prop where
  pos : 1 ≤ n
  lt : n < o.maxIt
  force : l * quadError b g E₀ n < o.tolF * e.geo.norm ((s.L + p.DL) • e.forcing)
  step : quadError b g E₀ (n - 1) + quadError b g E₀ n < o.tolU * e.geo.norm p.DU
  load : 0 < e.geo.norm ((s.L + p.DL) • e.forcing)
  moves : 0 < e.geo.norm p.DU

/-- What **C134** says on a step from `s` with predictor `p` and target `x₀`. -/
structure Converges (e : Env K V Mat Fac) (o : Opts K) (M : Method K V Mat Fac) (r : V → K → V) (N : V × K → K)
    (x₀ : V × K) (d b g : K) (s p : St K V Mat Fac) : Prop where
  ends : ∃ t st, step e o M s = (t, .ok st) ∧ (st = .success ∨ st = .notConverged)
  close : ∀ t, step e o M s = (t, .ok .success) → 1 ≤ t.numIt ∧ t.numIt < o.maxIt ∧
    N ((t.U - s.U, t.L - s.L) - x₀) ≤ quadError b g (N ((p.DU, p.DL) - x₀)) t.numIt
  kept : ∀ t, step e o M s = (t, .ok .notConverged) → t.U = s.U ∧ t.L = s.L
  success : ∀ l n, (∀ x : V × K, N (x - x₀) ≤ d → e.geo.norm (r (s.U + x.1) (s.L + x.2)) ≤ l * N (x - x₀)) →
    0 ≤ l → Small e o s p b g (N ((p.DU, p.DL) - x₀)) l n →
    ∃ t, step e o M s = (t, .ok .success) ∧ t.numIt ≤ n

/-- Any Newton method. -/
theorem converges_of_newtonian (hM : M.Lawful) (hN : Newtonian e o M J c c' P) (hq : o.quasi = false)
    (hmax : 2 ≤ o.maxIt) {s p : St K V Mat Fac} (hb : beginStep e M s = (p, .ok ())) (hi : s.initialized = true)
    (hP : P p) (h : Regular e r J c c' N N' s.U s.L x₀ d b g) (hg : 0 ≤ g) (hd : N ((p.DU, p.DL) - x₀) ≤ d)
    (hc : b * g * N ((p.DU, p.DL) - x₀) ≤ 1) : Converges e o M r N x₀ d b g s p := by
  have hE := quadError_bounds h.pos hg (h.norm.nonneg _) hd hc
  obtain ⟨b1, b2, b3, -⟩ := beginStep_spec hM hi hb
  obtain ⟨t, st, h1, h2, h3, h4, h5⟩ := (h.contracts hg hN hE).step hM hq hmax hb b3 b1.U b1.L hP
    (by rw [quadError_zero])
  refine ⟨⟨t, st, h1, h2⟩, fun u hu => ?_, fun u hu => ?_, fun l n hl hl0 hn => ?_⟩
  · rw [h1, Prod.mk.injEq, Except.ok.injEq] at hu
    obtain ⟨rfl, rfl⟩ := hu
    obtain ⟨k1, k2, k3, k4, k5, -⟩ := h3 rfl
    refine ⟨k4, k5, ?_⟩
    rw [k1, k2, add_sub_cancel_left, add_sub_cancel_left]
    exact k3
  · rw [h1, Prod.mk.injEq, Except.ok.injEq] at hu
    obtain ⟨rfl, rfl⟩ := hu
    exact h4 rfl
  · obtain ⟨rfl, k2⟩ := h5 l n hn.pos hn.lt ⟨fun t _ hxy => (hl (t.DU, t.DL) (hxy.trans (hE.le n))).trans
      (mul_le_mul_of_nonneg_left hxy hl0), hn.force, hn.step, hn.load, hn.moves⟩
    exact ⟨t, h1, k2⟩

/-- **C134**, load control. Whatever the predictor: if the increments it gives are close enough to a regular
solution of the equilibrium equations at the load asked for, the step ends with `Success` or `NotConverged`;
with `Success` the error has been squared in every iteration; and it is `Success` once the tests are passed
by the bounds. -/
theorem C134_loadControl (hq : o.quasi = false) (hmax : 2 ≤ o.maxIt) {s p : St K V Mat Fac}
    (hb : beginStep e (loadControl e) s = (p, .ok ())) (hi : s.initialized = true)
    (h : Regular e r J (lcConstraint p.DL) (fun _ y => y.2) N N' s.U s.L x₀ d b g) (hg : 0 ≤ g)
    (hd : N ((p.DU, p.DL) - x₀) ≤ d) (hc : b * g * N ((p.DU, p.DL) - x₀) ≤ 1) :
    Converges e o (loadControl e) r N x₀ d b g s p :=
  converges_of_newtonian (lawful_loadControl e) (newtonian_loadControl hq J p.DL p.guess) hq hmax hb hi ⟨rfl, rfl⟩
    h hg hd hc

/-- **C134**, Riks: the solution also has the length of the method. -/
theorem C134_riks (hgeo : e.geo.Laws) (hq : o.quasi = false) (hmax : 2 ≤ o.maxIt) {s p : St K V Mat Fac}
    (hb : beginStep e (riks e) s = (p, .ok ())) (hi : s.initialized = true)
    (h : Regular e r J (fun x => rkForm e p.phi x.1 x.2 - s.len ^ 2) (rkSlope e p.phi) N N' s.U s.L x₀ d b g)
    (hg : 0 ≤ g) (hd : N ((p.DU, p.DL) - x₀) ≤ d) (hc : b * g * N ((p.DU, p.DL) - x₀) ≤ 1) :
    Converges e o (riks e) r N x₀ d b g s p :=
  converges_of_newtonian (lawful_riks e) (newtonian_riks hq hgeo J p.phi s.len) hq hmax hb hi
    ⟨rfl, (beginStep_spec (lawful_riks e) hi hb).1.len⟩ h hg hd hc

/-- **C134**, consistent Crisfield. -/
theorem C134_consistent (hgeo : e.geo.Laws) (hq : o.quasi = false) (hmax : 2 ≤ o.maxIt) {s p : St K V Mat Fac}
    (hb : beginStep e (consistentCrisfield e o) s = (p, .ok ())) (hi : s.initialized = true)
    (h : Regular e r J (fun x => crForm e p.phi x.1 x.2 - s.len ^ 2) (ccSlope e p.phi) N N' s.U s.L x₀ d b g)
    (hg : 0 ≤ g) (hd : N ((p.DU, p.DL) - x₀) ≤ d) (hc : b * g * N ((p.DU, p.DL) - x₀) ≤ 1) :
    Converges e o (consistentCrisfield e o) r N x₀ d b g s p :=
  converges_of_newtonian (lawful_consistentCrisfield e o) (newtonian_consistent hq hgeo J p.phi s.len) hq hmax hb hi
    ⟨rfl, (beginStep_spec (lawful_consistentCrisfield e o) hi hb).1.len⟩ h hg hd hc

/-- Within enough iterations the tests are always passed. -/
theorem C134_enough [Archimedean K] {s p : St K V Mat Fac} {E₀ l : K} (h0 : 0 ≤ E₀) (hb : 0 ≤ b) (hg : 0 ≤ g)
    (hq : b * g * E₀ < 1) (hl : 0 ≤ l) (hF : 0 < o.tolF) (hU : 0 < o.tolU)
    (h1 : 0 < e.geo.norm ((s.L + p.DL) • e.forcing)) (h2 : 0 < e.geo.norm p.DU) :
    ∃ n, n < o.maxIt → Small e o s p b g E₀ l n := by
  set q := b * g * E₀ with hqd
  have hq0 : 0 ≤ q := mul_nonneg (mul_nonneg hb hg) h0
  set ε := min (o.tolF * e.geo.norm ((s.L + p.DL) • e.forcing) / (l + 1)) (o.tolU * e.geo.norm p.DU / 2) with hε
  have hε0 : 0 < ε := lt_min (div_pos (mul_pos hF h1) (by linarith)) (div_pos (mul_pos hU h2) two_pos)
  obtain ⟨n, hn⟩ := exists_pow_lt_of_lt_one (div_pos hε0 (show 0 < E₀ + 1 by linarith)) hq
  rw [lt_div_iff₀ (by linarith)] at hn
  have key : ∀ m, n ≤ 2 ^ m - 1 → quadError b g E₀ m < ε := fun m hm => by
    have k1 := pow_le_pow_of_le_one hq0 hq.le hm
    have k2 := mul_le_mul_of_nonneg_right k1 h0
    have k3 := pow_nonneg hq0 n
    rw [quadError]
    nlinarith
  have hpow : ∀ m, n ≤ m → n ≤ 2 ^ m - 1 := fun m hm => by
    have := Nat.lt_two_pow_self (n := m); omega
  refine ⟨n + 1, fun hlt => ⟨by omega, hlt, ?_, ?_, h1, h2⟩⟩
  · have k1 := key (n + 1) (hpow _ (by omega))
    have k2 : quadError b g E₀ (n + 1) < _ := k1.trans_le (min_le_left _ _)
    rw [lt_div_iff₀ (by linarith)] at k2
    have k3 : 0 ≤ quadError b g E₀ (n + 1) := mul_nonneg (pow_nonneg hq0 _) h0
    nlinarith
  · have k1 := (key (n + 1) (hpow _ (by omega))).trans_le (min_le_right _ _)
    have k2 := (key n (hpow _ le_rfl)).trans_le (min_le_right _ _)
    simp only [Nat.add_sub_cancel]
    linarith

end GsSA.ALM
