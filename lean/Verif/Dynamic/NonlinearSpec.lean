import Verif.Dynamic.LinearProps

/-!
# The nonlinear steps on linear problems

Lemmas on the iteration loops when the residual is `F - S U` and the solvers are exact.
-/

set_option linter.unusedSectionVars false

namespace GsSA.Dynamic

open GsSA GsSA.Static
open GsSA.ALM (Act Err)

variable {K V : Type} [Field K] [LinearOrder K] [IsStrictOrderedRing K] [AddCommGroup V] [Module K V]

theorem refresh_zero (o : Opts K) (s : DSt K V) : refresh o 0 s = (s, .ok true) := by
  unfold refresh
  split <;> simp

theorem refresh_ok {o : Opts K} (h : ¬ o.zeroInterval) (it : ℕ) (s : DSt K V) :
    ∃ b, refresh o it s = (s, .ok b) := by
  unfold refresh
  by_cases hq : o.quasi = false
  · exact ⟨true, by simp [hq]⟩
  · rw [if_neg hq]
    by_cases hi : it = 0
    · exact ⟨true, by simp [hi]⟩
    · rw [if_neg hi]
      by_cases h0 : o.quasiIt = 0
      · exact absurd ⟨by simpa using hq, h0⟩ h
      · exact ⟨_, by rw [if_neg h0]; rfl⟩

theorem renew_linear {e : Env K V} {M C S : V →ₗ[K] V} (hl : Linear e M C S) (t : K) (b : Bool)
    (C' S' : V →ₗ[K] V) (s : DSt K V) (h : b = true ∨ C' = C ∧ S' = S) :
    ∃ lg, renew e t b C' S' s = ({ s with log := lg }, .ok (C, S)) := by
  cases b with
  | false =>
    obtain ⟨rfl, rfl⟩ : C' = C ∧ S' = S := by simpa using h
    exact ⟨s.log, by simp [renew]⟩
  | true =>
    refine ⟨(.jacobian s.u t, true) :: (.damping s.u t, true) :: s.log, ?_⟩
    simp [renew, computeDamping, computeJacobian, call, Act.bind_apply, hl.damping, hl.jacobian]

section

variable {e : Env K V} {o : Opts K} {M C S : V →ₗ[K] V} {F : K → V} {t dt : K}

/-- One iteration of Newmark on a linear problem. -/
theorem newmarkLoop_step (hl : Linear e M C S) (hf : Residual e S F) (hz : ¬ o.zeroInterval) (res0 : K)
    (n it : ℕ) (C' S' : V →ₗ[K] V) (h : it = 0 ∨ C' = C ∧ S' = S) (rhs : V) (s : DSt K V) :
    ∃ (k : ℕ) (lg : List (Call K V × Bool)),
      let dA := e.solve k (M + (o.delta * dt) • C + (dt * dt * o.alpha) • S) rhs
      let s' : DSt K V := { s with
        a := s.a + dA, v := s.v + (o.delta * dt) • dA, u := s.u + (o.alpha * dt * dt) • dA, log := lg }
      let rhs' := F (t + dt) - S s'.u - C s'.v - M s'.a
      newmarkLoop e o t dt M res0 (n + 1) it C' S' rhs s =
        if updNorm (e.norm dA) (e.norm s'.a) < o.tolU ∧
          e.norm rhs' / res0 < o.tolF then (s', .ok .success)
        else newmarkLoop e o t dt M res0 n (it + 1) C S rhs' s' := by
  have hb : ∃ b, refresh o it s = (s, .ok b) ∧ (b = true ∨ C' = C ∧ S' = S) := by
    rcases h with rfl | h
    · exact ⟨true, refresh_zero o s, Or.inl rfl⟩
    · obtain ⟨b, hb⟩ := refresh_ok hz it s
      exact ⟨b, hb, Or.inr h⟩
  obtain ⟨b, hb1, hb2⟩ := hb
  obtain ⟨lg, hr⟩ := renew_linear hl (t + dt) b C' S' s hb2
  refine ⟨lg.length, (.residual (s.u + (o.alpha * dt * dt) •
    e.solve lg.length (M + (o.delta * dt) • C + (dt * dt * o.alpha) • S) rhs) (t + dt), true) :: lg, ?_⟩
  simp only [newmarkLoop]
  rw [Act.bind_ok hb1, Act.bind_ok hr]
  simp only [linSolve, computeResidual, call, Act.bind_apply, Act.get_apply, Act.modify_apply,
    Act.pure_apply, hf _ _ _]
  split <;> rfl

/-- Once in equilibrium, the iteration stays there. -/
theorem newmarkLoop_fix (hl : Linear e M C S) (hf : Residual e S F) (hz : ¬ o.zeroInterval) (res0 : K)
    (hs : Solves e (M + (o.delta * dt) • C + (dt * dt * o.alpha) • S))
    (hi : ∀ x, (M + (o.delta * dt) • C + (dt * dt * o.alpha) • S) x = 0 → x = 0)
    (n : ℕ) : ∀ (it : ℕ) (s : DSt K V), F (t + dt) - S s.u - C s.v - M s.a = 0 →
      ∃ lg r, newmarkLoop e o t dt M res0 n it C S 0 s = ({ s with log := lg }, .ok r) ∧
        (0 < n → 0 < o.tolU → 0 < o.tolF → e.norm 0 = 0 → r = .success) := by
  induction n with
  | zero => exact fun it s _ => ⟨s.log, .notConverged, rfl, fun h => absurd h (by simp)⟩
  | succ n ih =>
    intro it s h0
    obtain ⟨k, lg, h1⟩ := newmarkLoop_step (dt := dt) (t := t) hl hf hz res0 n it C S (Or.inr ⟨rfl, rfl⟩) 0 s
    have hd : e.solve k (M + (o.delta * dt) • C + (dt * dt * o.alpha) • S) 0 = 0 := hi _ (hs k 0)
    simp only [hd, smul_zero, add_zero, h0] at h1
    rw [h1]
    split
    · exact ⟨lg, .success, rfl, fun _ _ _ _ => rfl⟩
    · rename_i hn
      obtain ⟨lg', r, h2, -⟩ := ih (it + 1) { s with log := lg } h0
      refine ⟨lg', r, h2, fun _ hU hF hN => absurd ?_ hn⟩
      simp only [hN, zero_div]
      exact ⟨by simpa [updNorm] using hU, hF⟩

/-- The nonlinear Newmark step on a linear problem. -/
theorem newmarkN_linear (hl : Linear e M C S) (hf : Residual e S F) (hz : ¬ o.zeroInterval)
    (hs : Solves e (M + (o.delta * dt) • C + (dt * dt * o.alpha) • S))
    (hi : ∀ x, (M + (o.delta * dt) • C + (dt * dt * o.alpha) • S) x = 0 → x = 0)
    (hm : 1 ≤ o.maxIter) (s : DSt K V) :
    ∃ a lg r, (M + (o.delta * dt) • C + (dt * dt * o.alpha) • S) a =
        F (t + dt) - S (s.u + dt • s.v + ((1 / 2 - o.alpha) * dt * dt) • s.a)
          - C (s.v + ((1 - o.delta) * dt) • s.a) ∧
      newmarkN e o t dt s = ({ s with
        u := (newmarkNext o dt s a).1, v := (newmarkNext o dt s a).2, a := a, log := lg }, .ok r) ∧
      (2 ≤ o.maxIter → 0 < o.tolU → 0 < o.tolF → e.norm 0 = 0 → r = .success) := by
  obtain ⟨n, hn⟩ : ∃ n, o.maxIter.toNat = n + 1 := ⟨o.maxIter.toNat - 1, by omega⟩
  let u := s.u + dt • s.v + ((1 / 2 - o.alpha) * dt * dt) • s.a
  let v := s.v + ((1 - o.delta) * dt) • s.a
  let rhs := F (t + dt) - S u - C v
  have e0 : newmarkN e o t dt s = newmarkLoop e o t dt M (nz (e.norm rhs)) (n + 1) 0 C 0 rhs
      { s with u := u, v := v, a := 0, log := (.residual u (t + dt), true) ::
        (.damping u (t + dt), true) :: (.mass (t + dt), true) :: s.log } := by
    simp only [newmarkN, setUVA, computeMass, computeDamping, computeResidual, call, Act.bind_apply,
      Act.get_apply, Act.modify_apply, Act.pure_apply, hl.mass, hl.damping, hf _ _ _, hn, smul_zero, add_zero,
      map_zero, sub_zero]
    rfl
  obtain ⟨k, lg, h1⟩ := newmarkLoop_step (dt := dt) (t := t) hl hf hz (nz (e.norm rhs)) n 0 C 0 (Or.inl rfl)
    rhs { s with u := u, v := v, a := 0, log := (.residual u (t + dt), true) ::
        (.damping u (t + dt), true) :: (.mass (t + dt), true) :: s.log }
  have ha := hs k rhs
  generalize e.solve k (M + (o.delta * dt) • C + (dt * dt * o.alpha) • S) rhs = a at h1 ha
  refine ⟨a, ?_⟩
  have hq : F (t + dt) - S (u + (o.alpha * dt * dt) • a) - C (v + (o.delta * dt) • a) - M a = 0 := by
    have := newmark_equilibrium (o := o) (dt := dt) (s := s) (f := F (t + dt)) ha
    simp only [newmarkNext] at this
    rw [← this]
    abel
  simp only [zero_add, hq] at h1
  rw [e0, h1]
  split
  · exact ⟨lg, .success, ha, rfl, fun _ _ _ _ => rfl⟩
  · obtain ⟨lg', r, h2, h3⟩ := newmarkLoop_fix hl hf hz (nz (e.norm rhs)) hs hi n 1
      { s with a := a, v := v + (o.delta * dt) • a, u := u + (o.alpha * dt * dt) • a, log := lg } hq
    exact ⟨lg', r, ha, h2, fun h4 h5 h6 h7 => h3 (by omega) h5 h6 h7⟩

/-! ## Bathe -/

/-- The last lines of a Bathe step. -/
def batheEnd (o : Opts K) (dt : K) (u0 v0 us vs : V) (s : DSt K V) : DSt K V :=
  let v := c1 o dt • u0 + c2 o dt • us + c3 o dt • s.u
  { s with v := v, a := c1 o dt • v0 + c2 o dt • vs + c3 o dt • v }

/-- The right hand side of the linear Bathe step. -/
def batheB (o : Opts K) (dt : K) (M C : V →ₗ[K] V) (f u0 v0 us vs : V) : V :=
  f - M (c1 o dt • v0 + c2 o dt • vs + (c1 o dt * c3 o dt) • u0 + (c3 o dt * c2 o dt) • us)
    - C (c2 o dt • us + c1 o dt • u0)

theorem batheRhs_eq (f u0 v0 us vs u : V) :
    batheRhs o dt M C u0 v0 us vs (f - S u) u =
      batheB o dt M C f u0 v0 us vs - (S + (c3 o dt * c3 o dt) • M + c3 o dt • C) u := by
  simp only [batheRhs, batheB, LinearMap.add_apply, LinearMap.smul_apply, map_add, map_smul]
  module

/-- One iteration of Bathe on a linear problem. -/
theorem batheLoop_step (hl : Linear e M C S) (hf : Residual e S F) (hz : ¬ o.zeroInterval)
    (u0 v0 us vs : V) (res0 : K)
    (n it : ℕ) (C' S' : V →ₗ[K] V) (h : it = 0 ∨ C' = C ∧ S' = S) (rhs : V) (s : DSt K V) :
    ∃ (k : ℕ) (lg : List (Call K V × Bool)),
      let dU := e.solve k (S + (c3 o dt * c3 o dt) • M + c3 o dt • C) rhs
      let s' : DSt K V := { s with u := s.u + dU, log := lg }
      let rhs' := batheB o dt M C (F (t + dt)) u0 v0 us vs -
        (S + (c3 o dt * c3 o dt) • M + c3 o dt • C) s'.u
      batheLoop e o t dt M u0 v0 us vs res0 (n + 1) it C' S' rhs s =
        if quotLt (e.norm dU) (e.norm s'.u) o.tolU = true ∧ e.norm rhs' / res0 < o.tolF then
          (batheEnd o dt u0 v0 us vs s', .ok .success)
        else batheLoop e o t dt M u0 v0 us vs res0 n (it + 1) C S rhs' s' := by
  have hb : ∃ b, refresh o it s = (s, .ok b) ∧ (b = true ∨ C' = C ∧ S' = S) := by
    rcases h with rfl | h
    · exact ⟨true, refresh_zero o s, Or.inl rfl⟩
    · obtain ⟨b, hb⟩ := refresh_ok hz it s
      exact ⟨b, hb, Or.inr h⟩
  obtain ⟨b, hb1, hb2⟩ := hb
  obtain ⟨lg, hr⟩ := renew_linear hl (t + dt) b C' S' s hb2
  refine ⟨lg.length, (.residual (s.u +
    e.solve lg.length (S + (c3 o dt * c3 o dt) • M + c3 o dt • C) rhs) (t + dt), true) :: lg, ?_⟩
  simp only [batheLoop]
  rw [Act.bind_ok hb1, Act.bind_ok hr]
  simp only [linSolve, computeResidual, call, Act.bind_apply, Act.get_apply, Act.modify_apply,
    Act.pure_apply, hf _ _ _, batheRhs_eq]
  split <;> rfl

theorem batheLoop_fix (hl : Linear e M C S) (hf : Residual e S F) (hz : ¬ o.zeroInterval)
    (u0 v0 us vs : V) (res0 : K)
    (hs : Solves e (S + (c3 o dt * c3 o dt) • M + c3 o dt • C))
    (hi : ∀ x, (S + (c3 o dt * c3 o dt) • M + c3 o dt • C) x = 0 → x = 0)
    (n : ℕ) : ∀ (it : ℕ) (s : DSt K V),
      (S + (c3 o dt * c3 o dt) • M + c3 o dt • C) s.u = batheB o dt M C (F (t + dt)) u0 v0 us vs →
      ∃ lg r, batheLoop e o t dt M u0 v0 us vs res0 n it C S 0 s =
          (batheEnd o dt u0 v0 us vs { s with log := lg }, .ok r) ∧
        (0 < n → 0 < o.tolU → 0 < o.tolF → e.norm 0 = 0 → e.norm s.u ≠ 0 → r = .success) ∧
        (e.norm 0 = 0 → e.norm s.u = 0 → r = .notConverged) := by
  induction n with
  | zero =>
    exact fun it s _ => ⟨s.log, .notConverged, rfl, fun h => absurd h (by simp), fun _ _ => rfl⟩
  | succ n ih =>
    intro it s h0
    obtain ⟨k, lg, h1⟩ := batheLoop_step (dt := dt) (t := t) hl hf hz u0 v0 us vs res0 n it C S
      (Or.inr ⟨rfl, rfl⟩) 0 s
    have hd : e.solve k (S + (c3 o dt * c3 o dt) • M + c3 o dt • C) 0 = 0 := hi _ (hs k 0)
    simp only [hd, add_zero, h0, sub_self] at h1
    rw [h1]
    split
    · rename_i hn
      refine ⟨lg, .success, rfl, fun _ _ _ _ _ => rfl, fun hN hu => ?_⟩
      simp [quotLt, hu, hN] at hn
    · rename_i hn
      obtain ⟨lg', r, h2, -, h3⟩ := ih (it + 1) { s with log := lg } h0
      refine ⟨lg', r, h2, fun _ hU hF hN hu => absurd ?_ hn, h3⟩
      simp only [hN, zero_div, quotLt, hu, if_false, decide_eq_true_eq]
      exact ⟨hU, hF⟩

/-- The nonlinear Bathe step on a linear problem. The displacement either solves the linear system, or
the iteration ended after its first pass; then the right hand side is wrong by the stiffness times the
displacement of the first stage, because the residual was taken at the old displacement. -/
theorem batheN_linear (hl : Linear e M C S) (hf : Residual e S F) (hz : ¬ o.zeroInterval)
    (hs1 : Solves e (M + (o.delta * (o.gamma * dt)) • C + ((o.gamma * dt) * (o.gamma * dt) * o.alpha) • S))
    (hi1 : ∀ x, (M + (o.delta * (o.gamma * dt)) • C + ((o.gamma * dt) * (o.gamma * dt) * o.alpha) • S) x = 0
      → x = 0)
    (hs : Solves e (S + (c3 o dt * c3 o dt) • M + c3 o dt • C))
    (hi : ∀ x, (S + (c3 o dt * c3 o dt) • M + c3 o dt • C) x = 0 → x = 0)
    (hm : 1 ≤ o.maxIter) (s : DSt K V) :
    ∃ as u lg r,
      (M + (o.delta * (o.gamma * dt)) • C + ((o.gamma * dt) * (o.gamma * dt) * o.alpha) • S) as =
        F (t + o.gamma * dt) - S (s.u + (o.gamma * dt) • s.v +
          ((1 / 2 - o.alpha) * (o.gamma * dt) * (o.gamma * dt)) • s.a)
          - C (s.v + ((1 - o.delta) * (o.gamma * dt)) • s.a) ∧
      let x := newmarkNext o (o.gamma * dt) s as
      batheN e o t dt s = (batheEnd o dt s.u s.v x.1 x.2 { s with u := u, log := lg }, .ok r) ∧
      (((S + (c3 o dt * c3 o dt) • M + c3 o dt • C) u =
          batheB o dt M C (F (t + dt)) s.u s.v x.1 x.2 ∧
          (3 ≤ o.maxIter → 0 < o.tolU → 0 < o.tolF → e.norm 0 = 0 → e.norm u ≠ 0 → r = .success)) ∨
        ((S + (c3 o dt * c3 o dt) • M + c3 o dt • C) u =
          batheB o dt M C (F (t + dt)) s.u s.v x.1 x.2 + S (x.1 - s.u) ∧
          ((o.maxIter = 1 ∧ r = .notConverged) ∨ (r = .success ∧ ∃ f, e.norm (S (s.u - x.1)) /
            nz (e.norm f) < o.tolF)))) := by
  obtain ⟨as, lg1, r1, has, h1, -⟩ := newmarkN_linear (t := t) (dt := o.gamma * dt) hl hf hz hs1 hi1 hm s
  refine ⟨as, ?_⟩
  obtain ⟨n, hn⟩ : ∃ n, o.maxIter.toNat = n + 1 := ⟨o.maxIter.toNat - 1, by omega⟩
  generalize hx : newmarkNext o (o.gamma * dt) s as = x at h1
  let L : V →ₗ[K] V := S + (c3 o dt * c3 o dt) • M + c3 o dt • C
  let b := batheB o dt M C (F (t + dt)) s.u s.v x.1 x.2
  let rhs := batheRhs o dt M C s.u s.v x.1 x.2 (F (t + dt) - S s.u) x.1
  have hrhs : rhs = b - L x.1 + S (x.1 - s.u) := by
    show batheRhs o dt M C s.u s.v x.1 x.2 (F (t + dt) - S s.u) x.1 = _
    have : F (t + dt) - S s.u = (F (t + dt) + S (x.1 - s.u)) - S x.1 := by
      rw [map_sub]; abel
    rw [this, batheRhs_eq]
    simp only [b, L, batheB]
    abel
  obtain ⟨lg2, e0⟩ : ∃ lg2, batheN e o t dt s =
      batheLoop e o t dt M s.u s.v x.1 x.2 (nz (e.norm rhs)) (n + 1) 0 C 0 rhs
        { s with u := x.1, v := x.2, a := as, log := lg2 } := by
    refine ⟨(.residual s.u (t + dt), true) :: (.damping s.u (t + dt), true) :: (.mass (t + dt), true) ::
      lg1, ?_⟩
    simp only [batheN, setUVA, computeMass, computeDamping, computeResidual, call, Act.bind_apply,
      Act.get_apply, Act.modify_apply, Act.pure_apply, hl.mass, hl.damping, hf _ _ _, hn, newmark, onCopy,
      if_true, h1]
    rfl
  obtain ⟨k, lg, h2⟩ := batheLoop_step (dt := dt) (t := t) hl hf hz s.u s.v x.1 x.2 (nz (e.norm rhs)) n 0 C 0
    (Or.inl rfl) rhs { s with u := x.1, v := x.2, a := as, log := lg2 }
  have hU1 : L (x.1 + e.solve k L rhs) = b + S (x.1 - s.u) := by
    rw [map_add, show L (e.solve k L rhs) = rhs from hs k rhs, hrhs]
    abel
  have hr1 : b - L (x.1 + e.solve k L rhs) = S (s.u - x.1) := by
    rw [hU1, map_sub, map_sub]; abel
  change batheLoop e o t dt M s.u s.v x.1 x.2 (nz (e.norm rhs)) (n + 1) 0 C 0 rhs
        { s with u := x.1, v := x.2, a := as, log := lg2 } =
      if quotLt (e.norm (e.solve k L rhs)) (e.norm (x.1 + e.solve k L rhs)) o.tolU = true ∧
        e.norm (b - L (x.1 + e.solve k L rhs)) / nz (e.norm rhs) < o.tolF then
        (batheEnd o dt s.u s.v x.1 x.2
          { s with u := x.1 + e.solve k L rhs, v := x.2, a := as, log := lg }, .ok .success)
      else batheLoop e o t dt M s.u s.v x.1 x.2 (nz (e.norm rhs)) n (0 + 1) C S
        (b - L (x.1 + e.solve k L rhs))
        { s with u := x.1 + e.solve k L rhs, v := x.2, a := as, log := lg } at h2
  generalize x.1 + e.solve k L rhs = u1 at h2 hU1 hr1
  rw [e0, h2]
  by_cases hc : quotLt (e.norm (e.solve k L rhs)) (e.norm u1) o.tolU = true ∧
        e.norm (b - L u1) / nz (e.norm rhs) < o.tolF
  · rw [if_pos hc]
    refine ⟨u1, lg, .success, has, rfl, Or.inr ⟨hU1, Or.inr ⟨rfl, rhs, ?_⟩⟩⟩
    rw [← hr1]
    exact hc.2
  · rw [if_neg hc]
    cases n with
    | zero =>
      refine ⟨u1, lg, .notConverged, has, rfl, Or.inr ⟨hU1, Or.inl ⟨by omega, rfl⟩⟩⟩
    | succ n =>
      obtain ⟨k', lg', h3⟩ := batheLoop_step (dt := dt) (t := t) hl hf hz s.u s.v x.1 x.2 (nz (e.norm rhs)) n
        (0 + 1) C S (Or.inr ⟨rfl, rfl⟩) (b - L u1) { s with u := u1, v := x.2, a := as, log := lg }
      have hU2 : L (u1 + e.solve k' L (b - L u1)) = b := by
        rw [map_add, show L (e.solve k' L (b - L u1)) = b - L u1 from hs _ _]
        abel
      change batheLoop e o t dt M s.u s.v x.1 x.2 (nz (e.norm rhs)) (n + 1) (0 + 1) C S (b - L u1)
            { s with u := u1, v := x.2, a := as, log := lg } =
          if quotLt (e.norm (e.solve k' L (b - L u1))) (e.norm (u1 + e.solve k' L (b - L u1))) o.tolU = true ∧
            e.norm (b - L (u1 + e.solve k' L (b - L u1))) / nz (e.norm rhs) < o.tolF then
            (batheEnd o dt s.u s.v x.1 x.2
              { s with u := u1 + e.solve k' L (b - L u1), v := x.2, a := as, log := lg' }, .ok .success)
          else batheLoop e o t dt M s.u s.v x.1 x.2 (nz (e.norm rhs)) n (0 + 1 + 1) C S
            (b - L (u1 + e.solve k' L (b - L u1)))
            { s with u := u1 + e.solve k' L (b - L u1), v := x.2, a := as, log := lg' } at h3
      generalize u1 + e.solve k' L (b - L u1) = u2 at h3 hU2
      rw [h3]
      split
      · exact ⟨u2, lg', .success, has, rfl, Or.inl ⟨hU2, fun _ _ _ _ _ => rfl⟩⟩
      · rw [hU2, sub_self]
        obtain ⟨lg3, r, h4, h5, -⟩ := batheLoop_fix hl hf hz s.u s.v x.1 x.2 (nz (e.norm rhs)) hs hi n
          (0 + 1 + 1) { s with u := u2, v := x.2, a := as, log := lg' } hU2
        exact ⟨u2, lg3, r, has, h4, Or.inl ⟨hU2, fun h6 h7 h8 h9 h10 => h5 (by omega) h7 h8 h9 h10⟩⟩

end

end GsSA.Dynamic
