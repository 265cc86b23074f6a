import Verif.Dynamic.NonlinearSpec

/-!
# The iteration loops for arbitrary callbacks

One iteration, read off from a loop that returns.
-/

set_option linter.unusedSectionVars false

namespace GsSA.Dynamic

open GsSA GsSA.Static
open GsSA.ALM (Act Err)

variable {K V : Type} [Field K] [LinearOrder K] [IsStrictOrderedRing K] [AddCommGroup V] [Module K V]

theorem call_ok {α : Type} {c : Call K V} {f : ℕ → Reply α} {s q : DSt K V} {a : α}
    (h : call c f s = (q, .ok a)) :
    f s.log.length = .value a ∧ q = { s with log := (c, true) :: s.log } := by
  rcases hf : f s.log.length with b | _ | _ <;> simp [call, Act.bind_apply, hf] at h
  exact ⟨by rw [h.2], h.1.symm⟩

theorem refresh_inv {o : Opts K} {it : ℕ} {s q : DSt K V} {b : Bool} (h : refresh o it s = (q, .ok b)) :
    q = s ∧ (b = true ↔ o.quasi = false ∨ it = 0 ∨ (it : ℤ) % o.quasiIt = 0) := by
  unfold refresh at h
  by_cases hq : o.quasi = false
  · rw [if_pos hq] at h
    simp only [Act.pure_apply, Prod.mk.injEq, Except.ok.injEq] at h
    exact ⟨h.1.symm, by simp [hq, ← h.2]⟩
  · rw [if_neg hq] at h
    by_cases hi : it = 0
    · rw [if_pos hi] at h
      simp only [Act.pure_apply, Prod.mk.injEq, Except.ok.injEq] at h
      exact ⟨h.1.symm, by simp [hi, ← h.2]⟩
    · rw [if_neg hi] at h
      by_cases h0 : o.quasiIt = 0
      · rw [if_pos h0] at h; simp at h
      · rw [if_neg h0] at h
        simp only [Act.pure_apply, Prod.mk.injEq, Except.ok.injEq] at h
        exact ⟨h.1.symm, by simp [hq, hi, ← h.2]⟩

/-- The calls of `renew`. -/
def renewCalls (t : K) (b : Bool) (x : V) : List (Call K V × Bool) :=
  if b then [(.jacobian x t, true), (.damping x t, true)] else []

theorem renew_inv {e : Env K V} {t : K} {b : Bool} {C S C' S' : V →ₗ[K] V} {s q : DSt K V}
    (h : renew e t b C S s = (q, .ok (C', S'))) :
    q = { s with log := renewCalls t b s.u ++ s.log } ∧
      (b = true → ∃ n, e.damping n s.u t = .value C' ∧ e.jacobian (n + 1) s.u t = .value S') ∧
      (b = false → C' = C ∧ S' = S) := by
  cases b with
  | false =>
    simp only [renew, Bool.false_eq_true, if_false, Act.pure_apply, Prod.mk.injEq, Except.ok.injEq] at h
    exact ⟨by simp [renewCalls, ← h.1], by simp, fun _ => ⟨h.2.1.symm, h.2.2.symm⟩⟩
  | true =>
    simp only [renew, if_true] at h
    rw [Act.bind_ok (by rfl : Act.get s = (s, .ok s))] at h
    obtain ⟨s1, C1, h1, h⟩ := Act.bind_ok_inv h
    obtain ⟨s2, S1, h2, h⟩ := Act.bind_ok_inv h
    obtain ⟨h1', rfl⟩ := call_ok h1
    obtain ⟨h2', rfl⟩ := call_ok h2
    simp only [Act.pure_apply, Prod.mk.injEq, Except.ok.injEq] at h
    obtain ⟨rfl, rfl, rfl⟩ := h
    exact ⟨by simp [renewCalls], fun _ => ⟨_, h1', h2'⟩, by simp⟩

section

variable {e : Env K V} {o : Opts K} {t dt : K}

/-- One iteration of the Newmark loop. -/
theorem newmarkLoop_inv {M : V →ₗ[K] V} {res0 : K} {n it : ℕ} {C S : V →ₗ[K] V} {rhs : V} {s q : DSt K V}
    {r : Status} (h : newmarkLoop e o t dt M res0 (n + 1) it C S rhs s = (q, .ok r)) :
    ∃ b C' S' R, (b = true ↔ o.quasi = false ∨ it = 0 ∨ (it : ℤ) % o.quasiIt = 0) ∧
      (b = true → ∃ n, e.damping n s.u (t + dt) = .value C' ∧ e.jacobian (n + 1) s.u (t + dt) = .value S') ∧
      (b = false → C' = C ∧ S' = S) ∧
      let k := renewCalls (t + dt) b s.u ++ s.log
      let dA := e.solve k.length (M + (o.delta * dt) • C' + (dt * dt * o.alpha) • S') rhs
      let u := s.u + (o.alpha * dt * dt) • dA
      let v := s.v + (o.delta * dt) • dA
      let s' : DSt K V := { s with
        a := s.a + dA, v := v, u := u, log := (.residual u (t + dt), true) :: k }
      e.residual k.length u (t + dt) = .value R ∧
      if updNorm (e.norm dA) (e.norm (s.a + dA)) < o.tolU ∧
          e.norm (R - C' v - M (s.a + dA)) / res0 < o.tolF then q = s' ∧ r = .success
      else newmarkLoop e o t dt M res0 n (it + 1) C' S' (R - C' v - M (s.a + dA)) s' = (q, .ok r) := by
  simp only [newmarkLoop] at h
  obtain ⟨s1, b, h1, h'⟩ := Act.bind_ok_inv h
  clear h
  obtain ⟨rfl, hb⟩ := refresh_inv h1
  obtain ⟨s2, ⟨C', S'⟩, h2, h⟩ := Act.bind_ok_inv h'
  clear h'
  obtain ⟨rfl, hb1, hb2⟩ := renew_inv h2
  rw [Act.bind_ok (by rfl : linSolve e _ _ _ = _)] at h
  rw [Act.bind_ok (by rfl : Act.modify _ _ = _)] at h
  rw [Act.bind_ok (by rfl : Act.get _ = _)] at h
  obtain ⟨s3, R, h3, h⟩ := Act.bind_ok_inv h
  obtain ⟨h3', rfl⟩ := call_ok h3
  refine ⟨b, C', S', R, hb, hb1, hb2, h3', ?_⟩
  split at h
  · rename_i hc
    rw [if_pos hc]
    simp only [Act.pure_apply, Prod.mk.injEq, Except.ok.injEq] at h
    exact ⟨h.1.symm, h.2.symm⟩
  · rename_i hc
    rw [if_neg hc]
    exact h

/-- One iteration of the Bathe loop. -/
theorem batheLoop_inv {M : V →ₗ[K] V} {u0 v0 us vs : V} {res0 : K} {n it : ℕ} {C S : V →ₗ[K] V} {rhs : V}
    {s q : DSt K V} {r : Status}
    (h : batheLoop e o t dt M u0 v0 us vs res0 (n + 1) it C S rhs s = (q, .ok r)) :
    ∃ b C' S' R, (b = true ↔ o.quasi = false ∨ it = 0 ∨ (it : ℤ) % o.quasiIt = 0) ∧
      (b = true → ∃ n, e.damping n s.u (t + dt) = .value C' ∧ e.jacobian (n + 1) s.u (t + dt) = .value S') ∧
      (b = false → C' = C ∧ S' = S) ∧
      let k := renewCalls (t + dt) b s.u ++ s.log
      let dU := e.solve k.length (S' + (c3 o dt * c3 o dt) • M + c3 o dt • C') rhs
      let u := s.u + dU
      let s' : DSt K V := { s with u := u, log := (.residual u (t + dt), true) :: k }
      e.residual k.length u (t + dt) = .value R ∧
      if quotLt (e.norm dU) (e.norm u) o.tolU = true ∧
          e.norm (batheRhs o dt M C' u0 v0 us vs R u) / res0 < o.tolF then
        q = batheEnd o dt u0 v0 us vs s' ∧ r = .success
      else batheLoop e o t dt M u0 v0 us vs res0 n (it + 1) C' S' (batheRhs o dt M C' u0 v0 us vs R u) s' =
        (q, .ok r) := by
  simp only [batheLoop] at h
  obtain ⟨s1, b, h1, h'⟩ := Act.bind_ok_inv h
  clear h
  obtain ⟨rfl, hb⟩ := refresh_inv h1
  obtain ⟨s2, ⟨C', S'⟩, h2, h⟩ := Act.bind_ok_inv h'
  clear h'
  obtain ⟨rfl, hb1, hb2⟩ := renew_inv h2
  rw [Act.bind_ok (by rfl : linSolve e _ _ _ = _)] at h
  rw [Act.bind_ok (by rfl : Act.modify _ _ = _)] at h
  rw [Act.bind_ok (by rfl : Act.get _ = _)] at h
  obtain ⟨s3, R, h3, h⟩ := Act.bind_ok_inv h
  obtain ⟨h3', rfl⟩ := call_ok h3
  refine ⟨b, C', S', R, hb, hb1, hb2, h3', ?_⟩
  split at h
  · rename_i hc
    rw [if_pos hc]
    rw [Act.bind_ok (by rfl : Act.modify _ _ = _)] at h
    simp only [Act.pure_apply, Prod.mk.injEq, Except.ok.injEq] at h
    exact ⟨h.1.symm, h.2.symm⟩
  · rename_i hc
    rw [if_neg hc]
    exact h

/-- One iteration of the implicit Euler loop. -/
theorem implicitEulerLoop_inv {u0 v0 : V} {M : V →ₗ[K] V} {res0 : K} {n it : ℕ} {C S : V →ₗ[K] V} {R : V}
    {s q : DSt K V} {r : Status}
    (h : implicitEulerLoop e o t dt u0 v0 M res0 (n + 1) it C S R s = (q, .ok r)) :
    ∃ b C' S' R', (b = true ↔ o.quasi = false ∨ it = 0 ∨ (it : ℤ) % o.quasiIt = 0) ∧
      (b = true → ∃ n, e.damping n s.u (t + dt) = .value C' ∧ e.jacobian (n + 1) s.u (t + dt) = .value S') ∧
      (b = false → C' = C ∧ S' = S) ∧
      let k := renewCalls (t + dt) b s.u ++ s.log
      let r1 := s.u - u0 - dt • s.v
      let r2 := M (s.v - v0) + dt • C' s.v + dt • (-R)
      let d := e.gmres k.length LinearMap.id (-(dt • LinearMap.id)) (dt • S') (M + dt • C') (-r1) (-r2)
      let u := s.u + d.1
      let v := s.v + d.2
      let s' : DSt K V := { s with u := u, v := v, log := (.residual u t, true) :: k }
      e.residual k.length u t = .value R' ∧
      if updNorm (e.norm2 d.1 d.2) (e.norm2 u v) < o.tolU ∧ e.norm2 r1 r2 / res0 < o.tolF then
        q = s' ∧ r = .success
      else implicitEulerLoop e o t dt u0 v0 M res0 n (it + 1) C' S' R' s' = (q, .ok r) := by
  simp only [implicitEulerLoop] at h
  obtain ⟨s1, b, h1, h'⟩ := Act.bind_ok_inv h
  clear h
  obtain ⟨rfl, hb⟩ := refresh_inv h1
  obtain ⟨s2, ⟨C', S'⟩, h2, h⟩ := Act.bind_ok_inv h'
  clear h'
  obtain ⟨rfl, hb1, hb2⟩ := renew_inv h2
  rw [Act.bind_ok (by rfl : Act.get _ = _)] at h
  rw [Act.bind_ok (by rfl : gmresSolve e _ _ _ _ _ _ _ = _)] at h
  rw [Act.bind_ok (by rfl : setUV _ _ _ = _)] at h
  obtain ⟨s3, R', h3, h⟩ := Act.bind_ok_inv h
  obtain ⟨h3', rfl⟩ := call_ok h3
  refine ⟨b, C', S', R', hb, hb1, hb2, h3', ?_⟩
  split at h
  · rename_i hc
    rw [if_pos hc]
    simp only [Act.pure_apply, Prod.mk.injEq, Except.ok.injEq] at h
    exact ⟨h.1.symm, h.2.symm⟩
  · rename_i hc
    rw [if_neg hc]
    exact h

end

end GsSA.Dynamic
