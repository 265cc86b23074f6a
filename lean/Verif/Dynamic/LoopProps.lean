import Mathlib.Data.List.Range
import Verif.Dynamic.LoopSpec

/-!
# Properties of the nonlinear steps for arbitrary callbacks: C90, C91, C64
-/

set_option linter.unusedSectionVars false

namespace GsSA.Dynamic

open GsSA GsSA.Static
open GsSA.ALM (Act Err)

variable {K V : Type} [Field K] [LinearOrder K] [IsStrictOrderedRing K] [AddCommGroup V] [Module K V]

variable {e : Env K V} {o : Opts K} {t dt : K}

/-- A step without callback that returns. -/
theorem step_inv {f : K → K → Act (DSt K V) Status} {s q : DSt K V} {r : Status}
    (h : step none f dt s = (q, .ok r)) :
    ∃ q', f s.time dt s = (q', .ok r) ∧ q = { q' with time := q'.time + dt, status := r } := by
  simp only [step] at h
  rw [Act.bind_ok (by rfl : Act.get s = (s, .ok s))] at h
  simp only [accepts, if_true] at h
  obtain ⟨q', r', h1, h⟩ := Act.bind_ok_inv h
  rw [Act.bind_ok (by rfl : Act.modify _ _ = _)] at h
  simp only [Act.pure_apply, Prod.mk.injEq, Except.ok.injEq] at h
  obtain ⟨rfl, rfl⟩ := h
  exact ⟨q', h1, rfl⟩

/-! ## C90 -/

theorem newmarkLoop_relations {M : V →ₗ[K] V} {res0 : K} {n : ℕ} :
    ∀ {it : ℕ} {C S : V →ₗ[K] V} {rhs x y : V} {s q : DSt K V} {r : Status},
      newmarkLoop e o t dt M res0 n it C S rhs s = (q, .ok r) →
      s.u = x + (o.alpha * dt * dt) • s.a → s.v = y + (o.delta * dt) • s.a →
      q.u = x + (o.alpha * dt * dt) • q.a ∧ q.v = y + (o.delta * dt) • q.a := by
  induction n with
  | zero =>
    intro it C S rhs x y s q r h hu hv
    simp only [newmarkLoop, Act.pure_apply, Prod.mk.injEq] at h
    rw [← h.1]
    exact ⟨hu, hv⟩
  | succ n ih =>
    intro it C S rhs x y s q r h hu hv
    obtain ⟨b, C', S', R, -, -, -, -, h⟩ := newmarkLoop_inv h
    split at h
    · obtain ⟨rfl, -⟩ := h
      exact ⟨by simp only [hu, smul_add]; abel, by simp only [hv, smul_add]; abel⟩
    · exact ih h (by simp only [hu, smul_add]; abel) (by simp only [hv, smul_add]; abel)

theorem newmark_relations {nl : Bool} {s q : DSt K V} {r : Status}
    (h : newmark nl e o t dt s = (q, .ok r)) : (q.u, q.v) = newmarkNext o dt s q.a := by
  cases nl with
  | false =>
    simp only [newmark, Bool.false_eq_true, if_false, newmarkL] at h
    rw [Act.bind_ok (by rfl : Act.get s = (s, .ok s))] at h
    obtain ⟨s1, M, h1, h⟩ := Act.bind_ok_inv h
    obtain ⟨s2, F, h2, h⟩ := Act.bind_ok_inv h
    rw [Act.bind_ok (by rfl : setUV _ _ _ = _)] at h
    obtain ⟨s3, C, h3, h⟩ := Act.bind_ok_inv h
    obtain ⟨s4, S, h4, h⟩ := Act.bind_ok_inv h
    rw [Act.bind_ok (by rfl : linSolve _ _ _ _ = _)] at h
    rw [Act.bind_ok (by rfl : setUVA _ _ _ _ = _)] at h
    simp only [Act.pure_apply, Prod.mk.injEq] at h
    rw [← h.1]
    rfl
  | true =>
    simp only [newmark, if_true, newmarkN] at h
    rw [Act.bind_ok (by rfl : Act.get s = (s, .ok s))] at h
    rw [Act.bind_ok (by rfl : setUVA _ _ _ _ = _)] at h
    obtain ⟨s1, M, h1, h⟩ := Act.bind_ok_inv h
    obtain ⟨s2, C, h2, h⟩ := Act.bind_ok_inv h
    obtain ⟨s3, R, h3, h⟩ := Act.bind_ok_inv h
    obtain ⟨-, rfl⟩ := call_ok h1
    obtain ⟨-, rfl⟩ := call_ok h2
    obtain ⟨-, rfl⟩ := call_ok h3
    obtain ⟨h4, h5⟩ := newmarkLoop_relations h rfl rfl
    rw [h4, h5]
    rfl

/-- However a Newmark step returns, converged or not, linear or not, with whatever callbacks and solver, the
new displacement and velocity and the new acceleration satisfy the two Newmark relations. -/
theorem C90_relations (nl : Bool) (e : Env K V) (o : Opts K) (dt : K) (s q : DSt K V) (r : Status)
    (h : step none (integrate .newmark nl e o) dt s = (q, .ok r)) :
    q.u = s.u + dt • s.v + (dt * dt) • ((1 / 2 - o.alpha) • s.a + o.alpha • q.a) ∧
      q.v = s.v + dt • ((1 - o.delta) • s.a + o.delta • q.a) := by
  obtain ⟨q', h1, rfl⟩ := step_inv h
  have h2 := newmark_relations (by simpa only [integrate] using h1)
  simp only [newmarkNext, Prod.mk.injEq] at h2
  obtain ⟨h2, h3⟩ := h2
  refine ⟨?_, ?_⟩
  · simp only [h2]
    module
  · simp only [h3]
    module

theorem newmarkLoop_success {M : V →ₗ[K] V} {res0 : K} {n : ℕ} :
    ∀ {it : ℕ} {C S : V →ₗ[K] V} {rhs : V} {s q : DSt K V},
      newmarkLoop e o t dt M res0 n it C S rhs s = (q, .ok .success) →
      (it ≠ 0 → ∃ m x, e.damping m x (t + dt) = .value C) →
      ∃ R D m j x, e.residual m q.u (t + dt) = .value R ∧ e.damping j x (t + dt) = .value D ∧
        e.norm (R - D q.v - M q.a) / res0 < o.tolF := by
  induction n with
  | zero =>
    intro it C S rhs s q h
    simp [newmarkLoop] at h
  | succ n ih =>
    intro it C S rhs s q h hC
    obtain ⟨b, C', S', R, hb, hb1, hb2, hR, h⟩ := newmarkLoop_inv h
    have hC' : ∃ m x, e.damping m x (t + dt) = .value C' := by
      cases b with
      | true => obtain ⟨m, hm, -⟩ := hb1 rfl; exact ⟨m, _, hm⟩
      | false =>
        rw [(hb2 rfl).1]
        exact hC fun h0 => by simp [h0] at hb
    split at h
    · rename_i hc
      obtain ⟨rfl, -⟩ := h
      obtain ⟨m, x, hm⟩ := hC'
      exact ⟨R, C', _, m, x, hR, hm, hc.2⟩
    · exact ih h fun _ => hC'

/-- A nonlinear Newmark step that reports success leaves a state in which the residual force is smaller than
the tolerance times the residual force of the predictor; the damping matrix is one that the callback
returned for an iterate, at the new time. -/
theorem C90_residual (e : Env K V) (o : Opts K) (dt : K) (s q : DSt K V)
    (h : step none (integrate .newmark true e o) dt s = (q, .ok .success)) :
    let u₀ := s.u + dt • s.v + ((1 / 2 - o.alpha) * dt * dt) • s.a
    let v₀ := s.v + ((1 - o.delta) * dt) • s.a
    ∃ M D D₀ R R₀ n₁ n₂ n₃ n₄ n₅ x, e.mass n₁ (s.time + dt) = .value M ∧
      e.residual n₂ q.u (s.time + dt) = .value R ∧ e.damping n₃ x (s.time + dt) = .value D ∧
      e.residual n₄ u₀ (s.time + dt) = .value R₀ ∧ e.damping n₅ u₀ (s.time + dt) = .value D₀ ∧
      e.norm (R - D q.v - M q.a) /
        (if e.norm (R₀ - D₀ v₀) = 0 then 1 else e.norm (R₀ - D₀ v₀)) < o.tolF := by
  obtain ⟨q', hq', rfl⟩ := step_inv h
  clear h
  have h := hq'
  simp only [integrate, newmark, if_true, newmarkN, smul_zero, add_zero, map_zero, sub_zero] at h
  rw [Act.bind_ok (by rfl : Act.get s = (s, .ok s))] at h
  rw [Act.bind_ok (by rfl : setUVA _ _ _ _ = _)] at h
  obtain ⟨s1, M, h1, h⟩ := Act.bind_ok_inv h
  obtain ⟨s2, C, h2, h⟩ := Act.bind_ok_inv h
  obtain ⟨s3, R, h3, h⟩ := Act.bind_ok_inv h
  obtain ⟨h1', rfl⟩ := call_ok h1
  obtain ⟨h2', rfl⟩ := call_ok h2
  obtain ⟨h3', rfl⟩ := call_ok h3
  obtain ⟨R', D, m, j, x, a1, a2, a3⟩ := newmarkLoop_success h fun h => absurd rfl h
  exact ⟨M, D, C, R', R, _, _, _, _, _, x, h1', a1, a2, h3', h2', a3⟩

/-- A step that converges, with a nonzero initial residual. -/
example : (step none (integrate .newmark true (demo fun _ => false) demoOpts) 1 (DSt.init 1 0 0)).2 =
    .ok .success := by decide +kernel

/-- A step that does not converge. -/
example : (step none (integrate .newmark true (demo fun _ => false) { demoOpts with maxIter := 0 }) 1
    (DSt.init 1 0 0)).2 = .ok .notConverged := by decide +kernel

/-! ## C91 -/

/-- The number of evaluations of the residual. -/
def residuals (l : List (Call K V × Bool)) : ℕ :=
  l.countP fun x => match x.1 with | .residual _ _ => true | _ => false

/-- The number of evaluations of the Jacobian. -/
def jacobians (l : List (Call K V × Bool)) : ℕ :=
  l.countP fun x => match x.1 with | .jacobian _ _ => true | _ => false

/-- The matrices are renewed in iteration `i`. -/
def renews (o : Opts K) (i : ℕ) : Bool := decide (o.quasi = false ∨ (i : ℤ) % o.quasiIt = 0)

/-- What a loop of at most `n` iterations, of which `it` are done, appends to the recorded calls. -/
def LoopLog (o : Opts K) (n it : ℕ) (s q : DSt K V) (r : Status) : Prop :=
  ∃ l k, q.log = l ++ s.log ∧ k ≤ n ∧ (r = .success → 1 ≤ k) ∧ (r ≠ .success → k = n) ∧ residuals l = k ∧
    jacobians l = (List.range' it k).countP (renews o)

theorem LoopLog.nil {n it : ℕ} {s q : DSt K V} {r : Status} (h : q.log = s.log) (hn : n = 0)
    (hr : r ≠ .success) : LoopLog o n it s q r :=
  ⟨[], 0, h, by omega, fun h => absurd h hr, fun _ => hn.symm, rfl, rfl⟩

theorem renews_iff {b : Bool} {it : ℕ} (hb : b = true ↔ o.quasi = false ∨ it = 0 ∨ (it : ℤ) % o.quasiIt = 0) :
    renews o it = b := by
  rw [Bool.eq_iff_iff, hb, renews, decide_eq_true_eq]
  constructor
  · rintro (h | h)
    · exact Or.inl h
    · exact Or.inr (Or.inr h)
  · rintro (h | h | h)
    · exact Or.inl h
    · exact Or.inr (by simp [h])
    · exact Or.inr h

theorem LoopLog.stop {n it : ℕ} {s q : DSt K V} {r : Status} {b : Bool} {t' : K} {x y : V} {t'' : K}
    (hb : b = true ↔ o.quasi = false ∨ it = 0 ∨ (it : ℤ) % o.quasiIt = 0)
    (h : q.log = (.residual y t'', true) :: (renewCalls t' b x ++ s.log)) (hr : r = .success) :
    LoopLog o (n + 1) it s q r := by
  refine ⟨(.residual y t'', true) :: renewCalls t' b x, 1, by simp [h], by omega, fun _ => le_refl _,
    fun h => absurd hr h, ?_, ?_⟩
  · cases b <;> rfl
  · simp only [List.range'_one, List.countP_cons, List.countP_nil, renews_iff hb]
    cases b <;> rfl

theorem LoopLog.more {n it : ℕ} {s s' q : DSt K V} {r : Status} {b : Bool} {t' : K} {x y : V} {t'' : K}
    (hb : b = true ↔ o.quasi = false ∨ it = 0 ∨ (it : ℤ) % o.quasiIt = 0)
    (h : s'.log = (.residual y t'', true) :: (renewCalls t' b x ++ s.log))
    (hq : LoopLog o n (it + 1) s' q r) : LoopLog o (n + 1) it s q r := by
  obtain ⟨l, k, h1, h2, h3, h4, h5, h6⟩ := hq
  refine ⟨l ++ (.residual y t'', true) :: renewCalls t' b x, k + 1, by simp [h1, h], by omega,
    fun _ => by omega, fun h => by rw [h4 h], ?_, ?_⟩
  · simp only [residuals, List.countP_append] at h5 ⊢
    rw [h5]
    cases b <;> rfl
  · simp only [jacobians, List.countP_append, List.range'_succ, List.countP_cons, renews_iff hb] at h6 ⊢
    rw [h6]
    cases b <;> rfl

theorem newmarkLoop_log {M : V →ₗ[K] V} {res0 : K} {n : ℕ} :
    ∀ {it : ℕ} {C S : V →ₗ[K] V} {rhs : V} {s q : DSt K V} {r : Status},
      newmarkLoop e o t dt M res0 n it C S rhs s = (q, .ok r) → LoopLog o n it s q r := by
  induction n with
  | zero =>
    intro it C S rhs s q r h
    simp only [newmarkLoop, Act.pure_apply, Prod.mk.injEq, Except.ok.injEq] at h
    exact .nil (by rw [← h.1]) rfl (by rw [← h.2]; simp)
  | succ n ih =>
    intro it C S rhs s q r h
    obtain ⟨b, C', S', R, hb, -, -, -, h⟩ := newmarkLoop_inv h
    split at h
    · obtain ⟨rfl, hr⟩ := h
      exact .stop hb rfl hr
    · exact .more hb rfl (ih h)

theorem implicitEulerLoop_log {u0 v0 : V} {M : V →ₗ[K] V} {res0 : K} {n : ℕ} :
    ∀ {it : ℕ} {C S : V →ₗ[K] V} {rhs : V} {s q : DSt K V} {r : Status},
      implicitEulerLoop e o t dt u0 v0 M res0 n it C S rhs s = (q, .ok r) → LoopLog o n it s q r := by
  induction n with
  | zero =>
    intro it C S rhs s q r h
    simp only [implicitEulerLoop, Act.pure_apply, Prod.mk.injEq, Except.ok.injEq] at h
    exact .nil (by rw [← h.1]) rfl (by rw [← h.2]; simp)
  | succ n ih =>
    intro it C S rhs s q r h
    obtain ⟨b, C', S', R, hb, -, -, -, h⟩ := implicitEulerLoop_inv h
    split at h
    · obtain ⟨rfl, hr⟩ := h
      exact .stop hb rfl hr
    · exact .more hb rfl (ih h)

theorem batheLoop_log {M : V →ₗ[K] V} {u0 v0 us vs : V} {res0 : K} {n : ℕ} :
    ∀ {it : ℕ} {C S : V →ₗ[K] V} {rhs : V} {s q : DSt K V} {r : Status},
      batheLoop e o t dt M u0 v0 us vs res0 n it C S rhs s = (q, .ok r) → LoopLog o n it s q r := by
  induction n with
  | zero =>
    intro it C S rhs s q r h
    simp only [batheLoop] at h
    rw [Act.bind_ok (by rfl : Act.modify _ _ = _)] at h
    simp only [Act.pure_apply, Prod.mk.injEq, Except.ok.injEq] at h
    exact .nil (by rw [← h.1]) rfl (by rw [← h.2]; simp)
  | succ n ih =>
    intro it C S rhs s q r h
    obtain ⟨b, C', S', R, hb, -, -, -, h⟩ := batheLoop_inv h
    split at h
    · obtain ⟨rfl, hr⟩ := h
      exact .stop hb rfl hr
    · exact .more hb rfl (ih h)

/-- The number of `i < k` in which the matrices are renewed. -/
theorem renews_count (k : ℕ) :
    (List.range' 0 k).countP (renews o) =
      if o.quasi = false then k else (List.range k).countP fun i : ℕ => decide ((i : ℤ) % o.quasiIt = 0) := by
  rw [← List.range_eq_range']
  split
  · rename_i h
    rw [List.countP_eq_length.2 (by simp [renews, h]), List.length_range]
  · rename_i h
    exact List.countP_congr fun i _ => by simp [renews, h]

theorem multiples_count (q k : ℕ) (hq : 0 < q) :
    (List.range k).countP (fun i : ℕ => decide ((i : ℤ) % (q : ℤ) = 0)) = (k + q - 1) / q := by
  induction k with
  | zero => simp; rw [eq_comm, Nat.div_eq_zero_iff]; omega
  | succ k ih =>
    rw [List.range_succ, List.countP_append, ih]
    have e1 : k + 1 + q - 1 = (k + q - 1) + 1 := by omega
    rw [e1, Nat.succ_div]
    have e2 : q ∣ k + q - 1 + 1 ↔ (k : ℤ) % (q : ℤ) = 0 := by
      rw [show k + q - 1 + 1 = k + q by omega, Nat.dvd_add_self_right]
      rw [← Int.natCast_dvd_natCast, Int.dvd_iff_emod_eq_zero]
    simp only [e2, List.countP_cons, List.countP_nil, decide_eq_true_eq]
    omega

/-- A nonlinear Newmark or implicit Euler step that returns has done `k` iterations: it evaluated the
residual `k+1` times. `k` is at most `MaxIter`, and equal to it without convergence. The Jacobian was evaluated
in each iteration, or, with quasi iterations, in each iteration whose number is a multiple of the interval. -/
theorem C91_count (m : Method) (hm : m = .newmark ∨ m = .implicitEuler) (e : Env K V) (o : Opts K) (dt : K)
    (s q : DSt K V) (r : Status) (h : step none (integrate m true e o) dt s = (q, .ok r)) :
    ∃ l k, q.log = l ++ s.log ∧ residuals l = k + 1 ∧ k ≤ o.maxIter.toNat ∧
      (r ≠ .success → k = o.maxIter.toNat) ∧ (r = .success → 1 ≤ k) ∧
      jacobians l = if o.quasi = false then k
        else (List.range k).countP fun i : ℕ => decide ((i : ℤ) % o.quasiIt = 0) := by
  obtain ⟨q', hq', rfl⟩ := step_inv h
  clear h
  have h := hq'
  have key : ∃ (s' : DSt K V) (l' : List (Call K V × Bool)), s'.log = l' ++ s.log ∧ residuals l' = 1 ∧
      jacobians l' = 0 ∧ LoopLog o o.maxIter.toNat 0 s' q' r := by
    rcases hm with rfl | rfl
    · simp only [integrate, newmark, if_true, newmarkN] at h
      rw [Act.bind_ok (by rfl : Act.get s = (s, .ok s))] at h
      rw [Act.bind_ok (by rfl : setUVA _ _ _ _ = _)] at h
      obtain ⟨s1, M, h1, h⟩ := Act.bind_ok_inv h
      obtain ⟨s2, C, h2, h⟩ := Act.bind_ok_inv h
      obtain ⟨s3, R, h3, h⟩ := Act.bind_ok_inv h
      obtain ⟨-, rfl⟩ := call_ok h1
      obtain ⟨-, rfl⟩ := call_ok h2
      obtain ⟨-, rfl⟩ := call_ok h3
      exact ⟨_, [_, _, _], rfl, rfl, rfl, newmarkLoop_log h⟩
    · simp only [integrate, implicitEulerN] at h
      rw [Act.bind_ok (by rfl : Act.get s = (s, .ok s))] at h
      obtain ⟨s1, M, h1, h⟩ := Act.bind_ok_inv h
      obtain ⟨s2, C, h2, h⟩ := Act.bind_ok_inv h
      obtain ⟨s3, R, h3, h⟩ := Act.bind_ok_inv h
      obtain ⟨-, rfl⟩ := call_ok h1
      obtain ⟨-, rfl⟩ := call_ok h2
      obtain ⟨-, rfl⟩ := call_ok h3
      exact ⟨_, [_, _, _], rfl, rfl, rfl, implicitEulerLoop_log h⟩
  obtain ⟨s', l', h1, h2, h3, l, k, h4, h5, h6, h7, h8, h9⟩ := key
  refine ⟨l ++ l', k, by simp [h4, h1], ?_, h5, h7, h6, ?_⟩
  · simp only [residuals, List.countP_append] at h2 h8 ⊢
    omega
  · rw [← renews_count, ← h9]
    simp only [jacobians, List.countP_append] at h3 ⊢
    omega

/-- With an interval `p > 0` and `k` iterations that is `k/p`, rounded up. -/
theorem C91_interval (m : Method) (hm : m = .newmark ∨ m = .implicitEuler) (e : Env K V) (o : Opts K) (dt : K)
    (s q : DSt K V) (r : Status) (h : step none (integrate m true e o) dt s = (q, .ok r)) (p : ℕ)
    (hq : o.quasi = true) (hp : o.quasiIt = p) (hp0 : 0 < p) :
    ∃ l k, q.log = l ++ s.log ∧ residuals l = k + 1 ∧ jacobians l = (k + p - 1) / p := by
  obtain ⟨l, k, h1, h2, -, -, -, h3⟩ := C91_count m hm e o dt s q r h
  refine ⟨l, k, h1, h2, ?_⟩
  rw [h3, if_neg (by simp [hq]), hp, multiples_count p k hp0]

/-- With interval 0 the second iteration divides by zero. -/
theorem C91_zero (M : V →ₗ[K] V) (res0 : K) (C S : V →ₗ[K] V) (rhs : V) (e : Env K V) (o : Opts K) (t dt : K)
    (n it : ℕ) (s : DSt K V) (h : o.quasi = true) (h0 : o.quasiIt = 0) (hi : it ≠ 0) :
    newmarkLoop e o t dt M res0 (n + 1) it C S rhs s = (s, .error .ub) := by
  simp only [newmarkLoop]
  rw [Act.bind_apply]
  simp [refresh, h, h0, hi]

/-- Two iterations on the one degree of freedom problem; the Jacobian is computed once if the interval
is 2. -/
example :
    let q := (step none (integrate .newmark true (demo fun _ => false)
      { demoOpts with quasi := true, quasiIt := 2 }) 1 (DSt.init 1 0 0)).1
    residuals q.log = 3 ∧ jacobians q.log = 1 := by
  decide +kernel

/-- With interval 0 the step is undefined. -/
example : (step none (integrate .newmark true (demo fun _ => false)
      { demoOpts with quasi := true, quasiIt := 0 }) 1 (DSt.init 1 0 0)).2 = .error .ub := by
  decide +kernel

/-! ## C64 -/

/-- With `gamma = 1` a nonlinear Wilson step gives the state of a nonlinear Newmark step. -/
theorem C64_nonlinear (e : Env K V) (o : Opts K) (dt : K) (s q : DSt K V) (r : Status) (hg : o.gamma = 1)
    (h : step none (integrate .newmark true e o) dt s = (q, .ok r)) :
    step none (integrate .wilson true e o) dt s = ({ q with status := .success }, .ok .success) := by
  obtain ⟨q', hq', rfl⟩ := step_inv h
  clear h
  have h := hq'
  simp only [integrate] at h
  have h1 := newmark_relations h
  simp only [newmarkNext, Prod.mk.injEq] at h1
  have h2 : wilsonN e o s.time dt s = (q', .ok .success) := by
    simp only [wilsonN, hg, one_mul]
    have : onCopy (newmark true e o s.time dt) s =
        ({ q' with u := s.u, v := s.v, a := s.a }, .ok (r, q'.u, q'.v, q'.a)) := by
      simp only [onCopy, h]
    rw [Act.bind_ok this]
    simp only [Act.bind_apply, Act.modify_apply, Act.pure_apply, div_one, sub_self, zero_smul, one_smul,
      zero_add, ← h1.1, ← h1.2]
  exact step_none _ _ _ _ _ h2

/-- C64 fails: a Wilson step that returns reports success, whatever the inner step reported. -/
theorem C64_violated_status (nl : Bool) (e : Env K V) (o : Opts K) (dt : K) (s q : DSt K V) (r : Status)
    (h : step none (integrate .wilson nl e o) dt s = (q, .ok r)) : r = .success := by
  obtain ⟨q', hq', rfl⟩ := step_inv h
  clear h
  have h := hq'
  cases nl with
  | false =>
    simp only [integrate, wilsonL] at h
    obtain ⟨s1, x, -, h⟩ := Act.bind_ok_inv h
    rw [Act.bind_ok (by rfl : Act.modify _ _ = _)] at h
    simp only [Act.pure_apply, Prod.mk.injEq, Except.ok.injEq] at h
    exact h.2.symm
  | true =>
    simp only [integrate, wilsonN] at h
    obtain ⟨s1, x, -, h⟩ := Act.bind_ok_inv h
    rw [Act.bind_ok (by rfl : Act.modify _ _ = _)] at h
    simp only [Act.pure_apply, Prod.mk.injEq, Except.ok.injEq] at h
    exact h.2.symm

/-- The inner Newmark iteration does not converge (no iteration is allowed), Wilson reports success. -/
example :
    (step none (integrate .newmark true (demo fun _ => false) { demoOpts with maxIter := 0, gamma := 1 }) 1
      (DSt.init 1 0 0)).2 = .ok .notConverged ∧
    (step none (integrate .wilson true (demo fun _ => false) { demoOpts with maxIter := 0, gamma := 1 }) 1
      (DSt.init 1 0 0)).2 = .ok .success := by
  decide +kernel

/-- C64 fails: with `gamma = 1` the linear Wilson step misses the terms of the old velocity and acceleration:
it agrees with the linear Newmark step exactly if these are zero. -/
theorem C64_violated_linear (e : Env K V) (o : Opts K) (dt : K) (s q : DSt K V) (r : Status) (hg : o.gamma = 1)
    (h : step none (integrate .newmark false e o) dt s = (q, .ok r)) :
    ∃ q', step none (integrate .wilson false e o) dt s = (q', .ok .success) ∧ q'.a = q.a ∧
      q.u - q'.u = dt • s.v + ((1 / 2 - o.alpha) * dt * dt) • s.a ∧
      q.v - q'.v = ((1 - o.delta) * dt) • s.a := by
  obtain ⟨q', hq', rfl⟩ := step_inv h
  clear h
  have h := hq'
  simp only [integrate] at h
  have h1 := newmark_relations h
  simp only [newmarkNext, Prod.mk.injEq] at h1
  have h2 : wilsonL e o s.time dt s = ({ q' with
      u := s.u + (o.alpha * dt * dt) • q'.a, v := s.v + (o.delta * dt) • q'.a }, .ok .success) := by
    simp only [wilsonL, hg, one_mul]
    have : onCopy (newmark false e o s.time dt) s =
        ({ q' with u := s.u, v := s.v, a := s.a }, .ok (r, q'.u, q'.v, q'.a)) := by
      simp only [onCopy, h]
    rw [Act.bind_ok this]
    simp [Act.bind_apply]
  refine ⟨_, step_none _ _ _ _ _ h2, rfl, ?_, ?_⟩
  · simp only [h1.1]; abel
  · simp only [h1.2]; abel

/-- Uniform motion with velocity 1 stops under the linear Wilson method: a mass without stiffness. -/
def free : Env ℚ ℚ := { demo (fun _ => false) with
  jacobian := fun _ _ _ => .value 0, residual := fun _ _ _ => .value 0 }

example :
    (step none (integrate .newmark false free { demoOpts with gamma := 1 }) 1 (DSt.init 0 1 0)).1.u = 1 ∧
    (step none (integrate .wilson false free { demoOpts with gamma := 1 }) 1 (DSt.init 0 1 0)).1.u = 0 ∧
    (step none (integrate .wilson true free { demoOpts with gamma := 1 }) 1 (DSt.init 0 1 0)).1.u = 1 := by
  decide +kernel

end GsSA.Dynamic
