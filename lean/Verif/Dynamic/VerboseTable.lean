import Verif.Dynamic.LoopSpec
import Verif.Dynamic.VerboseProps

/-!
# Property C137: the tables of the time integrators
-/

namespace GsSA.Dynamic

open GsSA GsSA.Static
open GsSA.ALM (Act Err quiet printLine)

set_option linter.unusedSectionVars false

variable {K V : Type} [Field K] [LinearOrder K] [IsStrictOrderedRing K] [AddCommGroup V] [Module K V]

/-! ## Tables -/

section

variable {X : Type}

/-- The lines of the iterations `ys`, numbered from `k`. -/
def rowsFrom (row : ℕ → X → Line K) : ℕ → List X → List (Line K)
  | _, [] => []
  | k, y :: ys => row k y :: rowsFrom row (k + 1) ys

/-- Each iteration follows from the one before; `k` is the number of the first one. -/
def Passes (next : ℕ → X → X → Prop) : ℕ → X → List X → Prop
  | _, _, [] => True
  | k, p, y :: ys => next k p y ∧ Passes next (k + 1) y ys

/-- How a loop with at most `n` iterations ends: `p` is its start, `ys` are its iterations, `inv` holds for an iteration
and the state after it, `g` is what is done to the state at the end, and `q` is the last state. -/
def Ends (ok : X → Prop) (inv : DSt K V → X → Prop) (g : DSt K V → DSt K V) (n : ℕ) (p : X) (ys : List X) (q : DSt K V) :
    Except Err Status → Prop
  | .ok .success => ∃ y s, ys.getLast? = some y ∧ ok y ∧ inv s y ∧ q = g s
  | .ok .notConverged => ys.length = n ∧ (∀ y ∈ ys, ¬ ok y) ∧ ∃ s, inv s (ys.getLastD p) ∧ q = g s
  | .ok _ => False
  | .error _ => ys.length < n ∧ ∀ y ∈ ys, ¬ ok y

theorem Ends.cons {ok : X → Prop} {inv : DSt K V → X → Prop} {g : DSt K V → DSt K V} {n : ℕ} {p y : X} {ys : List X}
    {q : DSt K V} {r : Except Err Status} (hy : ¬ ok y) (h : Ends ok inv g n y ys q r) :
    Ends ok inv g (n + 1) p (y :: ys) q r := by
  have hall : (∀ z ∈ ys, ¬ ok z) → ∀ z ∈ y :: ys, ¬ ok z := fun h' z hz => by
    rcases List.mem_cons.1 hz with rfl | hz
    · exact hy
    · exact h' z hz
  cases r with
  | error x => exact ⟨by simpa using h.1, hall h.2⟩
  | ok st =>
    cases st with
    | success =>
      obtain ⟨z, s, h1, h2⟩ := h
      exact ⟨z, s, by rw [List.getLast?_cons, h1]; rfl, h2⟩
    | notConverged =>
      obtain ⟨h1, h2, s, h3⟩ := h
      exact ⟨by simp [h1], hall h2, s, by rwa [Newton.getLastD_cons_cons]⟩
    | _ => exact h

/-- The loops of the nonlinear steps. -/
theorem loop_table {pass : ℕ → X → Act (DSt K V) X} {ok : X → Prop} [DecidablePred ok] {row : ℕ → X → Line K}
    {g : DSt K V → DSt K V} {fin : Status → Act (DSt K V) Status} {finV : Status → Act (Printer K V) Status}
    {L : ℕ → ℕ → X → Act (DSt K V) Status} {LV : Bool → ℕ → ℕ → X → Act (Printer K V) Status}
    {inv : DSt K V → X → Prop} {next : ℕ → X → X → Prop} (hf : ∀ st s, fin st s = (g s, .ok st))
    (hfV : ∀ st s, Prints (finV st) s (.ok st) (g s) []) (h0 : ∀ it x, L 0 it x = fin .notConverged)
    (hs : ∀ n it x, L (n + 1) it x = pass it x >>= fun y => if ok y then fin .success else L n (it + 1) y)
    (h0V : ∀ v it x, LV v 0 it x = finV .notConverged)
    (hsV : ∀ v n it x, LV v (n + 1) it x = quiet (pass it x) >>= fun y => say v (row it y) >>= fun _ =>
      if ok y then finV .success else LV v n (it + 1) y)
    (hp : ∀ it x y s s', inv s x → pass it x s = (s', .ok y) → inv s' y ∧ next it x y) (n : ℕ) :
    ∀ {it : ℕ} {x : X} {s q : DSt K V} {r : Except Err Status}, inv s x → L n it x s = (q, r) →
      ∃ ys, (∀ v, Prints (LV v n it x) s r q (if v then rowsFrom row it ys else [])) ∧ Passes next it x ys ∧
        (∀ y ∈ ys.dropLast, ¬ ok y) ∧ Ends ok inv g n x ys q r := by
  induction n with
  | zero =>
    intro it x s q r hi h
    rw [h0, hf, Prod.mk.injEq] at h
    obtain ⟨rfl, rfl⟩ := h
    refine ⟨[], fun v => ?_, trivial, by simp, rfl, by simp, s, hi, rfl⟩
    rw [h0V]
    cases v <;> exact hfV _ _
  | succ n ih =>
    intro it x s q r hi h
    rw [hs] at h
    rcases Act.bind_cases h with ⟨s', y, h1, h⟩ | ⟨z, h1, rfl⟩
    · obtain ⟨hi', hn⟩ := hp _ _ _ _ _ hi h1
      by_cases hy : ok y
      · rw [if_pos hy, hf, Prod.mk.injEq] at h
        obtain ⟨rfl, rfl⟩ := h
        refine ⟨[y], fun v => ?_, ⟨hn, trivial⟩, by simp, y, s', rfl, hy, hi', rfl⟩
        rw [hsV]
        refine .after h1 ?_
        rw [if_pos hy]
        have := Prints.bind (f := fun _ => finV .success) (prints_say v (row it y) s') (hfV .success s')
        cases v <;> exact this
      · rw [if_neg hy] at h
        obtain ⟨ys, b1, b2, b3, b4⟩ := ih hi' h
        refine ⟨y :: ys, fun v => ?_, ⟨hn, b2⟩, Newton.dropLast_cons hy b3, b4.cons hy⟩
        rw [hsV]
        refine .after h1 ?_
        rw [if_neg hy]
        have := Prints.bind (f := fun _ => LV v n (it + 1) y) (prints_say v (row it y) s') (b1 v)
        cases v <;> exact this
    · refine ⟨[], fun v => ?_, trivial, by simp, by simp, by simp⟩
      rw [hsV]
      cases v <;> exact .dead h1

end

/-! ## Specification of the iterations -/

/-- Damping and stiffness of iteration `k`: new ones at the last iterate, or the old ones. -/
def Renewed (e : Env K V) (o : Opts K) (t : K) (k : ℕ) (p x : Pass K V) : Prop :=
  if o.quasi = false ∨ k = 0 ∨ (k : ℤ) % o.quasiIt = 0 then
    ∃ i, e.damping i p.u t = .value x.C ∧ e.jacobian (i + 1) p.u t = .value x.S
  else x.C = p.C ∧ x.S = p.S

/-- The vectors of the iteration are those of the state. -/
def Holds (s : DSt K V) (x : Pass K V) : Prop := x.u = s.u ∧ x.v = s.v ∧ x.a = s.a

/-- Newmark: iteration `x` with number `k` after `p`. -/
structure NewmarkNext (e : Env K V) (o : Opts K) (t dt : K) (M : V →ₗ[K] V) (k : ℕ) (p x : Pass K V) : Prop where
  mats : Renewed e o (t + dt) k p x
  d : ∃ i, x.d = e.solve i (M + (o.delta * dt) • x.C + (dt * dt * o.alpha) • x.S) p.rhs
  a : x.a = p.a + x.d
  v : x.v = p.v + (o.delta * dt) • x.d
  u : x.u = p.u + (o.alpha * dt * dt) • x.d
  R : ∃ i, e.residual i x.u (t + dt) = .value x.R
  rhs : x.rhs = x.R - x.C x.v - M x.a

/-- Bathe, second stage. -/
structure BatheNext (e : Env K V) (o : Opts K) (t dt : K) (M : V →ₗ[K] V) (u0 v0 us vs : V) (k : ℕ) (p x : Pass K V) :
    Prop where
  mats : Renewed e o (t + dt) k p x
  d : ∃ i, x.d = e.solve i (x.S + (c3 o dt * c3 o dt) • M + c3 o dt • x.C) p.rhs
  u : x.u = p.u + x.d
  R : ∃ i, e.residual i x.u (t + dt) = .value x.R
  rhs : x.rhs = x.R - M (c1 o dt • v0 + c2 o dt • vs + (c1 o dt * c3 o dt) • u0 + (c3 o dt * c2 o dt) • us
      + (c3 o dt * c3 o dt) • x.u) - x.C (c1 o dt • u0 + c2 o dt • us + c3 o dt • x.u)

/-- Implicit Euler: the right hand side, whose norm is printed, belongs to the iterate before. -/
structure EulerNext (e : Env K V) (o : Opts K) (t dt : K) (u0 v0 : V) (M : V →ₗ[K] V) (k : ℕ) (p x : Pass K V) :
    Prop where
  mats : Renewed e o (t + dt) k p x
  rhs : x.rhs = p.u - u0 - dt • p.v
  rhs' : x.rhs' = M (p.v - v0) + dt • x.C p.v - dt • p.R
  d : ∃ i, (x.d, x.d') = e.gmres i LinearMap.id (-(dt • LinearMap.id)) (dt • x.S) (M + dt • x.C) (-x.rhs) (-x.rhs')
  u : x.u = p.u + x.d
  v : x.v = p.v + x.d'
  R : ∃ i, e.residual i x.u t = .value x.R

section

variable {e : Env K V} {o : Opts K} {t dt : K}

theorem renewed_of {τ : K} {k : ℕ} {b : Bool} {C S : V →ₗ[K] V} {s : DSt K V} {p x : Pass K V} (hu : p.u = s.u)
    (hC : C = p.C) (hS : S = p.S) (hb : b = true ↔ o.quasi = false ∨ k = 0 ∨ (k : ℤ) % o.quasiIt = 0)
    (h1 : b = true → ∃ n, e.damping n s.u τ = .value x.C ∧ e.jacobian (n + 1) s.u τ = .value x.S)
    (h2 : b = false → x.C = C ∧ x.S = S) : Renewed e o τ k p x := by
  unfold Renewed
  split
  · rename_i h
    rw [hu]
    exact h1 (hb.2 h)
  · rename_i h
    rw [← hC, ← hS]
    refine h2 ?_
    cases b
    · rfl
    · exact absurd (hb.1 rfl) h

theorem newmarkPass_next {M : V →ₗ[K] V} {k : ℕ} {p x : Pass K V} {s s' : DSt K V} (hi : Holds s p)
    (h : newmarkPass e o t dt M k p.C p.S p.rhs s = (s', .ok x)) : Holds s' x ∧ NewmarkNext e o t dt M k p x := by
  unfold newmarkPass at h
  obtain ⟨s1, b, h1, h'⟩ := Act.bind_ok_inv h
  clear h
  obtain ⟨s2, ⟨C, S⟩, h2, h⟩ := Act.bind_ok_inv h'
  clear h'
  obtain ⟨rfl, hb⟩ := refresh_inv h1
  obtain ⟨rfl, h3, h4⟩ := renew_inv h2
  obtain ⟨s3, d, h5, h⟩ := Act.bind_ok_inv h
  unfold linSolve at h5
  rw [Act.bind_ok (Act.get_apply _), Act.pure_apply, Prod.mk.injEq, Except.ok.injEq] at h5
  obtain ⟨rfl, rfl⟩ := h5
  rw [Act.bind_ok (Act.modify_apply _ _), Act.bind_ok (Act.get_apply _)] at h
  obtain ⟨s4, R, h6, h⟩ := Act.bind_ok_inv h
  obtain ⟨h7, rfl⟩ := call_ok h6
  rw [Act.pure_apply, Prod.mk.injEq, Except.ok.injEq] at h
  obtain ⟨rfl, rfl⟩ := h
  obtain ⟨hu, hv, ha⟩ := hi
  refine ⟨⟨rfl, rfl, rfl⟩, ⟨renewed_of hu rfl rfl hb h3 h4, ⟨_, rfl⟩, ?_, ?_, ?_, ⟨_, h7⟩, rfl⟩⟩
  · rw [ha]
  · rw [hv]
  · rw [hu]

theorem bathePass_next {M : V →ₗ[K] V} {u0 v0 us vs : V} {k : ℕ} {p x : Pass K V} {s s' : DSt K V}
    (hi : p.u = s.u) (h : bathePass e o t dt M u0 v0 us vs k p.C p.S p.rhs s = (s', .ok x)) :
    x.u = s'.u ∧ BatheNext e o t dt M u0 v0 us vs k p x := by
  unfold bathePass at h
  obtain ⟨s1, b, h1, h'⟩ := Act.bind_ok_inv h
  clear h
  obtain ⟨s2, ⟨C, S⟩, h2, h⟩ := Act.bind_ok_inv h'
  clear h'
  obtain ⟨rfl, hb⟩ := refresh_inv h1
  obtain ⟨rfl, h3, h4⟩ := renew_inv h2
  obtain ⟨s3, d, h5, h⟩ := Act.bind_ok_inv h
  unfold linSolve at h5
  rw [Act.bind_ok (Act.get_apply _), Act.pure_apply, Prod.mk.injEq, Except.ok.injEq] at h5
  obtain ⟨rfl, rfl⟩ := h5
  rw [Act.bind_ok (Act.modify_apply _ _), Act.bind_ok (Act.get_apply _)] at h
  obtain ⟨s4, R, h6, h⟩ := Act.bind_ok_inv h
  obtain ⟨h7, rfl⟩ := call_ok h6
  rw [Act.pure_apply, Prod.mk.injEq, Except.ok.injEq] at h
  obtain ⟨rfl, rfl⟩ := h
  refine ⟨rfl, ⟨renewed_of hi rfl rfl hb h3 h4, ⟨_, rfl⟩, ?_, ⟨_, h7⟩, rfl⟩⟩
  rw [hi]

theorem implicitEulerPass_next {M : V →ₗ[K] V} {u0 v0 : V} {k : ℕ} {p x : Pass K V} {s s' : DSt K V}
    (hi : Holds s p) (h : implicitEulerPass e o t dt u0 v0 M k p.C p.S p.R s = (s', .ok x)) :
    Holds s' x ∧ EulerNext e o t dt u0 v0 M k p x := by
  unfold implicitEulerPass at h
  obtain ⟨s1, b, h1, h'⟩ := Act.bind_ok_inv h
  clear h
  obtain ⟨s2, ⟨C, S⟩, h2, h⟩ := Act.bind_ok_inv h'
  clear h'
  obtain ⟨rfl, hb⟩ := refresh_inv h1
  obtain ⟨rfl, h3, h4⟩ := renew_inv h2
  rw [Act.bind_ok (Act.get_apply _)] at h
  obtain ⟨s3, d, h5, h⟩ := Act.bind_ok_inv h
  unfold gmresSolve at h5
  rw [Act.bind_ok (Act.get_apply _), Act.pure_apply, Prod.mk.injEq, Except.ok.injEq] at h5
  obtain ⟨rfl, rfl⟩ := h5
  unfold setUV at h
  rw [Act.bind_ok (Act.modify_apply _ _)] at h
  obtain ⟨s4, R, h6, h⟩ := Act.bind_ok_inv h
  obtain ⟨h7, rfl⟩ := call_ok h6
  rw [Act.pure_apply, Prod.mk.injEq, Except.ok.injEq] at h
  obtain ⟨rfl, rfl⟩ := h
  obtain ⟨hu, hv, ha⟩ := hi
  refine ⟨⟨rfl, rfl, rfl⟩, ⟨renewed_of hu rfl rfl hb h3 h4, ?_, ?_, ⟨_, rfl⟩, ?_, ?_, ⟨_, h7⟩⟩⟩
  · simp only [hu, hv]
  · simp only [hv, smul_neg, sub_eq_add_neg]
  · simp only [hu]
  · simp only [hv]

end

end GsSA.Dynamic
