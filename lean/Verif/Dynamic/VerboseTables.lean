import Verif.Dynamic.VerboseTable
import Verif.Static.VerboseDR
import Verif.Dynamic.NonlinearSpec
import Verif.Dynamic.AgreeProps
import Verif.Dynamic.UpdateProps

/-!
# Property C137: what the time integrators print
-/

namespace GsSA.Dynamic

open GsSA GsSA.Static
open GsSA.ALM (Act Err quiet printLine)

set_option linter.unusedSectionVars false

variable {K V : Type} [Field K] [LinearOrder K] [IsStrictOrderedRing K] [AddCommGroup V] [Module K V]

/-- What `_step` prints. -/
def printed (v : Bool) (m : Method) (nl : Bool) (e : Env K V) (o : Opts K) (t dt : K) (s : DSt K V) : List (Line K) :=
  (integrateV v m nl e o t dt (s, [])).1.2

theorem printed_eq {v : Bool} {m : Method} {nl : Bool} {e : Env K V} {o : Opts K} {t dt : K} {s q : DSt K V}
    {r : Except Err Status} {l : List (Line K)} (h : Prints (integrateV v m nl e o t dt) s r q l) :
    printed v m nl e o t dt s = l := by
  unfold printed
  rw [h []]
  rfl

/-- What is printed does not depend on earlier output. -/
theorem prints_integrate (v : Bool) (m : Method) (nl : Bool) (e : Env K V) (o : Opts K) (t dt : K) (s : DSt K V) :
    Prints (integrateV v m nl e o t dt) s (integrate m nl e o t dt s).2 (integrate m nl e o t dt s).1
      (printed v m nl e o t dt s) := by
  obtain ⟨l, h, -⟩ := same_integrate (v := v) (e := e) (o := o) (t := t) (dt := dt) m nl s
  rwa [printed_eq h]

/-- `step(dt)` prints what `_step` prints, and nothing if the pre-step callback returns `false`. -/
theorem C137_step (v : Bool) (cb : Option (ℕ → K → K → Bool)) (m : Method) (nl : Bool) (e : Env K V) (o : Opts K) (dt : K)
    (s : DSt K V) (out : List (Line K)) : (stepV cb (integrateV v m nl e o) dt (s, out)).1.2 =
      out ++ if accepts cb s.log.length s.time dt then printed v m nl e o s.time dt s else [] := by
  have h := prints_integrate v m nl e o s.time dt s
  have key : ∃ r q, Prints (stepV cb (integrateV v m nl e o) dt) s r q
      (if accepts cb s.log.length s.time dt then printed v m nl e o s.time dt s else []) := by
    by_cases hc : accepts cb s.log.length s.time dt
    · rcases hi : integrate m nl e o s.time dt s with ⟨w, r⟩
      rw [hi] at h
      rw [if_pos hc]
      cases r with
      | ok st =>
        refine ⟨.ok st, { w with time := w.time + dt, status := st }, .after (Act.get_apply s) ?_⟩
        rw [if_pos hc]
        exact .congr (List.append_nil _) (.bind h (.after (Act.modify_apply _ _) (.ret _ _)))
      | error x =>
        refine ⟨.error x, w, .after (Act.get_apply s) ?_⟩
        rw [if_pos hc]
        exact .fail h
    · refine ⟨.ok .otherError, { s with status := .otherError }, .after (Act.get_apply s) ?_⟩
      rw [if_neg hc, if_neg hc]
      exact .after (Act.modify_apply _ _) (.ret _ _)
  obtain ⟨r, q, hp⟩ := key
  rw [hp out]

example : (stepV none (integrateV true .explicitEuler true (demo fun _ => false) demoOpts) 1 (DSt.init 1 0 0, [])).1.2 =
      [columnsR, .row [.count 0, .num 2]] ∧
    (stepV (some fun _ _ _ => false) (integrateV true .explicitEuler true (demo fun _ => false) demoOpts) 1
      (DSt.init 1 0 0, [])).1.2 = [] := by
  decide +kernel

/-! ## Lines and criteria of the nonlinear steps -/

/-- The line of an iteration of Newmark's method; `r₀` is the norm of the first right hand side, or 1. -/
def newmarkRow (e : Env K V) (r₀ : K) (k : ℕ) (x : Pass K V) : Line K :=
  .row [.count k, .num (e.norm x.rhs / r₀), .num (updNorm (e.norm x.d) (e.norm x.a))]

/-- Both numbers are below the tolerances. -/
abbrev newmarkSmall (e : Env K V) (o : Opts K) (r₀ : K) (x : Pass K V) : Prop :=
  updNorm (e.norm x.d) (e.norm x.a) < o.tolU ∧ e.norm x.rhs / r₀ < o.tolF

/-- The line of an iteration of Bathe's method, second stage. -/
def batheRow (e : Env K V) (r₀ : K) (k : ℕ) (x : Pass K V) : Line K :=
  .row [.count k, .num (e.norm x.rhs / r₀), .quot (e.norm x.d) (e.norm x.u)]

/-- Both numbers are below the tolerances. -/
abbrev batheSmall (e : Env K V) (o : Opts K) (r₀ : K) (x : Pass K V) : Prop :=
  quotLt (e.norm x.d) (e.norm x.u) o.tolU = true ∧ e.norm x.rhs / r₀ < o.tolF

/-- The line of an iteration of the implicit Euler method. -/
def eulerRow (e : Env K V) (r₀ : K) (k : ℕ) (x : Pass K V) : Line K :=
  .row [.count k, .num (e.norm2 x.rhs x.rhs' / r₀), .num (updNorm (e.norm2 x.d x.d') (e.norm2 x.u x.v))]

/-- Both numbers are below the tolerances. -/
abbrev eulerSmall (e : Env K V) (o : Opts K) (r₀ : K) (x : Pass K V) : Prop :=
  updNorm (e.norm2 x.d x.d') (e.norm2 x.u x.v) < o.tolU ∧ e.norm2 x.rhs x.rhs' / r₀ < o.tolF

/-- The predictor of the nonlinear Newmark step. -/
structure NewmarkBegins (e : Env K V) (o : Opts K) (t dt : K) (s : DSt K V) (M : V →ₗ[K] V) (p : Pass K V) : Prop where
  u : p.u = s.u + dt • s.v + ((1 / 2 - o.alpha) * dt * dt) • s.a
  v : p.v = s.v + ((1 - o.delta) * dt) • s.a
  a : p.a = 0
  mass : ∃ i, e.mass i (t + dt) = .value M
  C : ∃ i, e.damping i p.u (t + dt) = .value p.C
  R : ∃ i, e.residual i p.u (t + dt) = .value p.R
  rhs : p.rhs = p.R - p.C p.v

/-- The start of the implicit Euler iteration. -/
structure EulerBegins (e : Env K V) (t dt : K) (s : DSt K V) (M : V →ₗ[K] V) (p : Pass K V) : Prop where
  u : p.u = s.u
  v : p.v = s.v
  mass : ∃ i, e.mass i (t + dt) = .value M
  C : ∃ i, e.damping i s.u (t + dt) = .value p.C
  R : ∃ i, e.residual i s.u (t + dt) = .value p.R

/-- The start of the second stage of Bathe's method: the displacement is that of the first stage, but the residual and
the damping are those of the displacement before the step. -/
structure BatheBegins (e : Env K V) (o : Opts K) (t dt : K) (s : DSt K V) (M : V →ₗ[K] V) (us vs : V) (p : Pass K V) :
    Prop where
  u : p.u = us
  mass : ∃ i, e.mass i (t + dt) = .value M
  C : ∃ i, e.damping i s.u (t + dt) = .value p.C
  R : ∃ i, e.residual i s.u (t + dt) = .value p.R
  rhs : p.rhs = p.R - M (c1 o dt • s.v + c2 o dt • vs + (c1 o dt * c3 o dt) • s.u + (c3 o dt * c2 o dt) • us
      + (c3 o dt * c3 o dt) • us) - p.C (c1 o dt • s.u + c2 o dt • us + c3 o dt • us)

variable (e : Env K V) (o : Opts K) (t dt : K) (s : DSt K V)

/-! ## Newmark -/

/-- **C137 (Newmark, nonlinear).** With the switch, a step whose callbacks succeed at the predictor `p` prints the header
and one line for each iteration, numbered from 0: the norm of the right hand side after the iteration relative to that
of the predictor (absolute if that one is zero), and the norm of the correction of the accelerations relative to that of
the accelerations. The iterations are Newton steps with the matrices of the last iterate, or older ones according to
`Quasi` and `QuasiIterations`. With `Success` the last line, and no other, has both numbers below the tolerances, and the
vectors are those of the last line. With `NotConverged` there are `MaxIter` lines and none has both numbers below the
tolerances; the vectors are those of the last one. After an exception there are fewer lines, again none with both
numbers below. If a callback fails at the predictor, nothing is printed. -/
theorem C137_newmark_table : let q := integrate .newmark true e o t dt s
    (∃ M p ys, NewmarkBegins e o t dt s M p ∧
      printed true .newmark true e o t dt s = columnsRU :: rowsFrom (newmarkRow e (nz (e.norm p.rhs))) 0 ys ∧
      Passes (NewmarkNext e o t dt M) 0 p ys ∧ (∀ y ∈ ys.dropLast, ¬ newmarkSmall e o (nz (e.norm p.rhs)) y) ∧
      Ends (newmarkSmall e o (nz (e.norm p.rhs))) Holds id o.maxIter.toNat p ys q.1 q.2) ∨
    ((∃ x, q.2 = .error x) ∧ printed true .newmark true e o t dt s = []) := by
  intro q
  rcases hq : integrate .newmark true e o t dt s with ⟨q', r⟩
  have hq0 : q = (q', r) := hq
  rw [hq0]
  clear_value q
  have h : newmarkN e o t dt s = (q', r) := hq
  unfold newmarkN at h
  rw [Act.bind_ok (Act.get_apply s)] at h
  unfold setUVA at h
  rw [Act.bind_ok (Act.modify_apply _ _)] at h
  have start : ∀ {l}, Prints _ _ _ _ l → Prints (integrateV true .newmark true e o t dt) s r q' l := fun {l} h' =>
    Prints.after (Act.get_apply s) (Prints.after (Act.modify_apply _ _) h')
  rcases Act.bind_cases h with ⟨s1, M, h1, h'⟩ | ⟨x, h1, rfl⟩
  · rcases Act.bind_cases h' with ⟨s2, C, h2, h''⟩ | ⟨x, h2, rfl⟩
    · rcases Act.bind_cases h'' with ⟨s3, R, h3, h4⟩ | ⟨x, h3, rfl⟩
      · obtain ⟨a1, rfl⟩ := call_ok h1
        obtain ⟨a2, rfl⟩ := call_ok h2
        obtain ⟨a3, rfl⟩ := call_ok h3
        left
        simp only [smul_zero, add_zero, map_zero, sub_zero] at a2 a3 h4
        obtain ⟨ys, b1, b2, b3, b4⟩ := loop_table (pass := fun it x => newmarkPass e o t dt M it x.C x.S x.rhs)
          (ok := newmarkSmall e o (nz (e.norm (R - C (s.v + ((1 - o.delta) * dt) • s.a)))))
          (row := newmarkRow e (nz (e.norm (R - C (s.v + ((1 - o.delta) * dt) • s.a))))) (g := id) (fin := pure)
          (finV := pure) (L := fun n it x => newmarkLoop e o t dt M _ n it x.C x.S x.rhs)
          (LV := fun v n it x => newmarkLoopV v e o t dt M _ n it x.C x.S x.rhs) (inv := Holds)
          (next := NewmarkNext e o t dt M) (fun _ _ => rfl) (fun st s => .ret st s) (fun _ _ => rfl)
          (fun n it x => newmarkLoop_pass _ _ _ _ _ _ _) (fun _ _ _ => rfl) (fun _ _ _ _ => rfl)
          (fun _ _ _ _ _ => newmarkPass_next) o.maxIter.toNat
          (x := ⟨s.u + dt • s.v + ((1 / 2 - o.alpha) * dt * dt) • s.a, s.v + ((1 - o.delta) * dt) • s.a, 0, 0, 0,
            R - C (s.v + ((1 - o.delta) * dt) • s.a), 0, R, C, 0⟩) ⟨by simp, by simp, rfl⟩ h4
        refine ⟨M, _, ys, ⟨rfl, rfl, rfl, ⟨_, a1⟩, ⟨_, a2⟩, ⟨_, a3⟩, rfl⟩, ?_, b2, b3, b4⟩
        refine printed_eq (start (.after h1 (.after h2 (.after h3 ?_))))
        have := Prints.bind (f := fun _ => newmarkLoopV true e o t dt M _ o.maxIter.toNat 0 C 0 _)
          (prints_say true columnsRU _) (b1 true)
        simpa using this
      · exact .inr ⟨⟨x, rfl⟩, printed_eq (start (.after h1 (.after h2 (.dead h3))))⟩
    · exact .inr ⟨⟨x, rfl⟩, printed_eq (start (.after h1 (.dead h2)))⟩
  · exact .inr ⟨⟨x, rfl⟩, printed_eq (start (.dead h1))⟩

/-- A table of two lines; none at all if the damping is refused at the predictor; only the header if it is refused in the
first iteration. -/
example : printed true .newmark true (demo fun _ => false) demoOpts 0 1 (DSt.init 1 0 0) =
      [columnsRU, .row [.count 0, .num 0, .num 1], .row [.count 1, .num 0, .num 0]] ∧
    printed true .newmark true (demo fun n => n = 1) demoOpts 0 1 (DSt.init 1 0 0) = [] ∧
    printed true .newmark true (demo fun n => n = 3) demoOpts 0 1 (DSt.init 1 0 0) = [columnsRU] := by
  decide +kernel

/-- **C137 (Newmark, linear).** A step prints the header and one line: the norm of the equation of motion at the new
vectors, not relative to anything, and the norm of the new displacements, which is no update. -/
theorem C137_newmark_linear {q : DSt K V} {r : Status} (h : integrate .newmark false e o t dt s = (q, .ok r)) :
    ∃ i j k l x M F C S, e.mass i (t + dt) = .value M ∧ e.force j (t + dt) = .value F ∧
      e.damping k x (t + dt) = .value C ∧ e.jacobian l x (t + dt) = .value S ∧
      printed true .newmark false e o t dt s =
        [columnsRU, .row [.count 0, .num (e.norm (F - S q.u - M q.a - C q.v)), .num (e.norm q.u)]] ∧
      ((∀ i (A : V →ₗ[K] V) (b : V), A (e.solve i A b) = b) → F - S q.u - M q.a - C q.v = 0) := by
  have h0 := h
  simp only [integrate, newmark, Bool.false_eq_true, if_false] at h
  unfold newmarkL at h
  rw [Act.bind_ok (Act.get_apply s)] at h
  obtain ⟨s1, M, h1, h'⟩ := Act.bind_ok_inv h
  clear h
  obtain ⟨s2, F, h2, h⟩ := Act.bind_ok_inv h'
  clear h'
  unfold setUV at h
  rw [Act.bind_ok (Act.modify_apply _ _)] at h
  obtain ⟨s3, C, h3, h'⟩ := Act.bind_ok_inv h
  clear h
  obtain ⟨s4, S, h4, h⟩ := Act.bind_ok_inv h'
  clear h'
  obtain ⟨s5, a, h5, h'⟩ := Act.bind_ok_inv h
  clear h
  have ha : ∃ i, a = e.solve i (M + (o.delta * dt) • C + (dt * dt * o.alpha) • S)
      (F - S (s.u + dt • s.v + ((1 / 2 - o.alpha) * dt * dt) • s.a) - C (s.v + ((1 - o.delta) * dt) • s.a)) := by
    unfold linSolve at h5
    rw [Act.bind_ok (Act.get_apply _), Act.pure_apply, Prod.mk.injEq, Except.ok.injEq] at h5
    exact ⟨_, h5.2.symm⟩
  unfold setUVA at h'
  rw [Act.bind_ok (Act.modify_apply _ _), Act.pure_apply, Prod.mk.injEq, Except.ok.injEq] at h'
  obtain ⟨rfl, rfl⟩ := h'
  refine ⟨_, _, _, _, _, M, F, C, S, (call_ok h1).1, (call_ok h2).1, (call_ok h3).1, (call_ok h4).1, ?_, ?_⟩
  · exact printed_eq (r := .ok _) (.after (Act.get_apply s) (.after h1 (.after h2 (.after (Act.modify_apply _ _)
      (.after h3 (.after h4 (.bind (l := [_]) (prints_say true columnsRU s4) (.after h5 (.after (Act.modify_apply _ _)
      (.bind (l := [_]) (l' := []) (prints_say true _ _) (.ret _ _)))))))))))
  · intro hs
    obtain ⟨i, hi⟩ := ha
    have := hs i (M + (o.delta * dt) • C + (dt * dt * o.alpha) • S)
      (F - S (s.u + dt • s.v + ((1 / 2 - o.alpha) * dt * dt) • s.a) - C (s.v + ((1 - o.delta) * dt) • s.a))
    rw [← hi] at this
    simp only [LinearMap.add_apply, LinearMap.smul_apply] at this
    simp only [map_add, map_smul]
    have e2 : F = M a + (o.delta * dt) • C a + (dt * dt * o.alpha) • S a
        + S (s.u + dt • s.v + ((1 / 2 - o.alpha) * dt * dt) • s.a) + C (s.v + ((1 - o.delta) * dt) • s.a) := by
      rw [this]; abel
    rw [e2]
    simp only [map_add, map_smul]
    module

example : printed true .newmark false (demo fun _ => false) demoOpts 0 1 (DSt.init 1 0 0) =
      [columnsRU, .row [.count 0, .num 0, .num (4 / 5)]] ∧
    (integrate .newmark false (demo fun _ => false) demoOpts 0 1 (DSt.init 1 0 0)).2 = .ok .success := by
  decide +kernel

/-! ## Wilson -/

/-- **C137 (Wilson).** What is printed is the table of the Newmark step of length `gamma dt`, and nothing about the step
itself; its status is not that of the table: it is `Success` even if the last line does not meet the criteria. -/
theorem C137_wilson (v nl : Bool) : printed v .wilson nl e o t dt s = printed v .newmark nl e o t (o.gamma * dt) s ∧
    ∀ q r, integrate .wilson nl e o t dt s = (q, .ok r) → r = .success := by
  constructor
  · have h := prints_onCopy (prints_integrate v .newmark nl e o t (o.gamma * dt) s)
    have key : ∀ {m : Act (Printer K V) Status} {f : Status × V × V × V → Act (Printer K V) Status}
        {g : Status × V × V × V → DSt K V → DSt K V} (_ : ∀ x, f x = quiet (Act.modify (g x)) >>= fun _ => pure .success)
        {n : Act (DSt K V) Status} {l : List (Line K)} (_ : Prints (onCopyV m) s (onCopy n s).2 (onCopy n s).1 l),
        ∃ r q, Prints (onCopyV m >>= f) s r q l := by
      intro m f g hf n l hp
      rcases hn : onCopy n s with ⟨u, r⟩
      rw [hn] at hp
      cases r with
      | ok x =>
        have h2 : Prints (f x) u (.ok .success) (g x u) [] := by
          rw [hf]
          exact .after (Act.modify_apply _ _) (.ret _ _)
        exact ⟨_, _, .congr (List.append_nil _) (.bind hp h2)⟩
      | error x => exact ⟨_, _, .fail hp⟩
    cases nl
    · obtain ⟨r, q, h1⟩ := key (fun _ => rfl) h
      exact printed_eq (m := .wilson) (nl := false) h1
    · obtain ⟨r, q, h1⟩ := key (fun _ => rfl) h
      exact printed_eq (m := .wilson) (nl := true) h1
  · intro q r h
    cases nl
    · obtain ⟨u, x, -, h⟩ := Act.bind_ok_inv h
      rw [Act.bind_ok (Act.modify_apply _ _), Act.pure_apply, Prod.mk.injEq, Except.ok.injEq] at h
      exact h.2.symm
    · obtain ⟨u, x, -, h⟩ := Act.bind_ok_inv h
      rw [Act.bind_ok (Act.modify_apply _ _), Act.pure_apply, Prod.mk.injEq, Except.ok.injEq] at h
      exact h.2.symm

/-- The residual does not depend on the displacement and the Jacobian is wrong: the table ends above the tolerance, the
status is `Success`. -/
example : let e : Env ℚ ℚ := { demo (fun _ => false) with residual := fun _ _ _ => .value 1 }
    let o := { demoOpts with maxIter := 2 }
    printed true .wilson true e o 0 1 (DSt.init 1 0 0) =
      [columnsRU, .row [.count 0, .num (1 / 17), .num 1], .row [.count 1, .num (1 / 289), .num (1 / 18)]] ∧
    (integrate .newmark true e o 0 (1 / 2) (DSt.init 1 0 0)).2 = .ok .notConverged ∧
    (integrate .wilson true e o 0 1 (DSt.init 1 0 0)).2 = .ok .success := by
  decide +kernel

/-! ## Euler -/

/-- **C137 (explicit Euler).** The only line shows, as `|R|`, the norm of the new displacements and velocities. -/
theorem C137_explicit {nl : Bool} {q : DSt K V} {r : Status} (h : integrate .explicitEuler nl e o t dt s = (q, .ok r)) :
    printed true .explicitEuler nl e o t dt s = [columnsR, .row [.count 0, .num (e.norm2 q.u q.v)]] := by
  cases nl
  · have h : explicitEulerL e t dt s = (q, .ok r) := h
    unfold explicitEulerL at h
    rw [Act.bind_ok (Act.get_apply s)] at h
    obtain ⟨s1, M, h1, h'⟩ := Act.bind_ok_inv h
    clear h
    obtain ⟨s2, M', h2, h⟩ := Act.bind_ok_inv h'
    clear h'
    obtain ⟨s3, F, h3, h'⟩ := Act.bind_ok_inv h
    clear h
    obtain ⟨s4, C, h4, h⟩ := Act.bind_ok_inv h'
    clear h'
    obtain ⟨s5, S, h5, h'⟩ := Act.bind_ok_inv h
    clear h
    unfold setUV at h'
    rw [Act.bind_ok (Act.modify_apply _ _), Act.pure_apply, Prod.mk.injEq, Except.ok.injEq] at h'
    obtain ⟨rfl, rfl⟩ := h'
    exact printed_eq (r := .ok _) (.after (Act.get_apply s) (.after h1 (.after h2 (.after h3 (.after h4 (.after h5
      (.bind (l := [_]) (prints_say true columnsR s5) (.bind (l := [_]) (l' := []) (prints_say true _ _)
      (.after (Act.modify_apply _ _) (.ret _ _))))))))))
  · have h : explicitEulerN e t dt s = (q, .ok r) := h
    unfold explicitEulerN at h
    rw [Act.bind_ok (Act.get_apply s)] at h
    obtain ⟨s1, M, h1, h'⟩ := Act.bind_ok_inv h
    clear h
    obtain ⟨s2, M', h2, h⟩ := Act.bind_ok_inv h'
    clear h'
    obtain ⟨s3, C, h3, h'⟩ := Act.bind_ok_inv h
    clear h
    obtain ⟨s4, R, h4, h⟩ := Act.bind_ok_inv h'
    clear h'
    unfold setUV at h
    rw [Act.bind_ok (Act.modify_apply _ _), Act.pure_apply, Prod.mk.injEq, Except.ok.injEq] at h
    obtain ⟨rfl, rfl⟩ := h
    exact printed_eq (r := .ok _) (.after (Act.get_apply s) (.after h1 (.after h2 (.after h3 (.after h4
      (.bind (l := [_]) (prints_say true columnsR s4) (.bind (l := [_]) (l' := []) (prints_say true _ _)
      (.after (Act.modify_apply _ _) (.ret _ _)))))))))

/-- With `u = 1`, `v = -1` after the step `|R|` is 2. -/
example : printed true .explicitEuler true (demo fun _ => false) demoOpts 0 1 (DSt.init 1 0 0) =
      [columnsR, .row [.count 0, .num 2]] ∧
    (integrate .explicitEuler true (demo fun _ => false) demoOpts 0 1 (DSt.init 1 0 0)).2 = .ok .success := by
  decide +kernel

/-- **C137, violation (implicit Euler, linear).** The only line has nothing to do with the step: it shows the norm of the
displacements and velocities before the step, and zero. -/
theorem C137_violated_euler {q : DSt K V} {r : Status} (h : integrate .implicitEuler false e o t dt s = (q, .ok r)) :
    printed true .implicitEuler false e o t dt s =
      [columnsRU, .row [.count 0, .num (e.norm2 s.u s.v), .num 0]] := by
  have h : implicitEulerL e t dt s = (q, .ok r) := h
  unfold implicitEulerL at h
  rw [Act.bind_ok (Act.get_apply s)] at h
  obtain ⟨s1, M, h1, h'⟩ := Act.bind_ok_inv h
  clear h
  obtain ⟨s2, F, h2, h⟩ := Act.bind_ok_inv h'
  clear h'
  obtain ⟨s3, C, h3, h'⟩ := Act.bind_ok_inv h
  clear h
  obtain ⟨s4, S, h4, h⟩ := Act.bind_ok_inv h'
  clear h'
  obtain ⟨s5, x, h5, h'⟩ := Act.bind_ok_inv h
  clear h
  exact printed_eq (r := .ok .success) (.after (Act.get_apply s) (.after h1 (.after h2 (.after h3 (.after h4
    (.after h5 (.after (Act.modify_apply _ _) (.bind (l := [_]) (prints_say true columnsRU _)
    (.bind (l := [_]) (l' := []) (prints_say true _ _) (.ret _ _))))))))))

example : printed true .implicitEuler false (demo fun _ => false) demoOpts 0 1 (DSt.init 1 0 0) =
      [columnsRU, .row [.count 0, .num 1, .num 0]] ∧
    (integrate .implicitEuler false (demo fun _ => false) demoOpts 0 1 (DSt.init 1 0 0)).2 = .ok .success := by
  decide +kernel

/-- **C137 (implicit Euler, nonlinear).** As for Newmark's method, with corrections of displacements and velocities; but
the first number of a line, and the criterion, belong to the iterate before the correction, and the residual in it,
except for the first line, to time `t` instead of `t + dt`. -/
theorem C137_euler_table : let q := integrate .implicitEuler true e o t dt s
    (∃ M p ys, EulerBegins e t dt s M p ∧
      let r₀ := nz (e.norm2 (-(dt • s.v)) (dt • p.C s.v - dt • p.R))
      printed true .implicitEuler true e o t dt s = columnsRU :: rowsFrom (eulerRow e r₀) 0 ys ∧
      Passes (EulerNext e o t dt s.u s.v M) 0 p ys ∧ (∀ y ∈ ys.dropLast, ¬ eulerSmall e o r₀ y) ∧
      Ends (eulerSmall e o r₀) Holds id o.maxIter.toNat p ys q.1 q.2) ∨
    ((∃ x, q.2 = .error x) ∧ printed true .implicitEuler true e o t dt s = []) := by
  intro q
  rcases hq : integrate .implicitEuler true e o t dt s with ⟨q', r⟩
  have hq0 : q = (q', r) := hq
  rw [hq0]
  clear_value q
  have h : implicitEulerN e o t dt s = (q', r) := hq
  unfold implicitEulerN at h
  rw [Act.bind_ok (Act.get_apply s)] at h
  have start : ∀ {l}, Prints _ _ _ _ l → Prints (integrateV true .implicitEuler true e o t dt) s r q' l :=
    fun {l} h' => Prints.after (Act.get_apply s) h'
  rcases Act.bind_cases h with ⟨s1, M, h1, h'⟩ | ⟨x, h1, rfl⟩
  · rcases Act.bind_cases h' with ⟨s2, C, h2, h''⟩ | ⟨x, h2, rfl⟩
    · rcases Act.bind_cases h'' with ⟨s3, R, h3, h4⟩ | ⟨x, h3, rfl⟩
      · obtain ⟨a1, rfl⟩ := call_ok h1
        obtain ⟨a2, rfl⟩ := call_ok h2
        obtain ⟨a3, rfl⟩ := call_ok h3
        left
        simp only [smul_neg, ← sub_eq_add_neg] at h4
        obtain ⟨ys, b1, b2, b3, b4⟩ := loop_table
          (pass := fun it x => implicitEulerPass e o t dt s.u s.v M it x.C x.S x.R)
          (ok := eulerSmall e o (nz (e.norm2 (-(dt • s.v)) (dt • C s.v - dt • R))))
          (row := eulerRow e (nz (e.norm2 (-(dt • s.v)) (dt • C s.v - dt • R)))) (g := id) (fin := pure)
          (finV := pure) (L := fun n it x => implicitEulerLoop e o t dt s.u s.v M _ n it x.C x.S x.R)
          (LV := fun v n it x => implicitEulerLoopV v e o t dt s.u s.v M _ n it x.C x.S x.R) (inv := Holds)
          (next := EulerNext e o t dt s.u s.v M) (fun _ _ => rfl) (fun st s => .ret st s) (fun _ _ => rfl)
          (fun n it x => implicitEulerLoop_pass _ _ _ _ _ _ _ _ _) (fun _ _ _ => rfl) (fun _ _ _ _ => rfl)
          (fun _ _ _ _ _ => implicitEulerPass_next) o.maxIter.toNat
          (x := ⟨s.u, s.v, s.a, 0, 0, 0, 0, R, C, 0⟩) ⟨by simp, by simp, by simp⟩ h4
        refine ⟨M, _, ys, ⟨rfl, rfl, ⟨_, a1⟩, ⟨_, a2⟩, ⟨_, a3⟩⟩, ?_, b2, b3, b4⟩
        refine printed_eq (start (.after h1 (.after h2 (.after h3 ?_))))
        have := Prints.bind (f := fun _ => implicitEulerLoopV true e o t dt s.u s.v M _ o.maxIter.toNat 0 C 0 R)
          (prints_say true columnsRU _) (b1 true)
        simpa [sub_eq_add_neg] using this
      · exact .inr ⟨⟨x, rfl⟩, printed_eq (start (.after h1 (.after h2 (.dead h3))))⟩
    · exact .inr ⟨⟨x, rfl⟩, printed_eq (start (.after h1 (.dead h2)))⟩
  · exact .inr ⟨⟨x, rfl⟩, printed_eq (start (.dead h1))⟩

example : printed true .implicitEuler true kick demoOpts 0 1 (DSt.init 1 0 0) = [columnsRU,
    .row [.count 0, .num 1, .num (2 / 3)], .row [.count 1, .num 1, .num 2], .row [.count 2, .num 0, .num 0]] := by
  decide +kernel

/-! ## Bathe -/

/-- **C137 (Bathe, nonlinear).** The output is `Stage 1:`, the table of the Newmark step of length `gamma dt` and, if that
step and the callbacks after it throw nothing, a second table, without `Stage 2:`. The criteria of the second table are
those of the Newmark table; its second number is the norm of the correction of the displacements relative to that of the
displacements. -/
theorem C137_bathe_table : let q := integrate .bathe true e o t dt s
    let f := integrate .newmark true e o t (o.gamma * dt) s
    (∃ M p ys, (∃ st, f.2 = .ok st) ∧ BatheBegins e o t dt s M f.1.u f.1.v p ∧
      let r₀ := nz (e.norm p.rhs)
      printed true .bathe true e o t dt s =
        .stage 1 :: printed true .newmark true e o t (o.gamma * dt) s ++ columnsRU :: rowsFrom (batheRow e r₀) 0 ys ∧
      Passes (BatheNext e o t dt M s.u s.v f.1.u f.1.v) 0 p ys ∧ (∀ y ∈ ys.dropLast, ¬ batheSmall e o r₀ y) ∧
      Ends (batheSmall e o r₀) (fun s x => x.u = s.u) (batheEnd o dt s.u s.v f.1.u f.1.v) o.maxIter.toNat p ys
        q.1 q.2) ∨
    ((∃ x, q.2 = .error x) ∧
      printed true .bathe true e o t dt s = .stage 1 :: printed true .newmark true e o t (o.gamma * dt) s) := by
  intro q f
  rcases hq : integrate .bathe true e o t dt s with ⟨q', r⟩
  have hq0 : q = (q', r) := hq
  rw [hq0]
  clear_value q
  have h : batheN e o t dt s = (q', r) := hq
  unfold batheN at h
  rw [Act.bind_ok (Act.get_apply s)] at h
  have hp := prints_onCopy (prints_integrate true .newmark true e o t (o.gamma * dt) s)
  have start : ∀ {l}, Prints _ _ _ _ l →
      Prints (integrateV true .bathe true e o t dt) s r q' (.stage 1 :: l) :=
    fun {l} h' => Prints.after (Act.get_apply s) (Prints.bind (l := [_]) (prints_say true (.stage 1) s) h')
  rcases hf : integrate .newmark true e o t (o.gamma * dt) s with ⟨w, r1⟩
  have hf0 : f = (w, r1) := hf
  rw [hf0]
  clear_value f
  cases r1 with
  | error x =>
    have hc : onCopy (newmark true e o t (o.gamma * dt)) s = ({ w with u := s.u, v := s.v, a := s.a }, .error x) := by
      have : newmark true e o t (o.gamma * dt) s = (w, .error x) := hf
      simp only [onCopy, this]
    rw [Act.bind_error hc, Prod.mk.injEq] at h
    obtain ⟨rfl, rfl⟩ := h
    have hp' : Prints (onCopyV (newmarkV true true e o t (o.gamma * dt))) s
        (onCopy (newmark true e o t (o.gamma * dt)) s).2 (onCopy (newmark true e o t (o.gamma * dt)) s).1 _ := hp
    rw [hc] at hp'
    exact .inr ⟨⟨x, rfl⟩, printed_eq (start (.fail hp'))⟩
  | ok st =>
    have hc : onCopy (newmark true e o t (o.gamma * dt)) s =
        ({ w with u := s.u, v := s.v, a := s.a }, .ok (st, w.u, w.v, w.a)) := onCopy_ok hf
    rw [Act.bind_ok hc] at h
    have hp' : Prints (onCopyV (newmarkV true true e o t (o.gamma * dt))) s
        (onCopy (newmark true e o t (o.gamma * dt)) s).2 (onCopy (newmark true e o t (o.gamma * dt)) s).1 _ := hp
    rw [hc] at hp'
    have start' : ∀ {l}, Prints _ _ _ _ l → Prints (integrateV true .bathe true e o t dt) s r q'
        (.stage 1 :: (printed true .newmark true e o t (o.gamma * dt) s ++ l)) :=
      fun {l} h' => start (.bind hp' h')
    have err : ∀ {x : Err}, Prints _ _ _ _ [] → r = .error x → (∃ x, r = .error x) ∧
        printed true .bathe true e o t dt s = .stage 1 :: printed true .newmark true e o t (o.gamma * dt) s :=
      fun {x} h' hx => ⟨⟨x, hx⟩, by rw [printed_eq (start' h'), List.append_nil]⟩
    rcases Act.bind_cases h with ⟨s1, M, h1, h'⟩ | ⟨x, h1, hr⟩
    · rcases Act.bind_cases h' with ⟨s2, C, h2, h''⟩ | ⟨x, h2, hr⟩
      · rcases Act.bind_cases h'' with ⟨s3, R, h3, h4⟩ | ⟨x, h3, hr⟩
        · obtain ⟨a1, rfl⟩ := call_ok h1
          obtain ⟨a2, rfl⟩ := call_ok h2
          obtain ⟨a3, rfl⟩ := call_ok h3
          left
          unfold setUVA at h4
          rw [Act.bind_ok (Act.modify_apply _ _)] at h4
          obtain ⟨ys, b1, b2, b3, b4⟩ := loop_table
            (pass := fun it x => bathePass e o t dt M s.u s.v w.u w.v it x.C x.S x.rhs)
            (ok := batheSmall e o (nz (e.norm (batheRhs o dt M C s.u s.v w.u w.v R w.u))))
            (row := batheRow e (nz (e.norm (batheRhs o dt M C s.u s.v w.u w.v R w.u))))
            (g := batheEnd o dt s.u s.v w.u w.v)
            (fin := fun st => Act.modify (batheEnd o dt s.u s.v w.u w.v) >>= fun _ => pure st)
            (finV := fun st => quiet (Act.modify (batheEnd o dt s.u s.v w.u w.v)) >>= fun _ => pure st)
            (L := fun n it x => batheLoop e o t dt M s.u s.v w.u w.v _ n it x.C x.S x.rhs)
            (LV := fun v n it x => batheLoopV v e o t dt M s.u s.v w.u w.v _ n it x.C x.S x.rhs)
            (inv := fun s x => x.u = s.u)
            (next := BatheNext e o t dt M s.u s.v w.u w.v) (fun _ _ => rfl)
            (fun st s => .after (Act.modify_apply _ _) (.ret st _)) (fun _ _ => rfl)
            (fun n it x => batheLoop_pass _ _ _ _ _ _ _ _ _ _ _) (fun _ _ _ => rfl) (fun _ _ _ _ => rfl)
            (fun _ _ _ _ _ => bathePass_next) o.maxIter.toNat
            (x := ⟨w.u, w.v, w.a, 0, 0, batheRhs o dt M C s.u s.v w.u w.v R w.u, 0, R, C, 0⟩) (by simp) h4
          refine ⟨M, _, ys, ⟨st, rfl⟩, ⟨rfl, ⟨_, a1⟩, ⟨_, a2⟩, ⟨_, a3⟩, rfl⟩, ?_, b2, b3, b4⟩
          refine printed_eq (start' (.after h1 (.after h2 (.after h3 (.after (Act.modify_apply _ _) ?_)))))
          have := Prints.bind (f := fun _ => batheLoopV true e o t dt M s.u s.v w.u w.v _ o.maxIter.toNat 0 C 0 _)
            (prints_say true columnsRU _) (b1 true)
          simpa using this
        · exact .inr (err (.after h1 (.after h2 (hr ▸ .dead h3))) hr)
      · exact .inr (err (.after h1 (hr ▸ .dead h2)) hr)
    · exact .inr (err (hr ▸ .dead h1) hr)

/-- Two tables; if the first stage throws there is only `Stage 1:`. -/
example : printed true .bathe true (demo fun _ => false) demoOpts 0 1 (DSt.init 1 0 0) =
      [.stage 1, columnsRU, .row [.count 0, .num 0, .num 1], .row [.count 1, .num 0, .num 0],
        columnsRU, .row [.count 0, .num (1 / 36), .quot (18 / 85) (62 / 85)],
        .row [.count 1, .num 0, .quot (1 / 170) (25 / 34)], .row [.count 2, .num 0, .quot 0 (25 / 34)]] ∧
    printed true .bathe true (demo fun n => n = 1) demoOpts 0 1 (DSt.init 1 0 0) = [.stage 1] := by
  decide +kernel

/-- **C137 (Bathe, linear).** The tables of the two stages; each has one line, as in Newmark's method. -/
theorem C137_bathe_linear {q : DSt K V} {r : Status} (h : integrate .bathe false e o t dt s = (q, .ok r)) :
    ∃ i j k l x M F C S, e.mass i (t + dt) = .value M ∧ e.force j (t + dt) = .value F ∧
      e.damping k x (t + dt) = .value C ∧ e.jacobian l x (t + dt) = .value S ∧
      printed true .bathe false e o t dt s = .stage 1 :: printed true .newmark false e o t (o.gamma * dt) s ++
        [.stage 2, columnsRU, .row [.count 0, .num (e.norm (F - S q.u - M q.a - C q.v)), .num (e.norm q.u)]] := by
  have h : batheL e o t dt s = (q, .ok r) := h
  unfold batheL at h
  rw [Act.bind_ok (Act.get_apply s)] at h
  obtain ⟨s0, ⟨st, us, vs, as⟩, h0, h'⟩ := Act.bind_ok_inv h
  clear h
  obtain ⟨s1, M, h1, h⟩ := Act.bind_ok_inv h'
  clear h'
  obtain ⟨s2, F, h2, h'⟩ := Act.bind_ok_inv h
  clear h
  obtain ⟨s3, C, h3, h⟩ := Act.bind_ok_inv h'
  clear h'
  obtain ⟨s4, S, h4, h'⟩ := Act.bind_ok_inv h
  clear h
  obtain ⟨s5, u, h5, h⟩ := Act.bind_ok_inv h'
  clear h'
  unfold setUVA at h
  rw [Act.bind_ok (Act.modify_apply _ _), Act.pure_apply, Prod.mk.injEq, Except.ok.injEq] at h
  obtain ⟨rfl, rfl⟩ := h
  have hp : Prints (onCopyV (newmarkV true false e o t (o.gamma * dt))) s
      (onCopy (newmark false e o t (o.gamma * dt)) s).2 (onCopy (newmark false e o t (o.gamma * dt)) s).1 _ :=
    prints_onCopy (prints_integrate true .newmark false e o t (o.gamma * dt) s)
  rw [h0] at hp
  refine ⟨_, _, _, _, _, M, F, C, S, (call_ok h1).1, (call_ok h2).1, (call_ok h3).1, (call_ok h4).1, ?_⟩
  exact printed_eq (r := .ok _) (.after (Act.get_apply s) (.bind (l := [_]) (prints_say true (.stage 1) s) (.bind hp
    (.after h1 (.after h2 (.after h3 (.after h4 (.bind (l := [_]) (prints_say true (.stage 2) s4)
    (.bind (l := [_]) (prints_say true columnsRU s4) (.after h5 (.after (Act.modify_apply _ _)
    (.bind (l := [_]) (l' := []) (prints_say true _ _) (.ret _ _)))))))))))))

example : printed true .bathe false (demo fun _ => false) demoOpts 0 1 (DSt.init 1 0 0) =
      [.stage 1, columnsRU, .row [.count 0, .num 0, .num (16 / 17)],
        .stage 2, columnsRU, .row [.count 0, .num 0, .num (25 / 34)]] ∧
    (integrate .bathe false (demo fun _ => false) demoOpts 0 1 (DSt.init 1 0 0)).2 = .ok .success := by
  decide +kernel

end GsSA.Dynamic
