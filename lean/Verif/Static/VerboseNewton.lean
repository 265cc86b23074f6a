import Mathlib.Data.List.Chain
import Verif.Static.NewtonProps
import Verif.Static.Verbose

/-!
# Property C136 for `gsStaticNewton`: the option `verbose`
-/

namespace GsSA.Static

open GsSA GsSA.ALM

set_option linter.unusedSectionVars false

/-! ## Actions that print -/

section

variable {σ ρ α β : Type}

/-- From `s` the action `m` goes to `t` with result `r` and prints `l`, whatever has been printed before. -/
def Prints (m : Act (σ × List ρ) α) (s : σ) (r : Except Err α) (t : σ) (l : List ρ) : Prop :=
  ∀ out, m (s, out) = ((t, out ++ l), r)

theorem Prints.quiet {n : Act σ α} {s t : σ} {r : Except Err α} (h : n s = (t, r)) :
    Prints (ρ := ρ) (ALM.quiet n) s r t [] := by
  intro out
  change (((n s).1, out), (n s).2) = _
  rw [h, List.append_nil]

theorem Prints.line (f : σ → ρ) (s : σ) : Prints (printLine f) s (.ok ()) s [f s] := fun _ => rfl

theorem Prints.ret (a : α) (s : σ) : Prints (ρ := ρ) (pure a) s (.ok a) s [] := by
  intro out
  rw [List.append_nil]
  rfl

theorem Prints.throw (x : Err) (s : σ) : Prints (ρ := ρ) (α := α) (Act.throw x) s (.error x) s [] := by
  intro out
  rw [List.append_nil]
  rfl

theorem Prints.bind {m : Act (σ × List ρ) α} {f : α → Act (σ × List ρ) β} {s u t : σ} {a : α} {r : Except Err β}
    {l l' : List ρ} (h : Prints m s (.ok a) u l) (h' : Prints (f a) u r t l') : Prints (m >>= f) s r t (l ++ l') := by
  intro out
  rw [Act.bind_ok (h out), h' (out ++ l), List.append_assoc]

theorem Prints.fail {m : Act (σ × List ρ) α} {f : α → Act (σ × List ρ) β} {s t : σ} {x : Err} {l : List ρ}
    (h : Prints m s (.error x) t l) : Prints (m >>= f) s (.error x) t l := by
  intro out
  rw [Act.bind_error (h out)]

/-- After a silent part. -/
theorem Prints.after {n : Act σ α} {f : α → Act (σ × List ρ) β} {s u t : σ} {a : α} {r : Except Err β} {l : List ρ}
    (h : n s = (u, .ok a)) (h' : Prints (f a) u r t l) : Prints (ALM.quiet n >>= f) s r t l :=
  Prints.bind (l := []) (.quiet h) h'

/-- A silent part that fails. -/
theorem Prints.dead {n : Act σ α} {f : α → Act (σ × List ρ) β} {s t : σ} {x : Err} (h : n s = (t, .error x)) :
    Prints (ALM.quiet n >>= f) s (.error x) t [] :=
  .fail (.quiet h)

/-- A line that is printed if `c`. -/
theorem Prints.lineIf (c : Prop) [Decidable c] (f : σ → ρ) (s : σ) :
    Prints (if c then printLine f else pure ()) s (.ok ()) s (if c then [f s] else []) := by
  split
  · exact .line f s
  · exact .ret () s

end

namespace Newton

variable {K V Mat : Type} [Field K] [LinearOrder K] [AddCommGroup V] [Module K V]

/-- Is it a line of the table? -/
def _root_.GsSA.Static.Print.isRow : Print K V Mat → Bool
  | .row _ => true
  | _ => false

/-! ## Specification of the table -/

/-- What is known about an iteration: the matrix, the solution of the linear system, the sum of the relaxed solutions
so far, and the residual there. -/
structure Entry (V Mat : Type) where
  mat : Mat
  du : V
  DU : V
  R : V

/-- Iteration `y` follows `x` in a solve that started in `U` with the load `L`: its matrix is the Jacobian at
`U + x.DU`, its right-hand side the residual there, the update is relaxed, and the residual is evaluated at the new
displacements. -/
structure Follows (e : NEnv K V Mat) (o : Opts K) (U : V) (L : K) (x y : Entry V Mat) : Prop where
  mat : ∃ k, e.jacobian k (U + x.DU) x.du = some y.mat
  sol : ∃ k, e.solve k y.mat x.R = some y.du
  upd : y.DU = x.DU + o.relax • y.du
  res : ∃ k, e.residual k L (U + y.DU) = some y.R

/-- The columns of iteration `k`. `ini` is the residual to which the others are compared, `old` that of the iteration
before. -/
def line (e : NEnv K V Mat) (o : Opts K) (U : V) (ini old : K) (k : ℕ) (x : Entry V Mat) : List (Column K) :=
  [.count k, .num (e.norm x.R), .quot (e.norm x.R) ini, .num (e.norm x.DU), .num (o.relax * e.norm x.du),
    .quot (o.relax * e.norm x.du) (e.norm x.DU), .quot (o.relax * e.norm x.du) (e.norm (U + x.DU)), .log old ini,
    .log (e.norm x.R) ini]

/-- The linear system of an iteration, printed with `verbose = 2` only. -/
def system (verbose : ℤ) (m : Mat) (b : V) : List (Print K V Mat) :=
  if verbose = 2 then [.matrix m, .vector b] else []

/-- What is printed for the iterations `k`, `k + 1`, … if the residual before them is `R`, of which the table shows
the norm as `old`. -/
def table (verbose : ℤ) (e : NEnv K V Mat) (o : Opts K) (U : V) (ini : K) :
    ℕ → K → V → List (Entry V Mat) → List (Print K V Mat)
  | _, _, _, [] => []
  | k, old, R, x :: l =>
    system verbose x.mat R ++ .row (line e o U ini old k x) :: table verbose e o U ini (k + 1) (e.norm x.R) x.R l

/-- Both criteria hold for the numbers on the line of `x`. -/
def passes (e : NEnv K V Mat) (o : Opts K) (ini : K) (x : Entry V Mat) : Bool :=
  quotLt (o.relax * e.norm x.du) (e.norm x.DU) o.theTolU && quotLt (e.norm x.R) ini o.theTolF

/-! ## The parts of a solve -/

variable {e : NEnv K V Mat} {o : Opts K} {v : ℤ}

theorem prints_system (m : Mat) (b : V) (s : NSt K V) : Prints (showSystem v m b) s (.ok ()) s (system v m b) := by
  unfold showSystem system
  split
  · exact Prints.bind (.line _ s) (.line _ s)
  · exact .ret () s

/-- An action, whatever its result. -/
theorem run_cases {σ α : Type} (m : Act σ α) (s : σ) : (∃ t a, m s = (t, .ok a)) ∨ ∃ t x, m s = (t, .error x) := by
  rcases h : m s with ⟨t, a | a⟩
  · exact .inr ⟨t, a, rfl⟩
  · exact .inl ⟨t, a, rfl⟩

theorem prints_iteration {s t : NSt K V} (h : iteration e o s = (t, .ok ())) : ∃ x : Entry V Mat,
    (∃ k, e.jacobian k (s.U + s.upd) s.du = some x.mat) ∧ (∃ k, e.solve k x.mat s.R = some x.du) ∧
    x.DU = s.upd + o.relax • x.du ∧ (∃ k, e.residual k s.L (s.U + x.DU) = some x.R) ∧
    (∃ l, t = { s with
      du := x.du, DU := some x.DU, R := x.R, residual := e.norm x.R, residualOld := e.norm x.R, log := l }) ∧
    ∀ v, Prints (iterationV v e o) s (.ok ()) t (system v x.mat s.R ++
      if v > 0 then [.row (line e o s.U s.residualIni s.residualOld s.numIt x)] else []) := by
  unfold iteration at h
  rw [Act.bind_ok (Act.get_apply s)] at h
  obtain ⟨s1, m, h1, h⟩ := Act.bind_ok_inv h
  obtain ⟨s2, ⟨⟩, h2, h⟩ := Act.bind_ok_inv h
  obtain ⟨s3, d, h3, h⟩ := Act.bind_ok_inv h
  rw [Act.bind_ok (Act.modify_apply _ _), Act.bind_ok (Act.get_apply _)] at h
  obtain ⟨s4, R, h4, h⟩ := Act.bind_ok_inv h
  obtain ⟨a1, b1⟩ := computeJacobian_ok h1
  obtain ⟨a2, b2⟩ := factorizeMatrix_ok h2
  obtain ⟨a3, b3⟩ := solveSystem_ok h3
  obtain ⟨a4, b4⟩ := computeResidual_ok h4
  simp only [Act.modify_apply, Prod.mk.injEq] at h
  refine ⟨⟨m, d, s.upd + o.relax • d, R⟩, ⟨_, a1⟩, ⟨s2.log.length, ?_⟩, rfl, ⟨s3.log.length, ?_⟩, ⟨s4.log, ?_⟩, ?_⟩
  · exact a3
  · simpa [b3, b2, b1, NSt.upd] using a4
  · rw [← h.1, b4, b3, b2, b1]
    simp [NSt.upd]
  · intro v
    unfold iterationV
    refine .after (Act.get_apply s) (.after h1 (.bind (prints_system m s.R s1) (.after h2 (.after h3 (.after
      (Act.modify_apply _ _) (.after (Act.get_apply _) (.after h4 (.after (Act.modify_apply _ _) ?_))))))))
    have key : line e o s.U s.residualIni s.residualOld s.numIt ⟨m, d, s.upd + o.relax • d, R⟩ =
        cells e o { s4 with R := R, residual := e.norm R } := by
      subst b4 b3 b2 b1
      rfl
    rw [key, ← List.append_nil (if v > 0 then _ else _)]
    refine .bind (.lineIf (v > 0) (fun s => Print.row (cells e o s)) _) (.quiet ?_)
    rw [Act.modify_apply, ← h.1]

/-- What is printed for an iteration that fails: its system, if the matrix could be computed. -/
def trailer (v : ℤ) (m : Option Mat) (R : V) : List (Print K V Mat) :=
  match m with
  | none => []
  | some m => system v m R

theorem prints_iteration_error {s t : NSt K V} {x : Err} (h : iteration e o s = (t, .error x)) : ∃ m : Option Mat,
    (∀ a, m = some a → ∃ k, e.jacobian k (s.U + s.upd) s.du = some a) ∧
    ∀ v, Prints (iterationV v e o) s (.error x) t (trailer v m s.R) := by
  unfold iteration at h
  rw [Act.bind_ok (Act.get_apply s)] at h
  rcases Act.bind_cases h with ⟨s1, m, h1, h⟩ | ⟨y, h1, hy⟩
  · refine ⟨some m, ?_, fun v => ?_⟩
    · rintro a ⟨⟩
      exact ⟨_, (computeJacobian_ok h1).1⟩
    unfold iterationV
    change Prints _ _ _ _ (system v m s.R)
    rw [← List.append_nil (system v m s.R)]
    refine .after (Act.get_apply s) (.after h1 (.bind (prints_system m s.R s1) ?_))
    rcases Act.bind_cases h with ⟨s2, ⟨⟩, h2, h⟩ | ⟨y, h2, hy⟩
    · refine .after h2 ?_
      rcases Act.bind_cases h with ⟨s3, d, h3, h⟩ | ⟨y, h3, hy⟩
      · refine .after h3 ?_
        rw [Act.bind_ok (Act.modify_apply _ _), Act.bind_ok (Act.get_apply _)] at h
        refine .after (Act.modify_apply _ _) (.after (Act.get_apply _) ?_)
        rcases Act.bind_cases h with ⟨s4, R, h4, h⟩ | ⟨y, h4, hy⟩
        · simp at h
        · obtain rfl : x = y := by simpa using hy
          exact .dead h4
      · obtain rfl : x = y := by simpa using hy
        exact .dead h3
    · obtain rfl : x = y := by simpa using hy
      exact .dead h2
  · obtain rfl : x = y := by simpa using hy
    exact ⟨none, by simp, fun v => .after (Act.get_apply s) (.dead h1)⟩

/-- How a table ends. `xs` are the iterations on it, `m` is the matrix of a further iteration that failed; the
iterations have the numbers from `k₀`. -/
def Ends (e : NEnv K V Mat) (o : Opts K) (U : V) (ini : K) (k₀ : ℕ) (p : Entry V Mat) (xs : List (Entry V Mat))
    (m : Option Mat) (t : NSt K V) : Status → Prop
  | .success => m = none ∧ ∃ x, xs.getLast? = some x ∧ passes e o ini x = true ∧ t.U = U + x.DU ∧ t.DU = some x.DU ∧
      t.numIt + 1 = k₀ + xs.length
  | .notConverged => m = none ∧ ∃ x, xs.getLast? = some x ∧ passes e o ini x = false ∧ t.U = U + x.DU ∧
      t.DU = some x.DU ∧ k₀ + xs.length = o.maxIt
  | _ => (∀ x ∈ xs, passes e o ini x = false) ∧ t.U = U ∧ t.numIt = k₀ + xs.length ∧
      ∀ a, m = some a → ∃ k, e.jacobian k (U + (xs.getLastD p).DU) (xs.getLastD p).du = some a

theorem dropLast_cons {α : Type} {P : α → Prop} {x : α} {l : List α} (hx : P x) (hl : ∀ y ∈ l.dropLast, P y) :
    ∀ y ∈ (x :: l).dropLast, P y := by
  cases l with
  | nil => simp
  | cons z l =>
    intro y hy
    rw [List.dropLast_cons_cons] at hy
    rcases List.mem_cons.1 hy with rfl | hy
    · exact hx
    · exact hl y hy

theorem getLastD_cons_cons {α : Type} (x p : α) (l : List α) : (x :: l).getLastD p = l.getLastD x := by
  cases l with
  | nil => rfl
  | cons y l => rw [List.getLastD_cons, List.getLastD_cons]

theorem Ends.cons {U : V} {ini : K} {k₀ : ℕ} {p x : Entry V Mat} {xs : List (Entry V Mat)}
    {m : Option Mat} {t : NSt K V} {r : Status} (hx : passes e o ini x = false)
    (h : Ends e o U ini (k₀ + 1) x xs m t r) : Ends e o U ini k₀ p (x :: xs) m t r := by
  have hlast : ∀ y, xs.getLast? = some y → (x :: xs).getLast? = some y := by
    intro y hy
    rw [List.getLast?_cons, hy]
    rfl
  have hlastD : (x :: xs).getLastD p = xs.getLastD x := getLastD_cons_cons x p xs
  cases r with
  | success =>
    obtain ⟨h1, y, h2, h3, h4, h5, h6⟩ := h
    exact ⟨h1, y, hlast y h2, h3, h4, h5, by rw [h6, List.length_cons]; omega⟩
  | notConverged =>
    obtain ⟨h1, y, h2, h3, h4, h5, h6⟩ := h
    exact ⟨h1, y, hlast y h2, h3, h4, h5, by rw [List.length_cons]; omega⟩
  | _ =>
    obtain ⟨h1, h2, h3, h4⟩ := h
    refine ⟨?_, h2, by rw [h3, List.length_cons]; omega, by rw [hlastD]; exact h4⟩
    intro y hy
    rcases List.mem_cons.1 hy with rfl | hy
    · exact hx
    · exact h1 y hy

/-- The status that the handlers make of a result. -/
def outcome : Except Err Unit → Status
  | .ok _ => .success
  | .error x => statusOf x

theorem prints_loop {n : ℕ} {s t : NSt K V} {r : Except Err Unit} {p : Entry V Mat}
    (hn : s.numIt + (n + 1) = o.maxIt) (hDU : s.upd = p.DU) (hdu : s.du = p.du) (hR : s.R = p.R)
    (h : loop e o (n + 1) s = (t, r)) : ∃ xs m,
      (∀ v > 0, Prints (loopV v e o (n + 1)) s r t (table v e o s.U s.residualIni s.numIt s.residualOld s.R xs ++
        trailer v m (xs.getLastD p).R)) ∧
      List.IsChain (Follows e o s.U s.L) (p :: xs) ∧ (∀ x ∈ xs.dropLast, passes e o s.residualIni x = false) ∧
      Ends e o s.U s.residualIni s.numIt p xs m t (outcome r) := by
  induction n generalizing s p with
  | zero =>
    unfold loop at h
    rcases Act.bind_cases h with ⟨u, ⟨⟩, h1, h⟩ | ⟨y, h1, hy⟩
    · obtain ⟨x, a1, a2, a3, a4, ⟨l, rfl⟩, a5⟩ := prints_iteration h1
      have hf : Follows e o s.U s.L p x := ⟨by rwa [← hDU, ← hdu], by rwa [← hR], by rwa [← hDU], a4⟩
      have hp : ∀ b, converged e o { s with
          du := x.du, DU := some x.DU, R := x.R, residual := e.norm x.R, residualOld := e.norm x.R, log := l } = b →
          passes e o s.residualIni x = b := fun b hb => hb
      rw [Act.bind_ok (Act.get_apply _)] at h
      refine ⟨[x], none, ?_, .cons_cons hf (.singleton x), by simp, ?_⟩
      · intro v hv
        have a5 := a5 v
        rw [if_pos hv] at a5
        simp only [table, trailer, List.append_nil]
        rw [← List.append_nil (_ ++ [_])]
        unfold loopV
        refine .bind a5 (.after (Act.get_apply _) ?_)
        by_cases hc : converged e o { s with
            du := x.du, DU := some x.DU, R := x.R, residual := e.norm x.R, residualOld := e.norm x.R, log := l } = true
        · rw [if_pos hc] at h ⊢
          exact .quiet h
        · rw [if_neg hc, if_pos (by simp only; omega)] at h ⊢
          exact .quiet h
      · by_cases hc : converged e o { s with
            du := x.du, DU := some x.DU, R := x.R, residual := e.norm x.R, residualOld := e.norm x.R, log := l } = true
        · rw [if_pos hc] at h
          simp only [accept, Act.modify_apply, Prod.mk.injEq] at h
          obtain ⟨rfl, rfl⟩ := h
          exact ⟨rfl, x, rfl, hp _ hc, rfl, rfl, rfl⟩
        · rw [if_neg hc, if_pos (by simp only; omega)] at h
          simp only [accept, emit, Act.bind_apply, Act.modify_apply, Act.throw_apply, Prod.mk.injEq] at h
          obtain ⟨rfl, rfl⟩ := h
          exact ⟨rfl, x, rfl, hp _ (by simpa using hc), rfl, rfl, by simpa using hn⟩
    · obtain ⟨m, a2, a1⟩ := prints_iteration_error h1
      subst hy
      rw [hR] at a1
      refine ⟨[], m, fun v _ => ?_, .singleton p, by simp, ?_⟩
      · unfold loopV
        exact .fail (a1 v)
      have hk := (keeps_iteration e o).run h1
      simp only [fixed, Prod.mk.injEq] at hk
      rw [hDU, hdu] at a2
      have hy := errs_iteration e o s y (by rw [h1])
      rcases hy with rfl | rfl
      · exact ⟨by simp, hk.1, hk.2.2.2.2.1, a2⟩
      · exact ⟨by simp, hk.1, hk.2.2.2.2.1, a2⟩
  | succ n ih =>
    unfold loop at h
    rcases Act.bind_cases h with ⟨u, ⟨⟩, h1, h⟩ | ⟨y, h1, hy⟩
    · obtain ⟨x, a1, a2, a3, a4, ⟨l, rfl⟩, a5⟩ := prints_iteration h1
      have hf : Follows e o s.U s.L p x := ⟨by rwa [← hDU, ← hdu], by rwa [← hR], by rwa [← hDU], a4⟩
      have hp : ∀ b, converged e o { s with
          du := x.du, DU := some x.DU, R := x.R, residual := e.norm x.R, residualOld := e.norm x.R, log := l } = b →
          passes e o s.residualIni x = b := fun b hb => hb
      rw [Act.bind_ok (Act.get_apply _)] at h
      by_cases hc : converged e o { s with
          du := x.du, DU := some x.DU, R := x.R, residual := e.norm x.R, residualOld := e.norm x.R, log := l } = true
      · rw [if_pos hc] at h
        refine ⟨[x], none, ?_, .cons_cons hf (.singleton x), by simp, ?_⟩
        · intro v hv
          have a5 := a5 v
          rw [if_pos hv] at a5
          simp only [table, trailer, List.append_nil]
          rw [← List.append_nil (_ ++ [_])]
          unfold loopV
          refine .bind a5 (.after (Act.get_apply _) ?_)
          rw [if_pos hc]
          exact .quiet h
        · simp only [accept, Act.modify_apply, Prod.mk.injEq] at h
          obtain ⟨rfl, rfl⟩ := h
          exact ⟨rfl, x, rfl, hp _ hc, rfl, rfl, rfl⟩
      · rw [if_neg hc, if_neg (by simp only; omega), Act.bind_ok (Act.modify_apply _ _)] at h
        obtain ⟨xs, m, b1, b2, b3, b4⟩ := ih (p := x) (by simp only; omega) rfl rfl rfl h
        have hx := hp false (by simpa using hc)
        refine ⟨x :: xs, m, ?_, .cons_cons hf b2, dropLast_cons hx b3, b4.cons hx⟩
        intro v hv
        have a5 := a5 v
        rw [if_pos hv] at a5
        have : table v e o s.U s.residualIni s.numIt s.residualOld s.R (x :: xs) ++
              trailer v m ((x :: xs).getLastD p).R =
            (system v x.mat s.R ++ [.row (line e o s.U s.residualIni s.residualOld s.numIt x)]) ++
              (table v e o s.U s.residualIni (s.numIt + 1) (e.norm x.R) x.R xs ++ trailer v m (xs.getLastD x).R) := by
          rw [getLastD_cons_cons]
          simp [table]
        rw [this]
        unfold loopV
        refine .bind a5 (.after (Act.get_apply _) ?_)
        rw [if_neg hc, if_neg (by simp only; omega)]
        exact .after (Act.modify_apply _ _) (b1 v hv)
    · obtain ⟨m, a2, a1⟩ := prints_iteration_error h1
      subst hy
      rw [hR] at a1
      refine ⟨[], m, fun v _ => ?_, .singleton p, by simp, ?_⟩
      · unfold loopV
        exact .fail (a1 v)
      have hk := (keeps_iteration e o).run h1
      simp only [fixed, Prod.mk.injEq] at hk
      rw [hDU, hdu] at a2
      have hy := errs_iteration e o s y (by rw [h1])
      rcases hy with rfl | rfl
      · exact ⟨by simp, hk.1, hk.2.2.2.2.1, a2⟩
      · exact ⟨by simp, hk.1, hk.2.2.2.2.1, a2⟩

/-! ## The whole solve -/

theorem start_old {s t : NSt K V} (h : start e s = (t, .ok ())) : t.residualOld = nz (e.norm t.R) := by
  unfold start at h
  rw [Act.bind_ok (Act.get_apply s)] at h
  obtain ⟨u, ⟨⟩, h1, h⟩ := Act.bind_ok_inv h
  simp only [Act.modify_apply, Prod.mk.injEq] at h
  obtain ⟨rfl, -⟩ := h
  split at h1
  · obtain ⟨s1, R, h2, h1⟩ := Act.bind_ok_inv h1
    rw [Act.bind_ok (Act.modify_apply _ _)] at h1
    obtain ⟨s2, R₀, h3, h1⟩ := Act.bind_ok_inv h1
    obtain ⟨-, rfl⟩ := computeResidual_ok h3
    simp only [Act.modify_apply, Prod.mk.injEq] at h1
    obtain ⟨rfl, -⟩ := h1
    rfl
  · rw [Act.bind_ok (Act.modify_apply _ _)] at h1
    obtain ⟨s1, R, h2, h1⟩ := Act.bind_ok_inv h1
    simp only [Act.modify_apply, Prod.mk.injEq] at h1
    obtain ⟨rfl, -⟩ := h1
    rfl

/-- What is printed by the linear solve at the start. -/
def prelude (v : ℤ) (e : NEnv K V Mat) (s : NSt K V) : List (Print K V Mat) :=
  match s.DU with
  | none => system v e.linear e.force
  | some _ => []

theorem prints_linear {s t : NSt K V} {r : Except Err V} (h : solveLinearRaw e s = (t, r)) :
    Prints (solveLinearRawV v e) s r t (system v e.linear e.force) := by
  unfold solveLinearRaw at h
  unfold solveLinearRawV
  rw [← List.append_nil (system v _ _)]
  refine .bind (prints_system _ _ s) ?_
  rcases Act.bind_cases h with ⟨s1, ⟨⟩, h1, h⟩ | ⟨y, h1, rfl⟩
  · refine .after h1 ?_
    rcases Act.bind_cases h with ⟨s2, x, h2, h⟩ | ⟨y, h2, rfl⟩
    · refine .after h2 (.after (Act.modify_apply _ _) ?_)
      rw [Act.bind_ok (Act.modify_apply _ _), Act.pure_apply, Prod.mk.injEq] at h
      obtain ⟨rfl, rfl⟩ := h
      exact .ret x _
    · exact .dead h2
  · exact .dead h1

theorem prints_linearStart {s t : NSt K V} {r : Except Err Unit} (h : linearStart e s = (t, r)) :
    Prints (linearStartV v e) s r t (prelude v e s) := by
  unfold linearStart at h
  rw [Act.bind_ok (Act.get_apply s)] at h
  unfold linearStartV prelude
  refine .after (Act.get_apply s) ?_
  cases hd : s.DU with
  | some d =>
    rw [hd] at h
    simp only [Act.pure_apply, Prod.mk.injEq] at h
    obtain ⟨rfl, rfl⟩ := h
    exact .ret () s
  | none =>
    rw [hd] at h
    simp only at h ⊢
    rcases Act.bind_cases h with ⟨s1, x, h1, h⟩ | ⟨y, h1, rfl⟩
    · rw [← List.append_nil (system v _ _)]
      exact .bind (prints_linear h1) (.quiet h)
    · exact .fail (prints_linear h1)

/-- The start of a solve that gets to the table: the first point is `p`, and `R₀` the residual without an update. -/
structure Begins (e : NEnv K V Mat) (s : NSt K V) (p : Entry V Mat) (R₀ : V) : Prop where
  du : p.du = 0
  res : ∃ k, e.residual k s.L (base s + p.DU) = some p.R
  ini : ∃ k, e.residual k s.L (base s) = some R₀
  upd : ∀ d, s.DU = some d → p.DU = if s.headstart then d else 0
  lin : s.DU = none → ∃ k, e.solve k e.linear e.force = some p.DU

theorem prints_raw (hm : o.maxIt ≠ 0) {s t : NSt K V} {r : Except Err Unit}
    (h : solveNonlinearRaw e o s = (t, r)) :
    (∃ p R₀ xs m, Begins e s p R₀ ∧
      (∀ v > 0, Prints (solveNonlinearRawV v e o) s r t (prelude v e s ++ .header columns ::
        (table v e o (base s) (nz (e.norm R₀)) 0 (nz (e.norm p.R)) p.R xs ++ trailer v m (xs.getLastD p).R))) ∧
      List.IsChain (Follows e o (base s) s.L) (p :: xs) ∧
      (∀ x ∈ xs.dropLast, passes e o (nz (e.norm R₀)) x = false) ∧
      Ends e o (base s) (nz (e.norm R₀)) 0 p xs m t (outcome r)) ∨
    (∃ x, r = .error x ∧ Hard x ∧ ∀ v > 0, Prints (solveNonlinearRawV v e o) s r t (prelude v e s)) := by
  unfold solveNonlinearRaw at h
  rcases Act.bind_cases h with ⟨s1, ⟨⟩, h1, h⟩ | ⟨x, h1, rfl⟩
  · rcases Act.bind_cases h with ⟨s2, ⟨⟩, h2, h⟩ | ⟨x, h2, rfl⟩
    · left
      rw [Act.bind_ok (Act.modify_apply _ _)] at h
      have hu := started_of h1 h2
      have hold := start_old h2
      obtain ⟨n, hn⟩ := Nat.exists_eq_succ_of_ne_zero hm
      rw [hn] at h
      obtain ⟨k₀, R₀, hR₀, hini⟩ := hu.ini
      obtain ⟨xs, m, b1, b2, b3, b4⟩ := prints_loop (s := { s2 with numIt := 0 })
        (p := ⟨e.linear, 0, NSt.upd s2, s2.R⟩)
        (by simp only; omega) rfl hu.du rfl h
      simp only at hini b1 b2 b3 b4
      have hU : s2.U = base s := hu.hU
      have hL : s2.L = s.L := hu.hL
      rw [hini, hU] at b4
      rw [hU, hL] at b2
      rw [hini] at b3
      refine ⟨_, R₀, xs, m, ⟨rfl, hu.res, ⟨k₀, hR₀⟩, hu.upd, hu.lin⟩, ?_, b2, b3, b4⟩
      intro v hv
      have b1 := b1 v hv
      unfold solveNonlinearRawV
      rw [hn]
      refine .bind (prints_linearStart h1) (.after h2 ?_)
      rw [if_pos hv]
      refine .bind (.line _ s2) (.after (Act.modify_apply _ _) ?_)
      have key : table v e o s2.U s2.residualIni 0 s2.residualOld s2.R xs =
          table v e o (base s) (nz (e.norm R₀)) 0 (nz (e.norm s2.R)) s2.R xs := by rw [hini, hU, hold]
      rw [key] at b1
      exact b1
    · right
      refine ⟨x, rfl, (errs_start e).run h2, fun v _ => ?_⟩
      unfold solveNonlinearRawV
      rw [← List.append_nil (prelude v e s)]
      exact .bind (prints_linearStart h1) (.dead h2)
  · right
    exact ⟨x, rfl, (errs_linearStart e).run h1, fun v _ => .fail (prints_linearStart h1)⟩

theorem caughtV_prints {α : Type} {m : Act (Printer K V Mat) α} {n : Act (NSt K V) α} {s t : NSt K V} {r : Except Err α}
    {l : List (Print K V Mat)} (hn : n s = (t, r)) (h : Prints m s r t l) (out : List (Print K V Mat)) :
    caughtV m (s, out) = ((caught n s).1, ((caught n s).2, out ++ l)) := by
  unfold caughtV caught
  rw [h out, hn]
  cases r <;> rfl

/-- Without `verbose` the output is not touched. -/
theorem silent_system {v : ℤ} (hv : v ≠ 2) (m : Mat) (b : V) : system (K := K) v m b = [] := if_neg hv

theorem silent_iteration (hv : v ≤ 0) {s t : NSt K V} {r : Except Err Unit} (h : iteration e o s = (t, r)) :
    Prints (iterationV v e o) s r t [] := by
  cases r with
  | ok a =>
    obtain ⟨x, -, -, -, -, -, h5⟩ := prints_iteration h
    have h5 := h5 v
    rwa [silent_system (by omega), if_neg (by omega)] at h5
  | error err =>
    obtain ⟨m, -, h1⟩ := prints_iteration_error h
    have h1 := h1 v
    cases m with
    | none => exact h1
    | some m =>
      change Prints _ _ _ _ (system v m s.R) at h1
      rwa [silent_system (by omega)] at h1

theorem silent_loop (hv : v ≤ 0) {n : ℕ} {s t : NSt K V} {r : Except Err Unit} (h : loop e o n s = (t, r)) :
    Prints (loopV v e o n) s r t [] := by
  induction n generalizing s with
  | zero =>
    simp only [loop, Act.pure_apply, Prod.mk.injEq] at h
    obtain ⟨rfl, rfl⟩ := h
    exact .ret () s
  | succ n ih =>
    unfold loop at h
    unfold loopV
    rcases Act.bind_cases h with ⟨u, ⟨⟩, h1, h⟩ | ⟨y, h1, rfl⟩
    · rw [Act.bind_ok (Act.get_apply u)] at h
      refine .bind (l := []) (silent_iteration hv h1) (.after (Act.get_apply u) ?_)
      by_cases hc : converged e o u = true
      · rw [if_pos hc] at h ⊢
        exact .quiet h
      · rw [if_neg hc] at h ⊢
        by_cases hm : u.numIt + 1 = o.maxIt
        · rw [if_pos hm] at h ⊢
          exact .quiet h
        · rw [if_neg hm, Act.bind_ok (Act.modify_apply _ _)] at h
          rw [if_neg hm]
          exact .after (Act.modify_apply _ _) (ih h)
    · exact .fail (silent_iteration hv h1)

theorem silent_raw (hv : v ≤ 0) {s t : NSt K V} {r : Except Err Unit} (h : solveNonlinearRaw e o s = (t, r)) :
    Prints (solveNonlinearRawV v e o) s r t [] := by
  have hp : prelude (K := K) v e s = [] := by
    unfold prelude
    cases s.DU with
    | none => exact silent_system (by omega) _ _
    | some d => rfl
  unfold solveNonlinearRaw at h
  unfold solveNonlinearRawV
  rcases Act.bind_cases h with ⟨s1, ⟨⟩, h1, h⟩ | ⟨x, h1, rfl⟩
  · have h1' := prints_linearStart (v := v) h1
    rw [hp] at h1'
    refine .bind (l := []) h1' ?_
    rcases Act.bind_cases h with ⟨s2, ⟨⟩, h2, h⟩ | ⟨x, h2, rfl⟩
    · rw [Act.bind_ok (Act.modify_apply _ _)] at h
      refine .after h2 ?_
      rw [if_neg (by omega)]
      exact .bind (l := []) (.ret () s2) (.after (Act.modify_apply _ _) (silent_loop hv h))
    · exact .dead h2
  · have h1' := prints_linearStart (v := v) h1
    rw [hp] at h1'
    exact .fail h1'

/-- Without iterations: header only. -/
theorem empty_raw (hv : v > 0) (hm : o.maxIt = 0) {s t : NSt K V} {r : Except Err Unit}
    (h : solveNonlinearRaw e o s = (t, r)) :
    (r = .ok () ∧ Prints (solveNonlinearRawV v e o) s r t (prelude v e s ++ [.header columns])) ∨
    (∃ x, r = .error x ∧ Hard x ∧ Prints (solveNonlinearRawV v e o) s r t (prelude v e s)) := by
  unfold solveNonlinearRaw at h
  unfold solveNonlinearRawV
  rcases Act.bind_cases h with ⟨s1, ⟨⟩, h1, h⟩ | ⟨x, h1, rfl⟩
  · rcases Act.bind_cases h with ⟨s2, ⟨⟩, h2, h⟩ | ⟨x, h2, rfl⟩
    · left
      rw [Act.bind_ok (Act.modify_apply _ _), hm] at h
      simp only [loop, Act.pure_apply, Prod.mk.injEq] at h
      obtain ⟨rfl, rfl⟩ := h
      refine ⟨rfl, ?_⟩
      rw [hm]
      refine .bind (prints_linearStart h1) (.after h2 ?_)
      rw [if_pos hv]
      exact .bind (l' := []) (.line _ s2) (.after (Act.modify_apply _ _) (.ret () _))
    · right
      refine ⟨x, rfl, (errs_start e).run h2, ?_⟩
      rw [← List.append_nil (prelude v e s)]
      exact .bind (prints_linearStart h1) (.dead h2)
  · right
    exact ⟨x, rfl, (errs_linearStart e).run h1, .fail (prints_linearStart h1)⟩

end Newton

open Newton

variable {K V Mat : Type} [Field K] [LinearOrder K] [AddCommGroup V] [Module K V]

/-! ## C136 -/

/-- C136 for `gsStaticNewton`: `verbose` changes what is printed and nothing else. For every value of the option,
`solve()` returns the same status and leaves the same object as the solver without output; what was printed before
stays, and what is added does not depend on it. -/
theorem C136_newton_same (v : ℤ) (e : NEnv K V Mat) (o : Opts K) (s : NSt K V) : ∃ l, ∀ out,
    solveV v e o (s, out) = ((solve e o s).1, ((solve e o s).2, out ++ l)) := by
  unfold solveV solve
  by_cases hnl : s.nl = true
  · simp only [hnl, if_true]
    unfold solveNonlinearV solveNonlinear
    rcases h : solveNonlinearRaw e o s with ⟨t, r⟩
    by_cases hv : v ≤ 0
    · exact ⟨[], fun out => caughtV_prints h (silent_raw hv h) out⟩
    · by_cases hm : o.maxIt = 0
      · rcases empty_raw (v := v) (by omega) hm h with ⟨-, h1⟩ | ⟨x, -, -, h1⟩
        · exact ⟨_, fun out => caughtV_prints h h1 out⟩
        · exact ⟨_, fun out => caughtV_prints h h1 out⟩
      · rcases prints_raw hm h with ⟨p, R₀, xs, m, -, h1, -⟩ | ⟨x, -, -, h1⟩
        · exact ⟨_, fun out => caughtV_prints h (h1 v (by omega)) out⟩
        · exact ⟨_, fun out => caughtV_prints h (h1 v (by omega)) out⟩
  · simp only [hnl]
    unfold solveLinearV solveLinear
    rcases h : solveLinearRaw e s with ⟨t, r⟩
    exact ⟨_, fun out => caughtV_prints h (prints_linear h) out⟩

/-- C136: with `verbose ≤ 0`, hence also with the value -1 that makes `gsStaticDR` print every line, `gsStaticNewton`
prints nothing. -/
theorem C136_newton_silent {v : ℤ} (hv : v ≤ 0) (e : NEnv K V Mat) (o : Opts K) (s : NSt K V)
    (out : List (Print K V Mat)) : (solveV v e o (s, out)).2.2 = out := by
  unfold solveV
  by_cases hnl : s.nl = true
  · simp only [hnl, if_true]
    unfold solveNonlinearV
    rcases h : solveNonlinearRaw e o s with ⟨t, r⟩
    rw [caughtV_prints h (silent_raw hv h) out, List.append_nil]
  · simp only [hnl]
    unfold solveLinearV
    rcases h : solveLinearRaw e s with ⟨t, r⟩
    rw [if_neg (by simp), caughtV_prints h (prints_linear h) out, silent_system (by omega), List.append_nil]

/-- C136: `solveLinear()` prints the system it solves if `verbose` is 2, and otherwise nothing. -/
theorem C136_newton_linear (v : ℤ) (e : NEnv K V Mat) (s : NSt K V) (out : List (Print K V Mat)) :
    (solveLinearV v e (s, out)).2.2 = out ++ if v = 2 then [.matrix e.linear, .vector e.force] else [] := by
  unfold solveLinearV
  rcases h : solveLinearRaw e s with ⟨t, r⟩
  rw [caughtV_prints h (prints_linear h) out]
  rfl

/-- C136: the output of `solveNonlinear()` with `verbose > 0` is the table of its Newton iterations. `p` is the point
at which it starts, `R₀` the residual there without an update, and `xs` are the iterations with a line in the table;
each follows from the one before by a Newton step. A line shows the numbers of its iteration, and in column
`log(Ri/R0)` the last number of the line before. With `verbose = 2` the system of an iteration is printed before its
line, and that of the linear solve at the start before everything else.

With status `Success` the last line is the only one with both numbers below the tolerances, and `solution()` is the
point of the last line; there are `iterations() + 1` lines. With `NotConverged` there are `maxIt` lines, none with both
numbers below the tolerances, and the solution is the point of the last one. With `AssemblyError` and `SolverError` no
line has both numbers below the tolerances, and with `verbose = 2` what follows the last line is the system that was not
solved or led to a point without residual. If there is no residual at the start, or no solution of the linear problem
which is needed there, there is no table at all. -/
theorem C136_newton_table {e : NEnv K V Mat} {o : Opts K} (hm : o.maxIt ≠ 0) (s : NSt K V) :
    (∃ p R₀ xs m, Begins e s p R₀ ∧
      (∀ v > 0, ∀ out, (solveNonlinearV v e o (s, out)).2.2 = out ++ (prelude v e s ++ .header columns ::
        (table v e o (base s) (nz (e.norm R₀)) 0 (nz (e.norm p.R)) p.R xs ++ trailer v m (xs.getLastD p).R))) ∧
      List.IsChain (Follows e o (base s) s.L) (p :: xs) ∧
      (∀ x ∈ xs.dropLast, passes e o (nz (e.norm R₀)) x = false) ∧
      Ends e o (base s) (nz (e.norm R₀)) 0 p xs m (solveNonlinear e o s).2 (solveNonlinear e o s).1) ∨
    (((solveNonlinear e o s).1 = .assemblyError ∨ (solveNonlinear e o s).1 = .solverError) ∧
      ∀ v > 0, ∀ out, (solveNonlinearV v e o (s, out)).2.2 = out ++ prelude v e s) := by
  rcases h : solveNonlinearRaw e o s with ⟨t, r⟩
  rcases prints_raw hm h with ⟨p, R₀, xs, m, h1, h2, h3, h4, h5⟩ | ⟨x, rfl, hx, h1⟩
  · left
    refine ⟨p, R₀, xs, m, h1, fun v hv out => ?_, h3, h4, ?_⟩
    · unfold solveNonlinearV
      rw [caughtV_prints h (h2 v hv) out]
    · unfold solveNonlinear Newton.caught
      rw [h]
      cases r with
      | ok a => exact h5
      | error x =>
        cases x <;> exact h5
  · right
    constructor
    · unfold solveNonlinear Newton.caught
      rw [h]
      rcases hx with rfl | rfl
      · exact .inl rfl
      · exact .inr rfl
    · intro v hv out
      unfold solveNonlinearV
      rw [caughtV_prints h (h1 v hv) out]

theorem table_rows (v w : ℤ) (e : NEnv K V Mat) (o : Opts K) (U : V) (ini : K) (k : ℕ) (old : K) (R : V)
    (xs : List (Entry V Mat)) : (table v e o U ini k old R xs).filter Print.isRow =
      (table w e o U ini k old R xs).filter Print.isRow := by
  have hs : ∀ v (m : Mat) (b : V), (system (K := K) v m b).filter Print.isRow = [] := by
    intro v m b
    unfold system
    split <;> rfl
  induction xs generalizing k old R with
  | nil => rfl
  | cons x l ih => simp [table, hs, Print.isRow, List.filter_cons, ih (k + 1)]

/-- C136: the rows of the table do not depend on `verbose`, if it is positive. -/
theorem C136_newton_rows {v w : ℤ} (hv : 0 < v) (hw : 0 < w) {e : NEnv K V Mat} {o : Opts K} (hm : o.maxIt ≠ 0)
    (s : NSt K V) : (solveNonlinearV v e o (s, [])).2.2.filter Print.isRow =
      (solveNonlinearV w e o (s, [])).2.2.filter Print.isRow := by
  have hs : ∀ v (m : Mat) (b : V), (system (K := K) v m b).filter Print.isRow = [] := by
    intro v m b
    unfold system
    split <;> rfl
  have hp : ∀ v, (prelude (K := K) v e s).filter Print.isRow = [] := by
    intro v
    unfold prelude
    split
    · exact hs v _ _
    · rfl
  have ht : ∀ v (m : Option Mat) (b : V), (trailer (K := K) v m b).filter Print.isRow = [] := by
    intro v m b
    cases m with
    | none => rfl
    | some m => exact hs v m b
  rcases C136_newton_table (e := e) hm s with ⟨p, R₀, xs, m, -, h, -⟩ | ⟨-, h⟩
  · rw [h v hv, h w hw]
    simp only [List.nil_append, List.filter_append, hp, ht, List.filter_cons, List.append_nil]
    rw [table_rows v w]
  · rw [h v hv, h w hw]
    simp only [List.nil_append, hp]

/-! ## Examples -/

/-- `2 u + u³ = 3` with at most two iterations: the table has two lines, and the result is `NotConverged`. -/
example : (solveV 1 (Demo.nenv 3 1 fun _ => false) (Demo.nopts 2) (Demo.fresh 1, [])).2.2 =
      [.header columns,
        .row [.count 0, .num (27 / 8), .quot (27 / 8) 3, .num (3 / 2), .num (3 / 2), .quot (3 / 2) (3 / 2),
          .quot (3 / 2) (3 / 2), .log 3 3, .log (27 / 8) 3],
        .row [.count 1, .num (26244 / 42875), .quot (26244 / 42875) 3, .num (39 / 35), .num (27 / 70),
          .quot (27 / 70) (39 / 35), .quot (27 / 70) (39 / 35), .log (27 / 8) 3, .log (26244 / 42875) 3]] ∧
    (solveV 1 (Demo.nenv 3 1 fun _ => false) (Demo.nopts 2) (Demo.fresh 1, [])).1 = .notConverged := by
  decide +kernel

/-- With 25 iterations it converges: four lines, and the iteration number is 3. -/
example : (solveV 1 (Demo.nenv 3 1 fun _ => false) (Demo.nopts 25) (Demo.fresh 1, [])).2.2.length = 5 ∧
    (solveV 1 (Demo.nenv 3 1 fun _ => false) (Demo.nopts 25) (Demo.fresh 1, [])).1 = .success ∧
    (solveV 1 (Demo.nenv 3 1 fun _ => false) (Demo.nopts 25) (Demo.fresh 1, [])).2.1.numIt = 3 ∧
    (solveV (-1) (Demo.nenv 3 1 fun _ => false) (Demo.nopts 25) (Demo.fresh 1, [])).2.2 = [] := by
  decide +kernel

/-- With `verbose = 2`, without an update, and a residual callback that fails in the second iteration: the linear
problem, the header, system and line of the first iteration, and the system of the second. -/
example : (solveV 2 (Demo.nenv 3 1 fun n => n == 11) (Demo.nopts 25) (setUpdate (Demo.fresh 1) none, [])).2.2 =
      [.matrix 2, .vector 3, .header columns, .matrix (35 / 4), .vector (-27 / 8),
        .row [.count 0, .num (26244 / 42875), .quot (26244 / 42875) 3, .num (39 / 35), .num (27 / 70),
          .quot (27 / 70) (39 / 35), .quot (27 / 70) (39 / 35), .log (27 / 8) 3, .log (26244 / 42875) 3],
        .matrix (7013 / 1225), .vector (-26244 / 42875)] ∧
    (solveV 2 (Demo.nenv 3 1 fun n => n == 11) (Demo.nopts 25) (setUpdate (Demo.fresh 1) none, [])).1 =
      .assemblyError := by
  decide +kernel

/-- The hypothesis of `C136_newton_table` and `C136_newton_rows`. -/
example : (Demo.nopts 25).maxIt ≠ 0 := by decide

end GsSA.Static
