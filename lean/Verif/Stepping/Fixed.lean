import Verif.Stepping.ALM
import Verif.ALM.Restart

/-!
# Programs with a fixed number of arc-length steps (C125)

Programs without a repetition of failed steps. `benchmarks/benchmark_Balloon.cpp` 342-350,
`benchmark_UniaxialTension.cpp` 332-340, `benchmark_MaterialTest.cpp` 461-469 and `benchmark_Cylinder.cpp` 334-342
end with `GISMO_ERROR`, an exception that nobody catches, at the first step that does not return Success;
`tutorials/nonlinear_shell_arcLength.cpp` 159-163 and `nonlinear_solid_arcLength.cpp` 136-140 do not look at what
`step()` returns. What the programs compute from the displacements (stretches, pressures, plots) is not modelled:
a row is the displacements and the load at the end of a pass.
-/

namespace GsSA.Stepping.Fixed

open GsSA GsSA.ALM GsSA.Stepping

set_option linter.unusedSectionVars false

section
variable {σ V K : Type}

/-- The tutorials: the status is ignored. -/
def ignoring (S : Solver σ V K) : ℕ → σ → List (V × K)
  | 0, _ => []
  | n + 1, t => (S.U (S.step t).1, S.L (S.step t).1) :: ignoring S n (S.step t).1

/-- The benchmarks: `false` if the program was ended by the exception. The rows are those of the passes before. -/
def aborting (S : Solver σ V K) : ℕ → σ → List (V × K) × Bool
  | 0, _ => ([], true)
  | n + 1, t =>
    if (S.step t).2 ≠ .success then ([], false)
    else ((S.U (S.step t).1, S.L (S.step t).1) :: (aborting S n (S.step t).1).1, (aborting S n (S.step t).1).2)

/-- The object after `i` calls of `step()`. -/
def after (S : Solver σ V K) : ℕ → σ → σ
  | 0, t => t
  | i + 1, t => after S i (S.step t).1

variable {S : Solver σ V K}

theorem after_succ (i : ℕ) (t : σ) : after S (i + 1) t = (S.step (after S i t)).1 := by
  induction i generalizing t with
  | zero => rfl
  | succ i ih => exact ih _

/-- **C125**: the tutorials write as many rows as steps were asked for; row `i` is the object after `i + 1`
calls of `step()`. -/
theorem C125_ignoring (n : ℕ) (t : σ) : (ignoring S n t).length = n ∧
    ∀ i < n, (ignoring S n t)[i]? = some (S.U (after S (i + 1) t), S.L (after S (i + 1) t)) := by
  induction n generalizing t with
  | zero => exact ⟨rfl, fun i hi => absurd hi (Nat.not_lt_zero i)⟩
  | succ n ih =>
    obtain ⟨h1, h2⟩ := ih (S.step t).1
    refine ⟨by simp [ignoring, h1], fun i hi => ?_⟩
    cases i with
    | zero => simp [ignoring, after]
    | succ i =>
      rw [ignoring, List.getElem?_cons_succ, h2 i (by omega)]
      rfl

/-- **C125**: a benchmark comes to its end exactly if all steps return Success, and has a row for every step then.
If not then there is a first step that does not return Success, and there are rows for those before. In both
cases row `i` is the object after `i + 1` calls of `step()`, the last of which returned Success. -/
theorem C125_aborting (n : ℕ) (t : σ) :
    ((aborting S n t).2 = true ↔ ∀ i < n, (S.step (after S i t)).2 = .success) ∧
    ((aborting S n t).2 = true → (aborting S n t).1.length = n) ∧
    ((aborting S n t).2 = false → (aborting S n t).1.length < n ∧
      (S.step (after S (aborting S n t).1.length t)).2 ≠ .success) ∧
    ∀ i < (aborting S n t).1.length, (S.step (after S i t)).2 = .success ∧
      (aborting S n t).1[i]? = some (S.U (after S (i + 1) t), S.L (after S (i + 1) t)) := by
  induction n generalizing t with
  | zero => simp [aborting]
  | succ n ih =>
    rw [aborting]
    by_cases h : (S.step t).2 = .success
    · rw [if_neg (by simpa using h)]
      obtain ⟨h1, h2, h3, h4⟩ := ih (S.step t).1
      refine ⟨h1.trans ⟨fun ha i hi => ?_, fun ha i hi => ha (i + 1) (by omega)⟩, fun ha => by simp [h2 ha], fun ha => ?_,
        fun i hi => ?_⟩
      · cases i with
        | zero => exact h
        | succ i => exact ha i (by omega)
      · obtain ⟨h5, h6⟩ := h3 ha
        exact ⟨by simpa using h5, by simpa [after] using h6⟩
      · cases i with
        | zero => exact ⟨h, rfl⟩
        | succ i =>
          obtain ⟨h5, h6⟩ := h4 i (by simpa using hi)
          exact ⟨h5, by rw [List.getElem?_cons_succ, h6]; rfl⟩
    · rw [if_pos h]
      refine ⟨⟨fun ha => by simp at ha, fun ha => absurd (ha 0 (by omega)) h⟩, by simp, fun _ => ⟨by simp, h⟩, by simp⟩

/-- **C125**: the tutorials and the benchmarks have the same rows up to the first step that does not return
Success. -/
theorem C125_prefix (n : ℕ) (t : σ) : (aborting S n t).1 <+: ignoring S n t := by
  induction n generalizing t with
  | zero => exact List.prefix_refl _
  | succ n ih =>
    rw [aborting]
    split
    · exact List.nil_prefix
    · exact List.prefix_cons_inj _ |>.2 (ih _)

end

variable {K V Mat Fac : Type} [Field K] [LinearOrder K] [IsStrictOrderedRing K] [AddCommGroup V] [Module K V]
variable {e : Env K V Mat Fac} {o : Opts K} {M : Method K V Mat Fac}

/-- **C125**: every row of a benchmark is in equilibrium up to the tolerance. -/
theorem C125_equilibrium (hM : IsMethod e o M) (hmax : 2 ≤ o.maxIt) (n : ℕ) (t : St K V Mat Fac) :
    ∀ r ∈ (aborting (alm e o M) n t).1, ∃ (k : ℕ) (x : V) (c : K), e.residual k r.1 r.2 = some x ∧
      e.geo.norm (c • e.forcing) ≠ 0 ∧ e.geo.norm x / e.geo.norm (c • e.forcing) < o.tolF := by
  intro r hr
  obtain ⟨i, hi, rfl⟩ := List.mem_iff_getElem.1 hr
  obtain ⟨h1, h2⟩ := (C125_aborting n t).2.2.2 i hi
  rw [List.getElem?_eq_getElem hi, Option.some.injEq] at h2
  have hs := alm_step hM (after (alm e o M) i t)
  rw [h1] at hs
  obtain ⟨q, k, x, -, hres, hn, hlt, -⟩ := C32_success hM hs hmax
  rw [h2, after_succ]
  exact ⟨k, x, _, hres, hn, hlt⟩

/-! ### After a failed step -/

/-- After a failed step the object is as before, as far as later steps depend on it. -/
theorem failed_agree [Inhabited Mat] {k : Kind} (hk : k = .consistent → o.phiUser = true)
    (ha : k = .crisfield → o.angle = .step) {s t : St K V Mat Fac} {st : Status} (hg : s.guess = none)
    (h : step e o (k.method e o) s = (t, .ok st)) (hst : st ≠ .success) :
    clear (before k true true o.phiUser) t = clear (before k true true o.phiUser) s ∧ t.guess = none := by
  obtain ⟨h1, h2⟩ := C113_failed ha hg h hst
  obtain ⟨f1, f2, f3, f4, f5, f6, -⟩ := C31_failure (k.isMethod e o) h hst
  simp only [memory, Memory.mk.injEq] at h1
  obtain ⟨m1, m2, m3, m4, m5, m6⟩ := h1
  have hp : pick (before k true true o.phiUser .phi) 0 t.phi = pick (before k true true o.phiUser .phi) 0 s.phi := by
    cases k
    · rfl
    · rfl
    · have := hk rfl
      simp only [this, if_true] at m6
      exact m6
    · cases hu : o.phiUser
      · rfl
      · simp only [hu, if_true] at m6
        exact m6
  have ht : before k true true o.phiUser .Ut = true := by
    cases k <;> simp [before]
    exact hk rfl
  refine ⟨?_, h2⟩
  have h3 : t.guess = s.guess := h2.trans hg.symm
  simp only [clear, hp, ht, pick_true, h3, f1, f2, f3, f4, f5, f6, m1, m2, m3, m4, m5]
  simp [before]

/-- **C125** violated: if a step does not return Success then no later step of a tutorial does: all return the
same, and the displacements and the load stay those of the last step that succeeded. For callbacks that are
functions of the displacements and the load. -/
theorem C125_violated_stuck {k : Kind} (hm : Memoryless e o k) (hk : k = .consistent → o.phiUser = true)
    (ha : k = .crisfield → o.angle = .step) {s : St K V Mat Fac} (hg : s.guess = none)
    (hf : ((alm e o (k.method e o)).step s).2 ≠ .success) (i : ℕ) :
    ((alm e o (k.method e o)).step (after (alm e o (k.method e o)) i s)).2 = ((alm e o (k.method e o)).step s).2 ∧
      (after (alm e o (k.method e o)) i s).U = s.U ∧ (after (alm e o (k.method e o)) i s).L = s.L := by
  have : Inhabited Mat := ⟨s.jac⟩
  have key : ∀ i, clear (before k true true o.phiUser) (after (alm e o (k.method e o)) i s) =
      clear (before k true true o.phiUser) s ∧ (after (alm e o (k.method e o)) i s).guess = none ∧
      ((alm e o (k.method e o)).step (after (alm e o (k.method e o)) i s)).2 = ((alm e o (k.method e o)).step s).2 := by
    intro i
    induction i with
    | zero => exact ⟨rfl, hg, rfl⟩
    | succ i ih =>
      obtain ⟨h1, h2, h3⟩ := ih
      have hs := alm_step (k.isMethod e o) (after (alm e o (k.method e o)) i s)
      obtain ⟨h4, h5⟩ := failed_agree hk ha h2 hs (by rw [h3]; exact hf)
      have h6 := h4.trans h1
      rw [after_succ]
      refine ⟨h6, h5, ?_⟩
      obtain ⟨h7, -, -⟩ := (k.sound (stab := true) fun _ => hm).step _ _ h6 h5
      rw [alm_step (k.isMethod e o), alm_step (k.isMethod e o) s] at h7
      simpa using h7
  obtain ⟨h1, -, h3⟩ := key i
  have hU : ∀ {γ : Type} (f : St K V Mat Fac → γ), f (clear (before k true true o.phiUser)
      (after (alm e o (k.method e o)) i s)) = f (clear (before k true true o.phiUser) s) := fun f => by rw [h1]
  exact ⟨h3, hU (·.U), hU (·.L)⟩

theorem after_add {σ V K : Type} {S : Solver σ V K} (i j : ℕ) (t : σ) : after S (i + j) t = after S j (after S i t) := by
  induction i generalizing t with
  | zero => simp [after]
  | succ i ih =>
    rw [Nat.succ_add]
    exact ih _

theorem after_guess {k : Kind} {s : St K V Mat Fac} (hg : s.guess = none) (i : ℕ) :
    (after (alm e o (k.method e o)) i s).guess = none := by
  induction i with
  | zero => exact hg
  | succ i ih =>
    rw [after_succ]
    have := (k.guessless (e := e) (o := o)).step (e := e) (o := o) _ ih
    rwa [alm_step (k.isMethod e o)] at this

/-- **C125** violated: the rows of a tutorial are those of a benchmark, followed by the last of them (or the point of
departure) as often as steps are left. -/
theorem C125_violated_rows {k : Kind} (hm : Memoryless e o k) (hk : k = .consistent → o.phiUser = true)
    (ha : k = .crisfield → o.angle = .step) {s : St K V Mat Fac} (hg : s.guess = none) (n : ℕ) :
    let rows := (aborting (alm e o (k.method e o)) n s).1
    ignoring (alm e o (k.method e o)) n s =
      rows ++ List.replicate (n - rows.length) (rows.getLast?.getD (s.U, s.L)) := by
  intro rows
  set S := alm e o (k.method e o) with hS
  obtain ⟨h1, h2⟩ := C125_ignoring (S := S) n s
  obtain ⟨h3, h4, h5, h6⟩ := C125_aborting (S := S) n s
  have hlen : rows.length ≤ n := by
    cases hb : (aborting S n s).2
    · exact (h5 hb).1.le
    · exact (h4 hb).le
  have hlast : rows.getLast?.getD (s.U, s.L) = ((after S rows.length s).U, (after S rows.length s).L) := by
    rw [List.getLast?_eq_getElem?]
    rcases Nat.eq_zero_or_pos rows.length with h0 | h0
    · rw [h0]
      have : rows = [] := List.length_eq_zero_iff.1 h0
      simp [this, after]
    · have := (h6 (rows.length - 1) (Nat.sub_lt h0 Nat.one_pos)).2
      rw [show rows.length - 1 + 1 = rows.length by omega] at this
      rw [this]
      rfl
  refine List.ext_getElem? fun i => ?_
  rcases Nat.lt_or_ge i n with hi | hi
  · rw [h2 i hi]
    rcases Nat.lt_or_ge i rows.length with hr | hr
    · rw [List.getElem?_append_left hr]
      exact (h6 i hr).2.symm
    · rw [List.getElem?_append_right hr, List.getElem?_replicate, if_pos (by omega), hlast]
      have hb : (aborting S n s).2 = false := by
        cases hb : (aborting S n s).2
        · rfl
        · have := h4 hb
          have h7 : rows.length = n := this
          omega
      have hst := (h5 hb).2
      obtain ⟨-, e2, e3⟩ := C125_violated_stuck hm hk ha (after_guess hg rows.length) hst (i + 1 - rows.length)
      rw [← hS, ← after_add, show rows.length + (i + 1 - rows.length) = i + 1 by omega] at e2 e3
      exact congrArg some (Prod.ext e2 e3)
  · rw [List.getElem?_eq_none (by omega), List.getElem?_eq_none (by simp; omega)]

/-- **C125**: so a tutorial shows equilibrium points only (or the point of departure). -/
theorem C125_tutorial {k : Kind} (hm : Memoryless e o k) (hk : k = .consistent → o.phiUser = true)
    (ha : k = .crisfield → o.angle = .step) (hmax : 2 ≤ o.maxIt) {s : St K V Mat Fac} (hg : s.guess = none) (n : ℕ) :
    ∀ r ∈ ignoring (alm e o (k.method e o)) n s, r = (s.U, s.L) ∨
      ∃ (j : ℕ) (x : V) (c : K), e.residual j r.1 r.2 = some x ∧
        e.geo.norm (c • e.forcing) ≠ 0 ∧ e.geo.norm x / e.geo.norm (c • e.forcing) < o.tolF := by
  intro r hr
  have h := C125_violated_rows hm hk ha hg n
  simp only at h
  rw [h, List.mem_append] at hr
  rcases hr with hr | hr
  · exact .inr (C125_equilibrium (k.isMethod e o) hmax n s r hr)
  · obtain ⟨-, rfl⟩ := List.mem_replicate.1 hr
    cases hl : (aborting (alm e o (k.method e o)) n s).1.getLast? with
    | none => exact .inl rfl
    | some x => exact .inr (C125_equilibrium (k.isMethod e o) hmax n s x (List.mem_of_getLast? hl))

/-! ### Examples -/

section examples

open Demo

/-- A spring with load `2 u` up to `u = 1` and `4 - 2 u` from there on: the largest load is 2. -/
def tent : Env ℚ ℚ ℚ ℚ :=
  { env 0 fine fine with
    residual := fun _ u l => some ((if u ≤ 1 then 2 * u else 4 - 2 * u) - l)
    jacobian := fun _ u _ => some (if u ≤ 1 then 2 else -2) }

/-- `C125_ignoring`, `C125_tutorial`, `C125_violated_rows`: load control over the largest load. The tutorial goes on
without a sign of failure. -/
example : ignoring (alm tent (opts 4 3) (loadControl tent)) 5 (Demo.start (3 / 4) false) =
    [(3 / 8, 3 / 4), (3 / 4, 3 / 2), (3 / 4, 3 / 2), (3 / 4, 3 / 2), (3 / 4, 3 / 2)] := by
  decide +kernel

/-- `C125_aborting`, `C125_equilibrium`, `C125_prefix`: a benchmark ends after two rows; with two steps it comes to
its end. -/
example : aborting (alm tent (opts 4 3) (loadControl tent)) 5 (Demo.start (3 / 4) false) =
      ([(3 / 8, 3 / 4), (3 / 4, 3 / 2)], false) ∧
    aborting (alm tent (opts 4 3) (loadControl tent)) 2 (Demo.start (3 / 4) false) =
      ([(3 / 8, 3 / 4), (3 / 4, 3 / 2)], true) := by
  decide +kernel

/-- `C125_violated_stuck`: its hypotheses for load control on the spring. -/
example : Memoryless tent (opts 4 3) .loadControl ∧ (Demo.start (3 / 4) false : St ℚ ℚ ℚ ℚ).guess = none := by
  refine ⟨⟨?_, by decide, fun h => nomatch h⟩, rfl⟩
  constructor <;> intros <;> rfl

end examples

end GsSA.Stepping.Fixed
