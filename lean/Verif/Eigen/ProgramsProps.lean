import Mathlib.Algebra.Order.Ring.Abs
import Mathlib.Algebra.Order.Ring.Rat
import Mathlib.Tactic.Linarith
import Mathlib.Tactic.Module
import Mathlib.Tactic.NormNum
import Verif.Eigen.Programs
import Verif.Eigen.Props

/-!
# The programs for modes of vibration and buckling (C128)
-/

namespace GsSA.Eigen

open GsSA
open GsSA.ALM (Err minCoeff)

set_option linter.unusedSectionVars false

variable {K V : Type} [Field K] [LinearOrder K] [AddCommGroup V] [Module K V]

/-! ### What the programs leave -/

theorem ensured_ok {r : ESt K V × Except Err Status} {s : ESt K V} : ensured r = .ok s ↔ r = (s, .ok .success) := by
  obtain ⟨t, r⟩ := r
  cases r with
  | error x => simp [ensured]
  | ok st => cases st <;> simp [ensured]

theorem ensured_error {r : ESt K V × Except Err Status} (h : ∀ s, r ≠ (s, .ok .success)) :
    ∃ x, ensured r = .error x := by
  cases hr : ensured r with
  | ok s => exact absurd (ensured_ok.1 hr) (h s)
  | error x => exact ⟨x, rfl⟩

/-- What the end of a program reports about the pairs of the solver. -/
structure Reports (sw : Switches K) (field : V → Except Err (List (Coefs K))) (n : ℕ)
    (file : List (Option K) → Option (EigFile K)) (s : ESt K V) (run : Run K) : Prop where
  ten : 10 ≤ s.values.length
  printed : run.printed = s.values.take 10
  modes : sw.plot = true → n ≤ s.vectors.length
  fields : sw.plot = true → List.Forall₂ (fun v f => field v = .ok f) (s.vectors.take n) run.fields
  unplotted : sw.plot = false → run.fields = []
  file : run.file = if sw.write then file s.values else none

theorem mapM_forall₂ {α β : Type} (f : α → Except Err β) (l : List α) (r : List β) (h : l.mapM f = .ok r) :
    List.Forall₂ (fun a b => f a = .ok b) l r := by
  induction l generalizing r with
  | nil =>
    simp only [List.mapM_nil] at h
    cases h
    exact .nil
  | cons a l ih =>
    rw [List.mapM_cons] at h
    cases ha : f a with
    | error x => rw [ha] at h; cases h
    | ok b =>
      rw [ha] at h
      cases hl : l.mapM f with
      | error x => rw [hl] at h; cases h
      | ok q =>
        rw [hl] at h
        cases h
        exact .cons ha (ih q hl)

theorem bind_ok {α β : Type} {x : Except Err α} {f : α → Except Err β} {b : β} (h : (x >>= f) = .ok b) :
    ∃ a, x = .ok a ∧ f a = .ok b := by
  cases x with
  | error e => cases h
  | ok a => exact ⟨a, rfl, h⟩

theorem output_ok {sw : Switches K} {field : V → Except Err (List (Coefs K))} {n : ℕ}
    {file : List (Option K) → Option (EigFile K)} {x : ℤ} {s : ESt K V} {run : Run K}
    (h : output sw field n file x s = .ok run) : Reports sw field n file s run ∧ run.exit = x := by
  obtain ⟨p, h1, h⟩ := bind_ok h
  obtain ⟨q, h2, h⟩ := bind_ok h
  cases h
  unfold firstTen at h1
  by_cases h10 : s.values.length < 10
  · rw [if_pos h10] at h1; cases h1
  · rw [if_neg h10] at h1
    cases h1
    unfold plotted plotAll at h2
    cases hp : sw.plot with
    | false =>
      rw [hp] at h2
      cases h2
      exact ⟨⟨by omega, rfl, by simp [hp], by simp [hp], fun _ => rfl, rfl⟩, rfl⟩
    | true =>
      rw [hp, if_pos rfl] at h2
      by_cases hn : s.vectors.length < n
      · rw [if_pos hn] at h2; cases h2
      · rw [if_neg hn] at h2
        exact ⟨⟨by omega, rfl, fun _ => by omega, fun _ => mapM_forall₂ _ _ _ h2, by simp [hp], rfl⟩, rfl⟩

/-- **C128**: a program for modes of vibration ends normally only if the solver reported success; what it printed,
plotted and wrote are then the first ten values, the first `nmodes` vectors and all values. -/
theorem C128_modal (P : PEnv K V) (o : Opts K) (n : ℤ) (sw : Switches K) (run : Run K) :
    (modalXML P o n sw = .ok run → ∃ s, computeSparse P.lib n (modal o P.stiffness P.mass) = (s, .ok .success) ∧
      Reports sw (modalField P) n.toNat (fun l => some (.millionths (l.map (Option.map sw.micro)))) s run ∧
      run.exit = 0) ∧
    (modalMultiXML P o n sw = .ok run → ∃ s, computeSparse P.lib n (modal o P.stiffness P.mass) = (s, .ok .success) ∧
      Reports sw (mappedField P) n.toNat (fun l => some (.digits (l.map (Option.map sw.sig12)))) s run ∧
      run.exit = 0) := by
  refine ⟨fun h => ?_, fun h => ?_⟩
  all_goals
    obtain ⟨s, h1, h2⟩ := bind_ok h
    exact ⟨s, ensured_ok.1 h1, output_ok h2⟩

/-- **C128**: the same for buckling, with the Jacobian at the result of the linear solver. -/
theorem C128_buckling (P : PEnv K V) (o : Opts K) (n : ℤ) (sw : Switches K) (run : Run K)
    (h : bucklingXML P o n sw = .ok run) :
    ∃ s N, P.jacobian (P.cg P.stiffness P.rhs).1 = (true, N) ∧
      computeSparse P.lib n (bucklingOf o P.stiffness N) = (s, .ok .success) ∧
      Reports sw (firstPatchField P) n.toNat (fun _ => none) s run ∧ run.exit = 0 := by
  obtain ⟨N, h0, h⟩ := bind_ok h
  obtain ⟨s, h1, h2⟩ := bind_ok h
  unfold jacobianAt at h0
  split at h0
  · rename_i M hM
    cases h0
    exact ⟨s, N, hM, ensured_ok.1 h1, output_ok h2⟩
  · cases h0

theorem C128_bucklingMulti (P : PEnv K V) (o : Opts K) (n : ℤ) (sw : Switches K) (run : Run K)
    (h : bucklingMultiXML P o n sw = .ok run) :
    ∃ s N, P.jacobian (P.cg P.stiffness P.rhs).1 = (true, N) ∧
      computeSparse P.lib n (bucklingOf o P.stiffness (N - P.stiffness)) = (s, .ok .success) ∧
      Reports sw (mappedField P) n.toNat (fun l => some (.digits (l.map (Option.map sw.sig12)))) s run ∧
      run.exit = 0 := by
  obtain ⟨N, h0, h⟩ := bind_ok h
  obtain ⟨s, h1, h2⟩ := bind_ok h
  unfold jacobianAt at h0
  split at h0
  · rename_i M hM
    cases h0
    exact ⟨s, N, hM, ensured_ok.1 h1, output_ok h2⟩
  · cases h0

/-- **C128**: the examples; without `sparse` they use the dense solver. -/
theorem C128_examples (P : PEnv K V) (sparse first : Bool) (shift : K) (sw : Switches K) (run : Run K) :
    (thinShellModal P sparse first shift sw = .ok run → ∃ s,
      Op.run P.lib (if sparse then .computeSparse 10 else .compute)
        (modal ⟨2, 0, 4, 2, 1 / 10 ^ 10, shift⟩ P.stiffness P.mass) = (s, .ok .success) ∧
      Reports sw (firstPatchField P) (if first then 1 else s.vectors.length)
        (fun l => some (.millionths (l.map (Option.map sw.micro)))) s run ∧ run.exit = 0) ∧
    (elasticityModal P sparse first shift sw = .ok run → ∃ s,
      Op.run P.lib (if sparse then .computeSparse 10 else .compute)
        (modal ⟨2, 0, 4, 2, 1 / 10 ^ 10, shift⟩ P.stiffness P.mass) = (s, .ok .success) ∧
      Reports sw (solidField P) (if first then 1 else s.vectors.length) (fun _ => none) s run) := by
  constructor
  · intro h
    obtain ⟨s, h1, h2⟩ := bind_ok h
    refine ⟨s, ?_, output_ok h2⟩
    have := ensured_ok.1 h1
    cases sparse <;> exact this
  · intro h
    obtain ⟨s, h1, h2⟩ := bind_ok h
    refine ⟨s, ?_, (output_ok h2).1⟩
    have := ensured_ok.1 h1
    cases sparse <;> exact this

/-- **C128**: without success of the solver, or of the assembly of the Jacobian, a program ends with an exception. -/
theorem C128_fails (P : PEnv K V) (o : Opts K) (n : ℤ) (sw : Switches K) :
    ((∀ s, computeSparse P.lib n (modal o P.stiffness P.mass) ≠ (s, .ok .success)) →
      ∃ x, modalXML P o n sw = .error x ∧ modalMultiXML P o n sw = .error x) ∧
    ((P.jacobian (P.cg P.stiffness P.rhs).1).1 = false →
      bucklingXML P o n sw = .error .other ∧ bucklingMultiXML P o n sw = .error .other) := by
  constructor
  · intro h
    obtain ⟨x, hx⟩ := ensured_error h
    exact ⟨x, by rw [modalXML, hx]; rfl, by rw [modalMultiXML, hx]; rfl⟩
  · intro h
    have hj : jacobianAt P = .error .other := by
      unfold jacobianAt
      split
      · rename_i N hN
        rw [hN] at h
        cases h
      · rfl
    exact ⟨by rw [bucklingXML, hj]; rfl, by rw [bucklingMultiXML, hj]; rfl⟩

/-- **C128**: with ten or more modes, as many pairs and an assembler that fits the geometry, the programs for modes of
vibration end normally. -/
theorem C128_runs (P : PEnv K V) (o : Opts K) (n : ℤ) (sw : Switches K) (hn : 10 ≤ n) (s : ESt K V)
    (h : computeSparse P.lib n (modal o P.stiffness P.mass) = (s, .ok .success))
    (h1 : s.values.length = n.toNat) (h2 : s.vectors.length = n.toNat) :
    (∃ run, modalXML P o n sw = .ok run) ∧ ∃ run, modalMultiXML P o n sw = .ok run := by
  have hmap : ∀ (g : V → List (Coefs K)) (l : List V), ∃ r, l.mapM (fun v => (.ok (g v) : Except Err _)) = .ok r := by
    intro g l
    induction l with
    | nil => exact ⟨_, rfl⟩
    | cons a l ih =>
      obtain ⟨r, hr⟩ := ih
      exact ⟨g a :: r, by rw [List.mapM_cons, hr]; rfl⟩
  have hout : ∀ (g : V → List (Coefs K)) file, ∃ run, output sw (fun v => .ok (g v)) n.toNat file 0 s = .ok run := by
    intro g file
    have hp : ∃ q, plotted sw (fun v => .ok (g v)) n.toNat s.vectors = .ok q := by
      unfold plotted plotAll
      cases sw.plot
      · exact ⟨_, rfl⟩
      · rw [if_pos rfl, if_neg (by omega)]
        exact hmap g _
    obtain ⟨q, hq⟩ := hp
    unfold output firstTen
    rw [if_neg (by omega), hq]
    exact ⟨_, rfl⟩
  constructor
  · rw [modalXML, ensured_ok.2 h]
    exact hout (fun v => List.zipWith minus (P.deformed v) P.patches) _
  · rw [modalMultiXML, ensured_ok.2 h]
    exact hout (fun v => P.displacement (normalize P.lib v)) _

/-- **C128**: if Spectra returns eigenpairs of what it is given, the values printed by `modal_shell_XML` are eigenvalues of
the assembled matrices, each with one of the vectors that are plotted. -/
theorem C128_pairs (P : PEnv K V) (o : Opts K) (n : ℤ) (sw : Switches K) (run : Run K)
    (h1 : ∀ m q, P.lib.sparse m (P.stiffness - o.shift • P.mass) P.mass n (o.ncvFac * n) o.selectionRule
        o.tolerance o.sortRule = some q → q.info = .successful →
      PairsOf (P.stiffness - o.shift • P.mass) P.mass q.values q.vectors)
    (h2 : ∀ m q, P.lib.shifted m P.stiffness P.mass n (o.ncvFac * n) o.selectionRule
        o.tolerance o.sortRule o.shift = some q → q.info = .successful →
      PairsOf P.stiffness P.mass q.values q.vectors)
    (h : modalXML P o n sw = .ok run) :
    ∃ vs : List V, run.printed.length = 10 ∧ vs.length = 10 ∧
      List.Forall₂ (fun x w => ∃ y, x = some y ∧ P.stiffness w = y • P.mass w) run.printed vs ∧
      (sw.plot = true → List.Forall₂ (fun v f => modalField P v = .ok f) (vs.take n.toNat) (run.fields.take 10)) := by
  obtain ⟨s, hs, hr, -⟩ := (C128_modal P o n sw run).1 h
  have hp := (C67_sparse P.lib (modal o P.stiffness P.mass) s n (by simp [modal, ESt.init]) h1 h2 hs).2
  have hlen : s.values.length = s.vectors.length := hp.length_eq
  refine ⟨s.vectors.take 10, ?_, ?_, ?_, fun hpl => ?_⟩
  · rw [hr.printed, List.length_take]
    have := hr.ten
    omega
  · rw [List.length_take]
    have := hr.ten
    omega
  · rw [hr.printed]
    exact List.forall₂_take 10 hp
  · have := List.forall₂_take 10 (hr.fields hpl)
    rwa [List.take_take, Nat.min_comm, ← List.take_take] at this

/-- **C128** violated: `gsElasticity_Modal` tells the shell that it failed whenever it ends normally. -/
theorem C128_violated_exit (P : PEnv K V) (sparse first : Bool) (shift : K) (sw : Switches K) (run : Run K)
    (h : elasticityModal P sparse first shift sw = .ok run) : run.exit = 1 := by
  obtain ⟨s, -, h2⟩ := bind_ok h
  exact (output_ok h2).2

/-- **C128** violated: with `--write`, `buckling_shell_XML` and `gsElasticity_Modal` write nothing. -/
theorem C128_violated_write (P : PEnv K V) (o : Opts K) (n : ℤ) (sparse first : Bool) (shift : K) (sw : Switches K)
    (run : Run K) (h : bucklingXML P o n sw = .ok run ∨ elasticityModal P sparse first shift sw = .ok run) :
    run.file = none := by
  rcases h with h | h
  · obtain ⟨s, N, -, -, h, -⟩ := C128_buckling P o n sw run h
    rw [h.file]; split <;> rfl
  · obtain ⟨s, -, h⟩ := (C128_examples P sparse first shift sw run).2 h
    rw [h.file]; split <;> rfl

/-- **C128** violated: whether the linear solver converged has no influence on the programs for buckling. -/
theorem C128_violated_linear (P : PEnv K V) (o : Opts K) (n : ℤ) (sw : Switches K) (b : Bool) :
    let Q := { P with cg := fun A f => ((P.cg A f).1, b) }
    bucklingXML Q o n sw = bucklingXML P o n sw ∧ bucklingMultiXML Q o n sw = bucklingMultiXML P o n sw :=
  ⟨rfl, rfl⟩

/-! ### Ten eigenvalues -/

/-- The sparse solvers give at most as many pairs as are asked for. -/
def Lib.AtMost (e : Lib K V) (n : ℤ) : Prop :=
  (∀ m A B c r t q p, e.sparse m A B n c r t q = some p → (p.values.length : ℤ) ≤ n) ∧
    ∀ m A B c r t q h p, e.shifted m A B n c r t q h = some p → (p.values.length : ℤ) ≤ n

theorem finish_length {s t : ESt K V} {sh : K} {r : Option (Pairs K V SparseInfo)} {n : ℤ}
    (hr : ∀ p, r = some p → (p.values.length : ℤ) ≤ n) (h : finish s sh r = (t, .ok .success)) :
    (t.values.length : ℤ) ≤ n := by
  cases r with
  | none => simp [finish] at h
  | some p =>
    simp only [finish] at h
    split at h
    · rw [Prod.mk.injEq] at h
      rw [← h.1]
      simpa [ESt.store] using hr p rfl
    · rename_i hi
      simp only [Prod.mk.injEq, Except.ok.injEq] at h
      cases hq : p.info <;> simp [hq, sparseStatus] at h hi

theorem computeSparse_length {e : Lib K V} {n : ℤ} (he : e.AtMost n) {s t : ESt K V} (hs : s.status ≠ .assemblyError)
    (h : computeSparse e n s = (t, .ok .success)) : (t.values.length : ℤ) ≤ n := by
  rw [computeSparse, if_neg hs] at h
  cases hm : modeOf s.opts.solver with
  | none => simp [hm] at h
  | some m =>
    simp only [hm] at h
    cases m <;> simp only [sparseImpl] at h
    · exact finish_length (fun p hp => he.1 _ _ _ _ _ _ _ _ hp) h
    · exact finish_length (fun p hp => he.1 _ _ _ _ _ _ _ _ hp) h
    all_goals exact finish_length (fun p hp => he.2 _ _ _ _ _ _ _ _ _ hp) h

/-- **C128** violated: with fewer than ten modes, in particular with the default of one mode, none of the four
programs ends normally; when the solver succeeds the program reads beyond the end of the eigenvalues. -/
theorem C128_violated_ten (P : PEnv K V) (o : Opts K) (n : ℤ) (sw : Switches K) (hn : n < 10) (hl : P.lib.AtMost n) :
    (∀ run, modalXML P o n sw ≠ .ok run ∧ modalMultiXML P o n sw ≠ .ok run ∧ bucklingXML P o n sw ≠ .ok run ∧
      bucklingMultiXML P o n sw ≠ .ok run) ∧
    ∀ s, computeSparse P.lib n (modal o P.stiffness P.mass) = (s, .ok .success) →
      modalXML P o n sw = .error .ub ∧ modalMultiXML P o n sw = .error .ub := by
  have hb : ∀ N, (bucklingOf o P.stiffness N).status ≠ .assemblyError := by simp [bucklingOf, ESt.init]
  have hm : (modal o P.stiffness P.mass).status ≠ .assemblyError := by simp [modal, ESt.init]
  refine ⟨fun run => ⟨fun h => ?_, fun h => ?_, fun h => ?_, fun h => ?_⟩, fun s h => ?_⟩
  · obtain ⟨s, h1, h2, -⟩ := (C128_modal P o n sw run).1 h
    have := computeSparse_length hl hm h1
    have := h2.ten
    omega
  · obtain ⟨s, h1, h2, -⟩ := (C128_modal P o n sw run).2 h
    have := computeSparse_length hl hm h1
    have := h2.ten
    omega
  · obtain ⟨s, N, -, h1, h2, -⟩ := C128_buckling P o n sw run h
    have := computeSparse_length hl (hb _) h1
    have := h2.ten
    omega
  · obtain ⟨s, N, -, h1, h2, -⟩ := C128_bucklingMulti P o n sw run h
    have := computeSparse_length hl (hb _) h1
    have := h2.ten
    omega
  · have h3 : s.values.length < 10 := by
      have := computeSparse_length hl hm h
      omega
    have h4 : firstTen s.values = .error .ub := if_pos h3
    constructor
    · rw [modalXML, ensured_ok.2 h]
      show (firstTen s.values >>= _) = _
      rw [h4]; rfl
    · rw [modalMultiXML, ensured_ok.2 h]
      show (firstTen s.values >>= _) = _
      rw [h4]; rfl

/-! ### The values of the programs for buckling -/

/-- **C128**: a pair of `buckling_shell_XML` makes the stiffness `K_L + s (K_NL - K_L)` singular at `s = -y`. -/
theorem C128_critical (o : Opts K) (A N : V →ₗ[K] V) (y : K) (v : V)
    (h : (bucklingOf o A N).a v = y • (bucklingOf o A N).b v) : A v + (-y) • (N - A) v = 0 := by
  have h' : A v = y • (N - A) v := h
  rw [neg_smul, ← h', add_neg_cancel]

/-- **C128** violated: `buckling_shell_multipatch_XML` subtracts the linear matrix before the solver does: for a pair
of this program the stiffness is singular at `s = -y / (1 + y)`, and at `s = -y` only if `y = 0` or `K_L v = 0`. -/
theorem C128_violated_multipatch (o : Opts K) (A N : V →ₗ[K] V) (y : K) (v : V)
    (h : (bucklingOf o A (N - A)).a v = y • (bucklingOf o A (N - A)).b v) :
    (1 + y ≠ 0 → A v + (-(y / (1 + y))) • (N - A) v = 0) ∧
      (A v + (-y) • (N - A) v = 0 → y = 0 ∨ A v = 0) := by
  have h' : A v = y • ((N - A) v - A v) := h
  have h1 : (1 + y) • A v = y • (N - A) v := by
    rw [smul_sub] at h'
    rw [add_smul, one_smul]
    nth_rewrite 1 [h']
    rw [sub_add_cancel]
  constructor
  · intro hy
    rw [neg_smul, div_eq_inv_mul, mul_smul, ← h1, smul_smul, inv_mul_cancel₀ hy, one_smul, add_neg_cancel]
  · intro h2
    rw [neg_smul, ← h1, add_smul, one_smul, neg_add, ← add_assoc, add_neg_cancel, zero_add, neg_eq_zero] at h2
    exact smul_eq_zero.1 h2

/-- **C128** violated: the two programs for buckling never agree on a vector, except in the value 0 or for vectors of
the kernel of the linear stiffness matrix. -/
theorem C128_violated_agree (o o' : Opts K) (A N : V →ₗ[K] V) (y z : K) (v : V) (hy : y ≠ 0) (hv : A v ≠ 0)
    (h : (bucklingOf o A N).a v = y • (bucklingOf o A N).b v)
    (h' : (bucklingOf o' A (N - A)).a v = z • (bucklingOf o' A (N - A)).b v) : y ≠ z := by
  rintro rfl
  rcases (C128_violated_multipatch o' A N y v h').2 (C128_critical o A N y v h) with h1 | h1
  · exact hy h1
  · exact hv h1

/-! ### Shapes -/

/-- The displacement has the control points of the geometry. -/
def PEnv.Sized (P : PEnv K V) : Prop :=
  ∀ v, (P.displacement v).map List.length = P.patches.map List.length

theorem minus_add (a b : Coefs K) (h : b.length = a.length) : minus (List.zipWith addPt a b) a = b := by
  induction a generalizing b with
  | nil => cases b <;> simp_all [minus]
  | cons x a ih =>
    cases b with
    | nil => simp at h
    | cons y b =>
      simp only [minus, List.zipWith_cons_cons, List.cons.injEq]
      exact ⟨by simp [subPt, addPt], ih b (by simpa using h)⟩

theorem zip_minus (a b : List (Coefs K)) (h : b.map List.length = a.map List.length) :
    List.zipWith minus (List.zipWith (List.zipWith addPt) a b) a = b := by
  induction a generalizing b with
  | nil => cases b <;> simp_all
  | cons x a ih =>
    cases b with
    | nil => simp at h
    | cons y b =>
      simp only [List.map_cons, List.cons.injEq] at h
      simp only [List.zipWith_cons_cons, List.cons.injEq]
      exact ⟨minus_add _ _ h.1, ih b h.2⟩

/-- **C128**: `modal_shell_XML` plots the displacement of the mode on every patch. -/
theorem C128_shape (P : PEnv K V) (hP : P.Sized) (v : V) : modalField P v = .ok (P.displacement v) := by
  rw [modalField, PEnv.deformed, zip_minus _ _ (hP v)]

/-- **C128** violated: in `buckling_shell_XML` and `gsThinShell_Modal` only the first patch shows a displacement; all the
others show the deformed geometry. -/
theorem C128_violated_patches (P : PEnv K V) (v : V) (a d : Coefs K) (l m : List (Coefs K)) (hp : P.patches = a :: l)
    (hd : P.displacement v = d :: m) (hl : d.length = a.length) (f : List (Coefs K)) (h : firstPatchField P v = .ok f) :
    ∃ c, unitZ d = .ok c ∧ f = c :: List.zipWith (List.zipWith addPt) l m := by
  unfold firstPatchField at h
  rw [show P.deformed v = List.zipWith addPt a d :: List.zipWith (List.zipWith addPt) l m by
    rw [PEnv.deformed, hp, hd]; rfl, hp] at h
  simp only [minus_add a d hl] at h
  cases hu : unitZ d with
  | error x => rw [hu] at h; cases h
  | ok c =>
    rw [hu] at h
    cases h
    exact ⟨c, rfl, rfl⟩

section amplitude

variable [IsStrictOrderedRing K]

theorem foldl_max_spec (l : List K) (x : K) :
    l.foldl max x ∈ x :: l ∧ ∀ y ∈ x :: l, y ≤ l.foldl max x := by
  induction l generalizing x with
  | nil => simp
  | cons a l ih =>
    obtain ⟨h1, h2⟩ := ih (max x a)
    rw [List.foldl_cons]
    constructor
    · rcases List.mem_cons.1 h1 with h | h
      · rw [h]
        rcases max_choice x a with h | h <;> simp [h]
      · simp [h]
    · intro y hy
      have h3 := h2 (max x a) (by simp)
      rcases List.mem_cons.1 hy with rfl | hy
      · exact (le_max_left _ _).trans h3
      · rcases List.mem_cons.1 hy with rfl | hy
        · exact (le_max_right _ _).trans h3
        · exact h2 y (by simp [hy])

theorem foldl_min_spec (l : List K) (x : K) :
    l.foldl min x ∈ x :: l ∧ ∀ y ∈ x :: l, l.foldl min x ≤ y := by
  induction l generalizing x with
  | nil => simp
  | cons a l ih =>
    obtain ⟨h1, h2⟩ := ih (min x a)
    rw [List.foldl_cons]
    constructor
    · rcases List.mem_cons.1 h1 with h | h
      · rw [h]
        rcases min_choice x a with h | h <;> simp [h]
      · simp [h]
    · intro y hy
      have h3 := h2 (min x a) (by simp)
      rcases List.mem_cons.1 hy with rfl | hy
      · exact h3.trans (min_le_left _ _)
      · rcases List.mem_cons.1 hy with rfl | hy
        · exact h3.trans (min_le_right _ _)
        · exact h2 y (by simp [hy])

/-- The amplitude is the largest absolute value of a third coordinate. -/
theorem maxAmpl_spec (c : Coefs K) (m : K) (h : maxAmpl c = some m) :
    (∃ p ∈ c, |p.2.2| = m) ∧ ∀ p ∈ c, |p.2.2| ≤ m := by
  cases c with
  | nil => simp [maxAmpl, maxCoeff] at h
  | cons q c =>
    simp only [maxAmpl, maxCoeff, minCoeff, List.map_cons, Option.some.injEq] at h
    obtain ⟨h1, h2⟩ := foldl_max_spec (c.map fun p => p.2.2) q.2.2
    obtain ⟨h3, h4⟩ := foldl_min_spec (c.map fun p => p.2.2) q.2.2
    have mem : ∀ x, x ∈ q.2.2 :: c.map (fun p => p.2.2) ↔ ∃ p ∈ q :: c, p.2.2 = x := by
      intro x
      simp [eq_comm]
    subst h
    constructor
    · rcases max_choice |(c.map fun p => p.2.2).foldl max q.2.2| |(c.map fun p => p.2.2).foldl min q.2.2| with h | h
      · obtain ⟨p, hp, hx⟩ := (mem _).1 h1
        exact ⟨p, hp, by rw [h, hx]⟩
      · obtain ⟨p, hp, hx⟩ := (mem _).1 h3
        exact ⟨p, hp, by rw [h, hx]⟩
    · intro p hp
      have hm := (mem p.2.2).2 ⟨p, hp, rfl⟩
      have a1 := h2 _ hm
      have a2 := h4 _ hm
      rcases le_total 0 p.2.2 with h0 | h0
      · rw [abs_of_nonneg h0]
        exact le_max_of_le_left (a1.trans (le_abs_self _))
      · rw [abs_of_nonpos h0]
        exact le_max_of_le_right ((neg_le_neg a2).trans (neg_le_abs _))

/-- **C128**: after the normalisation the largest deflection is 1, unless there is none, and then nothing is changed. -/
theorem C128_normalized (c d : Coefs K) (h : unitZ c = .ok d) :
    d.length = c.length ∧ ((∀ p ∈ c, p.2.2 = 0) → d = c) ∧
      ((∃ p ∈ c, p.2.2 ≠ 0) → (∃ p ∈ d, |p.2.2| = 1) ∧ (∀ p ∈ d, |p.2.2| ≤ 1) ∧ ∃ m, 0 < m ∧ d = c.map (divPt m)) := by
  unfold unitZ at h
  cases hm : maxAmpl c with
  | none => rw [hm] at h; cases h
  | some m =>
    rw [hm] at h
    simp only [Except.ok.injEq] at h
    obtain ⟨⟨p, hp, hpm⟩, hle⟩ := maxAmpl_spec c m hm
    subst h
    refine ⟨by split <;> simp, fun h0 => ?_, fun ⟨q, hq, hq0⟩ => ?_⟩
    · rw [if_neg]
      rw [not_not, ← hpm, h0 p hp, abs_zero]
    · have hpos : 0 < m := (abs_pos.2 hq0).trans_le (hle q hq)
      rw [if_pos hpos.ne']
      refine ⟨⟨divPt m p, List.mem_map_of_mem hp, ?_⟩, ?_, m, hpos, rfl⟩
      · simp only [divPt]
        rw [abs_div, hpm, abs_of_pos hpos, div_self hpos.ne']
      · intro r hr
        obtain ⟨p', hp', rfl⟩ := List.mem_map.1 hr
        simp only [divPt]
        rw [abs_div, abs_of_pos hpos, div_le_one hpos]
        exact hle p' hp'

/-! ### The files -/

/-- **C128** violated: `std::to_string` writes six decimals: in the file of `modal_shell_XML` and `gsThinShell_Modal`
every eigenvalue below half a millionth is 0. The precision 10 of the stream has no influence. -/
theorem C128_violated_digits (micro : K → ℤ) (hm : ∀ x, |10 ^ 6 * x - micro x| ≤ 1 / 2) (x : K)
    (hx : |x| < 1 / (2 * 10 ^ 6)) : micro x = 0 := by
  have h1 := hm x
  rw [abs_le] at h1
  rw [abs_lt] at hx
  have e : (10 ^ 6 : K) * (1 / (2 * 10 ^ 6)) = 1 / 2 := by norm_num
  have u : (10 ^ 6 : K) * x < 1 / 2 := by
    rw [← e]; exact mul_lt_mul_of_pos_left hx.2 (by norm_num)
  have l : -(1 / 2 : K) < 10 ^ 6 * x := by
    have := mul_lt_mul_of_pos_left hx.1 (show (0 : K) < 10 ^ 6 by norm_num)
    rw [mul_neg, e] at this
    exact this
  have a : (micro x : K) < 1 := by linarith [h1.1]
  have b : (-1 : K) < micro x := by linarith [h1.2]
  have a' : micro x < 1 := by exact_mod_cast a
  have b' : -1 < micro x := by exact_mod_cast b
  omega

end amplitude

/-! ### Examples -/

section examples

/-- A library for one degree of freedom which gives the same pair as often as it is asked for. -/
def libN : Lib ℚ ℚ where
  dense A B := some ⟨.success, List.replicate 12 (A 1 / B 1), List.replicate 12 1⟩
  sparse _ A B n _ _ _ _ := some ⟨.successful, List.replicate n.toNat (A 1 / B 1), List.replicate n.toNat 1⟩
  shifted _ A B n _ _ _ _ _ := some ⟨.successful, List.replicate n.toNat (A 1 / B 1), List.replicate n.toNat 1⟩
  inverse A := (A 1)⁻¹ • LinearMap.id
  solve A b := b / A 1
  dot x y := x * y
  norm x := |x|
  ones := 1

/-- Two patches with two and one control points. -/
def envN : PEnv ℚ ℚ where
  lib := libN
  stiffness := mul1 6
  mass := mul1 2
  rhs := 1
  jacobian x := (decide (x < 5), mul1 4)
  cg A f := (f / A 1, true)
  patches := [[(0, 0, 1), (1, 0, 1)], [(2, 0, 1)]]
  displacement v := [[(0, 0, 4 * v), (0, 0, -v)], [(0, 0, 3 * v)]]

def swN : Switches ℚ := ⟨true, true, fun x => (x * 10 ^ 6).floor, id⟩

/-- `C128_modal`, `C128_runs`, `C128_pairs`, `C128_shape`: ten modes of vibration. -/
example : modalXML envN (opts1 0 3 0) 10 swN =
    .ok ⟨List.replicate 10 (some 3), List.replicate 10 [[(0, 0, 4), (0, 0, -1)], [(0, 0, 3)]],
      some (.millionths (List.replicate 10 (some 3000000))), 0⟩ := by
  decide +kernel

/-- `C128_violated_ten`: the default. -/
example : modalXML envN (opts1 0 3 0) 1 swN = .error .ub ∧ libN.AtMost 1 := by
  refine ⟨by decide +kernel, ?_, ?_⟩ <;> intros <;> simp_all [libN] <;> subst_vars <;> simp

/-- `C128_buckling`, `C128_critical`, `C128_violated_patches`, `C128_normalized`, `C128_violated_write`: `K_L = 6`,
`K_NL = 4`; the stiffness vanishes for three times the load. The second patch shows the deformed geometry. -/
example : bucklingXML envN (opts1 0 3 0) 10 swN =
    .ok ⟨List.replicate 10 (some (-3)), List.replicate 10 [[(0, 0, 1), (0, 0, -1 / 4)], [(2, 0, 4)]], none, 0⟩ := by
  decide +kernel

/-- `C128_bucklingMulti`, `C128_violated_multipatch`, `C128_violated_agree`: the same matrices. -/
example : bucklingMultiXML envN (opts1 0 3 0) 10 swN =
    .ok ⟨List.replicate 10 (some (-3 / 4)), List.replicate 10 [[(0, 0, 4), (0, 0, -1)], [(0, 0, 3)]],
      some (.digits (List.replicate 10 (some (-3 / 4)))), 0⟩ := by
  decide +kernel

/-- `C128_fails`: the Jacobian cannot be assembled. -/
example : bucklingXML { envN with rhs := 60 } (opts1 0 3 0) 10 swN = .error .other := by
  decide +kernel

/-- `C128_examples`, `C128_violated_exit`: the dense solver, the first mode only. -/
example : elasticityModal envN false true 0 swN =
    .ok ⟨List.replicate 10 (some 3), [[[(0, 0, 1), (0, 0, -1 / 4)], [(0, 0, 3)]]], none, 1⟩ ∧
    (thinShellModal envN true true 0 swN).map Run.exit = .ok 0 := by
  decide +kernel

/-- `C128_violated_digits`. -/
example : swN.micro (1 / 10 ^ 7) = 0 := by decide +kernel

end examples

end GsSA.Eigen
