import Mathlib.Algebra.Order.Ring.Rat
import Mathlib.Tactic.Abel
import Mathlib.Tactic.Module
import Mathlib.Tactic.LinearCombination
import Mathlib.Tactic.FieldSimp
import Verif.Eigen.Base

/-!
# Properties of the eigenvalue solvers: pairs, statuses, buckling

C67, C68, C97, C98.
-/

namespace GsSA.Eigen

open GsSA
open GsSA.ALM (Err)

set_option linter.unusedSectionVars false

variable {K V : Type} [Field K] [LinearOrder K] [AddCommGroup V] [Module K V]

/-- The lists hold eigenpairs of `A x = lambda B x`. -/
def PairsOf (A B : V →ₗ[K] V) (l : List K) (v : List V) : Prop :=
  List.Forall₂ (fun x w => A w = x • B w) l v

/-- What a user sees as eigenpairs: all values are finite and belong to the vectors. -/
def HoldsPairs (s : ESt K V) (A B : V →ₗ[K] V) : Prop :=
  List.Forall₂ (fun x w => ∃ y, x = some y ∧ A w = y • B w) s.values s.vectors

theorem shiftedA_eq (s : ESt K V) : shiftedA s = s.a - s.opts.shift • s.b := by
  unfold shiftedA
  split
  · rfl
  · rename_i h
    rw [not_not.1 h, zero_smul, sub_zero]

theorem store_pairs (s : ESt K V) (sh : K) (l : List K) (v : List V) (h : PairsOf (s.a - sh • s.b) s.b l v) :
    HoldsPairs (s.store sh l v) s.a s.b := by
  unfold HoldsPairs ESt.store PairsOf at *
  simp only
  induction h with
  | nil => exact .nil
  | cons h1 _ ih =>
    refine .cons ⟨_, rfl, ?_⟩ ih
    rw [LinearMap.sub_apply, LinearMap.smul_apply, sub_eq_iff_eq_add] at h1
    rw [h1, add_smul]

/-- **C67**, dense solver: with any shift, the values and vectors belong to the given matrices, if the solver
returned pairs of the matrices it was given. -/
theorem C67_dense (e : Lib K V) (s : ESt K V) (r : Pairs K V DenseInfo) (hs : s.status ≠ .assemblyError)
    (hr : e.dense (s.a - s.opts.shift • s.b) s.b = some r)
    (hp : PairsOf (s.a - s.opts.shift • s.b) s.b r.values r.vectors) :
    (compute e s).2 = .success ∧ (compute e s).1.status = .success ∧ HoldsPairs (compute e s).1 s.a s.b := by
  have h : compute e s = (s.store s.opts.shift r.values r.vectors, .success) := by
    rw [compute, if_neg hs, shiftedA_eq, hr]
  rw [h]
  exact ⟨rfl, rfl, store_pairs _ _ _ _ hp⟩

theorem finish_pairs (s t : ESt K V) (sh : K) (r : Option (Pairs K V SparseInfo))
    (hp : ∀ q, r = some q → q.info = .successful → PairsOf (s.a - sh • s.b) s.b q.values q.vectors)
    (h : finish s sh r = (t, .ok .success)) : HoldsPairs t s.a s.b := by
  cases r with
  | none => simp [finish] at h
  | some q =>
    simp only [finish] at h
    split at h
    · rename_i hi
      rw [Prod.mk.injEq] at h
      rw [← h.1]
      exact store_pairs _ _ _ _ (hp _ rfl hi)
    · rename_i hi
      simp only [Prod.mk.injEq, Except.ok.injEq] at h
      cases hq : q.info <;> simp [hq, sparseStatus] at h hi

/-- **C67**, sparse solvers: the same when Spectra reports success. The solvers without shift return pairs of
the shifted matrices, those with shift return pairs of the matrices themselves. -/
theorem C67_sparse (e : Lib K V) (s t : ESt K V) (number : ℤ) (hs : s.status ≠ .assemblyError)
    (h1 : ∀ m q, e.sparse m (s.a - s.opts.shift • s.b) s.b number (s.opts.ncvFac * number) s.opts.selectionRule
        s.opts.tolerance s.opts.sortRule = some q → q.info = .successful →
      PairsOf (s.a - s.opts.shift • s.b) s.b q.values q.vectors)
    (h2 : ∀ m q, e.shifted m s.a s.b number (s.opts.ncvFac * number) s.opts.selectionRule
        s.opts.tolerance s.opts.sortRule s.opts.shift = some q → q.info = .successful →
      PairsOf s.a s.b q.values q.vectors)
    (h : computeSparse e number s = (t, .ok .success)) :
    t.status = .success ∧ HoldsPairs t s.a s.b := by
  have hfin : ∀ (sh : K) (r : Option (Pairs K V SparseInfo)),
      finish s sh r = (t, .ok .success) → t.status = .success := by
    intro sh r hr
    cases r with
    | none => simp [finish] at hr
    | some q =>
      simp only [finish] at hr
      split at hr
      · rw [Prod.mk.injEq] at hr
        rw [← hr.1]; rfl
      · simp only [Prod.mk.injEq, Except.ok.injEq] at hr
        rw [← hr.1]; exact hr.2
  rw [computeSparse, if_neg hs] at h
  cases hm : modeOf s.opts.solver with
  | none => simp [hm] at h
  | some m =>
    simp only [hm] at h
    rw [← shiftedA_eq] at h1
    cases m <;> simp only [sparseImpl] at h <;> refine ⟨hfin _ _ h, ?_⟩
    · exact finish_pairs s t _ _ (fun q hq hi => by rw [← shiftedA_eq]; exact h1 _ q hq hi) h
    · exact finish_pairs s t _ _ (fun q hq hi => by rw [← shiftedA_eq]; exact h1 _ q hq hi) h
    all_goals exact finish_pairs s t _ _ (fun q hq hi => by
      rw [zero_smul, sub_zero]; exact h2 _ q hq hi) h

/-- **C67**: after an assembly error in the constructor every call returns it and changes nothing. -/
theorem C67_sticky (e : Lib K V) (l : List Op) (o : Op) (s : ESt K V) (h : s.status = .assemblyError) :
    runs e l s = s ∧ o.run e (runs e l s) = (s, .ok .assemblyError) := by
  have h1 : ∀ o : Op, o.run e s = (s, .ok .assemblyError) := by
    intro o
    cases o <;> simp [Op.run, compute, computeSparse, computePower, h]
  have h2 : runs e l s = s := by
    induction l with
    | nil => rfl
    | cons o l ih => rw [runs, h1]; exact ih
  rw [h2]
  exact ⟨rfl, h1 o⟩

theorem powerLoop_status (e : Lib K V) (D : V →ₗ[K] V) (tol : K) (n : ℕ) (v old : V) (st : Status) :
    (powerLoop e D tol (n + 1) v old st).2 = .success ∨
      (powerLoop e D tol (n + 1) v old st).2 = .notConverged := by
  induction n generalizing v old st with
  | zero =>
    simp only [powerLoop]
    split <;> simp
  | succ n ih =>
    rw [powerLoop]
    split
    · exact .inl rfl
    · exact ih _ _ _

/-- Without one, no call ever reports an assembly error. -/
theorem C67_noAssembly (e : Lib K V) (l : List Op) (o : Op) (s : ESt K V) (h : s.status ≠ .assemblyError) :
    (runs e l s).status ≠ .assemblyError ∧ (o.run e (runs e l s)).2 ≠ .ok .assemblyError := by
  have h0 : ∀ (s : ESt K V) (sh : K) (r : Option (Pairs K V SparseInfo)), s.status ≠ .assemblyError →
      (finish s sh r).1.status ≠ .assemblyError ∧ (finish s sh r).2 ≠ .ok .assemblyError := by
    intro s sh r hs
    cases r with
    | none => exact ⟨hs, by simp [finish]⟩
    | some q =>
      simp only [finish]
      split
      · simp [ESt.store]
      · cases q.info <;> simp [sparseStatus]
  have h1 : ∀ (o : Op) (s : ESt K V), s.status ≠ .assemblyError →
      (o.run e s).1.status ≠ .assemblyError ∧ (o.run e s).2 ≠ .ok .assemblyError := by
    intro o s hs
    cases o with
    | compute =>
      simp only [Op.run, compute, if_neg hs]
      split <;> simp [ESt.store]
    | computeSparse n =>
      simp only [Op.run, computeSparse, if_neg hs]
      split
      · rename_i m _
        cases m <;> exact h0 _ _ _ hs
      · simp
    | computePower =>
      simp only [Op.run, computePower, if_neg hs]
      rcases powerLoop_status e (e.inverse s.a ∘ₗ s.b) s.opts.tolerance 99 e.ones 0 s.status with h | h <;>
        simp [h]
  have h2 : (runs e l s).status ≠ .assemblyError := by
    induction l generalizing s with
    | nil => exact h
    | cons o l ih => exact ih _ (h1 o s h).1
  exact ⟨h2, (h1 o _ h2).2⟩

/-- **C68**: an exception in the Jacobian callback is kept as an assembly error, and every later call returns
it. -/
theorem C68_throws (e : Lib K V) (o : Opts K) (A : V →ₗ[K] V) (rhs : V) (f : V → V → CbReply K V) (c : K)
    (h : f (e.solve A (c • rhs)) 0 = .throws) :
    ∃ s, buckling e o A rhs f c = .ok s ∧ s.status = .assemblyError ∧
      ∀ l op, (Op.run e op (runs e l s)).2 = .ok .assemblyError := by
  refine ⟨{ ESt.init o A 0 with status := .assemblyError }, by simp only [buckling, h], rfl, fun l op => ?_⟩
  rw [(C67_sticky e l op _ rfl).2]

/-- **C68** violated: a callback that returns `false` is not noticed. If it left a matrix, the solver goes on
with it and never reports an assembly error; if not, the subtraction is undefined behaviour. -/
theorem C68_violated_false (e : Lib K V) (o : Opts K) (A : V →ₗ[K] V) (rhs : V) (f : V → V → CbReply K V)
    (c : K) (m : Option (V →ₗ[K] V)) (h : f (e.solve A (c • rhs)) 0 = .returns false m) :
    match m with
    | some B => ∃ s, buckling e o A rhs f c = .ok s ∧ s.status = .notStarted ∧ s.a = A ∧ s.b = B - A ∧
        ∀ l op, (Op.run e op (runs e l s)).2 ≠ .ok .assemblyError
    | none => buckling e o A rhs f c = .error .ub := by
  cases m with
  | none => simp only [buckling, h]
  | some B =>
    refine ⟨ESt.init o A (B - A), by simp only [buckling, h], rfl, rfl, rfl, fun l op => ?_⟩
    exact (C67_noAssembly e l op _ (by simp [ESt.init])).2

/-- **C68**: the same object as for a callback that returns `true`. -/
theorem C68_flag (e : Lib K V) (o : Opts K) (A : V →ₗ[K] V) (rhs : V) (f g : V → V → CbReply K V)
    (c : K) (m : Option (V →ₗ[K] V)) (p q : Bool) (hf : f (e.solve A (c • rhs)) 0 = .returns p m)
    (hg : g (e.solve A (c • rhs)) 0 = .returns q m) : buckling e o A rhs f c = buckling e o A rhs g c := by
  cases m <;> simp only [buckling, hf, hg]

/-- **C97** violated: the dense solver's own report of a failure is ignored. -/
theorem C97_violated_info (e : Lib K V) (s : ESt K V) (r : Pairs K V DenseInfo)
    (hs : s.status ≠ .assemblyError) (hr : e.dense (s.a - s.opts.shift • s.b) s.b = some r)
    (_hi : r.info ≠ .success) :
    (compute e s).2 = .success ∧ (compute e s).1.values = r.values.map fun x => some (x + s.opts.shift) := by
  rw [compute, if_neg hs, shiftedA_eq, hr]
  exact ⟨rfl, rfl⟩

/-- Does the call report a failure? -/
def failed : Except Err Status → Bool
  | .ok .success => false
  | _ => true

/-- **C97**: a call of `compute` or `computeSparse` that fails leaves the values and vectors of the call
before. -/
theorem C97_stale (e : Lib K V) (op : Op) (s : ESt K V) (hop : op ≠ .computePower)
    (h : failed (op.run e s).2 = true) :
    (op.run e s).1.values = s.values ∧ (op.run e s).1.vectors = s.vectors := by
  have h0 : ∀ (sh : K) (r : Option (Pairs K V SparseInfo)), failed (finish s sh r).2 = true →
      (finish s sh r).1.values = s.values ∧ (finish s sh r).1.vectors = s.vectors := by
    intro sh r hr
    cases r with
    | none => exact ⟨rfl, rfl⟩
    | some q =>
      simp only [finish] at hr ⊢
      split
      · rename_i hi
        simp [hi, failed] at hr
      · exact ⟨rfl, rfl⟩
  cases op with
  | compute =>
    simp only [Op.run, compute] at h ⊢
    split at h
    · rename_i hs
      rw [if_pos hs]
      exact ⟨rfl, rfl⟩
    · rename_i hs
      rw [if_neg hs]
      cases hd : e.dense (shiftedA s) s.b with
      | none => exact ⟨rfl, rfl⟩
      | some r => simp [hd, failed] at h
  | computeSparse n =>
    simp only [Op.run, computeSparse] at h ⊢
    by_cases hs : s.status = .assemblyError
    · rw [if_pos hs]
      exact ⟨rfl, rfl⟩
    · rw [if_neg hs] at h ⊢
      cases hm : modeOf s.opts.solver with
      | none => exact ⟨rfl, rfl⟩
      | some m =>
        simp only [hm] at h ⊢
        cases m <;> exact h0 _ _ h
  | computePower => exact absurd rfl hop

/-- **C97**: the status that a call returns is the one which the object has then. -/
theorem C97_status (e : Lib K V) (op : Op) (s : ESt K V) (st : Status) (h : (op.run e s).2 = .ok st) :
    (op.run e s).1.status = st := by
  have h0 : ∀ (sh : K) (r : Option (Pairs K V SparseInfo)), (finish s sh r).2 = .ok st →
      (finish s sh r).1.status = st := by
    intro sh r hr
    cases r with
    | none => simp [finish] at hr
    | some q =>
      simp only [finish] at hr ⊢
      split at hr <;> rename_i hi <;> simp_all [ESt.store]
  cases op with
  | compute =>
    simp only [Op.run, compute, Except.ok.injEq] at h ⊢
    split at h
    · rename_i hs
      rw [if_pos hs]
      exact h
    · rename_i hs
      rw [if_neg hs]
      cases hd : e.dense (shiftedA s) s.b <;> simp_all [ESt.store]
  | computeSparse n =>
    simp only [Op.run, computeSparse] at h ⊢
    by_cases hs : s.status = .assemblyError
    · rw [if_pos hs] at h ⊢
      simpa using h
    · rw [if_neg hs] at h ⊢
      cases hm : modeOf s.opts.solver with
      | none => simpa [hm] using h
      | some m =>
        simp only [hm] at h ⊢
        cases m <;> exact h0 _ _ h
  | computePower =>
    simp only [Op.run, computePower, Except.ok.injEq] at h ⊢
    split at h
    · rename_i hs
      rw [if_pos hs]
      exact h
    · rename_i hs
      rw [if_neg hs]
      exact h

/-- **C97**: which solver of Spectra the option selects, and what is returned for each of its reports. -/
theorem C97_reports (e : Lib K V) (s : ESt K V) (n : ℤ) (hs : s.status ≠ .assemblyError) {m : Mode}
    {r : Pairs K V SparseInfo}
    (h : (s.opts.solver = 0 ∧ m = .cholesky ∨ s.opts.solver = 1 ∧ m = .regularInverse) ∧
        e.sparse m (s.a - s.opts.shift • s.b) s.b n (s.opts.ncvFac * n) s.opts.selectionRule s.opts.tolerance
          s.opts.sortRule = some r ∨
      (s.opts.solver = 2 ∧ m = .shiftInvert ∨ s.opts.solver = 3 ∧ m = .buckling ∨ s.opts.solver = 4 ∧ m = .cayley) ∧
        e.shifted m s.a s.b n (s.opts.ncvFac * n) s.opts.selectionRule s.opts.tolerance s.opts.sortRule
          s.opts.shift = some r) :
    (computeSparse e n s).2 = .ok (match r.info with
      | .successful => .success
      | .notConverging => .notConverged
      | .numericalIssue => .solverError
      | .notComputed => .solverError
      | .unknown => .otherError) := by
  have h0 : ∀ sh : K, (finish s sh (some r)).2 = .ok (match r.info with
      | .successful => .success
      | .notConverging => .notConverged
      | .numericalIssue => .solverError
      | .notComputed => .solverError
      | .unknown => .otherError) := by
    intro sh
    simp only [finish]
    cases r.info <;> rfl
  rw [computeSparse, if_neg hs]
  rcases h with ⟨⟨h1, rfl⟩ | ⟨h1, rfl⟩, h2⟩ | ⟨⟨h1, rfl⟩ | ⟨h1, rfl⟩ | ⟨h1, rfl⟩, h2⟩
  all_goals
    rw [h1]
    simp only [modeOf, if_pos, reduceIte, Int.reduceEq, OfNat.ofNat_ne_zero, OfNat.one_ne_ofNat, one_ne_zero, sparseImpl,
      shiftedA_eq, h2]
    exact h0 _

/-- **C97**: an exception of Spectra leaves `computeSparse`, and the object as it was, also the status. -/
theorem C97_escapes (e : Lib K V) (n : ℤ) (s t : ESt K V) (x : Err)
    (h : computeSparse e n s = (t, .error x)) : t = s ∧ x = .other := by
  have h0 : ∀ (sh : K) (r : Option (Pairs K V SparseInfo)), finish s sh r = (t, .error x) → t = s ∧ x = .other := by
    intro sh r hr
    cases r with
    | none =>
      simp only [finish, Prod.mk.injEq, Except.error.injEq] at hr
      exact ⟨hr.1.symm, hr.2.symm⟩
    | some q =>
      simp only [finish] at hr
      split at hr <;> simp at hr
  simp only [computeSparse] at h
  split at h
  · simp at h
  · split at h
    · rename_i m _
      cases m <;> exact h0 _ _ h
    · simp at h

/-- **C98**: a pair of the buckling solver solves the documented problem `K_L v = mu K_NL v` with
`mu = lambda / (1 + lambda)`, not with `lambda`. -/
theorem C98_documented (o : Opts K) (A N : V →ₗ[K] V) (l : K) (v : V) (hl : 1 + l ≠ 0)
    (h : (bucklingOf o A N).a v = l • (bucklingOf o A N).b v) : A v = (l / (1 + l)) • N v := by
  simp only [bucklingOf, ESt.init, LinearMap.sub_apply] at h
  have h1 : (1 + l) • A v = l • N v := by
    rw [add_smul, one_smul]
    nth_rewrite 1 [h]
    module
  rw [div_eq_inv_mul, mul_smul, ← h1, smul_smul, inv_mul_cancel₀ hl, one_smul]

/-- **C98** violated: the value is the negative of the critical load factor. `K_L + s (K_NL - K_L)`, the
stiffness for the load `s P`, is singular in the direction of `v` at `s = -lambda`, and not at
`s = lambda` unless `K_L v = 0`. -/
theorem C98_violated_sign [CharZero K] (o : Opts K) (A N : V →ₗ[K] V) (l : K) (v : V)
    (h : (bucklingOf o A N).a v = l • (bucklingOf o A N).b v) :
    A v + (-l) • (N v - A v) = 0 ∧ (A v + l • (N v - A v) = 0 → A v = 0) := by
  simp only [bucklingOf, ESt.init, LinearMap.sub_apply] at h
  constructor
  · rw [neg_smul, ← h, add_neg_cancel]
  · intro h2
    rw [← h] at h2
    have : (2 : K) • A v = 0 := by rw [two_smul]; exact h2
    exact (smul_eq_zero.1 this).resolve_left two_ne_zero

/-- **C97**: `mode` gives the value and the vector with the same number, and is out of range exactly if one of them is. -/
theorem C97_mode (s : ESt K V) (k : ℕ) :
    (∀ x v, mode s k = some (x, v) ↔ s.values[k]? = some x ∧ s.vectors[k]? = some v) ∧
      (mode s k = none ↔ s.values.length ≤ k ∨ s.vectors.length ≤ k) := by
  rw [← List.getElem?_eq_none_iff, ← List.getElem?_eq_none_iff, mode]
  rcases s.values[k]? with _ | x <;> rcases s.vectors[k]? with _ | v <;> simp

/-! ### Examples -/

/-- One degree of freedom, `A = 6`, `B = 2`. The dense solver divides; without success for `B <= 0`. -/
def lib1 : Lib ℚ ℚ where
  dense A B := if B 1 = 0 then none else
    some ⟨if 0 < B 1 then .success else .numericalIssue, [A 1 / B 1], [1]⟩
  sparse _ A B n ncv _ _ _ := if n < ncv then some ⟨.successful, [A 1 / B 1], [1]⟩ else none
  shifted _ A B n ncv _ _ _ _ := if n < ncv then some ⟨.notConverging, [A 1 / B 1], [1]⟩ else none
  inverse A := (A 1)⁻¹ • LinearMap.id
  solve A b := b / A 1
  dot x y := x * y
  norm x := |x|
  ones := 1

/-- Options for the examples. -/
def opts1 (solver : ℤ) (ncvFac : ℤ) (shift : ℚ) : Opts ℚ := ⟨solver, 4, 4, ncvFac, 1 / 10, shift⟩

/-- Multiplication by a number. -/
def mul1 (x : ℚ) : ℚ →ₗ[ℚ] ℚ := x • LinearMap.id

theorem mul1_apply (x y : ℚ) : mul1 x y = x * y := rfl

/-- `C67_dense`: shift 1, the solver finds 2 and the value is 3. -/
example : (compute lib1 (modal (opts1 0 3 1) (mul1 6) (mul1 2))).2 = .success ∧
    (compute lib1 (modal (opts1 0 3 1) (mul1 6) (mul1 2))).1.values = [some 3] := by
  decide +kernel

/-- `C67_sparse`: the same with the Cholesky mode. -/
example : computeSparse lib1 1 (modal (opts1 0 3 1) (mul1 6) (mul1 2)) =
    ((modal (opts1 0 3 1) (mul1 6) (mul1 2)).store 1 [2] [1], .ok .success) := by
  have h : (6 - 2) / (2 : ℚ) = 2 := by norm_num
  simp [computeSparse, modal, ESt.init, ESt.store, opts1, modeOf, sparseImpl, finish, lib1, shiftedA,
    mul1_apply, h]

/-- `C67_sticky`, `C68_throws`: the constructor with a callback that throws. -/
example : (buckling lib1 (opts1 0 3 0) (mul1 6) 1 (fun _ _ => .throws) 1).map ESt.status =
    .ok .assemblyError := rfl

/-- `C68_violated_false`: the callback gives up but leaves a matrix; `compute` reports success. -/
example : ((buckling lib1 (opts1 0 3 0) (mul1 6) 1 (fun _ _ => .returns false (some (mul1 8))) 1).map
    fun s => (compute lib1 s).2) = .ok .success := by
  decide +kernel

/-- `C97_violated_info`: a buckling problem with negative `B`; the solver has a numerical issue. -/
example : (lib1.dense (mul1 6) (mul1 4 - mul1 6)).map Pairs.info = some .numericalIssue ∧
    (compute lib1 (bucklingOf (opts1 0 3 0) (mul1 6) (mul1 4))).2 = .success := by
  decide +kernel

/-- `C97_stale`: after a call with values, the mode 2 does not converge and the values stay. -/
example : let s := (modal (opts1 2 3 0) (mul1 6) (mul1 2)).store 0 [3] [1]
    failed ((Op.computeSparse 1).run lib1 s).2 = true ∧
      ((Op.computeSparse 1).run lib1 s).1.values = [some 3] := by
  decide +kernel

/-- `C97_reports`: mode 2 does not converge; mode 0 succeeds. -/
example : (computeSparse lib1 1 (modal (opts1 2 3 0) (mul1 6) (mul1 2))).2 = .ok .notConverged ∧
    (computeSparse lib1 1 (modal (opts1 0 3 0) (mul1 6) (mul1 2))).2 = .ok .success := by
  decide +kernel

/-- `C97_escapes`: `ncv` must exceed the number of values. -/
example : computeSparse lib1 1 (modal (opts1 0 1 0) (mul1 6) (mul1 2)) =
    (modal (opts1 0 1 0) (mul1 6) (mul1 2), .error .other) := by
  simp [computeSparse, modal, ESt.init, opts1, modeOf, sparseImpl, finish, lib1]

/-- `C97_mode`: the value and the vector that were found; there is no second mode. -/
example : mode ((modal (opts1 0 3 1) (mul1 6) (mul1 2)).store 1 [2] [1]) 0 = some (some 3, 1) ∧
    mode ((modal (opts1 0 3 1) (mul1 6) (mul1 2)).store 1 [2] [1]) 1 = none := by
  decide +kernel

/-- `C98_violated_sign`: `K_L = 6`, `K_NL = 4`: the stiffness `6 - 2 s` vanishes for the load factor 3 and the
solver gives -3. -/
example : (bucklingOf (opts1 0 3 0) (mul1 6) (mul1 4)).a 1 =
    (-3 : ℚ) • (bucklingOf (opts1 0 3 0) (mul1 6) (mul1 4)).b 1 ∧
    (compute lib1 (bucklingOf (opts1 0 3 0) (mul1 6) (mul1 4))).1.values = [some (-3)] := by
  decide +kernel

end GsSA.Eigen
