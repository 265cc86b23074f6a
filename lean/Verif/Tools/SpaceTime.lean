import Mathlib.Algebra.BigOperators.Intervals
import Mathlib.Algebra.BigOperators.Fin
import Mathlib.Algebra.Field.Rat
import Mathlib.Algebra.Order.Ring.Rat
import Mathlib.Data.List.Sort
import Mathlib.Tactic.Linarith
import Verif.Base.Status

/-!
# Model of the space-time fitter

`src/gsStructuralAnalysisTools/gsSpaceTimeFitter.h`. Matrices are functions of two indices together with
their sizes. The B-spline basis in time, its collocation matrix and the linear solver are arbitrary
functions; the basis depends on what the constructor of the knot vector gets.
-/

namespace GsSA.Tools

open GsSA

set_option linter.unusedSectionVars false

variable {K : Type} [Field K] [LinearOrder K]

/-- A result of `compute`: the knot vector in time by its arguments (`gsSpaceTimeFitter.h` 119), and the
coefficients, rows first. -/
structure STFit (K : Type) where
  lo : K
  hi : K
  steps : ℕ
  deg : ℕ
  coefs : ℕ → ℕ → K

/-- The members of `gsSpaceTimeFitter`, `gsSpaceTimeFitter.h` 166-177. All data have `bsize` rows and
`targetDim` columns. -/
structure STF (K : Type) where
  bsize : ℕ
  targetDim : ℕ
  data : List (ℕ → ℕ → K)
  times : List K
  ptimes : List K
  deg : ℕ
  fit : Option (STFit K)

/-- The constructor, `gsSpaceTimeFitter.h` 26-42. The sizes of the matrices are those of the first one; the
code does not compare them with the others. -/
def STF.create (bsize targetDim : ℕ) (data : List (ℕ → ℕ → K)) (times ptimes : List K) (deg : ℕ) :
    Except Fail (STF K) :=
  if data.length = 0 then .error .ensure
  else if data.length ≠ times.length then .error .ensure
  else if ptimes.length ≠ times.length then .error .ensure
  else .ok ⟨bsize, targetDim, data, times, ptimes, deg, none⟩

/-- `addDataPoint`, `gsSpaceTimeFitter.h` 46-54: only the parametric time is used. -/
def STF.addDataPoint (_solution : ℕ → ℕ → K) (_time ptime : K) (_continuity : ℤ) (s : STF K) : STF K :=
  { s with ptimes := (s.ptimes ++ [ptime]).insertionSort (· ≤ ·) }

/-- The libraries: `coll lo hi n deg` is the collocation matrix of the basis at its anchors (139-142) and
`solve n C rhs` the solution of the linear system (144-150). -/
structure STLib (K : Type) where
  coll : K → K → ℕ → ℕ → ℕ → ℕ → K
  solve : ℕ → (ℕ → ℕ → K) → (ℕ → ℕ → K) → ℕ → ℕ → K

/-- The entry `q` of `M.reshape(1, r * c)`; Eigen stores matrices by columns. -/
def flat (r : ℕ) (M : ℕ → ℕ → K) (q : ℕ) : K := M (q % r) (q / r)

/-- The entry `(i,d)` of `x.reshape(r,c)` for a row `x`. -/
def unflat (r : ℕ) (x : ℕ → K) (i d : ℕ) : K := x (d * r + i)

/-- The right-hand side, `gsSpaceTimeFitter.h` 129-136. -/
def STF.rhs (s : STF K) (lam q : ℕ) : K :=
  if q < s.targetDim * s.bsize then flat s.bsize ((s.data[lam]?).getD fun _ _ => 0) q
  else (s.times[lam]?).getD 0

/-- The coefficients, `gsSpaceTimeFitter.h` 148-157. -/
def assemble (bsize targetDim : ℕ) (sol : ℕ → ℕ → K) (row d : ℕ) : K :=
  if d < targetDim then unflat bsize (sol (row / bsize)) (row % bsize) d
  else sol (row / bsize) (targetDim * bsize)

/-- `compute`, `gsSpaceTimeFitter.h` 111-163; without parametric times `minCoeff` is undefined. -/
def STF.compute (lib : STLib K) (s : STF K) : Except Fail (STF K) :=
  match s.ptimes.min?, s.ptimes.max? with
  | some lo, some hi =>
    let n := s.times.length
    let sol := lib.solve n (lib.coll lo hi n s.deg) s.rhs
    .ok { s with fit := some ⟨lo, hi, n, s.deg, assemble s.bsize s.targetDim sol⟩ }
  | _, _ => .error .ub

/-- `slice`, `gsSpaceTimeFitter.h` 101-109, for a fit with `bsize` spatial coefficients: the coefficients of
the slice are combinations of those in time, and the load is read from the column `domainDim + 1`. `N j` is
the value of the basis function `j` at the parameter. -/
def sliceLoad (domainDim targetDim bsize : ℕ) (f : STFit K) (N : ℕ → K) : Except Fail K :=
  if domainDim + 1 < targetDim + 1 then
    .ok (∑ j ∈ Finset.range f.steps, N j * f.coefs (j * bsize + 0) (domainDim + 1))
  else .error .ub

/-- The components of the spatial basis used for the basis in space and time, `gsSpaceTimeFitter.h` 63-97. -/
def spatialComponents (domainDim : ℕ) : List ℕ := if domainDim = 1 then [1] else List.range domainDim

/-- The solver is exact if there is a solution. -/
def STLib.Exact (lib : STLib K) : Prop :=
  ∀ n C rhs, (∃ x : ℕ → ℕ → K, ∀ k < n, ∀ q, ∑ j ∈ Finset.range n, C k j * x j q = rhs k q) →
    ∀ k < n, ∀ q, ∑ j ∈ Finset.range n, C k j * lib.solve n C rhs j q = rhs k q

theorem compute_fit (lib : STLib K) (s r : STF K) (h : s.compute lib = .ok r) :
    ∃ lo hi, s.ptimes.min? = some lo ∧ s.ptimes.max? = some hi ∧ r.fit = some ⟨lo, hi, s.times.length, s.deg,
      assemble s.bsize s.targetDim (lib.solve s.times.length (lib.coll lo hi s.times.length s.deg) s.rhs)⟩ := by
  rw [STF.compute] at h
  split at h
  · rename_i lo hi h1 h2
    cases h
    exact ⟨lo, hi, h1, h2, rfl⟩
  · cases h

/-- **C103**: with a regular collocation matrix, the fit takes at the `k`-th anchor the `k`-th data, entry by
entry, and the `k`-th time in the last column. -/
theorem C103_anchors (lib : STLib K) (hl : lib.Exact) (s r : STF K) (f : STFit K)
    (h : s.compute lib = .ok r) (hf : r.fit = some f)
    (hsol : ∃ x : ℕ → ℕ → K, ∀ k < s.times.length, ∀ q,
      ∑ j ∈ Finset.range s.times.length, lib.coll f.lo f.hi s.times.length s.deg k j * x j q = s.rhs k q)
    (k : ℕ) (hk : k < s.times.length) (hk2 : k < s.data.length) (i : ℕ) (hi : i < s.bsize) :
    (∀ d < s.targetDim, ∑ j ∈ Finset.range f.steps, lib.coll f.lo f.hi f.steps f.deg k j *
        f.coefs (j * s.bsize + i) d = s.data[k] i d) ∧
      ∑ j ∈ Finset.range f.steps, lib.coll f.lo f.hi f.steps f.deg k j *
        f.coefs (j * s.bsize + i) s.targetDim = s.times[k] := by
  obtain ⟨lo, hi', _, _, h3⟩ := compute_fit lib s r h
  rw [hf, Option.some.injEq] at h3
  subst h3
  have hex := hl _ _ _ hsol k hk
  have hrow : ∀ j, (j * s.bsize + i) / s.bsize = j ∧ (j * s.bsize + i) % s.bsize = i := by
    intro j
    constructor
    · rw [Nat.mul_comm, Nat.mul_add_div (by omega), Nat.div_eq_of_lt hi, Nat.add_zero]
    · rw [Nat.mul_comm, Nat.mul_add_mod, Nat.mod_eq_of_lt hi]
  constructor
  · intro d hd
    have hq : d * s.bsize + i < s.targetDim * s.bsize := by
      have : (d + 1) * s.bsize ≤ s.targetDim * s.bsize := Nat.mul_le_mul_right _ hd
      rw [Nat.add_mul, Nat.one_mul] at this
      omega
    have := hex (d * s.bsize + i)
    simp only [assemble, hd, if_true, (hrow _).1, (hrow _).2, unflat]
    rw [this, STF.rhs, if_pos hq, List.getElem?_eq_getElem hk2, flat, (hrow d).1, (hrow d).2]
    rfl
  · have := hex (s.targetDim * s.bsize)
    simp only [assemble, lt_irrefl, if_false, (hrow _).1]
    rw [this, STF.rhs, if_neg (lt_irrefl _), List.getElem?_eq_getElem hk]
    rfl

/-- **C103**: what the constructor accepts, it can fit: as many data as times, at least one of each. -/
theorem C103_create (lib : STLib K) (bsize targetDim : ℕ) (data : List (ℕ → ℕ → K)) (times ptimes : List K)
    (deg : ℕ) (s : STF K) (h : STF.create bsize targetDim data times ptimes deg = .ok s) :
    s.data = data ∧ s.times = times ∧ s.data.length = s.times.length ∧ ∃ r f, s.compute lib = .ok r ∧
      r.fit = some f ∧ f.steps = data.length := by
  simp only [STF.create] at h
  split at h
  · cases h
  split at h
  · cases h
  split at h
  · cases h
  rename_i h0 h1 h2
  simp only [ne_eq, not_not] at h1 h2
  cases h
  have hp : ptimes ≠ [] := by
    rintro rfl
    simp only [List.length_nil] at h2
    omega
  obtain ⟨lo, hlo⟩ := Option.isSome_iff_exists.1 (List.isSome_min?_of_ne_nil hp)
  obtain ⟨hi, hhi⟩ := Option.isSome_iff_exists.1 (List.isSome_max?_of_ne_nil hp)
  refine ⟨rfl, rfl, h1, ⟨bsize, targetDim, data, times, ptimes, deg, some ⟨lo, hi, times.length, deg,
    assemble bsize targetDim (lib.solve times.length (lib.coll lo hi times.length deg)
      (STF.rhs ⟨bsize, targetDim, data, times, ptimes, deg, none⟩))⟩⟩, _, ?_, rfl, h1.symm⟩
  rw [STF.compute, hlo, hhi]

/-- **C103**: the constructor accepts exactly the lists of equal length that are not empty. -/
theorem C103_accepts (bsize targetDim : ℕ) (data : List (ℕ → ℕ → K)) (times ptimes : List K) (deg : ℕ) :
    (∃ s, STF.create bsize targetDim data times ptimes deg = .ok s) ↔
      data ≠ [] ∧ data.length = times.length ∧ ptimes.length = times.length := by
  simp only [STF.create, List.length_eq_zero_iff]
  split_ifs with h0 h1 h2 <;> simp_all

/-- **C103** violated: the solution and the time of an added data point have no effect. -/
theorem C103_violated_dropped (lib : STLib K) (x y : ℕ → ℕ → K) (t t' p : K) (c c' : ℤ) (s : STF K) :
    (s.addDataPoint x t p c).compute lib = (s.addDataPoint y t' p c').compute lib := rfl

/-- **C103**: the parametric times are those present and the new one, in ascending order. -/
theorem C103_sorted (x : ℕ → ℕ → K) (t p : K) (c : ℤ) (s : STF K) :
    (s.addDataPoint x t p c).ptimes.Pairwise (· ≤ ·) ∧
      ∀ y, y ∈ (s.addDataPoint x t p c).ptimes ↔ y ∈ s.ptimes ∨ y = p := by
  refine ⟨List.pairwise_insertionSort _ _, fun y => ?_⟩
  simp [STF.addDataPoint, List.mem_insertionSort]

theorem min?_congr (l m : List K) (h1 : ∀ x ∈ m, ∃ y ∈ l, y ≤ x) (h2 : ∀ x ∈ l, x ∈ m) (a : K)
    (ha : l.min? = some a) : m.min? = some a := by
  rw [List.min?_eq_some_iff] at ha ⊢
  refine ⟨h2 _ ha.1, fun b hb => ?_⟩
  obtain ⟨y, hy, hyb⟩ := h1 b hb
  exact (ha.2 y hy).trans hyb

theorem max?_congr (l m : List K) (h1 : ∀ x ∈ m, ∃ y ∈ l, x ≤ y) (h2 : ∀ x ∈ l, x ∈ m) (a : K)
    (ha : l.max? = some a) : m.max? = some a := by
  rw [List.max?_eq_some_iff] at ha ⊢
  refine ⟨h2 _ ha.1, fun b hb => ?_⟩
  obtain ⟨y, hy, hyb⟩ := h1 b hb
  exact hyb.trans (ha.2 y hy)

/-- **C103** violated: a data point whose parametric time lies between those present changes nothing at all
in the fit. -/
theorem C103_violated_added (lib : STLib K) (x : ℕ → ℕ → K) (t p : K) (c : ℤ) (s r : STF K)
    (h : s.compute lib = .ok r) (a b : K) (ha : a ∈ s.ptimes) (hb : b ∈ s.ptimes) (hap : a ≤ p) (hpb : p ≤ b) :
    ∃ q, (s.addDataPoint x t p c).compute lib = .ok q ∧ q.fit = r.fit := by
  obtain ⟨lo, hi, h1, h2, h3⟩ := compute_fit lib s r h
  have hmem : ∀ y, y ∈ (s.addDataPoint x t p c).ptimes ↔ y ∈ s.ptimes ∨ y = p := by
    intro y
    simp [STF.addDataPoint, List.mem_insertionSort]
  have e1 : (s.addDataPoint x t p c).ptimes.min? = some lo := by
    refine min?_congr s.ptimes _ (fun y hy => ?_) (fun y hy => (hmem y).2 (.inl hy)) lo h1
    rcases (hmem y).1 hy with hy | rfl
    · exact ⟨y, hy, le_rfl⟩
    · exact ⟨a, ha, hap⟩
  have e2 : (s.addDataPoint x t p c).ptimes.max? = some hi := by
    refine max?_congr s.ptimes _ (fun y hy => ?_) (fun y hy => (hmem y).2 (.inl hy)) hi h2
    rcases (hmem y).1 hy with hy | rfl
    · exact ⟨y, hy, le_rfl⟩
    · exact ⟨b, hb, hpb⟩
  refine ⟨{ s.addDataPoint x t p c with fit := r.fit }, ?_, rfl⟩
  rw [STF.compute, e1, e2, h3]
  rfl

/-- **C103** violated: of the parametric times only the smallest and the largest count; the fit is not tied
to the others. -/
theorem C103_violated_ptimes (lib : STLib K) (s : STF K) (l : List K) (h1 : l.min? = s.ptimes.min?)
    (h2 : l.max? = s.ptimes.max?) :
    (s.compute lib).map STF.fit = (({ s with ptimes := l } : STF K).compute lib).map STF.fit := by
  have h1' : ({ s with ptimes := l } : STF K).ptimes.min? = s.ptimes.min? := h1
  have h2' : ({ s with ptimes := l } : STF K).ptimes.max? = s.ptimes.max? := h2
  rw [STF.compute, STF.compute, h1', h2']
  cases s.ptimes.min? <;> cases s.ptimes.max? <;> rfl

/-- **C104**: if the points have one component more than the domain (a surface in space), the load of the
slice at the `k`-th anchor is the `k`-th time. -/
theorem C104_load (lib : STLib K) (hl : lib.Exact) (s r : STF K) (f : STFit K) (domainDim : ℕ)
    (hdim : s.targetDim = domainDim + 1) (hb : 0 < s.bsize)
    (h : s.compute lib = .ok r) (hf : r.fit = some f)
    (hsol : ∃ x : ℕ → ℕ → K, ∀ k < s.times.length, ∀ q,
      ∑ j ∈ Finset.range s.times.length, lib.coll f.lo f.hi s.times.length s.deg k j * x j q = s.rhs k q)
    (k : ℕ) (hk : k < s.times.length) (hk2 : k < s.data.length) :
    sliceLoad domainDim s.targetDim s.bsize f (lib.coll f.lo f.hi f.steps f.deg k) = .ok s.times[k] := by
  rw [sliceLoad, if_pos (by omega), ← (C103_anchors lib hl s r f h hf hsol k hk hk2 0 hb).2, hdim]

/-- **C104** violated: for a planar problem, or a solid, reading the load is undefined behaviour. -/
theorem C104_violated_planar (domainDim targetDim bsize : ℕ) (f : STFit K) (N : ℕ → K)
    (h : targetDim ≤ domainDim) : sliceLoad domainDim targetDim bsize f N = .error .ub := by
  rw [sliceLoad, if_neg (by omega)]

/-- **C104** violated: for a curve in space the load is a component of the points: at the `k`-th anchor, the
component `domainDim + 1` of the first point of the `k`-th data. -/
theorem C104_violated_curve (lib : STLib K) (hl : lib.Exact) (s r : STF K) (f : STFit K) (domainDim : ℕ)
    (hdim : domainDim + 1 < s.targetDim) (hb : 0 < s.bsize)
    (h : s.compute lib = .ok r) (hf : r.fit = some f)
    (hsol : ∃ x : ℕ → ℕ → K, ∀ k < s.times.length, ∀ q,
      ∑ j ∈ Finset.range s.times.length, lib.coll f.lo f.hi s.times.length s.deg k j * x j q = s.rhs k q)
    (k : ℕ) (hk : k < s.times.length) (hk2 : k < s.data.length) :
    sliceLoad domainDim s.targetDim s.bsize f (lib.coll f.lo f.hi f.steps f.deg k) =
      .ok (s.data[k] 0 (domainDim + 1)) := by
  rw [sliceLoad, if_pos (by omega), ← (C103_anchors lib hl s r f h hf hsol k hk hk2 0 hb).1 _ hdim]

/-- **C104** violated: for a curve the second component of a basis with one component is asked for. -/
theorem C104_violated_component (domainDim : ℕ) :
    (∀ i ∈ spatialComponents domainDim, i < domainDim) ↔ domainDim ≠ 1 := by
  unfold spatialComponents
  split
  · rename_i h1
    simp [h1]
  · rename_i h1
    simp [h1]

/-! ### Examples -/

/-- The identity as collocation matrix (degree 1). -/
def stlib : STLib ℚ where
  coll _ _ _ _ k j := if k = j then 1 else 0
  solve _ _ rhs := rhs

/-- Three steps with two coefficients in space. -/
def stf : STF ℚ where
  bsize := 2
  targetDim := 3
  data := [fun i d => i + 10 * d, fun i d => i + 10 * d + 1, fun i d => i + 10 * d + 5]
  times := [0, 1, 4]
  ptimes := [0, 2, 3]
  deg := 1
  fit := none

/-- `C103_anchors`, `C104_load`: the load of the last step, for a surface. -/
example : ((stf.compute stlib).map fun r => r.fit.map fun f =>
    sliceLoad 2 3 2 f (stlib.coll f.lo f.hi f.steps f.deg 2)) = .ok (some (.ok 4)) := by
  decide +kernel

/-- `C104_violated_curve`: for a curve, the third component of the first point. -/
example : ((stf.compute stlib).map fun r => r.fit.map fun f =>
    sliceLoad 1 3 2 f (stlib.coll f.lo f.hi f.steps f.deg 2)) = .ok (some (.ok 25)) := by
  decide +kernel

/-- `C103_accepts`: a parametric time too many. -/
example : (STF.create 2 3 stf.data [0, 1, 4] [0, 2, 3] 1).isOk = true ∧
    (STF.create 2 3 stf.data [0, 1, 4] [0, 2, 3, (5 : ℚ)] 1).isOk = false := by
  decide +kernel

/-- `C103_violated_added`: a fourth data point is not seen. -/
example : ((stf.addDataPoint (fun _ _ => 100) 2 (5 / 2) 1).compute stlib).map
      (fun r => r.fit.map fun f => (f.steps, f.hi)) = .ok (some (3, 3)) := by
  decide +kernel

end GsSA.Tools
