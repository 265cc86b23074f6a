import Mathlib.Algebra.Module.Pi
import Mathlib.Tactic.NormNum
import Mathlib.Data.Fin.VecNotation
import Verif.Dynamic.Blind

/-!
# Parallel-in-time integration: C95

`src/gsDynamicSolvers/gsDynamicXBraid.h`. The functions that the library XBraid calls are modelled one by
one; the library is not part of the repository. The vectors it handles have `3 N` entries: displacements,
velocities and accelerations.
-/

set_option linter.unusedSectionVars false

namespace GsSA.Dynamic

open GsSA GsSA.Static
open GsSA.ALM (Act Err)

variable {K : Type} [Field K] [LinearOrder K] [IsStrictOrderedRing K] {N : ℕ}

/-- `u_ptr->segment(k*m_numDofs, m_numDofs)`. -/
def seg (k : ℕ) (h : k < 3) (w : Fin (3 * N) → K) : Fin N → K := fun i =>
  w ⟨k * N + i, by have := i.2; have : k * N ≤ 2 * N := Nat.mul_le_mul_right N (by omega); omega⟩

/-- Assignment of the three segments, `gsDynamicXBraid.h` 165-167. -/
def join (u v a : Fin N → K) : Fin (3 * N) → K := fun j =>
  if h : j.1 < N then u ⟨j.1, h⟩
  else if h' : j.1 < 2 * N then v ⟨j.1 - N, by omega⟩
  else a ⟨j.1 - 2 * N, by have := j.2; omega⟩

/-- One segment in `Init`: the vector of the solver if it has the right number of rows, else 0. -/
def initSeg (N : ℕ) (l : List K) : Fin N → K :=
  if h : l.length = N then fun i => l[i.1]'(by rw [h]; exact i.2) else 0

/-- `Init`, `gsDynamicXBraid.h` 118-134; `lu`, `lv`, `la` are the vectors of the solver, of any length. -/
def braidInit (N : ℕ) (lu lv la : List K) : Fin (3 * N) → K :=
  join (initSeg N lu) (initSeg N lv) (initSeg N la)

/-- What `Access` hands to the callback, `gsDynamicXBraid.h` 213-223. -/
def braidAccess (w : Fin (3 * N) → K) : (Fin N → K) × (Fin N → K) × (Fin N → K) :=
  (seg 0 (by omega) w, seg 1 (by omega) w, seg 2 (by omega) w)

/-- `SpatialNorm`, `gsDynamicXBraid.h` 194-201. -/
def braidNorm (norm : (Fin N → K) → K) (w : Fin (3 * N) → K) : K := norm (seg 0 (by omega) w)

/-- `BufSize` in units of `sizeof(T)`, `gsDynamicXBraid.h` 204-208. -/
def braidBuf (N : ℕ) : ℕ := N * 3 + 2

/-- What the library tells about a step: the interval, the level, and the error estimate (-1 if there is
none). -/
structure BStatus (K : Type) where
  start : K
  stop : K
  level : ℤ
  error : K

/-- `Step`, `gsDynamicXBraid.h` 140-191. Returns the new vector and the refinement factor, if it is set.
`cs` is `(braid_Int) ceil(sqrt(x))`. -/
def braidStep (cs : K → ℤ) (f : K → K → Act (DSt K (Fin N → K)) Status) (w : Fin (3 * N) → K)
    (fstop : Option (Fin (3 * N) → K)) (b : BStatus K) :
    Act (DSt K (Fin N → K)) ((Fin (3 * N) → K) × Option ℤ) := do
  let w := match fstop with | none => w | some g => w + g
  let r ← stepConst f b.start (b.stop - b.start) (seg 0 (by omega) w) (seg 1 (by omega) w)
    (seg 2 (by omega) w)
  let rf : Option ℤ :=
    if b.level = 0 then
      if r.1 = .success then
        if b.error ≠ -1 then some (cs (b.error / (1 / 1000))) else some 1
      else some 2
    else none
  pure (join r.2.1 r.2.2.1 r.2.2.2, rf)

/-- Steps over consecutive intervals, on one level, each from the result of the one before. -/
def braidSteps (cs : K → ℤ) (f : K → K → Act (DSt K (Fin N → K)) Status) (level : ℤ) (err : K) :
    K → List K → (Fin (3 * N) → K) → Act (DSt K (Fin N → K)) (Fin (3 * N) → K)
  | _, [], w => pure w
  | t, t' :: l, w => do
    let r ← braidStep cs f w none ⟨t, t', level, err⟩
    braidSteps cs f level err t' l r.1

/-! ## Theorems -/

@[simp] theorem seg_join0 (u v a : Fin N → K) (h : 0 < 3) : seg 0 h (join u v a) = u := by
  funext i
  simp only [seg, join, zero_mul, zero_add]
  rw [dif_pos i.2]

@[simp] theorem seg_join1 (u v a : Fin N → K) (h : 1 < 3) : seg 1 h (join u v a) = v := by
  funext i
  simp only [seg, join, one_mul]
  rw [dif_neg (by omega), dif_pos (by omega)]
  congr 1
  exact Fin.ext (by simp)

@[simp] theorem seg_join2 (u v a : Fin N → K) (h : 2 < 3) : seg 2 h (join u v a) = a := by
  funext i
  simp only [seg, join]
  rw [dif_neg (by omega), dif_neg (by omega)]
  congr 1
  exact Fin.ext (by simp)

theorem join_seg (w : Fin (3 * N) → K) :
    join (seg 0 (by omega) w) (seg 1 (by omega) w) (seg 2 (by omega) w) = w := by
  funext j
  have := j.2
  simp only [seg, join]
  split
  · congr 1; exact Fin.ext (by simp)
  · split
    · congr 1; exact Fin.ext (by simp; omega)
    · congr 1; exact Fin.ext (by simp; omega)

/-- `Access` after `Init` hands out the vectors of the solver; those of another size count as zero. -/
theorem C95_init (N : ℕ) (lu lv la : List K) (hu : lu.length = N) (hv : lv.length = N) (i : Fin N) :
    (braidAccess (braidInit N lu lv la)).1 i = lu[i.1]'(by rw [hu]; exact i.2) ∧
    (braidAccess (braidInit N lu lv la)).2.1 i = lv[i.1]'(by rw [hv]; exact i.2) ∧
    (la.length ≠ N → (braidAccess (braidInit N lu lv la)).2.2 i = 0) ∧
    ∀ h : la.length = N, (braidAccess (braidInit N lu lv la)).2.2 i = la[i.1]'(by rw [h]; exact i.2) := by
  simp only [braidAccess, braidInit, seg_join0, seg_join1, seg_join2, initSeg]
  exact ⟨by rw [dif_pos hu], by rw [dif_pos hv], fun h => by rw [dif_neg h]; rfl, fun h => by rw [dif_pos h]⟩

example : braidAccess (braidInit 2 [1, 2] [3, 4] ([5] : List ℚ)) = (![1, 2], ![3, 4], ![0, 0]) := by
  decide +kernel

/-- The buffer has room for the vector and two more numbers. -/
theorem C95_buffer (N : ℕ) : braidBuf N = 3 * N + 2 := by
  simp only [braidBuf]; omega

/-- Steps over consecutive intervals give what the serial time stepping gives: the vectors that `Access` would
hand out are those of the solver after the calls `step(dt)` with the lengths of the intervals. -/
theorem C95_serial (cs : K → ℤ) (m : Method) (nl : Bool) (e : Env K (Fin N → K)) (o : Opts K) (level : ℤ) (err : K)
    (l : List K) (s q : DSt K (Fin N → K)) (w w' : Fin (3 * N) → K)
    (hw : braidAccess w = (s.u, s.v, s.a))
    (h : braidSteps cs (integrate m nl e o) level err s.time l w s = (q, .ok w')) :
    let p := (steps none (integrate m nl e o) (List.zipWith (· - ·) l (s.time :: l)) s).1
    braidAccess w' = (p.u, p.v, p.a) ∧ q.u = s.u ∧ q.v = s.v ∧ q.a = s.a ∧ q.time = s.time := by
  suffices H : ∀ (t : K) (s₁ s₂ : DSt K (Fin N → K)) (w : Fin (3 * N) → K), braidAccess w = (s₂.u, s₂.v, s₂.a) →
      s₂.time = t → s₁.log = s₂.log → s₁.massInv = s₂.massInv →
      braidSteps cs (integrate m nl e o) level err t l w s₁ = (q, .ok w') →
      let p := (steps none (integrate m nl e o) (List.zipWith (· - ·) l (t :: l)) s₂).1
      braidAccess w' = (p.u, p.v, p.a) ∧ q.u = s₁.u ∧ q.v = s₁.v ∧ q.a = s₁.a ∧ q.time = s₁.time from
    H s.time s s w hw rfl rfl rfl h
  clear h hw
  induction l with
  | nil =>
    intro t s₁ s₂ w hw _ _ _ h
    simp only [braidSteps, Act.pure_apply, Prod.mk.injEq, Except.ok.injEq] at h
    obtain ⟨rfl, rfl⟩ := h
    exact ⟨hw, rfl, rfl, rfl, rfl⟩
  | cons t' l ih =>
    intro t s₁ s₂ w hw ht hl hM h
    simp only [braidSteps] at h
    obtain ⟨q₁, r, h1, h2⟩ := Act.bind_ok_inv h
    simp only [braidStep] at h1
    obtain ⟨q₂, r', h3, h4⟩ := Act.bind_ok_inv h1
    simp only [Act.pure_apply, Prod.mk.injEq, Except.ok.injEq] at h4
    obtain ⟨rfl, rfl⟩ := h4
    simp only [braidAccess, Prod.mk.injEq] at hw
    rw [hw.1, hw.2.1, hw.2.2, ← ht] at h3
    obtain ⟨r1, u, v, a⟩ := r'
    obtain ⟨p, h5, hu, hv, ha, hpt, hlog, hmi, a1, a2, a3, a4, -⟩ :=
      stepConst_step m nl e o (t' - s₂.time) s₁ s₂ q₂ r1 u v a hl hM h3
    have h6 := ih t' q₂ p (join u v a) (by simp [braidAccess, hu, hv, ha]) (by rw [hpt]; ring) hlog hmi h2
    simp only [List.zipWith_cons_cons, steps, ← ht, h5]
    refine ⟨h6.1, ?_⟩
    obtain ⟨-, b1, b2, b3, b4⟩ := h6
    exact ⟨b1.trans a1, b2.trans a2, b3.trans a3, b4.trans a4⟩

/-- The spring as a system with one unknown. -/
def demo1 (b : ℕ → Bool) : Env ℚ (Fin 1 → ℚ) where
  norm x := |x 0|
  norm2 x y := |x 0| + |y 0|
  nonfinite x := decide (1000 < x)
  constMass := true
  mass _ _ := .value LinearMap.id
  damping n _ _ := if b n then .refused else .value 0
  jacobian _ _ _ := .value LinearMap.id
  force _ _ := .value 0
  residual _ x _ := .value (-x)
  inverse _ := LinearMap.id
  solve _ m x := fun _ => x 0 / m 1 0
  gmres _ _ _ _ _ x y := (x, y)

/-- Two intervals, `[0,1]` and `[1,3]`. -/
example :
    (braidSteps (fun _ => 1) (integrate .newmark false (demo1 fun _ => false) demoOpts) 0 (-1) 0 [1, 3]
      (braidInit 1 [1] [0] []) (DSt.init 0 0 0)).2.toOption.map (fun w => (braidAccess w).1 0) =
    some ((steps none (integrate .newmark false (demo1 fun _ => false) demoOpts) [1, 2]
      (DSt.init (fun _ => 1) 0 0)).1.u 0) := by
  decide +kernel

/-- **C95**: the right hand side which XBraid passes is added to the vector before the step. -/
theorem C95_rhs (cs : K → ℤ) (f : K → K → Act (DSt K (Fin N → K)) Status) (w g : Fin (3 * N) → K)
    (b : BStatus K) : braidStep cs f w (some g) b = braidStep cs f (fun i => w i + g i) none b := rfl

/-- `C95_rhs`: the right hand side matters. -/
example :
    ((braidStep (fun _ => 0) (fun _ _ => pure .success) (fun _ : Fin (3 * 1) => (1 : ℚ)) (some fun _ => 4) ⟨0, 1, 0, -1⟩
      (DSt.init (fun _ => 1) 0 0)).2.toOption.map fun r => (r.1 0, r.2)) = some (5, some 1) := by
  decide +kernel

/-- The specification of `ceil(sqrt(x))` for `x ≥ 0`. -/
def CeilSqrt (cs : K → ℤ) : Prop := ∀ x, 0 ≤ x → 0 ≤ cs x ∧ ∀ n : ℕ, cs x ≤ n ↔ x ≤ (n : K) * n

/-- The refinement factor set by a step on the finest level: 2 for a failed step, 1 without error estimate, and
otherwise the smallest number whose square is at least 1000 times the error. -/
theorem C95_rfactor (cs : K → ℤ) (f : K → K → Act (DSt K (Fin N → K)) Status) (w : Fin (3 * N) → K)
    (fstop : Option (Fin (3 * N) → K)) (b : BStatus K) (s q : DSt K (Fin N → K)) (w' : Fin (3 * N) → K)
    (rf : Option ℤ) (hc : CeilSqrt cs) (h0 : b.level = 0)
    (h : braidStep cs f w fstop b s = (q, .ok (w', rf))) :
    rf = some 2 ∨ (b.error = -1 ∧ rf = some 1) ∨
      (b.error ≠ -1 ∧ ∃ k, rf = some k ∧
        (0 ≤ b.error → 0 ≤ k ∧ ∀ n : ℕ, k ≤ n ↔ 1000 * b.error ≤ (n : K) * n)) := by
  simp only [braidStep] at h
  obtain ⟨q₂, r', h3, h4⟩ := Act.bind_ok_inv h
  simp only [Act.pure_apply, Prod.mk.injEq, Except.ok.injEq, h0, if_true] at h4
  obtain ⟨-, -, rfl⟩ := h4
  by_cases hs : r'.1 = .success
  · rw [if_pos hs]
    by_cases he : b.error = -1
    · rw [if_neg (by simpa using he)]
      exact Or.inr (Or.inl ⟨he, rfl⟩)
    · rw [if_pos he]
      refine Or.inr (Or.inr ⟨he, _, rfl, fun hpos => ?_⟩)
      have e1 : b.error / (1 / 1000) = 1000 * b.error := by
        rw [one_div, div_inv_eq_mul, mul_comm]
      rw [e1]
      exact hc _ (by positivity)
  · rw [if_neg hs]
    exact Or.inl rfl

/-- C95 fails: a step that succeeds with error estimate 0, the best possible case, sets the refinement factor
0, not 1. -/
theorem C95_violated_rfactor (cs : K → ℤ) (f : K → K → Act (DSt K (Fin N → K)) Status) (w : Fin (3 * N) → K)
    (fstop : Option (Fin (3 * N) → K)) (b : BStatus K) (s q : DSt K (Fin N → K)) (w' : Fin (3 * N) → K)
    (rf : Option ℤ) (hc : CeilSqrt cs) (h0 : b.level = 0) (he : b.error = 0)
    (h : braidStep cs f w fstop b s = (q, .ok (w', rf))) : rf = some 2 ∨ rf = some 0 := by
  rcases C95_rfactor cs f w fstop b s q w' rf hc h0 h with h | ⟨h, -⟩ | ⟨-, k, h, h1⟩
  · exact Or.inl h
  · rw [he] at h; norm_num at h
  · right
    obtain ⟨h2, h3⟩ := h1 (by rw [he])
    have := (h3 0).2 (by simp [he])
    rw [h]
    congr 1
    push_cast at this
    omega

/-- C95 fails: on a coarse level nothing tells the library that the integrator failed. -/
theorem C95_violated_coarse (cs : K → ℤ) (f : K → K → Act (DSt K (Fin N → K)) Status) (w : Fin (3 * N) → K)
    (fstop : Option (Fin (3 * N) → K)) (b : BStatus K) (s q : DSt K (Fin N → K)) (w' : Fin (3 * N) → K)
    (rf : Option ℤ) (h0 : b.level ≠ 0) (h : braidStep cs f w fstop b s = (q, .ok (w', rf))) : rf = none := by
  simp only [braidStep] at h
  obtain ⟨q₂, r', h3, h4⟩ := Act.bind_ok_inv h
  simp only [Act.pure_apply, Prod.mk.injEq, Except.ok.injEq, h0, if_false] at h4
  exact h4.2.2.symm

/-- A ceiling of the square root for rational numbers. -/
def ceilSqrtQ (x : ℚ) : ℤ := (((List.range 100).find? fun n : ℕ => decide (x ≤ (n : ℚ) * n)).getD 0 : ℕ)

/-- A step with error estimate 0 and one with 1/10; a failed step on a coarse level. -/
example :
    (braidStep ceilSqrtQ (integrate .newmark false (demo1 fun _ => false) demoOpts)
      (braidInit 1 [1] [0] [0]) none ⟨0, 1, 0, 0⟩ (DSt.init 0 0 0)).2.toOption.map (·.2) = some (some 0) ∧
    (braidStep ceilSqrtQ (integrate .newmark false (demo1 fun _ => false) demoOpts)
      (braidInit 1 [1] [0] [0]) none ⟨0, 1, 0, 1 / 10⟩ (DSt.init 0 0 0)).2.toOption.map (·.2) = some (some 10) ∧
    (braidStep ceilSqrtQ (integrate .newmark true (demo1 fun _ => false) { demoOpts with maxIter := 0 })
      (braidInit 1 [1] [0] [0]) none ⟨0, 1, 1, -1⟩ (DSt.init 0 0 0)).2.toOption.map (·.2) = some none := by
  decide +kernel

/-- C95 fails: the norm does not see velocities and accelerations, so that vectors with different ones have
distance 0. -/
theorem C95_violated_norm (norm : (Fin N → K) → K) (u v a v' a' : Fin N → K) :
    braidNorm norm (join u v a - join u v' a') = norm 0 := by
  simp only [braidNorm]
  congr 1
  funext i
  simp only [seg, Pi.sub_apply, join, zero_mul, zero_add, Pi.zero_apply]
  rw [dif_pos i.2, dif_pos i.2, sub_self]

example : join (![1] : Fin 1 → ℚ) ![2] ![3] ≠ join ![1] ![4] ![3] := by decide +kernel

end GsSA.Dynamic
