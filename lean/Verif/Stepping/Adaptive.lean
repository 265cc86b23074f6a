import Mathlib.Algebra.Order.Field.Basic
import Mathlib.Algebra.Module.Defs
import Mathlib.Data.Rat.Defs
import Mathlib.Algebra.Order.Ring.Rat
import Mathlib.Tactic.Ring
import Mathlib.Tactic.Linarith
import Mathlib.Tactic.FieldSimp
import Mathlib.Tactic.Positivity

/-!
# Load steps with adaptive meshes (C126)

`benchmarks/benchmark_Roof_DWR.cpp` 528-727 and the part after buckling of `benchmark_Wrinkling_DWR.cpp` 724-914. In
every load step an inner loop solves the step, estimates the error of the solution, changes the mesh, interpolates
the solution and the previous point onto the new mesh, and starts again until the error is in a band. The meshes and
the fields are abstract, as well as the arc-length step (a function of the number of the call, the mesh, the
previous point, the previous increment and the length; `none`: not converged), the estimate of the error, the marking
with refinement and coarsening, and the quasi-interpolation. What is left out: plots, the geometry (a part of the
mesh), the deformed geometry, and the indicator.
-/

namespace GsSA.Stepping.Adaptive

set_option linter.unusedSectionVars false

/-- What the programs call. -/
structure Mesher (G P K : Type) where
  /-- A new `gsALMCrisfield`, `setSolution`, `setSolutionStep`, `setLength`, `step` (`benchmark_Roof_DWR.cpp` 551-576). -/
  solve : ℕ → G → P × K → P × K → K → Option ((P × K) × (P × K))
  /-- `std::abs(helper.error())` (598). -/
  error : G → P → K
  /-- `markRef_into`, `refine` (619-626). -/
  refine : G → P → G × Bool
  /-- `markRef_into`, `markCrs_into`, `refine`, `unrefine` (627-637). -/
  both : G → P → G × Bool × Bool
  /-- `markCrs_into`, `unrefine` (638-645). -/
  coarsen : G → P → G × Bool
  /-- `gsQuasiInterpolate::localIntpl` (655-670). -/
  project : G → P → P

/-- In what the programs differ. -/
structure Prog (G P K : Type) where
  /-- `it -= 1` after a failed step (`benchmark_Roof_DWR.cpp` 571). -/
  back : Bool
  /-- The error at the start of a load step; `none`: `std::numeric_limits<real_t>::max()`. -/
  first : Option K
  refTol : K
  crsTol : K
  /-- `bandwidth==1`. -/
  one : Bool
  /-- The error below which nothing is coarsened. -/
  nocrs : Option K
  /-- The mesh to which `benchmark_Wrinkling_DWR.cpp` 835 goes back. -/
  mesh0 : G
  adaptive : Bool
  maxRefIt : ℤ
  /-- The limits of the displacement. -/
  within : P → Bool

section
variable {G P K : Type} [Field K] [LinearOrder K]

/-- `benchmark_Roof_DWR.cpp`: 515-527, 528, 537. -/
def roof (target bandwidth : K) (mesh0 : G) (adaptive : Bool) (maxRefIt : ℤ) (within : P → Bool) : Prog G P K :=
  ⟨true, none, target / bandwidth, target * bandwidth, decide (bandwidth = 1), none, mesh0, adaptive, maxRefIt, within⟩

/-- `benchmark_Wrinkling_DWR.cpp`: 721-724, 734. -/
def wrinkling (target bandwidth nocrs : K) (mesh0 : G) (adaptive : Bool) (maxRefIt : ℤ) (within : P → Bool) :
    Prog G P K :=
  ⟨false, some 1, target / bandwidth, target * bandwidth, decide (bandwidth = 1), some nocrs, mesh0, adaptive, maxRefIt,
    within⟩

/-- A step that converged: the mesh, the point it started from, the point found, its error, and the previous increment
it was given. -/
structure Solve (G P K : Type) where
  mesh : G
  src : P × K
  pt : P × K
  error : K
  inc : P × K
deriving DecidableEq

/-- The variables of the programs. `fails`, `calls` and `solves` (the newest first) are for the statements. -/
structure ASt (G P K : Type) where
  mesh : G
  len : K
  /-- `U_patch` and `L`. -/
  pt : P × K
  /-- `deltaL`. -/
  dLoad : K
  /-- `Uold_patch` and `Lold`. -/
  old : P × K
  /-- `deltaUold_patch` and `deltaLold`. -/
  oldInc : P × K
  it : ℤ
  refined : Bool
  coarsened : Bool
  /-- `unstable_prev`. -/
  unstable : Bool
  error : Option K
  calls : ℕ
  fails : ℕ
  solves : List (Solve G P K)
deriving DecidableEq

/-- `bandtest` (`benchmark_Roof_DWR.cpp` 537, 646; `benchmark_Wrinkling_DWR.cpp` 734, 838). -/
def outside (p : Prog G P K) : Option K → Bool
  | none => true
  | some e =>
    if p.one then decide (p.refTol < e)
    else (decide (e < p.crsTol) && p.nocrs.all fun c => decide (c < e)) || decide (p.refTol ≤ e)

/-- The condition of the inner loop (`benchmark_Roof_DWR.cpp` 539). -/
def goesOn (p : Prog G P K) (st : ASt G P K) : Bool :=
  outside p st.error && decide (st.it < p.maxRefIt) && (st.refined || st.coarsened)

/-- The new mesh, `refined` and `coarsened` (`benchmark_Roof_DWR.cpp` 619-645; `benchmark_Wrinkling_DWR.cpp` 806-836). -/
def adapt (m : Mesher G P K) (p : Prog G P K) (st : ASt G P K) (u : P) (e : K) : G × Bool × Bool :=
  if p.refTol < e then ((m.refine st.mesh u).1, (m.refine st.mesh u).2, st.coarsened)
  else if e < p.refTol ∧ p.crsTol < e then m.both st.mesh u
  else if e < p.crsTol ∧ p.nocrs.all (fun c => decide (c < e)) = true then
    ((m.coarsen st.mesh u).1, st.refined, (m.coarsen st.mesh u).2)
  else if p.nocrs.any (fun c => decide (e < c)) = true then (p.mesh0, st.refined, st.coarsened)
  else (st.mesh, st.refined, st.coarsened)

/-- A step that did not converge (`benchmark_Roof_DWR.cpp` 564-573; `benchmark_Wrinkling_DWR.cpp` 761-768). -/
def onFail (p : Prog G P K) (st : ASt G P K) : ASt G P K :=
  { st with calls := st.calls + 1, fails := st.fails + 1, len := st.len / 2, it := if p.back then st.it - 1 else st.it }

/-- A step that converged and the estimate of the error (574-605). -/
def solved (m : Mesher G P K) (st : ASt G P K) (x d : P × K) : ASt G P K :=
  { st with calls := st.calls + 1, pt := x, dLoad := d.2, error := some (m.error st.mesh x.1)
            solves := ⟨st.mesh, st.old, x, m.error st.mesh x.1, st.oldInc⟩ :: st.solves }

/-- The change of the mesh (618-684). -/
def remesh (m : Mesher G P K) (p : Prog G P K) (st : ASt G P K) (u : P) (e : K) : ASt G P K :=
  { st with mesh := (adapt m p st u e).1, refined := (adapt m p st u e).2.1, coarsened := (adapt m p st u e).2.2
            pt := (m.project (adapt m p st u e).1 st.pt.1, st.pt.2)
            old := (m.project (adapt m p st u e).1 st.old.1, st.old.2)
            oldInc := (m.project (adapt m p st u e).1 st.oldInc.1, st.oldInc.2)
            it := st.it + 1 }

/-- A pass of the inner loop; `true`: `break` (539-690). -/
def pass (m : Mesher G P K) (p : Prog G P K) (st : ASt G P K) : ASt G P K × Bool :=
  match m.solve st.calls st.mesh st.old st.oldInc st.len with
  | none => (onFail p st, false)
  | some (x, d) =>
    if p.adaptive = false then (solved m st x d, true)
    else if st.unstable then ({ solved m st x d with unstable := false }, true)
    else (remesh m p (solved m st x d) x.1 (m.error st.mesh x.1), false)

/-- The inner loop with a bound of the number of its passes. -/
def inner (m : Mesher G P K) (p : Prog G P K) : ℕ → ASt G P K → Option (ASt G P K)
  | 0, _ => none
  | n + 1, st =>
    if goesOn p st then
      if (pass m p st).2 then some (pass m p st).1 else inner m p n (pass m p st).1
    else some st

/-- The start of a load step (531-537). -/
def begin (p : Prog G P K) (st : ASt G P K) : ASt G P K :=
  { st with it := 0, refined := true, coarsened := true, error := p.first, solves := [] }

variable [AddCommGroup P]

/-- The end of a load step (708-726). -/
def finish (st : ASt G P K) : ASt G P K :=
  { st with old := st.pt, oldInc := (st.pt.1 - st.old.1, st.dLoad) }

/-- The state at the end of every load step. The row that `writeStepOutput` writes is `pt` and `error`. -/
def run (m : Mesher G P K) (p : Prog G P K) (fuel : ℕ) : ℕ → ASt G P K → Option (List (ASt G P K))
  | 0, _ => some []
  | n + 1, st =>
    if p.within st.pt.1 then
      (inner m p fuel (begin p st)).bind fun t => (run m p fuel n (finish t)).map (t :: ·)
    else some []
end

section
variable {G P K : Type} [Field K] [LinearOrder K] [IsStrictOrderedRing K]
variable {m : Mesher G P K} {p : Prog G P K}

/-- **C126**: the inner loop ends by `break` after a step that converged, if no adaptive mesh is asked for or if the
branch was switched before, or because the error is in the band, because there were enough passes, or because neither
was the mesh refined nor coarsened. -/
theorem C126_end {n : ℕ} {st t : ASt G P K} (h : inner m p n st = some t) :
    (p.adaptive = false ∧ t.solves ≠ []) ∨ (t.unstable = false ∧ st.unstable = true ∧ t.solves ≠ []) ∨
    outside p t.error = false ∨ p.maxRefIt ≤ t.it ∨ (t.refined = false ∧ t.coarsened = false) := by
  have key : ∀ (n : ℕ) (s : ASt G P K), inner m p n s = some t → (s.unstable = true → st.unstable = true) →
      (p.adaptive = false ∧ t.solves ≠ []) ∨ (t.unstable = false ∧ st.unstable = true ∧ t.solves ≠ []) ∨
      outside p t.error = false ∨ p.maxRefIt ≤ t.it ∨ (t.refined = false ∧ t.coarsened = false) := by
    intro n
    induction n with
    | zero => intro s h; simp [inner] at h
    | succ n ih =>
      intro s h hu
      rw [inner] at h
      by_cases hg : goesOn p s = true
      · rw [if_pos hg] at h
        unfold pass at h
        cases hs : m.solve s.calls s.mesh s.old s.oldInc s.len with
        | none =>
          simp only [hs, Bool.false_eq_true, if_false] at h
          exact ih _ h hu
        | some xd =>
          obtain ⟨x, d⟩ := xd
          simp only [hs] at h
          by_cases ha : p.adaptive = false
          · simp only [ha, if_true, Option.some.injEq] at h
            subst h
            exact .inl ⟨ha, by simp [solved]⟩
          · simp only [if_neg ha] at h
            by_cases hn : s.unstable = true
            · simp only [hn, if_true, Option.some.injEq] at h
              subst h
              exact .inr (.inl ⟨rfl, hu hn, by simp [solved]⟩)
            · simp only [if_neg hn, Bool.false_eq_true, if_false] at h
              exact ih _ h (fun hh => hu hh)
      · rw [if_neg hg, Option.some.injEq] at h
        subst h
        refine .inr (.inr ?_)
        simp only [goesOn, Bool.and_eq_true, Bool.or_eq_true, decide_eq_true_eq, not_and, not_or,
          Bool.not_eq_true] at hg
        by_cases ho : outside p s.error = true
        · by_cases hi : s.it < p.maxRefIt
          · exact .inr (.inr (hg ⟨ho, hi⟩))
          · exact .inr (.inl (not_lt.1 hi))
        · exact .inl (by simpa using ho)
  exact key n st h id

/-- **C126**: the band of `benchmark_Roof_DWR.cpp`. -/
theorem C126_band_roof (target bandwidth : K) (g : G) (a : Bool) (k : ℤ) (w : P → Bool) (e : K) :
    outside (roof target bandwidth g a k w) (some e) = false ↔
      if bandwidth = 1 then e ≤ target else target * bandwidth ≤ e ∧ e < target / bandwidth := by
  by_cases hb : bandwidth = 1
  · subst hb; simp [outside, roof]
  · simp [outside, roof, hb]

/-- **C126**: the band of `benchmark_Wrinkling_DWR.cpp`: an error that is so small that nothing is coarsened is
accepted. -/
theorem C126_band_wrinkling (target bandwidth nocrs : K) (g : G) (a : Bool) (k : ℤ) (w : P → Bool) (e : K) :
    outside (wrinkling target bandwidth nocrs g a k w) (some e) = false ↔
      if bandwidth = 1 then e ≤ target else (target * bandwidth ≤ e ∨ e ≤ nocrs) ∧ e < target / bandwidth := by
  by_cases hb : bandwidth = 1
  · subst hb; simp [outside, wrinkling]
  · simp [outside, wrinkling, hb, or_iff_not_imp_left]

/-- An induction over the passes: what holds at the start, and after every pass that is made, holds at the end. -/
theorem inner_ind (Q : ASt G P K → Prop)
    (hf : ∀ s, Q s → goesOn p s = true → m.solve s.calls s.mesh s.old s.oldInc s.len = none → Q (onFail p s))
    (hr : ∀ s x d, Q s → goesOn p s = true → m.solve s.calls s.mesh s.old s.oldInc s.len = some (x, d) →
      p.adaptive = true → s.unstable = false → Q (remesh m p (solved m s x d) x.1 (m.error s.mesh x.1)))
    {n : ℕ} {st t : ASt G P K} (hst : Q st) (h : inner m p n st = some t) :
    (Q t ∧ goesOn p t = false) ∨ ∃ s x d, Q s ∧ goesOn p s = true ∧
      m.solve s.calls s.mesh s.old s.oldInc s.len = some (x, d) ∧
      ((p.adaptive = false ∧ t = solved m s x d) ∨
        (p.adaptive = true ∧ s.unstable = true ∧ t = { solved m s x d with unstable := false })) := by
  induction n generalizing st with
  | zero => simp [inner] at h
  | succ n ih =>
    rw [inner] at h
    by_cases hg : goesOn p st = true
    · rw [if_pos hg] at h
      unfold pass at h
      cases hs : m.solve st.calls st.mesh st.old st.oldInc st.len with
      | none =>
        simp only [hs, Bool.false_eq_true, if_false] at h
        exact ih (hf _ hst hg hs) h
      | some xd =>
        obtain ⟨x, d⟩ := xd
        simp only [hs] at h
        by_cases ha : p.adaptive = false
        · simp only [ha, if_true, Option.some.injEq] at h
          exact .inr ⟨st, x, d, hst, hg, hs, .inl ⟨ha, h.symm⟩⟩
        · simp only [if_neg ha] at h
          by_cases hn : st.unstable = true
          · simp only [hn, if_true, Option.some.injEq] at h
            exact .inr ⟨st, x, d, hst, hg, hs, .inr ⟨by simpa using ha, hn, h.symm⟩⟩
          · simp only [if_neg hn, Bool.false_eq_true, if_false] at h
            exact ih (hr _ _ _ hst hg hs (by simpa using ha) (by simpa using hn)) h
    · rw [if_neg hg, Option.some.injEq] at h
      subst h
      exact .inl ⟨hst, by simpa using hg⟩

/-- **C126**: the number of steps that converge in a load step of `benchmark_Wrinkling_DWR.cpp` is at most
`maxRefIt`. In `benchmark_Roof_DWR.cpp` every step that fails allows for one more. -/
theorem C126_solves {n : ℕ} {st t : ASt G P K} (h : inner m p n (begin p st) = some t) :
    (t.solves.length : ℤ) ≤ max p.maxRefIt 0 + (if p.back then (t.fails : ℤ) - st.fails else 0) := by
  have key := inner_ind (m := m) (p := p)
    (fun s => (s.solves.length : ℤ) = s.it + (if p.back then (s.fails : ℤ) - st.fails else 0) ∧
      s.it ≤ max p.maxRefIt 0)
    (by
      rintro s ⟨h1, h2⟩ hg -
      simp only [onFail]
      split
      · simp_all
        omega
      · simp_all)
    (by
      rintro s x d ⟨h1, h2⟩ hg - - -
      simp only [goesOn, Bool.and_eq_true, decide_eq_true_eq] at hg
      simp only [remesh, solved, List.length_cons, Nat.cast_add, Nat.cast_one]
      split at h1 <;> simp_all <;> omega)
    (st := begin p st) (by simp [begin]) h
  rcases key with ⟨⟨h1, h2⟩, -⟩ | ⟨s, x, d, ⟨h1, h2⟩, hg, -, ht⟩
  · omega
  · simp only [goesOn, Bool.and_eq_true, decide_eq_true_eq] at hg
    rcases ht with ⟨-, rfl⟩ | ⟨-, -, rfl⟩ <;>
    · simp only [solved, List.length_cons, Nat.cast_add, Nat.cast_one]
      have := hg.1.2
      omega

/-- **C126**: a load step that starts with an error outside of the band contains a step that converges. The point
at its end is the point of the last such step, on the mesh on which it was found if the loop was left by `break`, and
interpolated onto the mesh of the end if not. The error at its end is that of the last such step. -/
theorem C126_solved {n : ℕ} {st t : ASt G P K} (ho : outside p p.first = true) (hk : 0 < p.maxRefIt)
    (h : inner m p n (begin p st) = some t) :
    ∃ s rest, t.solves = s :: rest ∧ t.error = some s.error ∧ s.error = m.error s.mesh s.pt.1 ∧ t.pt.2 = s.pt.2 ∧
      (t.pt = s.pt ∧ t.mesh = s.mesh ∧ (p.adaptive = false ∨ st.unstable = true) ∨ 
        t.pt.1 = m.project t.mesh s.pt.1 ∧ p.adaptive = true ∧ st.unstable = false) := by
  have key := inner_ind (m := m) (p := p)
    (fun s => s.unstable = st.unstable ∧ ((s.solves = [] ∧ s.error = p.first ∧ s.it < p.maxRefIt ∧ s.refined = true) ∨
      ∃ a rest, s.solves = a :: rest ∧ s.error = some a.error ∧ a.error = m.error a.mesh a.pt.1 ∧ s.pt.2 = a.pt.2 ∧
        s.pt.1 = m.project s.mesh a.pt.1 ∧ p.adaptive = true ∧ st.unstable = false))
    (by
      rintro s ⟨hu, h1⟩ hg -
      refine ⟨hu, ?_⟩
      rcases h1 with ⟨h1, h2, h3, h4⟩ | ⟨a, rest, h1⟩
      · refine .inl ⟨h1, h2, ?_, h4⟩
        simp only [onFail]
        split <;> omega
      · exact .inr ⟨a, rest, h1⟩)
    (by
      rintro s x d ⟨hu, h1⟩ hg hs ha hn
      refine ⟨hu, .inr ⟨⟨s.mesh, s.old, x, m.error s.mesh x.1, s.oldInc⟩, s.solves, rfl, rfl, rfl, rfl, rfl, ha, ?_⟩⟩
      rw [← hu, hn])
    (st := begin p st) ⟨rfl, .inl ⟨rfl, rfl, hk, rfl⟩⟩ h
  rcases key with ⟨⟨hu, h1⟩, hg⟩ | ⟨s, x, d, ⟨hu, h1⟩, hg, -, ht⟩
  · rcases h1 with ⟨h1, h2, h3, h4⟩ | ⟨a, rest, h1, h2, h3, h4, h5, h6, h7⟩
    · simp [goesOn, h2, ho, h3, h4] at hg
    · exact ⟨a, rest, h1, h2, h3, h4, .inr ⟨h5, h6, h7⟩⟩
  · rcases ht with ⟨ha, rfl⟩ | ⟨-, hb, rfl⟩
    · exact ⟨⟨s.mesh, s.old, x, m.error s.mesh x.1, s.oldInc⟩, s.solves, rfl, rfl, rfl, rfl, .inl ⟨rfl, rfl, .inl ha⟩⟩
    · exact ⟨⟨s.mesh, s.old, x, m.error s.mesh x.1, s.oldInc⟩, s.solves, rfl, rfl, rfl, rfl,
        .inl ⟨rfl, rfl, .inr (by rw [← hu, hb])⟩⟩

/-- **C126**: all steps of a load step start from the same load, and from the displacements of the end of the
previous load step, interpolated from mesh to mesh. -/
theorem C126_source {n : ℕ} {st t : ASt G P K} (h : inner m p n (begin p st) = some t) :
    (∀ a ∈ t.solves.getLast?, a.src = st.old ∧ a.mesh = st.mesh) ∧
    List.IsChain (fun a b => a.src = (m.project a.mesh b.src.1, b.src.2)) t.solves := by
  have hc : ∀ (s : ASt G P K) (x d : P × K),
      (s.solves = [] ∧ s.old = st.old ∧ s.mesh = st.mesh) ∨
        (∃ a rest, s.solves = a :: rest ∧ s.old = (m.project s.mesh a.src.1, a.src.2)) →
      (∀ a ∈ s.solves.getLast?, a.src = st.old ∧ a.mesh = st.mesh) ∧
        List.IsChain (fun a b => a.src = (m.project a.mesh b.src.1, b.src.2)) s.solves →
      (∀ a ∈ (solved m s x d).solves.getLast?, a.src = st.old ∧ a.mesh = st.mesh) ∧
        List.IsChain (fun a b => a.src = (m.project a.mesh b.src.1, b.src.2)) (solved m s x d).solves := by
    rintro s x d (⟨h1, h2, h3⟩ | ⟨a, rest, h1, h2⟩) ⟨h4, h5⟩
    · simp [solved, h1, h2, h3]
    · rw [h1] at h4 h5
      refine ⟨?_, ?_⟩
      · simpa [solved, h1, List.getLast?_cons_cons] using h4
      · simp only [solved, h1]
        exact List.isChain_cons_cons.2 ⟨h2, h5⟩
  have key := inner_ind (m := m) (p := p)
    (fun s => ((s.solves = [] ∧ s.old = st.old ∧ s.mesh = st.mesh) ∨
        (∃ a rest, s.solves = a :: rest ∧ s.old = (m.project s.mesh a.src.1, a.src.2))) ∧
      (∀ a ∈ s.solves.getLast?, a.src = st.old ∧ a.mesh = st.mesh) ∧
        List.IsChain (fun a b => a.src = (m.project a.mesh b.src.1, b.src.2)) s.solves)
    (fun s hs _ _ => by simpa only [onFail] using hs)
    (fun s x d hs _ _ _ _ => by
      refine ⟨.inr ⟨⟨s.mesh, s.old, x, m.error s.mesh x.1, s.oldInc⟩, s.solves, rfl, rfl⟩, ?_⟩
      simpa only [remesh] using hc s x d hs.1 hs.2)
    (st := begin p st) ⟨.inl ⟨rfl, rfl, rfl⟩, by simp [begin]⟩ h
  rcases key with ⟨⟨-, h1⟩, -⟩ | ⟨s, x, d, ⟨h1, h2⟩, -, -, ht⟩
  · exact h1
  · rcases ht with ⟨-, rfl⟩ | ⟨-, -, rfl⟩ <;> exact hc s x d h1 h2

/-- **C126**: the increment that a step is given, from which the arc-length method has its direction. It is the
one of the end of the previous load step, interpolated from mesh to mesh; and the program remembers the increment of the
load of the last step that converged. -/
theorem C126_increment {n : ℕ} {st t : ASt G P K} (h : inner m p n (begin p st) = some t) :
    ((∀ a ∈ t.solves.getLast?, a.inc = st.oldInc) ∧
      List.IsChain (fun a b => a.inc = (m.project a.mesh b.inc.1, b.inc.2)) t.solves) ∧
    ∀ a ∈ t.solves.head?, ∃ k l d, m.solve k a.mesh a.src a.inc l = some (a.pt, d) ∧ t.dLoad = d.2 := by
  have hc : ∀ (s : ASt G P K) (x d : P × K),
      (s.solves = [] ∧ s.oldInc = st.oldInc) ∨
        (∃ a rest, s.solves = a :: rest ∧ s.oldInc = (m.project s.mesh a.inc.1, a.inc.2)) →
      (∀ a ∈ s.solves.getLast?, a.inc = st.oldInc) ∧
        List.IsChain (fun a b => a.inc = (m.project a.mesh b.inc.1, b.inc.2)) s.solves →
      (∀ a ∈ (solved m s x d).solves.getLast?, a.inc = st.oldInc) ∧
        List.IsChain (fun a b => a.inc = (m.project a.mesh b.inc.1, b.inc.2)) (solved m s x d).solves := by
    rintro s x d (⟨h1, h2⟩ | ⟨a, rest, h1, h2⟩) ⟨h4, h5⟩
    · simp [solved, h1, h2]
    · rw [h1] at h4 h5
      refine ⟨?_, ?_⟩
      · simpa [solved, h1, List.getLast?_cons_cons] using h4
      · simp only [solved, h1]
        exact List.isChain_cons_cons.2 ⟨h2, h5⟩
  have key := inner_ind (m := m) (p := p)
    (fun s => (((s.solves = [] ∧ s.oldInc = st.oldInc) ∨
        (∃ a rest, s.solves = a :: rest ∧ s.oldInc = (m.project s.mesh a.inc.1, a.inc.2))) ∧
      (∀ a ∈ s.solves.getLast?, a.inc = st.oldInc) ∧
        List.IsChain (fun a b => a.inc = (m.project a.mesh b.inc.1, b.inc.2)) s.solves) ∧
      ∀ a ∈ s.solves.head?, ∃ k l d, m.solve k a.mesh a.src a.inc l = some (a.pt, d) ∧ s.dLoad = d.2)
    (fun s hs _ _ => by simpa only [onFail] using hs)
    (fun s x d hs _ hx _ _ => by
      refine ⟨⟨.inr ⟨⟨s.mesh, s.old, x, m.error s.mesh x.1, s.oldInc⟩, s.solves, rfl, rfl⟩, ?_⟩, ?_⟩
      · simpa only [remesh] using hc s x d hs.1.1 hs.1.2
      · intro a ha
        simp only [remesh, solved, List.head?_cons, Option.mem_def, Option.some.injEq] at ha
        subst ha
        exact ⟨_, _, d, hx, rfl⟩)
    (st := begin p st) ⟨⟨.inl ⟨rfl, rfl⟩, by simp [begin]⟩, by simp [begin]⟩ h
  have hd : ∀ (s : ASt G P K) (x d : P × K), m.solve s.calls s.mesh s.old s.oldInc s.len = some (x, d) →
      ∀ a ∈ (solved m s x d).solves.head?, ∃ k l d', m.solve k a.mesh a.src a.inc l = some (a.pt, d') ∧
        (solved m s x d).dLoad = d'.2 := by
    intro s x d hx a ha
    simp only [solved, List.head?_cons, Option.mem_def, Option.some.injEq] at ha
    subst ha
    exact ⟨_, _, d, hx, rfl⟩
  rcases key with ⟨⟨⟨-, h1⟩, h2⟩, -⟩ | ⟨s, x, d, ⟨⟨h1, h2⟩, -⟩, -, hx, ht⟩
  · exact ⟨h1, h2⟩
  · rcases ht with ⟨-, rfl⟩ | ⟨-, -, rfl⟩ <;> exact ⟨hc s x d h1 h2, hd s x d hx⟩

/-- **C126**: between load steps: the first step of a load step is given the difference of the displacements at the
end and at the start of the load step before, and the increment of the load of the last step there. -/
theorem C126_predictor [AddCommGroup P] {fuel n : ℕ} {st : ASt G P K} {l : List (ASt G P K)}
    (h : run m p fuel n st = some l) :
    (∀ t ∈ l.head?, ∀ a ∈ t.solves.getLast?, a.inc = st.oldInc) ∧
    List.IsChain (fun s t => ∀ a ∈ t.solves.getLast?, a.inc = (s.pt.1 - s.old.1, s.dLoad)) l := by
  induction n generalizing st l with
  | zero =>
    simp only [run, Option.some.injEq] at h
    subst h
    simp
  | succ n ih =>
    rw [run] at h
    by_cases hw : p.within st.pt.1 = true
    · rw [if_pos hw] at h
      cases hi : inner m p fuel (begin p st) with
      | none => simp [hi] at h
      | some t =>
        rw [hi, Option.bind_some] at h
        cases hr : run m p fuel n (finish t) with
        | none => simp [hr] at h
        | some r =>
          rw [hr, Option.map_some, Option.some.injEq] at h
          subst h
          obtain ⟨k1, k2⟩ := ih hr
          refine ⟨?_, List.isChain_cons.2 ⟨k1, k2⟩⟩
          intro u hu
          simp only [List.head?_cons, Option.mem_def, Option.some.injEq] at hu
          subst hu
          exact (C126_increment hi).1.1
    · rw [if_neg hw, Option.some.injEq] at h
      subst h
      simp

/-- **C126**: the length is divided by two for every step that failed and never grows again. -/
theorem C126_length {n : ℕ} {st t : ASt G P K} (h : inner m p n (begin p st) = some t) :
    st.fails ≤ t.fails ∧ t.len * 2 ^ (t.fails - st.fails) = st.len := by
  have key := inner_ind (m := m) (p := p) (fun s => st.fails ≤ s.fails ∧ s.len * 2 ^ (s.fails - st.fails) = st.len)
    (by
      rintro s ⟨h1, h2⟩ - -
      refine ⟨Nat.le_succ_of_le h1, ?_⟩
      rw [← h2]
      simp only [onFail, Nat.succ_sub h1, pow_succ]
      field_simp)
    (fun s x d hs _ _ _ _ => hs) (st := begin p st) (by simp [begin]) h
  rcases key with ⟨h1, -⟩ | ⟨s, x, d, h1, -, -, ht⟩
  · exact h1
  · rcases ht with ⟨-, rfl⟩ | ⟨-, -, rfl⟩ <;> exact h1

/-- **C126**: the inner loop ends if all steps with a length that is short enough converge. -/
theorem C126_terminates {δ : K} (hs : ∀ n g a b l, |l| ≤ δ → m.solve n g a b l ≠ none) (j : ℕ) (st : ASt G P K)
    (hl : |st.len| ≤ δ * 2 ^ j) : ∀ n, (p.maxRefIt - st.it).toNat + 2 * j < n → ∃ t, inner m p n st = some t := by
  intro n
  induction n generalizing j st with
  | zero => intro h; exact absurd h (Nat.not_lt_zero _)
  | succ n ih =>
    intro hn
    rw [inner]
    by_cases hg : goesOn p st = true
    · rw [if_pos hg]
      simp only [goesOn, Bool.and_eq_true, decide_eq_true_eq] at hg
      have hi := hg.1.2
      unfold pass
      cases hc : m.solve st.calls st.mesh st.old st.oldInc st.len with
      | none =>
        simp only [Bool.false_eq_true, if_false]
        cases j with
        | zero => exact absurd hc (hs _ _ _ _ _ (by simpa using hl))
        | succ j =>
          refine ih j _ ?_ ?_
          · simp only [onFail, abs_div, abs_two]
            rw [pow_succ] at hl
            linarith
          · simp only [onFail]
            split <;> omega
      | some xd =>
        obtain ⟨x, d⟩ := xd
        by_cases ha : p.adaptive = false
        · exact ⟨solved m st x d, by simp [ha]⟩
        · by_cases hu : st.unstable = true
          · exact ⟨{ solved m st x d with unstable := false }, by simp [ha, hu]⟩
          · simp only [if_neg ha, if_neg hu, Bool.false_eq_true, if_false]
            refine ih j _ hl ?_
            simp only [remesh, solved]
            omega
    · exact ⟨st, by rw [if_neg hg]⟩

/-- **C126**: there are as many load steps as asked for unless the displacements leave the limits. Every load step
starts at the point, on the mesh and with the length with which the load step before has ended. -/
theorem C126_path [AddCommGroup P] {fuel n : ℕ} {st : ASt G P K} {l : List (ASt G P K)}
    (h : run m p fuel n st = some l) :
    (l.length = n ∨ l.length < n ∧ p.within ((l.getLast?.getD st).pt.1) = false) ∧
    (∀ t ∈ l.dropLast, p.within t.pt.1 = true) ∧
    (∀ t ∈ l.head?, (∀ a ∈ t.solves.getLast?, a.src = st.old ∧ a.mesh = st.mesh) ∧
      st.fails ≤ t.fails ∧ t.len * 2 ^ (t.fails - st.fails) = st.len) ∧
    List.IsChain (fun s t => (∀ a ∈ t.solves.getLast?, a.src = s.pt ∧ a.mesh = s.mesh) ∧
      s.fails ≤ t.fails ∧ t.len * 2 ^ (t.fails - s.fails) = s.len) l := by
  induction n generalizing st l with
  | zero =>
    simp only [run, Option.some.injEq] at h
    subst h
    simp
  | succ n ih =>
    rw [run] at h
    by_cases hw : p.within st.pt.1 = true
    · rw [if_pos hw] at h
      cases hi : inner m p fuel (begin p st) with
      | none => simp [hi] at h
      | some t =>
        rw [hi, Option.bind_some] at h
        cases hr : run m p fuel n (finish t) with
        | none => simp [hr] at h
        | some r =>
          rw [hr, Option.map_some, Option.some.injEq] at h
          subst h
          obtain ⟨k1, k2, k3, k4⟩ := ih hr
          have e1 : (finish t).pt = t.pt := rfl
          have hd : (t :: r).getLast?.getD st = r.getLast?.getD t := by
            cases r <;> simp [List.getLast?_cons_cons]
            rename_i a b
            cases hb : (a :: b).getLast? with
            | none => simp at hb
            | some x => rfl
          refine ⟨?_, ?_, ?_, ?_⟩
          · rw [hd]
            rcases k1 with k1 | ⟨k1, k5⟩
            · exact .inl (by simp [k1])
            · refine .inr ⟨by simpa using k1, ?_⟩
              cases r with
              | nil => simpa [e1] using k5
              | cons a b =>
                cases hb : (a :: b).getLast? with
                | none => simp at hb
                | some x => rw [hb] at k5; exact k5
          · intro u hu
            cases r with
            | nil => simp at hu
            | cons a b =>
              rw [List.dropLast_cons_cons] at hu
              rcases List.mem_cons.1 hu with rfl | hu
              · by_contra hc
                cases n with
                | zero => simp [run] at hr
                | succ n =>
                  rw [run, if_neg (by simpa [e1] using hc)] at hr
                  simp at hr
              · exact k2 u hu
          · intro u hu
            simp only [List.head?_cons, Option.mem_def, Option.some.injEq] at hu
            subst hu
            exact ⟨(C126_source hi).1, C126_length hi⟩
          · rw [List.isChain_cons]
            exact ⟨k3, k4⟩
    · rw [if_neg hw, Option.some.injEq] at h
      subst h
      simpa using hw

/-! ### What goes wrong -/

/-- **C126**, violated: if the target of `benchmark_Wrinkling_DWR.cpp` is such that the error of `1` with which a load
step starts is in the band then nothing is solved: all load steps end where the first has started. -/
theorem C126_violated_none [AddCommGroup P] (ho : outside p p.first = false) (st : ASt G P K)
    (hw : p.within st.pt.1 = true) (fuel n : ℕ) : ∃ l, run m p (fuel + 1) n st = some l ∧ l.length = n ∧
      ∀ t ∈ l, t.pt = st.pt ∧ t.solves = [] ∧ t.calls = st.calls ∧ t.error = p.first := by
  induction n generalizing st with
  | zero => exact ⟨[], rfl, rfl, by simp⟩
  | succ n ih =>
    obtain ⟨l, h1, h2, h3⟩ := ih (finish (begin p st)) hw
    have hi : inner m p (fuel + 1) (begin p st) = some (begin p st) := by
      rw [inner, if_neg (by simp [goesOn, begin, ho])]
    refine ⟨begin p st :: l, by rw [run, if_pos hw, hi, Option.bind_some, h1]; rfl, by simp [h2], ?_⟩
    intro t ht
    rcases List.mem_cons.1 ht with rfl | ht
    · exact ⟨rfl, rfl, rfl, rfl⟩
    · exact h3 t ht

/-- **C126**, violated: when the first solution of a load step has an error within the band the mesh is changed all the
same, and what is written is the interpolation of the solution onto a mesh on which nothing was solved. -/
theorem C126_violated_row (ha : p.adaptive = true) (ho : outside p p.first = true) (hk : 0 < p.maxRefIt)
    {st : ASt G P K} (hu : st.unstable = false) {x d : P × K}
    (hs : m.solve st.calls st.mesh st.old st.oldInc st.len = some (x, d))
    (hlt : m.error st.mesh x.1 < p.refTol) (hgt : p.crsTol < m.error st.mesh x.1) (fuel : ℕ) :
    ∃ t, inner m p (fuel + 2) (begin p st) = some t ∧ t.mesh = (m.both st.mesh x.1).1 ∧
      t.pt = (m.project (m.both st.mesh x.1).1 x.1, x.2) ∧ t.solves.map (·.mesh) = [st.mesh] := by
  have h1 : outside p (some (m.error st.mesh x.1)) = false := by
    simp only [outside]
    split
    · simpa using hlt.le
    · simp [hgt.le, hlt]
  refine ⟨remesh m p (solved m (begin p st) x d) x.1 (m.error st.mesh x.1), ?_, ?_⟩
  · rw [inner, if_pos (by simp [goesOn, begin, ho, hk])]
    have hp : pass m p (begin p st) = (remesh m p (solved m (begin p st) x d) x.1 (m.error st.mesh x.1), false) := by
      unfold pass
      rw [show m.solve (begin p st).calls (begin p st).mesh (begin p st).old (begin p st).oldInc (begin p st).len
        = some (x, d) from hs]
      simp only [ha, Bool.true_eq_false, if_false]
      rw [if_neg (by simp [begin, hu])]
      rfl
    rw [hp]
    simp only [Bool.false_eq_true, if_false]
    rw [inner, if_neg (by simp [goesOn, remesh, solved, begin, h1])]
  · have hA : adapt m p (solved m (begin p st) x d) x.1 (m.error st.mesh x.1) = m.both st.mesh x.1 := by
      unfold adapt
      rw [if_neg hlt.le.not_gt, if_pos ⟨hlt, hgt⟩]
      rfl
    refine ⟨?_, ?_, ?_⟩
    · simp only [remesh, hA]
    · simp only [remesh, hA]
      rfl
    · simp [remesh, solved, begin]

/-- **C126**, violated: with the bandwidth `1` of the default, a mesh on which the error is below the target is
coarsened before the point is written: the point is the interpolation onto a mesh that is coarser than the one that
was good enough. -/
theorem C126_violated_coarse (ha : p.adaptive = true) (ho : outside p p.first = true) (hk : 0 < p.maxRefIt)
    (hone : p.one = true) (heq : p.crsTol = p.refTol) (hno : p.nocrs = none) {st : ASt G P K} (hu : st.unstable = false)
    {x d : P × K} (hs : m.solve st.calls st.mesh st.old st.oldInc st.len = some (x, d))
    (hlt : m.error st.mesh x.1 < p.refTol) (fuel : ℕ) :
    ∃ t, inner m p (fuel + 2) (begin p st) = some t ∧ t.mesh = (m.coarsen st.mesh x.1).1 ∧
      t.pt = (m.project (m.coarsen st.mesh x.1).1 x.1, x.2) ∧ t.solves.map (·.mesh) = [st.mesh] := by
  have h1 : outside p (some (m.error st.mesh x.1)) = false := by
    simpa [outside, hone] using hlt.le
  refine ⟨remesh m p (solved m (begin p st) x d) x.1 (m.error st.mesh x.1), ?_, ?_⟩
  · rw [inner, if_pos (by simp [goesOn, begin, ho, hk])]
    have hp : pass m p (begin p st) = (remesh m p (solved m (begin p st) x d) x.1 (m.error st.mesh x.1), false) := by
      unfold pass
      rw [show m.solve (begin p st).calls (begin p st).mesh (begin p st).old (begin p st).oldInc (begin p st).len
        = some (x, d) from hs]
      simp only [ha, Bool.true_eq_false, if_false]
      rw [if_neg (by simp [begin, hu])]
      rfl
    rw [hp]
    simp only [Bool.false_eq_true, if_false]
    rw [inner, if_neg (by simp [goesOn, remesh, solved, begin, h1])]
  · have hA : adapt m p (solved m (begin p st) x d) x.1 (m.error st.mesh x.1)
        = ((m.coarsen st.mesh x.1).1, true, (m.coarsen st.mesh x.1).2) := by
      unfold adapt
      rw [if_neg hlt.le.not_gt, if_neg (by rw [heq]; exact fun h => h.1.not_gt h.2), if_pos ⟨heq ▸ hlt, by simp [hno]⟩]
      rfl
    refine ⟨?_, ?_, ?_⟩
    · simp only [remesh, hA]
    · simp only [remesh, hA]
      rfl
    · simp [remesh, solved, begin]

/-- **C126**, violated: when nothing is left that could be refined, and the error is too large, the loop solves the
same step again and again until there were `maxRefIt` passes: `coarsened` is `true` from the start. -/
theorem C126_violated_repeat (ha : p.adaptive = true) (ho : outside p p.first = true) {st : ASt G P K}
    (hu : st.unstable = false) {x d : P × K} (hs : ∀ n, m.solve n st.mesh st.old st.oldInc st.len = some (x, d))
    (he : p.refTol < m.error st.mesh x.1) (hr : m.refine st.mesh x.1 = (st.mesh, false))
    (h1 : m.project st.mesh st.old.1 = st.old.1) (h2 : m.project st.mesh st.oldInc.1 = st.oldInc.1)
    (fuel : ℕ) :
    ∃ t, inner m p (p.maxRefIt.toNat + fuel + 1) (begin p st) = some t ∧
      t.solves = List.replicate p.maxRefIt.toNat ⟨st.mesh, st.old, x, m.error st.mesh x.1, st.oldInc⟩ := by
  have ho' : outside p (some (m.error st.mesh x.1)) = true := by
    simp only [outside]
    split
    · simpa using he
    · simp [he.le]
  have key : ∀ (n : ℕ) (s : ASt G P K), s.mesh = st.mesh → s.old = st.old → s.oldInc = st.oldInc → s.len = st.len →
      s.unstable = false → outside p s.error = true → s.coarsened = true → p.maxRefIt - s.it = n →
      ∃ t, inner m p (n + fuel + 1) s = some t ∧
        t.solves = List.replicate n ⟨st.mesh, st.old, x, m.error st.mesh x.1, st.oldInc⟩ ++ s.solves := by
    intro n
    induction n with
    | zero =>
      intro s _ _ _ _ _ _ _ hi
      refine ⟨s, ?_, by simp⟩
      rw [inner, if_neg]
      simp only [goesOn, Bool.and_eq_true, decide_eq_true_eq, not_and]
      intro hh
      have := hh.2
      simp only [Nat.cast_zero] at hi
      omega
    | succ n ih =>
      intro s s1 s2 s3 s4 s5 s6 s7 hi
      have hi' : s.it < p.maxRefIt := by push_cast at hi; omega
      have hA : adapt m p (solved m s x d) x.1 (m.error s.mesh x.1) = (st.mesh, false, true) := by
        unfold adapt
        rw [if_pos (by rw [s1]; exact he)]
        simp [solved, s1, hr, s7]
      have hp : pass m p s = (remesh m p (solved m s x d) x.1 (m.error s.mesh x.1), false) := by
        unfold pass
        rw [s1, s2, s3, s4, hs]
        simp only [ha, Bool.true_eq_false, if_false]
        rw [if_neg (by simp [s5])]
      obtain ⟨t, t1, t2⟩ := ih (remesh m p (solved m s x d) x.1 (m.error s.mesh x.1))
        (by simp only [remesh, hA]) (by simp only [remesh, hA]; simp [solved, s2, h1])
        (by simp only [remesh, hA]; simp [solved, s3, h2]) s4 s5
        (by simpa [remesh, solved, s1] using ho') (by simp only [remesh, hA])
        (by simp only [remesh, solved]; push_cast at hi; omega)
      refine ⟨t, ?_, ?_⟩
      · rw [show n + 1 + fuel + 1 = (n + fuel + 1) + 1 by omega, inner, if_pos (by simp [goesOn, s6, hi', s7]), hp]
        simpa using t1
      · rw [t2]
        simp [remesh, solved, s1, s2, s3, List.replicate_succ']
  rcases le_or_gt p.maxRefIt 0 with hk | hk
  · have h0 : p.maxRefIt.toNat = 0 := Int.toNat_of_nonpos hk
    refine ⟨begin p st, ?_, by simp [begin, h0]⟩
    rw [inner, if_neg]
    simp [goesOn, begin, hk.not_gt]
  · obtain ⟨t, t1, t2⟩ := key p.maxRefIt.toNat (begin p st) rfl rfl rfl rfl hu ho rfl (by simp [begin]; omega)
    exact ⟨t, t1, by simpa [begin] using t2⟩

end

/-! ### Examples -/

/-- A bar on uniform meshes: mesh `g` has `2 ^ g` elements, the error is `1 / 2 ^ g`, steps with a length above `1`
fail, and the displacements found on mesh `g` are those of a bar that is too stiff. -/
def bar : Mesher ℕ ℚ ℚ where
  solve _ g a _ l := if l ≤ 1 then some ((a.1 + l * (1 - 1 / 2 ^ g), a.2 + l), (l * (1 - 1 / 2 ^ g), l)) else none
  error g _ := 1 / 2 ^ g
  refine g _ := if g < 5 then (g + 1, true) else (g, false)
  both g _ := (g, false, false)
  coarsen g _ := if 0 < g then (g - 1, true) else (g, false)
  project _ u := u

/-- The bar at rest. -/
def rest (len : ℚ) (g : ℕ) : ASt ℕ ℚ ℚ :=
  { mesh := g, len := len, pt := (0, 0), dLoad := 0, old := (0, 0), oldInc := (0, 0), it := 0, refined := true
    coarsened := true, unstable := false, error := none, calls := 0, fails := 0, solves := [] }

/-- The mesh is refined until the error is below `1 / 10`, and is coarsened then: what is written are the displacements
of mesh `4`, on mesh `3`. -/
example : (inner bar (roof (1 / 10) 1 0 true 10 fun _ => true) 20 (begin (roof (1 / 10) 1 0 true 10 fun _ => true)
      (rest 1 0))).map (fun t => (t.mesh, t.pt, t.error, t.solves.map (·.mesh)))
    = some (3, (15 / 16, 1), some (1 / 16), [4, 3, 2, 1, 0]) := by decide +kernel

/-- **C126**, violated: in `benchmark_Roof_DWR.cpp` there can be more than `maxRefIt` meshes in a load step. Two passes
are allowed here, and the steps with lengths `4` and `2` fail. -/
theorem C126_violated_maxRefIt :
    (inner bar (roof (1 / 10) 1 0 true 2 fun _ => true) 20 (begin (roof (1 / 10) 1 0 true 2 fun _ => true)
      (rest 4 0))).map (fun t => (t.len, t.fails, t.solves.map (·.mesh))) = some (1, 2, [3, 2, 1, 0]) := by
  decide +kernel

/-- The other program stops after two meshes. -/
example : (inner bar (wrinkling (1 / 10) 1 0 0 true 2 fun _ => true) 20
      (begin (wrinkling (1 / 10) 1 0 0 true 2 fun _ => true) (rest 4 0))).map
        (fun t => (t.len, t.fails, t.solves.map (·.mesh))) = some (1, 2, [1, 0]) := by
  decide +kernel

/-- Three load steps with a band from `1 / 20` to `1 / 5`: the steps are halved once and stay so. -/
example : (run bar (roof (1 / 10) (1 / 2) 0 true 10 fun _ => true) 20 3 (rest 2 0)).map
      (List.map fun t => (t.len, t.pt, t.old.1, t.solves.map (·.mesh)))
    = some [(1, (7 / 8, 1), 0, [3, 2, 1, 0]), (1, (7 / 4, 2), 7 / 8, [3]), (1, (21 / 8, 3), 7 / 4, [3])] := by
  decide +kernel

/-- After a switch of the branch one step is made on the mesh as it is. -/
example : (inner bar (wrinkling (1 / 10) 1 0 0 true 10 fun _ => true) 20
      (begin (wrinkling (1 / 10) 1 0 0 true 10 fun _ => true) { rest 1 0 with unstable := true })).map
        (fun t => (t.mesh, t.error, t.unstable, t.solves.map (·.mesh))) = some (0, some 1, false, [0]) := by
  decide +kernel

/-- The increments which the steps of these load steps are given. -/
example : (run bar (roof (1 / 10) (1 / 2) 0 true 10 fun _ => true) 20 3 (rest 2 0)).map
      (List.map fun t => (t.solves.map (·.inc), t.dLoad))
    = some [([(0, 0), (0, 0), (0, 0), (0, 0)], 1), ([(7 / 8, 1)], 1), ([(7 / 8, 1)], 1)] := by
  decide +kernel

/-- The hypotheses of `C126_solved`, `C126_solves`, `C126_source`, `C126_increment`, `C126_length` and `C126_end`. -/
example : (inner bar (roof (1 / 10) 1 0 true 10 fun _ => true) 20
      (begin (roof (1 / 10) 1 0 true 10 fun _ => true) (rest 1 0))).isSome = true ∧
    outside (roof (1 / 10) 1 0 true 10 fun _ => true : Prog ℕ ℚ ℚ) none = true := by decide +kernel

/-- The hypothesis of `C126_terminates`. -/
example (n : ℕ) (g : ℕ) (a b : ℚ × ℚ) (l : ℚ) (h : |l| ≤ 1) : bar.solve n g a b l ≠ none := by
  simp [bar, (abs_le.1 h).2]

/-- The hypotheses of `C126_violated_none`: a target of `2`. -/
example : outside (wrinkling 2 1 0 0 true 10 fun _ => true : Prog ℕ ℚ ℚ) (some 1) = false ∧
    (run bar (wrinkling 2 1 0 0 true 10 fun _ => true) 20 3 (rest 1 0)).map (List.map fun t => (t.pt, t.calls))
      = some [((0, 0), 0), ((0, 0), 0), ((0, 0), 0)] := by decide +kernel

/-- The hypotheses of `C126_violated_row` on a mesh that is refined locally in the band: the step on the new mesh
has other displacements. -/
example : (inner { bar with both := fun g _ => (g + 1, true, false) } (roof (1 / 10) (1 / 2) 0 true 10 fun _ => true) 20
      (begin (roof (1 / 10) (1 / 2) 0 true 10 fun _ => true) (rest 1 3))).map
        (fun t => (t.mesh, t.pt, t.solves.map (·.mesh))) = some (4, (7 / 8, 1), [3]) ∧
    bar.solve 0 4 (0, 0) (0, 0) 1 = some ((15 / 16, 1), (15 / 16, 1)) := by decide +kernel

/-- The hypotheses of `C126_violated_repeat`: the finest mesh is too coarse for the target. -/
example : (inner bar (roof (1 / 100) 1 0 true 4 fun _ => true) 20
      (begin (roof (1 / 100) 1 0 true 4 fun _ => true) (rest 1 5))).map (fun t => t.solves.map fun a => (a.mesh, a.pt))
    = some [(5, (31 / 32, 1)), (5, (31 / 32, 1)), (5, (31 / 32, 1)), (5, (31 / 32, 1))] := by decide +kernel

end GsSA.Stepping.Adaptive
