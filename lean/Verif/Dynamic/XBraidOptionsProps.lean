import Mathlib.Tactic.Common
import Verif.Dynamic.XBraidOptions

/-!
# C151: the options of the parallel-in-time solver
-/

namespace GsSA.Dynamic.XBraidOptions

variable {K : Type}

/-- `initialize` in one piece. -/
theorem init_eq (o : Options K) (c : Core K) : init o c =
    { cFactor := o.cFactor, access := o.access, maxIter := o.maxIter, maxLevels := o.maxLevel, minCoarse := o.minCLevel,
      norm := o.norm, nFMG := o.numFMG, nFMGVcyc := o.numFMGVcyc, maxRefinements := o.numMaxRef, nRelax := o.numRelax,
      storage := o.numStorage, print := o.print, fmg := o.fmg || c.fmg, incrMaxLevels := o.incrMaxLevels || c.incrMaxLevels,
      periodic := o.periodic, refine := o.refine, seqSoln := o.sequential, skip := o.skip, spatial := o.spatial || c.spatial,
      absolute := o.tol, tol := if o.tol then o.absTol else o.relTol } := by
  obtain ⟨a1, a2, a3, a4, a5, a6, a7, a8, a9, a10, a11, a12, a13, a14, b1, b2, b3, b4, b5, b6, b7, b8⟩ := o
  cases b1 <;> cases b2 <;> cases b3 <;> cases b4 <;> cases b5 <;> cases b6 <;> cases b7 <;> cases b8 <;> rfl

/-- The settings are those of the options. -/
structure Agrees (o : Options K) (c : Core K) : Prop where
  numbers : c.cFactor = o.cFactor ∧ c.access = o.access ∧ c.maxIter = o.maxIter ∧ c.maxLevels = o.maxLevel ∧
    c.minCoarse = o.minCLevel ∧ c.norm = o.norm ∧ c.nFMG = o.numFMG ∧ c.nFMGVcyc = o.numFMGVcyc ∧
    c.maxRefinements = o.numMaxRef ∧ c.nRelax = o.numRelax ∧ c.storage = o.numStorage ∧ c.print = o.print
  switches : c.periodic = o.periodic ∧ c.refine = o.refine ∧ c.seqSoln = o.sequential ∧ c.skip = o.skip
  tolerance : c.absolute = o.tol ∧ c.tol = if o.tol then o.absTol else o.relTol
  sticky : c.fmg = o.fmg ∧ c.incrMaxLevels = o.incrMaxLevels ∧ c.spatial = o.spatial

theorem agrees_iff (o : Options K) (c : Core K) : Agrees o (init o c) ↔
    (c.fmg = true → o.fmg = true) ∧ (c.incrMaxLevels = true → o.incrMaxLevels = true) ∧
      (c.spatial = true → o.spatial = true) := by
  have key : ∀ a b : Bool, (a || b) = a ↔ (b = true → a = true) := by decide
  rw [init_eq, ← key, ← key, ← key]
  exact ⟨fun h => h.sticky, fun h => ⟨⟨rfl, rfl, rfl, rfl, rfl, rfl, rfl, rfl, rfl, rfl, rfl, rfl⟩, ⟨rfl, rfl, rfl, rfl⟩,
    ⟨rfl, rfl⟩, h⟩⟩

/-- **C151**: after `initialize` of an object with `fmg`, `incrMaxLevels` and `spatial` off all settings are those of the
options. -/
theorem C151_applied (o : Options K) (c : Core K) (h : c.fmg = false ∧ c.incrMaxLevels = false ∧ c.spatial = false) :
    Agrees o (init o c) := by
  obtain ⟨h1, h2, h3⟩ := h
  rw [agrees_iff, h1, h2, h3]
  simp

/-- **C151**: a second `initialize` with the same options changes nothing. -/
theorem C151_again (o : Options K) (c : Core K) : init o (init o c) = init o c := by
  simp only [init_eq, Bool.or_self_left]

/-- **C151**: with other options, `initialize` again gives the settings of the new options exactly if none of the three
switches goes from on to off. -/
theorem C151_changed (o o' : Options K) (c : Core K) (h : c.fmg = false ∧ c.incrMaxLevels = false ∧ c.spatial = false) :
    Agrees o' (init o' (init o c)) ↔
      (o.fmg = true → o'.fmg = true) ∧ (o.incrMaxLevels = true → o'.incrMaxLevels = true) ∧
        (o.spatial = true → o'.spatial = true) := by
  obtain ⟨h1, h2, h3⟩ := h
  rw [agrees_iff, init_eq o c, h1, h2, h3]
  simp only [Bool.or_false]

/-- **C151, violated**: full multigrid cannot be switched off by an option and `initialize`, nor can the other two. -/
theorem C151_violated_off (o o' : Options K) (c : Core K) :
    (o.fmg = true → (init o' (init o c)).fmg = true) ∧
      (o.incrMaxLevels = true → (init o' (init o c)).incrMaxLevels = true) ∧
      (o.spatial = true → (init o' (init o c)).spatial = true) := by
  simp only [init_eq]
  refine ⟨fun h => ?_, fun h => ?_, fun h => ?_⟩ <;> simp [h]

/-- **C151**: coarsening and refinement in space leave the vectors as they are and give new objects with the same
contents; the objects in between may be freed. -/
theorem C151_space {V : Type*} (h : Memory V) {fu p q : ℕ} (hp : h p = none) (hq : coarsen h fu p q = none) (v : V)
    (hv : h fu = some v) :
    refineSpace (coarsen h fu p) p q q = some v ∧ refineSpace (coarsen h fu p) p q p = some v ∧
      refineSpace (coarsen h fu p) p q fu = some v ∧ ∀ r u, h r = some u → refineSpace (coarsen h fu p) p q r = some u := by
  have hpq : p ≠ q := by
    rintro rfl
    rw [coarsen, if_pos rfl, hv] at hq
    cases hq
  have old : ∀ r u, h r = some u → refineSpace (coarsen h fu p) p q r = some u := by
    intro r u hr
    have h1 : r ≠ p := by
      rintro rfl
      rw [hp] at hr
      cases hr
    have h2 : r ≠ q := by
      rintro rfl
      rw [coarsen, if_neg h1, hr] at hq
      cases hq
    rw [refineSpace, if_neg h2, coarsen, if_neg h1, hr]
  refine ⟨?_, ?_, old fu v hv, old⟩
  · rw [refineSpace, if_pos rfl, coarsen, if_pos rfl, hv]
  · rw [refineSpace, if_neg hpq, coarsen, if_pos rfl, hv]

/-- Settings of an object that was just built. -/
def fresh : Core ℕ where
  cFactor := 2
  access := 1
  maxIter := 100
  maxLevels := 30
  minCoarse := 2
  norm := 2
  nFMG := -1
  nFMGVcyc := 1
  maxRefinements := 200
  nRelax := 1
  storage := -1
  print := 2
  fmg := false
  incrMaxLevels := false
  periodic := false
  refine := false
  seqSoln := false
  skip := true
  spatial := false
  absolute := true
  tol := 9

/-- The defaults are applied; with `tol` on the absolute tolerance is used. -/
example : (init (defaults 6 3) fresh).tol = 3 ∧ (init { defaults 6 3 with tol := true } fresh).tol = 6 ∧
    (init (defaults 6 3) fresh).maxRefinements = 1 ∧ (init (defaults 6 3) fresh).skip = true := by
  decide

/-- `C151_changed`, `C151_violated_off`: on and off again. -/
example : (init (defaults 6 3) (init { defaults 6 3 with fmg := true } fresh)).fmg = true ∧ (defaults 6 3).fmg = false := by
  decide

/-- `C151_space`: the vector at 0, copies at 1 and 2. -/
example : (fun k : ℕ => if k = 0 then some 7 else none : Memory ℕ) 1 = none ∧
    coarsen (fun k : ℕ => if k = 0 then some 7 else none : Memory ℕ) 0 1 2 = none := by
  decide

end GsSA.Dynamic.XBraidOptions
