import Mathlib.Algebra.Field.Rat
import Mathlib.Data.Rat.Init
import Mathlib.Tactic.Common
import Verif.Static.OptOptions

/-!
# C150: the options of `gsStaticOpt` reach the optimizer
-/

namespace GsSA.Static.OptOptions

variable {K : Type}

/-- The optimizer is compiled in. -/
def Known (mods : Modules) : Optimizer → Prop
  | .gradientDescent => True
  | .hlbfgs => mods.hlbfgs = true
  | .optim => mods.optim = true
  | .ipopt => mods.ipopt = true
  | .unknown => False

/-- The name an optimizer has for the tolerance on the residual. -/
def labelF : Optimizer → String
  | .hlbfgs => "MinGradLen"
  | .optim => "RelObjFnChangeTol"
  | _ => "MinGradientLength"

/-- The name an optimizer has for the tolerance on the step. -/
def labelU : Optimizer → String
  | .hlbfgs => "MinStepLen"
  | .optim => "RelSolChangeTol"
  | _ => "MinStepLength"

/-- The optimizer has the four options. -/
structure Has (c : Optimizer) (l : OptList K) : Prop where
  maxIt : ∃ i, l "MaxIterations" = some (.int i)
  verbose : ∃ i, l "Verbose" = some (.int i)
  tolF : ∃ x, l (labelF c) = some (.real x)
  tolU : ∃ x, l (labelU c) = some (.real x)

theorem setInt_some {l l' : OptList K} {k : String} {i : ℤ} :
    setInt l k i = some l' ↔ (∃ j, l k = some (.int j)) ∧ l' = fun k' => if k' = k then some (.int i) else l k' := by
  unfold setInt
  split
  · next j h => simp [h, eq_comm]
  · next h =>
    constructor
    · intro h'
      cases h'
    · rintro ⟨⟨j, hj⟩, -⟩
      exact absurd hj (h j)

theorem setReal_some {l l' : OptList K} {k : String} {x : K} :
    setReal l k x = some l' ↔ (∃ j, l k = some (.real j)) ∧ l' = fun k' => if k' = k then some (.real x) else l k' := by
  unfold setReal
  split
  · next j h => simp [h, eq_comm]
  · next h =>
    constructor
    · intro h'
      cases h'
    · rintro ⟨⟨j, hj⟩, -⟩
      exact absurd hj (h j)

section

variable [Field K] [DecidableEq K]

/-- `getOptions` for all optimizers at once. -/
def core (c : Optimizer) (o : Base K) (l : OptList K) : Option (Members K × OptList K) :=
  (setInt l "MaxIterations" o.maxIt).bind fun l => (setInt l "Verbose" o.verbose).bind fun l =>
    (setReal l (labelF c) o.get.tolF).bind fun l => (setReal l (labelU c) o.get.tolU).bind fun l => some (o.get, l)

theorem getOptions_core {mods : Modules} {c : Optimizer} {o : Base K} {l : OptList K} {r : Members K × OptList K} :
    getOptions mods c o l = some r ↔ Known mods c ∧ core c o l = some r := by
  have e1 : o.get.maxIterations = o.maxIt := rfl
  have e2 : o.get.verbose = o.verbose := rfl
  cases c <;> cases h1 : mods.hlbfgs <;> cases h2 : mods.optim <;> cases h3 : mods.ipopt <;>
    simp [getOptions, core, Known, h1, h2, h3, e1, e2, labelF, labelU, bind, pure]

theorem labels (c : Optimizer) : labelF c ≠ "MaxIterations" ∧ labelF c ≠ "Verbose" ∧ labelU c ≠ "MaxIterations" ∧
    labelU c ≠ "Verbose" ∧ labelU c ≠ labelF c := by
  cases c <;> decide

/-- The options of the optimizer afterwards. -/
def after (c : Optimizer) (o : Base K) (l : OptList K) : OptList K := fun k =>
  if k = labelU c then some (.real o.get.tolU)
  else if k = labelF c then some (.real o.get.tolF)
  else if k = "Verbose" then some (.int o.verbose)
  else if k = "MaxIterations" then some (.int o.maxIt)
  else l k

theorem core_eq {c : Optimizer} {o : Base K} {l : OptList K} {r : Members K × OptList K} :
    core c o l = some r ↔ Has c l ∧ r = (o.get, after c o l) := by
  obtain ⟨h1, h2, h3, h4, h5⟩ := labels c
  have hv : ("Verbose" : String) ≠ "MaxIterations" := by decide
  simp only [core, Option.bind_eq_some_iff, setInt_some, setReal_some]
  constructor
  · rintro ⟨l1, ⟨a1, rfl⟩, l2, ⟨a2, rfl⟩, l3, ⟨a3, rfl⟩, l4, ⟨a4, rfl⟩, h⟩
    simp only [hv, h1, h2, h3, h4, h5, if_false] at a2 a3 a4
    exact ⟨⟨a1, a2, a3, a4⟩, (Option.some.inj h).symm⟩
  · rintro ⟨⟨a1, a2, a3, a4⟩, rfl⟩
    refine ⟨_, ⟨a1, rfl⟩, _, ⟨?_, rfl⟩, _, ⟨?_, rfl⟩, _, ⟨?_, rfl⟩, rfl⟩
    · simpa only [hv, if_false] using a2
    · simpa only [h1, h2, if_false] using a3
    · simpa only [h3, h4, h5, if_false] using a4

/-- **C150**: `getOptions` (called by `initialize` and `solve`) succeeds exactly for an optimizer that is compiled in and
has the four options; the optimizer then has the limit of iterations and the verbosity of the solver, the tolerances
`tolF` and `tolU` (where they are -1: `tol`), and its other options unchanged. -/
theorem C150_handed (mods : Modules) (c : Optimizer) (o : Base K) (l : OptList K) :
    ((∃ r, getOptions mods c o l = some r) ↔ Known mods c ∧ Has c l) ∧
    ∀ m l', getOptions mods c o l = some (m, l') →
      l' "MaxIterations" = some (.int o.maxIt) ∧ l' "Verbose" = some (.int o.verbose) ∧
      l' (labelF c) = some (.real (if o.tolF = -1 then o.tol else o.tolF)) ∧
      l' (labelU c) = some (.real (if o.tolU = -1 then o.tol else o.tolU)) ∧
      ∀ k, k ≠ "MaxIterations" → k ≠ "Verbose" → k ≠ labelF c → k ≠ labelU c → l' k = l k := by
  obtain ⟨h1, h2, h3, h4, h5⟩ := labels c
  refine ⟨⟨?_, ?_⟩, ?_⟩
  · rintro ⟨r, h⟩
    rw [getOptions_core, core_eq] at h
    exact ⟨h.1, h.2.1⟩
  · rintro ⟨hk, hh⟩
    exact ⟨_, getOptions_core.2 ⟨hk, core_eq.2 ⟨hh, rfl⟩⟩⟩
  · intro m l' h
    rw [getOptions_core, core_eq] at h
    obtain ⟨-, -, h⟩ := h
    obtain rfl := (Prod.mk.inj h).2
    refine ⟨?_, ?_, ?_, ?_, fun k k1 k2 k3 k4 => ?_⟩
    · simp only [after, h1.symm, h3.symm, if_false, if_true]
      rfl
    · simp only [after, h2.symm, h4.symm, if_false, if_true]
    · simp only [after, h5.symm, if_false, if_true, Base.get, ite_not]
    · simp only [after, if_true, Base.get, ite_not]
    · simp only [after, k1, k2, k3, k4, if_false]

/-- **C150**: a second call changes nothing. -/
theorem C150_again {mods : Modules} {c : Optimizer} {o : Base K} {l l' : OptList K} {m : Members K}
    (h : getOptions mods c o l = some (m, l')) : getOptions mods c o l' = some (m, l') := by
  rw [getOptions_core, core_eq] at h ⊢
  obtain ⟨hk, hh, h⟩ := h
  obtain ⟨rfl, rfl⟩ := Prod.mk.inj h
  obtain ⟨h1, h2, h3, h4, h5⟩ := labels c
  refine ⟨hk, ⟨⟨o.maxIt, ?_⟩, ⟨o.verbose, ?_⟩, ⟨o.get.tolF, ?_⟩, ⟨o.get.tolU, ?_⟩⟩, ?_⟩
  · simp only [after, h1.symm, h3.symm, if_false, if_true]
    rfl
  · simp only [after, h2.symm, h4.symm, if_false, if_true]
  · simp only [after, h5.symm, if_false, if_true]
  · simp only [after, if_true]
  · refine Prod.ext rfl (funext fun k => ?_)
    simp only [after]
    split_ifs <;> rfl

/-- **C150, violated**: what the caller wrote into one of the four options with `optimizerOptions()` is lost at the next
`solve`. -/
theorem C150_violated_optimizer {mods : Modules} {c : Optimizer} {o : Base K} {l l1 l' : OptList K} {m : Members K} {i : ℤ}
    (hi : i ≠ o.maxIt) (h1 : setInt l "MaxIterations" i = some l1) (h : getOptions mods c o l1 = some (m, l')) :
    l1 "MaxIterations" = some (.int i) ∧ l' "MaxIterations" ≠ l1 "MaxIterations" := by
  have e := (setInt_some.1 h1).2
  have e1 : l1 "MaxIterations" = some (.int i) := by rw [e]; simp
  refine ⟨e1, ?_⟩
  rw [((C150_handed mods c o l1).2 m l' h).1, e1]
  intro hc
  exact hi (Val.int.inj (Option.some.inj hc)).symm

/-- **C150, violated**: an optimizer the function does not know is found out by an exception of `solve`, not when the
object is built; this includes the optimizers of modules that are not compiled in. -/
theorem C150_violated_unknown {mods : Modules} {c : Optimizer} (hc : ¬Known mods c) (o : Base K) (l : OptList K) :
    getOptions mods c o l = none := by
  rcases hr : getOptions mods c o l with _ | r
  · rfl
  · exact absurd ((C150_handed mods c o l).1.1 ⟨r, hr⟩).1 hc

end

/-- The options of a gradient descent. -/
def descent : OptList ℚ := fun k =>
  if k = "MaxIterations" then some (.int 100)
  else if k = "Verbose" then some (.int 0)
  else if k = "MinGradientLength" then some (.real (1 / 1000000000))
  else if k = "MinStepLength" then some (.real (1 / 1000000000))
  else if k = "Step" then some (.real 1)
  else none

/-- Default options with `tolF` set: limit 25, tolerances 1e-3 and 1e-6; the length of the step is left alone. -/
example : (getOptions ⟨false, false, false⟩ .gradientDescent ⟨1 / 1000000, 1 / 1000, -1, 25, 0⟩ descent).map (fun r =>
      (r.2 "MaxIterations", r.2 "MinGradientLength", r.2 "MinStepLength", r.2 "Step")) =
    some (some (.int 25), some (.real (1 / 1000)), some (.real (1 / 1000000)), some (.real 1)) := by
  decide +kernel

example : Known ⟨false, false, false⟩ .gradientDescent ∧ Has .gradientDescent descent :=
  ⟨trivial, ⟨100, by decide +kernel⟩, ⟨0, by decide +kernel⟩, ⟨1 / 1000000000, by decide +kernel⟩,
    ⟨1 / 1000000000, by decide +kernel⟩⟩

/-- `C150_violated_optimizer`: 1000 iterations asked for, 25 done. -/
example : ((setInt descent "MaxIterations" 1000).bind
      (getOptions ⟨false, false, false⟩ .gradientDescent ⟨1 / 1000000, -1, -1, 25, 0⟩)).map (fun r => r.2 "MaxIterations") =
    some (some (.int 25)) := by
  decide +kernel

/-- `C150_violated_unknown`: without the module. -/
example : ¬Known ⟨false, true, true⟩ .hlbfgs := by
  simp [Known]

end GsSA.Static.OptOptions
