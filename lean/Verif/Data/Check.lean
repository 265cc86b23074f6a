import Mathlib.Algebra.Order.Ring.Rat
import Mathlib.Data.Rat.Defs
import Verif.Data.Spec

/-!
# Executable histories

A boolean version of the contract, used to exhibit concrete histories that meet the hypotheses of
the property theorems.
-/

namespace GsSA.APALM

open GsSA

variable {K S : Type*} [Field K] [LinearOrder K]

/-- Boolean contract. -/
def contractB (d : Data K S) : Op K S → Bool
  | .addStart _ _ => d.xi.isEmpty
  | .init times sols => d.xi.isEmpty && decide (times.Pairwise (· < ·)) && decide (2 ≤ times.length)
      && decide (times.length = sols.length)
  | .appendPoint _ => !d.xi.isEmpty
  | .appendData time _ _ => d.t.all (fun x => decide (x < time))
  | .pop => !d.queue.isEmpty
  | .complete id ds sols _ _ =>
    match OMap.get? d.jobs id with
    | some j => decide (0 < j.level) && decide (ds.length = sols.length + 1) &&
        ds.all (fun x => decide (0 < x)) &&
        decide ((((jobTimes d id).1.2 - (jobTimes d id).1.1) - ds.dropLast.sum) /
          ((jobTimes d id).1.2 - (jobTimes d id).1.1) < 1 / 10 ^ 12)
    | none => false
  | .finish _ => true
  | .setLength _ => true
  | .readFlat _ => true
  | .readTimes id => (OMap.get? d.jobs id).isSome
  | .readReference id => (OMap.get? d.jobs id).isSome

theorem contract_of_contractB {d : Data K S} {op : Op K S} (h : contractB d op = true) :
    Contract d op := by
  cases op <;> simp only [contractB, Contract, Bool.and_eq_true, decide_eq_true_eq,
    List.isEmpty_iff, Bool.not_eq_true', List.isEmpty_eq_false_iff, List.all_eq_true] at h ⊢
  all_goals try exact h
  all_goals try tauto
  · split at h
    · rename_i j hj
      simp only [Bool.and_eq_true, decide_eq_true_eq, List.all_eq_true] at h
      exact ⟨j, hj, h.1.1.1, h.1.1.2, h.1.2, h.2⟩
    · simp at h
  all_goals
    rw [Option.isSome_iff_exists] at h
    exact h

/-- Runs a history, checking contracts. -/
def runChecked (d : Data K S) : List (Op K S) → Option (Data K S)
  | [] => some d
  | op :: ops =>
    if contractB d op then
      match exec d op with
      | .ok d' => runChecked d' ops
      | .error _ => none
    else none

theorem exec_of_runChecked {d d' : Data K S} {ops : List (Op K S)}
    (h : runChecked d ops = some d') : Exec d ops d' := by
  induction ops generalizing d with
  | nil => simp [runChecked] at h; subst h; exact .nil d
  | cons op ops ih =>
    simp only [runChecked] at h
    split at h
    · rename_i hc
      split at h
      · rename_i d₁ he
        exact .cons (contract_of_contractB hc) he (ih h)
      · simp at h
    · simp at h

/-- Sample: three given points, the two intervals handed out together, the second one completed
first with an error that triggers refinement, then one of the new intervals handed out. -/
def sampleOps : List (Op ℚ ℕ) :=
  [.init [0, 1, 3] [100, 101, 102], .pop, .pop,
   .complete 1 [1, 1, 1/2] [201, 202] (9/5) (19/10),
   .complete 0 [1/2, 1/2, 1/4] [203, 204] 1 (1/2), .pop]

/-- The sample start. -/
def sampleStart : Data ℚ ℕ := Data.fresh 5 (1/10) 1

end GsSA.APALM
