import Verif.Data.Model

/-!
# Histories of calls on a branch data set

The calls a client makes on `gsAPALMData`, the contract of each call, and executions. This file,
together with the model, is all that is needed to read the property statements.
-/

namespace GsSA.APALM

open GsSA

variable {K S : Type*} [Field K] [LinearOrder K]

/-- A call of the public interface. `complete` is `submit` immediately followed by `finishJob`, as
in all callers (`gsAPALM.hpp` 333-334, 466-467, 676-677, 924-925). -/
inductive Op (K S : Type*)
  | addStart (sol : S) (priority : Bool)
  | init (times : List K) (sols : List S)
  | appendPoint (priority : Bool)
  | appendData (time : K) (sol : S) (priority : Bool)
  | pop
  | complete (id : ℕ) (distances : List K) (sols : List S) (upper lower : K)
  | finish (id : ℕ)
  | setLength (dt : K)
  | readFlat (filter : Option ℕ)
  | readTimes (id : ℕ)
  | readReference (id : ℕ)

/-- Result state of a call. -/
def exec (d : Data K S) : Op K S → Except Fail (Data K S)
  | .addStart sol b => addStartPoint d 0 sol b
  | .init times sols => initData d times sols
  | .appendPoint b => appendPoint d b
  | .appendData time sol b => appendData d time sol b
  | .pop => (pop d).map Prod.snd
  | .complete id ds sols u l => (submit d id ds sols u l).map (fun d' => finishJob d' id)
  | .finish id => .ok (finishJob d id)
  | .setLength dt => .ok (setLength d dt)
  | .readFlat f => .ok (getFlatSolution d f).2
  | .readTimes id => .ok (jobTimes d id).2
  | .readReference id => .ok (getReferenceByID d id).2

/-- The job `id` has been popped and not finished. -/
def Active (d : Data K S) (id : ℕ) (j : Job K) : Prop := OMap.get? d.jobs id = some j

/-- The contract of each call.
* a start point or an initial data set only on a data set without points; initial times strictly
  increasing, at least two, one solution each;
* appending at a later time than all stored ones;
* `pop` only when something is waiting;
* a submission belongs to an active refinement job, has one more distance than solutions, only
  positive distances, and all but the last reach the length of the interval (the
  `GISMO_ENSURE` of `submit`);
* job queries only for active jobs. -/
def Contract (d : Data K S) : Op K S → Prop
  | .addStart _ _ => d.xi = []
  | .init times sols => d.xi = [] ∧ times.Pairwise (· < ·) ∧ 2 ≤ times.length ∧
      times.length = sols.length
  | .appendPoint _ => d.xi ≠ []
  | .appendData time _ _ => ∀ x ∈ d.t, x < time
  | .pop => d.queue ≠ []
  | .complete id ds sols _ _ => ∃ j, Active d id j ∧ 0 < j.level ∧
      ds.length = sols.length + 1 ∧ (∀ x ∈ ds, 0 < x) ∧
      (((jobTimes d id).1.2 - (jobTimes d id).1.1) - ds.dropLast.sum) /
        ((jobTimes d id).1.2 - (jobTimes d id).1.1) < 1 / 10 ^ 12
  | .finish _ => True
  | .setLength _ => True
  | .readFlat _ => True
  | .readTimes id => ∃ j, Active d id j
  | .readReference id => ∃ j, Active d id j

/-- Contract-respecting executions. -/
inductive Exec : Data K S → List (Op K S) → Data K S → Prop
  | nil (d : Data K S) : Exec d [] d
  | cons {d d' d'' : Data K S} {op : Op K S} {ops : List (Op K S)} :
      Contract d op → exec d op = .ok d' → Exec d' ops d'' → Exec d (op :: ops) d''

/-- Reachable from a new data set. -/
def Reachable (d : Data K S) : Prop :=
  ∃ (maxLevel : ℕ) (tol dt : K) (ops : List (Op K S)), Exec (Data.fresh maxLevel tol dt) ops d

/-- Number of points a call stores. -/
def Op.stored : Op K S → ℕ
  | .addStart _ _ => 1
  | .init times _ => times.length
  | .appendData _ _ _ => 1
  | .complete _ _ sols _ _ => sols.length
  | _ => 0

/-- Number of jobs a call hands out. -/
def Op.pops : Op K S → ℕ
  | .pop => 1
  | _ => 0

/-- All times, solutions and levels of the branch, as returned by `getFlatSolution()`. -/
def flat (d : Data K S) : List (FlatPoint K S) := (getFlatSolution d none).1

end GsSA.APALM
