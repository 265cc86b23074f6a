import Mathlib.Logic.Function.Basic
import Mathlib.Data.List.Range
import Verif.Base.Status

/-!
# The main / worker protocol

`src/gsALMSolvers/gsAPALM.hpp` 248-428 (`parallelSolve_impl<true>`) and 506-820
(`_solve_impl<true>`) as a transition system. Both functions have the same structure: the main
process hands out jobs to idle workers, waits for a result of any worker, and at the end sends a stop
signal to all workers. They differ in the data and in what a job is; these are parameters here.

Granularity: the three messages for a job (stop signal `false`, branch / ID / level, job data; 303-312)
are sent in a row to the same worker and received in a row, and so are the two messages of a result
(410-417); each group is one message here. The layout inside the groups is in `Verif/MPI/Codec.lean`.
Channels are reliable and ordered for each pair of processes. The output messages are not modelled.
-/

namespace GsSA.MPI

open GsSA

/-- The data of the main process: `m_data.empty()`, taking out a job (`pop` and the look-ups following
it, `gsAPALM.hpp` 296-301) and storing a result (`submit`, `finishJob`, 333-334). -/
structure Server (D J R : Type*) where
  empty : D → Bool
  pop : D → Except Fail (J × D)
  submit : D → R → Except Fail D

/-- Where a worker is in its loop (`gsAPALM.hpp` 385-418), with the state of its solver. -/
inductive Worker (A J R : Type*)
  /-- waiting for a message of the main process (387) -/
  | idle (a : A)
  /-- working on a job (401-408) -/
  | busy (a : A) (j : J)
  /-- about to send a result (410-417) -/
  | sending (a : A) (r : R)
  /-- has left the loop (389) -/
  | stopped (a : A)

/-- Where the main process is. -/
inductive Phase
  /-- in the loops 282-377 -/
  | running
  /-- in `_sendMainToAll` (379, 1292-1297); the list of workers not told yet -/
  | stopping (l : List ℕ)
  /-- behind the loops -/
  | finished
  /-- an exception or failed check in the main process -/
  | failed (e : Fail)

/-- Global state: data, `m_workers`, `it`, `njobs` and program position of the main process, the
workers, and the messages in transit to and from each worker. `none` is the stop message. -/
structure State (D A J R : Type*) where
  data : D
  pool : List ℕ
  it : ℕ
  njobs : ℕ
  phase : Phase
  workers : ℕ → Worker A J R
  toW : ℕ → List (Option J)
  fromW : ℕ → List R

variable {D A J R : Type*}

/-- Condition of the dispatch loops, `gsAPALM.hpp` 282 and 351. -/
def mayDispatch (sv : Server D J R) (maxIt : ℕ) (s : State D A J R) : Prop :=
  sv.empty s.data = false ∧ s.it < maxIt ∧ s.pool ≠ []

/-- The workers `1 .. P-1`. -/
def ranks (P : ℕ) : List ℕ := List.range' 1 (P - 1)

/-- Labels of steps. -/
inductive Label
  | dispatch (w : ℕ)
  | dispatchFail
  | receive (w : ℕ)
  | receiveFail (w : ℕ)
  | stop
  | sendStop (w : ℕ)
  | leave
  | recvJob (w : ℕ)
  | recvStop (w : ℕ)
  | compute (w : ℕ)
  | sendResult (w : ℕ)

/-- One step, with buffered sends. `work a j` is the result of job `j` computed by a worker whose
solver is in state `a`, and the new state of that solver. -/
inductive Step (sv : Server D J R) (work : A → J → R × A) (P maxIt : ℕ) :
    State D A J R → Label → State D A J R → Prop
  /-- `gsAPALM.hpp` 294-316, 353-376 -/
  | dispatch {s : State D A J R} {w : ℕ} {ws : List ℕ} {j : J} {d : D} :
      s.phase = .running → mayDispatch sv maxIt s → s.pool = w :: ws → sv.pop s.data = .ok (j, d) →
      Step sv work P maxIt s (.dispatch w)
        { s with
          data := d
          pool := ws
          it := s.it + 1
          njobs := s.njobs + 1
          toW := Function.update s.toW w (s.toW w ++ [some j]) }
  | dispatchFail {s : State D A J R} {e : Fail} :
      s.phase = .running → mayDispatch sv maxIt s → sv.pop s.data = .error e →
      Step sv work P maxIt s .dispatchFail { s with phase := .failed e }
  /-- `gsAPALM.hpp` 323-339: receive from any source -/
  | receive {s : State D A J R} {w : ℕ} {r : R} {rs : List R} {d : D} :
      s.phase = .running → ¬ mayDispatch sv maxIt s → 0 < s.njobs → w ∈ ranks P →
      s.fromW w = r :: rs → sv.submit s.data r = .ok d →
      Step sv work P maxIt s (.receive w)
        { s with
          data := d
          pool := s.pool ++ [w]
          njobs := s.njobs - 1
          fromW := Function.update s.fromW w rs }
  | receiveFail {s : State D A J R} {w : ℕ} {r : R} {rs : List R} {e : Fail} :
      s.phase = .running → ¬ mayDispatch sv maxIt s → 0 < s.njobs → w ∈ ranks P →
      s.fromW w = r :: rs → sv.submit s.data r = .error e →
      Step sv work P maxIt s (.receiveFail w) { s with phase := .failed e }
  /-- end of the loops, `gsAPALM.hpp` 319, 378 -/
  | stop {s : State D A J R} :
      s.phase = .running → ¬ mayDispatch sv maxIt s → s.njobs = 0 →
      Step sv work P maxIt s .stop { s with phase := .stopping (ranks P) }
  /-- `gsAPALM.hpp` 1292-1297 -/
  | sendStop {s : State D A J R} {w : ℕ} {l : List ℕ} :
      s.phase = .stopping (w :: l) →
      Step sv work P maxIt s (.sendStop w)
        { s with
          phase := .stopping l
          toW := Function.update s.toW w (s.toW w ++ [none]) }
  | leave {s : State D A J R} :
      s.phase = .stopping [] → Step sv work P maxIt s .leave { s with phase := .finished }
  /-- `gsAPALM.hpp` 387-399 -/
  | recvJob {s : State D A J R} {w : ℕ} {a : A} {j : J} {q : List (Option J)} :
      w ∈ ranks P → s.workers w = .idle a → s.toW w = some j :: q →
      Step sv work P maxIt s (.recvJob w)
        { s with
          workers := Function.update s.workers w (.busy a j)
          toW := Function.update s.toW w q }
  /-- `gsAPALM.hpp` 388-389 -/
  | recvStop {s : State D A J R} {w : ℕ} {a : A} {q : List (Option J)} :
      w ∈ ranks P → s.workers w = .idle a → s.toW w = none :: q →
      Step sv work P maxIt s (.recvStop w)
        { s with
          workers := Function.update s.workers w (.stopped a)
          toW := Function.update s.toW w q }
  /-- `gsAPALM.hpp` 401-408 -/
  | compute {s : State D A J R} {w : ℕ} {a : A} {j : J} :
      w ∈ ranks P → s.workers w = .busy a j →
      Step sv work P maxIt s (.compute w)
        { s with workers := Function.update s.workers w (.sending (work a j).2 (work a j).1) }
  /-- `gsAPALM.hpp` 410-417 -/
  | sendResult {s : State D A J R} {w : ℕ} {a : A} {r : R} :
      w ∈ ranks P → s.workers w = .sending a r →
      Step sv work P maxIt s (.sendResult w)
        { s with
          workers := Function.update s.workers w (.idle a)
          fromW := Function.update s.fromW w (s.fromW w ++ [r]) }

/-- With unbuffered (synchronous) sends a send completes only when the receiver is at the matching
receive. -/
def Ready (sv : Server D J R) (maxIt : ℕ) (s : State D A J R) : Label → Prop
  | .dispatch w => (∃ a, s.workers w = .idle a) ∧ s.toW w = []
  | .sendStop w => (∃ a, s.workers w = .idle a) ∧ s.toW w = []
  | .sendResult _ => s.phase = .running ∧ ¬ mayDispatch sv maxIt s ∧ 0 < s.njobs ∧
      ∀ w, s.fromW w = []
  | _ => True

/-- Start of the parallel part: all workers are waiting, nothing is in transit. `pool` is `m_workers`
after the workers have been added (`gsAPALM.hpp` 279-280); in the first call it is `1 .. P-1`, in later
calls the old content is still there. -/
def start (d : D) (pool : List ℕ) (a : ℕ → A) : State D A J R where
  data := d
  pool := pool
  it := 0
  njobs := 0
  phase := .running
  workers := fun w => .idle (a w)
  toW := fun _ => []
  fromW := fun _ => []

/-- Executions with buffered sends, with their number of steps. -/
inductive Run (sv : Server D J R) (work : A → J → R × A) (P maxIt : ℕ) :
    State D A J R → ℕ → State D A J R → Prop
  | nil (s : State D A J R) : Run sv work P maxIt s 0 s
  | snoc {s₁ s₂ s₃ : State D A J R} {n : ℕ} {l : Label} :
      Run sv work P maxIt s₁ n s₂ → Step sv work P maxIt s₂ l s₃ → Run sv work P maxIt s₁ (n + 1) s₃

/-- Executions with synchronous sends. -/
inductive SyncRun (sv : Server D J R) (work : A → J → R × A) (P maxIt : ℕ) :
    State D A J R → ℕ → State D A J R → Prop
  | nil (s : State D A J R) : SyncRun sv work P maxIt s 0 s
  | snoc {s₁ s₂ s₃ : State D A J R} {n : ℕ} {l : Label} :
      SyncRun sv work P maxIt s₁ n s₂ → Ready sv maxIt s₂ l → Step sv work P maxIt s₂ l s₃ →
      SyncRun sv work P maxIt s₁ (n + 1) s₃

/-- Sequential executions, counting hand-outs and answers. -/
inductive SeqRun (sv : Server D J R) (work : A → J → R × A) :
    D × List J → ℕ → ℕ → D × List J → Prop
  | nil (x : D × List J) : SeqRun sv work x 0 0 x
  | pop {x : D × List J} {d d' : D} {j : J} {out : List J} {m n : ℕ} :
      SeqRun sv work x m n (d, out) → sv.empty d = false → sv.pop d = .ok (j, d') →
      SeqRun sv work x (m + 1) n (d', out ++ [j])
  | submit {x : D × List J} {d d' : D} {j : J} {o₁ o₂ : List J} {m n : ℕ} (a : A) :
      SeqRun sv work x m n (d, o₁ ++ j :: o₂) → sv.submit d (work a j).1 = .ok d' →
      SeqRun sv work x m (n + 1) (d', o₁ ++ o₂)

end GsSA.MPI
