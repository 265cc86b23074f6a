import Mathlib.Data.List.Basic
import Verif.Base.Status

/-!
# The layout of the messages

`src/gsALMSolvers/gsAPALM.hpp` 1172-1672. A job or a result is sent as a series of tagged messages of one
value or one vector each. MPI matches a receive with the first message of the same source and tag;
messages with different tags may overtake each other. A channel is the list of messages from one process to
another which are not received yet.

A receive of the wrong type, of a vector longer than the buffer, or of a shorter one (which leaves part of
the buffer uninitialised), is a failure.
-/

namespace GsSA.MPI

open GsSA

/-- Content of a message: `index_t` (all values sent are non-negative), `T`, `bool`, or an array of `T`. -/
inductive Val (K : Type*)
  | int (n : ℕ)
  | real (x : K)
  | bool (b : Bool)
  | vec (l : List K)
  deriving DecidableEq

/-- Messages in transit: tag and content, in the order of sending. -/
abbrev Chan (K : Type*) := List (ℕ × Val K)

variable {K α β : Type*}

/-- The message matched by a receive: the first one with the tag. -/
def takeTag (t : ℕ) : Chan K → Option (Val K × Chan K)
  | [] => none
  | (t', v) :: l =>
    if t' = t then some (v, l)
    else match takeTag t l with
      | none => none
      | some (w, l') => some (w, (t', v) :: l')

/-- A receiving program: a series of receives, each with the tag and depending on what was received
before. `fail` is a receive with the wrong type or size. -/
inductive Prog (K α : Type*)
  | done (a : α)
  | fail
  | recv (tag : ℕ) (next : Val K → Prog K α)

/-- Sequence of programs. -/
def Prog.bind (p : Prog K α) (f : α → Prog K β) : Prog K β :=
  match p with
  | .done a => f a
  | .fail => .fail
  | .recv t next => .recv t fun v => (next v).bind f

/-- Running a program on a channel; `none` if it fails or blocks. -/
def Prog.run : Prog K α → Chan K → Option (α × Chan K)
  | .done a, ch => some (a, ch)
  | .fail, _ => none
  | .recv t next, ch =>
    match takeTag t ch with
    | none => none
    | some (v, ch') => (next v).run ch'

/-- `irecv(&x,1,…,tag)` with an `index_t`. -/
def recvInt (t : ℕ) : Prog K ℕ := .recv t fun v => match v with
  | .int n => .done n
  | _ => .fail

/-- `irecv(&x,1,…,tag)` with a `T`. -/
def recvReal (t : ℕ) : Prog K K := .recv t fun v => match v with
  | .real x => .done x
  | _ => .fail

/-- `irecv(&x,1,…,tag)` with a `bool`. -/
def recvBool (t : ℕ) : Prog K Bool := .recv t fun v => match v with
  | .bool x => .done x
  | _ => .fail

/-- `irecv(U.data(),n,…,tag)` after `U.resize(n)`. -/
def recvVec (t n : ℕ) : Prog K (List K) := .recv t fun v => match v with
  | .vec l => if l.length = n then .done l else .fail
  | _ => .fail

/-! ## Contents -/

/-- `solution_t`: displacement vector and load factor, `gsAPALM.h`. -/
structure Sol (K : Type*) where
  U : List K
  L : K

/-- `dataEntry`: ID, length, start and previous solution. -/
structure Entry (K : Type*) where
  id : ℕ
  dL : K
  start : Sol K
  prev : Sol K

/-- What is sent to a worker: an initiation with its start time, or a correction with its interval and
reference, `gsAPALM.hpp` 589-598, 605-615. -/
inductive Task (K : Type*)
  | init (e : Entry K) (tstart : K)
  | corr (e : Entry K) (tstart tend : K) (ref : Sol K)

/-- What a worker sends back, `gsAPALM.hpp` 775-782, 801-809. -/
inductive Answer (K : Type*)
  | init (distance : K) (sols : List (Sol K)) (bifurcation : Bool)
  | corr (ds : List K) (sols : List (Sol K)) (upper lower : K)

/-! ## Main to worker -/

/-- Branch, ID and level, `gsAPALM.hpp` 1172-1184. -/
def sendMeta (branch id level : ℕ) : Chan K := [(0, .int branch), (1, .int id), (2, .int level)]

/-- `gsAPALM.hpp` 1299-1311. -/
def recvMeta : Prog K (ℕ × ℕ × ℕ) :=
  (recvInt 0).bind fun branch => (recvInt 1).bind fun id => (recvInt 2).bind fun level =>
    .done (branch, id, level)

/-- `gsAPALM.hpp` 1186-1236. -/
def sendCorrJob (e : Entry K) (tstart tend : K) (ref : Sol K) : Chan K :=
  [(0, .int e.id), (1, .real e.dL), (2, .real tstart), (3, .real tend),
   (4, .int e.start.U.length), (5, .real e.start.L),
   (6, .int e.prev.U.length), (7, .real e.prev.L),
   (8, .int ref.U.length), (9, .real ref.L),
   (10, .vec e.start.U), (11, .vec e.prev.U), (12, .vec ref.U)]

/-- `gsAPALM.hpp` 1314-1366. -/
def recvCorrJob : Prog K (Task K) :=
  (recvInt 0).bind fun id => (recvReal 1).bind fun dL => (recvReal 2).bind fun tstart =>
  (recvReal 3).bind fun tend =>
  (recvInt 4).bind fun startSize => (recvReal 5).bind fun startL =>
  (recvInt 6).bind fun prevSize => (recvReal 7).bind fun prevL =>
  (recvInt 8).bind fun refSize => (recvReal 9).bind fun refL =>
  (recvVec 10 startSize).bind fun startU => (recvVec 11 prevSize).bind fun prevU =>
  (recvVec 12 refSize).bind fun refU =>
    .done (.corr ⟨id, dL, ⟨startU, startL⟩, ⟨prevU, prevL⟩⟩ tstart tend ⟨refU, refL⟩)

/-- `gsAPALM.hpp` 1238-1280. -/
def sendInitJob (e : Entry K) (tstart : K) : Chan K :=
  [(0, .int e.id), (1, .real e.dL), (2, .real tstart),
   (3, .int e.start.U.length), (4, .real e.start.L),
   (5, .int e.prev.U.length), (6, .real e.prev.L),
   (7, .vec e.start.U), (8, .vec e.prev.U)]

/-- `gsAPALM.hpp` 1368-1409. -/
def recvInitJob : Prog K (Task K) :=
  (recvInt 0).bind fun id => (recvReal 1).bind fun dL => (recvReal 2).bind fun tstart =>
  (recvInt 3).bind fun startSize => (recvReal 4).bind fun startL =>
  (recvInt 5).bind fun prevSize => (recvReal 6).bind fun prevL =>
  (recvVec 7 startSize).bind fun startU => (recvVec 8 prevSize).bind fun prevU =>
    .done (.init ⟨id, dL, ⟨startU, startL⟩, ⟨prevU, prevL⟩⟩ tstart)

/-- An order to a worker: `none` is the stop signal. -/
structure Order (K : Type*) where
  branch : ℕ
  level : ℕ
  task : Task K

/-- ID of the job of a task. -/
def Task.id : Task K → ℕ
  | .init e _ => e.id
  | .corr e _ _ _ => e.id

/-- Main: stop signal, branch / ID / level, job; `gsAPALM.hpp` 583-615, 378-379, 741-742, 1282-1290. -/
def sendOrder : Option (Order K) → Chan K
  | none => [(99, .bool true)]
  | some o => (99, .bool false) :: (sendMeta o.branch o.task.id o.level ++
      match o.task with
      | .init e t => sendInitJob e t
      | .corr e t t' ref => sendCorrJob e t t' ref)

/-- Worker: `gsAPALM.hpp` 748-793. The kind of the job follows from the level. -/
def recvOrder : Prog K (Option (Order K)) :=
  (recvBool 99).bind fun stop =>
    if stop then .done none
    else recvMeta.bind fun m =>
      (if m.2.2 = 0 then recvInitJob else recvCorrJob).bind fun task => .done (some ⟨m.1, m.2.2, task⟩)

/-! ## Worker to main -/

/-- Branch and ID, `gsAPALM.hpp` 1419-1434. -/
def sendResultMeta (branch id : ℕ) : Chan K := [(0, .int branch), (1, .int id)]

/-- `gsAPALM.hpp` 1436-1453. -/
def recvResultMeta : Prog K (ℕ × ℕ) :=
  (recvInt 0).bind fun branch => (recvInt 1).bind fun id => .done (branch, id)

/-- Distance, load, vector size of each solution with running tag, `gsAPALM.hpp` 1481-1488. -/
def corrHeads (tag : ℕ) : List (K × Sol K) → Chan K
  | [] => []
  | (d, s) :: l => (tag, .real d) :: (tag + 1, .real s.L) :: (tag + 2, .int s.U.length) ::
      corrHeads (tag + 3) l

/-- Load and vector size of each solution with running tag, `gsAPALM.hpp` 1526-1532. -/
def initHeads (tag : ℕ) : List (Sol K) → Chan K
  | [] => []
  | s :: l => (tag, .real s.L) :: (tag + 1, .int s.U.length) :: initHeads (tag + 2) l

/-- The vectors with running tag, `gsAPALM.hpp` 1492-1494, 1535-1537. -/
def vectors (tag : ℕ) : List (Sol K) → Chan K
  | [] => []
  | s :: l => (tag, .vec s.U) :: vectors (tag + 1) l

/-- Result of a correction, `gsAPALM.hpp` 1455-1500, with every value taken at the time of the `isend`.
`distances.at(k)` throws. -/
def sendCorrResult (ds : List K) (sols : List (Sol K)) (upper lower : K) : Except Fail (Chan K) :=
  match ds[sols.length]? with
  | none => .error .exc
  | some last =>
    .ok ([(0, .real upper), (1, .real lower), (2, .int sols.length)] ++ corrHeads 3 (ds.zip sols) ++
      [(3 + 3 * sols.length, .real last)] ++ vectors (4 + 3 * sols.length) sols)

/-- Receives of distance, load, vector size, `gsAPALM.hpp` 1585-1590. -/
def recvCorrHeads : ℕ → ℕ → Prog K (List (K × K × ℕ))
  | _, 0 => .done []
  | tag, n + 1 => (recvReal tag).bind fun d => (recvReal (tag + 1)).bind fun L =>
      (recvInt (tag + 2)).bind fun m => (recvCorrHeads (tag + 3) n).bind fun l => .done ((d, L, m) :: l)

/-- Receives of load, vector size, `gsAPALM.hpp` 1649-1653. -/
def recvInitHeads : ℕ → ℕ → Prog K (List (K × ℕ))
  | _, 0 => .done []
  | tag, n + 1 => (recvReal tag).bind fun L => (recvInt (tag + 1)).bind fun m =>
      (recvInitHeads (tag + 2) n).bind fun l => .done ((L, m) :: l)

/-- Receives of the vectors of the given sizes, and combination with the loads,
`gsAPALM.hpp` 1594-1607, 1656-1668. -/
def recvVectors : ℕ → List (K × ℕ) → Prog K (List (Sol K))
  | _, [] => .done []
  | tag, (L, m) :: l => (recvVec tag m).bind fun U => (recvVectors (tag + 1) l).bind fun r =>
      .done (⟨U, L⟩ :: r)

/-- `gsAPALM.hpp` 1544-1612. -/
def recvCorrResult : Prog K (Answer K) :=
  (recvReal 0).bind fun upper => (recvReal 1).bind fun lower => (recvInt 2).bind fun size =>
  (recvCorrHeads 3 size).bind fun heads => (recvReal (3 + 3 * size)).bind fun last =>
  (recvVectors (4 + 3 * size) (heads.map Prod.snd)).bind fun sols =>
    .done (.corr (heads.map Prod.fst ++ [last]) sols upper lower)

/-- Result of an initiation, `gsAPALM.hpp` 1502-1541, with every value taken at the time of the `isend`. -/
def sendInitResult (distance : K) (sols : List (Sol K)) (bifurcation : Bool) : Chan K :=
  [(0, .real distance), (1, .bool bifurcation), (2, .int sols.length)] ++ initHeads 3 sols ++
    vectors (3 + 2 * sols.length) sols

/-- `gsAPALM.hpp` 1614-1671. -/
def recvInitResult : Prog K (Answer K) :=
  (recvReal 0).bind fun distance => (recvBool 1).bind fun bifurcation => (recvInt 2).bind fun size =>
  (recvInitHeads 3 size).bind fun heads =>
  (recvVectors (3 + 2 * size) heads).bind fun sols => .done (.init distance sols bifurcation)

/-- Worker: branch and ID, then the result. -/
def sendAnswer (branch id : ℕ) : Answer K → Except Fail (Chan K)
  | .init distance sols b => .ok (sendResultMeta branch id ++ sendInitResult distance sols b)
  | .corr ds sols upper lower =>
    match sendCorrResult ds sols upper lower with
    | .error e => .error e
    | .ok ch => .ok (sendResultMeta branch id ++ ch)

/-- Main: branch and ID from any worker, then the result from the same worker with the layout that
belongs to the level of the job (`level branch id` = 0 for initiations); `gsAPALM.hpp` 624-676. -/
def recvAnswer (level : ℕ → ℕ → ℕ) : Prog K ((ℕ × ℕ) × Answer K) :=
  recvResultMeta.bind fun m =>
    (if level m.1 m.2 = 0 then recvInitResult else recvCorrResult).bind fun a => .done (m, a)

/-! ## Buffers

`load` and `vectorSize` are single variables overwritten while their `isend`s are pending
(`gsAPALM.hpp` 1484-1487, 1528-1531; the waits come behind the loop). MPI may read the buffer of an `isend`
at any time until the wait, so that the value sent for solution `k` may be the one of any later solution. -/

/-- `sent` may be transmitted when `l` is assigned to one variable, element by element, with an `isend` after
each assignment. -/
inductive Deferred {β : Type*} : List β → List β → Prop
  | nil : Deferred [] []
  | cons {x y : β} {l sent : List β} : y ∈ x :: l → Deferred l sent → Deferred (x :: l) (y :: sent)

/-- `gsAPALM.hpp` 1526-1532 with the transmitted loads and sizes. -/
def initHeadsOf (tag : ℕ) : List (K × ℕ) → Chan K
  | [] => []
  | (L, m) :: l => (tag, .real L) :: (tag + 1, .int m) :: initHeadsOf (tag + 2) l

/-- Possible transmissions of the result of an initiation, `gsAPALM.hpp` 1502-1541. -/
inductive SendsInit (distance : K) (sols : List (Sol K)) (b : Bool) : Chan K → Prop
  | mk {loads : List K} {sizes : List ℕ} :
      Deferred (sols.map (·.L)) loads → Deferred (sols.map (·.U.length)) sizes →
      SendsInit distance sols b
        ([(0, .real distance), (1, .bool b), (2, .int sols.length)] ++ initHeadsOf 3 (loads.zip sizes) ++
          vectors (3 + 2 * sols.length) sols)

/-- `gsAPALM.hpp` 1481-1488 with the transmitted loads and sizes. -/
def corrHeadsOf (tag : ℕ) : List (K × K × ℕ) → Chan K
  | [] => []
  | (d, L, m) :: l => (tag, .real d) :: (tag + 1, .real L) :: (tag + 2, .int m) :: corrHeadsOf (tag + 3) l

/-- Possible transmissions of the result of a correction, `gsAPALM.hpp` 1455-1500. -/
inductive SendsCorr (ds : List K) (sols : List (Sol K)) (upper lower : K) : Chan K → Prop
  | mk {loads : List K} {sizes : List ℕ} {last : K} : ds[sols.length]? = some last →
      Deferred (sols.map (·.L)) loads → Deferred (sols.map (·.U.length)) sizes →
      SendsCorr ds sols upper lower
        ([(0, .real upper), (1, .real lower), (2, .int sols.length)] ++
          corrHeadsOf 3 (ds.zip (loads.zip sizes)) ++
          [(3 + 3 * sols.length, .real last)] ++ vectors (4 + 3 * sols.length) sols)

end GsSA.MPI
