import Mathlib.Algebra.Order.Field.Basic
import Verif.Base.Status
import Verif.Base.OMap

/-!
# Model of `gsAPALMData`

`src/gsALMSolvers/gsAPALMData.h` and `gsAPALMData.hpp`: the data of one branch of the
adaptive-parallel arc-length method. Parametric values and times are elements of a linearly
ordered field `K` (exact arithmetic), solutions are elements of an arbitrary type `S`.
`std::shared_ptr` is not modelled: the code always stores fresh copies.
-/

namespace GsSA.APALM

open GsSA

/-- Entry of `m_queue` and of `m_jobs`: `std::tuple<T,T,index_t>` = (xilow, xiupp, level).
`gsAPALMData.h` 156-162. Levels are natural numbers (the code only creates levels 0, 1 and
`level+1`). -/
structure Job (K : Type*) where
  lo : K
  hi : K
  level : ℕ
  deriving DecidableEq, Repr

/-- The members of `gsAPALMData`, `gsAPALMData.h` 128-168. `optMaxLevel`, `optTol` stand for the
entries of `m_options`, which only become effective through `_applyOptions`. A negative `MaxLevel`
behaves as 0 and is not distinguished. -/
structure Data (K S : Type*) where
  maxLevel : ℕ
  tol : K
  dt : K
  initialized : Bool
  sols : OMap K S
  prevs : OMap K S
  levels : OMap K ℕ
  tmap : OMap K K
  ximap : OMap K K
  xi : List K
  t : List K
  queue : List (Job K)
  jobs : OMap ℕ (Job K)
  nextID : ℕ
  optMaxLevel : ℕ
  optTol : K

variable {K S : Type*} [Field K] [LinearOrder K]

/-- Default constructor, `gsAPALMData.hpp` 19-26 with `_defaultOptions` 57-66 (`MaxLevel` 5,
`Tolerance` 0.1); `m_dt` as set by `setLength`. -/
def Data.fresh (maxLevel : ℕ) (tol dt : K) : Data K S where
  maxLevel := maxLevel
  tol := tol
  dt := dt
  initialized := false
  sols := []
  prevs := []
  levels := []
  tmap := []
  ximap := []
  xi := []
  t := []
  queue := []
  jobs := []
  nextID := 0
  optMaxLevel := maxLevel
  optTol := tol

/-- `gsKnotVector::insert(knot)` (G+Smo core): sorted insertion. -/
def knotInsert : List K → K → List K
  | [], x => [x]
  | a :: l, x => if x ≤ a then x :: a :: l else a :: knotInsert l x

/-- `gsKnotVector::addConstant(start, amount)` (G+Smo core): adds `amount` to all knots from
`start` on. -/
def addConstant (l : List K) (start amount : K) : List K :=
  l.map fun x => if start ≤ x then x + amount else x

/-- `_applyOptions`, `gsAPALMData.hpp` 68-74. -/
def applyOptions (d : Data K S) : Data K S :=
  { d with maxLevel := d.optMaxLevel, tol := d.optTol }

/-- `_buildMap`, `gsAPALMData.hpp` 571-582. -/
def buildMap (d : Data K S) : Except Fail (Data K S) :=
  if d.xi.length = d.t.length then
    .ok { d with
      tmap := (d.xi.zip d.t).foldl (fun m p => OMap.insertNew m p.1 p.2) []
      ximap := (d.xi.zip d.t).foldl (fun m p => OMap.insertNew m p.2 p.1) [] }
  else .error .assert

/-- The list of consecutive pairs at level 1 pushed by `init()`, `gsAPALMData.hpp` 85-92. -/
def pairJobs : List K → List (Job K)
  | a :: b :: l => ⟨a, b, 1⟩ :: pairJobs (b :: l)
  | _ => []

/-- `init()`, `gsAPALMData.hpp` 77-97. `std::prev(m_xi.end())` of an empty knot vector is
undefined behaviour. -/
def initQueue (d : Data K S) : Except Fail (Data K S) :=
  if d.xi = [] then .error .ub
  else do
    let d' ← buildMap { applyOptions d with queue := pairJobs d.xi }
    return { d' with initialized := true }

/-- `push_front` if `priority`, `push_back` otherwise. -/
def pushJob (q : List (Job K)) (j : Job K) (priority : Bool) : List (Job K) :=
  if priority then j :: q else q ++ [j]

/-- `addStartPoint`, `gsAPALMData.hpp` 99-122. (The map insertions at key 0 cannot find an
existing key when the knot vectors are empty and the maps are consistent with them; `insertNew`
keeps an existing value as the C++ does.) Note that `_buildMap` is not called. -/
def addStartPoint (d : Data K S) (time : K) (sol : S) (priority : Bool) : Except Fail (Data K S) :=
  if d.t.length ≠ d.xi.length then .error .assert
  else if d.t.length ≠ 0 then .error .assert
  else
    let sols := OMap.insertNew d.sols 0 sol
    match OMap.get? sols 0 with
    | none => .error .ub
    | some s0 =>
      .ok { applyOptions d with
        t := knotInsert d.t time
        xi := knotInsert d.xi 0
        sols := sols
        levels := OMap.insertNew d.levels 0 0
        prevs := OMap.insertNew d.prevs 0 s0
        queue := pushJob d.queue ⟨0, 0, 0⟩ priority
        initialized := true }

/-- `appendPoint`, `gsAPALMData.hpp` 124-133; `m_xi.last()` on an empty knot vector is undefined. -/
def appendPoint (d : Data K S) (priority : Bool) : Except Fail (Data K S) :=
  match d.xi.getLast? with
  | none => .error .ub
  | some x => .ok { d with
      queue := pushJob d.queue ⟨x, x, 0⟩ priority
      initialized := true }

/-- `appendData`, `gsAPALMData.hpp` 135-175. -/
def appendData (d : Data K S) (time : K) (sol : S) (priority : Bool) : Except Fail (Data K S) :=
  if d.t.length ≠ d.xi.length then .error .assert
  else match d.t, d.xi with
  | [], _ =>
    let sols := OMap.insertNew d.sols 0 sol
    match OMap.get? sols 0 with
    | none => .error .ub
    | some s0 =>
      buildMap { d with
        sols := sols
        levels := OMap.insertNew d.levels 0 0
        prevs := OMap.insertNew d.prevs 0 s0
        t := knotInsert d.t time
        xi := knotInsert d.xi 0 }
  | _ :: _, [] => .error .assert
  | t0 :: t', x0 :: x' =>
    let tl := (t0 :: t').getLast (by simp)
    let xl := (x0 :: x').getLast (by simp)
    if ¬ tl < time then .error .assert
    else
      let xi : K := if t' = [] then 1 else (time - tl) * (xl - x0) / (tl - t0) + xl
      let sols := OMap.insertNew d.sols xi sol
      match OMap.get? sols xl with
      | none => .error .ub
      | some sp =>
        buildMap { d with
          sols := sols
          levels := OMap.insertNew d.levels xi 0
          prevs := OMap.insertNew d.prevs xi sp
          queue := pushJob d.queue ⟨xl, xi, 1⟩ priority
          initialized := true
          t := knotInsert d.t time
          xi := knotInsert d.xi xi }

/-- The loop of `setData`, `gsAPALMData.hpp` 189-197, over (parameter, solution) pairs; `prev` is
the previous parameter. -/
def setDataLoop (d : Data K S) (prev : K) : List (K × S) → Except Fail (Data K S)
  | [] => .ok d
  | (x, s) :: l =>
    let sols := OMap.insertNew d.sols x s
    match OMap.get? sols prev with
    | none => .error .ub
    | some sp =>
      setDataLoop { d with
        sols := sols
        levels := OMap.insertNew d.levels x 0
        prevs := OMap.insertNew d.prevs x sp } x l

/-- `m_xi = m_t; m_xi.transform(0,1)`, `gsAPALMData.hpp` 181-182 (`gsKnotVector::transform` of
G+Smo: affine map of the first knot to 0 and the last to 1). -/
def unitKnots (times : List K) : List K :=
  match times with
  | [] => []
  | a :: l => (a :: l).map fun t => (t - a) / ((a :: l).getLast (by simp) - a)

/-- `setData`, `gsAPALMData.hpp` 177-198. `solutions.at(k)` throws when there are fewer solutions
than times; more solutions than times are ignored. Times are expected sorted
(`gsKnotVector` constructor). If the first and last time coincide `transform` divides by zero:
outside the model. -/
def setData (d : Data K S) (times : List K) (solutions : List S) : Except Fail (Data K S) :=
  if solutions.length < times.length then .error .exc
  else if times.head? = times.getLast? then .error .ub
  else match unitKnots times, solutions with
  | [], _ => .error .exc
  | _ :: _, [] => .error .exc
  | x0 :: xs, s0 :: ss =>
    let d := { d with t := times, xi := x0 :: xs }
    let sols := OMap.insertNew d.sols x0 s0
    match OMap.get? sols x0 with
    | none => .error .ub
    | some sp =>
      setDataLoop { d with
        sols := sols
        levels := OMap.insertNew d.levels x0 0
        prevs := OMap.insertNew d.prevs x0 sp } x0 (xs.zip ss)

/-- `init(times, solutions)`, `gsAPALMData.hpp` 207-212. -/
def initData (d : Data K S) (times : List K) (solutions : List S) : Except Fail (Data K S) := do
  let d' ← setData d times solutions
  initQueue d'

/-- What `pop` returns: (ID, dt, start, prev). -/
structure Popped (K S : Type*) where
  id : ℕ
  dt : K
  start : S
  prev : S
  deriving DecidableEq, Repr

/-- `pop`, `gsAPALMData.hpp` 214-252. -/
def pop (d : Data K S) : Except Fail (Popped K S × Data K S) :=
  if !d.initialized then .error .assert
  else match d.queue with
  | [] => .error .assert
  | j :: q =>
    let (tlow, m₁) := OMap.index d.tmap j.lo 0
    let (tupp, m₂) := OMap.index m₁ j.hi 0
    let dt := if j.lo = j.hi ∧ j.level = 0 then d.dt else tupp - tlow
    match OMap.get? d.sols j.lo, OMap.get? d.prevs j.lo with
    | some start, some prev =>
      .ok (⟨d.nextID, dt, start, prev⟩,
        { d with
          queue := q
          tmap := m₂
          jobs := OMap.set d.jobs d.nextID j
          nextID := d.nextID + 1 })
    | _, _ => .error .assert

/-- `m_jobs[ID]` with default insertion of `(0,0,0)`. -/
def jobIndex (d : Data K S) (id : ℕ) : Job K × Data K S :=
  let (j, m) := OMap.index d.jobs id ⟨0, 0, 0⟩
  (j, { d with jobs := m })

/-- `getReferenceByTime`, `gsAPALMData.hpp` 254-264: result (if `true` is returned) and new
state. -/
def getReferenceByTime (d : Data K S) (time : K) : Option S × Data K S :=
  let (x, m) := OMap.index d.ximap time 0
  (OMap.get? d.sols x, { d with ximap := m })

/-- `getReferenceByPar`, `gsAPALMData.hpp` 266-276. -/
def getReferenceByPar (d : Data K S) (xi : K) : Option S := OMap.get? d.sols xi

/-- `getReferenceByID`, `gsAPALMData.hpp` 278-288. -/
def getReferenceByID (d : Data K S) (id : ℕ) : Option S × Data K S :=
  let (j, d') := jobIndex d id
  (OMap.get? d.sols j.hi, d')

/-- `jobStartTime`, `gsAPALMData.hpp` 435-439. -/
def jobStartTime (d : Data K S) (id : ℕ) : K × Data K S :=
  let (j, d') := jobIndex d id
  let (x, m) := OMap.index d'.tmap j.lo 0
  (x, { d' with tmap := m })

/-- `jobStartPar`, `gsAPALMData.hpp` 441-445. -/
def jobStartPar (d : Data K S) (id : ℕ) : K × Data K S :=
  let (j, d') := jobIndex d id
  (j.lo, d')

/-- `jobTimes`, `gsAPALMData.hpp` 447-454. -/
def jobTimes (d : Data K S) (id : ℕ) : (K × K) × Data K S :=
  let (j, d') := jobIndex d id
  let (x, m₁) := OMap.index d'.tmap j.lo 0
  let (y, m₂) := OMap.index m₁ j.hi 0
  ((x, y), { d' with tmap := m₂ })

/-- `jobPars`, `gsAPALMData.hpp` 456-462. -/
def jobPars (d : Data K S) (id : ℕ) : (K × K) × Data K S :=
  let (j, d') := jobIndex d id
  ((j.lo, j.hi), d')

/-- `jobLevel`, `gsAPALMData.hpp` 464-468. -/
def jobLevel (d : Data K S) (id : ℕ) : ℕ × Data K S :=
  let (j, d') := jobIndex d id
  (j.level, d')

/-- The time vector `t` of `submit`, `gsAPALMData.hpp` 328-332: `[tlow, tlow+d₀, …]`. -/
def submitTimes (tlow : K) (distances : List K) : List K :=
  List.scanl (· + ·) tlow distances

/-- The vector `xi` of `submit`, `gsAPALMData.hpp` 356-361. -/
def submitPars (xilow xiupp dt : K) (t : List K) : List K :=
  xilow :: (t.tail.dropLast.map fun tk => xilow + (xiupp - xilow) * (tk - t.headD 0) / dt)
    ++ [xiupp]

/-- Body of the push loop of `submit`, `gsAPALMData.hpp` 394: `xi.at` throws out of range. -/
def pushAt (xi : List K) (level k : ℕ) : Except Fail (Job K) :=
  match xi[k - 1]?, xi[k]? with
  | some a, some b => .ok ⟨a, b, level + 1⟩
  | _, _ => .error .exc

/-- The loop `for (k = kmin; k != kmax; k++)` of `submit`, `gsAPALMData.hpp` 390-402. A start
beyond the end never terminates regularly; `xi.at` throws out of range. -/
def submitPush (xi : List K) (level maxLevel : ℕ) (kmin kmax : ℕ) : Except Fail (List (Job K)) :=
  if kmax < kmin then .error .ub
  else if level < maxLevel then
    (List.range' kmin (kmax - kmin)).mapM (pushAt xi level)
  else .ok []

/-- The loop storing solutions and levels, `gsAPALMData.hpp` 419-424, over (parameter, solution). -/
def submitStore (level : ℕ) : List (K × S) → OMap K S → OMap K ℕ → OMap K S × OMap K ℕ
  | [], ms, ml => (ms, ml)
  | (x, s) :: l, ms, ml => submitStore level l (OMap.set ms x s) (OMap.set ml x level)

/-- The loop storing previous solutions, `gsAPALMData.hpp` 426-431: `xprev` is `xi.at(k-1)`. -/
def submitPrevs (sols : OMap K S) (xprev : K) : List K → OMap K S → Except Fail (OMap K S)
  | [], mp => .ok mp
  | x :: l, mp =>
    match OMap.get? sols xprev with
    | none => .error .ub
    | some s => submitPrevs sols x l (OMap.set mp x s)

/-- `submit`, `gsAPALMData.hpp` 290-433. `std::accumulate` over all but the last distance,
`GISMO_ENSURE((Dt-dt_tmp)/Dt<1e-12)`. A zero `Dt` or `dt` (division by zero, NaN) is reported as
`ub`, outside the model. -/
def submit (d : Data K S) (id : ℕ) (distances : List K) (solutions : List S)
    (upperDistance lowerDistance : K) : Except Fail (Data K S) :=
  if !d.initialized then .error .assert
  else if distances.length ≠ solutions.length + 1 then .error .assert
  else
    let (j, d) := jobIndex d id
    let (tlow, m₁) := OMap.index d.tmap j.lo 0
    let (tupp, _) := OMap.index m₁ j.hi 0
    let Dt := tupp - tlow
    let t := submitTimes tlow distances
    let dtTmp := distances.dropLast.sum
    if Dt = 0 then .error .ub
    else if ¬ (Dt - dtTmp) / Dt < 1 / 10 ^ 12 then .error .ensure
    else
      let dt := t.getLastD 0 - tlow
      if dt = 0 then .error .ub
      else
        let totalError := dt - upperDistance
        let lowerError := Dt - lowerDistance
        let upperError := totalError - lowerError
        let xi := submitPars j.lo j.hi dt t
        let kmin := if lowerError / Dt < d.tol then xi.length - 1 else 1
        let kmax := if upperError / Dt < d.tol then xi.length - 1 else xi.length
        match submitPush xi j.level d.maxLevel kmin kmax with
        | .error e => .error e
        | .ok new =>
          let tKnots := (t.tail.dropLast).foldl knotInsert (addConstant d.t tupp (dt - Dt))
          let xiKnots := (xi.tail.dropLast).foldl knotInsert d.xi
          match buildMap { d with queue := d.queue ++ new, t := tKnots, xi := xiKnots } with
          | .error e => .error e
          | .ok d =>
            let interior := xi.tail.dropLast
            let (ms, ml) := submitStore j.level (interior.zip solutions) d.sols d.levels
            match submitPrevs ms j.lo interior d.prevs with
            | .error e => .error e
            | .ok mp => .ok { d with sols := ms, levels := ml, prevs := mp }

/-- `finishJob`, `gsAPALMData.hpp` 479-492 (verbosity 0). -/
def finishJob (d : Data K S) (id : ℕ) : Data K S := { d with jobs := OMap.erase d.jobs id }

/-- `empty`, `gsAPALMData.hpp` 494-498. -/
def isEmpty (d : Data K S) : Bool := d.queue.isEmpty

/-- One line of the flat solution: time, solution and level. -/
structure FlatPoint (K S : Type*) where
  time : K
  sol : S
  level : ℕ
  deriving DecidableEq, Repr

/-- The loop of `getFlatSolution`, `gsAPALMData.hpp` 507-518. The three vectors that the C++ fills
in lockstep are modelled as one list of triples. `m_levels[·]` and `m_tmap[·]` default-insert. -/
def flatLoop (filter : Option ℕ) :
    List (K × S) → OMap K ℕ → OMap K K → List (FlatPoint K S) × OMap K ℕ × OMap K K
  | [], ml, mt => ([], ml, mt)
  | (x, s) :: l, ml, mt =>
    let (lv, ml) := OMap.index ml x 0
    if filter = none ∨ filter = some lv then
      let (tx, mt) := OMap.index mt x 0
      let (r, ml, mt) := flatLoop filter l ml mt
      (⟨tx, s, lv⟩ :: r, ml, mt)
    else flatLoop filter l ml mt

/-- `getFlatSolution(level)`, `gsAPALMData.hpp` 500-520; `none` is the default level -1. -/
def getFlatSolution (d : Data K S) (filter : Option ℕ) : List (FlatPoint K S) × Data K S :=
  let (r, ml, mt) := flatLoop filter d.sols d.levels d.tmap
  (r, { d with levels := ml, tmap := mt })

/-- `nActive`, `gsAPALMData.h` 116. -/
def nActive (d : Data K S) : ℕ := d.jobs.length

/-- `nWaiting`, `gsAPALMData.h` 117. -/
def nWaiting (d : Data K S) : ℕ := d.queue.length

/-- `setLength`, `gsAPALMData.h` 121. -/
def setLength (d : Data K S) (dt : K) : Data K S := { d with dt := dt }

end GsSA.APALM
