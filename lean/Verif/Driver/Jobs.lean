import Verif.Data.Sched
import Verif.Driver.Container

/-!
# Taking out a job and storing its result

The calls on `m_data.branch(...)` which the loops of `gsAPALM.hpp` make around a job.
-/

namespace GsSA.APALM

open GsSA

variable {K S : Type*} [Field K] [LinearOrder K]

/-- What is handed out for a job: `pop`, `jobLevel`, `getReferenceByID`, `jobTimes`;
`gsAPALM.hpp` 297-312 and 451-457 (all jobs are corrections). The result is the entry, the level, the
reference and the new data. -/
def takeCorr (d : Data K S) : Except Fail (Popped K S × ℕ × S × Data K S) :=
  match pop d with
  | .error e => .error e
  | .ok (r, d₁) =>
    let (lv, d₂) := jobLevel d₁ r.id
    match getReferenceByID d₂ r.id with
    | (none, _) => .error .ensure
    | (some ref, d₃) => .ok (r, lv, ref, (jobTimes d₃ r.id).2)

/-- The same in `_solve_impl`, `gsAPALM.hpp` 581-613, 700-733, 859-866, 912-915: a job of level 0 is
an initiation, has no reference, and only its start time is read. The start solution stands for the
missing reference. -/
def takeJob (d : Data K S) : Except Fail (Popped K S × ℕ × S × Data K S) :=
  match pop d with
  | .error e => .error e
  | .ok (r, d₁) =>
    let (lv, d₂) := jobLevel d₁ r.id
    if lv = 0 then .ok (r, 0, r.start, (jobStartTime d₂ r.id).2)
    else
      match getReferenceByID d₂ r.id with
      | (none, _) => .error .ensure
      | (some ref, d₃) => .ok (r, lv, ref, (jobTimes d₃ r.id).2)

/-- Storing the result of a correction, `gsAPALM.hpp` 333-334, 466-467, 676-677, 924-925. -/
def storeCorr (d : Data K S) (id : ℕ) (c : Corr K S) : Except Fail (Data K S) :=
  match submit d id c.ds c.sols c.upper c.lower with
  | .error e => .error e
  | .ok d' => .ok (finishJob d' id)

/-- Storing the point found by an initiation, `gsAPALM.hpp` 639-641, 877-878. -/
def storeInit (d : Data K S) (id : ℕ) (distance : K) (sol : S) : Except Fail (Data K S) :=
  match appendData (jobStartTime d id).2 ((jobStartTime d id).1 + distance) sol false with
  | .error e => .error e
  | .ok d' => .ok (finishJob d' id)

end GsSA.APALM
