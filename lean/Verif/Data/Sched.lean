import Verif.Data.Spec

/-!
# Scheduled refinement of one branch

Executions in which the result submitted for a job is computed from the data that were handed out
for it, as all drivers of `gsAPALM.hpp` do (`parallelSolve_impl<true>` 248-428,
`parallelSolve_impl<false>` 430-472, `_solve_impl` 506-931). The order of hand-outs and
completions, and the number of jobs in flight, are arbitrary.
-/

namespace GsSA.APALM

open GsSA

variable {K S : Type*} [Field K] [LinearOrder K]

/-- Result of a correction: distances, solutions, upper and lower distance
(`_correction`, `gsAPALM.hpp` 1013-1165). -/
structure Corr (K S : Type*) where
  ds : List K
  sols : List S
  upper : K
  lower : K

/-- A correction as a function of what `pop` and `getReferenceByID` returned: length, start,
previous and reference solution. -/
abbrev Corrector (K S : Type*) := K → S → S → S → Corr K S

/-- Corrections within the contract of `submit`: one more distance than solutions, positive
distances, and all but the last distance reach the length of the interval. -/
def CorrOK (corr : Corrector K S) : Prop :=
  ∀ Dt start prev ref, 0 < Dt →
    (corr Dt start prev ref).ds.length = (corr Dt start prev ref).sols.length + 1 ∧
    (∀ x ∈ (corr Dt start prev ref).ds, 0 < x) ∧
    (Dt - (corr Dt start prev ref).ds.dropLast.sum) / Dt < 1 / 10 ^ 12

/-- A branch together with the jobs handed out and not yet completed: what `pop` returned and the
reference solution. -/
structure Sched (K S : Type*) where
  data : Data K S
  out : List (Popped K S × S)

/-- One step of a scheduled execution. The label is the list of appended points (distance from the
last point, solution). -/
inductive SStep (corr : Corrector K S) : Sched K S → List (K × S) → Sched K S → Prop
  /-- Hand out a job (`gsAPALM.hpp` 297-301, 357-361, 451-455). -/
  | pop {d d₁ d₂ : Data K S} {r : Popped K S} {ref : S} {out : List (Popped K S × S)} :
      pop d = .ok (r, d₁) → getReferenceByID d₁ r.id = (some ref, d₂) →
      SStep corr ⟨d, out⟩ [] ⟨d₂, out ++ [(r, ref)]⟩
  /-- Submit the result of a refinement job (`gsAPALM.hpp` 333-334, 466-467, 676-677, 924-925). -/
  | complete {d d' : Data K S} {r : Popped K S} {ref : S} {out₁ out₂ : List (Popped K S × S)} :
      0 < (jobLevel d r.id).1 →
      submit d r.id (corr r.dt r.start r.prev ref).ds (corr r.dt r.start r.prev ref).sols
        (corr r.dt r.start r.prev ref).upper (corr r.dt r.start r.prev ref).lower = .ok d' →
      SStep corr ⟨d, out₁ ++ (r, ref) :: out₂⟩ [] ⟨finishJob d' r.id, out₁ ++ out₂⟩
  /-- Finish a job of level 0 (`gsAPALM.hpp` 641, 878). -/
  | finish {d : Data K S} {r : Popped K S} {ref : S} {out₁ out₂ : List (Popped K S × S)} :
      (jobLevel d r.id).1 = 0 →
      SStep corr ⟨d, out₁ ++ (r, ref) :: out₂⟩ [] ⟨finishJob d r.id, out₁ ++ out₂⟩
  /-- Append a computed point behind the last one (`gsAPALM.hpp` 640, 877). -/
  | append {d d' : Data K S} {δ : K} {sol : S} {b : Bool} {out : List (Popped K S × S)} :
      0 < δ → appendData d (d.t.getLastD 0 + δ) sol b = .ok d' →
      SStep corr ⟨d, out⟩ [(δ, sol)] ⟨d', out⟩
  /-- Queue a job of level 0 at the last point (`gsAPALM.hpp` 648, 886). -/
  | appendPoint {d d' : Data K S} {b : Bool} {out : List (Popped K S × S)} :
      appendPoint d b = .ok d' → SStep corr ⟨d, out⟩ [] ⟨d', out⟩
  /-- Query the interval of a job (`gsAPALM.hpp` 310, 369, 457, 915). -/
  | times {d : Data K S} {r : Popped K S} {ref : S} {out : List (Popped K S × S)} :
      (r, ref) ∈ out → SStep corr ⟨d, out⟩ [] ⟨(jobTimes d r.id).2, out⟩
  | setLength {d : Data K S} {dt : K} {out : List (Popped K S × S)} :
      SStep corr ⟨d, out⟩ [] ⟨setLength d dt, out⟩

/-- Scheduled executions. -/
inductive SRun (corr : Corrector K S) : Sched K S → List (K × S) → Sched K S → Prop
  | nil (s : Sched K S) : SRun corr s [] s
  | cons {s₁ s₂ s₃ : Sched K S} {l₁ l₂ : List (K × S)} :
      SStep corr s₁ l₁ s₂ → SRun corr s₂ l₂ s₃ → SRun corr s₁ (l₁ ++ l₂) s₃

/-- No refinement job is waiting or active. -/
def Drained (d : Data K S) : Prop :=
  ∀ j ∈ d.queue ++ OMap.vals d.jobs, j.level = 0

end GsSA.APALM
