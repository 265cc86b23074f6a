import Verif.Driver.Parallel

/-!
# `solve`

The data of `_solve_impl` (`src/gsALMSolvers/gsAPALM.hpp` 506-931) as a server of the protocol, and the
loop without MPI.
-/

namespace GsSA.APALM

open GsSA

variable {K S : Type*} [Field K] [LinearOrder K]

/-- Members read by `_solve_impl`: `m_dataEmpty`, the argument `Nsteps`, `m_branchLengthMult`,
`m_bifLengthMult`. -/
structure SolveParams (K S : Type*) where
  empty : Data K S
  nSteps : ℤ
  branchMult : K
  bifMult : K

/-- `m_data` and the step counters `K` (`gsAPALM.hpp` 542-544, 828-829). -/
structure SolveState (K S : Type*) where
  data : Container K S
  cnt : List ℕ

/-- Result of an initiation, `gsAPALM.hpp` 634-637, 870-875. -/
structure InitRes (K S : Type*) where
  distance : K
  sols : List S
  bifurcation : Bool

/-- The second message of a result. -/
inductive Payload (K S : Type*)
  | init (r : InitRes K S)
  | corr (c : Corr K S)

/-- A new branch with a start point and the length for the steps from points; `gsAPALM.hpp` 558-561,
657-663, 846-849, 896-901. -/
def newBranch (p : SolveParams K S) (c : Container K S) (sol : S) (len : K) (priority : Bool) :
    Except Fail (Container K S) :=
  match addStartPoint p.empty 0 sol priority with
  | .error e => .error e
  | .ok d => .ok (c.add (setLength d len)).2

/-- The loop over `m_starts`, `gsAPALM.hpp` 550-562, 838-850: start solution and length. -/
def addStarts (p : SolveParams K S) : Container K S → List (S × K) → Except Fail (Container K S)
  | c, [] => .ok c
  | c, (s, len) :: l =>
    match newBranch p c s len false with
    | .error e => .error e
    | .ok c' => addStarts p c' l

/-- State before the loop: the branches already stored and the starts; `K` has one entry. -/
def solveStart (p : SolveParams K S) (c : Container K S) (starts : List (S × K)) :
    Except Fail (SolveState K S) :=
  match addStarts p c starts with
  | .error e => .error e
  | .ok c' => .ok ⟨c', [1]⟩

/-- `gsAPALM.hpp` 580-613, 698-733, 857-866, 912-915. -/
def solvePop (s : SolveState K S) : Except Fail (Item K S × SolveState K S) :=
  match s.data.getFirstNonEmptyBranch with
  | .error e => .error e
  | .ok k =>
    match s.data.branch k with
    | .error e => .error e
    | .ok d =>
      match takeJob d with
      | .error e => .error e
      | .ok (r, lv, ref, d') => .ok (⟨k, r, lv, ref⟩, ⟨s.data.set k d', s.cnt⟩)

/-- What follows the storing of an initiated point: a new initiation or a new branch;
`gsAPALM.hpp` 643-665, 881-903. `d` is the branch `br` after storing the point, `k` the counter before
the increment, `rest` the solutions behind the first, `almLen` is `m_ALM->getLength()`. -/
def advance (p : SolveParams K S) (almLen : K) (br id : ℕ) (bifurcation : Bool) (rest : List S) (k : ℕ)
    (d : Data K S) (s : SolveState K S) : Except Fail (SolveState K S) :=
  if (k : ℤ) < p.nSteps - 1 then
    if bifurcation then
      match rest with
      | [s₁] =>
        match newBranch p s.data s₁ (almLen * p.branchMult * p.bifMult) true with
        | .error e => .error e
        | .ok c => .ok ⟨c, s.cnt ++ [1]⟩
      | _ => .error .assert
    else
      match rest with
      | [] =>
        match appendPoint d true with
        | .error e => .error e
        | .ok d' =>
          .ok ⟨s.data.set br
            (if br ≠ 0 ∧ id = 0 then setLength d' (d'.dt / p.bifMult) else d'), s.cnt⟩
      | _ => .error .assert
  else .ok s

/-- Storing a result, `gsAPALM.hpp` 628-678, 866-925. The kind of the expected message follows from
`jobLevel`; a message of the other kind would be read with the wrong layout. `K[branch]` is not checked
(`operator[]` of a `std::vector`). -/
def solveSubmit (p : SolveParams K S) (almLen : K) (s : SolveState K S) (x : ℕ × ℕ × Payload K S) :
    Except Fail (SolveState K S) :=
  match s.data.branch x.1 with
  | .error e => .error e
  | .ok d₀ =>
    let d := (jobLevel d₀ x.2.1).2
    if (jobLevel d₀ x.2.1).1 = 0 then
      match x.2.2 with
      | .corr _ => .error .ub
      | .init r =>
        match r.sols with
        | [] => .error .ub
        | s₀ :: rest =>
          match storeInit d x.2.1 r.distance s₀ with
          | .error e => .error e
          | .ok d₁ =>
            match s.cnt[x.1]? with
            | none => .error .ub
            | some k =>
              advance p almLen x.1 x.2.1 r.bifurcation rest k d₁
                ⟨s.data.set x.1 d₁, s.cnt.set x.1 (k + 1)⟩
    else
      match x.2.2 with
      | .init _ => .error .ub
      | .corr c =>
        match storeCorr d x.2.1 c with
        | .error e => .error e
        | .ok d₁ => .ok ⟨s.data.set x.1 d₁, s.cnt⟩

/-- The main process of `_solve_impl<true>`. The solver of the main process is never used for a step, so
that its length is constant. -/
def solveServer (p : SolveParams K S) (almLen : K) :
    MPI.Server (SolveState K S) (Item K S) (ℕ × ℕ × Payload K S) where
  empty s := s.data.empty
  pop := solvePop
  submit := solveSubmit p almLen

/-- The loop of `_solve_impl<false>`, `gsAPALM.hpp` 854-929. `it` counts corrections only; the length of
the solver is read after the step. `none` if not finished within `fuel` iterations. -/
def solveSingle {A : Type*} (p : SolveParams K S) (getLen : A → K)
    (work : A → Item K S → (ℕ × ℕ × Payload K S) × A) (maxIt : ℕ) :
    ℕ → ℕ → A → SolveState K S → Option (Except Fail (SolveState K S × A))
  | 0, _, _, _ => none
  | fuel + 1, it, a, s =>
    if s.data.empty = true ∨ maxIt ≤ it then some (.ok (s, a))
    else
      match solvePop s with
      | .error e => some (.error e)
      | .ok (j, s₁) =>
        match solveSubmit p (getLen (work a j).2) s₁ (work a j).1 with
        | .error e => some (.error e)
        | .ok s₂ =>
          solveSingle p getLen work maxIt fuel (if j.level = 0 then it else it + 1) (work a j).2 s₂

end GsSA.APALM
