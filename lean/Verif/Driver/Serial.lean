import Verif.Driver.SolveInv

/-!
# `serialSolve`

`src/gsALMSolvers/gsAPALM.hpp` 122-218. An initiation is a function of length, start and previous
solution (`Initiator`).
-/

namespace GsSA.APALM

open GsSA

variable {K S : Type*} [Field K] [LinearOrder K]

/-- Entry of `m_starts` (`gsAPALM.h` 413): solution, length, does it come from a bifurcation? -/
structure Start (K S : Type*) where
  sol : S
  len : K
  bisected : Bool

/-- `while (k<Nsteps && !finished)`, `gsAPALM.hpp` 166-201, with `n = Nsteps - k` steps left. `len` is
`dL0`, `dL` the length of the next step, `s` the curve length. The result are the stored times and
solutions, and `tmpSolutions[1]` if the last step found a bifurcation. `tmpSolutions[0]` and
`tmpSolutions[1]` are not checked. -/
def serialSteps (ini : Initiator K S) (len : K) :
    ℕ → K → K → S → S → Except Fail (List (K × S) × Option S)
  | 0, _, _, _, _ => .ok ([], none)
  | n + 1, dL, s, old, prev =>
    match (ini dL old prev).sols with
    | [] => .error .ub
    | x :: rest =>
      if (ini dL old prev).bifurcation then
        match rest with
        | [] => .error .ub
        | y :: _ => .ok ([(s + (ini dL old prev).distance, x)], some y)
      else
        match serialSteps ini len n len (s + (ini dL old prev).distance) x old with
        | .error e => .error e
        | .ok (l, b) => .ok ((s + (ini dL old prev).distance, x) :: l, b)

/-- `gsAPALM.hpp` 193-195. -/
def newStarts (p : SolveParams K S) (len : K) : Option S → List (Start K S)
  | none => []
  | some y => [⟨y, len * p.branchMult, true⟩]

/-- One start, `gsAPALM.hpp` 141-201: the stored points and the start pushed to `m_starts`. -/
def serialBranch (p : SolveParams K S) (ini : Initiator K S) (st : Start K S) :
    Except Fail (List (K × S) × List (Start K S)) :=
  match serialSteps ini st.len (p.nSteps - 1).toNat
      (if st.bisected then st.len * p.bifMult else st.len) 0 st.sol st.sol with
  | .error e => .error e
  | .ok (l, b) =>
    .ok (if st.bisected then l else (0, st.sol) :: l, newStarts p st.len b)

/-- `while (!m_starts.empty())`, `gsAPALM.hpp` 141-216: `m_starts`, `m_data`, and
`m_times`/`m_solutions` (all levels are 0). `none` if there are starts left after `fuel` branches. -/
def serialLoop (p : SolveParams K S) (ini : Initiator K S) :
    ℕ → List (Start K S) → Container K S → List (List (K × S)) →
      Option (Except Fail (Container K S × List (List (K × S))))
  | _, [], c, out => some (.ok (c, out))
  | 0, _ :: _, _, _ => none
  | fuel + 1, st :: l, c, out =>
    match serialBranch p ini st with
    | .error e => some (.error e)
    | .ok (pts, new) =>
      match initData p.empty (pts.map Prod.fst) (pts.map Prod.snd) with
      | .error e => some (.error e)
      | .ok d => serialLoop p ini fuel (l ++ new) (c.add d).2 (out ++ [pts])

/-- `serialSolve(Nsteps)`, `gsAPALM.hpp` 122-218. -/
def serialSolve (p : SolveParams K S) (ini : Initiator K S) (fuel : ℕ) (starts : List (Start K S))
    (c : Container K S) (out : List (List (K × S))) :
    Option (Except Fail (Container K S × List (List (K × S)))) :=
  if starts = [] then some (.error .assert) else serialLoop p ini fuel starts c out

end GsSA.APALM
