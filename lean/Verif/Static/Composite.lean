import Verif.Static.Newton
import Verif.Static.DR

/-!
# `gsStaticComposite`, `gsControlDisplacement` and `gsStaticOpt`
-/

namespace GsSA.Static

open GsSA
open GsSA.ALM (Act Err Event)

/-- The virtual functions of `gsStaticBase` (`gsStaticBase.h` 50-144) which the classes below call, for
objects with states in `A`. `solve` returns a status or, with `none`, lets an exception escape; the state is
the one at the end. Objects of different classes are obtained with a sum type for `A`. -/
structure Solver (K V A : Type) where
  solve : A → A × Option Status
  solution : A → V
  update : A → V
  iterations : A → ℕ
  setUpdate : A → V → A
  setDisplacement : A → V → A
  setLoad : A → K → A
  reset : A → A

variable {K V A : Type}

/-! ## `gsStaticComposite` -/

/-- The members of `gsStaticComposite` and the objects its pointers refer to; two pointers may be equal.
`ran` is a ghost: the states of the stages after their solve, oldest first. -/
structure CSt (V A : Type) where
  heap : ℕ → A
  U : V
  DU : V
  numIt : ℕ
  status : Status
  ran : List A

namespace Composite

/-- `*p = x`. -/
def put (h : ℕ → A) (p : ℕ) (x : A) : ℕ → A := fun q => if q = p then x else h q

/-- `if (k>0) m_solvers[k]->setUpdate(m_solvers[k-1]->update());`, `gsStaticComposite.hpp` 31-34. -/
def prepare (S : Solver K V A) (h : ℕ → A) (prev : Option ℕ) (p : ℕ) : ℕ → A :=
  match prev with
  | none => h
  | some q => put h p (S.setUpdate (h p) (S.update (h q)))

/-- The loop, `gsStaticComposite.hpp` 26-45; `prev` is the pointer of the stage before. -/
def stages (S : Solver K V A) : Option ℕ → List ℕ → CSt V A → CSt V A × Option Status
  | _, [], s => (s, some s.status)
  | prev, p :: ps, s =>
    if s.status = .success then
      let h := prepare S s.heap prev p
      match S.solve (h p) with
      | (x, none) => ({ s with heap := put h p x, ran := s.ran ++ [x] }, none)
      | (x, some .success) =>
        stages S (some p) ps
          { heap := put h p x, U := S.solution x, DU := S.update x
            numIt := s.numIt + S.iterations x, status := .success, ran := s.ran ++ [x] }
      | (x, some st) =>
        stages S (some p) ps { s with heap := put h p x, status := st, ran := s.ran ++ [x] }
    else (s, some s.status)

/-- `solve`, `gsStaticComposite.hpp` 21-47. -/
def solve (S : Solver K V A) (ps : List ℕ) (s : CSt V A) : CSt V A × Option Status :=
  stages S none ps { s with numIt := 0, status := .success, ran := [] }

/-- The loops over all solvers, `gsStaticComposite.hpp` 50-54, 83-115. -/
def each (f : A → A) (ps : List ℕ) (s : CSt V A) : CSt V A :=
  { s with heap := ps.foldl (fun h p => put h p (f (h p))) s.heap }

/-- `setDisplacement`, `gsStaticComposite.hpp` 83-87. -/
def setDisplacement (S : Solver K V A) (ps : List ℕ) (s : CSt V A) (U : V) : CSt V A :=
  each (fun x => S.setDisplacement x U) ps s

/-- `setLoad`, `gsStaticComposite.hpp` 90-94. -/
def setLoad (S : Solver K V A) (ps : List ℕ) (s : CSt V A) (L : K) : CSt V A :=
  each (fun x => S.setLoad x L) ps s

/-- `setUpdate`, `gsStaticComposite.hpp` 104-108. -/
def setUpdate (S : Solver K V A) (ps : List ℕ) (s : CSt V A) (d : V) : CSt V A :=
  each (fun x => S.setUpdate x d) ps s

/-- `reset`, `gsStaticComposite.hpp` 111-115. -/
def reset (S : Solver K V A) (ps : List ℕ) (s : CSt V A) : CSt V A := each S.reset ps s

/-- A composite solver is a static solver itself. -/
def solver (S : Solver K V A) (ps : List ℕ) : Solver K V (CSt V A) where
  solve := solve S ps
  solution s := s.U
  update s := s.DU
  iterations s := s.numIt
  setUpdate := setUpdate S ps
  setDisplacement := setDisplacement S ps
  setLoad := setLoad S ps
  reset := reset S ps

end Composite

/-! ## `gsControlDisplacement` -/

/-- The members of `gsControlDisplacement` and the solver it points to. -/
structure DCSt (K V A : Type) where
  x : A
  L : K
  U : V
  first : Bool
  status : Option Status

namespace Control

variable [Add K] [Zero K] [Add V] [Zero V]

/-- Constructor, `gsControlDisplacement.h` 38-44. -/
def ctor (x : A) : DCSt K V A := ⟨x, 0, 0, true, none⟩

/-- `step`, `gsControlDisplacement.h` 46-60. An exception from the solver escapes. -/
def step (S : Solver K V A) (s : DCSt K V A) (dL : K) : DCSt K V A × Option Status :=
  let x := S.setLoad s.x (s.L + dL)
  let x := if s.first then x else S.setDisplacement x s.U
  match S.solve x with
  | (y, none) => ({ s with x := y, first := false }, none)
  | (y, some .success) =>
    ({ x := y, L := s.L + dL, U := s.U + S.update y, first := false, status := some .success },
      some .success)
  | (y, some st) => ({ s with x := y, first := false, status := some st }, some st)

/-- `reset`, `gsControlDisplacement.h` 75-78. -/
def reset (S : Solver K V A) (s : DCSt K V A) : DCSt K V A := { s with x := S.reset s.x }

/-- `setZero`, `gsControlDisplacement.h` 80-86. -/
def setZero (S : Solver K V A) (s : DCSt K V A) : DCSt K V A :=
  { s with x := S.setLoad (S.reset s.x) 0, U := 0, L := 0 }

/-- A sequence of steps; the second component has the outcome and the update of the solver for each. -/
def run (S : Solver K V A) : List K → DCSt K V A → DCSt K V A × List (K × Option Status × V)
  | [], s => (s, [])
  | d :: ds, s =>
    let (t, r) := step S s d
    let (u, l) := run S ds t
    (u, (d, r, S.update t.x) :: l)

end Control

/-! ## `gsStaticOpt` -/

/-- The members of `gsStaticOpt` which are used. -/
structure OSt (K V : Type) where
  U : V
  DU : V
  L : K
  numIt : ℕ
  status : Status

namespace Opt

variable [Add V] [Sub V] [Zero V]

/-- `solve`, `gsStaticOpt.hpp` 91-102. The optimizer is given by what `currentDesign()` and `iterations()`
return after it was started from a design with a load factor (the problem refers to `m_L`). -/
def solve (opt : K → V → V × ℕ) (s : OSt K V) : OSt K V × Status :=
  let r := opt s.L (s.U + s.DU)
  let d := r.1 - s.U
  ({ s with DU := d, U := s.U + d, numIt := r.2 }, .success)

/-- `_init`, `gsStaticOpt.hpp` 39-52. -/
def init (s : OSt K V) : OSt K V := { s with U := 0, DU := 0, status := .notStarted, numIt := 0 }

/-- Constructor with an `ALResidual_t`, `gsStaticOpt.h` 181-189. -/
def ctorAL [One K] (s : OSt K V) : OSt K V := init { s with L := 1 }

/-- `converged()`, `gsStaticBase.h` 127. -/
def converged (s : OSt K V) : Bool := decide (s.status = .success)

/-- `gsStaticOpt` as a solver; `reset` is that of `gsStaticBase.h` 136-144. -/
def solver [Zero K] (opt : K → V → V × ℕ) : Solver K V (OSt K V) where
  solve s := ((solve opt s).1, some (solve opt s).2)
  solution s := s.U
  update s := s.DU
  iterations s := s.numIt
  setUpdate s d := { s with DU := d }
  setDisplacement s U := { s with U := U }
  setLoad s L := { s with L := L }
  reset s := { s with U := 0, DU := 0, L := 0 }

/-- `gsOptProblemStatic::evalObj`, `gsStaticOpt.h` 93-98: the result of the residual callback is ignored;
`none` means that it failed and left `result` empty, the norm of which is 0. -/
def evalObj [Zero K] (norm : V → K) (residual : V → Option V) (u : V) : K :=
  match residual u with
  | some R => norm R
  | none => 0

/-- `gsOptProblemStatic::gradObj_into`, `gsStaticOpt.h` 106-112, for a successful residual. -/
def gradObj [Neg V] (residual : V → Option V) (u : V) : Option V := (residual u).map fun R => -R

end Opt

/-! ## The solvers as objects -/

section

variable {Mat ι : Type} [Field K] [LinearOrder K] [AddCommGroup V] [Module K V] [Fintype ι]

/-- A Newton solver. -/
def Newton.solver (e : NEnv K V Mat) (o : Opts K) : Solver K V (NSt K V) where
  solve s := ((Newton.solve e o s).2, some (Newton.solve e o s).1)
  solution s := s.U
  update s := s.upd
  iterations s := s.numIt
  setUpdate s d := Newton.setUpdate s (some d)
  setDisplacement := Newton.setDisplacement
  setLoad := Newton.setLoad
  reset := Newton.reset

/-- A dynamic relaxation solver. -/
def DR.solver (e : DREnv K ι) (o : DROpts K) : Solver K (ι → K) (DRSt K ι) where
  solve s := match DR.solve e o s with
    | (t, .ok st) => (t, some st)
    | (t, .error _) => (t, none)
  solution s := s.U
  update s := s.DU
  iterations s := s.numIt
  setUpdate := DR.setUpdate
  setDisplacement := DR.setDisplacement
  setLoad := DR.setLoad
  reset := DR.reset e

end

end GsSA.Static
