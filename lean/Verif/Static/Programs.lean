import Verif.Static.Composite

/-!
# The programs for static analysis

`solvers/static_shell_XML.cpp`, `solvers/static_shell_multipatch_XML.cpp`, `examples/gsThinShell_Static_XML.cpp`,
`examples/example_StaticSolvers.cpp`, `benchmarks/benchmark_MaterialTestConv.cpp`,
`tutorials/nonlinear_shell_static.cpp` and `tutorials/nonlinear_solid_static.cpp`, from the construction of the
solvers to the vector which is written. Reading the input, assembly and output files are outside.
-/

namespace GsSA.Static

open GsSA
open GsSA.ALM (Act Err Event)

variable {K V A B : Type}

/-- Objects of two classes. -/
def Solver.sum (S : Solver K V A) (T : Solver K V B) : Solver K V (A ⊕ B) where
  solve
    | .inl a => (.inl (S.solve a).1, (S.solve a).2)
    | .inr b => (.inr (T.solve b).1, (T.solve b).2)
  solution
    | .inl a => S.solution a
    | .inr b => T.solution b
  update
    | .inl a => S.update a
    | .inr b => T.update b
  iterations
    | .inl a => S.iterations a
    | .inr b => T.iterations b
  setUpdate
    | .inl a, d => .inl (S.setUpdate a d)
    | .inr b, d => .inr (T.setUpdate b d)
  setDisplacement
    | .inl a, U => .inl (S.setDisplacement a U)
    | .inr b, U => .inr (T.setDisplacement b U)
  setLoad
    | .inl a, L => .inl (S.setLoad a L)
    | .inr b, L => .inr (T.setLoad b L)
  reset
    | .inl a => .inl (S.reset a)
    | .inr b => .inr (T.reset b)

namespace Prog

/-- How a program ends: by an exception (also that of `GISMO_ENSURE` and `GISMO_ASSERT`), or with the vector from
which the output is made. -/
inductive Ended (V : Type) where
  | aborted
  | wrote (u : V)
deriving DecidableEq

section

variable {Mat ι : Type} [Field K] [LinearOrder K] [Fintype ι]

/-- `initialize()` of the objects, `gsStaticBase.h` 54-58 and `gsStaticDR.hpp` 147-154. -/
def initObj (d : DREnv K ι) (p : DROpts K) : NSt K (ι → K) ⊕ DRSt K ι → NSt K (ι → K) ⊕ DRSt K ι
  | .inl s => .inl (Newton.initializeSolver s)
  | .inr s => .inr (DR.initializeSolver d p s)

/-- The classes of the objects: Newton solvers and dynamic relaxation. -/
def classes (e : NEnv K (ι → K) Mat) (o : Opts K) (d : DREnv K ι) (p : DROpts K) :
    Solver K (ι → K) (NSt K (ι → K) ⊕ DRSt K ι) :=
  (Newton.solver e o).sum (DR.solver d p)

/-- `LIN` (0), `DRM` (1) and `NRM` (2), `static_shell_XML.cpp` 272-279; `a`, `b` and `c` have the uninitialised
members. -/
def objects (d : DREnv K ι) (a b : NSt K (ι → K)) (c : DRSt K ι) : ℕ → NSt K (ι → K) ⊕ DRSt K ι
  | 0 => .inl (Newton.ctorLinear a)
  | 1 => .inr (DR.ctor d c)
  | _ => .inl (Newton.ctor b)

/-- The vector `solvers`, `static_shell_XML.cpp` 281-291. -/
def pointers (dr nr : Bool) : List ℕ := 0 :: ((if dr then [1] else []) ++ if nr then [2] else [])

/-- The composite solver after `initialize()`, `static_shell_XML.cpp` 292-293. `empty` is its solution vector,
which has no entries before a stage has succeeded. -/
def ready (d : DREnv K ι) (p : DROpts K) (dr nr : Bool) (a b : NSt K (ι → K)) (c : DRSt K ι) (empty : ι → K) :
    CSt (ι → K) (NSt K (ι → K) ⊕ DRSt K ι) :=
  Composite.each (initObj d p) (pointers dr nr) ⟨objects d a b c, empty, empty, 0, .notStarted, []⟩

/-- `static_shell_XML.cpp` 292-297, and with `asserts` `static_shell_multipatch_XML.cpp` 375-379 in a build with
assertions. -/
def shell (e : NEnv K (ι → K) Mat) (o : Opts K) (d : DREnv K ι) (p : DROpts K) (asserts dr nr : Bool)
    (a b : NSt K (ι → K)) (c : DRSt K ι) (empty : ι → K) : Ended (ι → K) :=
  match Composite.solve (classes e o d p) (pointers dr nr) (ready d p dr nr a b c empty) with
  | (_, none) => .aborted
  | (t, some _) => if asserts = true ∧ t.status ≠ .success then .aborted else .wrote t.U

end

section

variable {Mat : Type} [Field K] [LinearOrder K] [AddCommGroup V] [Module K V]

/-- `gsThinShell_Static_XML.cpp` 358-374. -/
def thinShell (e : NEnv K V Mat) (o : Opts K) (nonlinear : Bool) (a : NSt K V) : Ended V :=
  let r := Newton.solveLinear e (Newton.ctor a)
  if r.1 ≠ .success then .aborted
  else if nonlinear then
    let q := Newton.solveNonlinear e o r.2
    if q.1 ≠ .success then .aborted else .wrote q.2.U
  else .wrote r.2.U

/-- `nonlinear_shell_static.cpp` 147-156, `nonlinear_solid_static.cpp` 124-133; `asserts`: is it a build with
assertions? -/
def tutorial (e : NEnv K V Mat) (o : Opts K) (asserts : Bool) (a : NSt K V) : Ended V :=
  let r := Newton.solve e o (Newton.initializeSolver (Newton.ctor a))
  if asserts = true ∧ r.1 ≠ .success then .aborted else .wrote r.2.U

/-- `benchmark_MaterialTestConv.cpp` 291-325, with a new assembler and a new solver for each mesh; the results of
the meshes, as long as none fails. One type of vectors is used for all meshes. -/
def meshes (o : Opts K) : List (NEnv K V Mat × NSt K V) → Ended (List V)
  | [] => .wrote []
  | (e, a) :: l =>
    let q := Newton.solveNonlinear e o (Newton.ctor a)
    if q.1 ≠ .success then .aborted
    else match meshes o l with
      | .aborted => .aborted
      | .wrote us => .wrote (q.2.U :: us)

end

section

variable {Mat ι : Type} [Field K] [LinearOrder K] [Fintype ι]

/-- The objects of `example_StaticSolvers.cpp` 262-298: `DRM`, `NWT` and `OPT`, initialised. -/
structure Three (K ι : Type) where
  drm : DRSt K ι
  nwt : NSt K (ι → K)
  opt : OSt K (ι → K)

/-- The classes of the three. -/
def classes3 (e : NEnv K (ι → K) Mat) (o : Opts K) (d : DREnv K ι) (p : DROpts K)
    (opt : K → (ι → K) → (ι → K) × ℕ) : Solver K (ι → K) ((NSt K (ι → K) ⊕ DRSt K ι) ⊕ OSt K (ι → K)) :=
  (classes e o d p).sum (Opt.solver opt)

/-- The three objects in memory: `DRM` (0), `NWT` (1), `OPT` (2). -/
def Three.heap (t : Three K ι) : ℕ → (NSt K (ι → K) ⊕ DRSt K ι) ⊕ OSt K (ι → K)
  | 0 => .inl (.inr t.drm)
  | 1 => .inl (.inl t.nwt)
  | _ => .inr t.opt

/-- `initialize()` of the objects of `example_StaticSolvers.cpp`; for `gsStaticOpt` it is `reset()` and
`getOptions()`. -/
def initObj3 (d : DREnv K ι) (p : DROpts K) :
    (NSt K (ι → K) ⊕ DRSt K ι) ⊕ OSt K (ι → K) → (NSt K (ι → K) ⊕ DRSt K ι) ⊕ OSt K (ι → K)
  | .inl x => .inl (initObj d p x)
  | .inr s => .inr { s with U := 0, DU := 0, L := 0 }

/-- The construction and the initialisation, `example_StaticSolvers.cpp` 262-298. -/
def three (d : DREnv K ι) (p : DROpts K) (a : DRSt K ι) (b : NSt K (ι → K)) (c : OSt K (ι → K)) : Three K ι where
  drm := DR.initializeSolver d p (DR.ctor d a)
  nwt := Newton.initializeSolver (Newton.ctor b)
  opt := { Opt.init c with L := 0 }

/-- A composite of two of the objects: `initialize()`, `solve()`, `solution()`, `example_StaticSolvers.cpp`
312-322. -/
def pair (e : NEnv K (ι → K) Mat) (o : Opts K) (d : DREnv K ι) (p : DROpts K)
    (opt : K → (ι → K) → (ι → K) × ℕ) (ps : List ℕ)
    (h : ℕ → (NSt K (ι → K) ⊕ DRSt K ι) ⊕ OSt K (ι → K)) :
    CSt (ι → K) ((NSt K (ι → K) ⊕ DRSt K ι) ⊕ OSt K (ι → K)) × Option Status :=
  Composite.solve (classes3 e o d p opt) ps (Composite.each (initObj3 d p) ps ⟨h, 0, 0, 0, .notStarted, []⟩)

/-- `example_StaticSolvers.cpp` 300-324: the four solutions whose norms are printed, and the displacements which
are plotted. No status is looked at; the exceptions of the dynamic relaxation end the program. -/
def compare (e : NEnv K (ι → K) Mat) (o : Opts K) (d : DREnv K ι) (p : DROpts K)
    (opt : K → (ι → K) → (ι → K) × ℕ) (a : DRSt K ι) (b : NSt K (ι → K)) (c : OSt K (ι → K)) :
    Ended (List (ι → K) × (ι → K)) :=
  let t := three d p a b c
  let n := (Newton.solve e o t.nwt).2
  let w := (Opt.solve opt t.opt).1
  match pair e o d p opt [0, 1] ({ t with nwt := n, opt := w } : Three K ι).heap with
  | (_, none) => .aborted
  | (s, some _) =>
    match pair e o d p opt [0, 2] s.heap with
    | (_, none) => .aborted
    | (r, some _) => .wrote ([n.U, w.U, s.U, r.U], (classes3 e o d p opt).solution (r.heap 1))

end

end Prog

end GsSA.Static
