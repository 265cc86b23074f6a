# Design of the formal model of gsStructuralAnalysis

Everything is in Lean 4 under `lean/Verif/`. `properties.jsonl` lists the
properties, `MANIFEST.json` maps each one to the theorems that settle it.
The C++ was read, never built or run.

## 1. General choices

* **Numbers.** The C++ template parameter `T` is modelled by an arbitrary
  linearly ordered field `K` (data structures, drivers), or by `ℝ` when a square
  root is needed. Rounding errors are *not* modelled: every theorem is about
  exact arithmetic.
* **Vectors.** `gsVector<T>` is an element of an arbitrary real inner product
  space (no dimension bound); matrices are linear maps.
* **Solutions.** In the APALM data structures a solution `(U, L)` is opaque, an
  element of an arbitrary type `S`.
* **Outcomes.** A C++ `throw`, a `GISMO_ASSERT`/`GISMO_ENSURE` failure and
  undefined behaviour are distinct outcomes of the model functions
  (`Except Fail`), so "no failure" is something that is proved.
* **`std::map`.** Modelled by a key-sorted association list with `find`,
  `insert` (does not overwrite), `operator[]` assignment (overwrites) and
  `operator[]` lookup (default-inserts), as the C++ uses them.
* **User callbacks** (residual, Jacobian, linear solver, arc-length step inside
  APALM) are arbitrary functions or arbitrary outcome sequences.
* **Loops without bound** in C++ (bisection, retry) are modelled as step
  functions with an inductive execution relation, or as fuelled recursion with
  theorems that hold for every fuel.

## 2. Per property plan

| Property | Model | Proof |
|---|---|---|
| C01-C05 | `gsAPALMData` as a state machine (`Verif/Data/*`), maps and knot vectors concrete | refinement to a list of points with gap status; invariant by induction over call sequences |
| C06, C09 | `submit` | symbolic evaluation of the loops for arbitrary lengths |
| C07 | job table, ID counter | invariant |
| C08 | levels in queue, job table, level map | invariant; concrete counterexample for MaxLevel 0 |
| C10 | potential function on waiting + active jobs | decreasing measure |
| C11 | deterministic correction function; expansion of a state to its final curve | expansion is invariant under pop / submit |
| C12-C14 | same model | concrete counterexamples + positive part |
| C15 | `setData`, `init` | induction over the list |
| C16 | container of branches | induction |
| C17-C19 | loop of `_correction`, arc-length solver = arbitrary status sequence | loop invariant `travelled + dL + rem + (N-k-1) dL0 = N dL0` |
| C20 | loop of `_initiation` | induction over failures |
| C21-C23 | `serialSolve`, `_solve_impl` drivers | induction over step results |
| C24 | `_finalize` | counterexample + positive part |
| C25-C28 | main / workers / message channels as a transition system (`Verif/MPI/*`) | inductive invariants, measure, simulation onto the data state machine, then C11 |
| C29 | send / receive scripts as lists of tagged messages | round trip |
| C31-C35 | `gsALMBase::step`, length control, load control | case analysis, induction over iterations / steps |
| C36-C40, C45 | Crisfield, Riks, consistent Crisfield | algebra in a real inner product space |
| C41-C43, C76-C78 | stability bookkeeping, bisection, extended system, branch switching (`Verif/ALM/Singular*`) | frame lemmas, induction over passes |
| C72-C73 | result views of the drivers | induction |
| C74-C75 | initial guess of the arc-length methods | symbolic evaluation |
| C46-C55, C79-C85 | static solvers (`Verif/Static`) | loop rules proved by induction over iterations, induction over stages and steps, counterexamples where the code disagrees |
| C86 | loop of `solve` without MPI | induction over its iterations |
| C56-C64, C87-C96 | time integrators (`Verif/Dynamic`): actions on (U,V,A) with callbacks that may fail; XBraid wrapper | algebra with linear maps, induction over iterations and over steps, counterexamples |
| C67-C69, C97, C98 | eigenproblem wrappers (`Verif/Eigen`) | algebra, induction over calls and iterations |
| C70, C99 | CSV writer | induction over records |
| C71, C100-C102 | solution fitter: knot averaging, collocation, closest parameter | list induction, loop rules |
| C103-C104 | space-time fitter | index arithmetic, algebra |
| C105-C106 | panel creator: patches as corner points | algebra |
| C107-C109 | load stepping loops (`Verif/Stepping`) | loop invariant, termination measure |
| C110-C113 | arc-length objects: lengths, options, construction, restarts (`Verif/ALM/Config.lean` … `Restart.lean`) | calculation; non-interference between groups of members |
| C114 | the parallel driver with the arc-length methods as workers (`Verif/ALM/Worker.lean`, `Verif/Driver/Agree.lean`, `Verif/MPI/Guarded.lean`) | relation between objects preserved by every job; determinacy of the message-passing loop |
| C115 | the arc-length methods with callbacks of a linear structure (`Verif/ALM/Linear*.lean`) | a step reduces to a recursion for the load increment; convergence of Heron's method |
| C116 | the singular-point test (`Verif/ALM/SingularTest.lean`, `Verif/ALM/SingularDemo.lean`) | relation for the power iterations; symmetry of the Jacobian is inherited by the iterates |
| C117 | stability of the linear integrators (`Verif/Dynamic/Stability.lean`) | energy form on pairs; rates are orthogonal in equilibrium; algebraic balance of a step, induction over the steps |
| C118 | convergence of the static Newton solver (`Verif/Static/Convergence.lean`) | errors bounded by a sequence, invariant of the loop; quadratic and linear instances; Archimedean field for the number of iterations |
| C119 | dynamic relaxation of linear structures (`Verif/Static/Relaxation.lean`) | energy of the staggered iteration, non-increasing with damping; summable decrements give convergence over ℝ; explicit orbit for the divergence without damping |
| C120 | stability indicator and options of the static solvers (`Verif/Static/Indicator*.lean`) | diagonal forms of a quadratic form and Sylvester's law (`Verif/Base/Inertia.lean`); Spectra's result is specified by `Selects` |
| C121 | stepping programs with target values (`Verif/Stepping/Target*.lean`) | a solve is an arbitrary function of the number of solves before, the parameter and the start vector |
| C122 | programs with displacement control (`Verif/Stepping/Control.lean`) | on the model of `gsControlDisplacement`, for every static solver with the laws of C53 |
| C123 | time loops of the programs with dynamic solvers (`Verif/Dynamic/Programs.lean`) | on the model of `gsDynamicBase`; the file also has C96_local (what a step depends on) |
| C124 | load stepping with branch switching (`Verif/Stepping/Bifurcation*.lean`) | on the model of the arc-length solvers; ghost fields `spotted`, `found`, `tries` of the rows |
| C125 | programs with a fixed number of arc-length steps (`Verif/Stepping/Fixed.lean`) | uses C113_failed: a failed step leaves the object as it was |
| C126 | load steps with adaptive meshes (`Verif/Stepping/Adaptive.lean`, `Wrinkling.lean`) | meshes, fields, the step, the estimate of the error and the interpolation are abstract; before buckling the solvers of `Verif.ALM` |
| C127 | programs for static analysis (`Verif/Static/Programs.lean`) | input, assembly and output are outside; vectors of all stages have one type, the empty vector is a parameter |
| C128 | programs for modes and buckling (`Verif/Eigen/Programs.lean`) | input, assembly, names of files are outside; `constructSolution` is the geometry plus the displacement; `values.at(k)` is taken to be unchecked |
| C129 | output of the programs for the parallel method (`Verif/Driver/Output.lean`) | numbers are formatted by any function without commas and newlines; a file is its last text; geometry and assembly are outside; the directory exists |
| C130 | input and tables of the programs in `solvers/` (`Verif/Tools/Input.lean`) | objects of the file have the type the program expects; numbers are formatted by any function without commas and newlines; geometry, boundary conditions and unstructured splines are outside |
| C131 | tables of the steps and cross sections in benchmarks and examples (`Verif/Tools/Steps.lean`) | numbers are formatted by any function without commas and newlines; the unqualified `abs` is the absolute value of a real number; `kmax` and `N` are at least 2 (201 in all programs); the number of degrees of freedom is formatted like a real number |
| C132 | the option `Verbose` of the arc length methods (`Verif/ALM/Verbose.lean`) | a line is a list of cells; the text of `m_note` and the lines about the roots of Crisfield's method are left out; the comparison needs callbacks and linear algebra that return the same for the same arguments (`Steady`) |
| C133 | convergence of the integrators of the dynamic module (`Verif/Dynamic/Converge*.lean`) | over the real numbers, no rounding; a motion is given with its derivatives (`Motion`); linear solves are exact; the implicit methods are measured in the energy norm and need symmetric M, S and a nonnegative C (`Passive`) |
| C134 | convergence of the steps of load control, Riks and consistent Crisfield (`Verif/ALM/Contraction.lean`, `Newton*.lean`, `Load*.lean`) | exact arithmetic; the internal forces are a function of the displacements (the callbacks give the same values on every call) and linear solves are exact near the solution; Newton's method with a new tangent in every iteration (no quasi-Newton); the path theorems are over the real numbers |
| C135 | convergence of the steps of Crisfield's method (`Verif/ALM/CrisfieldNewton*.lean`, `CrisfieldPath.lean`, `CrisfieldWalk.lean`) | as C134; moreover no relaxation (`Relaxation` is 1); the path theorems exclude limit points |
| C136 | the option `verbose` of `gsStaticNewton` and `gsStaticDR` (`Verif/Static/Verbose*.lean`) | a line is a list of cells, a quotient a pair of numbers; messages that do not depend on `verbose` and the output of `gsStaticComposite` are left out |
| C137 | the option `Verbose` of the time integrators (`Verif/Dynamic/Verbose*.lean`) | lines and cells as in C136 |
| C138 | convergence of the nonlinear Newmark and implicit Euler methods with their iterations (`Verif/Dynamic/NewtonLoop.lean`, `ConvergeNewton*.lean`, `EulerLoop.lean`, `ConvergeEulerProps.lean`) | exact arithmetic and linear solves; a smooth motion exists |
| C139 | convergence of the nonlinear Bathe method with its iterations: first order, second order only if two iterations are forced; it is not of second order with positive tolerances (`Verif/Dynamic/BatheLoop.lean`, `ConvergeBathe*.lean`, `BatheDrift.lean`) | exact arithmetic and linear solves; a smooth motion exists |
| C140 | convergence of the nonlinear Wilson method with its iterations: second order for gamma >= 1, accelerations too; divergence for 0 < gamma < 1/2 although the option's description allows it (`Verif/Dynamic/ConvergeWilson*.lean`) | exact arithmetic and linear solves; a smooth motion exists |
| C141 | convergence of the extended system to limit points and symmetry-breaking bifurcations, quadratic up to the difference step; unsymmetric bifurcations are never regular points of it (`Verif/ALM/Extended{Newton,Loop,Smooth,Props}.lean`) | exact arithmetic; a linear solve that succeeds is exact |
| C142 | convergence of the bisection to the singular point, for any method and for load control on straight paths (`Verif/ALM/Bisection{Converge,Path}.lean`) | the path and the steps on it are hypotheses in the general theorem |
| C143 | `computeSingularPoint` as a whole: bisection, mode from the power method, extended system, switch (`Verif/ALM/{PowerDirection,BifurcationFound,BifurcationProps}.lean`) | load control on straight paths; the solver may fail near the bifurcation |
| C144 | reference solution and check of the unit test (`Verif/Oracle/Uniaxial{,Props}.lean`) | real numbers; the assembler and the material laws of gsKLShell are outside |
| C145 | Crisfield's method in the search for singular points (`Verif/ALM/{BisectionCrisfield,BifurcationCrisfield}.lean`) | straight paths, default scaling, positive starting load |
| C146 | the geometries built by the programs: rectangle, brick, frustrum, annulus (`Verif/Tools/{BSpline,Domains,DomainKnots,DomainProps,DomainRound}.lean`) | B-splines, tensor products and NURBS of the library by their definitions; topology and later elevation left out |
| C147 | the lattice of the snapping programs (`Verif/Tools/{Lattice,LatticeProps}.lean`) | the curve, a projection of a cosine, is any function; the third direction of the 3D and the shell programs left out |
| C148 | reference solutions of the uniaxial tension benchmark, the nonlinear beam and the modal analysis (`Verif/Oracle/{Reference,ReferenceProps,ReferenceBeams,ReferenceFirst,ReferencePlate,ReferenceCircle,ReferenceStiffness}.lean`) | real numbers; the mode of the clamped circle is not shown to be the first; the other cases print 0 |
| C149 | `ShellPostProcess` and `PlotIsolines`: solutions found, points, tables, file names (`Verif/Tools/{PostProcess,PostProcessProps}.lean`) | contents of files are abstract; `gsWriteParaview` writes one `.vts` file per patch, named with its number |
| C150 | options of `gsStaticOpt` and of its optimizer (`Verif/Static/{OptOptions,OptOptionsProps}.lean`) | `gsOptionList` is a partial function; `setInt`/`setReal` throw for a label that was not added with the type; the labels of the optimizers are hypotheses |
| C151 | options, `Coarsen` and `Refine` of `gsDynamicXBraid` (`Verif/Dynamic/{XBraidOptions,XBraidOptionsProps}.lean`) | the setters of XBraid are taken to store their argument; `SetAbsTol` and `SetRelTol` set one tolerance and its kind; `SetFMG`, `SetIncrMaxLevels`, `SetSpatialCoarsenAndRefine` switch on |

Where the code does not have a property, the negation is proved with a concrete
witness, and the part that does hold is proved as a theorem whose name ends in
`_partial`.

## 3. Modelling decisions by part

* **Drivers.** The worker computation is a total function of the message; after
  a failure of the main process workers may hang (as in the code, which sends no
  stop message then). Pointers in `_finalize` are indices. `setData` of a single
  point divides by zero, which is the outcome `ub`.
* **MPI.** Messages between a pair of processes are FIFO per tag. Buffers of
  non-blocking sends are read when the message is delivered, so reuse of a buffer
  is visible.
* **Arc-length methods.** An action maps the object to the new object and an
  outcome, so the members after a `throw` are known. A ghost list of events
  records the calls of callbacks and linear solver; callbacks receive its length
  and hence may depend on time. Quotients of the residual measures with
  denominator zero are `none` (inf/NaN in C++, compares false). Other quotients
  follow `x / 0 = 0`, and theorems which use them assume a nonzero denominator.
  Unqualified `abs` is taken as the absolute value of reals. Members which the
  constructors leave uninitialised (`m_initialized`, `m_stability`,
  `m_stabilityPrev`, `m_residue`) are arbitrary in the initial state.

* **Static solvers.** Same actions and events as for the arc-length methods.
  `a/b < c` is `quotLt`, which is false for `b = 0` unless `a < 0` (NaN, inf).
  Vectors of `gsStaticDR` are functions on a finite index type (component-wise
  products), those of `gsStaticNewton` elements of any module. A negative
  `maxIt` is not modelled. The composite solver and displacement control work
  on an abstract interface (`Solver`), with pointers as natural numbers; its
  `solve` may let an exception escape. The optimizer of `gsStaticOpt` is an
  arbitrary function. `first` in `gsControlDisplacement` and `m_start` are kept
  as in the code (`m_start` is never read).

* **Time integrators.** Same actions. Vectors are elements of a module, matrices
  are linear maps; the sparse solver, GMRes and the mass inverse are arbitrary
  functions, assumed exact only where a theorem says so. A callback may return a
  value, refuse (`throw 2`) or be missing. The test for NaN/inf is an arbitrary
  predicate on the norm. `std::ceil(std::sqrt(x))` is an arbitrary function with
  its specification as a hypothesis. XBraid itself is not modelled, only the
  functions of `gsDynamicXBraid` that it calls.

* **Eigenvalue solvers.** The dense solver, Spectra and the linear solver are
  arbitrary functions (`Lib`) that may fail or throw; they are exact only where a
  theorem assumes it. Matrices are linear maps.

* **Tools.** A CSV file is a list of lines, a line a list of fields; numbers are
  printed by an arbitrary function of precision and number. In the fitters the
  B-spline basis is given by its knots, the collocation matrix and the linear
  solver by arbitrary functions. Panels are lists of bilinear patches;
  `computeTopology` is not modelled.

* **Load stepping.** The loops of `gsAPALMBase::serialSolve` and of the programs
  are one function with three switches, for an arbitrary solver and for the
  arc-length methods of the model. Output and singular points are left out.

* **Construction and options of the arc-length objects.** Members without an
  initialiser get an arbitrary value (a parameter). Options are a record; keys
  unknown to the class are left out. `Verif/ALM/Flow.lean` proves which groups of
  members a step reads before writing them.

## 4. Findings

Defects of the code which are proved as theorems (`*_violated_*`, `*_violation`):

* C08 (MaxLevel 0), C12, C13 (unknown keys), C14 (start time), C19
  (SolverError/OtherError), C21 and C23 and C24 (branches), C29 (send buffer
  overwritten), C73.
* C31: with the determinant method a failed factorisation inside the stability
  computation is not reported. C32: MaxIter <= 1 reports success without an
  iteration. C34: `resetLength` divides by zero. C35, C38, C74: see the
  theorems.
* C41: sign of `stability()` is the reverse of the documented one; `isStable()`
  is always true. C42: an error during bisection leaves `AdaptiveLength` off and
  the arc length halved. C43: `computeSingularPoint` returns the status of an
  earlier call. C76: equilibrium is not tested; the converged vector is dropped.

* C41, C120: Spectra with a shift returns eigenvalues above the shift first; one
  below it is missed. C120: the determinant method needs SimplicialLDLT, which is
  not the default of `gsStaticNewton`; failures return an old value.
* C121: `benchmark_cylinder_DC` accepts failed solves with small steps;
  `benchmark_Pillow` may continue with a negative load factor;
  `example_ShearWrinkling` reads the front of an empty vector at its last target.
* C122: `benchmark_FrustrumDC` and `snapping_example_shell_DC` take `SolverError`
  for a success; the displacement they print is not the load after a halved step.
* C123: in `example_DynamicBeamNL` the time stays 0, since the `const` version of `step` does not
  change the time of the object: the load after the first step has no influence. The tutorials label
  each displacement with the time of the step before.
* C124: after a failed attempt the stepping programs compare the stability with that of the failed
  attempt. At a limit point, or if the extended system does not converge, the step is lost and the
  previous row is written again. After a bifurcation the old stability is restored, so that a step on
  an unstable branch is taken for a bifurcation again and again.
* C125: the arc-length tutorials ignore the status of `step()`; after one failed step all later rows
  are the last converged point.
* C126: `benchmark_Wrinkling_DWR.cpp` 651 calls `computeSingularPoint(Uold,false)`: `false` becomes the load `0`.
  At a limit point, or if the extended system does not converge, the path goes on at load zero. `k` is not increased
  before buckling, so `maxSteps` bounds nothing there; the inner loop is not entered at all if the error `1` is in the
  band. `benchmark_Roof_DWR.cpp` 571: `it -= 1` for a failed step allows for more than `maxRefIt` meshes. Both: the
  row written lives on a mesh that was changed after the last solve, a coarser one with the default bandwidth; with
  nothing left to refine the same step is solved until `maxRefIt`; a halved length never grows again.
* C127: `solveLinear` (`gsStaticNewton.hpp` 74-98) sets `m_U` and not `m_DeltaU`, and `gsStaticComposite` passes the
  update on: the solver `LIN` of `static_shell_XML.cpp` has no influence on the stages after it, other than that it
  must not fail. The status is not looked at there: a failed Newton solver means that the linear (or relaxed) solution
  is written as the result. `example_StaticSolvers.cpp` plots the member of the Newton solver, not what it printed.
* C128: `buckling_shell_multipatch_XML.cpp` 414 subtracts `K_L` from the Jacobian, and the constructor of
  `gsBucklingSolver` (`gsBucklingSolver.h` 100-105) does so again; `buckling_shell_XML.cpp` passes the Jacobian itself.
  All programs print ten eigenvalues whatever the number of modes, which is 1 by default. `gsElasticity_Modal.cpp` 262
  returns 1.
* C129: the programs name the file of an interval by the ID of the job alone, and the IDs start at 0 in each branch:
  files of different branches overwrite each other. Beam and Elasticity_Beam name ParaView files by the digits of branch
  and point without a separator. `BranchLengthMultiplier` is applied again for a branch of a branch in `serialSolve`
  but not in `solve`. The default test case 0 of Roof is an error.
* C130: `quasistatic_shell_multipatch_XML.cpp` sets `deformation = mp` and never updates it: the table holds the
  undeformed geometry. `quasistatic_shell_XML.cpp` reads the options of the assembler (ID 92) but does not pass them.
  `modal_shell_multipatch_XML.cpp` reads point loads but does not pass them. Option `P` overwrites the third coordinate
  of the control points instead of adding to it. The condition `smoothness >= 1 || smoothness <= degree-2` always holds
  where it is checked (`&&` was meant). All programs empty `data.csv` without `--write`.
* C131: the rows of the tables end with a comma, the header does not. The column `point k - z` holds
  `max(|max z|, |min z|)` over a line through the point: the sign is lost, also in the benchmarks for snap-through (Roof,
  Cylinder, Frustrum). `benchmark_Wrinkling.cpp` copies three coordinates into a matrix with two rows.
* C132: `Verbose` is not only about output. `stepOutput` computes the stability, so `m_stability` is that of the
  starting point when it is copied to `m_stabilityPrev`; without `Verbose` it may be older. `_stepOutputExtended` can
  throw. The table of the extended system shows `m_U`, `m_V`, `m_L` without increments. Crisfield's column `ds²` is the
  distance itself.
* C136: with `verbose = n > 1` `gsStaticDR` does not show the iteration that meets the criteria unless its number is
  divisible by `n`. The line of the start shows the norm of the load in column `|R|`. `verbose = -1` prints every line of
  `gsStaticDR` and nothing of `gsStaticNewton`.
* C137: `gsDynamicRK4` ignores `Verbose`. The only line of the linear implicit Euler method shows the norm of the state
  before the step under `|R|/|R0|` and 0 under `|dU|/|U0|`; the explicit method shows the norm of the new state under
  `|R|`; the linear Newmark and Bathe methods show an absolute residual and the norm of the displacement. The
  nonlinear implicit Euler method shows residuals of the iterate before the correction. `gsDynamicBathe` announces its
  second stage only in the linear version. `gsDynamicWilson` returns `Success` whatever the table of its Newmark step.
* C133: with the residual callback R the nonlinear explicit Euler follows `M u'' + C u' = -R`, Runge-Kutta follows
  `M u'' + C u' = R`; for the oscillator released at 1 they tend to cosh 1 and cos 1 at time 1. Wilson's method on a
  linear structure does not tend to the motion.
* C140: the nonlinear Wilson method diverges for `gamma` below 1/2, while the description of the option asks for `gamma`
  between 0 and 1; the default is 1.4.
* C46: maxIt = 0 reports success. C47: with an empty update vector a failing
  solve clears the solution. C48: Newton started in equilibrium never converges
  (0/0). C49: load factor 0 after construction with an arc-length residual.
  C50: exceptions escape from `gsStaticDR::solve`. C51: the residual tested is
  that of the previous configuration. C52: status Success after an escaped
  exception. C53: linear Newton solver never moves `solutionU()`. C55, C79, C82,
  C83, C84, C85: see the theorems.

* C59: the nonlinear explicit Euler step has the wrong sign of the residual; the
  nonlinear Bathe step never succeeds with displacement 0 and starts from a
  residual at the wrong displacement; linear and nonlinear Wilson differ. C61:
  implicit Euler takes the residual at the old time and tests the state before
  the update. C64: Wilson always reports success. C87: exceptions escape from
  `step()`. C88: accelerations never updated by Euler and Runge-Kutta. C91:
  `QuasiIterations` 0 divides by zero. C92: `numIterations()` stays -1. C95:
  refinement factor 0, failures on coarse levels ignored, norm blind to
  velocities. C139: with positive tolerances the nonlinear Bathe method is of
  first order only.

* C68: a callback that returns false is not noticed by `gsBucklingSolver`. C69:
  start vector of ones in the kernel. C97: failures of the dense eigenvalue
  solver reported as success. C98: sign of the buckling value. C99:
  `setPrecision` without effect. C100: fitter without datum at time 0. C101:
  interpolation at the anchors, not at the parameters. C102: NaN in the first
  trial. C103: `addDataPoint` drops its data. C104: wrong column of the load.
  C105: position of `PlateGirderL`. C106: interface of `LBeam`.
* C107: load stepping may halve the length for ever. C108: `bisected` never set
  in the quasi-static solvers; adaptive length overwritten by the loop. C109:
  SolverError treated as a converged step in several programs. Also in
  `gsAPALMBase`: the option is defined as `Verbose` and read as `verbose`;
  `parallelSolve` does not fit the current `gsAPALMData`.
* C110: `resetLength` with adaptive lengths before the first step divides by
  zero; `setLength(l, adaptive, iterations)` is undone by `applyOptions`. C111:
  `options_into` takes its argument by value; `setOptions` resets the length.
  C112: `m_initialized`, `m_stability`, `m_phi` and others are not initialised;
  `initialize()` discards a solution set before and lets an `int` exception
  escape. C113: Crisfield passes the increment of the previous step to the
  Jacobian; consistent Crisfield scales with the previous tangent; failed steps
  of Crisfield overwrite the previous increment unless the angle is per step.
* C114: with `SingularPoint`, `_initiation` compares the stability with that of
  the last job of the process, on whatever part of the curve it was. `gsALMLoadControl` and
  `gsALMConsistentCrisfield` do not override `distance()`, so `gsAPALM` throws
  with them although some benchmarks offer the choice.
* C115: a step whose predictor arrives at load factor 0 (unloading to zero) never
  succeeds, with any method: `computeResidualNorms` divides by the load after the
  predictor.
* C119: without damping, `gsStaticDR::_peak` evaluates the residual again at the
  displacement after the iteration, while the step back `-3/2 v + R/(2 α M)` leads
  to the middle of the step before only with the residual of the iteration. A
  single spring of stiffness `7/2 α m` diverges although the iteration is stable
  up to `4 α m`.
* C118: `gsStaticNewton` started in the solution of a nonlinear problem reports
  NotConverged, as for linear ones (C48).
* C117: explicit Euler multiplies the energy of an undamped structure by at
  least `1 + l h²` in every step, for every step size `h`.
* C144: `UAT_CHECK` computes the numerical and the reference stress but compares only
  the stretch. For material 4 and `impl != 3` it makes an empty check and then goes on
  with the combination it was meant to skip.
* C143: `_extendedSystemSolve` improves the mode in `m_DeltaV` but never adds it to
  `m_V`; `solutionV` and `switchBranch` use the vector of the bisection.
* C142: `_bisectionSolve` returns `true` if the power iteration for the mode has
  converged, although the bisection has not; the flag is not used.
* C146: the option `clamped` of `RectangularDomain` takes the maximum of `1 - clampoffset` and half the second knot
  for the knot at the right end, so that the last element is not divided when the offset is not smaller than an
  element (0.1 with four refinements), while the first one is. The coefficients are equally spaced, so with degree 2
  and more the elements of a refined rectangle are larger at the ends (0.3 instead of 0.25 of the length with four).
  `example_DynamicBeamNL`, `gsElasticity_Modal` and `benchmark_Elasticity_Beam_APALM` take the number of elevations
  as the degree: with 0 the geometry is degenerate.
* C147: the snapping programs choose the fixed and the loaded sides by a band of one hundredth of the height. With
  many rows (53 with the default dimensions) the band contains the middle of the vertical sides of the lowest
  patches, which are then fixed as well. In `snapping_element*.cpp` the patches 13 and 14 have their first row of
  coefficients at the top, so the side `north` that gets the load is the interface with the patches 8 and 12 and
  the upper end `south` is free. The same reversal in `makeBottom` is harmless: only the orientation changes.
* C148: `benchmark_UniaxialTension` uses `lambdas(0)` as a stretch across the tension for `S` and as the stretch along
  it for `San`; the two columns differ for every deformed plate, whatever the order of the stretches is.
  `example_DynamicBeamNL` computes `EI` with twice the thickness it gives to the assembler, so its manufactured
  solution belongs to a beam with eight times the bending stiffness (and the messages with the error print the function
  `t`, the thickness, instead of the time). `gsThinShell_Modal` starts the frequencies of the pinned beam with `n=0`, so
  that 0 is printed as the first one, and does not update `Area` for the cantilever, whose value is halved.
* C149: `ShellPostProcess` stops at the first missing number; if `solution.xml` exists, output `k+1` is made from
  `solution<k>.xml`; the names `<output><k><patch>.vts` of step 1, patch 10 and step 11, patch 0 are equal; the collection
  lists the first patch only. `PlotIsolines` names its files with six decimals of `u`, so that close lines overwrite each
  other, and samples the last point if one point is asked for.
* C150: `solve` of `gsStaticOpt` overwrites `MaxIterations`, `Verbose` and the tolerances the caller has set with
  `optimizerOptions()`; an optimizer of a module that is not compiled in is found out in `initialize` or `solve` only.
* C151: `gsDynamicXBraid::initialize` cannot switch `fmg`, `incrMaxLevels` and `spatial` off again.
  `example_DynamicShell_XBraid` does not call `initialize` at all.
* C141: `_extendedSystemSolve` factorises the tangent at every new point before the
  test of convergence. If an iteration finds the singular point exactly, the
  factorisation fails and the point is lost. At a bifurcation without a symmetry
  that separates the mode from the displacements, the linearised extended system
  is singular.
* C116: the power iteration of the singular-point test starts from the vector of
  ones, so it never sees a mode orthogonal to it, such as the antisymmetric
  modes of a symmetric structure. `computeSingularPoint(U, L)` tests the current
  solution and only afterwards moves to `(U, L)`. With `testPoint = false` and
  `SingularPointComputeTolB = 0` no function fills the mode vector, so that a
  new object starts the extended system from an empty vector.
* C36: when neither the quadratic nor its modification has roots, relaxation
  replaces the scaled correction of the displacements by a multiple of
  `dL Ut + Ubar`, which has nothing to do with it (`gsALMCrisfield.hpp` 80-86).

## 5. Trusted base

* Lean 4 kernel; axioms `propext`, `Classical.choice`, `Quot.sound` only.
* The hand translation of C++ to Lean (each definition cites its source lines).
* Not modelled: floating point rounding, memory management, the format of what is printed, G+Smo
  core (`gsKnotVector` is taken as a sorted list with `insert`, `addConstant`),
  Eigen (linear algebra, factorisations), MPI itself (modelled as reliable,
  per-pair ordered channels).
