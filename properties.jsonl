{"id": "C01", "title": "The stored curve is always strictly ordered", "statement": "After any contract-respecting sequence of calls on a branch data set (start point or initial data, append, pop, submit, finishJob in any interleaving), getFlatSolution() returns times, solutions and levels of equal length, one entry per point ever stored, and the times are strictly increasing.", "quantifier": "every initial data set, every finite sequence of API calls (any interleaving of pops, submissions, appends), every positive distance vector and every solution type", "why_tests_cant": "The interleavings, number of points and rescalings are unbounded; tests only see a few job orders.", "anchors": ["src/gsALMSolvers/gsAPALMData.hpp: addStartPoint, appendData, setData, init, pop, submit, finishJob, getFlatSolution"]}
{"id": "C02", "title": "Stored points are never lost, changed or reordered", "statement": "Once a point (solution, level) has been stored in a branch, every later getFlatSolution() still contains it with the same solution and level, and the relative order of stored points never changes.", "quantifier": "every reachable state and every further contract-respecting call sequence", "why_tests_cant": "It is a monotonicity statement over all future histories.", "anchors": ["src/gsALMSolvers/gsAPALMData.hpp: submit, appendData, getFlatSolution"]}
{"id": "C03", "title": "Waiting and active refinement jobs are disjoint gaps between consecutive points", "statement": "At every moment each waiting or active job of level >= 1 spans exactly two consecutive stored points and no two of them span the same gap, so no interval is in two hands at the same time and no point is ever inserted inside an interval that another job is working on.", "quantifier": "every reachable state of a branch data set", "why_tests_cant": "Double hand-out would only show for particular completion orders.", "anchors": ["src/gsALMSolvers/gsAPALMData.hpp: init, appendData, pop, submit"]}
{"id": "C04", "title": "A popped job always comes with its start, previous and reference solution", "statement": "pop() on a non-empty queue always succeeds: the start and previous solution exist, getReferenceByID on the returned ID succeeds, and for a refinement job the returned length is the (strictly positive) difference of the two end times given by jobTimes(ID).", "quantifier": "every reachable state with a non-empty queue", "why_tests_cant": "The lookups are keyed by floating keys in maps that are rebuilt at every submission; a missing key would silently default-insert.", "anchors": ["src/gsALMSolvers/gsAPALMData.hpp: pop, getReferenceByID, jobTimes, jobStartTime"]}
{"id": "C05", "title": "The length of an interval in flight is not changed by other submissions", "statement": "Between pop() of a refinement job and its submission, the difference of jobTimes(ID) stays equal to the length handed out by pop(), whatever other jobs are submitted or points appended meanwhile.", "quantifier": "every job and every interleaving of other calls while it is in flight", "why_tests_cant": "Other submissions shift times; the claim is about all interleavings.", "anchors": ["src/gsALMSolvers/gsAPALMData.hpp: submit (addConstant), jobTimes"]}
{"id": "C06", "title": "submit places the new points at the accumulated distances and translates the rest of the curve", "statement": "Submitting distances d_0..d_N on a job [tlow,tupp] leaves all points up to tlow at their time, puts the k-th new point at tlow+d_0+..+d_k and moves every point from tupp on by exactly (sum d)-(tupp-tlow); the total curve length grows by that amount.", "quantifier": "every reachable state, every active job, every positive distance vector of any length", "why_tests_cant": "Unbounded number of points and distances.", "anchors": ["src/gsALMSolvers/gsAPALMData.hpp: submit"]}
{"id": "C07", "title": "Job identifiers are fresh and the job counters are exact", "statement": "IDs returned by pop() on one data set are pairwise different for its whole lifetime; pop moves exactly one job from waiting to active, finishJob removes only the given job, and nWaiting/nActive count exactly the jobs queued and popped-but-not-finished.", "quantifier": "every call sequence", "why_tests_cant": "Uniqueness over an unbounded history.", "anchors": ["src/gsALMSolvers/gsAPALMData.hpp: pop, finishJob", "src/gsALMSolvers/gsAPALMData.h: nActive, nWaiting"]}
{"id": "C08", "title": "The refinement level never exceeds MaxLevel", "statement": "With MaxLevel >= 1 every job handed out and every stored point has level <= MaxLevel; with MaxLevel = 0 refinement jobs of level 1 are still created, handed out and stored.", "quantifier": "every MaxLevel and every call sequence", "why_tests_cant": "Requires an invariant over all histories.", "anchors": ["src/gsALMSolvers/gsAPALMData.hpp: submit, init, appendData, _defaultOptions", "src/gsALMSolvers/gsAPALM.hpp: _finalize"]}
{"id": "C09", "title": "submit re-queues exactly the intervals whose error exceeds the tolerance", "statement": "Writing lowerError = Dt-lowerDistance and upperError = (sum d - upperDistance) - lowerError: below MaxLevel the interior sub-intervals are queued iff lowerError/Dt >= Tolerance and the last one iff upperError/Dt >= Tolerance, each once, at level+1 and in order; at MaxLevel nothing is queued. No index ever leaves the arrays.", "quantifier": "every number of sub-intervals, every distance vector, tolerance and level", "why_tests_cant": "Loop bounds kmin/kmax depend on data; all combinations and sizes.", "anchors": ["src/gsALMSolvers/gsAPALMData.hpp: submit"]}
{"id": "C10", "title": "Refinement terminates", "statement": "If no submission contains more than n new points, a branch with q waiting jobs hands out only finitely many refinement jobs, at most q*(1+(n+1)+...+(n+1)^(MaxLevel-1)), whatever the submitted errors.", "quantifier": "every sequence of pops and submissions without new appended points", "why_tests_cant": "Needs a well-founded measure over unbounded executions.", "anchors": ["src/gsALMSolvers/gsAPALMData.hpp: submit, pop"]}
{"id": "C11", "title": "The refined curve does not depend on the order in which jobs complete", "statement": "If the correction of an interval is a function of the data handed out (length, start, previous, reference), then any two executions that drain the queue, with any order of pops and completions, return the same times, solutions and levels from getFlatSolution().", "quantifier": "every pair of complete schedules, every number of simultaneously active jobs", "why_tests_cant": "Schedules are unbounded in number; a test sees only one per run.", "anchors": ["src/gsALMSolvers/gsAPALMData.hpp: pop, submit, getFlatSolution", "src/gsALMSolvers/gsAPALM.hpp: parallelSolve_impl"]}
{"id": "C12", "title": "A sub-interval of zero length corrupts the data set", "statement": "submit does not reject a zero last distance (the last computed point coincides with the reference). In that case the stored level of the already existing end point is overwritten and its parameter value is stored twice; with all distances positive this cannot happen.", "quantifier": "every submission", "why_tests_cant": "It is a boundary condition on all submissions.", "anchors": ["src/gsALMSolvers/gsAPALMData.hpp: submit"]}
{"id": "C13", "title": "Reference lookups for unknown keys", "statement": "getReferenceByTime / getReferenceByID return true exactly for a stored time / active job and leave the data set unchanged. (The code violates this: an unknown time returns the start solution, an unknown ID creates a phantom active job.)", "quantifier": "every time and every ID, in every reachable state", "why_tests_cant": "All keys, including those never stored.", "anchors": ["src/gsALMSolvers/gsAPALMData.hpp: getReferenceByTime, getReferenceByID, jobLevel, jobTimes"]}
{"id": "C14", "title": "jobStartTime of the first job equals the time given to addStartPoint", "statement": "After addStartPoint(time,...) and pop(), jobStartTime(ID) is the given time. (Holds for time 0 only: the time map is not built by addStartPoint.)", "quantifier": "every start time", "why_tests_cant": "All start times.", "anchors": ["src/gsALMSolvers/gsAPALMData.hpp: addStartPoint, pop, jobStartTime"]}
{"id": "C15", "title": "Initial data are spread over [0,1] and queued pairwise", "statement": "After init(times, solutions) on a fresh data set with strictly increasing times, the queue holds exactly the consecutive pairs at level 1 in order, getFlatSolution returns the given times and solutions with level 0; calling it again on a used data set does not replace solutions stored at coinciding parameters.", "quantifier": "every list of at least two strictly increasing times", "why_tests_cant": "All sizes; re-initialisation of arbitrary used states.", "anchors": ["src/gsALMSolvers/gsAPALMData.hpp: setData, init"]}
{"id": "C16", "title": "Branch selection", "statement": "getFirstNonEmptyBranch returns the least index of a branch with waiting jobs when there is one; when all branches are empty it reads past the end of the container. add returns the index of the new branch; empty() holds iff every branch queue is empty; nActive/nWaiting/maxLevel are the sums/maximum over branches.", "quantifier": "every container of branches", "why_tests_cant": "All containers; the failing case is undefined behaviour a test may not observe.", "anchors": ["src/gsALMSolvers/gsAPALMDataContainer.h: getFirstNonEmptyBranch, empty, add, nActive, nWaiting, maxLevel"]}
{"id": "C17", "title": "Bisection inside a correction conserves the length of the interval", "statement": "However often and in whatever pattern the arc-length solver fails and the step is halved inside a correction, the arc-lengths of the accepted steps add up to the interval length, and the correction returns exactly one more distance than solutions and at least SubIntervals solutions.", "quantifier": "every pattern of step failures, every interval length and number of sub-intervals", "why_tests_cant": "Failure patterns are unbounded trees of bisections.", "anchors": ["src/gsALMSolvers/gsAPALM.hpp: _correction"]}
{"id": "C18", "title": "The output of a correction is always accepted by submit", "statement": "If every accepted arc-length step has distance at least its prescribed length (as Crisfield and Riks type constraints guarantee), the distances produced by a correction pass the total-length check of submit on the same interval.", "quantifier": "every failure pattern and every such solver", "why_tests_cant": "Couples an unbounded loop with a run-time check.", "anchors": ["src/gsALMSolvers/gsAPALM.hpp: _correction", "src/gsALMSolvers/gsAPALMData.hpp: submit"]}
{"id": "C19", "title": "Only successful steps contribute to a correction", "statement": "Every solution stored by a correction comes from a step that reported Success. (Violated: steps with status SolverError or OtherError are stored as if they had converged.)", "quantifier": "every sequence of step statuses", "why_tests_cant": "All failure patterns.", "anchors": ["src/gsALMSolvers/gsAPALM.hpp: _correction"]}
{"id": "C20", "title": "Initiation retries until success with halved lengths", "statement": "An initiation returns only after a step with status Success; after m failures with NotConverged/AssemblyError the step length is the requested one divided by 2^m and the solver was put back on the start point before each retry; one solution is returned without bifurcation and two with. A solver error (SolverError/OtherError) is retried with unchanged length and without restoring the start point.", "quantifier": "every sequence of step statuses", "why_tests_cant": "Unbounded retries.", "anchors": ["src/gsALMSolvers/gsAPALM.hpp: _initiation"]}
{"id": "C21", "title": "serialSolve stores the right points at accumulated distances", "statement": "The points computed by serialSolve(N) from a start form a path: the start at time 0, then each point is the result of the step from the point before at the time of that point plus the distance of the step; at most max(N,1) points, fewer only if the last step found a bifurcation. A bifurcation ends the branch and queues exactly one new start (second solution, length times BranchLengthMultiplier); a branch started from a bifurcation does not store its start and its first step is multiplied by BifLengthMultiplier. Every stored branch is ready for parallelSolve. (Violated for branches of a single point - N<=1, or a branch from a bifurcation which bifurcates again in its first step - whose parameters are scaled by 1/0.)", "quantifier": "every N, every sequence of step results and bifurcations", "why_tests_cant": "Unbounded numbers of steps and branches.", "anchors": ["src/gsALMSolvers/gsAPALM.hpp: serialSolve, lines 122-218"]}
{"id": "C22", "title": "solve(N) computes the same number of steps as serialSolve(N)", "statement": "On a branch without bifurcations solve(N) appends exactly max(N-1,1) points to the start point, with any interleaving of corrections; a bifurcation in the last allowed step does not open a new branch, unlike in serialSolve.", "quantifier": "every N, every interleaving", "why_tests_cant": "All N and schedules.", "anchors": ["src/gsALMSolvers/gsAPALM.hpp: _solve_impl, serialSolve"]}
{"id": "C23", "title": "Per-branch step counters stay inside their array", "statement": "solve() never accesses the per-branch step counter out of range. (Violated when the object already holds branches, e.g. solve after serialSolve, or with more than one start point.)", "quantifier": "every state in which solve can be called", "why_tests_cant": "Undefined behaviour; depends on the call history.", "anchors": ["src/gsALMSolvers/gsAPALM.hpp: _solve_impl"]}
{"id": "C24", "title": "Per-level views list every point of that level", "statement": "After parallelSolve/solve, getSolutionsPerLevel / getTimesPerLevel list for every branch and level exactly the points of the branch with that level, in order. (Violated: only the first nBranches points of each branch are listed, or memory past the end is read; a second call duplicates entries.)", "quantifier": "every set of branches", "why_tests_cant": "All branch counts and sizes.", "anchors": ["src/gsALMSolvers/gsAPALM.hpp: _finalize", "src/gsALMSolvers/gsAPALM.h: getSolutionsPerLevel, getTimesPerLevel"]}
{"id": "C25", "title": "Every dispatched job is answered and submitted exactly once", "statement": "In the parallel solve, for any number of workers and any timing, each popped job is sent to exactly one idle worker, its result is submitted exactly once with the result computed from its own data, and when the main process leaves its loop no job is active.", "quantifier": "every number of workers >= 1, every schedule of message deliveries, every MaxIt", "why_tests_cant": "All interleavings of asynchronous processes.", "anchors": ["src/gsALMSolvers/gsAPALM.hpp: parallelSolve_impl<true>, _solve_impl<true>"]}
{"id": "C26", "title": "The parallel solve cannot deadlock and stops all workers", "statement": "From every reachable state in which the main process has not finished, some process can take a step; every execution is finite when refinement is finite; at the end each worker has received exactly one stop message and has terminated, with no message left in transit.", "quantifier": "every number of workers >= 1 and every schedule", "why_tests_cant": "Deadlock freedom quantifies over all schedules.", "anchors": ["src/gsALMSolvers/gsAPALM.hpp: parallelSolve_impl<true>, _sendMainToAll"]}
{"id": "C27", "title": "Parallel and single-process solve return the same curve", "statement": "If MaxIt is not reached, parallelSolve with any number of worker processes and any timing returns the same times, solutions and levels as the single-process parallelSolve.", "quantifier": "every number of workers, every schedule, every deterministic correction", "why_tests_cant": "All schedules and worker counts.", "anchors": ["src/gsALMSolvers/gsAPALM.hpp: parallelSolve_impl<true>, parallelSolve_impl<false>"]}
{"id": "C28", "title": "A worker holds at most one job", "statement": "In the first parallel call each worker has at most one job at a time. In a second parallel call on the same object the worker pool contains every worker twice, so the same worker can be sent two jobs.", "quantifier": "every schedule; every number of calls", "why_tests_cant": "Depends on history over several calls and on timing.", "anchors": ["src/gsALMSolvers/gsAPALM.hpp: parallelSolve_impl<true> (m_workers)"]}
{"id": "C29", "title": "Messages are received with the layout with which they were sent", "statement": "For every job and result, the sequence of (tag, type, length) receives performed by the receiving side matches the sequence of sends, so that decoding what was encoded returns the same job data or result, for any number and size of solutions. (Violated: the one-word buffers holding the load and the vector size of each solution of a result are reused while their non-blocking sends are pending, so MPI may transmit the last load for all solutions. Holds if each send completes at once, or if all loads and sizes agree.)", "quantifier": "every vector size, number of solutions, and message content; every moment at which MPI may read a pending send buffer", "why_tests_cant": "All sizes and all transmission moments; mismatches only show for particular sizes or MPI implementations.", "anchors": ["src/gsALMSolvers/gsAPALM.hpp: _sendMainToWorker, _recvMainToWorker, _sendWorkerToMain, _recvWorkerToMain"]}
{"id": "C31", "title": "A failed arc-length step leaves the equilibrium point unchanged", "statement": "If step() returns anything but Success, solutionU(), solutionL(), the lengths and the AdaptiveLength setting are those before the call and converged() is false; the status is NotConverged, AssemblyError, SolverError or OtherError exactly for the corresponding cause (iteration limit with criteria not met, residual/Jacobian assembly, factorisation or solve, solver not initialised); no exception escapes. (With BifurcationMethod Determinant a factorisation that fails inside the stability computation is not reported.)", "quantifier": "every residual, Jacobian and linear-solver behaviour, every MaxIter", "why_tests_cant": "Failures can occur at any iteration and any call.", "anchors": ["src/gsALMSolvers/gsALMBase.hpp: step, _step"]}
{"id": "C32", "title": "Success of an arc-length step means the convergence criteria hold at the returned point", "statement": "If step() returns Success (and MaxIter >= 2) then at the last iteration both relative residual measures were below TolF and TolU, converged() is true, and the new point is the old one plus the accumulated increments. With MaxIter <= 1 Success is returned although nothing was computed.", "quantifier": "every sequence of iterates, every MaxIter", "why_tests_cant": "Unbounded iterations, all option values.", "anchors": ["src/gsALMSolvers/gsALMBase.hpp: step, _step"]}
{"id": "C34", "title": "Adaptive step length stays between half and twice the current length", "statement": "With AdaptiveLength, after a successful step the length is multiplied by a factor between 1/2 and 2; because of integer division the factor is always exactly 1/2, 1 or 2 (2 if at most half of AdaptiveIterations were used, 1/2 if more were used). resetLength on a solver that has not stepped divides by zero.", "quantifier": "every iteration count and AdaptiveIterations", "why_tests_cant": "All integer pairs.", "anchors": ["src/gsALMSolvers/gsALMBase.hpp: computeLength, resetLength"]}
{"id": "C35", "title": "Load control advances the load by exactly the step length", "statement": "After n successful load-control steps without a guess the load factor is the initial one plus the sum of the lengths in force; failed steps contribute nothing. A guess set with setInitialGuess should serve one step only; in fact load control never drops it, and the load returns to the guessed value in every second step.", "quantifier": "every sequence of successful and failing steps, every n", "why_tests_cant": "Unbounded histories.", "anchors": ["src/gsALMSolvers/gsALMLoadControl.hpp: predictor, predictorGuess, iteration, iterationFinish"]}
{"id": "C36", "title": "Crisfield corrector stays on the constraint sphere", "statement": "After every Crisfield iteration with real roots (no relaxation) the accumulated increment satisfies distance(DeltaU,DeltaL) = arc length, whichever root is chosen and whatever the iterative displacements are; the complex-root fallback by scaling also ends on the sphere unless it starts at its centre; with the modified roots the squares differ by the remaining discriminant over 4a. Hence a successful step whose last iteration had real roots moved by exactly the length in force.", "quantifier": "every increment, every displacement correction, every forcing, phi and length in a real inner-product space of any dimension", "why_tests_cant": "Holds for all real vectors; floating tests sample.", "anchors": ["src/gsALMSolvers/gsALMCrisfield.hpp: computeLambdasSimple, computeLambdas, computeLambdasComplex, computeLambdaDOT, iteration", "src/gsALMSolvers/gsALMCrisfield.h: distance"]}
{"id": "C37", "title": "Crisfield predictor has exactly the prescribed length", "statement": "The first predictor (default phi) and the later sign-selecting predictor both satisfy distance(DeltaU,DeltaL) = arc length whenever the tangent is nonzero; with a user-set phi the first one is off by a stated factor. The later one does not go back, and degenerates to a zero step exactly when the previous increment is orthogonal to the tangent; such a step cannot succeed.", "quantifier": "every tangent, previous increment, forcing and length", "why_tests_cant": "All vectors.", "anchors": ["src/gsALMSolvers/gsALMCrisfield.hpp: predictor, computeLambdaMU"]}
{"id": "C38", "title": "Crisfield root choice goes forward", "statement": "Of the two roots the one chosen is that with the larger value of the measure computed by the code. If the load vector has unit norm this is the root with the larger projection of the new increment on the previous increment in the metric of the distance, so the path does not turn back if one root goes forward. (For other load vectors this is violated: the measure omits the factor F.F.)", "quantifier": "every pair of roots and previous increments", "why_tests_cant": "All vectors.", "anchors": ["src/gsALMSolvers/gsALMCrisfield.hpp: computeLambdaDOT"]}
{"id": "C40", "title": "Riks and consistent-Crisfield correctors never undershoot the arc length", "statement": "After an iteration of the Riks or the consistent Crisfield method the accumulated increment has squared distance equal to the squared arc length plus the squared distance of the last iterative increment, if the denominator of the load update is nonzero; hence a successful step has distance >= arc length, with equality up to the last correction.", "quantifier": "every increment, correction and parameter, in every dimension", "why_tests_cant": "All vectors; algebraic identity.", "anchors": ["src/gsALMSolvers/gsALMRiks.hpp: iteration", "src/gsALMSolvers/gsALMConsistentCrisfield.hpp: iteration"]}
{"id": "C41", "title": "Stability indicator sign and change detection", "statement": "stabilityChange() holds exactly if the indicator changed sign class (negative / non-negative) between the two last evaluations. The documented sign (-1 unstable, +1 stable) is reversed, and isStable() returns true for every indicator.", "quantifier": "every sequence of indicators", "why_tests_cant": "All indicator values.", "anchors": ["src/gsALMSolvers/gsALMBase.hpp: _computeStability, stability, stabilityChange", "src/gsALMSolvers/gsALMBase.h: isStable"]}
{"id": "C42", "title": "Singular point computation preserves the step settings", "statement": "computeSingularPoint by bisection returns with the arc length and the AdaptiveLength setting as before. (Violated when an assembly or solver error occurs during the bisection.)", "quantifier": "every sequence of step outcomes and errors during bisection", "why_tests_cant": "Error at any of unboundedly many points.", "anchors": ["src/gsALMSolvers/gsALMBase.hpp: _bisectionSolve, computeSingularPoint"]}
{"id": "C43", "title": "computeSingularPoint reports its own outcome", "statement": "The status returned by computeSingularPoint is Success iff the singular point was found. (Violated: the status of an earlier call is returned, and non-convergence is not reported.)", "quantifier": "every earlier history", "why_tests_cant": "History dependent.", "anchors": ["src/gsALMSolvers/gsALMBase.hpp: computeSingularPoint"]}
{"id": "C45", "title": "Distances satisfy the triangle inequality", "statement": "The Crisfield and Riks (0<=phi<=1, which its predictor establishes) distances are semi-norms: non-negative, absolutely homogeneous, and d(a+b) <= d(a)+d(b). Hence, if the scaling does not change during a correction, the total error that submit computes from the measured distances is non-negative, and so is the lower error if the substeps are in total not longer than prescribed.", "quantifier": "all increments, chains of any number of points", "why_tests_cant": "All vectors and chain lengths.", "anchors": ["src/gsALMSolvers/gsALMCrisfield.h: distance", "src/gsALMSolvers/gsALMRiks.h: distance", "src/gsALMSolvers/gsAPALMData.hpp: submit"]}
{"id": "C46", "title": "Newton success means the residual at the returned solution is small", "statement": "If gsStaticNewton::solveNonlinear returns Success (maxIt >= 1) then the residual at solution() has norm below tolF times the initial residual norm and the last update is below tolU relative to update(). With maxIt = 0 it returns Success without iterating.", "quantifier": "every residual, Jacobian and linear solver, every iteration count", "why_tests_cant": "Unbounded iterations, arbitrary nonlinear functions.", "anchors": ["src/gsStaticSolvers/gsStaticNewton.hpp: solveNonlinear, _solveNonlinear, _start"]}
{"id": "C47", "title": "Newton failure behaviour", "statement": "The returned status is NotConverged / AssemblyError / SolverError exactly for the iteration limit / a failing residual or Jacobian / a failing factorisation; on assembly or solver failure solution() is unchanged, on NotConverged solution() has been moved to the last iterate.", "quantifier": "every failure position", "why_tests_cant": "Failure at any iteration.", "anchors": ["src/gsStaticSolvers/gsStaticNewton.hpp: solveNonlinear, _solveNonlinear"]}
{"id": "C48", "title": "Newton solves linear problems in one iteration", "statement": "For an affine residual with its exact Jacobian, an exact linear solver and Relaxation 1, the first Newton iterate is the solution, from any start and headstart.", "quantifier": "every dimension, matrix, load and start", "why_tests_cant": "All linear systems.", "anchors": ["src/gsStaticSolvers/gsStaticNewton.hpp: _solveNonlinear"]}
{"id": "C49", "title": "Load factor after construction with an arc-length residual", "statement": "A static solver constructed from an arc-length residual solves for load factor 1 unless setLoad is called. (Violated: gsStaticNewton and gsStaticDR start with load factor 0.)", "quantifier": "every residual", "why_tests_cant": "Construction order effect; one per constructor, then all residuals.", "anchors": ["src/gsStaticSolvers/gsStaticNewton.h: constructors", "src/gsStaticSolvers/gsStaticDR.h: constructors", "src/gsStaticSolvers/gsStaticNewton.hpp: _init, reset", "src/gsStaticSolvers/gsStaticBase.h: reset"]}
{"id": "C50", "title": "Dynamic relaxation reports failure through its status", "statement": "gsStaticDR::solve returns NotConverged when the iteration limit is reached and AssemblyError when the residual fails. (Violated: the exception escapes and the status is not updated; with maxIt = 1 Success is returned without an iteration.)", "quantifier": "every residual and iteration limit", "why_tests_cant": "All failure positions.", "anchors": ["src/gsStaticSolvers/gsStaticDR.hpp: solve, _solve"]}
{"id": "C51", "title": "Dynamic relaxation success criterion", "statement": "If solve returns Success (maxIt>=2) the tested residual, energy and update ratios were below tolerance and energies() has one entry per iteration plus one, all non-negative for positive masses; the residual tested belongs to the previous configuration, not to solution().", "quantifier": "every residual function and iteration count", "why_tests_cant": "Unbounded iterations.", "anchors": ["src/gsStaticSolvers/gsStaticDR.hpp: _solve, _iteration, _peak, _start"]}
{"id": "C52", "title": "Composite solver runs its stages in order and stops at the first failure", "statement": "gsStaticComposite::solve returns Success iff all stages succeed, in which case solution() and update() are those of the last stage and iterations() is the sum; otherwise it returns the status of the first failing stage, no later stage is run and the last successful stage results are kept.", "quantifier": "every list of solvers and outcomes", "why_tests_cant": "Any number of stages.", "anchors": ["src/gsStaticSolvers/gsStaticComposite.hpp: solve"]}
{"id": "C53", "title": "Displacement control keeps load and displacement consistent", "statement": "After any sequence of steps of gsControlDisplacement, solutionL() is the sum of the increments of successful steps, solutionU() the sum of their updates and equals the solver solution after each success; a failed step changes neither.", "quantifier": "every sequence of successful and failing steps", "why_tests_cant": "Unbounded histories.", "anchors": ["src/gsStaticSolvers/gsControlDisplacement.h: step"]}
{"id": "C55", "title": "gsStaticOpt status", "statement": "converged() is true after solve() returned Success. (Violated: the member status is never set, and Success is returned whatever the optimiser does.)", "quantifier": "every optimiser outcome", "why_tests_cant": "All optimiser behaviours.", "anchors": ["src/gsStaticSolvers/gsStaticOpt.hpp: solve"]}
{"id": "C56", "title": "Dynamic step bookkeeping", "statement": "After any sequence of step(dt) calls, time() is the sum of the dt whose pre-step callback accepted; a rejected step changes nothing but the status; a step whose integrator fails still advances time and overwrites the state.", "quantifier": "every sequence of steps, callbacks and outcomes", "why_tests_cant": "Unbounded histories.", "anchors": ["src/gsDynamicSolvers/gsDynamicBase.h: step"]}
{"id": "C57", "title": "Newmark step satisfies the Newmark relations and equilibrium at the new time", "statement": "After a linear Newmark step: U1 = U0+dt V0+dt^2((1/2-alpha)A0+alpha A1), V1 = V0+dt((1-delta)A0+delta A1), and M A1 + C V1 + K U1 = F(t+dt).", "quantifier": "every linear system, parameters, time step and state, in any vector space, any number of steps", "why_tests_cant": "All systems and step counts.", "anchors": ["src/gsDynamicSolvers/gsDynamicNewmark.hpp: _step_impl<false>"]}
{"id": "C58", "title": "Average-acceleration Newmark conserves energy", "statement": "With alpha=1/4, delta=1/2, no load, symmetric M and K and no damping, the energy (V.MV+U.KU)/2 is the same after any number of steps (from a state in equilibrium); with positive semidefinite damping it never increases.", "quantifier": "every symmetric system, time step, and number of steps", "why_tests_cant": "Unbounded number of steps, exact conservation.", "anchors": ["src/gsDynamicSolvers/gsDynamicNewmark.hpp: _step_impl<false>"]}
{"id": "C59", "title": "Linear and nonlinear integrators agree on linear problems", "statement": "For residual R = F - K U the nonlinear Newmark, Bathe and RK4 steps give the same result as their linear versions. The nonlinear explicit Euler step does not (opposite sign of the residual); nor do the linear and nonlinear Wilson steps agree.", "quantifier": "every linear system and state", "why_tests_cant": "All systems.", "anchors": ["src/gsDynamicSolvers/gsDynamicNewmark.hpp", "src/gsDynamicSolvers/gsDynamicBathe.hpp", "src/gsDynamicSolvers/gsDynamicRK4.hpp", "src/gsDynamicSolvers/gsDynamicExplicitEuler.hpp", "src/gsDynamicSolvers/gsDynamicWilson.hpp"]}
{"id": "C60", "title": "Implicit Euler is unconditionally stable", "statement": "A linear implicit Euler step satisfies U1 = U0 + dt V1 and M(V1-V0)+dt C V1+dt K U1 = dt F, and without load and with positive semidefinite symmetric M, K and C >= 0 the energy does not increase over any number of steps and any dt > 0.", "quantifier": "every system, dt, number of steps", "why_tests_cant": "Unbounded steps.", "anchors": ["src/gsDynamicSolvers/gsDynamicImplicitEuler.hpp: _step_impl<false>"]}
{"id": "C61", "title": "Nonlinear implicit Euler evaluates the residual at the new time", "statement": "At success the returned state satisfies the implicit Euler equations with residual at t+dt up to tolerance. (Violated: after the first iteration the residual is evaluated at t, and convergence is tested on the state before the last update.)", "quantifier": "every time-dependent residual", "why_tests_cant": "All residual functions.", "anchors": ["src/gsDynamicSolvers/gsDynamicImplicitEuler.hpp: _step_impl<true>"]}
{"id": "C62", "title": "RK4 reproduces the fourth-order Taylor polynomial", "statement": "For a linear system without load, n RK4 steps multiply the state by the n-th power of I+hL+(hL)^2/2+(hL)^3/6+(hL)^4/24, L being the first-order form of the system.", "quantifier": "every linear system, h, n", "why_tests_cant": "All n and systems.", "anchors": ["src/gsDynamicSolvers/gsDynamicRK4.hpp: _step_impl<false>"]}
{"id": "C63", "title": "Bathe second stage", "statement": "The three-point formula used for velocities and accelerations is exact for quadratic motion, its weights sum to zero, and the linear Bathe step satisfies M A1+C V1+K U1=F(t+dt).", "quantifier": "every gamma not 0 or 1, dt > 0, every system", "why_tests_cant": "All parameters.", "anchors": ["src/gsDynamicSolvers/gsDynamicBathe.hpp: _step_impl<false>"]}
{"id": "C64", "title": "Wilson method consistency", "statement": "With gamma = 1 a Wilson step equals a Newmark step, and a failing inner step is reported. (Linear version violates both: uniform motion is not reproduced and Success is always returned.)", "quantifier": "every state and system", "why_tests_cant": "All systems.", "anchors": ["src/gsDynamicSolvers/gsDynamicWilson.hpp: _step_impl"]}
{"id": "C67", "title": "Eigenvalue shift does not change the eigenpairs", "statement": "For every shift, the pairs returned by compute() satisfy A v = lambda B v for the original matrices, given that the internal solver returns eigenpairs of the shifted pencil; an assembly error recorded at construction is returned by every later compute call.", "quantifier": "every pencil and shift", "why_tests_cant": "All matrices.", "anchors": ["src/gsEigenSolvers/gsEigenProblemBase.hpp: compute, computeSparse_impl, computePower"]}
{"id": "C68", "title": "Buckling assembly failure is reported", "statement": "If the Jacobian callback fails during construction of gsBucklingSolver the status is AssemblyError. (Violated when failure is signalled by returning false.)", "quantifier": "every callback", "why_tests_cant": "All callbacks.", "anchors": ["src/gsEigenSolvers/gsBucklingSolver.h: initializeMatrix"]}
{"id": "C69", "title": "Power iteration", "statement": "When the iterate is an eigenvector of D=A^-1 B with eigenvalue mu != 0, the returned value is the eigenvalue 1/mu of the pencil; the iteration reports NotConverged for every start if mu is negative, although the iterate is exact.", "quantifier": "every pencil of any size", "why_tests_cant": "Unbounded matrices.", "anchors": ["src/gsEigenSolvers/gsEigenProblemBase.hpp: computePower"]}
{"id": "C70", "title": "CSV output keeps one line per record", "statement": "After init and n calls of add the file has n+1 lines, and every data line has as many fields as the header provided each added matrix has as many columns as the registered points.", "quantifier": "every header list, number of points and records", "why_tests_cant": "Unbounded records.", "anchors": ["src/gsStructuralAnalysisTools/gsStructuralAnalysisUtils.h: init, add, _writePointData"]}
{"id": "C71", "title": "Averaged knot vectors are valid", "statement": "The knot vector built by gsSolutionFitter::compute is non-decreasing, starts with deg+1 zeros and ends with deg+1 ones before the affine map, and its interior knots lie strictly inside, for chord-length and centripetal parameterisation.", "quantifier": "every increasing list of at least deg+1 parameters and deg >= 1", "why_tests_cant": "All lists and degrees.", "anchors": ["src/gsStructuralAnalysisTools/gsSolutionFitter.h: compute"]}
{"id": "C72", "title": "A correction returns when short steps succeed", "statement": "If the arc-length solver accepts every step not longer than some positive length, a correction returns after finitely many steps, for every interval length, number of sub-intervals and behaviour of the longer steps.", "quantifier": "every solver with that property, every interval length and SubIntervals >= 1", "why_tests_cant": "Termination for every failure pattern cannot be observed by running finitely many patterns.", "anchors": ["src/gsALMSolvers/gsAPALM.hpp: _correction"]}
{"id": "C73", "title": "solve() does not depend on the number of processes and on timing", "statement": "Two runs of solve(N) from one start, with any numbers of worker processes and any order of messages, which both end with no job waiting, give the same branches with the same times, solutions and levels. A run without MPI gives the same result if the solver has the length of the main process when a bifurcation is found. (Violated otherwise: the length of a new branch is taken from the solver of the main process, which never steps, with MPI, and from the solver that made the last step without MPI.)", "quantifier": "every number of processes, every interleaving, every initiation and correction function", "why_tests_cant": "Schedules cannot be enumerated; the difference with a single process needs two bifurcations.", "anchors": ["src/gsALMSolvers/gsAPALM.hpp: _solve_impl, lines 506-931"]}
{"id": "C74", "title": "A guessed step starts towards the guess", "statement": "When a guess set with setInitialGuess is used, the predictor points from the current point towards the guess, and the guess is dropped afterwards. Holds for Riks; the consistent Crisfield method keeps the guess; Crisfield's predictor points away from the guess (its projection on the direction to the guess is negative unless that direction is orthogonal to the tangent).", "quantifier": "every state, guess, tangent, forcing and length", "why_tests_cant": "Whether a step goes the right way depends on the sign of an inner product with the tangent; the existing tests never set a guess, and the claim is about every guess and tangent.", "anchors": ["src/gsALMSolvers/gsALMCrisfield.hpp:167-191", "src/gsALMSolvers/gsALMRiks.hpp:137-170", "src/gsALMSolvers/gsALMConsistentCrisfield.hpp:141-178"]}
{"id": "C75", "title": "Secant predictors repeat the previous increment", "statement": "Without a guess, and unless the two last points coincide up to the fixed tolerance, the predictor of Riks and of the consistent Crisfield method is the previous increment multiplied by arc length / previous arc length.", "quantifier": "every state, every pair of lengths", "why_tests_cant": "The scaling by the previous length matters only when the length changes between steps, for arbitrary pairs of lengths.", "anchors": ["src/gsALMSolvers/gsALMRiks.hpp:98-134", "src/gsALMSolvers/gsALMConsistentCrisfield.hpp:102-138"]}
{"id": "C76", "title": "Extended system iterations for a singular point", "statement": "If the extended system reports convergence then the point moved by the accumulated increments and the norm of K(U)(v+dv), with the tangent at the new point, is below SingularPointComputationTolE; the vector has length at least 1 after an iteration. If it does not converge, U, L are the given ones and all increments are zero, unless SingularPointFailure is 1. (Violated: equilibrium is not tested, with MaxIter 0 convergence is reported without any test.)", "quantifier": "every problem, start point, vector, tolerance, number of iterations", "why_tests_cant": "Unbounded iterations, all problems.", "anchors": ["src/gsALMSolvers/gsALMBase.hpp: _extendedSystemSolve, _extendedSystemIteration"]}
{"id": "C77", "title": "Branch switching", "statement": "switchBranch() moves U by exactly 1/Perturbation along the vector of the singular point, keeps L, and forgets the previous increment, so that the next predictor of Crisfield's method is the one without history.", "quantifier": "every state with a nonzero vector, every positive perturbation", "why_tests_cant": "All vectors and dimensions.", "anchors": ["src/gsALMSolvers/gsALMBase.hpp: switchBranch", "src/gsALMSolvers/gsALMCrisfield.hpp: predictor"]}
{"id": "C78", "title": "Bisection stays on the path", "statement": "Whatever fails during the bisection for a singular point, the point afterwards is the start point or one reached from it by successful steps, each with the arc length halved some number of times and without adaption.", "quantifier": "every problem, method, sequence of step outcomes and errors", "why_tests_cant": "Unbounded sequences of outcomes.", "anchors": ["src/gsALMSolvers/gsALMBase.hpp: _bisectionSolve"]}
{"id": "C79", "title": "Iteration count of the Newton solver", "statement": "gsStaticNewton::iterations() is the number of Newton iterations made by the last solve. (Violated: it is one less, after success and after reaching the limit.)", "quantifier": "every residual, Jacobian, linear solver and iteration limit", "why_tests_cant": "Any number of iterations.", "anchors": ["src/gsStaticSolvers/gsStaticNewton.hpp: _solveNonlinear", "src/gsStaticSolvers/gsStaticBase.h: iterations"]}
{"id": "C80", "title": "Schedule of velocity resets in dynamic relaxation", "statement": "With damping, ResetIt = p >= 1 resets the velocity exactly in the iterations p+1, 2p+1, 3p+1, ...; a negative ResetIt never does; ResetIt = 0 does so in the first iteration only.", "quantifier": "every residual, number of iterations and p", "why_tests_cant": "Unbounded iterations, every p.", "anchors": ["src/gsStaticSolvers/gsStaticDR.hpp: _solve, _peak"]}
{"id": "C81", "title": "Kinetic damping keeps energies() increasing between resets", "statement": "Without damping, every entry of energies() after a successful solve is zero or not smaller than the entry before it.", "quantifier": "every residual and number of iterations", "why_tests_cant": "Unbounded iterations, arbitrary functions.", "anchors": ["src/gsStaticSolvers/gsStaticDR.hpp: _solve, _iteration, _peak"]}
{"id": "C82", "title": "reset() of the dynamic relaxation keeps the mass scaling", "statement": "A gsStaticDR object after reset() uses the same scaled masses as after initialize(). (Violated unless alpha = 1: reset() drops the factor 1/alpha.)", "quantifier": "every mass, alpha and state", "why_tests_cant": "All parameter values.", "anchors": ["src/gsStaticSolvers/gsStaticDR.hpp: initialize, reset"]}
{"id": "C83", "title": "Composite stages continue from each other", "statement": "If all stages have the same displacement before gsStaticComposite::solve, each stage starts from the solution of the stage before, and after success solution() is that displacement plus update(). (Violated when solve is called again without setDisplacement.)", "quantifier": "every number of stages and every solver which moves its solution by its update", "why_tests_cant": "Any number of stages.", "anchors": ["src/gsStaticSolvers/gsStaticComposite.hpp: solve"]}
{"id": "C84", "title": "gsStaticOpt continues from its solution", "statement": "A further solve of gsStaticOpt starts the optimizer from solution(). (Violated: it starts from solution()+update().)", "quantifier": "every optimizer and state", "why_tests_cant": "All optimizers and states.", "anchors": ["src/gsStaticSolvers/gsStaticOpt.hpp: solve"]}
{"id": "C85", "title": "Objective of the static optimisation problem", "statement": "evalObj is zero exactly in equilibrium and gradObj_into is its gradient. (Violated: it is zero wherever the residual callback fails, and the gradient is minus the residual.)", "quantifier": "every residual", "why_tests_cant": "All residual functions.", "anchors": ["src/gsStaticSolvers/gsStaticOpt.h: gsOptProblemStatic"]}
{"id": "C86", "title": "MaxIt of solve counts corrections only", "statement": "Without MPI, gsAPALM::solve ends when no job is waiting or after exactly MaxIt corrections, never more; the initial steps are not counted.", "quantifier": "every solver, branching and MaxIt", "why_tests_cant": "Any number and order of jobs.", "anchors": ["src/gsALMSolvers/gsAPALM.hpp: _solve_impl<false>"]}
{"id": "C87", "title": "Failing callbacks of the integrators", "statement": "A callback that returns false during step(dt) leads to a status other than Success and an unchanged state. (Violated: the integer exception escapes from step(); time() and the status keep their old values, so converged() may still be true, and the displacements may already be overwritten by the predictor.) If a callback failed an exception leaves step(); if an exception leaves step(), the last callback failed or the quasi-Newton interval is 0.", "quantifier": "every method, callbacks failing at any call, any state", "why_tests_cant": "All moments of failure.", "anchors": ["src/gsDynamicSolvers/gsDynamicBase.h: step, _computeForce, _computeMass"]}
{"id": "C88", "title": "Accelerations after Euler and Runge-Kutta steps", "statement": "accelerations() after a step is the acceleration at the new time. (Violated: explicit Euler, Runge-Kutta and implicit Euler never change it, in any sequence of steps.)", "quantifier": "every problem and sequence of steps", "why_tests_cant": "Unbounded histories.", "anchors": ["src/gsDynamicSolvers/gsDynamicExplicitEuler.hpp", "src/gsDynamicSolvers/gsDynamicRK4.hpp", "src/gsDynamicSolvers/gsDynamicImplicitEuler.hpp"]}
{"id": "C89", "title": "Cached mass inverse", "statement": "With a constant mass matrix the inverse is computed once and used for every later explicit step; with a time dependent one it is computed from the mass at the start of each step.", "quantifier": "every problem and history", "why_tests_cant": "Unbounded histories.", "anchors": ["src/gsDynamicSolvers/gsDynamicBase.h: _computeMassInverse"]}
{"id": "C90", "title": "Nonlinear Newmark step", "statement": "However a Newmark step returns, the new state satisfies the two Newmark relations; when the nonlinear step reports Success the norm of the residual force at the new time is less than TolF times that of the predictor.", "quantifier": "every callback behaviour, solver, options, state", "why_tests_cant": "All nonlinear problems.", "anchors": ["src/gsDynamicSolvers/gsDynamicNewmark.hpp: _step_impl<true>"]}
{"id": "C91", "title": "Quasi-Newton iterations of the integrators", "statement": "A nonlinear Newmark or implicit Euler step with k iterations evaluates the residual k+1 times and the Jacobian k times, or ceil(k/p) times with quasi iterations of interval p > 0; k <= MaxIter, with equality if not converged. Interval 0 is undefined behaviour in the second iteration.", "quantifier": "every problem, option and state", "why_tests_cant": "All iteration counts.", "anchors": ["src/gsDynamicSolvers/gsDynamicNewmark.hpp", "src/gsDynamicSolvers/gsDynamicImplicitEuler.hpp"]}
{"id": "C92", "title": "numIterations() of the integrators", "statement": "numIterations() is the number of iterations of the last step. (Violated: it is never assigned and stays -1.)", "quantifier": "every method and sequence of steps", "why_tests_cant": "Unbounded histories.", "anchors": ["src/gsDynamicSolvers/gsDynamicBase.h: numIterations"]}
{"id": "C93", "title": "Static equilibrium is kept", "statement": "If the residual vanishes at U for all times (linear: K U = F constant) and V = A = 0, every method, linear or nonlinear, leaves U, V and A unchanged in any number of steps and raises no exception.", "quantifier": "every method, problem in equilibrium, number and sizes of steps", "why_tests_cant": "All problems and step counts.", "anchors": ["src/gsDynamicSolvers/gsDynamicBase.h: step", "src/gsDynamicSolvers/gsDynamicBathe.hpp"]}
{"id": "C94", "title": "Explicit Euler is multiplication by I+hL", "statement": "For a linear system without load, n linear explicit Euler steps multiply the state by the n-th power of I+hL.", "quantifier": "every linear system, h, n", "why_tests_cant": "All n and systems.", "anchors": ["src/gsDynamicSolvers/gsDynamicExplicitEuler.hpp: _step_impl<false>"]}
{"id": "C95", "title": "Parallel-in-time integration", "statement": "Steps of gsDynamicXBraid over consecutive intervals give what step(dt) of the solver gives, starting from the vectors of the solver, and leave the solver's state alone; refinement factors are at least 1, failures are reported, and different vectors have a positive distance. (Violated: error estimate 0 gives factor 0; failures on coarse levels are ignored; the norm ignores velocities and accelerations.)", "quantifier": "every method, problem, list of intervals", "why_tests_cant": "All interval sequences; needs MPI and XBraid.", "anchors": ["src/gsDynamicSolvers/gsDynamicXBraid.h: Init, Step, Access, SpatialNorm, BufSize"]}
{"id": "C96", "title": "Evaluation times of the callbacks", "statement": "In a step from t to t+dt, explicit Euler evaluates everything at t; Runge-Kutta the matrices at t and the loads at t, t+dt/2, t+dt; Newmark everything at t+dt; Wilson at t+gamma dt; Bathe at t+gamma dt and t+dt; implicit Euler at t+dt except the Jacobian of the linear version (t) and the residual of the nonlinear one (t or t+dt). Linear versions never use the residual, nonlinear ones never the force. Callbacks which agree at these times give the same step.", "quantifier": "every method and outcome", "why_tests_cant": "All outcomes.", "anchors": ["src/gsDynamicSolvers/gsDynamicBase.h: step"]}
{"id": "C97", "title": "compute() reports failures of the eigenvalue solver", "statement": "If the internal solver fails, compute() and computeSparse() return SolverError and the old values are kept. (Violated: the dense solver's info() is never asked and Success is returned; the values of an earlier call stay readable after any failing call; exceptions of Spectra escape.)", "quantifier": "every library behaviour and history of calls", "why_tests_cant": "All failures and histories.", "anchors": ["src/gsEigenSolvers/gsEigenProblemBase.hpp: compute, computeSparse_impl"]}
{"id": "C98", "title": "Buckling value is the critical load factor", "statement": "If the pair (lambda, v) solves the problem that gsBucklingSolver builds, then K_L + lambda (K_NL - K_L), the stiffness at lambda times the load, is singular along v, and K_L v = mu K_NL v with mu = lambda/(1+lambda). (The second part holds; the first is violated: the stiffness is singular at -lambda.)", "quantifier": "every pair of matrices and eigenpair", "why_tests_cant": "All matrices.", "anchors": ["src/gsEigenSolvers/gsBucklingSolver.h: initializeMatrix"]}
{"id": "C99", "title": "CSV precision", "statement": "setPrecision(p) determines the number of digits written by gsStructuralAnalysisOutput. (Violated: every number is written with the default precision of the stream.)", "quantifier": "every precision and record", "why_tests_cant": "All numbers.", "anchors": ["src/gsStructuralAnalysisTools/gsStructuralAnalysisUtils.h: setPrecision, init, add"]}
{"id": "C100", "title": "Solution fitter accepts its data", "statement": "compute() of gsSolutionFitter succeeds for every data set that the constructor accepts and uses all of the data; with increasing times from 0 on it does. (Violated: throws without a datum at time 0; data with a repeated time are dropped.)", "quantifier": "every data set", "why_tests_cant": "All lists.", "anchors": ["src/gsStructuralAnalysisTools/gsSolutionFitter.h: gsSolutionFitter, addDataPoint, compute"]}
{"id": "C101", "title": "Fitted curve passes through the data", "statement": "The fitted curve at the parameter of a datum is that datum. (The code interpolates at the anchors of the basis instead of at the parameters: proved for the anchors, and for the parameters with degree 1; violated for degree 2.)", "quantifier": "every data set and degree", "why_tests_cant": "All data sets.", "anchors": ["src/gsStructuralAnalysisTools/gsSolutionFitter.h: compute"]}
{"id": "C102", "title": "Closest parameter on a curve", "statement": "nearestParam returns one of the parameters at which the iterations from its trial points end, and none of the others is closer to the given point; the iterations leave the support by less than the tolerance times the parameter; a stationary parameter is kept. (Violated: if the iteration from the first trial point ends with NaN, the result is NaN; with no trial points it is undefined.)", "quantifier": "every curve, target and number of trials", "why_tests_cant": "All curves.", "anchors": ["src/gsStructuralAnalysisTools/gsSolutionFitter.h: nearestParam"]}
{"id": "C103", "title": "Space-time fit reproduces its data", "statement": "Every data set given to gsSpaceTimeFitter, at construction or by addDataPoint, is reproduced by the fit at its parametric time. (Holds at the k-th anchor of the basis for the k-th datum of the constructor; violated otherwise: addDataPoint drops solution and time, and of the parametric times only the smallest and largest count.)", "quantifier": "every data set, degree and number of steps", "why_tests_cant": "All sizes.", "anchors": ["src/gsStructuralAnalysisTools/gsSpaceTimeFitter.h: addDataPoint, compute"]}
{"id": "C104", "title": "Load of a slice", "statement": "slice(xi) returns the load at xi for curves, surfaces and solids. (Holds if the points have one component more than the domain; reads out of range if they have fewer, returns a displacement component if they have more; for curves the basis of a missing direction is used.)", "quantifier": "every dimension and data set", "why_tests_cant": "All dimensions and data.", "anchors": ["src/gsStructuralAnalysisTools/gsSpaceTimeFitter.h: slice, _basis_impl"]}
{"id": "C105", "title": "Position of panels", "statement": "A panel created at (x,y,z) is the panel created at the origin moved by (x,y,z), at every point of every patch. (Violated by PlateGirderL, which ignores the position.)", "quantifier": "all dimensions and positions", "why_tests_cant": "All real parameters.", "anchors": ["src/gsStructuralAnalysisTools/gsPanelCreator.hpp"]}
{"id": "C106", "title": "Patches of panels are joined", "statement": "In every panel each patch after the first shares a whole side with an earlier one, and declared interfaces join coinciding sides. (Violated by the interface that LBeam declares.)", "quantifier": "all dimensions and positions", "why_tests_cant": "All real parameters.", "anchors": ["src/gsStructuralAnalysisTools/gsPanelCreator.hpp"]}
{"id": "C107", "title": "Load stepping: points, times, termination", "statement": "serialSolve(n) ends with n+1 points from the origin on; each is the result of a converged step from the point before, in equilibrium up to the tolerance, and the curve time grows by the length of that step, which is the first length halved some number of times. (Ends if all small steps converge; violated otherwise: the loop has no lower bound on the length.)", "quantifier": "every arc-length method, problem and number of steps", "why_tests_cant": "All patterns of failing steps; termination.", "anchors": ["src/gsALMSolvers/gsAPALMBase.hpp: serialSolve", "solvers/quasistatic_shell_XML.cpp", "examples/gsThinShell_ArcLength.cpp"]}
{"id": "C108", "title": "Load stepping: length after a halving", "statement": "A length that succeeded after a failure is used once more, and only then the first length is restored; solver and loop agree about the length. (Holds for gsAPALMBase and gsThinShell_ArcLength without AdaptiveLength; violated by the quasi-static solvers, which never set bisected, by benchmark_Beam, and with AdaptiveLength.)", "quantifier": "every solver and history of attempts", "why_tests_cant": "All patterns of failing steps.", "anchors": ["src/gsALMSolvers/gsAPALMBase.hpp: serialSolve", "solvers/quasistatic_shell_XML.cpp", "benchmarks/benchmark_Beam.cpp"]}
{"id": "C109", "title": "Load stepping: failed steps are repeated", "statement": "A step that does not return Success is repeated and never stored. (Holds where converged() is asked; violated where only NotConverged and AssemblyError are: after SolverError or OtherError the previous point is stored again at a later curve time.)", "quantifier": "every arc-length method and problem", "why_tests_cant": "All failures of solvers and callbacks.", "anchors": ["src/gsALMSolvers/gsAPALMBase.hpp: serialSolve", "examples/gsThinShell_ArcLength.cpp", "benchmarks/benchmark_Roof.cpp"]}
{"id": "C110", "title": "Arc lengths: set, reduce, reset", "statement": "setLength(l) makes l the length and the original length; reduceLength multiplies the length by its factor; resetLength returns to the length that was set; applyOptions and setOptions give the length of the options. (Violated: resetLength with adaptive lengths before the first step divides by zero; the flag and the number of iterations given to setLength are undone by applyOptions and setOptions.)", "quantifier": "every object, method, number of reductions and sequence of calls", "why_tests_cant": "All sequences of calls.", "anchors": ["src/gsALMSolvers/gsALMBase.h: setLength", "src/gsALMSolvers/gsALMBase.hpp: reduceLength, resetLength, getOptions"]}
{"id": "C111", "title": "Options of the arc-length methods", "statement": "setOptions stores what is given, keeps the other options, and the solver works with the result at once; two lists one after the other act like their union; applyOptions is idempotent; the determinant method is used only with SimplicialLDLT. (Violated: options_into changes a copy; setOptions also resets the arc length and the factorisation.)", "quantifier": "every method, object and option list", "why_tests_cant": "All option lists.", "anchors": ["src/gsALMSolvers/gsALMBase.hpp: defaultOptions, getOptions", "src/gsALMSolvers/gsALMBase.h: setOptions, options_into, applyOptions"]}
{"id": "C112", "title": "Construction and initialisation of the arc-length methods", "statement": "initialize() puts the object at the origin and keeps the lengths; what the object does afterwards does not depend on the members that the constructors leave uninitialised. (Violated: a solution set before is lost; an exception of type int escapes; the assertion on initialize reads an uninitialised member; stabilityChange() after initialize(false), the status after the second constructor, and Riks with a guess in the first step are indeterminate.)", "quantifier": "every method, constructor, option list, number of steps and contents of the memory", "why_tests_cant": "Uninitialised memory has any value.", "anchors": ["src/gsALMSolvers/gsALMBase.h: constructors, initialize", "src/gsALMSolvers/gsALMBase.hpp: initialize, _computeStability", "src/gsALMSolvers/gsALMRiks.hpp: predictorGuess"]}
{"id": "C113", "title": "A step depends only on what was set", "statement": "After setLength, setSolution and setPrevious, all following steps return the same and reach the same points for any two objects with the same settings, whatever these did before; a failed step does not influence the shorter one that follows. So it does not matter which process of the parallel method computes an interval. (Violated by Crisfield with a Jacobian of two arguments, which gets the last increment of the step before; by consistent Crisfield without user-given scaling, which uses the tangent of the step before; and, for failed steps, by Crisfield with an angle per predictor or iteration.)", "quantifier": "every method, problem with deterministic callbacks, pair of objects and number of steps", "why_tests_cant": "All histories of an object.", "anchors": ["src/gsALMSolvers/gsAPALM.hpp: _initialization, _correction", "src/gsALMSolvers/gsALMBase.h: setPrevious, setSolution", "src/gsALMSolvers/gsALMCrisfield.hpp: initiateStep, predictor", "src/gsALMSolvers/gsALMConsistentCrisfield.hpp: predictor"]}
{"id": "C114", "title": "The parallel arc-length method with the arc-length methods of the library", "statement": "With Crisfield's or Riks' method as the solver of the workers, an interval is corrected and a curve is continued identically by every process whose object has the same settings, whatever it did before; so parallelSolve and solve end with the same points for every number of processes, every order of messages and on a single process. (Violated: with SingularPoint, whether a bifurcation is found depends on the last job of the process; load control and consistent Crisfield do not implement distance() and every job throws.)", "quantifier": "every deterministic problem, number of processes, message order, history of the objects, subdivision", "why_tests_cant": "All schedules and histories.", "anchors": ["src/gsALMSolvers/gsAPALM.hpp: parallelSolve_impl, solve_impl, _initiation, _correction", "src/gsALMSolvers/gsALMBase.h: distance", "src/gsALMSolvers/gsALMCrisfield.hpp: distance", "src/gsALMSolvers/gsALMRiks.hpp: distance"]}
{"id": "C115", "title": "Arc-length methods on a linear structure", "statement": "On a linear structure, started in equilibrium, every step in which the load factor moves away from zero succeeds: with load control in one iteration, with Crisfield's method in at most two, with Riks' and the consistent Crisfield method after finitely many. It ends in equilibrium, moves in the direction of the previous step, and its length is the prescribed one (Crisfield) or exceeds it by the last correction only (Riks, consistent Crisfield). Hence with Crisfield's method any number of steps succeeds with increasing load. (Violated: a step whose predictor arrives at load factor 0 never succeeds, with any method, because the residual is divided by the load after the predictor.)", "quantifier": "every linear structure of any dimension, every equilibrium, length, tolerance, number of steps, direction, stability method, quasi-Newton setting", "why_tests_cant": "All structures, lengths and tolerances.", "anchors": ["src/gsALMSolvers/gsALMBase.hpp: _step, computeResidualNorms", "src/gsALMSolvers/gsALMLoadControl.hpp: predictor, iteration", "src/gsALMSolvers/gsALMCrisfield.hpp: predictor, iteration", "src/gsALMSolvers/gsALMRiks.hpp: predictor, iteration", "src/gsALMSolvers/gsALMConsistentCrisfield.hpp: predictor, iteration"]}
{"id": "C116", "title": "The singular-point test", "statement": "isBifurcation() / computeSingularPoint with testPoint assembles the Jacobian at the current solution, applies SingularPointTestIt steps of inverse power iteration to the vector of ones, normalises after every step, and reports a bifurcation exactly if the absolute value of the product of the resulting unit vector and the load is below the tolerance; the vector is kept for the branch switch. (Violated as a test for bifurcations: the start vector makes the test blind to every mode orthogonal to ones, in particular to all antisymmetric modes of a symmetric structure; if ones is an eigenvector the verdict does not depend on the other eigenvalues; the point passed to computeSingularPoint is not the one tested.)", "quantifier": "every problem, state, tolerance, number of power iterations, symmetric structure", "why_tests_cant": "All structures and states; the blind modes are exact only in exact arithmetic.", "anchors": ["src/gsALMSolvers/gsALMBase.hpp: computeSingularPoint, _testSingularPoint, isBifurcation", "src/gsALMSolvers/gsALMBase.h: computeSingularPoint"]}
{"id": "C117", "title": "Stability of the linear time integrators", "statement": "On a linear structure with symmetric, semidefinite mass, damping and stiffness: (1) n Newmark steps of size h under a constant load from a state in equilibrium never increase v\u00b7Sv + a\u00b7Ma + h\u00b2(ALPHA \u2212 DELTA/2) a\u00b7Sa, for every DELTA >= 1/2, if mass plus h\u00b2(ALPHA \u2212 DELTA/2) stiffness is semidefinite (always if 2 ALPHA >= DELTA); (2) without load, Bathe steps with ALPHA = 1/4, DELTA = 1/2 and 0 < GAMMA < 1, of any positive sizes, never increase the energy; (3) undamped and without load, n Runge-Kutta steps of size h never increase the energy if h\u00b2 S <= 8 M, and each step changes it by exactly \u2212h\u2076/72 E(L\u00b3w) + h\u2078/576 E(L\u2074w). (Violated by explicit Euler: for every step size the energy of an undamped structure grows at least by the factor (1 + l h\u00b2) per step if S >= l M.)", "quantifier": "every linear structure over an ordered field, every symmetric form, state in equilibrium, options, number and sizes of steps", "why_tests_cant": "Unbounded numbers of steps, all structures and all step sizes; instabilities at the limits show only after many steps.", "anchors": ["src/gsDynamicSolvers/gsDynamicNewmark.hpp: _step_impl", "src/gsDynamicSolvers/gsDynamicBathe.hpp: _step_impl", "src/gsDynamicSolvers/gsDynamicRK4.hpp: _step_impl", "src/gsDynamicSolvers/gsDynamicExplicitEuler.hpp: _step_impl"]}
{"id": "C118", "title": "Local convergence of the static Newton solver", "statement": "For a nonlinear problem with a solution u, near which the Jacobian is invertible with bound b and approximates the residual to second order with constant g: solveNonlinear from a start point (displacement, plus the update if one was set) with q = b g |start \u2212 u| <= 1 ends with Success or NotConverged, without relaxation the error of solution() after k iterations is at most q^(2^k \u2212 1) |start \u2212 u|, with relaxation w it shrinks by |1 \u2212 w| + |w| q per iteration; for positive tolerances and a displacement other than u there is a number of iterations after which every larger maxIt gives Success; after Success (1 \u2212 q) |solution() \u2212 u| <= b tolF |R(displacement)|. Without an update vector the start is the linear solution. (Violated if the displacement set is already the solution: NotConverged for every maxIt.)", "quantifier": "every problem, norm, start, relaxation, tolerance and maxIt", "why_tests_cant": "All problems, start points and numbers of iterations; rates are statements about limits.", "anchors": ["src/gsStaticSolvers/gsStaticNewton.hpp: _solveNonlinear, _start, solveNonlinear", "src/gsStaticSolvers/gsStaticBase.h: setUpdate, setDisplacement, getOptions"]}
{"id": "C119", "title": "Dynamic relaxation of linear structures", "statement": "For the residual F - A u with symmetric A, positive lumped masses M, mass coefficient alpha, damping factor c > 0 and a negative ResetIt, solve ends with Success or NotConverged, and the energy (alpha - c/2) v'Mv + (u-x)'A(u-x-v) of displacements u and velocities v never increases (x: equilibrium). If v'Av <= k v'Mv with k <= 4 alpha - 2 c, the strain energy of the error in the middle of the last step is at most that of the start, and the kinetic energies are bounded. If moreover k < 4 alpha - 2 c, A is positive definite, the tolerances are positive and the start is not the equilibrium, there is a number of iterations such that solve succeeds for every larger maxIt. At Success the residual is (1 - c/alpha) R + (c M - A) v with R and v the vectors tested. (Violated without damping: the reset evaluates the residual at the new displacement and does not return to the middle of the step before; on a single spring of stiffness 7/2 alpha m, below the stability limit 4 alpha m, solve never succeeds and each third iteration multiplies the error by 249/32.)", "quantifier": "every structure, mass, start, tolerance and maxIt", "why_tests_cant": "All structures and numbers of iterations; stability and convergence are statements about arbitrarily long runs.", "anchors": ["src/gsStaticSolvers/gsStaticDR.hpp: _solve, _start, _iteration, _peak, initialize"]}
{"id": "C120", "title": "Stability indicator and options of the static solvers", "statement": "After getOptions (called by solve of gsStaticNewton and by initialize of gsStaticDR), indicator(A, shift) returns the smallest computed eigenvalue (StabilityMethod Eigenvalue) or the smallest pivot (Determinant with SimplicialLDLT), and stabilityVec the vector. With a complete spectrum both are negative exactly if x'Ax takes a negative value and positive exactly if A is positive definite. With Spectra the smallest eigenvalue is returned if all eigenvalues are above the shift or fewer than the number requested. indicator() and stabilityVec() of gsStaticNewton evaluate the Jacobian at the current displacements with the shift -1/100. gsStaticNewton uses the options in force when solve is called. (Violated: an eigenvalue below the shift is missed, so that the indicator of an indefinite matrix can be positive; with another solver, such as the default CGDiagonal, the determinant method does not look at the matrix; a failed computation returns the value of an earlier call; before getOptions the result is undefined, for the composite solver always, and gsStaticOpt throws; options set on gsStaticDR after initialize have no effect on solve; indicator() of a gsStaticNewton constructed without a Jacobian, or with one that depends on the update, throws.)", "quantifier": "every matrix, shift, spectrum, state of the solver and change of options", "why_tests_cant": "All spectra, positions of the shift and histories of calls; tests use one matrix whose spectrum is above the shift.", "anchors": ["src/gsStaticSolvers/gsStaticBase.h: indicator, stabilityVec, setOptions, getOptions, _computeStability, _computeStabilityDet, _computeStabilityEig", "src/gsStaticSolvers/gsStaticNewton.hpp: getOptions", "src/gsStaticSolvers/gsStaticDR.hpp: getOptions, initialize", "src/gsStaticSolvers/gsStaticNewton.h: indicator, stabilityVec"]}
{"id": "C121", "title": "Stepping programs with target values", "statement": "benchmark_cylinder_DC: for every step and ascending checkpoints the program ends whatever the solver does, the prescribed displacements of the rows increase by at most the step, every checkpoint is written and the last row is at the last one. benchmark_Pillow: the loop ends for every solver; the load factors written increase by at most the step, stay in [0,1] if the unloaded state is solved, and if the loop ends regularly the last one is 1 up to 1e-10. example_PinchedMembrane_DWR (load control): the loads increase, never exceed 1, are 1 up to 1e-14 at the end and exactly 1 after a first success; the loop ends if all steps up to some length succeed. (Violated: benchmark_cylinder_DC accepts failed solves once the step is at most an eighth, so that a solver that never succeeds gives a complete output; benchmark_Pillow continues with a negative load factor if the first solve fails and assertions are off; example_ShearWrinkling removes the last target when it is reached and then reads the front of the empty vector, so that a run ends regularly only if it uses up its steps before the last target; the loop of example_PinchedMembrane_DWR does not end if no step succeeds.)", "quantifier": "every step, targets and behaviour of the solver, any number of solves", "why_tests_cant": "All patterns of failed solves and all positions of the targets; tests run a program once with a solver that converges.", "anchors": ["benchmarks/benchmark_cylinder_DC.cpp: main", "benchmarks/benchmark_Pillow.cpp: main", "examples/example_ShearWrinkling.cpp: main", "examples/example_PinchedMembrane_DWR.cpp: main"]}
{"id": "C122", "title": "Programs with displacement control", "statement": "In benchmark_FrustrumDC and snapping_example_shell_DC every row written after a successful step has the displacements of the static solver and a load larger (in the direction of the program) than that of the row before by the first length halved some number of times; without an exception the number of rows is the one asked for unless the strain limit is passed; the loop ends if no step up to some length is repeated; while no step fails the printed displacement D is the load of the control. (Violated: a status such as SolverError is treated as success, so that the row before is written again; after a halved step D is not the load any more; if every step is repeated the loop does not end.)", "quantifier": "every static solver, first length, number of rows and pattern of failures", "why_tests_cant": "All patterns of failed steps and all solvers; a test run has one pattern.", "anchors": ["benchmarks/benchmark_FrustrumDC.cpp: main", "examples/snapping_example_shell_DC.cpp: main", "src/gsStaticSolvers/gsControlDisplacement.h: step"]}
{"id": "C123", "title": "Time loops of the programs with dynamic solvers", "statement": "In example_DynamicShell and example_DynamicShellNL line i of the output has the time (i+1)*DT and the displacements of the object after i+1 successful steps; the loop comes to its end with all lines written unless a step does not succeed, which ends the program. example_DynamicBeamNL writes the same displacements if no callback depends on time. (Violated: the tutorials give each displacement the time of the step before; in example_DynamicBeamNL the time never advances, since the const version of step does not change the time of the object, so every line has time 0 and the load after the first step has no influence; without assertions it ignores steps that did not succeed.)", "quantifier": "every method, linear and nonlinear, all callbacks, options, step lengths, numbers of steps and failures", "why_tests_cant": "The statement is about all loads and numbers of steps; that a result does not depend on later loads is a statement about pairs of runs.", "anchors": ["examples/example_DynamicShell.cpp: main", "examples/example_DynamicShellNL.cpp: main", "examples/example_DynamicBeamNL.cpp: main", "tutorials/nonlinear_shell_dynamic.cpp: main", "tutorials/nonlinear_solid_dynamic.cpp: main", "src/gsDynamicSolvers/gsDynamicBase.h: step"]}
{"id": "C124", "title": "Load stepping with branch switching", "statement": "In the programs that step through a load path with the option SingularPoint: every run of N successful steps writes N rows; a row without a change of stability is the equilibrium point of a converged step and starts from the row before; if no attempt was repeated then a change is reported exactly when the indicator of the row and of the one before have different signs; at a bifurcation the row is the point of the extended system (if that converged), moved along its null vector by norm 1/tau, with the length of the new branch. The loop ends if halved lengths lead to convergence. (Violated: after a repeated attempt the stability is compared with that of the attempt that failed, giving false and missed switches; at a limit point and when the extended system does not converge the successful step is lost and the row is the previous one again; after a bifurcation the stability is reset to the one before, so the next step is reported as a bifurcation again.)", "quantifier": "all programs (thin shell, snapping, quasi-static XML, beam and wrinkling benchmarks), all methods, callbacks, options, lengths, numbers of steps", "why_tests_cant": "Statement about all paths and all interleavings of failed attempts and changes of stability.", "anchors": ["examples/gsThinShell_ArcLength.cpp: main", "examples/snapping_element.cpp: main", "examples/snapping_example.cpp: main", "solvers/quasistatic_shell_XML.cpp: main", "solvers/quasistatic_shell_multipatch_XML.cpp: main", "benchmarks/benchmark_Beam.cpp: main", "src/gsALMSolvers/gsALMBase.hpp: computeSingularPoint"]}
{"id": "C125", "title": "Programs with a fixed number of arc-length steps", "statement": "The benchmarks Balloon, UniaxialTension, MaterialTest and Cylinder come to their end exactly if every step returns Success, with one row per step, each in equilibrium up to the tolerance; otherwise they end with an exception at the first step that does not. The arc-length tutorials have the same rows up to that step. (Violated: the tutorials ignore the status; with callbacks that are functions of displacements and load a failed step is repeated unchanged in every later pass, so all later rows are the last converged point, without a sign of failure.)", "quantifier": "all methods, callbacks, options, numbers of steps, points of departure", "why_tests_cant": "Statement about all numbers of steps and all failures; that a failed step is repeated for ever is a statement about unbounded runs.", "anchors": ["benchmarks/benchmark_Balloon.cpp: main", "benchmarks/benchmark_UniaxialTension.cpp: main", "benchmarks/benchmark_MaterialTest.cpp: main", "benchmarks/benchmark_Cylinder.cpp: main", "tutorials/nonlinear_shell_arcLength.cpp: main", "tutorials/nonlinear_solid_arcLength.cpp: main"]}
{"id": "C126", "title": "Load steps with adaptive meshes", "statement": "In benchmark_Roof_DWR and benchmark_Wrinkling_DWR: a load step ends because the estimated error is in the band, because maxRefIt passes were made, because neither refinement nor coarsening changed the mesh, or by a break without adaptive mesh or after a switch of the branch; it contains a converged step; all its steps start from the point of the end of the previous load step, interpolated from mesh to mesh; the number of converged steps is at most maxRefIt; the inner loop ends if short steps converge. Before buckling all rows are in equilibrium. (Violated: in Roof every failed step allows for one more pass; the row written is interpolated onto a mesh changed after the last solve, with the default bandwidth onto a coarser mesh than the one that met the target; with nothing left to refine the same step is solved maxRefIt times; a halved length never grows again; in Wrinkling a target of at least the initial error 1 means that nothing is solved; maxSteps does not bound the steps before buckling; computeSingularPoint(Uold,false) passes false as the load, so at a limit point, or if the extended system fails, the path goes on at load zero.)", "quantifier": "all meshes, estimators, markings, interpolations, outcomes of steps, tolerances, bandwidths, numbers of load steps", "why_tests_cant": "Statement about all sequences of failures, refinements and coarsenings; that a load passed as a bool compiles and runs is invisible unless the limit-point branch is taken.", "anchors": ["benchmarks/benchmark_Roof_DWR.cpp: main", "benchmarks/benchmark_Wrinkling_DWR.cpp: main", "src/gsALMSolvers/gsALMBase.h: computeSingularPoint"]}
{"id": "C127", "title": "The programs for static analysis", "statement": "static_shell_XML without dynamic relaxation writes exactly what the Newton solver alone finds from the undeformed structure, provided that the linear solve succeeds; with dynamic relaxation the Newton solver continues from the relaxed state; with the assertion on the status what is written meets the criteria of the Newton solver relative to the undeformed structure. gsThinShell_Static_XML writes only after a successful linear and nonlinear solve and its criteria are relative to the linear solution. benchmark_MaterialTestConv writes all meshes or none. (Violated: the linear solution is never passed on, because the linear solve leaves its update zero; without the assertion the linear or the relaxed solution is written where the Newton solver failed, or a vector without entries; the tutorials without assertions show the undeformed structure after a failure; example_StaticSolvers plots zero if the Newton stage of a composite cannot be evaluated, although solutions were printed.)", "quantifier": "all matrices, residuals, Jacobians, factorisations, options, uninitialised members, outcomes of every stage", "why_tests_cant": "That a stage has no effect on the next one cannot be seen from the result if the next converges anyway; the vectors written after a failure depend on the kind of failure and the kind of build.", "anchors": ["solvers/static_shell_XML.cpp: main", "solvers/static_shell_multipatch_XML.cpp: main", "examples/gsThinShell_Static_XML.cpp: main", "examples/example_StaticSolvers.cpp: main", "benchmarks/benchmark_MaterialTestConv.cpp: main", "tutorials/nonlinear_shell_static.cpp: main"]}
{"id": "C128", "title": "The programs for modes of vibration and buckling", "statement": "The programs modal_shell_XML, modal_shell_multipatch_XML, buckling_shell_XML, buckling_shell_multipatch_XML, gsThinShell_Modal and gsElasticity_Modal end normally only if the eigenvalue solver (and the assembly of the Jacobian) reported success; they then print the first ten eigenvalues, plot the first modes, and write all eigenvalues; the pairs belong to the assembled matrices; a pair of buckling_shell_XML makes the stiffness K_L + s (K_NL - K_L) singular at s = -value; plotted shapes are normalised to the largest deflection 1 where they are normalised. (Violated: with fewer than ten modes, which is the default, the programs read beyond the eigenvalues; buckling_shell_multipatch_XML subtracts the linear matrix twice, so that its values are those of another problem; on all patches but the first buckling_shell_XML and gsThinShell_Modal plot the deformed geometry in place of the displacement; the failure of the linear solver is not noticed; --write is without effect in two programs; eigenvalues below half a millionth are written as zero; gsElasticity_Modal returns 1 after success.)", "quantifier": "all matrices, options, numbers of modes, results of the eigenvalue and linear solvers, geometries", "why_tests_cant": "The values of the wrong buckling problem look plausible and are near the right ones where they are small; reading beyond a vector need not be noticed; the programs are not part of the tests.", "anchors": ["solvers/modal_shell_XML.cpp: main", "solvers/modal_shell_multipatch_XML.cpp: main", "solvers/buckling_shell_XML.cpp: main", "solvers/buckling_shell_multipatch_XML.cpp: main", "examples/gsThinShell_Modal.cpp: main", "examples/gsElasticity_Modal.cpp: main"]}
{"id": "C129", "title": "Output of the programs for the parallel method", "statement": "The programs Roof, Beam, Elasticity_Beam, Frustrum and Snapping for the parallel method: writing the output does not change the result of a correction; parallelStepOutput is called once for each solution found, with the time at which it was found; parallelIntervalOutput gets the start of the interval, all solutions found and the reference, with their times; a table has its header and one row for each of them (for each point of a branch), in that order; the jobs handed out during a run, with any number of processes in any order, have different pairs of branch and ID, so that with one branch the file of every interval holds that interval; tables of different branches have different names; a branch from the first branch has the arc length given for branches. (Violated: the times in the file of an interval never increase strictly if steps travel at least their length, since the last solution found is at or behind the end of the interval but is written before it; with several branches files of intervals with equal IDs overwrite each other; Roof, Frustrum and Snapping do not write any branch but the first; with more than ten branches ParaView files overwrite each other; in serialSolve a branch from a branch has another length; Roof with its default options always stops with an error.)", "quantifier": "all solvers, jobs, containers, numbers of processes and orders of events, options, formats of numbers", "why_tests_cant": "Whether one file overwrites another depends on the number of branches and the order in which the processes work; the programs are not part of the tests.", "anchors": ["benchmarks/benchmark_Roof_APALM.cpp: gsAPALMRoof::parallelIntervalOutput, main", "benchmarks/benchmark_Beam_APALM.cpp: gsAPALMBeam::parallelIntervalOutput, main", "benchmarks/benchmark_Elasticity_Beam_APALM.cpp: main", "benchmarks/benchmark_Frustrum_APALM.cpp: main", "examples/snapping_example_shell_APALM.cpp: main", "src/gsALMSolvers/gsAPALM.hpp: gsAPALM::_correction"]}
{"id": "C130", "title": "Input and tables of the solver programs", "statement": "The eight programs in solvers/: each point of ID 30 gets the load in the same column of ID 31 on the patch of ID 32 (patch 0 if it is missing), and this is defined exactly if there are enough loads and patches; reference points and patches are those of ID 50 and 51, with equal numbers; a list of materials is used as it is, one material for all patches; the assembler gets the loads, the pressure and the options of ID 92, the solver those of its own IDs; with --write the static and the quasi-static program leave a header and one line for each solution, with the displacements of the reference points (and the load factor); option P leaves two coordinates and bounds the third. (Violated: loads without points are dropped silently and points without loads read an empty matrix; a missing ID 51 is an error even for one patch; reference values have no effect; the quasi-static program drops the options of the assembler; the buckling program prints another ID than it reads; without --write the file is emptied all the same, and the static program for several patches never writes a line; reference points announced as physical coordinates cannot be used; the quasi-static program for several patches fails in a debug build and else writes the undeformed geometry, in columns that do not fit the header; the perturbation replaces the third coordinate; a check of the smoothness has no effect.)", "quantifier": "all input files, sizes of matrices, options, solutions and numbers of steps, old contents of the file, formats of numbers", "why_tests_cant": "The programs are run with a few input files, all of which give every ID; no test reads the table.", "anchors": ["solvers/static_shell_XML.cpp: main", "solvers/static_shell_multipatch_XML.cpp: main", "solvers/quasistatic_shell_XML.cpp: main", "solvers/quasistatic_shell_multipatch_XML.cpp: main, initStepOutput, writeStepOutput", "solvers/modal_shell_multipatch_XML.cpp: main", "solvers/buckling_shell_XML.cpp: main", "solvers/buckling_shell_multipatch_XML.cpp: main"]}
{"id": "C131", "title": "Tables of the steps and cross sections in the benchmarks and examples", "statement": "initStepOutput, writeStepOutput, initSectionOutput and writeSectionOutput of eleven benchmarks and examples: with --write the table has its header and one row for each step, in order, with the norms, the coordinates of the points, the load factor, the indicator (number of degrees of freedom and error); where an extreme is asked for, the third number of a point is the largest distance from z = 0 among kmax equally spaced points on the line through it, from end to end, and it misses the largest distance on the line by at most half a step times the slope; another value of extreme is an error; without --write nothing is touched; with cross sections the three files of the undeformed geometry have one line, the three others one for each step, with 201 numbers each, and no other file is touched. (Violated: each row has one field more than the header, except in example_ShearWrinkling; the column named z is never negative, does not depend on the second parameter of the point and is the same for the deformation mirrored at z = 0, so that snap-through cannot be seen; benchmark_Wrinkling stops at the first step in a build with assertions.)", "quantifier": "all deformations, points, numbers of steps and values, formats of numbers, old files, directories", "why_tests_cant": "The tables are not read by any test; the extreme depends on the whole shape of the deformation.", "anchors": ["examples/gsThinShell_ArcLength.cpp: initStepOutput, writeStepOutput, initSectionOutput, writeSectionOutput", "examples/example_ShearWrinkling.cpp: writeStepOutput", "benchmarks/benchmark_Wrinkling.cpp: writeStepOutput", "benchmarks/benchmark_MaterialTest.cpp: writeStepOutput", "benchmarks/benchmark_Wrinkling_DWR.cpp: writeStepOutput", "benchmarks/benchmark_Roof_DWR.cpp: writeStepOutput", "benchmarks/benchmark_Roof.cpp: writeStepOutput", "benchmarks/benchmark_Beam.cpp: writeStepOutput", "benchmarks/benchmark_Cylinder.cpp: writeStepOutput", "benchmarks/benchmark_FrustrumALM.cpp: writeStepOutput", "benchmarks/benchmark_FrustrumDC.cpp: writeStepOutput", "benchmarks/benchmark_TensionWrinkling.cpp: writeStepOutput"]}
{"id": "C132", "title": "Verbose changes only what is printed", "statement": "With the option Verbose, step() and computeSingularPoint() of all four arc length methods return the same status and reach the same point, with the same lengths, increments and numbers of iterations, as without it, if callbacks and linear algebra return the same for the same arguments; this carries over to any number of steps. After a successful step isStable(), indicator() and the stability vector agree too. A step prints the names of the columns and then one row for the predictor and for each iteration, numbered from 0; the last number is numIterations(), the last row shows the accepted point, and a step that does not converge prints MaxIter rows. Without Verbose no table is printed. (Violated: stabilityChange() may differ, because with Verbose the stability is compared with that of the Jacobian at the starting point and without with the stability computed last; indicator() after computeSingularPoint() differs; if the eigenvalues cannot be computed computeSingularPoint() fails with Verbose only; the column ds\u00b2 of Crisfield's method is a length, not its square; in the table of the extended system |U|, |\u03c6| and L never change.)", "quantifier": "all problems, states, options, methods, numbers of steps and iterations, with failing callbacks and linear algebra", "why_tests_cant": "Tests run with one setting of Verbose and do not read the tables; the additional stability computations act on members that other functions read later.", "anchors": ["src/gsALMSolvers/gsALMBase.hpp: _step", "src/gsALMSolvers/gsALMBase.hpp: _extendedSystemSolve, _bisectionSolve, _testSingularPoint", "src/gsALMSolvers/gsALMBase.hpp: _initOutputExtended, _stepOutputExtended", "src/gsALMSolvers/gsALMLoadControl.hpp: initOutput, stepOutput", "src/gsALMSolvers/gsALMRiks.hpp: initOutput, stepOutput", "src/gsALMSolvers/gsALMCrisfield.hpp: initOutput, stepOutput", "src/gsALMSolvers/gsALMConsistentCrisfield.hpp: initOutput, stepOutput"]}
{"id": "C133", "title": "The time integrators converge to the motion of the structure", "statement": "If the callbacks describe a structure M u'' + C u' + S u = F(t) and u is a smooth motion of it, then stepping from the initial values of u to a time T gives displacements and velocities whose distance to those of u at T is bounded by a constant times a power of the largest step: the first power for explicit Euler and implicit Euler, the second for Newmark (alpha = 1/4, delta = 1/2) and Bathe, the fourth for Runge-Kutta. The constants depend on the derivatives of u, on T and, for the explicit methods, on the Lipschitz constant of the system. The distance is that of the energy for the implicit methods. The steps may differ in length, loads may depend on time, and errors in the initial values enter the bound. With n equal steps of an explicit method the results tend to the motion as n grows. The nonlinear explicit methods converge with the same orders for residuals that are twice continuously differentiable, and for Lipschitz residuals. (Violated: with one and the same residual callback the nonlinear explicit Euler converges to the motion of the opposite force, cosh instead of cos; Wilson's method does not converge on linear structures.)", "quantifier": "all linear structures of any dimension, loads, smooth motions, end times, sequences of steps; all Lipschitz residuals for the nonlinear explicit methods", "why_tests_cant": "Convergence is a statement about all step sizes tending to zero; tests compare a few runs with coarse tolerances and cannot bound the error for every structure.", "anchors": ["src/gsDynamicSolvers/gsDynamicExplicitEuler.hpp: _step_impl", "src/gsDynamicSolvers/gsDynamicRK4.hpp: _step_impl", "src/gsDynamicSolvers/gsDynamicImplicitEuler.hpp: _step_impl", "src/gsDynamicSolvers/gsDynamicNewmark.hpp: _step_impl", "src/gsDynamicSolvers/gsDynamicBathe.hpp: _step_impl", "src/gsDynamicSolvers/gsDynamicWilson.hpp: _step_impl", "src/gsDynamicSolvers/gsDynamicBase.hpp: step"]}
{"id": "C134", "title": "Steps near a regular equilibrium converge quadratically and follow the path", "statement": "Let the predictor of a step end close enough to a solution of the equilibrium equations together with the equation of the method for the length of the step, and let the derivative of this system be invertible near it. Then a full Newton step of load control, Riks and consistent Crisfield ends with Success or NotConverged, never with another status; if it ends with Success, the distance of the new point to the solution is at most (b g E)^(2^k - 1) E after k iterations, where E is the distance of the predictor, b bounds the inverse and g the second derivative; if it ends with NotConverged, the point is unchanged; and it ends with Success as soon as these bounds are below the tolerances, for which a fixed number of iterations always suffices. For twice continuously differentiable internal forces and a path of equilibria with invertible tangents, there are a constant C and a length h such that load control with any length at most h makes any number of steps along the path, each with Success in one iteration, and every point reached is within C length^4 of the path; neither depends on the number of steps.", "quantifier": "all structures of any dimension, regular solutions, predictors within the bound, tolerances, numbers of iterations; all smooth paths of equilibria with regular tangents, all lengths below the bound, all numbers of steps", "why_tests_cant": "The rate of convergence and the absence of drift are statements about all regular solutions and about any number of steps; tests follow a few known curves with fixed lengths.", "anchors": ["src/gsALMSolvers/gsALMBase.hpp: _step, computeResidualNorms, factorizeMatrix", "src/gsALMSolvers/gsALMLoadControl.hpp: iteration, predictor", "src/gsALMSolvers/gsALMRiks.hpp: iteration", "src/gsALMSolvers/gsALMConsistentCrisfield.hpp: iteration"]}
{"id": "C135", "title": "Crisfield's method converges quadratically near a regular equilibrium and follows the path", "statement": "Let the predictor of a step of Crisfield's method end close enough to an equilibrium at the length of the step, let the tangent stiffness be invertible near it, let the path cross the sphere of that length there, and let the stored increments point to its side. Then every correction has two real roots and takes the one near the equilibrium; the full Newton step ends with Success or NotConverged, never with another status; with Success the distance of the new point to the equilibrium is at most (c E)^(2^k - 1) E after k iterations, where E is the distance of the predictor and c is a given constant; with NotConverged the point is unchanged; and it ends with Success as soon as these bounds are below the tolerances. For twice continuously differentiable internal forces, a structure that is undeformed without load and a path of equilibria with invertible tangents for loads from 0 to b, there are constants C and c and a length h such that, starting at rest with the default scaling, the steps with any length at most h succeed, each in one iteration; every step increases the load by at most c length; every point reached is within C length^4 of the path at its load; and the steps come within c length of b. The same holds for a given scaling when the stored increments lead forward.", "quantifier": "all structures of any dimension, all scalings, regular equilibria on either side, predictors and stored increments within the bounds, all three choices of the angle, tolerances, numbers of iterations; all smooth paths of equilibria with regular tangents, all lengths below the bound, all numbers of steps", "why_tests_cant": "The choice of the root, the rate of convergence and the absence of drift and of turning back are statements about all regular equilibria and any number of steps; tests follow a few known curves.", "anchors": ["src/gsALMSolvers/gsALMCrisfield.hpp: predictor, computeLambdaMU, iteration, computeLambdas, computeLambdaDOT, quasiIteration, iterationFinish", "src/gsALMSolvers/gsALMBase.hpp: _step, computeResidualNorms"]}
{"id": "C136", "title": "The output of the static solvers is a faithful table of their iterations", "statement": "The option verbose of gsStaticNewton and gsStaticDR changes what is printed and nothing else: status, solution, update and all other members are the same for all values. gsStaticNewton prints nothing for verbose <= 0. For verbose > 0 solveNonlinear() prints a header and one line per iteration, with the numbers of the iterates in the order of the Newton steps; with Success the last line is the only one with both numbers below the tolerances and shows the returned solution; with NotConverged there are maxIt lines; with verbose = 2 every system is printed before it is solved. gsStaticDR prints nothing for verbose = 0. For other values it prints a header, the line of the start and the lines of the iterations whose number is divisible by verbose, of all for -1; column Ek of the complete table is energies(); with Success the last iteration is the only one that meets the criteria, but it has a line only if its number is divisible by verbose; column |R| of the first line is the norm of the load instead of the residual.", "quantifier": "all values of verbose, options, residuals, stiffness matrices, linear solvers including failing ones, states of the object before the call, earlier output", "why_tests_cant": "Output is hardly ever compared with the iterates, and that a reporting option has no effect on results is a statement about all problems and all ways in which a solve can fail.", "anchors": ["src/gsStaticSolvers/gsStaticNewton.hpp: initOutput, stepOutput, _solveLinear, _solveNonlinear", "src/gsStaticSolvers/gsStaticDR.hpp: initOutput, stepOutput, _solve"]}
{"id": "C137", "title": "The output of the time integrators is a faithful table of the iterations of the step", "statement": "The option Verbose of the time integrators changes what is printed and nothing else: step(dt) gives the same status or exception and leaves the same object, and prints nothing without it. With it a nonlinear step of gsDynamicNewmark and gsDynamicImplicitEuler prints a header and one line per iteration with the two numbers of the criteria, in the order of the Newton steps; with Success the last line is the only one that meets the criteria and shows the vectors that are left; with NotConverged there are MaxIter lines and none meets them; after an exception in an iteration there are fewer. gsDynamicBathe prints the tables of its two stages, gsDynamicWilson that of its Newmark step. The numbers of the linear methods are those of the step. Violated: gsDynamicRK4 never prints; the line of the linear implicit Euler method shows the norm of the state before the step, the one of the explicit method that of the new state, under |R|; the nonlinear gsDynamicBathe does not announce its second stage; gsDynamicWilson returns Success after a table that does not meet the criteria.", "quantifier": "all six integrators, linear and nonlinear, all options, callbacks (including refusing ones), linear solvers, time steps, states of the object, earlier output", "why_tests_cant": "Output is hardly ever compared with the iterates, and that a reporting option has no effect on results is a statement about all systems and all ways in which a step can fail.", "anchors": ["src/gsDynamicSolvers/gsDynamicNewmark.hpp: _step_impl, _initOutput, _stepOutput", "src/gsDynamicSolvers/gsDynamicBathe.hpp: _step_impl, _stageOutput, _initOutput, _stepOutput", "src/gsDynamicSolvers/gsDynamicImplicitEuler.hpp: _step_impl, _initOutput, _stepOutput", "src/gsDynamicSolvers/gsDynamicExplicitEuler.hpp: _step_impl, _initOutput, _stepOutput", "src/gsDynamicSolvers/gsDynamicRK4.hpp: _step_impl", "src/gsDynamicSolvers/gsDynamicWilson.hpp: _step_impl", "src/gsDynamicSolvers/gsDynamicBase.h: step"]}
{"id": "C138", "title": "The implicit nonlinear time integrators converge, iterations included", "statement": "Near a smooth motion of a nonlinear structure whose mass has a bounded inverse, whose damping is bounded, whose residual is Lipschitz and whose Jacobian callback is bounded (it need not be the derivative of the residual), with exact linear solves, the nonlinear gsDynamicNewmark with alpha = 1/4, delta = 1/2 follows the motion with second order and the nonlinear gsDynamicImplicitEuler with first order, for all small enough steps: no step throws, and the displacements and velocities after the steps differ from the motion by at most an explicit constant times the initial error plus h^2 (or h). It holds with the iterations as they are: for every tolerance, every MaxIter of one or more, with and without quasi-Newton at any interval, and for implicit Euler although all iterations but the first evaluate the residual at the old time. On structures with finitely many degrees of freedom it is enough that the mass has no kernel, the residual is continuously differentiable and the Jacobians are continuous; if moreover MaxIter is 2 or more and the tolerances are positive, all Newmark steps end with Success as soon as the steps are small.", "quantifier": "all structures, residuals, Jacobians, motions, options, sequences of step sizes, initial errors, iteration counts", "why_tests_cant": "An order of convergence is a limit over all step sizes; benchmarks with the exact Jacobian and tight tolerances do not show what happens with a wrong Jacobian or one iteration.", "anchors": ["src/gsDynamicSolvers/gsDynamicNewmark.hpp: _step_impl (nonlinear)", "src/gsDynamicSolvers/gsDynamicImplicitEuler.hpp: _step_impl (nonlinear)", "src/gsDynamicSolvers/gsDynamicBase.h: step"]}
{"id": "C139", "title": "The nonlinear Bathe method converges, with second order only if its iterations are forced", "statement": "Near a smooth motion of a nonlinear structure whose mass has a bounded inverse, whose damping is bounded, whose residual is Lipschitz and whose Jacobian callback is bounded, with exact linear solves, the nonlinear gsDynamicBathe with the default alpha = 1/4, delta = 1/2, gamma = 1/2 follows the motion with first order for all small enough steps, whatever the tolerances, MaxIter >= 1, the quasi-Newton interval and the Jacobians; no step throws. It has the second order of the linear method if MaxIter >= 2 and TolU or TolF is not positive, so that no step ends after one iteration. With positive tolerances it is not of second order: the second stage starts with the residual of the displacements at the beginning of the step, the iteration after which small steps are accepted keeps this error, and on u'' = -u the energy of the steps grows at a rate of the order of the step size.", "quantifier": "all structures, residuals, Jacobians, motions, options, sequences of step sizes, initial errors, iteration counts", "why_tests_cant": "An order of convergence is a limit over all step sizes; a benchmark with one step size cannot tell an error of first order from one of second order.", "anchors": ["src/gsDynamicSolvers/gsDynamicBathe.hpp: _step_impl (nonlinear)", "src/gsDynamicSolvers/gsDynamicNewmark.hpp: _step_impl (nonlinear)", "src/gsDynamicSolvers/gsDynamicBase.h: step"]}
{"id": "C140", "title": "The nonlinear Wilson method converges with second order for gamma >= 1 and diverges for gamma < 1/2", "statement": "Near a smooth motion of a nonlinear structure whose mass is bounded with a bounded inverse, whose damping is bounded, whose residual is Lipschitz and whose Jacobian callback is bounded, with exact linear solves, the nonlinear gsDynamicWilson with the default alpha = 1/4, delta = 1/2 and any gamma >= 1, the default 1.4 among them, follows the motion with second order in displacements, velocities and accelerations for all small enough steps, whatever the tolerances, MaxIter >= 1, the quasi-Newton interval and the Jacobians; all steps end with success. The description of the option gamma asks for 0 =< gamma =< 1: for every gamma between 0 and 1/2 the method diverges, the errors of the velocities of a mass point under the force t^2 at time 1 grow to infinity when the steps become small.", "quantifier": "all structures, residuals, Jacobians, motions, options, gamma, sequences of step sizes, initial errors, iteration counts", "why_tests_cant": "An order of convergence is a limit over all step sizes, and the divergence for small gamma shows only after many small steps.", "anchors": ["src/gsDynamicSolvers/gsDynamicWilson.hpp: _step_impl (nonlinear), defaultOptions", "src/gsDynamicSolvers/gsDynamicNewmark.hpp: _step_impl (nonlinear)", "src/gsDynamicSolvers/gsDynamicBase.h: step"]}
{"id": "C141", "title": "The extended system finds limit points and symmetry-breaking bifurcations with quadratic convergence up to the difference step, and no other bifurcation is a regular point of it", "statement": "Started near a singular point (U*, L*) of a smooth structure with a vector near the unit vector of the kernel, the extended iterations behind computeSingularPoint either end in a failure of the linear solver at a point nearby or return true after at most n iterations at a point whose error is at most the n-th Newton bound: in every iteration the error is multiplied by at most 2m((4k + 2|D| + 2) e + 4k 1e-8), where e is the error before, m bounds the inverse of the extended system, D is the second derivative and k its Lipschitz constant; so the number of correct digits doubles until the difference step of 1e-8 governs. The bound m exists at every limit point where the second derivative does not vanish along the kernel, and at bifurcation points when all increments stay in a space of symmetric displacements that does not contain the mode and along which the eigenvalue passes zero with nonzero speed. Without such a symmetry the linearisation of the extended system is singular at every bifurcation point. An iteration that lands exactly on the singular point fails, since the tangent is factorised there.", "quantifier": "all structures with three continuous derivatives, singular points, starting points, vectors, tolerances, iteration counts, direct solvers that are exact when they succeed", "why_tests_cant": "A rate of convergence near an arbitrary singular point, and the absence of a rate at every unsymmetric bifurcation point, are statements on all structures and starting points.", "anchors": ["src/gsALMSolvers/gsALMBase.hpp: _extendedSystemSolve, _extendedSystemIteration, _computeSingularPoint, computeSingularPoint"]}
{"id": "C142", "title": "The bisection before the extended system finds the singular point", "statement": "Started on the path in front of a singular point, within two lengths, the bisection of computeSingularPoint reaches a point of the path whose stability indicator is below SingularPointComputeTolB times the one at the start: if steps advance along the path by at least a and at most b times the length, fail only where the singular point is within b times the length, and the number of negative pivots or eigenvalues changes at the singular point, then m >= 2b/a steps halve the length, and m i + 2 iterations suffice as soon as 2 b kappa l / 2^i is below the tolerance, kappa being the speed of the indicator. It never passes the singular point for good, restores the length, and can only fail when it lands exactly in the singular point. With load control on a structure whose displacements are proportional to the load up to the bifurcation all this holds with a = b = 1, and the load found has an error below the tolerance times the indicator at the start over the least speed of the indicator. The flag returned is that of the power iteration which follows.", "quantifier": "all structures, paths, methods, lengths, tolerances, iteration limits, indicators by pivots or eigenvalues", "why_tests_cant": "Convergence for every path, singular point and tolerance is a statement over infinitely many runs.", "anchors": ["src/gsALMSolvers/gsALMBase.hpp: _bisectionSolve, _bisectionObjectiveFunction, _bisectionTerminationFunction, _computeStability, step", "src/gsALMSolvers/gsALMLoadControl.hpp: predictor, iteration"]}
{"id": "C143", "title": "computeSingularPoint finds bifurcations by loss of symmetry and switches to their branch", "statement": "On a structure whose displacements are proportional to the load up to a bifurcation at which it loses a symmetry, computeSingularPoint with load control, bisection and extended system, started anywhere in front of the bifurcation within two lengths, ends at the bifurcation: the bisection stops within delta of the critical load, the inverse power method then has the mode up to its sign and an error proportional to delta, and from there the errors of load and displacements obey the quadratic recursion of the extended system until SingularPointComputeTolE is met. With switch, the displacements end at the bifurcation plus the mode over Perturbation, up to that error and the one of the vector of the bisection. The only other outcome is the status SolverError, if the linear solver fails at a point near the bifurcation. This needs the mode not to be orthogonal to the vector of ones, and the vector the extended system has improved is dropped: solutionV and switchBranch use the one of the bisection.", "quantifier": "all such structures (three times differentiable internal forces, any dimension), starting loads, lengths, tolerances, iteration limits", "why_tests_cant": "Convergence for every structure, start and tolerance is a statement over infinitely many runs.", "anchors": ["src/gsALMSolvers/gsALMBase.hpp: computeSingularPoint, _computeSingularPoint, _bisectionSolve, _extendedSystemSolve, _extendedSystemIteration, switchBranch", "src/gsALMSolvers/gsALMBase.h: solutionV", "src/gsALMSolvers/gsALMLoadControl.hpp: predictor, iteration"]}
{"id": "C144", "title": "The reference solution of the unit test of the static solvers is right", "statement": "UAT_analytical in the unit test gives, for the materials 1 (neo-Hooke), 3 (Mooney-Rivlin) and 4 (Ogden), the exact solution of the uniaxial tension of a square to twice its length: its stress formulas are the Cauchy stresses of the strain energies of these materials (compressible: with the volumetric energy K/4 (J^2 - 1 - 2 log J), the other stretches given by the volume; incompressible: along the isochoric uniaxial stretches), and its volumes 1.105598565, 1.099905842 and 1.088778638 are, up to 2e-10, those for which the sides are free of traction. A result that passes UAT_CHECK was found with status Success and has the exact stretch up to a relative error of 1.1e-7. The stress should be checked too; it is computed from the boundary forces but never compared.", "quantifier": "all moduli, exponents, stretches and volumes for the formulas; the three materials for the volumes; all numerical results for the check", "why_tests_cant": "It is about the test itself: the test trusts its formulas and constants, and cannot show that a wrong stress would be accepted.", "anchors": ["unittests/gsStaticSolver_test.cpp: UAT_analytical, UAT_CHECK, UAT_numerical"]}
{"id": "C145", "title": "Crisfield's method finds singular points on straight paths", "statement": "On a structure whose equilibrium states are U = L w up to a singular point (a column under axial load before it buckles), every step of Crisfield's method with the default scaling moves along the path and advances the load by exactly length / sqrt(2 w.w). Started before a singular point at a distance of at most two steps, the bisection returns true, leaves a point on the path whose stability indicator is below the tolerance, restores the length, and its mode is the one of the power method. Followed by the extended system and the switch, computeSingularPoint finds a bifurcation by loss of symmetry as with load control (C143).", "quantifier": "all structures with such a path, all starts with positive load, step lengths, tolerances and scales of the bound; previous increment zero or forward along the path; default scaling, no relaxation, no quasi-Newton", "why_tests_cant": "The benchmarks follow one column with one length; they cannot show that no start, length or tolerance makes the step turn back or the correction fail.", "anchors": ["src/gsALMSolvers/gsALMCrisfield.hpp: predictor, iteration, computeLambdas, computeLambdaMU, iterationFinish", "src/gsALMSolvers/gsALMBase.hpp: _bisectionSolve, computeSingularPoint, _step"]}
{"id": "C146", "title": "The geometries built by the programs", "statement": "The rectangle of RectangularDomain and Rectangle is [0,L] x [0,B] x {0}: every point of it is the image of exactly one pair of parameters and no other point is. Each direction goes from 0 to the length with a slope between L 2^n/(2^n+p-1) and p times that, and is symmetric, so that the middle parameter (where the benchmarks read the displacement) is the middle of the rectangle; with degree 1 it is linear. The brick has the same property in three directions. The option clamped adds one knot in the first element and one at the distance of the offset from the end, without changing the shape. The frustrum has height and radius in proportion, its parallels are quarters of circles up to 1.6e-6 of the radius squared; the annulus has a radius linear in the first parameter and circles up to 2.4e-16.", "quantifier": "all refinements, degrees from 1, sizes, radii, offsets up to 1/2 and parameters in the unit square or cube", "why_tests_cant": "The benchmarks run with a few refinements and degrees and compare no coordinates of the geometry.", "anchors": ["benchmarks/benchmark_Beam.cpp: RectangularDomain", "benchmarks/benchmark_Beam_APALM.cpp: RectangularDomain, Rectangle", "examples/gsElasticity_Modal.cpp: BrickDomain", "benchmarks/benchmark_Frustrum_APALM.cpp: FrustrumDomain", "examples/gsThinShell_ArcLength.cpp: AnnularDomain"]}
{"id": "C147", "title": "The lattice of the snapping programs", "statement": "The lattice of Nx columns and Ny rows consists of Nx (13 Ny + 18) patches that overlap nowhere: the open patches are pairwise disjoint, for every curve that stays between the flat ends. It is connected: any two patches are joined by a chain of patches that share a whole side. The patch and the parameter of the output are the middle of the upper end of the lattice, for even and odd numbers of columns. While a hundredth of the height is less than half the height of the blocks at the ends, the sides that get the fixed conditions are exactly those on the lower end and the loaded sides are exactly those on the upper end.", "quantifier": "all numbers of columns and rows, positive dimensions with 2 tw <= l, all curves between the ends (for the connection equal at both ends)", "why_tests_cant": "The programs are no tests and run with one default lattice; the patches are only written to plots.", "anchors": ["examples/snapping_example.cpp: main, makeTop, makeElement, makeBottom", "examples/snapping_example3D.cpp", "examples/snapping_example_shell.cpp", "examples/snapping_example_shell_APALM.cpp", "examples/snapping_example_shell_DC.cpp", "examples/snapping_element.cpp: main, makeElement"]}
{"id": "C148", "title": "Reference solutions in the benchmarks and examples", "statement": "The analytical values the programs print beside the computed ones are solutions of the problems they solve. Uniaxial tension: the stress from the load and the stretches equals the stress of the formula. Nonlinear beam: the manufactured displacement solves the equations of the von Karman beam with the traction and the pressure of the program, the supports and the initial values, and the end time is a whole number of periods. Modal analysis: the printed first frequency is, up to the printed digits, the lowest frequency of the beam or the plate.", "quantifier": "all stretches, loads in equilibrium, stiffnesses, masses, lengths, frequencies, places and times", "why_tests_cant": "The values are only printed for comparison by eye; no test runs the programs.", "anchors": ["benchmarks/benchmark_UniaxialTension.cpp 349-371", "examples/example_DynamicBeamNL.cpp 57-58, 97, 146, 156, 264-270, 330", "examples/gsThinShell_Modal.cpp 61, 113-124, 236, 278, 329-335, 534"]}
{"id": "C149", "title": "Post-processing of stored solutions and isolines", "statement": "ShellPostProcess reads the solution without a number and then all numbered solutions of the folder, writes each to files of its own with the number of the solution, and lists all patches in the ParaView collection. PlotIsolines samples the line at a fraction u of the parameter range of every patch from end to end, writes the images of the points patch by patch, and every line asked for is in its file in the end.", "quantifier": "all folders, file names, numbers of patches and solutions; all geometries, numbers of points, lists of lines", "why_tests_cant": "No test runs the programs; names of files and what is overwritten depend on the contents of a folder.", "anchors": ["examples/ShellPostProcess.cpp 78-189", "examples/PlotIsolines.cpp 66-104"]}
{"id": "C150", "title": "Options of gsStaticOpt reach the optimizer", "statement": "getOptions of gsStaticOpt, called by initialize and solve, hands maxIt, verbose, tolF and tolU (tol where they are -1) to the optimizer under the names the optimizer has for them, leaves its other options as they are, changes nothing when repeated, and throws for an optimizer it does not know or that lacks an option. (Violated: options set with optimizerOptions() keep their values; an unknown optimizer is refused when the object is built.)", "quantifier": "all optimizers, modules compiled in, option values and option lists", "why_tests_cant": "One optimizer and one set of options is tested.", "anchors": ["src/gsStaticSolvers/gsStaticOpt.hpp 16-26, 55-89, 93-94", "src/gsStaticSolvers/gsStaticOpt.h 197", "src/gsStaticSolvers/gsStaticBase.h 54-58, 65-86"]}
{"id": "C151", "title": "Options of the parallel-in-time solver", "statement": "After initialize of gsDynamicXBraid the settings of XBraid are those of the options (tol selects the absolute or the relative tolerance), for the first and every later call; a second call with the same options changes nothing; Coarsen and Refine give new objects with equal contents and leave all others alone. (Violated: fmg, incrMaxLevels and spatial stay on when they are switched off.)", "quantifier": "all options, settings before, sequences of two sets of options, memory contents", "why_tests_cant": "There is no test of this class; one set of options is used in the example.", "anchors": ["src/gsDynamicSolvers/gsDynamicXBraid.h 60-114, 233-250"]}
