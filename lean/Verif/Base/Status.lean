/-!
# Outcomes

`src/gsStructuralAnalysisTools/gsStructuralAnalysisTypes.h` 22-30: the status enumeration returned by the solvers, and the
ways in which a C++ call can end abnormally in this model.
-/

namespace GsSA

/-- `src/gsStructuralAnalysisTools/gsStructuralAnalysisTypes.h` 22-30, `enum struct gsStatus`. -/
inductive Status
  | success
  | notConverged
  | assemblyError
  | solverError
  | notStarted
  | otherError
  deriving DecidableEq, Repr, Inhabited

/-- Abnormal ends of a C++ call.
* `assert`: a `GISMO_ASSERT` failed (checked in debug builds only; release builds run on),
* `ensure`: a `GISMO_ENSURE` failed (throws in every build),
* `exc`: another exception (`std::out_of_range`, `GISMO_ERROR`, a thrown integer code),
* `ub`: undefined behaviour (null dereference, access past the end, division by zero). -/
inductive Fail
  | assert
  | ensure
  | exc
  | ub
  deriving DecidableEq, Repr, Inhabited

end GsSA
