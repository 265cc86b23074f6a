import Mathlib.Algebra.Field.Rat
import Mathlib.Algebra.Order.Ring.Rat
import Verif.ALM.Methods

/-!
# A small problem for the examples

One degree of freedom, internal force `2 u + c u³`, unit load, exact linear algebra. `bad n` tells at
which moments (numbers of events so far) the residual callback fails, `badFac` the factorisation.
-/

namespace GsSA.ALM.Demo

/-- Binary search for the integer square root, `k + 1` bits. -/
def isqrtAux : ℕ → ℕ → ℕ → ℕ
  | 0, r, n => if (r + 1) * (r + 1) ≤ n then r + 1 else r
  | k + 1, r, n =>
    if (r + 2 ^ (k + 1)) * (r + 2 ^ (k + 1)) ≤ n then isqrtAux k (r + 2 ^ (k + 1)) n
    else isqrtAux k r n

/-- Integer square root. -/
def isqrt (n : ℕ) : ℕ := isqrtAux (Nat.log2 n) 0 n

/-- Square root of a rational number; exact for squares. -/
def qsqrt (x : ℚ) : ℚ := (isqrt x.num.toNat : ℚ) / (isqrt x.den : ℚ)

/-- The geometry of `ℚ`. -/
def geo1 : Geo ℚ ℚ := ⟨fun x y => x * y, qsqrt⟩

/-- The geometry of `ℚ × ℚ`. -/
def geo2 : Geo ℚ (ℚ × ℚ) := ⟨fun x y => x.1 * y.1 + x.2 * y.2, qsqrt⟩

/-- The problem. -/
def env (c : ℚ) (bad badFac : ℕ → Bool) : Env ℚ ℚ ℚ ℚ where
  geo := geo1
  forcing := 1
  numDof := 1
  ones := 1
  residual n u l := if bad n then none else some (2 * u + c * u ^ 3 - l)
  jacobian _ u _ := some (2 + 3 * c * u ^ 2)
  factorize n m := if m = 0 || badFac n then none else some m
  solve _ f b := some (b / f)
  mul m u := m * u
  vecD f := [f]
  eigs _ m _ := some [m]

/-- Options. -/
def opts (maxIt : ℕ) (desired : ℤ) : Opts ℚ where
  maxIt := maxIt
  tol := 1 / 1000
  tolF := 1 / 1000
  tolU := 1 / 1000
  tau := 1000
  desiredIt := desired
  quasi := false
  quasiInterval := -1
  bifMethod := .nothing
  relax := 1
  spFail := 0
  spTestTol := 1 / 1000
  spTestIt := 5
  spTolE := 1 / 1000
  spTolB := 0
  phiUser := true
  angle := .step

/-- The state after construction and `initialize`, with arc length `len`. -/
def start (len : ℚ) (adaptive : Bool) : St ℚ ℚ ℚ ℚ where
  U := 0
  L := 0
  DU := 0
  DL := 0
  dU := 0
  dL := 0
  Ubar := 0
  Ut := 0
  Uprev := 0
  Lprev := 0
  DUold := 0
  DLold := 0
  guess := none
  Lguess := 0
  resVec := 0
  jac := 0
  fac := none
  len := len
  lenPrev := len
  lenOri := len
  adaptive := adaptive
  phi := 1
  numIt := 0
  residueF := none
  residueU := none
  basisF := 0
  basisU := 0
  converged := false
  stabVec := []
  negatives := 0
  indicator := 0
  stability := 0
  stabilityPrev := 0
  status := .notStarted
  initialized := true
  v := 0
  DV := 0
  dV := 0
  residueKTPhi := 0
  log := []

/-- No failure. -/
def fine : ℕ → Bool := fun _ => false

end GsSA.ALM.Demo
