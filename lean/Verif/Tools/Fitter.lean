import Mathlib.Algebra.BigOperators.Intervals
import Mathlib.Algebra.Order.BigOperators.Group.Finset
import Mathlib.Algebra.Order.Field.Basic
import Mathlib.Algebra.Module.Basic
import Mathlib.Logic.Function.Basic
import Verif.Base.OMap
import Verif.Base.Status

/-!
# Model of the solution fitter

`src/gsStructuralAnalysisTools/gsSolutionFitter.h`. Arrays are functions on the natural numbers. Data are
elements of a `K`-module (all of the same size). `gsFitting` is an arbitrary function; B-splines are given by
the recursion of Cox and de Boor.
-/

namespace GsSA.Tools

open GsSA

variable {K : Type} [Field K] [LinearOrder K]

/-- The sum of `math::pow(t - previous t, 1./param)`, `gsSolutionFitter.h` 180-182, with `rt x` for the
power. -/
def chord (rt : K → K) (t : ℕ → K) (n : ℕ) : K :=
  (List.range (n - 1)).foldl (fun d i => d + rt (t (i + 1) - t i)) 0

/-- `u_bar` before the loop, `gsSolutionFitter.h` 167-169. -/
def ubarStart (n : ℕ) : ℕ → K := Function.update (Function.update (fun _ => 0) 0 0) (n - 1) 1

/-- `u_bar`, `gsSolutionFitter.h` 184-186: entries `1` to `n - 2`. -/
def ubar (rt : K → K) (t : ℕ → K) (n : ℕ) : ℕ → K :=
  (List.range (n - 2)).foldl
    (fun u i => Function.update u (i + 1) (u i + 1 / chord rt t n * rt (t (i + 1) - t i))) (ubarStart n)

/-- The knots at the ends, `gsSolutionFitter.h` 188-193. -/
def endKnots (n deg : ℕ) : ℕ → K :=
  (List.range (deg + 1)).foldl
    (fun u k => Function.update (Function.update u k 0) (n + deg + 1 - k - 1) 1) (fun _ => 0)

/-- The sum in the inner loop, `gsSolutionFitter.h` 196-198. -/
def window (u : ℕ → K) (deg j : ℕ) : K := (List.range deg).foldl (fun x i => x + u (j + i)) 0

/-- The knot vector before the affine map, `gsSolutionFitter.h` 188-201. -/
def rawKnots (rt : K → K) (t : ℕ → K) (n deg : ℕ) : ℕ → K :=
  (List.range (n - deg - 1)).foldl
    (fun u i => Function.update u (i + 1 + deg) (window (ubar rt t n) deg (i + 1) / deg)) (endKnots n deg)

/-- `gsKnotVector::affineTransformTo`. -/
def affine (u : ℕ → K) (last : ℕ) (a b : K) : ℕ → K :=
  fun i => a + (u i - u 0) * ((b - a) / (u last - u 0))

/-- `gsKnotVector(first, last, interior, mult, 1)` with `n - (deg+1)` interior knots,
`gsSolutionFitter.h` 175. -/
def uniformKnots (n deg : ℕ) (a b : K) : ℕ → K :=
  fun i => if i ≤ deg then a else if n ≤ i then b else a + (i - deg : ℕ) * ((b - a) / (n - deg : ℕ))

/-- The knot vector, `gsSolutionFitter.h` 171-207, for the option `Parameterization`. `pow p x` is
`math::pow(x, 1./p)`. With one datum the loop for `u_bar` runs past the end (185); with no more than
`deg` data `u_bar.at(i)` throws (198). -/
def knotsOf (pow : ℤ → K → K) (param : ℤ) (t : ℕ → K) (n deg : ℕ) : Except Fail (ℕ → K) :=
  if param = 0 then
    if n ≤ deg then .error .ub else .ok (uniformKnots n deg (t 0) (t (n - 1)))
  else if param = 1 ∨ param = 2 then
    if n < 2 then .error .ub
    else if n ≤ deg then .error .exc
    else .ok (affine (rawKnots (pow param) t n deg) (n + deg) (t 0) (t (n - 1)))
  else .error .exc

/-- The Greville abscissae, `m_basis.anchors()`, `gsSolutionFitter.h` 213. -/
def anchor (u : ℕ → K) (deg k : ℕ) : K := (∑ i ∈ Finset.range deg, u (k + 1 + i)) / deg

/-- The B-spline of degree `p` with number `j`; `last` is the end of the domain, which belongs to the last
span. Quotients with denominator 0 are 0. -/
def bspl (u : ℕ → K) (last : K) : ℕ → ℕ → K → K
  | 0, j, x => if (u j ≤ x ∧ x < u (j + 1)) ∨ (x = last ∧ u j < x ∧ u (j + 1) = x) then 1 else 0
  | p + 1, j, x => (x - u j) / (u (j + p + 1) - u j) * bspl u last p j x +
      (u (j + p + 2) - x) / (u (j + p + 2) - u (j + 1)) * bspl u last p (j + 1) x

variable {V : Type} [AddCommGroup V] [Module K V]

/-- `gsBSpline`. -/
structure Curve (K V : Type) where
  deg : ℕ
  n : ℕ
  knots : ℕ → K
  coefs : ℕ → V

/-- The value of a curve. -/
def Curve.eval (c : Curve K V) (x : K) : V :=
  ∑ j ∈ Finset.range c.n, bspl c.knots (c.knots c.n) c.deg j x • c.coefs j

/-- The members of `gsSolutionFitter`, `gsSolutionFitter.h` 234-244, that are used. -/
structure Fitter (K V : Type) where
  data : OMap K V
  deg : ℕ
  param : ℤ
  fit : Option (Curve K V)

/-- Constructor, `gsSolutionFitter.h` 26-40: `insert` keeps an earlier datum with the same time. -/
def Fitter.new (data : List V) (times : List K) (deg : ℕ) : Except Fail (Fitter K V) :=
  if data.length = 0 then .error .ensure
  else if data.length ≠ times.length then .error .ensure
  else .ok ⟨(times.zip data).foldl (fun m x => m.insertNew x.1 x.2) [], deg, 1, none⟩

/-- `addDataPoint`, `gsSolutionFitter.h` 61-65. -/
def Fitter.addDataPoint (x : V) (time : K) (s : Fitter K V) : Fitter K V :=
  { s with data := s.data.insertNew time x }

/-- The times in the order of the map, `gsSolutionFitter.h` 156-164. -/
def Fitter.times (s : Fitter K V) : ℕ → K := fun k => (s.data.keys[k]?).getD 0

/-- The data in the order of the map. -/
def Fitter.rows (s : Fitter K V) : ℕ → V := fun k => (s.data.vals[k]?).getD 0

/-- `gsFitting` with the constraints `C coefs = rhs` (`gsSolutionFitter.h` 224-228): arguments are the
times, the data, the matrix `C` and the number of data. -/
abbrev FitLib (K V : Type) := (ℕ → K) → (ℕ → V) → (ℕ → ℕ → K) → ℕ → ℕ → V

/-- `compute`, `gsSolutionFitter.h` 148-231, in a release build. `m_data.at(0)` (157) looks for the key 0. -/
def Fitter.compute (pow : ℤ → K → K) (lib : FitLib K V) (s : Fitter K V) : Except Fail (Fitter K V) :=
  match s.data.get? 0 with
  | none => .error .exc
  | some _ =>
    match knotsOf pow s.param s.times s.data.length s.deg with
    | .error f => .error f
    | .ok u => .ok { s with
        fit := some ⟨s.deg, s.data.length, u,
          lib s.times s.rows (fun k j => bspl u (u s.data.length) s.deg j (anchor u s.deg k))
            s.data.length⟩ }

end GsSA.Tools
