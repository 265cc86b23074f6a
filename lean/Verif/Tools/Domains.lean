import Verif.Tools.BSpline
import Verif.Tools.Panels

/-!
# Model of the geometries built by the programs

`RectangularDomain` and `Rectangle` (`benchmarks/benchmark_Beam.cpp` 400-475, `benchmarks/benchmark_Beam_APALM.cpp`
656-816 and copies), `BrickDomain` (`examples/gsElasticity_Modal.cpp` 266-340,
`benchmarks/benchmark_Elasticity_Beam_APALM.cpp`), `FrustrumDomain` (`benchmarks/benchmark_Frustrum_APALM.cpp` 750-809
and copies) and `AnnularDomain` (`examples/gsThinShell_ArcLength.cpp` 1427-1480). Knot vectors are lists; the
evaluation of tensor-product splines and NURBS in the library is given by its definition. Degree elevation and the
topology do not change the points and are left out.
-/

namespace GsSA.Tools

set_option linter.unusedSectionVars false

variable {K : Type} [Field K] [LinearOrder K]

/-- `gsKnotVector::initUniform(0,1,0,p+1,1)`. -/
def openKnots (p : ℕ) : List K := List.replicate (p + 1) 0 ++ List.replicate (p + 1) 1

/-- `gsKnotVector::uniformRefine()`: the middle of every element becomes a knot. -/
def refineKnots : List K → List K
  | a :: b :: l => if a = b then a :: refineKnots (b :: l) else a :: (a + b) / 2 :: refineKnots (b :: l)
  | l => l

/-- `gsKnotVector::insert`. -/
def insertKnot (x : K) : List K → List K
  | a :: l => if a ≤ x then a :: insertKnot x l else x :: a :: l
  | [] => [x]

/-- The knots without repetition, `uValue` and `uSize`. -/
def distinct : List K → List K
  | a :: b :: l => if a = b then distinct (b :: l) else a :: distinct (b :: l)
  | l => l

/-- The knots of a direction, `benchmark_Beam.cpp` 414-422: `n` refinements of degree `p`. -/
def rectKnots (n p : ℕ) : List K := refineKnots^[n] (openKnots p)

/-- The option `clamped`, `benchmark_Beam.cpp` 424-432. -/
def clampKnots (off : K) (l : List K) : List K :=
  let l1 := insertKnot (min off ((distinct l).getD 1 0 / 2)) l
  insertKnot (max (1 - off) ((distinct l1).getD ((distinct l1).length - 2) 0 / 2)) l1

/-- A knot by its index. -/
def knotAt (l : List K) (i : ℕ) : K := l.getD i 1

/-- `gsTensorBSplineBasis::component(d).size()`. -/
def basisSize (p : ℕ) (l : List K) : ℕ := l.length - p - 1

/-- `setLinSpaced` of Eigen. -/
def linSpaced (n : ℕ) (a b : K) (k : ℕ) : K := if n = 1 then b else a + k * ((b - a) / (n - 1 : ℕ))

/-- The coefficients, `benchmark_Beam.cpp` 437-462: row `k * len0 + i`. -/
def rectCoefs (n0 n1 : ℕ) (L B : K) (r : ℕ) : Pt K := ⟨linSpaced n0 0 L (r % n0), linSpaced n1 0 B (r / n0), 0⟩

/-- The value of `gsTensorBSpline<2>`. -/
def surface (l0 l1 : List K) (p q : ℕ) (c : ℕ → Pt K) (u v : K) : Pt K :=
  let n0 := basisSize p l0
  let f := fun g : Pt K → K => ∑ k ∈ Finset.range (basisSize q l1), ∑ i ∈ Finset.range n0,
    bspl (knotAt l0) 1 p i u * bspl (knotAt l1) 1 q k v * g (c (k * n0 + i))
  ⟨f Pt.x, f Pt.y, f Pt.z⟩

/-- `RectangularDomain` with the knots `l0` and `l1`, `benchmark_Beam.cpp` 434-466. -/
def rectangle (l0 l1 : List K) (p q : ℕ) (L B : K) : K → K → Pt K :=
  surface l0 l1 p q (rectCoefs (basisSize p l0) (basisSize q l1) L B)

/-- The coefficients of `BrickDomain`, `gsElasticity_Modal.cpp` 305-334: row `k * len0 + l * len0 * len1 + i`. -/
def brickCoefs (n0 n1 n2 : ℕ) (L B H : K) (r : ℕ) : Pt K :=
  ⟨linSpaced n0 0 L (r % (n0 * n1) % n0), linSpaced n1 0 B (r % (n0 * n1) / n0), linSpaced n2 0 H (r / (n0 * n1))⟩

/-- `BrickDomain` with `n0`, `n1`, `n2` refinements and degrees `p0`, `p1`, `p2`, `gsElasticity_Modal.cpp` 279-340. -/
def brick (n0 n1 n2 p0 p1 p2 : ℕ) (L B H : K) (u v w : K) : Pt K :=
  let l0 : List K := rectKnots n0 p0
  let l1 : List K := rectKnots n1 p1
  let l2 : List K := rectKnots n2 p2
  let s0 := basisSize p0 l0
  let s1 := basisSize p1 l1
  let s2 := basisSize p2 l2
  let f := fun g : Pt K → K => ∑ l ∈ Finset.range s2, ∑ k ∈ Finset.range s1, ∑ i ∈ Finset.range s0,
    bspl (knotAt l0) 1 p0 i u * bspl (knotAt l1) 1 p1 k v * bspl (knotAt l2) 1 p2 l w *
      g (brickCoefs s0 s1 s2 L B H (k * s0 + l * s0 * s1 + i))
  ⟨f Pt.x, f Pt.y, f Pt.z⟩

/-- The value of `gsTensorNurbs<2>`. -/
def nurbs (l0 l1 : List K) (p q : ℕ) (c : ℕ → Pt K) (w : ℕ → K) (u v : K) : Pt K :=
  let n0 := basisSize p l0
  let f := fun g : ℕ → K => ∑ k ∈ Finset.range (basisSize q l1), ∑ i ∈ Finset.range n0,
    bspl (knotAt l0) 1 p i u * bspl (knotAt l1) 1 q k v * (w (k * n0 + i) * g (k * n0 + i))
  ⟨f (fun r => (c r).x) / f (fun _ => 1), f (fun r => (c r).y) / f (fun _ => 1),
    f (fun r => (c r).z) / f (fun _ => 1)⟩

/-- The number of control points over the height, `benchmark_Frustrum_APALM.cpp` 772. -/
def frustrumRows (n : ℕ) : ℕ := 2 ^ n + 2

/-- The coefficients, `benchmark_Frustrum_APALM.cpp` 778-786: block `k` has the rows `3k` to `3k + 2`. -/
def frustrumCoefs (N : ℕ) (R1 R2 h : K) (r : ℕ) : Pt K :=
  let k : K := (r / 3 : ℕ)
  let R := k * (R2 - R1) / (N - 1 : ℕ) + R1
  let H := k * h / (N - 1 : ℕ)
  if r % 3 = 0 then ⟨R, 0, H⟩ else if r % 3 = 1 then ⟨R, R, H⟩ else ⟨0, R, H⟩

/-- The weights, `benchmark_Frustrum_APALM.cpp` 788. -/
def frustrumWeights (r : ℕ) : K := if r % 3 = 1 then 70711 / 100000 else 1

/-- `FrustrumDomain`, `benchmark_Frustrum_APALM.cpp` 751-809, with `n` refinements over the height. -/
def frustrum (n : ℕ) (R1 R2 h : K) : K → K → Pt K :=
  nurbs (openKnots 2) (rectKnots n 2) 2 2 (frustrumCoefs (frustrumRows n) R1 R2 h) frustrumWeights

/-- The coefficients, `gsThinShell_ArcLength.cpp` 1445-1453. -/
def annulusCoefs (R1 R2 : K) (r : ℕ) : Pt K :=
  ([⟨R1, 0, 0⟩, ⟨(R1 + R2) / 2, 0, 0⟩, ⟨R2, 0, 0⟩, ⟨R1, R1, 0⟩, ⟨(R1 + R2) / 2, (R1 + R2) / 2, 0⟩, ⟨R2, R2, 0⟩,
    ⟨0, R1, 0⟩, ⟨0, (R1 + R2) / 2, 0⟩, ⟨0, R2, 0⟩] : List (Pt K)).getD r ⟨0, 0, 0⟩

/-- The weights, `gsThinShell_ArcLength.cpp` 1456-1458. -/
def annulusWeights (r : ℕ) : K := if r / 3 = 1 then 707106781186548 / 1000000000000000 else 1

/-- `AnnularDomain`, `gsThinShell_ArcLength.cpp` 1428-1480. -/
def annulus (R1 R2 : K) : K → K → Pt K :=
  nurbs (openKnots 2) (openKnots 2) 2 2 (annulusCoefs R1 R2) annulusWeights

end GsSA.Tools
