import Mathlib.Algebra.Order.Field.Basic
import Mathlib.Data.List.Flatten
import Mathlib.Data.List.Range

/-!
# Model of the geometry of the snapping programs

`makeTop`, `makeElement`, `makeBottom` and the assembly of the lattice in `examples/snapping_example.cpp` 521-1145 and
169-210 (copies in `snapping_example3D.cpp`, `snapping_example_shell.cpp`, `snapping_example_shell_APALM.cpp` and
`snapping_example_shell_DC.cpp`), the single element of `examples/snapping_element.cpp` 508-734 (copies in
`snapping_element3D.cpp` and `snapping_element_shell.cpp`), and the choice of the sides with boundary conditions.

Every patch is a strip: along the first direction it follows a piece of the curve of `makeCurve`, whose first
coordinate is `l` times the parameter because its coefficients are the anchors (linear precision, see C146); in the
second direction, of degree 1, it is linear. `uniformRefine` of the second direction, labels and the thickness in 3D
do not change it. The curve itself, a projection of a cosine, is an arbitrary function.
-/

namespace GsSA.Tools

set_option linter.unusedSectionVars false

variable {K : Type} [Field K] [LinearOrder K]

/-- The dimensions `tw`, `tg`, `tb`, `ts`, `l`, `a`, `snapping_example.cpp` 87-92 and 135. -/
structure Dims (K : Type) where
  tw : K
  tg : K
  tb : K
  ts : K
  l : K
  a : K

/-- Second coordinates of one side of a patch: the curve with something added, or `setConstant`. -/
inductive Edge (K : Type) where
  | curve (s : K)
  | flat (y : K)
deriving DecidableEq

/-- The value over the parameter `ξ`; `f` is the curve. -/
def Edge.at (f : K → K) (ξ : K) : Edge K → K
  | .curve s => f ξ + s
  | .flat y => y

/-- A patch: the piece of the curve (0 left, 1 midleft, 2 mid, 3 midright, 4 right), the rows of coefficients
`0..n-1` and `n..2n-1`, and what `shift2D` added. -/
structure Strip (K : Type) where
  col : ℕ
  south : Edge K
  north : Edge K
  dx : K
  dy : K
deriving DecidableEq

/-- `splitAt`, `snapping_example.cpp` 568-576: the ends of the pieces. -/
def cuts (d : Dims K) : ℕ → K
  | 0 => 0
  | 1 => d.tw / 2 / d.l
  | 2 => 1 / 2 - d.tw / 2 / d.l
  | 3 => 1 / 2 + d.tw / 2 / d.l
  | 4 => 1 - d.tw / 2 / d.l
  | _ => 1

/-- The value of a patch; `ξ` is between the ends of its piece. -/
def Strip.point (d : Dims K) (f : K → K) (p : Strip K) (ξ η : K) : K × K :=
  (d.l * ξ + p.dx, (1 - η) * p.south.at f ξ + η * p.north.at f ξ + p.dy)

/-- `gsNurbsCreator<>::shift2D`. -/
def Strip.shift (x y : K) (p : Strip K) : Strip K := { p with dx := p.dx + x, dy := p.dy + y }

/-- One patch for each piece of the curve. -/
def stripRow (s n : Edge K) : List (Strip K) :=
  [⟨0, s, n, 0, 0⟩, ⟨1, s, n, 0, 0⟩, ⟨2, s, n, 0, 0⟩, ⟨3, s, n, 0, 0⟩, ⟨4, s, n, 0, 0⟩]

/-- `makeElement`, `snapping_example.cpp` 814-1024. -/
def makeElement (d : Dims K) : List (Strip K) :=
  let o := d.tg / 2 - d.a
  ⟨2, .curve (o - d.tg), .curve o, 0, 0⟩ :: stripRow (.curve o) (.curve (o + d.ts)) ++
  let o := o + d.ts
  [⟨0, .curve o, .curve (o + d.tg), 0, 0⟩, ⟨4, .curve o, .curve (o + d.tg), 0, 0⟩] ++
  let o := o + d.tg
  stripRow (.curve o) (.curve (o + d.tb))

/-- `makeTop`, `snapping_example.cpp` 602-804. -/
def makeTop (d : Dims K) : List (Strip K) :=
  let o := d.tg / 2 - d.a
  ⟨2, .curve (o - d.tg), .curve o, 0, 0⟩ :: stripRow (.curve o) (.curve (o + d.ts)) ++
  let o := o + d.ts
  [⟨0, .curve o, .curve (o + d.tg), 0, 0⟩, ⟨4, .curve o, .curve (o + d.tg), 0, 0⟩] ++
  let o := o + d.tg
  stripRow (.curve o) (.flat (d.tg / 2 + d.ts + d.tg + d.tb + 5 * d.tg))

/-- `makeBottom`, `snapping_example.cpp` 1034-1145. -/
def makeBottom (d : Dims K) : List (Strip K) :=
  stripRow (.curve (-d.tg / 2 - d.a)) (.flat (-d.tg / 2 - 2 * d.a - 5 * d.tg))

/-- `dy`, `snapping_example.cpp` 170. -/
def rowHeight (d : Dims K) : K := 2 * d.tg + d.ts + d.tb

/-- The loop over `kx`, `snapping_example.cpp` 174-210: the patches after `kx` columns and `topmid_ID`, which has no
value before it is set. -/
def lattice (d : Dims K) (Nx Ny : ℕ) : ℕ → List (Strip K) × Option ℕ
  | 0 => ([], none)
  | kx + 1 =>
    let r := lattice d Nx Ny kx
    let x : K := kx * d.l
    let mp := r.1 ++ (makeBottom d).map (Strip.shift x 0) ++
      (List.range Ny).flatMap (fun ky : ℕ => (makeElement d).map (Strip.shift x (ky * rowHeight d)))
    let id := if kx = Nx / 2 then some (mp.length + if Nx % 2 = 0 then 8 else 10) else r.2
    (mp ++ (makeTop d).map (Strip.shift x (Ny * rowHeight d)), id)

/-- `mp`. -/
def latticePatches (d : Dims K) (Nx Ny : ℕ) : List (Strip K) := (lattice d Nx Ny Nx).1

/-- `topmid_ID`. -/
def latticeMid (d : Dims K) (Nx Ny : ℕ) : Option ℕ := (lattice d Nx Ny Nx).2

/-- `makeElement` of `snapping_element.cpp` 509-734: one element between two blocks. -/
def singleElement (d : Dims K) : List (Strip K) :=
  let o := d.tg / 2 - d.a
  [⟨0, .flat 0, .curve o, 0, 0⟩, ⟨4, .flat 0, .curve o, 0, 0⟩] ++ stripRow (.curve o) (.curve (o + d.ts)) ++
  let o := o + d.ts
  [⟨2, .curve o, .curve (o + d.tg), 0, 0⟩] ++
  let o := o + d.tg
  stripRow (.curve o) (.curve (o + d.tb)) ++
  let o := o + d.tb
  let y := d.tg / 2 + d.ts + d.tg + d.tb + d.tg / 2
  [⟨0, .flat y, .curve o, 0, 0⟩, ⟨4, .flat y, .curve o, 0, 0⟩]

/-- `boundary::west`, `east`, `south`, `north`. -/
inductive Side where
  | west
  | east
  | south
  | north
deriving DecidableEq

/-- The curve of a side, with a parameter from 0 to 1. -/
def Strip.side (d : Dims K) (f : K → K) (p : Strip K) : Side → K → K × K
  | .west, τ => p.point d f (cuts d p.col) τ
  | .east, τ => p.point d f (cuts d (p.col + 1)) τ
  | .south, τ => p.point d f (cuts d p.col + τ * (cuts d (p.col + 1) - cuts d p.col)) 0
  | .north, τ => p.point d f (cuts d p.col + τ * (cuts d (p.col + 1) - cuts d p.col)) 1

/-- What is prescribed on a side. -/
inductive Support where
  | fixed
  | loaded
  | free
deriving DecidableEq

/-- The boundary condition of a side with the middle at height `y`, `snapping_example.cpp` 231-257; `ymin` and `ymax`
belong to the bounding box. -/
def support (ymin ymax y : K) : Support :=
  let band := 1 / 100 * (ymax - ymin)
  if y ≤ ymin + band ∧ y ≥ ymin - band then .fixed
  else if y ≤ ymax + band ∧ y ≥ ymax - band then .loaded
  else .free

/-- The flat sides, which are the ends of the bounding box if the coefficients of the curve stay between them. -/
def latticeMin (d : Dims K) : K := -d.tg / 2 - 2 * d.a - 5 * d.tg

def latticeMax (d : Dims K) (Ny : ℕ) : K := d.tg / 2 + d.ts + d.tg + d.tb + 5 * d.tg + Ny * rowHeight d

/-- The point of the output and of the load, `snapping_example_shell.cpp` 289-304: patch `topmid_ID`, left end of the
upper side if the number of columns is even, else its middle. -/
def outputParam (d : Dims K) (Nx : ℕ) (p : Strip K) : K :=
  if Nx % 2 = 0 then cuts d p.col else (cuts d p.col + cuts d (p.col + 1)) / 2

end GsSA.Tools
