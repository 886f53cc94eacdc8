import Verif.Lib.Real
import Verif.Spec.Boundary
import Verif.Spec.Shape

/-! # Rounded arithmetic

A rounding of the reals to a set of representable numbers, and the arithmetic in which every operation is the exact one followed by the
rounding (as IEEE 754 asks of `+ - * /` and `sqrt`).  Every rounding mode of IEEE binary64 with gradual underflow meets the conditions as
long as no result overflows (`Verif/Lib/Binary64.lean` proves it for rounding to nearest, ties to even).  Not covered: infinities and NaN; in
particular division by zero, which gives zero here as in the reals (the theorems are about calculations in which it does not occur). -/

namespace Slsm

/-- A rounding of the reals: monotone, the identity on the numbers it gives, which are closed under negation and contain the whole numbers up
to `2⁵³` and their halves, with relative error at most `2⁻⁵²` (absolute error at most `2⁻¹⁰⁷⁴` near zero); a number of size `1/4` or more keeps
`2⁻⁶⁰` away from all others. -/
structure Rounding where
  rnd : ℝ → ℝ
  mono : Monotone rnd
  idem : ∀ x, rnd (rnd x) = rnd x
  neg : ∀ x, rnd x = x → rnd (-x) = -x
  nat : ∀ n : ℕ, n ≤ 2 ^ 53 → rnd n = n
  half : ∀ n : ℕ, n ≤ 2 ^ 53 → rnd (n / 2) = n / 2
  err : ∀ x, |rnd x - x| ≤ |x| / 2 ^ 52 + 1 / 2 ^ 1074
  gap : ∀ x y, rnd x = x → rnd y = y → 1 / 4 ≤ |x| → x ≠ y → 1 / 2 ^ 60 ≤ |x - y|

namespace Rounding

/-- The representable numbers. -/
structure Num (R : Rounding) where
  val : ℝ
  fix : R.rnd val = val

variable (R : Rounding)

/-- The representable number that a real is rounded to. -/
def of (x : ℝ) : R.Num := ⟨R.rnd x, R.idem x⟩

theorem rnd_abs {x : ℝ} (h : R.rnd x = x) : R.rnd |x| = |x| := by
  rcases abs_choice x with e | e <;> rw [e]
  · exact h
  · exact R.neg x h

open Classical in
/-- Rounded arithmetic: comparisons, negation and absolute value are exact, every other operation is the exact one, rounded.  `floor` and
`trunc` convert to whole numbers exactly. -/
noncomputable instance : FP R.Num where
  add a b := R.of (a.val + b.val)
  sub a b := R.of (a.val - b.val)
  mul a b := R.of (a.val * b.val)
  div a b := R.of (a.val / b.val)
  neg a := ⟨-a.val, R.neg _ a.fix⟩
  lt a b := decide (a.val < b.val)
  le a b := decide (a.val ≤ b.val)
  eq a b := decide (a.val = b.val)
  nat n := R.of n
  sqrt a := R.of (Real.sqrt a.val)
  abs a := ⟨|a.val|, R.rnd_abs a.fix⟩
  floor a := ⌊a.val⌋₊
  trunc a := if 0 ≤ a.val then ⌊a.val⌋ else ⌈a.val⌉
  maxVal := R.of ((2 - 1 / 2 ^ 52) * 2 ^ 1023)

/-- The tolerance `1e-6` of the code. -/
noncomputable def tol : ℝ := R.rnd (1 / 10 ^ 6)

variable {R}

/-- The values of a list of representable numbers on the lattice. -/
noncomputable def lay (w : Nat) (l : List R.Num) (x y : Nat) : ℝ := (vals l (nodeNo w x y)).val

end Rounding

namespace Place

/-- The contour passes, up to the tolerance: the value at the lattice point is smaller than the tolerance, or the values at the ends of the edge
are of opposite sign and not smaller. -/
def meets (tol : ℝ) (f : Nat → Nat → ℝ) : Place → Prop
  | node x y => |f x y| < tol
  | hor x y => (tol ≤ f x y ∧ f (x + 1) y ≤ -tol) ∨ (f x y ≤ -tol ∧ tol ≤ f (x + 1) y)
  | ver x y => (tol ≤ f x y ∧ f x (y + 1) ≤ -tol) ∨ (f x y ≤ -tol ∧ tol ≤ f x (y + 1))

/-- The point `(a, b)` of the plane is the lattice point, or lies on the closed edge. -/
def has (a b : ℝ) : Place → Prop
  | node x y => a = x ∧ b = y
  | hor x y => x ≤ a ∧ a ≤ x + 1 ∧ b = y
  | ver x y => a = x ∧ y ≤ b ∧ b ≤ y + 1

/-- The zero of the linear interpolant along the edge is at least `δ` away from both ends. -/
def away (δ : ℝ) (f : Nat → Nat → ℝ) : Place → Prop
  | node _ _ => True
  | hor x y => δ * |f x y - f (x + 1) y| ≤ |f x y| ∧ δ * |f x y - f (x + 1) y| ≤ |f (x + 1) y|
  | ver x y => δ * |f x y - f x (y + 1)| ≤ |f x y| ∧ δ * |f x y - f x (y + 1)| ≤ |f x (y + 1)|

end Place

/-- The same mesh with other numbers. -/
def Mesh.map {D E : Type} (g : D → E) (m : Mesh D) : Mesh E where
  elements := m.elements.map fun e =>
    { coord := ⟨g e.coord.x, g e.coord.y⟩, area := g e.area, nodes := e.nodes, boundarySegments := e.boundarySegments,
      nBoundarySegments := e.nBoundarySegments, status := e.status }
  nodes := m.nodes.map fun n =>
    { coord := ⟨g n.coord.x, g n.coord.y⟩, neighbours := n.neighbours, elements := n.elements, nElements := n.nElements,
      boundaryPoints := n.boundaryPoints, nBoundaryPoints := n.nBoundaryPoints, isActive := n.isActive, isDomain := n.isDomain,
      isMasked := n.isMasked, isMine := n.isMine, status := n.status }
  width := m.width
  height := m.height
  nElements := m.nElements
  nNodes := m.nNodes
  xyToIndex := m.xyToIndex

/-- The same level set with other numbers. -/
def LevelSet.map {D E : Type} (g : D → E) (L : LevelSet D) : LevelSet E where
  signedDistance := L.signedDistance.map g
  velocity := L.velocity.map g
  gradient := L.gradient.map g
  target := L.target.map g
  narrowBand := L.narrowBand
  mines := L.mines
  nNarrowBand := L.nNarrowBand
  nMines := L.nMines
  moveLimit := g L.moveLimit
  area := g L.area
  mesh := L.mesh.map g
  bandWidth := L.bandWidth
  isFixedDomain := L.isFixedDomain

namespace Rounding

variable {R : Rounding}

/-- The level set whose numbers are the values of the representable ones: what the code would work on if it calculated exactly. -/
def exact (L : LevelSet R.Num) : LevelSet ℝ := L.map Num.val

variable (R)

/-- Which side of the contour, up to the tolerance of the code: `0` on it, `-1` outside, `1` inside. -/
noncomputable def sides (f : Nat → Nat → ℝ) (x y : Nat) : ℝ := if |f x y| < R.tol then 0 else if f x y < 0 then -1 else 1

/-- The values in units in which the tolerance of the code is exactly `10⁻⁶`.  Signs, and the zeros of the linear interpolants, are not changed. -/
noncomputable def scaled (f : Nat → Nat → ℝ) (x y : Nat) : ℝ := f x y * ((1 / 10 ^ 6) / R.tol)

variable {R}

/-- The four corners of a cell lie alternately inside and outside. -/
def saddle (f : Nat → Nat → ℝ) (x y : Nat) : Prop :=
  (R.tol ≤ f x y ∧ f (x + 1) y ≤ -R.tol ∧ R.tol ≤ f (x + 1) (y + 1) ∧ f x (y + 1) ≤ -R.tol) ∨
  (f x y ≤ -R.tol ∧ R.tol ≤ f (x + 1) y ∧ f (x + 1) (y + 1) ≤ -R.tol ∧ R.tol ≤ f x (y + 1))

variable (R) in
/-- In the cell `(x, y)` either the corners are not alternately inside and outside, or the sum of the values at the corners is not lost in rounding. -/
def Decided (f : Nat → Nat → ℝ) (x y : Nat) : Prop := saddle (R := R) f x y →
  (|f x y| + |f (x + 1) y| + |f (x + 1) (y + 1)| + |f x (y + 1)|) / 2 ^ 50 < |f x y + f (x + 1) y + f (x + 1) (y + 1) + f x (y + 1)|

end Rounding

namespace LevelSet

/-- The hole with exact numbers. -/
def holeVal {R : Rounding} (c : Hole R.Num) : Hole ℝ := ⟨⟨c.coord.x.val, c.coord.y.val⟩, c.r.val⟩

end LevelSet

namespace Boundary

/-- Conditions on holes: well inside the domain, with rims that keep `4·10⁻⁶` away from the lattice points. -/
structure Separate (w h : Nat) (holes : List (Hole ℝ)) : Prop where
  pos : ∀ c ∈ holes, 0 < c.r
  inside : ∀ c ∈ holes, 1 < c.coord.x - c.r ∧ c.coord.x + c.r < w - 1 ∧ 1 < c.coord.y - c.r ∧ c.coord.y + c.r < h - 1
  generic : ∀ c ∈ holes, ∀ x y, x ≤ w → y ≤ h → 4 / 10 ^ 6 ≤ |Slsm.distance c.coord (lattice x y) - c.r|

/-- A level set in rounded arithmetic whose contour can be told apart: the mesh is a grid, the values are there, and the contour does not cut
an edge closer than `2·10⁻⁶` to one of its ends. -/
structure Distinct {R : Rounding} (w h : Nat) (L : LevelSet R.Num) (isTarget : Bool) : Prop where
  grid : IsGrid w h L.mesh
  len : L.mesh.nNodes ≤ (values L isTarget).length
  fit : (w + 1) * (h + 1) < 2 ^ 31
  away : ∀ p, CutEdge w h (R.sides (Rounding.lay w (values L isTarget))) p → p.away (2 / 10 ^ 6) (Rounding.lay w (values L isTarget))

/-- The node is active or masked. -/
def Looked {D : Type} (w : Nat) (L : LevelSet D) (x y : Nat) : Prop :=
  ∃ nd, L.mesh.nodes[nodeNo w x y]? = some nd ∧ (nd.isActive = true ∨ nd.isMasked = true)

/-- Cut edges have an end that is active or masked (unless the target is discretised), and the lattice points on the contour are tidy. -/
structure Clear {R : Rounding} (w h : Nat) (L : LevelSet R.Num) (isTarget : Bool) : Prop extends Distinct w h L isTarget where
  seen : isTarget = true ∨ ∀ p, CutEdge w h (R.sides (Rounding.lay w (values L isTarget))) p → ∃ q ∈ p.ends, Looked w L q.1 q.2
  tidy : Tidy w h (R.sides (Rounding.lay w (values L isTarget)))

/-- The lattice points on the contour and the ends of cut edges are active or masked. -/
def Shown {R : Rounding} (w h : Nat) (L : LevelSet R.Num) (isTarget : Bool) : Prop :=
  (∀ x y, x ≤ w → y ≤ h → R.sides (Rounding.lay w (values L isTarget)) x y = 0 → Looked w L x y) ∧
  ∀ p, CutEdge w h (R.sides (Rounding.lay w (values L isTarget))) p → ∀ q ∈ p.ends, Looked w L q.1 q.2

/-- The same points, segments and links, and the points at the same places: in exact arithmetic at the zero of the linear interpolant, in
rounded arithmetic within rounding error of it. -/
structure Twin {R : Rounding} (w h : Nat) (b : Boundary R.Num) (b' : Boundary ℝ) : Prop where
  segments : (b.segments.map fun s => (s.start, s.stop, s.element)) = b'.segments.map fun s => (s.start, s.stop, s.element)
  links : (b.points.map fun p => (p.nSegments, p.segments, p.nNeighbours, p.neighbours)) =
    b'.points.map fun p => (p.nSegments, p.segments, p.nNeighbours, p.neighbours)
  counts : b.nPoints = b'.nPoints ∧ b.nSegments = b'.nSegments
  coords : ∀ (k : Nat) (p : BoundaryPoint R.Num) (p' : BoundaryPoint ℝ), b.points[k]? = some p → b'.points[k]? = some p' →
    |p.coord.x.val - p'.coord.x| ≤ (w + h + 4) / 2 ^ 52 ∧ |p.coord.y.val - p'.coord.y| ≤ (w + h + 4) / 2 ^ 52

end Boundary

end Slsm
