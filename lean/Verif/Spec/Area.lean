import Verif.Spec.Boundary
import Mathlib.Data.List.Rotate

/-! # Specification vocabulary for area fractions

The part of a cell that belongs to the structure is a polygon whose vertices are met on a walk around the cell. -/

namespace Slsm

/-- Area of the polygon with the given vertices in anticlockwise order. -/
noncomputable def polyArea (l : List (Coord ℝ)) : ℝ := (List.zipWith (fun p q => p.x * q.y - q.x * p.y) l (l.rotate 1)).sum / 2

/-- Corners and edges of the cell with lower left corner `(x, y)`, anticlockwise. -/
def cellWalk (x y : Nat) : List Place :=
  [.node x y, .hor x y, .node (x + 1) y, .ver (x + 1) y, .node (x + 1) (y + 1), .hor x (y + 1), .node x (y + 1), .ver x y]

/-- Where the polygon of the structure has a vertex: at corners inside, at corners on the contour unless both neighbouring corners of the
cell are outside, and where the contour crosses an edge. -/
def StructureVertex (f : Nat → Nat → ℝ) (x y : Nat) : Place → Prop
  | .node a b => nodeSide (f a b) = .inside ∨ (nodeSide (f a b) = .boundary ∧
      ¬ (nodeSide (f a (2 * y + 1 - b)) = .outside ∧ nodeSide (f (2 * x + 1 - a) b) = .outside))
  | p => p.onContour f

/-- Where the polygon of the outside of a cell has a vertex if no corner is on the contour. -/
def VoidVertex (f : Nat → Nat → ℝ) : Place → Prop
  | .node a b => nodeSide (f a b) = .outside
  | p => p.onContour f

open Classical in
/-- The polygon of the structure, if it is connected. -/
noncomputable def structurePolygon (f : Nat → Nat → ℝ) (x y : Nat) : List (Coord ℝ) :=
  ((cellWalk x y).filter fun p => decide (StructureVertex f x y p)).map fun p => p.coord f

open Classical in
/-- The polygon of the outside, if it is connected. -/
noncomputable def voidPolygon (f : Nat → Nat → ℝ) (x y : Nat) : List (Coord ℝ) :=
  ((cellWalk x y).filter fun p => decide (VoidVertex f p)).map fun p => p.coord f

/-- The corners of a cell. -/
def cellCorners (x y : Nat) : List (Nat × Nat) := [(x, y), (x + 1, y), (x + 1, y + 1), (x, y + 1)]

/-- All four edges are crossed. -/
def Saddle (f : Nat → Nat → ℝ) (x y : Nat) : Prop :=
  Crossed (nodeSide (f x y)) (nodeSide (f (x + 1) y)) ∧ Crossed (nodeSide (f (x + 1) y)) (nodeSide (f (x + 1) (y + 1))) ∧
  Crossed (nodeSide (f (x + 1) (y + 1))) (nodeSide (f x (y + 1))) ∧ Crossed (nodeSide (f x (y + 1))) (nodeSide (f x y))

/-- Value at the centre of a cell: the mean of the values at the corners. -/
noncomputable def centreValue (f : Nat → Nat → ℝ) (x y : Nat) : ℝ := (f x y + f (x + 1) y + f (x + 1) (y + 1) + f x (y + 1)) / 4

open Classical in
/-- Area of the part of the cell that belongs to the structure: all of it if no corner is outside, nothing if no corner is inside; if
all four edges are crossed and the centre is not inside, the structure consists of the two pieces left over by the polygon of the outside;
otherwise it is a polygon. -/
noncomputable def cellArea (f : Nat → Nat → ℝ) (x y : Nat) : ℝ :=
  if ∀ q ∈ cellCorners x y, nodeSide (f q.1 q.2) ≠ .outside then 1
  else if ∀ q ∈ cellCorners x y, nodeSide (f q.1 q.2) ≠ .inside then 0
  else if Saddle f x y ∧ centreValue f x y ≤ 0 then 1 - polyArea (voidPolygon f x y)
  else polyArea (structurePolygon f x y)

end Slsm
