import Verif.Spec.Area
import Mathlib.Analysis.Convex.Hull

/-! # The structure as a set of points of the plane -/

namespace Slsm

/-- The (closed) cell with lower left corner `(x, y)`. -/
def cellSquare (x y : Nat) : Set (ℝ × ℝ) := Set.Icc (x : ℝ) (x + 1) ×ˢ Set.Icc (y : ℝ) (y + 1)

/-- The points of the plane at the places of the walk around the cell that satisfy `P`. -/
def cellVertices (f : Nat → Nat → ℝ) (x y : Nat) (P : Place → Prop) : Set (ℝ × ℝ) :=
  {z | ∃ p ∈ cellWalk x y, P p ∧ z = ((p.coord f).x, (p.coord f).y)}

open Classical in
/-- The part of a cell that belongs to the structure: all of it if no corner is outside, nothing if no corner is inside; if all four edges are crossed and
the centre is outside, what is left over by the convex set spanned by the outside corners and the contour; otherwise the convex set spanned by the inside corners and
the contour. -/
noncomputable def structureIn (f : Nat → Nat → ℝ) (x y : Nat) : Set (ℝ × ℝ) :=
  if ∀ q ∈ cellCorners x y, nodeSide (f q.1 q.2) ≠ .outside then cellSquare x y
  else if ∀ q ∈ cellCorners x y, nodeSide (f q.1 q.2) ≠ .inside then ∅
  else if Saddle f x y ∧ centreValue f x y < 0 then cellSquare x y \ convexHull ℝ (cellVertices f x y (VoidVertex f))
  else convexHull ℝ (cellVertices f x y (StructureVertex f x y))

/-- The structure: the union over the cells. -/
noncomputable def structureSet (w h : Nat) (f : Nat → Nat → ℝ) : Set (ℝ × ℝ) := {z | ∃ x y, x < w ∧ y < h ∧ z ∈ structureIn f x y}

/-- No cell has all edges crossed and value zero at the centre. -/
def NoTie (w h : Nat) (f : Nat → Nat → ℝ) : Prop := ∀ x y, x < w → y < h → Saddle f x y → centreValue f x y ≠ 0

/-- The (closed) domain. -/
def domainSet (w h : Nat) : Set (ℝ × ℝ) := Set.Icc (0 : ℝ) w ×ˢ Set.Icc (0 : ℝ) h

/-- The points of the plane on the segments of a boundary. -/
def boundarySet (b : Boundary ℝ) : Set (ℝ × ℝ) :=
  {z | ∃ s ∈ b.segments, ∃ p q, b.points[s.start]? = some p ∧ b.points[s.stop]? = some q ∧ z ∈ segment ℝ (p.coord.x, p.coord.y) (q.coord.x, q.coord.y)}

end Slsm
