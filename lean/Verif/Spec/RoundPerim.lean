import Verif.Spec.Round
import Verif.Spec.Sensitivity

/-! # Specification vocabulary for the perimeter in rounded arithmetic -/

namespace Slsm.Rounding

variable {R : Rounding}

/-- The place of a point as real numbers. -/
def placeOf (c : Coord R.Num) : Coord ℝ := ⟨c.x.val, c.y.val⟩

/-- Exact sum of the distances from the place `c` to the points of `b` with the given numbers. -/
noncomputable def ringAt (b : Boundary R.Num) (nbrs : List Nat) (c : Coord ℝ) : ℝ :=
  (nbrs.map fun j => (b.points[j]?).elim 0 fun q => Boundary.distance c (placeOf q.coord)).sum

/-- The point moved by exactly `t` along its normal. -/
noncomputable def slid (p : BoundaryPoint R.Num) (t : ℝ) : Coord ℝ := ⟨p.coord.x.val + t * p.normal.x.val, p.coord.y.val + t * p.normal.y.val⟩

/-- Exact curvature of the boundary at a point: central difference (step `δ`) along the normal of the sum of the distances to its neighbours,
per unit length. -/
noncomputable def bend (δ : ℝ) (b : Boundary R.Num) (p : BoundaryPoint R.Num) : ℝ :=
  (ringAt b (p.neighbours.take p.nNeighbours) (slid p δ) - ringAt b (p.neighbours.take p.nNeighbours) (slid p (-δ))) / (2 * δ) / p.length.val

/-- The neighbour list of the point refers to points of the boundary, at most four. -/
structure Tied (b : Boundary R.Num) (p : BoundaryPoint R.Num) : Prop where
  few : p.nNeighbours ≤ 4
  size : p.nNeighbours ≤ p.neighbours.length
  inside : ∀ j ∈ p.neighbours.take p.nNeighbours, j < b.points.length

end Slsm.Rounding
