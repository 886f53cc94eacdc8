import Verif.Spec.Boundary
import Verif.Model.Sensitivity

/-! # Specification vocabulary for the sensitivities -/

namespace Slsm.Sensitivity

/-- The point moved by `t` along its normal; nothing else changes. -/
noncomputable def displaced (p : BoundaryPoint ℝ) (t : ℝ) : BoundaryPoint ℝ :=
  { p with coord := ⟨p.coord.x + t * p.normal.x, p.coord.y + t * p.normal.y⟩ }

/-- Sum of the distances from the place `c` to the points of `b` with the given numbers. -/
noncomputable def perimeterAt (b : Boundary ℝ) (nbrs : List Nat) (c : Coord ℝ) : ℝ :=
  (nbrs.map fun j => (b.points[j]?).elim 0 fun q => Boundary.distance c q.coord).sum

/-- Curvature of the boundary at a point: central difference (step `delta`) along the normal of the sum of the distances to its neighbours,
per unit length. -/
noncomputable def curvature (delta : ℝ) (b : Boundary ℝ) (p : BoundaryPoint ℝ) : ℝ :=
  (perimeterAt b (p.neighbours.take p.nNeighbours) (displaced p delta).coord -
    perimeterAt b (p.neighbours.take p.nNeighbours) (displaced p (-delta)).coord) / (2 * delta) / p.length

/-- The neighbour lists of the points refer to points of the boundary, and every point has an objective sensitivity. -/
structure Linked (b : Boundary ℝ) : Prop where
  size : ∀ p ∈ b.points, p.nNeighbours ≤ p.neighbours.length
  inside : ∀ p ∈ b.points, ∀ j ∈ p.neighbours.take p.nNeighbours, j < b.points.length
  sens : ∀ p ∈ b.points, p.sensitivities ≠ []

end Slsm.Sensitivity
