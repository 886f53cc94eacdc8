import Verif.Spec.Round
import Verif.Spec.Velocity

/-! # Specification of the velocities mapped to nodes in rounded arithmetic -/

namespace Slsm

variable {R : Rounding}

/-- Squared distance of the boundary point from the node at `(x, y)`, not rounded. -/
noncomputable def sqFromR (p : BoundaryPoint R.Num) (x y : Nat) : ℝ := (p.coord.x.val - x) ^ 2 + (p.coord.y.val - y) ^ 2

/-- The node at `(x, y)` is the one the mesh reports as closest to `p`, or a lattice neighbour of that node whose squared distance from `p`
is at most `t`. -/
def FeedsWithin (w h : Nat) (m : Mesh R.Num) (t : ℝ) (p : BoundaryPoint R.Num) (x y : Nat) : Prop :=
  ∃ c, m.getClosestNode p.coord = .ok c ∧ (nodeNo w x y = c ∨ Adj w h c (nodeNo w x y) ∧ sqFromR p x y ≤ t)

/-- `near` are the points within distance one of the node: those farther by 2⁻⁴⁸ are not among them, those nearer by 2⁻⁴⁸ are. -/
structure Neighbours (w h : Nat) (m : Mesh R.Num) (points near : List (BoundaryPoint R.Num)) (x y : Nat) : Prop where
  /-- The points of the boundary with some property, in their order. -/
  some : ∃ f : BoundaryPoint R.Num → Bool, near = points.filter f
  /-- No other points. -/
  only : ∀ p ∈ near, FeedsWithin w h m (1 + 1 / 2 ^ 48) p x y
  /-- All such points. -/
  all : ∀ p ∈ points, FeedsWithin w h m (1 - 1 / 2 ^ 48) p x y → p ∈ near

/-- Average of the velocities with weights one over the squared distance, not rounded. -/
noncomputable def averageR (points : List (BoundaryPoint R.Num)) (x y : Nat) : ℝ :=
  (points.map fun p => p.velocity.val / sqFromR p x y).sum / (points.map fun p => 1 / sqFromR p x y).sum

end Slsm
