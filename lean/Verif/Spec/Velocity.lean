import Verif.Spec.Shape
import Verif.Lib.Real

/-! # Transfer of boundary point velocities to nodes (real numbers) -/

namespace Slsm

/-- Squared distance of the boundary point `p` from the lattice point `(x, y)`. -/
noncomputable def sqFrom (p : BoundaryPoint ℝ) (x y : Nat) : ℝ := (p.coord.x - x) ^ 2 + (p.coord.y - y) ^ 2

/-- The boundary point `p` contributes to the node at `(x, y)`: the node is the one the mesh reports as closest to `p`, or a
lattice neighbour of that node within distance one of `p`. -/
def Feeds (w h : Nat) (m : Mesh ℝ) (p : BoundaryPoint ℝ) (x y : Nat) : Prop :=
  ∃ c, m.getClosestNode p.coord = .ok c ∧
    (nodeNo w x y = c ∨ Adj w h c (nodeNo w x y) ∧ sqFrom p x y ≤ 1)

/-- `p` contributes to the node and lies (within 10⁻³) on it. -/
def SitsOn (w h : Nat) (m : Mesh ℝ) (p : BoundaryPoint ℝ) (x y : Nat) : Prop :=
  Feeds w h m p x y ∧ sqFrom p x y < 1 / 10 ^ 6

open Classical in
/-- The boundary points that contribute to the node at `(x, y)`. -/
noncomputable def feeders (w h : Nat) (m : Mesh ℝ) (points : List (BoundaryPoint ℝ)) (x y : Nat) : List (BoundaryPoint ℝ) :=
  points.filter fun p => decide (Feeds w h m p x y)

/-- Average of the velocities of `points` with weights one over the squared distance from `(x, y)`. -/
noncomputable def inverseSquareAverage (points : List (BoundaryPoint ℝ)) (x y : Nat) : ℝ :=
  (points.map fun p => p.velocity / sqFrom p x y).sum / (points.map fun p => 1 / sqFrom p x y).sum

/-- `p` lies in the domain. -/
def InDomain (w h : Nat) (p : Coord ℝ) : Prop := 0 ≤ p.x ∧ p.x ≤ w ∧ 0 ≤ p.y ∧ p.y ≤ h

end Slsm
