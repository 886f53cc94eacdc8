import Verif.Spec.Boundary
import Verif.Spec.Shape
import Verif.Spec.Eikonal
import Verif.Spec.Interface

/-! What reinitialisation does to the boundary. -/

namespace Slsm

/-- The place is an edge, and the values at its ends have strictly opposite signs. -/
def Place.cut (f : Nat → Nat → ℝ) : Place → Prop
  | .node _ _ => False
  | .hor x y => f x y * f (x + 1) y < 0
  | .ver x y => f x y * f x (y + 1) < 0

/-- The lattice point as a point of the plane. -/
def latticePoint (q : Nat × Nat) : Coord ℝ := ⟨q.1, q.2⟩

/-- The two ends as lattice points. -/
def Place.first : Place → Nat × Nat
  | .node x y => (x, y)
  | .hor x y => (x, y)
  | .ver x y => (x, y)

def Place.last : Place → Nat × Nat
  | .node x y => (x, y)
  | .hor x y => (x + 1, y)
  | .ver x y => (x, y + 1)

/-- Distance of a lattice point to the straight line through the nearest crossings on the two axes (or on the one axis that has a crossing). -/
noncomputable def lineDistance (w h : Nat) (L : LevelSet ℝ) (q : Nat × Nat) : ℝ :=
  1 / Real.sqrt (invSq (crossings (HAdj w h) (vals L.signedDistance) (nodeNo w q.1 q.2)) +
    invSq (crossings (VAdj w h) (vals L.signedDistance) (nodeNo w q.1 q.2)))

/-- At the lattice point and its neighbours the level set is the linear function `a x + b y + c`, and the line crosses an adjacent edge along every axis on
which it is not constant. -/
def StraightAt (w h : Nat) (L : LevelSet ℝ) (a b c : ℝ) (q : Nat × Nat) : Prop :=
  (∀ x y, x ≤ w → y ≤ h → (x, y) = q ∨ Adj w h (nodeNo w q.1 q.2) (nodeNo w x y) → vals L.signedDistance (nodeNo w x y) = a * x + b * y + c) ∧
  (a ≠ 0 → ∃ n, HAdj w h (nodeNo w q.1 q.2) n ∧ vals L.signedDistance (nodeNo w q.1 q.2) * vals L.signedDistance n < 0) ∧
  (b ≠ 0 → ∃ n, VAdj w h (nodeNo w q.1 q.2) n ∧ vals L.signedDistance (nodeNo w q.1 q.2) * vals L.signedDistance n < 0)

end Slsm
