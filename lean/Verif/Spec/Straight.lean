import Verif.Spec.Reinit
import Verif.Spec.Program

/-! # A straight boundary along an axis -/

namespace Slsm

/-- The boundary of the level set `f` is the part within the domain of the line `a x + b y = d`, which is parallel to an axis; `a x + b y - d` is the distance
from the line, positive in the structure.  Other than that the values are arbitrary: where an edge is cut the zero of the linear interpolant is on the line, and values
in the structure at distance one or more are above the machine epsilon (with which the code compares). -/
structure StraightBoundary (w h : Nat) (f : Nat → Nat → ℝ) (a b d : ℝ) : Prop where
  axis : (|a| = 1 ∧ b = 0) ∨ (a = 0 ∧ |b| = 1)
  meets : ∃ X Y : ℝ, 0 ≤ X ∧ X ≤ w ∧ 0 ≤ Y ∧ Y ≤ h ∧ a * X + b * Y = d
  side : ∀ x y, x ≤ w → y ≤ h → SameSide (f x y) (a * x + b * y - d)
  place : ∀ p : Place, p.inGrid w h → p.cut f → a * (p.coord f).x + b * (p.coord f).y = d
  clear : ∀ x y, x ≤ w → y ≤ h → 1 ≤ a * x + b * y - d → 1 / 2 ^ 52 < f x y

/-- The values are the signed distances from the line `a x + b y = d`. -/
def ExactDistance (w h : Nat) (f : Nat → Nat → ℝ) (a b d : ℝ) : Prop := ∀ x y, x ≤ w → y ≤ h → f x y = a * x + b * y - d

/-- The narrow band consists of the nodes closer to the line than `r`. -/
def StripBand (w h : Nat) (band : List Nat) (a b d r : ℝ) : Prop := ∀ x y, x ≤ w → y ≤ h → (nodeNo w x y ∈ band ↔ |a * x + b * y - d| < r)

/-- `(u, v)` is the first lattice point on the normal to the line through the lattice point `(x, y)`, on the same side of the line. -/
def FirstOnNormal (a b d : ℝ) (x y u v : Nat) : Prop :=
  a * v - b * u = a * y - b * x ∧ |a * u + b * v - d| < 1 ∧ 0 ≤ (a * x + b * y - d) * (a * u + b * v - d)

/-- Away from the edge of the domain the boundary of `f` contains the line `a x + b y = d`: every grid edge whose ends are strictly on different sides of the
line is cut, the zero of the linear interpolant is on the line, and lattice points on the line have the value zero. -/
structure ContainsLine (w h : Nat) (f : Nat → Nat → ℝ) (a b d : ℝ) : Prop where
  cut : ∀ p : Place, p.inGrid w h → (∀ q ∈ p.ends, ¬ onEdge w h q.1 q.2) → p.cut (fun x y => a * x + b * y - d) →
    p.cut f ∧ a * (p.coord f).x + b * (p.coord f).y = d
  zero : ∀ x y, x ≤ w → y ≤ h → ¬ onEdge w h x y → a * x + b * y = d → f x y = 0

end Slsm
