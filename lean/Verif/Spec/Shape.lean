import Verif.Spec.LevelSet
import Mathlib.Analysis.SpecialFunctions.Pow.Real

/-! # Geometry of initial shapes (real coordinates) -/

namespace Slsm

/-- Number of grid units from the lattice point `(x, y)` to the nearest edge of the `w × h` domain. -/
def edgeDist (w h x y : Nat) : Nat := Nat.min (Nat.min x (w - x)) (Nat.min y (h - y))

/-- Euclidean distance. -/
noncomputable def distance (a b : Coord ℝ) : ℝ := Real.sqrt ((a.x - b.x) ^ 2 + (a.y - b.y) ^ 2)

/-- The point of the segment from `a` to `b` with parameter `t`. -/
def along (a b : Coord ℝ) (t : ℝ) : Coord ℝ := ⟨a.x + t * (b.x - a.x), a.y + t * (b.y - a.y)⟩

/-- Distances of `p` from the points of the segment from `a` to `b`. -/
def segDistances (p a b : Coord ℝ) : Set ℝ := {d | ∃ t, 0 ≤ t ∧ t ≤ 1 ∧ d = distance p (along a b t)}

/-- The consecutive pairs of a list of vertices. -/
def sides {α : Type} (vs : List α) : List (α × α) := vs.zip vs.tail

/-- The lattice point `(x, y)`. -/
def lattice (x y : Nat) : Coord ℝ := ⟨x, y⟩

/-- The directed side from `a` to `b` meets the horizontal ray starting at `p` and going to the right (strictly to the right of
`p`), the lower end of the side being counted and the upper end not. -/
def MeetsRay (p a b : Coord ℝ) : Prop :=
  (a.y ≤ p.y ∧ p.y < b.y ∨ b.y ≤ p.y ∧ p.y < a.y) ∧ p.x < a.x + (p.y - a.y) / (b.y - a.y) * (b.x - a.x)

open Classical in
/-- Signed crossing of the ray by one side: upwards `1`, downwards `-1`. -/
noncomputable def crossingSign (p a b : Coord ℝ) : ℤ := if MeetsRay p a b then if a.y < b.y then 1 else -1 else 0

/-- Number of upward minus number of downward crossings of the ray to the right of `p` by the closed curve `vs`. -/
noncomputable def crossingNumber (p : Coord ℝ) (vs : List (Coord ℝ)) : ℤ :=
  ((sides vs).map fun s => crossingSign p s.1 s.2).sum

/-- Twice the signed area of the triangle `p a b`. -/
def cross (p a b : Coord ℝ) : ℝ := (b.x - a.x) * (p.y - a.y) - (p.x - a.x) * (b.y - a.y)

end Slsm
