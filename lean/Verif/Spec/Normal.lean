import Verif.Spec.Boundary
import Verif.Spec.LevelSet

/-! # Specification vocabulary for the normal vectors -/

namespace Slsm

/-- Difference quotient along the grid line `0 … n`: one sided at the ends, central inside. -/
noncomputable def lineSlope (g : Nat → ℝ) (n x : Nat) : ℝ :=
  if x = 0 then g 1 - g 0 else if x = n then g n - g (n - 1) else (g (x + 1) - g (x - 1)) / 2

/-- Gradient of the lattice function `f` at a lattice point. -/
noncomputable def nodalGradient (w h : Nat) (f : Nat → Nat → ℝ) (q : Nat × Nat) : Coord ℝ :=
  ⟨lineSlope (fun k => f k q.2) w q.1, lineSlope (fun k => f q.1 k) h q.2⟩

/-- Euclidean norm. -/
noncomputable def vnorm (v : Coord ℝ) : ℝ := Real.sqrt (v.x ^ 2 + v.y ^ 2)

/-- Unit vector in the direction of `v` (for `v ≠ 0`). -/
noncomputable def unitVec (v : Coord ℝ) : Coord ℝ := ⟨v.x / vnorm v, v.y / vnorm v⟩

/-- Squared distance of the point `c` from a lattice point. -/
noncomputable def sqDist (c : Coord ℝ) (q : Nat × Nat) : ℝ := (q.1 - c.x) ^ 2 + (q.2 - c.y) ^ 2

/-- Blend of the directions `u` at the lattice points `ns` for the point `c`: the direction at a lattice point that coincides with `c`
(up to `10⁻³`), otherwise the sum of all directions weighted by the inverse squared distances. -/
noncomputable def blend (u : Nat × Nat → Coord ℝ) (c : Coord ℝ) (ns : List (Nat × Nat)) : Coord ℝ :=
  match ns.find? fun q => decide (sqDist c q < 1 / 10 ^ 6) with
  | some q => u q
  | none => ⟨(ns.map fun q => (u q).x / sqDist c q).sum, (ns.map fun q => (u q).y / sqDist c q).sum⟩

namespace Boundary

open Classical in
/-- The lattice points next to a place that are in the narrow band. -/
noncomputable def bandEnds (w : Nat) (L : LevelSet ℝ) (p : Place) : List (Nat × Nat) :=
  p.ends.filter fun q => decide (nodeNo w q.1 q.2 ∈ L.band)

end Boundary

end Slsm
