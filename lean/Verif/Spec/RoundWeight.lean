import Verif.Spec.RoundPerim

/-! # Specification vocabulary for the weighted lengths in rounded arithmetic -/

namespace Slsm.Rounding

variable {R : Rounding}

/-- The segment from `a` to `c` is cut into ten equal parts. This is the exact sum of their lengths, each weighted by `f` at the height of its middle. -/
noncomputable def tenths (f : ℝ → ℝ) (a c : Coord ℝ) : ℝ :=
  ∑ j ∈ Finset.range 10, f (a.y + ((j : ℝ) + 1 / 2) * (c.y - a.y) / 10) * (Boundary.distance a c / 10)

/-- The sum of `tenths` over the segments from `c` to the points of `b` with the given numbers. -/
noncomputable def sampled (f : ℝ → ℝ) (b : Boundary R.Num) (nbrs : List Nat) (c : Coord ℝ) : ℝ :=
  (nbrs.map fun j => (b.points[j]?).elim 0 fun q => tenths f c (placeOf q.coord)).sum

end Slsm.Rounding
