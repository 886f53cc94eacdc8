import Verif.Spec.Round
import Verif.Spec.Shape

/-! # Polygons given by rounded coordinates -/

namespace Slsm

/-- The point with the coordinates that the two numbers denote. -/
def exactly {R : Rounding} (c : Coord R.Num) : Coord ℝ := ⟨c.x.val, c.y.val⟩

namespace LevelSet

/-- Both coordinates are at most `S` in magnitude. -/
def Bounded (S : ℝ) (c : Coord ℝ) : Prop := |c.x| ≤ S ∧ |c.y| ≤ S

/-- Both coordinates are whole numbers of magnitude at most `2²⁵`. -/
def Whole (c : Coord ℝ) : Prop := (∃ k : ℤ, |k| ≤ 2 ^ 25 ∧ c.x = k) ∧ ∃ k : ℤ, |k| ≤ 2 ^ 25 ∧ c.y = k

end LevelSet

end Slsm
