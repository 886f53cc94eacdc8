import Verif.Lib.Real
import Verif.Spec.History

/-! # Vocabulary for exchanging inside and outside -/

namespace Slsm

/-- Every value is zero or large enough for the code to see its sign (it compares with the machine epsilon). -/
def Clear (sd : List ℝ) : Prop := ∀ v ∈ sd, v = 0 ∨ 1 / 2 ^ 52 < |v|

namespace LevelSet

/-- The level set with inside and outside exchanged. -/
noncomputable def complement (L : LevelSet ℝ) : LevelSet ℝ := { L with signedDistance := L.signedDistance.map fun v => -v }

/-- The boundary points with opposite speeds. -/
noncomputable def opposite (points : List (BoundaryPoint ℝ)) : List (BoundaryPoint ℝ) := points.map fun p => { p with velocity := -p.velocity }

end LevelSet

end Slsm
