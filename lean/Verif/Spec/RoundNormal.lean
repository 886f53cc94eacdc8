import Verif.Spec.Normal
import Verif.Spec.Round

/-! # Specification vocabulary for normal vectors in rounded arithmetic -/

namespace Slsm

namespace Boundary

variable {D : Type}

/-- The boundary points recorded at a node of the mesh. -/
def pointsAt (m : Mesh D) (n : Nat) : List Nat :=
  match m.nodes[n]? with
  | some nd => nd.boundaryPoints.take nd.nBoundaryPoints
  | none => []

/-- How often point `k` is recorded at nodes of the narrow band. -/
def recorded (L : LevelSet D) (k : Nat) : Nat := (L.band.map fun n => (pointsAt L.mesh n).count k).sum

/-- Scalar product. -/
noncomputable def dot (v d : Coord ℝ) : ℝ := v.x * d.x + v.y * d.y

/-- The gradient `g` is not tiny, and its angle with the unit vector `d` has a cosine of at least `c`. -/
def InCone (c : ℝ) (d g : Coord ℝ) : Prop := 1 / 2 ^ 100 ≤ vnorm g ∧ c * vnorm g ≤ dot g d

end Boundary

end Slsm
