import Verif.Model.Boundary
import Verif.Lib.Real
import Verif.Spec.Grid
import Verif.Spec.Interface
import Verif.Spec.Shape

/-! # Specification vocabulary for the discretised boundary

Values are given as a function `f x y` on the lattice points. -/

namespace Slsm

/-- On the contour (within the tolerance), outside or inside. -/
noncomputable def nodeSide (v : ℝ) : NodeStatus := if |v| < 1 / 10 ^ 6 then .boundary else if v < 0 then .outside else .inside

/-- One inside, the other outside. -/
def Crossed (a b : NodeStatus) : Prop := (a = .inside ∧ b = .outside) ∨ (a = .outside ∧ b = .inside)

instance (a b : NodeStatus) : Decidable (Crossed a b) := by unfold Crossed; infer_instance

/-- A place for a boundary point: a lattice point, the edge from `(x, y)` to `(x + 1, y)`, or the edge from `(x, y)` to `(x, y + 1)`. -/
inductive Place where
  | node (x y : Nat)
  | hor (x y : Nat)
  | ver (x y : Nat)
  deriving DecidableEq

namespace Place

/-- The lattice points at the ends. -/
def ends : Place → List (Nat × Nat)
  | node x y => [(x, y)]
  | hor x y => [(x, y), (x + 1, y)]
  | ver x y => [(x, y), (x, y + 1)]

/-- The place belongs to the `w × h` grid. -/
def inGrid (w h : Nat) (p : Place) : Prop := ∀ q ∈ p.ends, q.1 ≤ w ∧ q.2 ≤ h

/-- The contour passes: the lattice point is on the contour, or the ends of the edge are on opposite sides. -/
def onContour (f : Nat → Nat → ℝ) : Place → Prop
  | node x y => nodeSide (f x y) = .boundary
  | hor x y => Crossed (nodeSide (f x y)) (nodeSide (f (x + 1) y))
  | ver x y => Crossed (nodeSide (f x y)) (nodeSide (f x (y + 1)))

/-- The point: the lattice point, or the zero of the linear interpolant along the edge. -/
noncomputable def coord (f : Nat → Nat → ℝ) : Place → Coord ℝ
  | node x y => ⟨x, y⟩
  | hor x y => ⟨x + f x y / (f x y - f (x + 1) y), y⟩
  | ver x y => ⟨x, y + f x y / (f x y - f x (y + 1))⟩

/-- The cells of the grid that the place belongs to as an edge (for edges). -/
def cells (w h : Nat) : Place → List (Nat × Nat)
  | node _ _ => []
  | hor x y => (if 0 < y then [(x, y - 1)] else []) ++ (if y < h then [(x, y)] else [])
  | ver x y => (if 0 < x then [(x - 1, y)] else []) ++ (if x < w then [(x, y)] else [])

/-- The place belongs to the closed cell with lower left corner `(x, y)`. -/
def ofCell (x y : Nat) (p : Place) : Prop := ∀ q ∈ p.ends, x ≤ q.1 ∧ q.1 ≤ x + 1 ∧ y ≤ q.2 ∧ q.2 ≤ y + 1

end Place

/-- Values at the ends of an edge crossed by the contour differ by at most one (a function with slope at most one). -/
def Gentle (w h : Nat) (f : Nat → Nat → ℝ) : Prop :=
  (∀ x y, x + 1 ≤ w → y ≤ h → Crossed (nodeSide (f x y)) (nodeSide (f (x + 1) y)) → |f x y - f (x + 1) y| ≤ 1) ∧
  (∀ x y, x ≤ w → y + 1 ≤ h → Crossed (nodeSide (f x y)) (nodeSide (f x (y + 1))) → |f x y - f x (y + 1)| ≤ 1)

/-- The contour passes on no lattice point. -/
def Generic (w h : Nat) (f : Nat → Nat → ℝ) : Prop := ∀ x y, x ≤ w → y ≤ h → nodeSide (f x y) ≠ .boundary

/-- Lattice points on the contour are on the domain edge, away from the outside. -/
def Rim (w h : Nat) (f : Nat → Nat → ℝ) : Prop :=
  2 ≤ w ∧ 2 ≤ h ∧ (∀ x y, x ≤ w → y ≤ h → nodeSide (f x y) = .boundary → onEdge w h x y) ∧
  ∀ x y x' y', x ≤ w → y ≤ h → x' ≤ w → y' ≤ h → nodeSide (f x y) = .boundary → nodeSide (f x' y') = .outside →
    x + 2 ≤ x' ∨ x' + 2 ≤ x ∨ y + 2 ≤ y' ∨ y' + 2 ≤ y

/-- Number of segments that one cell has at a corner on the contour, from the sides of the corner before it, the opposite corner and the
corner after it: none if the cell is outside, otherwise one along each edge to a neighbouring corner on the contour, and one through the
cell if one of the neighbouring corners is outside and the other is not. -/
def cornerEnds (a o b : NodeStatus) : Nat :=
  if (a = .outside ∨ o = .outside ∨ b = .outside) ∧ a ≠ .inside ∧ o ≠ .inside ∧ b ≠ .inside then 0
  else (if a = .boundary then 1 else 0) + (if b = .boundary then 1 else 0) + (if (a = .outside ↔ b = .outside) then 0 else 1)

/-- Number of segments at a lattice point on the contour: those of the (up to four) cells around it. -/
noncomputable def latticeEnds (w h : Nat) (f : Nat → Nat → ℝ) (x y : Nat) : Nat :=
  (if x < w ∧ y < h then cornerEnds (nodeSide (f x (y + 1))) (nodeSide (f (x + 1) (y + 1))) (nodeSide (f (x + 1) y)) else 0) +
  (if 0 < x ∧ y < h then cornerEnds (nodeSide (f (x - 1) y)) (nodeSide (f (x - 1) (y + 1))) (nodeSide (f x (y + 1))) else 0) +
  (if 0 < x ∧ 0 < y then cornerEnds (nodeSide (f x (y - 1))) (nodeSide (f (x - 1) (y - 1))) (nodeSide (f (x - 1) y)) else 0) +
  (if x < w ∧ 0 < y then cornerEnds (nodeSide (f (x + 1) y)) (nodeSide (f (x + 1) (y - 1))) (nodeSide (f x (y - 1))) else 0)

/-- No cell has all four corners on the contour, and no lattice point on the contour has more than two segments. -/
structure Tidy (w h : Nat) (f : Nat → Nat → ℝ) : Prop where
  flat : ∀ x y, x < w → y < h → ∃ q ∈ [(x, y), (x + 1, y), (x + 1, y + 1), (x, y + 1)], nodeSide (f q.1 q.2) ≠ .boundary
  ends : ∀ x y, x ≤ w → y ≤ h → nodeSide (f x y) = .boundary → latticeEnds w h f x y ≤ 2

/-- An edge of the grid crossed by the contour. -/
def CutEdge (w h : Nat) (f : Nat → Nat → ℝ) (p : Place) : Prop := p.inGrid w h ∧ p.onContour f ∧ ∀ x y, p ≠ .node x y

/-- The edge lies on the edge of the domain. -/
def Place.onRim (w h : Nat) : Place → Prop
  | .node x y => onEdge w h x y
  | .hor _ y => y = 0 ∨ y = h
  | .ver x _ => x = 0 ∨ x = w

namespace Boundary

/-- The values whose contour is discretised. -/
def values {D : Type} (L : LevelSet D) (isTarget : Bool) : List D := if isTarget then L.target else L.signedDistance

/-- The values as a function of the lattice point. -/
noncomputable def level (w : Nat) (L : LevelSet ℝ) (isTarget : Bool) (x y : Nat) : ℝ := vals (values L isTarget) (nodeNo w x y)

/-- The level set with inside and outside exchanged. -/
noncomputable def negated (L : LevelSet ℝ) (isTarget : Bool) : LevelSet ℝ :=
  if isTarget then { L with target := L.target.map fun v => -v } else { L with signedDistance := L.signedDistance.map fun v => -v }

/-- Euclidean distance. -/
noncomputable def distance (a b : Coord ℝ) : ℝ := Real.sqrt ((a.x - b.x) * (a.x - b.x) + (a.y - b.y) * (a.y - b.y))

/-- Distance of a point of the domain to the edge of the domain. -/
noncomputable def distToEdge (w h : Nat) (c : Coord ℝ) : ℝ := min (min c.x (w - c.x)) (min c.y (h - c.y))

/-- Numbers of the segments ending at point `k`. -/
def segmentsOf {D : Type} (b : Boundary D) (k : Nat) : List Nat :=
  (List.range b.segments.length).filter fun i => (b.segments[i]?).any fun s => decide (s.start = k) || decide (s.stop = k)

/-- Numbers of the points at the other ends of these segments. -/
def neighboursOf {D : Type} (b : Boundary D) (k : Nat) : List Nat :=
  (segmentsOf b k).filterMap fun i => (b.segments[i]?).map fun s => if s.start = k then s.stop else s.start

/-- A level set ready to be discretised: the mesh is a grid, the values are there. -/
structure Ready (w h : Nat) (L : LevelSet ℝ) (isTarget : Bool) : Prop where
  grid : IsGrid w h L.mesh
  len : L.mesh.nNodes ≤ (values L isTarget).length
  fit : (w + 1) * (h + 1) < 4294967296

/-- Values for which the discretisation is well behaved: they vary by at most one along crossed edges, crossed edges have an end that is
active or masked (unless the target is discretised), and the lattice points on the contour are tidy (see `Generic.tidy`, `Rim.tidy`). -/
structure Tame (w h : Nat) (L : LevelSet ℝ) (isTarget : Bool) : Prop extends Ready w h L isTarget where
  gentle : Gentle w h (level w L isTarget)
  seen : isTarget = true ∨ ∀ p, CutEdge w h (level w L isTarget) p → ∃ q ∈ p.ends, ∃ nd, L.mesh.nodes[nodeNo w q.1 q.2]? = some nd ∧
    (nd.isActive = true ∨ nd.isMasked = true)
  tidy : Tidy w h (level w L isTarget)

/-- Every node closer than one to the contour is active or masked. -/
def NearSeen (w h : Nat) (L : LevelSet ℝ) (isTarget : Bool) : Prop :=
  ∀ x y, x ≤ w → y ≤ h → |level w L isTarget x y| < 1 → ∃ nd, L.mesh.nodes[nodeNo w x y]? = some nd ∧
    (nd.isActive = true ∨ nd.isMasked = true)

end Boundary

end Slsm
