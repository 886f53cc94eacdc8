import Verif.Model.Mesh

/-!
# Specification of a `w × h` grid of unit cells

Written independently of the constructor: node `(x, y)` with `x ≤ w`, `y ≤ h` has number `x + y*(w+1)`, cell
`(x, y)` with `x < w`, `y < h` has number `x + y*w`.
-/

namespace Slsm

/-- Number of the node at lattice point `(x, y)`. -/
def nodeNo (w x y : Nat) : Nat := x + y * (w + 1)

/-- Number of the cell whose lower left corner is `(x, y)`. -/
def cellNo (w x y : Nat) : Nat := x + y * w

/-- Node number of the lattice point `(x, y)` if it belongs to the domain, otherwise one past the last node. -/
def nodeNoOr (w h : Nat) (x y : Int) : Nat :=
  if 0 ≤ x ∧ x ≤ w ∧ 0 ≤ y ∧ y ≤ h then nodeNo w x.toNat y.toNat else (w + 1) * (h + 1)

/-- The four nearest neighbours of the lattice point `(x, y)`: left, right, down, up. -/
def neighbourhood (w h : Nat) (x y : Int) : List Nat :=
  [nodeNoOr w h (x - 1) y, nodeNoOr w h (x + 1) y, nodeNoOr w h x (y - 1), nodeNoOr w h x (y + 1)]

/-- Corners of the cell `(x, y)`, anticlockwise from the lower left one. -/
def corners (w x y : Nat) : List Nat :=
  [nodeNo w x y, nodeNo w (x + 1) y, nodeNo w (x + 1) (y + 1), nodeNo w x (y + 1)]

/-- The lattice point is on the edge of the domain. -/
def onEdge (w h x y : Nat) : Prop := x = 0 ∨ x = w ∨ y = 0 ∨ y = h

/-- The cells having node `n` as a corner, in increasing order. -/
def cellsAt (w h n : Nat) : List Nat :=
  (List.range (w * h)).filter fun e => decide (n ∈ corners w (e % w) (e / w))

/-- The data of a mesh that never change after construction describe a `w × h` grid. -/
structure IsGrid {D : Type} [FP D] (w h : Nat) (m : Mesh D) : Prop where
  w_pos : 1 ≤ w
  h_pos : 1 ≤ h
  width : m.width = w
  height : m.height = h
  nNodes : m.nNodes = (w + 1) * (h + 1)
  nElements : m.nElements = w * h
  nodes_length : m.nodes.length = (w + 1) * (h + 1)
  elements_length : m.elements.length = w * h
  coord : ∀ x y (nd : Node D), x ≤ w → y ≤ h → m.nodes[nodeNo w x y]? = some nd → nd.coord = ⟨FP.nat x, FP.nat y⟩
  neighbours : ∀ x y (nd : Node D), x ≤ w → y ≤ h → m.nodes[nodeNo w x y]? = some nd →
    nd.neighbours = neighbourhood w h x y
  isDomain : ∀ x y (nd : Node D), x ≤ w → y ≤ h → m.nodes[nodeNo w x y]? = some nd →
    (nd.isDomain = true ↔ onEdge w h x y)
  cells : ∀ (n : Nat) (nd : Node D), m.nodes[n]? = some nd →
    nd.elements.length = 4 ∧ nd.elements.take nd.nElements = cellsAt w h n ∧ nd.nElements ≤ 4
  slots : ∀ (n : Nat) (nd : Node D), m.nodes[n]? = some nd → nd.boundaryPoints.length = 4
  centre : ∀ x y (el : Element D), x < w → y < h → m.elements[cellNo w x y]? = some el →
    el.coord = ⟨FP.add (FP.nat x) (FP.lit 1 2), FP.add (FP.nat y) (FP.lit 1 2)⟩
  corner : ∀ x y (el : Element D), x < w → y < h → m.elements[cellNo w x y]? = some el → el.nodes = corners w x y
  segSlots : ∀ (e : Nat) (el : Element D), m.elements[e]? = some el → el.boundarySegments.length = 2
  xy_length : m.xyToIndex.length = w + 1
  xy_col : ∀ (x : Nat) (col : List Nat), m.xyToIndex[x]? = some col → col.length = h + 1
  xy : ∀ (x y : Nat) (col : List Nat), x ≤ w → y ≤ h → m.xyToIndex[x]? = some col → col[y]? = some (nodeNo w x y)

end Slsm
