import Verif.Model.Num
import Verif.Model.Res

/-! # Mesh (`/repo/src/Mesh.h`, `/repo/src/Mesh.cpp`, `/repo/src/Common.h`) -/

namespace Slsm

open FP

/-- `struct Coord` (`/repo/src/Common.h`). -/
structure Coord (D : Type) where
  x : D
  y : D

/-- `enum NodeStatus` (`/repo/src/Mesh.h:48-55`).  `CUT = INSIDE|OUTSIDE` is only used as a bit mask in comparisons
of the form `(a|b) == CUT`; see `cutPair` in `Verif/Model/Boundary.lean`. -/
inductive NodeStatus where
  | none | inside | outside | boundary
  deriving DecidableEq, Repr

/-- `enum ElementStatus` (`/repo/src/Mesh.h:62-69`). -/
inductive ElementStatus where
  | none | inside | outside | centreInside | centreOutside
  deriving DecidableEq, Repr

/-- `struct Element` (`/repo/src/Mesh.h:73-84`).  All fields are kept.  `nBoundarySegments` and `status` are
uninitialised in C++ after construction; the model starts them at `0`/`none`. -/
structure Element (D : Type) where
  coord : Coord D
  area : D
  nodes : List Nat
  boundarySegments : List Nat
  nBoundarySegments : Nat
  status : ElementStatus

/-- `struct Node` (`/repo/src/Mesh.h:87-103`).  All fields are kept.  `status` is uninitialised in C++ after
construction; the model starts it at `none`. -/
structure Node (D : Type) where
  coord : Coord D
  neighbours : List Nat
  elements : List Nat
  nElements : Nat
  boundaryPoints : List Nat
  nBoundaryPoints : Nat
  isActive : Bool
  isDomain : Bool
  isMasked : Bool
  isMine : Bool
  status : NodeStatus

/-- `class Mesh` (`/repo/src/Mesh.h:135-198`). -/
structure Mesh (D : Type) where
  elements : List (Element D)
  nodes : List (Node D)
  width : Nat
  height : Nat
  nElements : Nat
  nNodes : Nat
  xyToIndex : List (List Nat)

/-- Reduction of `unsigned int` arithmetic modulo 2^32. -/
def u32 (n : Nat) : Nat := n % 4294967296

/-- `unsigned int` decrement `x - 1` (wraps around at `0`). -/
def dec32 (x : Nat) : Nat := u32 (x + 4294967295)

variable {D : Type} [FP D]

/-- `Element::Element()` (`/repo/src/Mesh.cpp:29-34`; `Coord` has no constructor, its members start as zero here). -/
def Element.new : Element D :=
  { coord := ⟨nat 0, nat 0⟩, area := nat 0, nodes := List.replicate 4 0,
    boundarySegments := List.replicate 2 0, nBoundarySegments := 0, status := .none }

/-- `Node::Node()` (`/repo/src/Mesh.cpp:36-46`). -/
def Node.new : Node D :=
  { coord := ⟨nat 0, nat 0⟩, neighbours := List.replicate 4 0, elements := List.replicate 4 0, nElements := 0,
    boundaryPoints := List.replicate 4 0, nBoundaryPoints := 0, isActive := false, isDomain := false,
    isMasked := false, isMine := false, status := .none }

/-- `Mesh::initialiseNeighbours` (`/repo/src/Mesh.cpp:251-276`): returns the new neighbour list of the node. -/
def Mesh.neighboursOf (width height nNodes : Nat) (nb : List Nat) (x y : Nat) : Res (List Nat) := do
  let w := u32 (width + 1)
  let h := u32 (height + 1)
  let nb ← wr nb 0 (u32 (u32 (dec32 x + w) % w + u32 (y * w)))
  let nb ← wr nb 1 (u32 (u32 (u32 (x + 1) + w) % w + u32 (y * w)))
  let nb ← wr nb 2 (u32 (x + u32 (w * (u32 (dec32 y + h) % h))))
  let nb ← wr nb 3 (u32 (x + u32 (w * (u32 (u32 (y + 1) + h) % h))))
  let nb ← if x = 0 then wr nb 0 nNodes else if x = width then wr nb 1 nNodes else pure nb
  if y = 0 then wr nb 2 nNodes else if y = height then wr nb 3 nNodes else pure nb

/-- One iteration of the loop of `Mesh::initialiseNodes` (`/repo/src/Mesh.cpp:174-205`). -/
def Mesh.initialiseNode (i : Nat) (m : Mesh D) : Res (Mesh D) := do
  let x := i % u32 (m.width + 1)
  let y := i / u32 (m.width + 1)
  let nodes ← modAt m.nodes i fun nd => do
    let nb ← neighboursOf m.width m.height m.nNodes nd.neighbours x y
    pure { nd with
      isDomain := x == 0 || x == m.width || y == 0 || y == m.height
      isMasked := false
      nElements := 0
      nBoundaryPoints := 0
      coord := ⟨nat x, nat y⟩
      neighbours := nb }
  let xy ← modAt m.xyToIndex x fun col => wr col y i
  pure { m with nodes := nodes, xyToIndex := xy }

/-- `Mesh::initialiseNodes` (`/repo/src/Mesh.cpp:168-206`). -/
def Mesh.initialiseNodes (m : Mesh D) : Res (Mesh D) := forN m.nNodes m initialiseNode

/-- One iteration of the loop of `Mesh::initialiseElements` (`/repo/src/Mesh.cpp:217-248`). -/
def Mesh.initialiseElement (i : Nat) (m : Mesh D) : Res (Mesh D) := do
  let w := u32 (m.width + 1)
  let x := i % m.width
  let y := i / m.width
  let el ← rd m.elements i
  let nd ← wr el.nodes 0 (u32 (x + u32 (y * w)))
  let nd ← wr nd 1 (u32 (u32 (x + 1) + u32 (y * w)))
  let nd ← wr nd 2 (u32 (u32 (x + 1) + u32 (u32 (y + 1) * w)))
  let nd ← wr nd 3 (u32 (x + u32 (u32 (y + 1) * w)))
  let elements ← wr m.elements i
    { el with coord := ⟨nat x +. lit 1 2, nat y +. lit 1 2⟩, nodes := nd }
  let nodes ← forN 4 m.nodes fun j nodes => do
    let node ← rd nd j
    modAt nodes node fun n => do
      let es ← wr n.elements n.nElements i
      pure { n with elements := es, nElements := n.nElements + 1 }
  pure { m with elements := elements, nodes := nodes }

/-- `Mesh::initialiseElements` (`/repo/src/Mesh.cpp:208-249`). -/
def Mesh.initialiseElements (m : Mesh D) : Res (Mesh D) := forN m.nElements m initialiseElement

/-- `Mesh::Mesh` (`/repo/src/Mesh.cpp:48-70`). -/
def Mesh.new (width height : Nat) : Res (Mesh D) := do
  let nElements := u32 (width * height)
  let nNodes := u32 (u32 (1 + width) * u32 (1 + height))
  let m : Mesh D :=
    { width := width, height := height, nElements := nElements, nNodes := nNodes,
      elements := List.replicate nElements Element.new,
      nodes := List.replicate nNodes Node.new,
      xyToIndex := List.replicate (u32 (width + 1)) (List.replicate (u32 (height + 1)) 0) }
  let m ← m.initialiseNodes
  m.initialiseElements

/-- `Mesh::getElement` (`/repo/src/Mesh.cpp:132-148`; the overload at 150-166 is the same code on two scalars). -/
def Mesh.getElement (m : Mesh D) (p : Coord D) : Nat :=
  let x := p.x -. lit 1 1000000
  let y := p.y -. lit 1 1000000
  let x := if x <. nat 0 then nat 0 else x
  let y := if y <. nat 0 then nat 0 else y
  u32 (u32 (floor y * m.width) + floor x)

/-- `Mesh::getClosestNode` (`/repo/src/Mesh.cpp:72-100`; the overload at 102-130 is the same code on two scalars). -/
def Mesh.getClosestNode (m : Mesh D) (p : Coord D) : Res Nat := do
  let el ← rd m.elements (m.getElement p)
  let dx := p.x -. el.coord.x
  let dy := p.y -. el.coord.y
  if dx <. nat 0 then
    if dy <. nat 0 then rd el.nodes 0 else rd el.nodes 3
  else
    if dy <. nat 0 then rd el.nodes 1 else rd el.nodes 2

end Slsm
