import Verif.Model.LevelSet

/-! # Discretised boundary (`/repo/src/Boundary.h`, `/repo/src/Boundary.cpp`) -/

namespace Slsm

open FP

/-- `class BoundarySegment` (`/repo/src/Boundary.h:62-74`).  `stop` is the member `end`; `element` is uninitialised in the C++
constructor but always assigned before use. -/
structure BoundarySegment (D : Type) where
  start : Nat
  stop : Nat
  element : Nat
  length : D
  weight : D

/-- `class Boundary` (`/repo/src/Boundary.h:96-228`): all data members. -/
structure Boundary (D : Type) where
  points : List (BoundaryPoint D)
  segments : List (BoundarySegment D)
  nPoints : Nat
  nSegments : Nat
  length : D

namespace Boundary

variable {D : Type} [FP D]

/-- `Boundary::Boundary()` (`/repo/src/Boundary.cpp:53-55`).  The counters and the length are uninitialised in C++; `discretise`
sets them before use. -/
def new : Boundary D := { points := [], segments := [], nPoints := 0, nSegments := 0, length := nat 0 }

/-! ## Status of nodes and elements -/

/-- Status of a node with value `v` (`/repo/src/Boundary.cpp:714-722`). -/
def nodeStatus (v : D) : NodeStatus :=
  if abs v <. lit 1 1000000 then .boundary else if v <. nat 0 then .outside else .inside

/-- Body of the first loop of `computeMeshStatus` (`/repo/src/Boundary.cpp:706-723`). -/
def markNode (sd : List D) (i : Nat) (m : Mesh D) : Res (Mesh D) := do
  let v ← rd sd i
  let nodes ← modAt m.nodes i fun nd => pure { nd with nBoundaryPoints := 0, status := nodeStatus v }
  pure { m with nodes := nodes }

/-- Counts of inside and outside nodes of an element (`/repo/src/Boundary.cpp:736-742`). -/
def tally (m : Mesh D) (el : Element D) : Res (Nat × Nat) :=
  forN 4 (0, 0) fun j t => do
    let node ← rd el.nodes j
    let nd ← rd m.nodes node
    pure (if nd.status = .inside then (t.1 + 1, t.2) else if nd.status = .outside then (t.1, t.2 + 1) else t)

/-- Body of the second loop of `computeMeshStatus` (`/repo/src/Boundary.cpp:726-752`). -/
def markElement (i : Nat) (m : Mesh D) : Res (Mesh D) := do
  let el ← rd m.elements i
  let t ← tally m el
  let elements ← modAt m.elements i fun el =>
    pure { el with nBoundarySegments := 0, status := if t.2 = 0 then .inside else if t.1 = 0 then .outside else .none }
  pure { m with elements := elements }

/-- `Boundary::computeMeshStatus` (`/repo/src/Boundary.cpp:703-753`). -/
def computeMeshStatus (m : Mesh D) (sd : List D) : Res (Mesh D) := do
  let m ← forN m.nNodes m (markNode sd)
  forN m.nElements m markElement

/-! ## Points -/

/-- Coordinates of a point at `distance` from a node along an edge (`/repo/src/Boundary.cpp:762-785`). -/
def edgePoint (c : Coord D) (edge : Nat) (distance : D) : Coord D :=
  if edge = 0 then ⟨c.x +. distance, c.y⟩
  else if edge = 1 then ⟨c.x, c.y +. distance⟩
  else if edge = 2 then ⟨c.x -. distance, c.y⟩
  else ⟨c.x, c.y -. distance⟩

/-- The test for a point already present (`/repo/src/Boundary.cpp:794-795`). -/
def isClose (p q : Coord D) : Bool := (abs (p.x -. q.x) <. lit 1 1000000) && (abs (p.y -. q.y) <. lit 1 1000000)

/-- `Boundary::isAdded` after the coordinates are worked out (`/repo/src/Boundary.cpp:787-803`): `none` stands for `-1`. -/
def isAdded (m : Mesh D) (points : List (BoundaryPoint D)) (p : Coord D) (node : Nat) : Res (Option Nat) := do
  let nd ← rd m.nodes node
  forN nd.nBoundaryPoints none fun i found =>
    match found with
    | some k => pure (some k)
    | none => do
      let index ← rd nd.boundaryPoints i
      let q ← rd points index
      pure (if isClose p q.coord then some index else none)

/-- Movement limit and domain flag of a new point (`/repo/src/Boundary.cpp:811-838`). -/
def edgeLimit (moveLimit : D) (width height : Nat) (c : Coord D) : D × Bool :=
  let minX := FP.min c.x (nat width -. c.x)
  let minY := FP.min c.y (nat height -. c.y)
  let minBoundary := FP.min minX minY
  if minBoundary <. moveLimit then (neg minBoundary, minBoundary <. lit 1 1000000) else (neg moveLimit, false)

/-- Movement limit and fixed flag near a masked node (`/repo/src/Boundary.cpp:843-861`). -/
def maskLimit (nd : Node D) (c : Coord D) (limit : D) : D × Bool :=
  if nd.isMasked then
    let dx := nd.coord.x -. c.x
    let dy := nd.coord.y -. c.y
    if (abs dx <. lit 1 1000000) && (abs dy <. lit 1 1000000) then (limit, true)
    else
      let d := sqrt (dx *. dx +. dy *. dy)
      (if limit <. neg d then neg d else limit, false)
  else (limit, false)

/-- `BoundaryPoint::BoundaryPoint()` (`/repo/src/Boundary.cpp:30-43`; the coordinates are zero, `/repo/src/Common.h:31`). -/
def emptyPoint : BoundaryPoint D :=
  { coord := ⟨nat 0, nat 0⟩, normal := ⟨nat 0, nat 0⟩, length := nat 0, velocity := nat 0, negativeLimit := nat 0,
    positiveLimit := nat 0, isDomain := false, isFixed := false, nSegments := 0, segments := List.replicate 2 0,
    nNeighbours := 0, neighbours := List.replicate 2 0, sensitivities := List.replicate 2 (nat 0) }

/-- `Boundary::initialisePoint` (`/repo/src/Boundary.cpp:806-862`) on a new point. -/
def initialisePoint (moveLimit : D) (m : Mesh D) (c : Coord D) : Res (BoundaryPoint D) := do
  let e := edgeLimit moveLimit m.width m.height c
  let node ← m.getClosestNode c
  let nd ← rd m.nodes node
  let k := maskLimit nd c e.1
  pure { emptyPoint with coord := c, negativeLimit := k.1, positiveLimit := moveLimit, isDomain := e.2, isFixed := k.2 }

/-! ## Elements -/

/-- The boundary under construction together with the mesh of the level set, which `discretise` annotates. -/
structure Work (D : Type) where
  bnd : Boundary D
  mesh : Mesh D

/-- Store the number of the next point in the next free slot of a node (`/repo/src/Boundary.cpp:131-134`, `174-175`, …).  For a cut
edge the code writes both slots before it increments both counters; since the two nodes differ the order does not matter. -/
def claim (node : Nat) (s : Work D) : Res (Work D) := do
  let nodes ← modAt s.mesh.nodes node fun nd => do
    let bp ← wr nd.boundaryPoints nd.nBoundaryPoints s.bnd.nPoints
    pure { nd with boundaryPoints := bp, nBoundaryPoints := nd.nBoundaryPoints + 1 }
  pure { s with mesh := { s.mesh with nodes := nodes } }

/-- Append a new point (`/repo/src/Boundary.cpp:139-145`, `177-183`, …). -/
def pushPoint (moveLimit : D) (c : Coord D) (s : Work D) : Res (Work D) := do
  let p ← initialisePoint moveLimit s.mesh c
  pure { s with bnd := { s.bnd with points := s.bnd.points ++ [p], nPoints := s.bnd.nPoints + 1 } }

/-- Number of the point on a cut edge (`/repo/src/Boundary.cpp:122-151`), which is created if it is new. -/
def cutPoint (moveLimit : D) (n1 n2 j : Nat) (d : D) (s : Work D) : Res (Nat × Work D) := do
  let nd ← rd s.mesh.nodes n1
  let c := edgePoint nd.coord j d
  let found ← isAdded s.mesh s.bnd.points c n1
  match found with
  | some k => pure (k, s)
  | none => do
    let k := s.bnd.nPoints
    let s ← claim n1 s
    let s ← claim n2 s
    let s ← pushPoint moveLimit c s
    pure (k, s)

/-- Number of the point on a node (`/repo/src/Boundary.cpp:166-184`, `190-208`, …), which is created if it is new. -/
def nodePoint (moveLimit : D) (n : Nat) (s : Work D) : Res (Nat × Work D) := do
  let nd ← rd s.mesh.nodes n
  let c := edgePoint nd.coord 0 (nat 0)
  let found ← isAdded s.mesh s.bnd.points c n
  match found with
  | some k => pure (k, s)
  | none => do
    let k := s.bnd.nPoints
    let s ← claim n s
    let s ← pushPoint moveLimit c s
    pure (k, s)

/-- `Boundary::segmentLength` (`/repo/src/Boundary.cpp:864-880`). -/
def segmentLength (points : List (BoundaryPoint D)) (a b : Nat) : Res D := do
  let p1 ← rd points a
  let p2 ← rd points b
  let dx := p1.coord.x -. p2.coord.x
  let dy := p1.coord.y -. p2.coord.y
  pure (sqrt (dx *. dx +. dy *. dy))

/-- Append a segment of element `i` (`/repo/src/Boundary.cpp:213-225`, `236-254`, …). -/
def addSegment (i a b : Nat) (s : Work D) : Res (Work D) := do
  let len ← segmentLength s.bnd.points a b
  let elements ← modAt s.mesh.elements i fun el => do
    let bs ← wr el.boundarySegments el.nBoundarySegments s.bnd.nSegments
    pure { el with boundarySegments := bs, nBoundarySegments := el.nBoundarySegments + 1 }
  pure
    { bnd := { s.bnd with
        segments := s.bnd.segments ++ [{ start := a, stop := b, element := i, length := len, weight := nat 0 }],
        nSegments := s.bnd.nSegments + 1, length := s.bnd.length +. len }
      mesh := { s.mesh with elements := elements } }

/-- `(a|b) == NodeStatus::CUT` (`/repo/src/Boundary.cpp:116`). -/
def cutPair (a b : NodeStatus) : Bool := (a == .inside && b == .outside) || (a == .outside && b == .inside)

/-- Whether an edge is looked at (`/repo/src/Boundary.cpp:111-113`). -/
def visible (isTarget : Bool) (a b : Node D) : Bool := isTarget || (a.isActive || a.isMasked) || (b.isActive || b.isMasked)

/-- Node number `j` of element `i`. -/
def cornerNode (m : Mesh D) (i j : Nat) : Res Nat := do
  let el ← rd m.elements i
  rd el.nodes j

/-- The node after corner `j` (`/repo/src/Boundary.cpp:104`). -/
def after (j : Nat) : Nat := if j = 3 then 0 else j + 1

/-- The node before corner `j` (`/repo/src/Boundary.cpp:273`). -/
def before (j : Nat) : Nat := if j = 0 then 3 else j - 1

/-- Segment along an edge between two boundary nodes (`/repo/src/Boundary.cpp:156-226`). -/
def borderEdge (moveLimit : D) (i n1 n2 : Nat) (s : Work D) : Res (Work D) := do
  let (a, s) ← nodePoint moveLimit n1 s
  let (b, s) ← nodePoint moveLimit n2 s
  addSegment i a b s

/-- Body of the loop over the edges of an element (`/repo/src/Boundary.cpp:97-228`).  The list holds the entries of the local
array `boundaryPoints` written so far (at most four), its length is `nCut`. -/
def edgeStep (moveLimit : D) (sd : List D) (isTarget : Bool) (i j : Nat) (t : Work D × List Nat) : Res (Work D × List Nat) := do
  let (s, cuts) := t
  let n1 ← cornerNode s.mesh i j
  let n2 ← cornerNode s.mesh i (after j)
  let a ← rd s.mesh.nodes n1
  let b ← rd s.mesh.nodes n2
  if visible isTarget a b then
    if cutPair a.status b.status then do
      let v1 ← rd sd n1
      let v2 ← rd sd n2
      let (k, s) ← cutPoint moveLimit n1 n2 j (v1 /. (v1 -. v2)) s
      pure (s, cuts ++ [k])
    else if a.status = .boundary ∧ b.status = .boundary then do
      let s ← borderEdge moveLimit i n1 n2 s
      pure (s, cuts)
    else pure (s, cuts)
  else pure (s, cuts)

/-- Body of the loop for one cut edge (`/repo/src/Boundary.cpp:261-328`). -/
def oneCutCorner (moveLimit : D) (i p j : Nat) (s : Work D) : Res (Work D) := do
  let n ← cornerNode s.mesh i j
  let nd ← rd s.mesh.nodes n
  if nd.status = .boundary then do
    let na ← cornerNode s.mesh i (after j)
    let nb ← cornerNode s.mesh i (before j)
    let a ← rd s.mesh.nodes na
    let b ← rd s.mesh.nodes nb
    if a.status = .outside ∨ b.status = .outside then do
      let (k, s) ← nodePoint moveLimit n s
      addSegment i p k s
    else pure s
  else pure s

/-- Sum of the values at the nodes of an element (`/repo/src/Boundary.cpp:335-344`). -/
def cornerSum (m : Mesh D) (sd : List D) (i : Nat) : Res D :=
  forN 4 (nat 0) fun j sum => do
    let n ← cornerNode m i j
    let v ← rd sd n
    pure (sum +. v)

/-- The two segments of an element with four cut edges (`/repo/src/Boundary.cpp:346-433`). -/
def fourSegments (first : Bool) (i p0 p1 p2 p3 : Nat) (s : Work D) : Res (Work D) :=
  if first then do
    let s ← addSegment i p0 p1 s
    addSegment i p2 p3 s
  else do
    let s ← addSegment i p0 p3 s
    addSegment i p1 p2 s

/-- Element with four cut edges (`/repo/src/Boundary.cpp:333-437`). -/
def fourCuts (sd : List D) (i p0 p1 p2 p3 : Nat) (s : Work D) : Res (Work D) := do
  let sum ← cornerSum s.mesh sd i
  let n ← cornerNode s.mesh i 0
  let nd ← rd s.mesh.nodes n
  let s ← fourSegments ((nd.status == .inside && (nat 0 <. sum)) || (nd.status == .outside && (sum <. nat 0))) i p0 p1 p2 p3 s
  let elements ← modAt s.mesh.elements i fun el =>
    pure { el with status := if nat 0 <. sum then .centreInside else .centreOutside }
  pure { s with mesh := { s.mesh with elements := elements } }

/-- The boundary nodes of an element, in order (`/repo/src/Boundary.cpp:447-458`). -/
def borderCorners (m : Mesh D) (i : Nat) : Res (List Nat) :=
  forN 4 [] fun j l => do
    let n ← cornerNode m i j
    let nd ← rd m.nodes n
    pure (if nd.status = .boundary then l ++ [n] else l)

/-- Element without cut edge that is not inside (`/repo/src/Boundary.cpp:441-531`).  If fewer than two entries of the local array
have been written, the code reads an uninitialised one. -/
def noCut (moveLimit : D) (i : Nat) (s : Work D) : Res (Work D) := do
  let l ← borderCorners s.mesh i
  match l with
  | n1 :: n2 :: _ => do
    let (a, s) ← nodePoint moveLimit n1 s
    let (b, s) ← nodePoint moveLimit n2 s
    addSegment i a b s
  | _ => .error .ub

/-- The second half of the body of the loop over elements (`/repo/src/Boundary.cpp:230-531`). -/
def joinCuts (moveLimit : D) (sd : List D) (i : Nat) (t : Work D × List Nat) : Res (Work D) := do
  let (s, cuts) := t
  match cuts with
  | [p0, p1] => addSegment i p0 p1 s
  | [p0] => forN 4 s (oneCutCorner moveLimit i p0)
  | [p0, p1, p2, p3] => fourCuts sd i p0 p1 p2 p3 s
  | [] => do
    let el ← rd s.mesh.elements i
    if el.status = .inside then pure s else noCut moveLimit i s
  | _ => pure s

/-- Body of the loop over elements (`/repo/src/Boundary.cpp:83-533`). -/
def element (moveLimit : D) (sd : List D) (isTarget : Bool) (i : Nat) (s : Work D) : Res (Work D) := do
  let el ← rd s.mesh.elements i
  if el.status = .outside then pure s
  else do
    let t ← forN 4 (s, []) (edgeStep moveLimit sd isTarget i)
    joinCuts moveLimit sd i t

/-! ## Lengths and links of points -/

/-- `points[k].length += 0.5 * len` (`/repo/src/Boundary.cpp:888-889`). -/
def addLength (k : Nat) (len : D) (points : List (BoundaryPoint D)) : Res (List (BoundaryPoint D)) :=
  modAt points k fun p => pure { p with length := p.length +. lit 1 2 *. len }

/-- Point to segment lookup (`/repo/src/Boundary.cpp:892-893`, `896-897`). -/
def linkSegment (k i : Nat) (points : List (BoundaryPoint D)) : Res (List (BoundaryPoint D)) :=
  modAt points k fun p => do
    let l ← wr p.segments p.nSegments i
    pure { p with segments := l, nSegments := p.nSegments + 1 }

/-- Neighbour lookup (`/repo/src/Boundary.cpp:900-901`, `904-905`). -/
def linkNeighbour (k n : Nat) (points : List (BoundaryPoint D)) : Res (List (BoundaryPoint D)) :=
  modAt points k fun p => do
    let l ← wr p.neighbours p.nNeighbours n
    pure { p with neighbours := l, nNeighbours := p.nNeighbours + 1 }

/-- Body of the loop of `computePointLengths` (`/repo/src/Boundary.cpp:885-906`). -/
def linkStep (segments : List (BoundarySegment D)) (i : Nat) (points : List (BoundaryPoint D)) : Res (List (BoundaryPoint D)) := do
  let g ← rd segments i
  let points ← addLength g.start g.length points
  let points ← addLength g.stop g.length points
  let points ← linkSegment g.start i points
  let points ← linkSegment g.stop i points
  let points ← linkNeighbour g.start g.stop points
  linkNeighbour g.stop g.start points

/-- `Boundary::computePointLengths` (`/repo/src/Boundary.cpp:882-907`). -/
def computePointLengths (b : Boundary D) : Res (Boundary D) := do
  let points ← forN b.nSegments b.points (linkStep b.segments)
  pure { b with points := points }

/-- `Boundary::discretise` (`/repo/src/Boundary.cpp:57-538`).  The previous contents of the object are discarded. -/
def discretise (L : LevelSet D) (isTarget : Bool) : Res (Boundary D × LevelSet D) := do
  let sd := if isTarget then L.target else L.signedDistance
  let mesh ← computeMeshStatus L.mesh sd
  let s ← forN mesh.nElements { bnd := new, mesh := mesh } (element L.moveLimit sd isTarget)
  let b ← computePointLengths s.bnd
  pure (b, { L with mesh := s.mesh })

/-! ## Perimeter and normals -/

/-- `Boundary::computePerimeter` (`/repo/src/Boundary.cpp:687-701`). -/
def computePerimeter (b : Boundary D) (p : BoundaryPoint D) : Res D :=
  forN p.nNeighbours (nat 0) fun i len => do
    let k ← rd p.neighbours i
    let q ← rd b.points k
    let dx := p.coord.x -. q.coord.x
    let dy := p.coord.y -. q.coord.y
    pure (len +. sqrt (dx *. dx +. dy *. dy))

/-- Finite difference along a grid line (`/repo/src/Boundary.cpp:575-599` for `x`, `601-625` for `y`). -/
def lineDiff (g : Nat → Res D) (n x : Nat) : Res D :=
  if x = 0 then LevelSet.diff g (u32 (x + 1)) x
  else if x = n then LevelSet.diff g x (LevelSet.sub32 x 1)
  else do
    let d ← LevelSet.diff g (u32 (x + 1)) (LevelSet.sub32 x 1)
    pure (lit 1 2 *. d)

/-- Contribution of a node with unit gradient `(nx, ny)` to one of its points (`/repo/src/Boundary.cpp:637-664`).  State: the points and the
arrays `isSet` and `weight`. -/
def normalPoint (nd : Node D) (nx ny : D) (j : Nat) (s : List (BoundaryPoint D) × List Bool × List D) :
    Res (List (BoundaryPoint D) × List Bool × List D) := do
  let (points, isSet, weight) := s
  let k ← rd nd.boundaryPoints j
  let p ← rd points k
  let dx := nd.coord.x -. p.coord.x
  let dy := nd.coord.y -. p.coord.y
  let rSqd := dx *. dx +. dy *. dy
  if rSqd <. lit 1 1000000 then do
    let points ← wr points k { p with normal := ⟨nx, ny⟩ }
    let weight ← wr weight k (nat 1)
    let isSet ← wr isSet k true
    pure (points, isSet, weight)
  else do
    let st ← rd isSet k
    if st then pure (points, isSet, weight)
    else do
      let points ← wr points k { p with normal := ⟨p.normal.x +. nx /. rSqd, p.normal.y +. ny /. rSqd⟩ }
      let q ← rd weight k
      let weight ← wr weight k (q +. nat 1 /. rSqd)
      pure (points, isSet, weight)

/-- Body of the loop over band nodes of `computeNormalVectors` (`/repo/src/Boundary.cpp:558-668`). -/
def normalNode (L : LevelSet D) (i : Nat) (s : List (BoundaryPoint D) × List Bool × List D) :
    Res (List (BoundaryPoint D) × List Bool × List D) := do
  let node ← rd L.narrowBand i
  let nd ← rd L.mesh.nodes node
  if 0 < nd.nBoundaryPoints then do
    let x := floor nd.coord.x
    let y := floor nd.coord.y
    let gx ← lineDiff (fun k => LevelSet.sdAt L k y) L.mesh.width x
    let gy ← lineDiff (fun k => LevelSet.sdAt L x k) L.mesh.height y
    let grad := sqrt (gx *. gx +. gy *. gy)
    forN nd.nBoundaryPoints s (normalPoint nd (gx /. grad) (gy /. grad))
  else pure s

/-- Normalisation (`/repo/src/Boundary.cpp:671-684`). -/
def unitNormal (weight : D) (p : BoundaryPoint D) : BoundaryPoint D :=
  if p.isDomain then p
  else
    let x := p.normal.x /. weight
    let y := p.normal.y /. weight
    let norm := sqrt (x *. x +. y *. y)
    { p with normal := ⟨x /. norm, y /. norm⟩ }

/-- `Boundary::computeNormalVectors` (`/repo/src/Boundary.cpp:540-685`).  The local arrays are on the stack (the model ignores stack
overflow). -/
def computeNormalVectors (b : Boundary D) (L : LevelSet D) : Res (Boundary D) := do
  let points ← forN b.nPoints b.points fun i l => modAt l i fun p => pure { p with normal := ⟨nat 0, nat 0⟩ }
  let (points, _, weight) ← forN L.nNarrowBand (points, List.replicate b.nPoints false, List.replicate b.nPoints (nat 0)) (normalNode L)
  let points ← forN b.nPoints points fun i l => do
    let q ← rd weight i
    modAt l i fun p => pure (unitNormal q p)
  pure { b with points := points }

end Boundary

end Slsm
