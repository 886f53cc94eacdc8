import Verif.Model.FMM

/-! # Level set (`/repo/src/LevelSet.h`, `/repo/src/LevelSet.cpp`), except the parts needing a discretised boundary
(`cutArea`, `computeAreaFractions`: see `Verif/Model/Area.lean`) -/

namespace Slsm

open FP

/-- `class Hole` (`/repo/src/Hole.h`). -/
structure Hole (D : Type) where
  coord : Coord D
  r : D

/-- `class BoundaryPoint` (`/repo/src/Boundary.h:40-60`). -/
structure BoundaryPoint (D : Type) where
  coord : Coord D
  normal : Coord D
  length : D
  velocity : D
  negativeLimit : D
  positiveLimit : D
  isDomain : Bool
  isFixed : Bool
  nSegments : Nat
  segments : List Nat
  nNeighbours : Nat
  neighbours : List Nat
  sensitivities : List D

/-- `class LevelSet` (`/repo/src/LevelSet.h:73-441`): all data members. -/
structure LevelSet (D : Type) where
  signedDistance : List D
  velocity : List D
  gradient : List D
  target : List D
  narrowBand : List Nat
  mines : List Nat
  nNarrowBand : Nat
  nMines : Nat
  moveLimit : D
  area : D
  mesh : Mesh D
  bandWidth : Nat
  isFixedDomain : Bool

variable {D : Type} [FP D]

namespace LevelSet

/-- `vector.resize(n)` for a vector of indices: keeps the first `n` entries and fills up with zeros. -/
def resize (v : List Nat) (n : Nat) : List Nat := v.take n ++ List.replicate (n - v.length) 0

/-! ## Narrow band -/

/-- Branch of `initialiseNarrowBand` for a node at the edge of the band (`/repo/src/LevelSet.cpp:676-694`). -/
def addMine (i : Nat) (L : LevelSet D) : Res (LevelSet D) := do
  let nodes ← modAt L.mesh.nodes i fun nd => pure { nd with isMine := true }
  let mines ← wr L.mines L.nMines i
  let nMines := L.nMines + 1
  let mines := if nMines = mines.length then resize mines (Nat.min (u32 (2 * nMines)) L.mesh.nNodes) else mines
  pure { L with mesh := { L.mesh with nodes := nodes }, mines := mines, nMines := nMines }

/-- Branch of `initialiseNarrowBand` for a node inside the band (`/repo/src/LevelSet.cpp:665-694`). -/
def addBand (i : Nat) (s : D) (L : LevelSet D) : Res (LevelSet D) := do
  let nodes ← modAt L.mesh.nodes i fun nd => pure { nd with isActive := true }
  let nb ← wr L.narrowBand L.nNarrowBand i
  let L := { L with mesh := { L.mesh with nodes := nodes }, narrowBand := nb, nNarrowBand := L.nNarrowBand + 1 }
  if nat (u32 (L.bandWidth + 4294967295)) <. s then addMine i L else pure L

/-- Body of the loop of `initialiseNarrowBand` (`/repo/src/LevelSet.cpp:650-697`). -/
def bandNode (i : Nat) (L : LevelSet D) : Res (LevelSet D) := do
  let nodes ← modAt L.mesh.nodes i fun nd => pure { nd with isActive := false }
  let L := { L with mesh := { L.mesh with nodes := nodes } }
  let nd ← rd L.mesh.nodes i
  if !nd.isMasked && (!nd.isDomain || !L.isFixedDomain) then do
    let v ← rd L.signedDistance i
    if abs v <. nat L.bandWidth then addBand i (abs v) L else pure L
  else pure L

/-- `LevelSet::initialiseNarrowBand` (`/repo/src/LevelSet.cpp:638-698`). -/
def initialiseNarrowBand (L : LevelSet D) : Res (LevelSet D) :=
  forN L.mesh.nNodes { L with nNarrowBand := 0, nMines := 0 } bandNode

/-- `LevelSet::reinitialise` (`/repo/src/LevelSet.cpp:372-382`). -/
def reinitialise (L : LevelSet D) : Res (LevelSet D) := do
  let F ← FMM.marchDistance L.mesh L.signedDistance (FMM.new L.mesh false)
  initialiseNarrowBand { L with signedDistance := F.sd }

/-! ## Initial shapes -/

/-- `LevelSet::closestDomainBoundary` (`/repo/src/LevelSet.cpp:622-636`).  The conversion of `double` to `unsigned int` is
`FP.floor`. -/
def closestDomainBoundary (L : LevelSet D) : Res (LevelSet D) := do
  let sd ← forN L.mesh.nNodes L.signedDistance fun i sd => do
    let nd ← rd L.mesh.nodes i
    let minX := floor (FP.min nd.coord.x (nat L.mesh.width -. nd.coord.x))
    let minY := floor (FP.min nd.coord.y (nat L.mesh.height -. nd.coord.y))
    wr sd i (nat (Nat.min minX minY))
  pure { L with signedDistance := sd }

/-- Distance of a node from the centre of a hole (`/repo/src/LevelSet.cpp:569-573`, same code at `314-318`). -/
def centreDist (c p : Coord D) : D :=
  let dx := c.x -. p.x
  let dy := c.y -. p.y
  sqrt (dx *. dx +. dy *. dy)

/-- `LevelSet::initialise(const std::vector<Hole>&)` (`/repo/src/LevelSet.cpp:552-584`). -/
def initialiseHoles (holes : List (Hole D)) (L : LevelSet D) : Res (LevelSet D) := do
  let L ← closestDomainBoundary L
  let sd ← forN L.mesh.nNodes L.signedDistance fun i sd =>
    forN holes.length sd fun j sd => do
      let hole ← rd holes j
      let nd ← rd L.mesh.nodes i
      let dist := centreDist hole.coord nd.coord -. hole.r
      let v ← rd sd i
      if dist <. v then wr sd i dist else pure sd
  pure { L with signedDistance := sd }

/-- Number of holes along a side of length `n` (`/repo/src/LevelSet.cpp:491-497`): `std::round(n / 30.0)`, written as
`floor (n / 30.0 + 0.5)` (the same for every integer `n`, since `n / 30` is exactly a half-integer or at least `1/30`
away from one). -/
def nCheese (n : Nat) : Nat := u32 (floor (nat (D := D) n /. nat 30 +. lit 1 2))

/-- The hole positions of `LevelSet::initialise()` (`/repo/src/LevelSet.cpp:499-543`). -/
def cheeseHoles (width height nx ny : Nat) : List (Hole D) :=
  let dx := nat width /. nat (2 * nx)
  let dy := nat height /. nat (2 * ny)
  (List.range (nx * ny)).map (fun i =>
      { coord := ⟨dx +. nat (2 * (i % nx)) *. dx, dy +. nat (2 * (i / nx)) *. dy⟩, r := nat 5 }) ++
    (List.range ((nx - 1) * (ny - 1))).map (fun i =>
      { coord := ⟨nat 2 *. (dx +. nat (i % (nx - 1)) *. dx), nat 2 *. (dy +. nat (i / (nx - 1)) *. dy)⟩, r := nat 5 })

/-- Number of holes for which `LevelSet::initialise()` allocates memory (`/repo/src/LevelSet.cpp:499-505`), in `unsigned int` arithmetic. -/
def cheeseRequest (nx ny : Nat) : Nat := u32 (u32 (nx * ny) + u32 (dec32 nx * dec32 ny))

/-- `LevelSet::initialise()` (`/repo/src/LevelSet.cpp:485-550`).  The vector of holes (`cheeseRequest`) is allocated before the check; the
model performs the check first and supposes that memory suffices (the allocation has no other effect). -/
def initialiseCheese (L : LevelSet D) : Res (LevelSet D) := do
  let nx := nCheese (D := D) L.mesh.width
  let ny := nCheese (D := D) L.mesh.height
  check (decide (2 < nx) && decide (2 < ny))
  initialiseHoles (cheeseHoles L.mesh.width L.mesh.height nx ny) L

/-- `LevelSet::pointToLineDistance` (`/repo/src/LevelSet.cpp:1242-1290`). -/
def pointToLineDistance (v1 v2 p : Coord D) : D :=
  let dx := v2.x -. v1.x
  let dy := v2.y -. v1.y
  let rSqd := dx *. dx +. dy *. dy
  if rSqd <. lit 1 1000000 then
    let dx := p.x -. v1.x
    let dy := p.y -. v1.y
    sqrt (dx *. dx +. dy *. dy)
  else
    let t := ((p.x -. v1.x) *. dx +. (p.y -. v1.y) *. dy) /. rSqd
    let t := FP.max (nat 0) (FP.min (nat 1) t)
    let x := v1.x +. t *. dx
    let y := v1.y +. t *. dy
    let dx := x -. p.x
    let dy := y -. p.y
    sqrt (dx *. dx +. dy *. dy)

/-- `LevelSet::isLeftOfLine` (`/repo/src/LevelSet.cpp:1335-1339`).  The `double` is truncated to `int`; a value outside the
range of `int` would be undefined behaviour, the model truncates to an unbounded integer. -/
def isLeftOfLine (v1 v2 p : Coord D) : Int :=
  trunc ((v2.x -. v1.x) *. (p.y -. v1.y) -. (p.x -. v1.x) *. (v2.y -. v1.y))

/-- Body of the loop of `isInsidePolygon` (`/repo/src/LevelSet.cpp:1309-1329`). -/
def windStep (p a b : Coord D) (n : Int) : Int :=
  if a.y ≤. p.y then
    if p.y <. b.y then
      if 0 < isLeftOfLine a b p then n + 1 else n
    else n
  else
    if b.y ≤. p.y then
      if isLeftOfLine a b p < 0 then n - 1 else n
    else n

/-- `LevelSet::isInsidePolygon` (`/repo/src/LevelSet.cpp:1292-1333`).  For an empty vector `vertices.size()-1` wraps around
and the first access is out of range. -/
def isInsidePolygon (p : Coord D) (vertices : List (Coord D)) : Res Bool := do
  if vertices.length = 0 then .error .ub
  else do
    let n ← forN (vertices.length - 1) (0 : Int) fun i n => do
      let a ← rd vertices i
      let b ← rd vertices (i + 1)
      pure (windStep p a b n)
    pure (n != 0)

/-- Body of the loop over nodes of `LevelSet::initialise(points)` (`/repo/src/LevelSet.cpp:604-618`). -/
def polyNode (m : Mesh D) (points : List (Coord D)) (i : Nat) (sd : List D) : Res (List D) := do
  let sd ← forN (points.length - 1) sd fun j sd => do
    let a ← rd points j
    let b ← rd points (j + 1)
    let nd ← rd m.nodes i
    let dist := pointToLineDistance a b nd.coord
    let v ← rd sd i
    if dist <. v then wr sd i dist else pure sd
  let nd ← rd m.nodes i
  let inside ← isInsidePolygon nd.coord points
  if inside then do
    let v ← rd sd i
    wr sd i (v *. neg (nat 1))
  else pure sd

/-- `LevelSet::initialise(const std::vector<Coord>&)` (`/repo/src/LevelSet.cpp:586-620`). -/
def initialisePoints (points : List (Coord D)) (L : LevelSet D) : Res (LevelSet D) := do
  if points.length = 0 then .error .ub
  else do
    let L ← closestDomainBoundary L
    let sd ← forN L.mesh.nNodes L.signedDistance (polyNode L.mesh points)
    pure { L with signedDistance := sd }

/-! ## Constructors -/

/-- The common first part of all constructors (`/repo/src/LevelSet.cpp:35-56` etc.).  Uninitialised members (`area`,
`nNarrowBand`, `nMines`) start as zero; `target` has `nT` entries (the number of nodes if there is a target, else none). -/
def base (width height : Nat) (moveLimit : D) (bandWidth : Nat) (isFixedDomain hasTarget : Bool) : Res (LevelSet D) := do
  let mesh ← Mesh.new width height
  check (decide (2 < bandWidth))
  check ((nat 0 <. moveLimit) && (moveLimit <. nat 1))
  let n := mesh.nNodes
  let size := Nat.max 25 (trunc (lit (D := D) 1 5 *. nat n)).toNat
  pure
    { signedDistance := List.replicate n (nat 0), velocity := List.replicate n (nat 0),
      gradient := List.replicate n (nat 0), target := if hasTarget then List.replicate n (nat 0) else [],
      narrowBand := List.replicate n 0, mines := List.replicate size 0, nNarrowBand := 0, nMines := 0,
      moveLimit := moveLimit, area := nat 0, mesh := mesh, bandWidth := bandWidth, isFixedDomain := isFixedDomain }

/-- The ways of describing a shape accepted by the constructors. -/
inductive Shape (D : Type) where
  | cheese
  | holes (l : List (Hole D))
  | points (l : List (Coord D))

/-- Dispatch to the overload of `initialise`. -/
def initialise (s : Shape D) (L : LevelSet D) : Res (LevelSet D) :=
  match s with
  | .cheese => initialiseCheese L
  | .holes l => initialiseHoles l L
  | .points l => initialisePoints l L

/-- The three constructors without target (`/repo/src/LevelSet.cpp:35-67`, `69-102`, `104-137`). -/
def new (width height : Nat) (shape : Shape D) (moveLimit : D) (bandWidth : Nat) (isFixedDomain : Bool) :
    Res (LevelSet D) := do
  let L ← base width height moveLimit bandWidth isFixedDomain false
  let L ← initialise shape L
  initialiseNarrowBand L

/-- The three constructors with a target shape (`/repo/src/LevelSet.cpp:139-180`, `182-223`, `225-267`). -/
def newTarget (width height : Nat) (shape target : Shape D) (moveLimit : D) (bandWidth : Nat) (isFixedDomain : Bool) :
    Res (LevelSet D) := do
  let L ← base width height moveLimit bandWidth isFixedDomain true
  let L ← initialise target L
  let L ← reinitialise L
  let L := { L with target := L.signedDistance }
  let L ← initialise shape L
  initialiseNarrowBand L

/-! ## Masking -/

/-- The two assignments for a masked node (`/repo/src/LevelSet.cpp:323-324`, `345-346`, `360-361`). -/
def maskNode (i : Nat) (L : LevelSet D) : Res (LevelSet D) := do
  let sd ← wr L.signedDistance i (neg (lit 1 1000000))
  let nodes ← modAt L.mesh.nodes i fun nd => pure { nd with isMasked := true }
  pure { L with signedDistance := sd, mesh := { L.mesh with nodes := nodes } }

/-- `LevelSet::mask(const std::vector<Hole>&)` (`/repo/src/LevelSet.cpp:305-331`). -/
def maskHoles (holes : List (Hole D)) (L : LevelSet D) : Res (LevelSet D) := do
  let L ← forN L.mesh.nNodes L fun i L =>
    forN holes.length L fun j L => do
      let hole ← rd holes j
      let nd ← rd L.mesh.nodes i
      if centreDist hole.coord nd.coord <. hole.r then maskNode i L else pure L
  reinitialise L

/-- The test for a rectangle (`/repo/src/LevelSet.cpp:341-345`). -/
def inRectangle (a b p : Coord D) : Bool :=
  (a.x <. p.x) && (a.y <. p.y) && (p.x <. b.x) && (p.y <. b.y)

/-- The test for membership of the region given by `points` (`/repo/src/LevelSet.cpp:336-365`). -/
def inRegion (points : List (Coord D)) (p : Coord D) : Res Bool :=
  match points with
  | [a, b] => pure (inRectangle a b p)
  | l => isInsidePolygon p l

/-- `LevelSet::mask(const std::vector<Coord>&)` (`/repo/src/LevelSet.cpp:333-370`). -/
def maskPoints (points : List (Coord D)) (L : LevelSet D) : Res (LevelSet D) := do
  let L ← forN L.mesh.nNodes L fun i L => do
    let nd ← rd L.mesh.nodes i
    let inside ← inRegion points nd.coord
    if inside then maskNode i L else pure L
  reinitialise L

/-! ## Update -/

/-- Body of the loop over band nodes of `update` (`/repo/src/LevelSet.cpp:272-287`). -/
def updateBandNode (timeStep : D) (i : Nat) (L : LevelSet D) : Res (LevelSet D) := do
  let node ← rd L.narrowBand i
  let s ← rd L.signedDistance node
  let g ← rd L.gradient node
  let v ← rd L.velocity node
  let s := s -. timeStep *. g *. v
  let nd ← rd L.mesh.nodes node
  let sd ← wr L.signedDistance node (if nd.isDomain && (nat 0 <. s) then nat 0 else s)
  let nodes ← modAt L.mesh.nodes node fun nd => pure { nd with nBoundaryPoints := 0 }
  pure { L with signedDistance := sd, mesh := { L.mesh with nodes := nodes } }

/-- The test of the mines in `update` (`/repo/src/LevelSet.cpp:289-300`): the first mine found ends the loop. -/
def mineHit (L : LevelSet D) : Res Bool :=
  forN L.nMines false fun i hit =>
    if hit then pure true
    else do
      let k ← rd L.mines i
      let v ← rd L.signedDistance k
      pure (abs v <. nat 1)

/-- `LevelSet::update` (`/repo/src/LevelSet.cpp:269-303`). -/
def update (timeStep : D) (L : LevelSet D) : Res (Bool × LevelSet D) := do
  let L ← forN L.nNarrowBand L (updateBandNode timeStep)
  let hit ← mineHit L
  if hit then do
    let L ← reinitialise L
    pure (true, L)
  else pure (false, L)

/-! ## Velocities -/

/-- Contribution of a boundary point with velocity `v` at squared distance `rSqd` to one node
(`/repo/src/LevelSet.cpp:735-749`, `770-784`).  State: `(isSet, weight, velocity)` of all nodes. -/
def deposit (node : Nat) (v rSqd : D) (s : List Bool × List D × List D) : Res (List Bool × List D × List D) := do
  let (isSet, weight, vel) := s
  if rSqd <. lit 1 1000000 then do
    let vel ← wr vel node v
    let weight ← wr weight node (nat 1)
    let isSet ← wr isSet node true
    pure (isSet, weight, vel)
  else do
    let st ← rd isSet node
    if st then pure s
    else do
      let u ← rd vel node
      let vel ← wr vel node (u +. v /. rSqd)
      let q ← rd weight node
      let weight ← wr weight node (q +. nat 1 /. rSqd)
      pure (isSet, weight, vel)

/-- Squared distance of a node from a boundary point (`/repo/src/LevelSet.cpp:727-731`, `762-766`). -/
def sqDist (a b : Coord D) : D :=
  let dx := a.x -. b.x
  let dy := a.y -. b.y
  dx *. dx +. dy *. dy

/-- Body of the loop over neighbours (`/repo/src/LevelSet.cpp:752-786`). -/
def depositNbr (m : Mesh D) (node : Nat) (p : BoundaryPoint D) (j : Nat) (s : List Bool × List D × List D) :
    Res (List Bool × List D × List D) := do
  let neighbour ← nbr m node j
  if neighbour < m.nNodes then do
    let nd ← rd m.nodes neighbour
    let rSqd := sqDist nd.coord p.coord
    if (rSqd <. lit 1 1000000) || (rSqd ≤. nat 1) then deposit neighbour p.velocity rSqd s else pure s
  else pure s

/-- Body of the loop over boundary points (`/repo/src/LevelSet.cpp:720-787`). -/
def depositPoint (m : Mesh D) (p : BoundaryPoint D) (s : List Bool × List D × List D) :
    Res (List Bool × List D × List D) := do
  let node ← m.getClosestNode p.coord
  let nd ← rd m.nodes node
  let s ← deposit node p.velocity (sqDist nd.coord p.coord) s
  forN 4 s (depositNbr m node p)

/-- Normalisation of one band node (`/repo/src/LevelSet.cpp:789-793`). -/
def normaliseNode (narrowBand : List Nat) (weight : List D) (i : Nat) (vel : List D) : Res (List D) := do
  let node ← rd narrowBand i
  let v ← rd vel node
  if v =. nat 0 then pure vel
  else do
    let q ← rd weight node
    wr vel node (v /. q)

/-- `LevelSet::initialiseVelocities` (`/repo/src/LevelSet.cpp:700-793`).  The arrays `isSet` and `weight` are on the stack
(the model ignores stack overflow). -/
def initialiseVelocities (points : List (BoundaryPoint D)) (L : LevelSet D) : Res (LevelSet D) := do
  let n := L.mesh.nNodes
  let vel ← forN n L.velocity fun i v => wr v i (nat 0)
  let (_, weight, vel) ← forN points.length (List.replicate n false, List.replicate n (nat 0), vel) fun i s => do
    let p ← rd points i
    depositPoint L.mesh p s
  let vel ← forN L.nNarrowBand vel (normaliseNode L.narrowBand weight)
  pure { L with velocity := vel }

/-- `LevelSet::computeVelocities(boundaryPoints)` (`/repo/src/LevelSet.cpp:384-394`). -/
def computeVelocities (points : List (BoundaryPoint D)) (L : LevelSet D) : Res (LevelSet D) := do
  let L ← initialiseVelocities points L
  let F ← FMM.marchVelocity L.mesh L.signedDistance L.velocity (FMM.new L.mesh false)
  pure { L with signedDistance := F.sd, velocity := F.vel }

/-- Time step and scale factor of the stochastic `computeVelocities` (`/repo/src/LevelSet.cpp:399-413`). -/
def thermalStep (moveLimit timeStep temperature : D) : D × D :=
  let sqrt2T := sqrt (nat 2 *. temperature)
  if (lit 1 2 *. moveLimit) <. (sqrt2T *. sqrt timeStep) then
    let scale := (nat 8 *. timeStep *. temperature) /. (moveLimit *. moveLimit)
    (timeStep /. scale, scale)
  else (timeStep, nat 1)

/-- Random part of the velocities (`/repo/src/LevelSet.cpp:415-427`).  `normal` stands for `rng.normal(0, 1)` acting on a
generator state `ρ` (a parameter: nothing is assumed about it). -/
def addNoise {ρ : Type} (normal : ρ → D × ρ) (noise : D) (points : List (BoundaryPoint D)) (g : ρ) :
    List (BoundaryPoint D) × ρ :=
  points.foldl (fun (s : List (BoundaryPoint D) × ρ) p =>
    let (z, g') := normal s.2
    (s.1 ++ [{ p with velocity := p.velocity +. (noise /. sqrt p.length) *. z }], g')) ([], g)

/-- `LevelSet::computeVelocities(boundaryPoints, timeStep, temperature, rng)` (`/repo/src/LevelSet.cpp:396-433`).  Returns the
boundary points, the time step, the scale factor, the generator and the level set. -/
def computeVelocitiesNoise {ρ : Type} (normal : ρ → D × ρ) (points : List (BoundaryPoint D)) (timeStep temperature : D)
    (g : ρ) (L : LevelSet D) : Res (List (BoundaryPoint D) × D × D × ρ × LevelSet D) := do
  let (timeStep, scale) := thermalStep L.moveLimit timeStep temperature
  let noise := sqrt (nat 2 *. temperature) /. sqrt timeStep
  let (points, g) := addNoise normal noise points g
  let L ← computeVelocities points L
  pure (points, timeStep, scale, g, L)

/-! ## Gradients -/

/-- `LevelSet::gradHJWENO` (`/repo/src/LevelSet.cpp:1197-1240`). -/
def gradHJWENO (v1 v2 v3 v4 v5 : D) : D :=
  let oneQuarter := nat 1 /. nat 4
  let thirteenTwelths := nat 13 /. nat 12
  let eps := lit 1 1000000
  let s1 := thirteenTwelths *. (v1 -. nat 2 *. v2 +. v3) *. (v1 -. nat 2 *. v2 +. v3)
    +. oneQuarter *. (v1 -. nat 4 *. v2 +. nat 3 *. v3) *. (v1 -. nat 4 *. v2 +. nat 3 *. v3)
  let s2 := thirteenTwelths *. (v2 -. nat 2 *. v3 +. v4) *. (v2 -. nat 2 *. v3 +. v4)
    +. oneQuarter *. (v2 -. v4) *. (v2 -. v4)
  let s3 := thirteenTwelths *. (v3 -. nat 2 *. v4 +. v5) *. (v3 -. nat 2 *. v4 +. v5)
    +. oneQuarter *. (nat 3 *. v3 -. nat 4 *. v4 +. v5) *. (nat 3 *. v3 -. nat 4 *. v4 +. v5)
  let alpha1 := lit 1 10 /. ((s1 +. eps) *. (s1 +. eps))
  let alpha2 := lit 6 10 /. ((s2 +. eps) *. (s2 +. eps))
  let alpha3 := lit 3 10 /. ((s3 +. eps) *. (s3 +. eps))
  let totalWeight := alpha1 +. alpha2 +. alpha3
  let w1 := alpha1 /. totalWeight
  let w2 := alpha2 /. totalWeight
  let w3 := alpha3 /. totalWeight
  let grad := w1 *. (nat 2 *. v1 -. nat 7 *. v2 +. nat 11 *. v3)
    +. w2 *. (nat 5 *. v3 -. v2 +. nat 2 *. v4)
    +. w3 *. (nat 2 *. v3 +. nat 5 *. v4 -. v5)
  grad *. (nat 1 /. nat 6)

/-- `unsigned int` subtraction of a small constant (wraps around). -/
def sub32 (x k : Nat) : Nat := u32 (x + 4294967296 - k)

/-- `signedDistance[mesh.xyToIndex[x][y]]`. -/
def sdAt (L : LevelSet D) (x y : Nat) : Res D := do
  let col ← rd L.mesh.xyToIndex x
  let i ← rd col y
  rd L.signedDistance i

/-- `g(i) - g(j)`, `g` reading along a grid line. -/
def diff (g : Nat → Res D) (i j : Nat) : Res D := do
  let a ← g i
  let b ← g j
  pure (a -. b)

/-- "Derivatives to right" (`/repo/src/LevelSet.cpp:887-959`) and "upward derivatives" (`/repo/src/LevelSet.cpp:1035-1107`):
the two blocks are the same code with the roles of `x` and `y` exchanged; `g` reads along the grid line, `x` is the
position and `n` the last position. -/
def derivForward (g : Nat → Res D) (n x : Nat) : Res D := do
  if x = 0 then do
    let v1 ← diff g 3 2
    let v2 ← diff g 2 1
    let v3 ← diff g 1 0
    pure (gradHJWENO v1 v2 v3 v3 v3)
  else if x = 1 then do
    let v1 ← diff g 4 3
    let v2 ← diff g 3 2
    let v3 ← diff g 2 1
    let v4 ← diff g 1 0
    pure (gradHJWENO v1 v2 v3 v4 v4)
  else if x = n then do
    let v5 ← diff g (sub32 x 1) (sub32 x 2)
    let v4 ← diff g x (sub32 x 1)
    pure (gradHJWENO v4 v4 v4 v4 v5)
  else if x = sub32 n 1 then do
    let v5 ← diff g (sub32 x 1) (sub32 x 2)
    let v4 ← diff g x (sub32 x 1)
    let v3 ← diff g (u32 (x + 1)) x
    pure (gradHJWENO v3 v3 v3 v4 v5)
  else if x = sub32 n 2 then do
    let v5 ← diff g (sub32 x 1) (sub32 x 2)
    let v4 ← diff g x (sub32 x 1)
    let v3 ← diff g (u32 (x + 1)) x
    let v2 ← diff g (u32 (x + 2)) (u32 (x + 1))
    pure (gradHJWENO v2 v2 v3 v4 v5)
  else do
    let v1 ← diff g (u32 (x + 3)) (u32 (x + 2))
    let v2 ← diff g (u32 (x + 2)) (u32 (x + 1))
    let v3 ← diff g (u32 (x + 1)) x
    let v4 ← diff g x (sub32 x 1)
    let v5 ← diff g (sub32 x 1) (sub32 x 2)
    pure (gradHJWENO v1 v2 v3 v4 v5)

/-- "Derivatives to left" (`/repo/src/LevelSet.cpp:961-1033`) and "downward derivative" (`/repo/src/LevelSet.cpp:1109-1181`). -/
def derivBackward (g : Nat → Res D) (n x : Nat) : Res D := do
  if x = n then do
    let v1 ← diff g (sub32 x 2) (sub32 x 3)
    let v2 ← diff g (sub32 x 1) (sub32 x 2)
    let v3 ← diff g x (sub32 x 1)
    pure (gradHJWENO v1 v2 v3 v3 v3)
  else if x = sub32 n 1 then do
    let v1 ← diff g (sub32 x 2) (sub32 x 3)
    let v2 ← diff g (sub32 x 1) (sub32 x 2)
    let v3 ← diff g x (sub32 x 1)
    let v4 ← diff g (u32 (x + 1)) x
    pure (gradHJWENO v1 v2 v3 v4 v4)
  else if x = 0 then do
    let v5 ← diff g 2 1
    let v4 ← diff g 1 0
    pure (gradHJWENO v4 v4 v4 v4 v5)
  else if x = 1 then do
    let v5 ← diff g 3 2
    let v4 ← diff g 2 1
    let v3 ← diff g 1 0
    pure (gradHJWENO v3 v3 v3 v4 v5)
  else if x = 2 then do
    let v5 ← diff g 4 3
    let v4 ← diff g 3 2
    let v3 ← diff g 2 1
    let v2 ← diff g 1 0
    pure (gradHJWENO v2 v2 v3 v4 v5)
  else do
    let v1 ← diff g (sub32 x 2) (sub32 x 3)
    let v2 ← diff g (sub32 x 1) (sub32 x 2)
    let v3 ← diff g x (sub32 x 1)
    let v4 ← diff g (u32 (x + 1)) x
    let v5 ← diff g (u32 (x + 2)) (u32 (x + 1))
    pure (gradHJWENO v1 v2 v3 v4 v5)

/-- One of the four corner cases (`/repo/src/LevelSet.cpp:811-876`): `x2`, `y2` are the coordinates of the neighbours of the
corner `(x, y)`.  The second comparison is only evaluated if the first holds. -/
def cornerGradient (L : LevelSet D) (lsf : D) (x y x2 y2 : Nat) : Res (Option D) := do
  let a ← sdAt L x2 y
  if abs (a -. lsf) <. lit 1 1000000 then do
    let b ← sdAt L x y2
    if abs (b -. lsf) <. lit 1 1000000 then do
      let c ← sdAt L x2 y2
      pure (some (abs (lsf -. c) *. sqrt (nat 2)))
    else pure none
  else pure none

/-- First part of `computeGradient` (`/repo/src/LevelSet.cpp:810-876`): corners of the domain. -/
def cornerCase (L : LevelSet D) (lsf : D) (x y : Nat) : Res (Option D) :=
  if x = 0 then
    if y = 0 then cornerGradient L lsf x y (u32 (x + 1)) (u32 (y + 1))
    else if y = L.mesh.height then cornerGradient L lsf x y (u32 (x + 1)) (sub32 y 1)
    else pure none
  else if x = L.mesh.width then
    if y = 0 then cornerGradient L lsf x y (sub32 x 1) (u32 (y + 1))
    else if y = L.mesh.height then cornerGradient L lsf x y (sub32 x 1) (sub32 y 1)
    else pure none
  else pure none

/-- The upwind selection (`/repo/src/LevelSet.cpp:1183-1190`). -/
def upwindNorm (gradRight gradLeft gradUp gradDown : D) : D :=
  let grad : D := nat 0
  let grad := if nat 0 <. gradDown then grad +. gradDown *. gradDown else grad
  let grad := if nat 0 <. gradLeft then grad +. gradLeft *. gradLeft else grad
  let grad := if gradUp <. nat 0 then grad +. gradUp *. gradUp else grad
  let grad := if gradRight <. nat 0 then grad +. gradRight *. gradRight else grad
  sqrt grad

/-- `LevelSet::computeGradient` (`/repo/src/LevelSet.cpp:795-1195`). -/
def computeGradient (L : LevelSet D) (node : Nat) : Res D := do
  let nd ← rd L.mesh.nodes node
  let x := floor nd.coord.x
  let y := floor nd.coord.y
  let lsf ← rd L.signedDistance node
  let corner ← cornerCase L lsf x y
  match corner with
  | some g => pure g
  | none => do
    let v ← rd L.velocity node
    let sign : D := if v <. nat 0 then neg (nat 1) else nat 1
    let r ← derivForward (fun k => sdAt L k y) L.mesh.width x
    let l ← derivBackward (fun k => sdAt L k y) L.mesh.width x
    let u ← derivForward (fun k => sdAt L x k) L.mesh.height y
    let d ← derivBackward (fun k => sdAt L x k) L.mesh.height y
    pure (upwindNorm (sign *. r) (sign *. l) (sign *. u) (sign *. d))

/-- `LevelSet::computeGradients` (`/repo/src/LevelSet.cpp:443-458`). -/
def computeGradients (L : LevelSet D) : Res (LevelSet D) := do
  let g0 : List D := List.replicate L.gradient.length (nat 0)
  let g ← forN L.nNarrowBand g0 fun i g => do
    let node ← rd L.narrowBand i
    let v ← computeGradient L node
    wr g node v
  pure { L with gradient := g }

end LevelSet

end Slsm
