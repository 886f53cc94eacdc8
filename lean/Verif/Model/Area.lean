import Verif.Model.Boundary

/-! # Area fractions (`/repo/src/LevelSet.cpp:460-483`, `1341-1482`) -/

namespace Slsm

open FP

namespace Area

variable {D : Type} [FP D]

/-- `LevelSet::isClockwise` (`/repo/src/LevelSet.cpp:1426-1459`).  The statements after `return true` (lines 1450-1458) are never reached
and left out.  `>=` is `<` with exchanged or `≤` with exchanged arguments, as in C++. -/
def isClockwise (c p q : Coord D) : Bool :=
  if (nat 0 ≤. (p.x -. c.x)) && ((q.x -. c.x) <. nat 0) then false
  else if ((p.x -. c.x) <. nat 0) && (nat 0 ≤. (q.x -. c.x)) then true
  else if ((p.x -. c.x) =. nat 0) && ((q.x -. c.x) =. nat 0) then
    if (nat 0 ≤. (p.y -. c.y)) || (nat 0 ≤. (q.y -. c.y)) then !(q.y <. p.y)
    else !(p.y <. q.y)
  else
    let det := (p.x -. c.x) *. (q.y -. c.y) -. (q.x -. c.x) *. (p.y -. c.y)
    !(det <. nat 0)

/-- One step of the insertion sort by which `std::sort` orders up to sixteen elements in libstdc++ (`std::__insertion_sort`): a new
element goes to the front if it is less than the first one, otherwise it is moved down past all elements it is less than.  `l` is the
part sorted so far. -/
def insertAt {α : Type} (less : α → α → Bool) (a : α) (l : List α) : List α :=
  match l with
  | [] => [a]
  | b :: _ =>
    if less a b then a :: l
    else (l.reverse.dropWhile (less a)).reverse ++ a :: (l.reverse.takeWhile (less a)).reverse

/-- `std::sort(v.begin(), v.begin() + n, less)` for at most sixteen elements, as in libstdc++.  The comparison of `polygonArea` is not a
strict weak ordering (`isClockwise(p, p)` is true), so the C++ standard does not define the result; see `DESIGN.md`. -/
def sort {α : Type} (less : α → α → Bool) (l : List α) : List α := l.foldl (fun s a => insertAt less a s) []

/-- Body of the loop of `polygonArea` (`/repo/src/LevelSet.cpp:1470-1477`). -/
def shoelaceStep (v : List (Coord D)) (n : Nat) (i : Nat) (area : D) : Res D := do
  let j := if i = LevelSet.sub32 n 1 then 0 else u32 (i + 1)
  let p ← rd v i
  let q ← rd v j
  let area := area +. p.x *. q.y
  pure (area -. q.x *. p.y)

/-- `LevelSet::polygonArea` (`/repo/src/LevelSet.cpp:1461-1482`). -/
def polygonArea (v : List (Coord D)) (n : Nat) (c : Coord D) : Res D := do
  if v.length < n then .error .ub
  else do
    let v := sort (isClockwise c) (v.take n) ++ v.drop n
    let area ← forN n (nat 0) (shoelaceStep v n)
    pure (abs (area *. lit 1 2))

/-- Store a vertex (`/repo/src/LevelSet.cpp:1366-1371`, `1391-1396`, `1407-1412`, `1414-1419`). -/
def pushVertex (c : Coord D) (s : List (Coord D) × Nat) : Res (List (Coord D) × Nat) := do
  let v ← wr s.1 s.2 c
  pure (v, s.2 + 1)

/-- The side whose nodes are collected (`/repo/src/LevelSet.cpp:1349-1353`). -/
def soughtSide (el : Element D) : NodeStatus := if el.status = .centreOutside then .outside else .inside

/-- Body of the loop over the nodes of the element (`/repo/src/LevelSet.cpp:1356-1398`). -/
def nodeVertex (m : Mesh D) (el : Element D) (i : Nat) (s : List (Coord D) × Nat) : Res (List (Coord D) × Nat) := do
  let node ← rd el.nodes i
  let nd ← rd m.nodes node
  if nd.status = soughtSide el then pushVertex nd.coord s
  else if nd.status = .boundary then do
    let n1 ← rd el.nodes (Boundary.after i)
    let n2 ← rd el.nodes (Boundary.before i)
    let a ← rd m.nodes n1
    let b ← rd m.nodes n2
    if a.status = .inside ∧ b.status = .inside then pushVertex nd.coord s else pure s
  else pure s

/-- Body of the loop over the segments of the element (`/repo/src/LevelSet.cpp:1401-1420`). -/
def segmentVertices (b : Boundary D) (el : Element D) (i : Nat) (s : List (Coord D) × Nat) : Res (List (Coord D) × Nat) := do
  let k ← rd el.boundarySegments i
  let g ← rd b.segments k
  let p ← rd b.points g.start
  let s ← pushVertex p.coord s
  let q ← rd b.points g.stop
  pushVertex q.coord s

/-- `LevelSet::cutArea` (`/repo/src/LevelSet.cpp:1341-1424`). -/
def cutArea (m : Mesh D) (b : Boundary D) (el : Element D) : Res D := do
  let s ← forN 4 (List.replicate 6 ⟨nat 0, nat 0⟩, 0) (nodeVertex m el)
  let s ← forN el.nBoundarySegments s (segmentVertices b el)
  let a ← polygonArea s.1 s.2 el.coord
  pure (if el.status = .centreOutside then nat 1 -. a else a)

/-- Area fraction of one element (`/repo/src/LevelSet.cpp:467-476`). -/
def areaOf (m : Mesh D) (b : Boundary D) (el : Element D) : Res D :=
  if el.status = .inside then pure (nat 1) else if el.status = .outside then pure (nat 0) else cutArea m b el

/-- Body of the loop of `computeAreaFractions` (`/repo/src/LevelSet.cpp:465-480`). -/
def areaStep (b : Boundary D) (i : Nat) (L : LevelSet D) : Res (LevelSet D) := do
  let el ← rd L.mesh.elements i
  let a ← areaOf L.mesh b el
  let elements ← wr L.mesh.elements i { el with area := a }
  pure { L with mesh := { L.mesh with elements := elements }, area := L.area +. a }

/-- `LevelSet::computeAreaFractions` (`/repo/src/LevelSet.cpp:460-483`): the level set afterwards; the returned value is its `area`. -/
def computeAreaFractions (L : LevelSet D) (b : Boundary D) : Res (LevelSet D) :=
  forN L.mesh.nElements { L with area := nat 0 } (areaStep b)

end Area

end Slsm
