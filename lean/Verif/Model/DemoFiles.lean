import Verif.Model.IO

/-! # Files read by the demo programs

Two of the programs in `/repo/demos` read a file themselves instead of calling the library: `dumbbell.cpp` takes a starting configuration from a
file named on the command line, `shape_match.cpp` reads the points of the target shape.  Both use `operator>>` on a `std::ifstream`, which is
`IO.extract`.  `good()` after opening is taken to mean that the file exists. -/

namespace Slsm.Program

open Slsm Slsm.IO

variable {D : Type} [Txt D]

/-- `while (inputFile >> levelSet.signedDistance[i]) i++` (`/repo/demos/dumbbell.cpp:148-150`).  With `assertions`, as in a library built to
check indices, `signedDistance[i]` fails for `i` out of range; without, only storing a number there does.  The bound on the number of iterations is
never reached (`readValues_eq`). -/
def readValues (assertions : Bool) : Nat → Loader D → Res (Loader D)
  | 0, _ => .error .fuel
  | n + 1, s => do
    readNode.inRange (assertions && s.distance.length ≤ s.node)
    let r := extract (D := D) s.stream
    let v ← readNode.store r.2 s.distance s.node
    if r.1.fail then pure { s with stream := r.1, distance := v }
    else readValues assertions n ⟨r.1, v, u32 (s.node + 1)⟩

/-- Read the starting configuration (`/repo/demos/dumbbell.cpp:139-157`): `arguments` are those after the program's name.  The message before the exit is
not modelled. -/
def startingConfiguration (assertions : Bool) (F : FileSystem) (arguments : List Text) (L : LevelSet D) : Res (LevelSet D) :=
  match arguments[2]? with
  | none => .ok L
  | some name =>
    match F.files name with
    | none => .error .exit
    | some c => do
      let s ← readValues assertions (c.length + 1) ⟨⟨c, false, false⟩, L.signedDistance, 0⟩
      pure { L with signedDistance := s.distance }

/-- `while (shapeFile >> x >> y) points.push_back(slsm::Coord(x, y))` (`/repo/demos/shape_match.cpp:88-89`, `103-104`).  The bound on the number of
iterations is never reached (`readPoints_eq`). -/
def readPoints : Nat → Stream → List (Coord D) → Res (List (Coord D))
  | 0, _, _ => .error .fuel
  | n + 1, s, points =>
    match extract (D := D) s with
    | (s, some x) =>
      if s.fail then .ok points
      else match extract (D := D) s with
        | (s, some y) => if s.fail then .ok points else readPoints n s (points ++ [⟨x, y⟩])
        | (_, none) => .ok points
    | (_, none) => .ok points

/-- Read the shape file (`/repo/demos/shape_match.cpp:75-115`).  The message before the exit is not modelled. -/
def shapePoints (F : FileSystem) : Res (List (Coord D)) :=
  match F.files "demos/shapes/stanford-bunny.txt".toList with
  | some c => readPoints (c.length + 1) ⟨c, false, false⟩ []
  | none =>
    match F.files "shapes/stanford-bunny.txt".toList with
    | some c => readPoints (c.length + 1) ⟨c, false, false⟩ []
    | none => .error .exit

end Slsm.Program
