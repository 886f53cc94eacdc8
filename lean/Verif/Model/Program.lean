import Verif.Model.Area
import Verif.Model.Optimise
import Verif.Model.Sensitivity

/-! # Programs using the library (`/repo/demos`)

All programs in `/repo/demos` have the same main loop: set the sensitivities of the boundary points, solve the optimisation problem, extend the
velocities, compute the gradients, update, reinitialise every twenty steps, discretise the boundary again.  What differs is passed as a
parameter (`Problem`).  Output and the collection of statistics are left out.  `ρ` is the state of the random number generator. -/

namespace Slsm.Program

open FP

/-- The variables of a program that live across the iterations (`/repo/demos/minimise_perimeter.cpp:90-127`). -/
structure State (ρ D : Type) where
  levelSet : LevelSet D
  boundary : Boundary D
  lambdas : List D
  nReinit : Nat
  runningTime : D
  rng : ρ

/-- What distinguishes the programs: how sensitivities are assigned to the boundary points, the constraint distances, how velocities are
extended to the nodes (with the boundary points, the time step and the generator afterwards), and what is done after the discretisation. -/
structure Problem (ρ D : Type) where
  assign : LevelSet D → Boundary D → Res (Boundary D)
  distances : LevelSet D → Res (List D)
  extend : List (BoundaryPoint D) → D → ρ → LevelSet D → Res (List (BoundaryPoint D) × D × ρ × LevelSet D)
  finish : Boundary D → LevelSet D → Res (Boundary D × LevelSet D)

variable {ρ D : Type} [FP D]

/-- Reinitialisation after `update` (`/repo/demos/minimise_perimeter.cpp:184-197`): the level set and the counter. -/
def periodic (isReinitialised : Bool) (nReinit : Nat) (L : LevelSet D) : Res (LevelSet D × Nat) :=
  if isReinitialised then pure (L, 1)
  else if nReinit = 20 then do
    let L ← L.reinitialise
    pure (L, 1)
  else pure (L, nReinit + 1)

/-- The first part of the loop body, up to the new level set (`/repo/demos/minimise_perimeter.cpp:149-197`, `minimise_area.cpp:132-172`,
`minimise_perimeter_constrained.cpp:144-200`, `shape_match.cpp:177-219`).  `dt` is the value that the variable `timeStep` happens to have when it is
declared.  (The time is increased at the end of the loop body; nothing before reads it.) -/
def advance (P : Problem ρ D) (nlopt : Optimise D → NLoptRun D) (fuel : Nat) (dt : D) (s : State ρ D) : Res (State ρ D) := do
  let b ← P.assign s.levelSet s.boundary
  let distances ← P.distances s.levelSet
  let o ← Optimise.new b.points distances s.lambdas dt s.levelSet.moveLimit false []
  let (o, _) ← o.solve nlopt fuel
  let (points, timeStep, g, L) ← P.extend o.points o.timeStep s.rng s.levelSet
  let L ← L.computeGradients
  let (r, L) ← L.update timeStep
  let (L, n) ← periodic r s.nReinit L
  pure { levelSet := L, boundary := { b with points := points }, lambdas := o.lambdas, nReinit := n,
         runningTime := s.runningTime +. timeStep, rng := g }

/-- The second part of the loop body: the new boundary (`/repo/demos/minimise_perimeter.cpp:199-203`, `minimise_area.cpp:174-175`,
`minimise_perimeter_constrained.cpp:202-209`, `shape_match.cpp:221-222`). -/
def refresh (P : Problem ρ D) (s : State ρ D) : Res (State ρ D) := do
  let (b, L) ← Boundary.discretise s.levelSet false
  let (b, L) ← P.finish b L
  pure { s with levelSet := L, boundary := b }

/-- The loop body. -/
def step (P : Problem ρ D) (nlopt : Optimise D → NLoptRun D) (fuel : Nat) (dt : D) (s : State ρ D) : Res (State ρ D) := do
  let s ← advance P nlopt fuel dt s
  refresh P s

/-- The end of the code before the loop: the first boundary (`/repo/demos/minimise_perimeter.cpp:94-127`, `minimise_area.cpp:93-120`,
`shape_match.cpp:142-170`). -/
def launch (P : Problem ρ D) (L : LevelSet D) (nLambdas : Nat) (g : ρ) : Res (State ρ D) :=
  refresh P { levelSet := L, boundary := Boundary.new, lambdas := List.replicate nLambdas (nat 0), nReinit := 0, runningTime := nat 0, rng := g }

/-- The code before the loop (`/repo/demos/minimise_perimeter.cpp:90-127`, `minimise_area.cpp:89-120`). -/
def start (P : Problem ρ D) (L : LevelSet D) (nLambdas : Nat) (g : ρ) : Res (State ρ D) := do
  let L ← L.reinitialise
  launch P L nLambdas g

/-- Discretisation of the target: the area of the target in every element (`/repo/demos/shape_match.cpp:128-140`, `dumbbell.cpp:157-168`,
`bimodal.cpp:216-227`). -/
def targetAreas (L : LevelSet D) : Res (List D × LevelSet D) := do
  let (b, L) ← Boundary.discretise L true
  let L ← Area.computeAreaFractions L b
  let A ← forN L.mesh.nElements (List.replicate L.mesh.nElements (nat 0)) fun i A => do
    let el ← rd L.mesh.elements i
    wr A i el.area
  pure (A, L)

/-- The code before the loop of programs with a target (`/repo/demos/shape_match.cpp:119-170`, `dumbbell.cpp:145-197`, `bimodal.cpp:201-256`). -/
def startTarget (P : List D → Problem ρ D) (L : LevelSet D) (nLambdas : Nat) (g : ρ) : Res (List D × State ρ D) := do
  let L ← L.reinitialise
  let (A, L) ← targetAreas L
  let s ← launch (P A) L nLambdas g
  pure (A, s)

/-! ## Parts of the programs -/

/-- `sensitivities[k] = value` for every point. -/
def setSensitivity (k : Nat) (value : BoundaryPoint D → Res D) (b : Boundary D) : Res (Boundary D) := do
  let points ← forN b.points.length b.points fun i l => modAt l i fun p => do
    let v ← value p
    let s ← wr p.sensitivities k v
    pure { p with sensitivities := s }
  pure { b with points := points }

/-- Finite difference of the perimeter (`/repo/demos/minimise_perimeter.cpp:142-153`; `delta` is `1e-4` by default, `/repo/src/Sensitivity.h:64`).
The callback holds a copy of the boundary.  (The coordinates of the point after the call are those before: C54.) -/
def perimeterSensitivity (b : Boundary D) (p : BoundaryPoint D) : Res D := do
  let (c, _) ← Sensitivity.computeSensitivity (lit 1 10000) p b.computePerimeter
  pure c

/-- Velocities without noise. -/
def plain (points : List (BoundaryPoint D)) (dt : D) (g : ρ) (L : LevelSet D) : Res (List (BoundaryPoint D) × D × ρ × LevelSet D) := do
  let L ← L.computeVelocities points
  pure (points, dt, g, L)

/-- Velocities with noise. -/
def noisy (normal : ρ → D × ρ) (temperature : D) (points : List (BoundaryPoint D)) (dt : D) (g : ρ) (L : LevelSet D) :
    Res (List (BoundaryPoint D) × D × ρ × LevelSet D) := do
  let (points, dt, _, g, L) ← L.computeVelocitiesNoise normal points dt temperature g
  pure (points, dt, g, L)

/-- Mismatch limited to one (`/repo/demos/shape_match.cpp:316-321`, `335-340`). -/
def clip (m : D) : D := if abs m <. nat 1 then m else if m <. nat 0 then neg (nat 1) else nat 1

/-- Body of the loop of `computeSensitivity` (`/repo/demos/shape_match.cpp:293-330`): weighted mismatch and weight so far, or the result. -/
def mismatchStep (L : LevelSet D) (c : Coord D) (n : Nat) (s : (D × D) ⊕ D) : Res ((D × D) ⊕ D) :=
  match s with
  | .inr v => pure (.inr v)
  | .inl (mismatch, weight) => do
    let nd ← rd L.mesh.nodes n
    let dx := nd.coord.x -. c.x
    let dy := nd.coord.y -. c.y
    let rSqd := dx *. dx +. dy *. dy
    let t ← rd L.target n
    let d ← rd L.signedDistance n
    if rSqd <. lit 1 1000000 then pure (.inr (clip (t -. d)))
    else pure (.inl (mismatch +. (t -. d) /. rSqd, weight +. nat 1 /. rSqd))

/-- `computeSensitivity` of the shape matching program (`/repo/demos/shape_match.cpp:271-341`). -/
def mismatchSensitivity (L : LevelSet D) (c : Coord D) : Res D := do
  let node ← L.mesh.getClosestNode c
  let s ← mismatchStep L c node (.inl (nat 0, nat 0))
  let s ← forN 4 s fun i s => match s with
    | .inr v => pure (.inr v)
    | .inl q => do
      let nd ← rd L.mesh.nodes node
      let n ← rd nd.neighbours i
      mismatchStep L c n (.inl q)
  match s with
  | .inr v => pure v
  | .inl (mismatch, weight) => pure (clip (mismatch /. weight))

/-- `computeObjective` of the shape matching program (`/repo/demos/shape_match.cpp:343-353`). -/
def areaMismatch (m : Mesh D) (targetArea : List D) : Res D :=
  forN m.nElements (nat 0) fun i a => do
    let t ← rd targetArea i
    let el ← rd m.elements i
    pure (a +. abs (t -. el.area))

/-! ## The programs -/

/-- `/repo/demos/minimise_area.cpp`: every sensitivity is one (lines 133-134), no constraints. -/
def minimiseArea : Problem ρ D where
  assign _ b := setSensitivity 0 (fun _ => pure (nat 1)) b
  distances _ := pure []
  extend := plain
  finish b L := pure (b, L)

/-- `/repo/demos/minimise_perimeter.cpp`: finite differences of the perimeter (lines 142-156), no constraints. -/
def minimisePerimeter : Problem ρ D where
  assign _ b := setSensitivity 0 (perimeterSensitivity b) b
  distances _ := pure []
  extend := plain
  finish b L := do
    let b ← b.computeNormalVectors L
    pure (b, L)

/-- `/repo/demos/minimise_perimeter_constrained.cpp`: perimeter with an upper bound on the area and thermal noise (lines 144-209).  The two sensitivities of a point are set in one loop. -/
def minimisePerimeterConstrained (normal : ρ → D × ρ) (temperature maxArea : D) : Problem ρ D where
  assign _ b := do
    let b' ← setSensitivity 0 (perimeterSensitivity b) b
    let b' ← setSensitivity 1 (fun _ => pure (neg (nat 1))) b'
    Sensitivity.itoCorrection (lit 1 10000) b' temperature
  distances L := pure [nat (u32 (L.mesh.width * L.mesh.height)) *. maxArea -. L.area]
  extend := noisy normal temperature
  finish b L := do
    let L ← Area.computeAreaFractions L b
    let b ← b.computeNormalVectors L
    pure (b, L)

/-- `/repo/demos/shape_match.cpp` (lines 177-222). -/
def shapeMatch (normal : ρ → D × ρ) (temperature : D) : Problem ρ D where
  assign L b := do
    let b ← setSensitivity 0 (fun p => mismatchSensitivity L p.coord) b
    Sensitivity.itoCorrection (lit 1 10000) b temperature
  distances _ := pure []
  extend := noisy normal temperature
  finish b L := pure (b, L)

end Slsm.Program
