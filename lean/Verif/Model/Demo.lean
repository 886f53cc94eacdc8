import Verif.Model.Program

/-! # Further programs in `/repo/demos`: sampling, weighted perimeters, umbrella sampling

`dumbbell.cpp`, `bimodal.cpp` and `bimodal_brolly.cpp` minimise a perimeter weighted by height, subject to a bound on the mismatch with a target.
`bimodal_brolly.cpp` accepts or rejects pieces of trajectory.  Printing and writing of files is left out. -/

namespace Slsm.Program

open FP

variable {ρ D : Type} [FP D]

/-! ## The weighted perimeter -/

/-- The global variables (`/repo/demos/dumbbell.cpp:72-76`: `upperLobeCentre`, `lowerLobeCentre`, `lobeSeparation`, `reduce`; `bimodal.cpp:79-82` and
`bimodal_brolly.cpp:94-97`: `uppergravityCutOff`, `lowergravityCutOff`, `gravityRange`, `reduce`). -/
structure Gravity (D : Type) where
  upper : D
  lower : D
  range : D
  reduce : D

/-- The values they are given (`/repo/demos/dumbbell.cpp:130-132`; `bimodal.cpp:164-166`, `183`). -/
def gravity (upper lower reduce : D) : Gravity D := { upper := upper, lower := lower, range := upper -. lower, reduce := reduce }

/-- `computePerimeterWeight` (`/repo/demos/dumbbell.cpp:480-491`, `bimodal.cpp:558-569`, `bimodal_brolly.cpp:647-658`). -/
def perimeterWeight (G : Gravity D) (y : D) : D :=
  if G.upper <. y then nat 1
  else if y <. G.lower then G.reduce
  else
    let dy := (G.upper -. y) /. G.range
    nat 1 -. dy *. (nat 1 -. G.reduce)

/-- `computePointLength` (`/repo/demos/dumbbell.cpp:443-477`, `bimodal.cpp:521-555`, `bimodal_brolly.cpp:610-644`), with `nDiscrete` = 10.  `points` is what
the global pointer refers to. -/
def pointLength (G : Gravity D) (points : List (BoundaryPoint D)) (p : BoundaryPoint D) : Res D :=
  forN p.nNeighbours (nat 0) fun i length => do
    let k ← rd p.neighbours i
    let q ← rd points k
    let dx := q.coord.x -. p.coord.x
    let dy := q.coord.y -. p.coord.y
    let len := sqrt (dx *. dx +. dy *. dy) /. nat 10
    forN 10 length fun j length => do
      let y := p.coord.y +. (nat j +. lit 1 2) *. dy /. nat 10
      pure (length +. perimeterWeight G y *. len)

/-- `computePerimeter` (`/repo/demos/dumbbell.cpp:431-440`, `bimodal.cpp:484-493`, `bimodal_brolly.cpp:598-607`). -/
def weightedPerimeter (G : Gravity D) (points : List (BoundaryPoint D)) : Res D :=
  forN points.length (nat 0) fun i length => do
    let p ← rd points i
    let l ← pointLength G points p
    pure (length +. lit 1 2 *. l)

/-- `computeCentreOfMass` (`/repo/demos/bimodal.cpp:496-518`, `bimodal_brolly.cpp:661-683`). -/
def centreOfMass (G : Gravity D) (points : List (BoundaryPoint D)) : Res (D × D) := do
  let (length, x, y) ← forN points.length (nat 0, nat 0, nat 0) fun i (length, x, y) => do
    let p ← rd points i
    let ll ← pointLength G points p
    pure (length +. lit 1 2 *. ll, x +. p.coord.x *. lit 1 2 *. ll, y +. p.coord.y *. lit 1 2 *. ll)
  pure (x /. length, y /. length)

/-- Finite difference of the weighted length (`/repo/demos/dumbbell.cpp:229-243`).  The callback reads the points of the boundary through a pointer while one
of them is displaced; the model reads the points as they were (no point is its own neighbour). -/
def weightedSensitivity (G : Gravity D) (b : Boundary D) (p : BoundaryPoint D) : Res D := do
  let (c, _) ← Sensitivity.computeSensitivity (lit 1 10000) p (pointLength G b.points)
  pure c

/-- `/repo/demos/dumbbell.cpp:227-299`, `bimodal.cpp:270-342`, `bimodal_brolly.cpp:347-428`: the weighted perimeter with an upper bound on the mismatch
with the target and thermal noise.  The two sensitivities of a point are set in one loop. -/
def weighted (G : Gravity D) (normal : ρ → D × ρ) (temperature maxMismatch : D) (targetArea : List D) : Problem ρ D where
  assign L b := do
    let b' ← setSensitivity 0 (weightedSensitivity G b) b
    let b' ← setSensitivity 1 (fun p => mismatchSensitivity L p.coord) b'
    Sensitivity.itoCorrection (lit 1 10000) b' temperature
  distances L := do
    let m ← areaMismatch L.mesh targetArea
    pure [nat (u32 (L.mesh.width * L.mesh.height)) *. maxMismatch -. m]
  extend := noisy normal temperature
  finish b L := do
    let L ← Area.computeAreaFractions L b
    let b ← b.computeNormalVectors L
    pure (b, L)

/-! ## Sampling -/

/-- The measurements of a program and the time of the next one (`/repo/demos/minimise_perimeter.cpp:80-83`, `113-120`). -/
structure Log (α D : Type) where
  nextSample : D
  times : List D
  records : List α

/-- What a program measures: from the state at the top of the loop and the state at its end, a record.  Some programs compute area fractions for
this; the record comes with the state afterwards. -/
abbrev Observe (ρ α D : Type) := State ρ D → State ρ D → Res (α × State ρ D)

/-- The inner loop (`/repo/demos/minimise_perimeter.cpp:208-225`, `minimise_area.cpp:180-197`, `minimise_perimeter_constrained.cpp:214-236`,
`shape_match.cpp:227-252`, `dumbbell.cpp:303-325`, `bimodal.cpp:346-376`).  `s0` is the state at the top of the main loop. -/
def sample {α : Type} (obs : Observe ρ α D) (interval : D) (fuel : Nat) (s0 : State ρ D) (x : State ρ D × Log α D) : Res (State ρ D × Log α D) :=
  whileN fuel (fun (s, l) => l.nextSample ≤. s.runningTime) (fun (s, l) => do
    let (r, s) ← obs s0 s
    pure (s, { nextSample := l.nextSample +. interval, times := l.times ++ [s.runningTime], records := l.records ++ [r] })) x

/-- What is not determined by the program: the answers of the solver and the contents of uninitialised variables in iteration `k`, bounds on the
number of passes of its loops. -/
structure Env (D : Type) where
  solver : Nat → Optimise D → NLoptRun D
  dt : Nat → D
  fuel : Nat

/-- The body of the main loop with sampling. -/
def turn {α : Type} (P : Problem ρ D) (obs : Observe ρ α D) (interval : D) (E : Env D) (k : Nat) (x : State ρ D × Log α D) :
    Res (State ρ D × Log α D) := do
  let s ← step P (E.solver k) E.fuel (E.dt k) x.1
  sample obs interval E.fuel x.1 (s, x.2)

/-- The main loop (`/repo/demos/minimise_perimeter.cpp:137-226`, `minimise_area.cpp:130-198`, `minimise_perimeter_constrained.cpp:142-237`,
`shape_match.cpp:175-253`, `dumbbell.cpp:227-326`, `bimodal.cpp:270-377`).  The first component counts the iterations. -/
def mainLoop {α : Type} (P : Problem ρ D) (obs : Observe ρ α D) (maxTime interval : D) (E : Env D) (x : State ρ D × Log α D) :
    Res (Nat × State ρ D × Log α D) :=
  whileN E.fuel (fun (_, s, _) => s.runningTime <. maxTime) (fun (k, x) => do
    let x ← turn P obs interval E k x
    pure (k + 1, x)) (0, x)

/-- `/repo/demos/minimise_area.cpp:183-185`. -/
def observeArea : Observe ρ D D := fun _ s => pure (s.boundary.length, s)

/-- Mean sensitivity and length (`/repo/demos/minimise_perimeter.cpp:139-160`, `211-214`): the mean is computed at the top of the loop. -/
def observePerimeter : Observe ρ (D × D) D := fun s0 s => do
  let b ← setSensitivity 0 (perimeterSensitivity s0.boundary) s0.boundary
  let c ← forN b.points.length (nat 0) fun i c => do
    let p ← rd b.points i
    let v ← rd p.sensitivities 0
    pure (c +. v)
  pure ((s.boundary.length, c /. nat b.points.length), s)

/-- `/repo/demos/minimise_perimeter_constrained.cpp:217-235`. -/
def observeConstrained : Observe ρ (D × D) D := fun _ s =>
  pure ((s.boundary.length, s.levelSet.area /. nat (u32 (s.levelSet.mesh.width * s.levelSet.mesh.height))), s)

/-- `/repo/demos/shape_match.cpp:230-239`. -/
def observeMatch (targetArea : List D) : Observe ρ D D := fun _ s => do
  let L ← Area.computeAreaFractions s.levelSet s.boundary
  let m ← areaMismatch L.mesh targetArea
  pure (m /. nat (u32 (L.mesh.width * L.mesh.height)), { s with levelSet := L })

/-- `/repo/demos/dumbbell.cpp:306-312`: the mismatch is the variable computed in line 255, before the boundary moves. -/
def observeDumbbell (G : Gravity D) (targetArea : List D) : Observe ρ (D × D) D := fun s0 s => do
  let m ← areaMismatch s0.levelSet.mesh targetArea
  let l ← weightedPerimeter G s.boundary.points
  pure ((l, m), s)

/-- `/repo/demos/bimodal.cpp:349-361`: as before, and the position of the centre of mass relative to half the width, twice. -/
def observeBimodal (G : Gravity D) (width : D) (targetArea : List D) : Observe ρ (D × D × D × D) D := fun s0 s => do
  let m ← areaMismatch s0.levelSet.mesh targetArea
  let l ← weightedPerimeter G s.boundary.points
  let (x, y) ← centreOfMass G s.boundary.points
  pure ((l, m, x -. width /. nat 2, y -. width /. nat 2), s)

/-! ## Umbrella sampling (`/repo/demos/bimodal_brolly.cpp`) -/

/-- `computeBiasPotential` (`/repo/demos/bimodal_brolly.cpp:686-689`). -/
def biasPotential (value centre spring : D) : D := lit 1 2 *. spring *. (value -. centre) *. (value -. centre)

/-- `isAccepted` (`/repo/demos/bimodal_brolly.cpp:692-696`): the decision and the generator.  `exp` and the generator are parameters. -/
def isAccepted (exp : D → D) (uniform : ρ → D × ρ) (current previous beta : D) (g : ρ) : Bool × ρ :=
  let r := uniform g
  (r.1 <. exp (neg beta *. (current -. previous)), r.2)

/-- Constants of the program (`/repo/demos/bimodal_brolly.cpp:118-174`). -/
structure Umbrella (ρ D : Type) where
  G : Gravity D
  exp : D → D
  uniform : ρ → D × ρ
  beta : D
  width : D
  centre : D
  spring : D
  interval : D

/-- The variables of the program (`/repo/demos/bimodal_brolly.cpp:284-332`). -/
structure Walker (ρ D : Type) where
  state : State ρ D
  signedDistance : List D
  xCentre : D
  bias : D
  nAccept : Nat
  nTrials : Nat
  runningTime : D
  count : Nat

/-- The code before the loops, after the first boundary (`/repo/demos/bimodal_brolly.cpp:284-332`). -/
def walker (U : Umbrella ρ D) (s : State ρ D) : Res (Walker ρ D) := do
  let (x, _) ← centreOfMass U.G s.boundary.points
  pure { state := s, signedDistance := s.levelSet.signedDistance, xCentre := x, bias := biasPotential x U.centre U.spring, nAccept := 0, nTrials := 0,
         runningTime := nat 0, count := 0 }

/-- A piece of trajectory (`/repo/demos/bimodal_brolly.cpp:343-429`): `runningTime` of the state is the variable `sampleTime`. -/
def trajectory (P : Problem ρ D) (U : Umbrella ρ D) (E : Env D) (k : Nat) (s : State ρ D) : Res (Nat × State ρ D) :=
  whileN E.fuel (fun (_, s) => s.runningTime <. U.interval) (fun (k, s) => do
    let s ← step P (E.solver k) E.fuel (E.dt k) s
    pure (k + 1, s)) (k, { s with runningTime := nat 0 })

/-- One trial (`/repo/demos/bimodal_brolly.cpp:341-480`). -/
def trial (P : Problem ρ D) (U : Umbrella ρ D) (E : Env D) (v : Walker ρ D) : Res (Walker ρ D) := do
  let (k, s) ← trajectory P U E v.count v.state
  let (x, _) ← centreOfMass U.G s.boundary.points
  let x := x -. lit 1 2 *. U.width
  let bias := biasPotential x U.centre U.spring
  let (accepted, g) := isAccepted U.exp U.uniform bias v.bias U.beta s.rng
  let s := { s with rng := g }
  if accepted then
    pure { v with state := s, xCentre := x, bias := bias, signedDistance := s.levelSet.signedDistance, nAccept := v.nAccept + 1,
                  nTrials := v.nTrials + 1, runningTime := v.runningTime +. s.runningTime, count := k }
  else do
    let L ← LevelSet.reinitialise { s.levelSet with signedDistance := v.signedDistance }
    let t ← refresh P { s with levelSet := L, nReinit := 0 }
    pure { v with state := t, nTrials := v.nTrials + 1, runningTime := v.runningTime +. s.runningTime, count := k }

/-- The loops over samples and trials (`/repo/demos/bimodal_brolly.cpp:339-504`). -/
def umbrella (P : Problem ρ D) (U : Umbrella ρ D) (E : Env D) (nSamples sampleInterval : Nat) (v : Walker ρ D) : Res (Walker ρ D) :=
  forN nSamples v fun _ v => forN sampleInterval v fun _ v => trial P U E v

/-! ## The command line (`/repo/demos/bimodal_brolly.cpp`) -/

/-- The parameters that can be set (`/repo/demos/bimodal_brolly.cpp:120-148`). -/
structure Options (D : Type) where
  temperature : D
  gravityMult : D
  centre : D
  spring : D
  umbrellaInterval : D
  sampleInterval : Nat
  nSamples : Nat
  restart : Option String
  isBoundarySample : Bool

/-- The value after an option: `argv[i]` is a null pointer after the last argument. -/
def operand : List String → Res (String × List String)
  | [] => .error .ub
  | v :: rest => .ok (v, rest)

/-- `parseCommandLineArguments` (`/repo/demos/bimodal_brolly.cpp:699-776`), given the conversions of the C library.  `none` stands for the help message.
The name of the restart file is copied to an array of 100 characters.  `fuel` is the number of arguments. -/
def parse (atof : String → D) (atoi : String → Nat) : Nat → List String → Options D → Res (Option (Options D))
  | _, [], o => .ok (some o)
  | 0, _ :: _, _ => .error .fuel
  | n + 1, a :: rest, o =>
    if a = "-t" ∨ a = "--temperature" then do
      let (v, rest) ← operand rest
      parse atof atoi n rest { o with temperature := atof v }
    else if a = "-g" ∨ a = "--gravity" then do
      let (v, rest) ← operand rest
      parse atof atoi n rest { o with gravityMult := atof v }
    else if a = "-c" ∨ a = "--centre" then do
      let (v, rest) ← operand rest
      parse atof atoi n rest { o with centre := atof v }
    else if a = "-s" ∨ a = "--spring" then do
      let (v, rest) ← operand rest
      parse atof atoi n rest { o with spring := atof v }
    else if a = "-ui" ∨ a = "--unmbrella-interval" then do
      let (v, rest) ← operand rest
      parse atof atoi n rest { o with umbrellaInterval := atof v }
    else if a = "-si" ∨ a = "--sample-interval" then do
      let (v, rest) ← operand rest
      parse atof atoi n rest { o with sampleInterval := atoi v }
    else if a = "-n" ∨ a = "--number-samples" then do
      let (v, rest) ← operand rest
      parse atof atoi n rest { o with nSamples := atoi v }
    else if a = "-r" ∨ a = "--restart" then do
      let (v, rest) ← operand rest
      if v.utf8ByteSize < 100 then parse atof atoi n rest { o with restart := some v } else .error .ub
    else if a = "-b" ∨ a = "--boundary-sample" then parse atof atoi n rest { o with isBoundarySample := true }
    else if a = "-h" ∨ a = "--help" then .ok none
    else .error .exit

end Slsm.Program
