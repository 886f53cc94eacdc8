import Verif.Model.Boundary

/-! # Finite-difference sensitivities (`/repo/src/Sensitivity.h`, `/repo/src/Sensitivity.cpp`) -/

namespace Slsm.Sensitivity

open FP

variable {D : Type} [FP D]

/-- The point displaced along its normal by `d` (`/repo/src/Sensitivity.cpp:44-45`; lines `51-52` subtract, see `shiftBack`). -/
def shift (delta : D) (c : Coord D) (p : BoundaryPoint D) : BoundaryPoint D :=
  { p with coord := ⟨c.x +. delta *. p.normal.x, c.y +. delta *. p.normal.y⟩ }

/-- The point displaced against its normal (`/repo/src/Sensitivity.cpp:51-52`). -/
def shiftBack (delta : D) (c : Coord D) (p : BoundaryPoint D) : BoundaryPoint D :=
  { p with coord := ⟨c.x -. delta *. p.normal.x, c.y -. delta *. p.normal.y⟩ }

/-- `Sensitivity::computeSensitivity` (`/repo/src/Sensitivity.cpp:38-68`).  The point is passed by reference: the result holds the sensitivity
and the point after the call.  The callback (`SensitivityCallback`, `/repo/src/Sensitivity.h:42`) receives the point by `const` reference; it is
modelled as a function of the point that may fail; effects of the callback on other objects are not modelled. -/
def computeSensitivity (delta : D) (p : BoundaryPoint D) (callback : BoundaryPoint D → Res D) : Res (D × BoundaryPoint D) := do
  let coord := p.coord
  let p := shift delta coord p
  let f1 ← callback p
  let p := shiftBack delta coord p
  let f2 ← callback p
  let sens := (f1 -. f2) /. (nat 2 *. delta)
  let sens := sens /. p.length
  pure (sens, { p with coord := coord })

/-- Body of the loop of `itoCorrection` (`/repo/src/Sensitivity.cpp:91-98`). -/
def itoPoint (delta temperature : D) (callback : BoundaryPoint D → Res D) (p : BoundaryPoint D) : Res (BoundaryPoint D) := do
  let (curvature, p) ← computeSensitivity delta p callback
  let s0 ← rd p.sensitivities 0
  let sens ← wr p.sensitivities 0 (s0 -. (temperature *. curvature) /. (nat 2 *. p.length))
  pure { p with sensitivities := sens }

/-- `Sensitivity::itoCorrection(Boundary&, double)` (`/repo/src/Sensitivity.cpp:81-99`).  `std::bind` stores a copy of the boundary as it was
before the loop, so the perimeter is always computed from that copy. -/
def itoCorrection (delta : D) (b : Boundary D) (temperature : D) : Res (Boundary D) :=
  if temperature =. nat 0 then pure b
  else do
    let points ← forN b.points.length b.points fun i l => modAt l i (itoPoint delta temperature b.computePerimeter)
    pure { b with points := points }

/-- `Sensitivity::itoCorrection(Boundary&, const LevelSet&, double)` (`/repo/src/Sensitivity.cpp:70-79`). -/
def itoCorrectionWith (delta : D) (b : Boundary D) (L : LevelSet D) (temperature : D) : Res (Boundary D) :=
  if temperature =. nat 0 then pure b
  else do
    let b ← b.computeNormalVectors L
    itoCorrection delta b temperature

end Slsm.Sensitivity
