import Verif.Model.Program
import Verif.Spec.History
import Verif.Spec.Velocity
import Verif.Spec.FMM
import Verif.Spec.Boundary
import Verif.Spec.Gradient

/-! # Specification vocabulary for programs using the library -/

namespace Slsm.Program

open LevelSet

variable {ρ D : Type} [FP D]

/-- `p'` is the point `p` with as many other sensitivities. -/
def SensOnly (p p' : BoundaryPoint D) : Prop :=
  p' = { p with sensitivities := p'.sensitivities } ∧ p'.sensitivities.length = p.sensitivities.length

/-- `p'` is the point `p` with another normal vector. -/
def NormalOnly (p p' : BoundaryPoint D) : Prop := p' = { p with normal := p'.normal }

/-- `p'` is the point `p` with another velocity. -/
def VelocityOnly (p p' : BoundaryPoint D) : Prop := p' = { p with velocity := p'.velocity }

/-- `L'` is `L` with other element areas. -/
structure AreasOnly (L L' : LevelSet D) : Prop where
  eq : L' = { L with mesh := { L.mesh with elements := L'.mesh.elements }, area := L'.area }
  elements : List.Forall₂ (fun el el' => el' = { el with area := el'.area }) L.mesh.elements L'.mesh.elements

/-- Programs that use the library as intended: they assign sensitivities, extend the velocities of the points (changed or not) to the nodes,
and compute areas and normals after the discretisation. -/
structure Regular (P : Problem ρ D) : Prop where
  assign : ∀ L b b', P.assign L b = .ok b' → b' = { b with points := b'.points } ∧ List.Forall₂ SensOnly b.points b'.points
  extend : ∀ points dt g L points' dt' g' L', P.extend points dt g L = .ok (points', dt', g', L') →
    List.Forall₂ VelocityOnly points points' ∧ computeVelocities points' L = .ok L'
  finish : ∀ b L b' L', P.finish b L = .ok (b', L') → b' = { b with points := b'.points } ∧ List.Forall₂ NormalOnly b.points b'.points ∧
    AreasOnly L L'

/-- Programs without noise: the velocities extended are those of the optimiser. -/
def Quiet (P : Problem ρ D) : Prop :=
  ∀ points dt g L points' dt' g' L', P.extend points dt g L = .ok (points', dt', g', L') → points' = points ∧ dt' = dt

/-- A call that returns or ends the program with an error message: it never has undefined behaviour. -/
def Clean {α : Type} (r : Res α) : Prop := (∃ a, r = .ok a) ∨ r = .error .exit

/-- Programs whose way of extending the velocities is without undefined behaviour for points in the domain. -/
def Guarded (w h : Nat) (P : Problem ρ ℝ) : Prop :=
  ∀ points dt g (L : LevelSet ℝ), Reachable w h L → (∀ p ∈ points, InDomain w h p.coord) → Clean (P.extend points dt g L)

/-- Programs for which the work after the discretisation (area fractions, normal vectors) succeeds whenever the discretised values are well behaved
and satisfy `K`. -/
def Finishes (w h : Nat) (K : LevelSet ℝ → Prop) (P : Problem ρ ℝ) : Prop :=
  ∀ L b L', Reachable w h L → Boundary.Tame w h L false → K L → Boundary.discretise L false = .ok (b, L') → ∃ r, P.finish b L' = .ok r

/-- States of a running program at the top of the loop: any level set at the beginning, any solver, any contents of the uninitialised variable.
A program may go on with another level set at any time, compute area fractions, use its random number
generator and set its clock. -/
inductive Running (w h : Nat) (P : Problem ρ D) : State ρ D → Prop
  | launch {L : LevelSet D} {n : Nat} {g : ρ} {s : State ρ D} (hr : Reachable w h L) (e : launch P L n g = .ok s) : Running w h P s
  | step {s s' : State ρ D} {nlopt : Optimise D → NLoptRun D} {fuel : Nat} {dt : D} (hs : Running w h P s)
      (e : step P nlopt fuel dt s = .ok s') : Running w h P s'
  | reset {s s' : State ρ D} {L : LevelSet D} (hs : Running w h P s) (hr : Reachable w h L)
      (e : refresh P { s with levelSet := L, nReinit := 0 } = .ok s') : Running w h P s'
  | annotate {s : State ρ D} {L : LevelSet D} {t : D} {g : ρ} (hs : Running w h P s) (hA : AreasOnly s.levelSet L) :
      Running w h P { s with levelSet := L, runningTime := t, rng := g }

/-- Every interface node is in the narrow band, or has a boundary point lying on it, or takes its velocity from fixed points only. -/
def Averaged (w h : Nat) (L : LevelSet ℝ) (points : List (BoundaryPoint ℝ)) : Prop :=
  ∀ x y, x ≤ w → y ≤ h → OnInterface w h (vals L.signedDistance) (nodeNo w x y) →
    nodeNo w x y ∈ L.band ∨ (∃ p ∈ points, SitsOn w h L.mesh p x y) ∨ ∀ p ∈ points, Feeds w h L.mesh p x y → p.isFixed = true

/-- The number limited to the interval from -1 to 1. -/
noncomputable def limited (m : ℝ) : ℝ := max (-1) (min 1 m)

/-- Difference between the target and the level set at a lattice point. -/
noncomputable def gap (w : Nat) (L : LevelSet ℝ) (x y : Nat) : ℝ := vals L.target (nodeNo w x y) - vals L.signedDistance (nodeNo w x y)

/-- Squared distance of a lattice point from `c`. -/
noncomputable def sqDist (c : Coord ℝ) (x y : Nat) : ℝ := ((x : ℝ) - c.x) ^ 2 + ((y : ℝ) - c.y) ^ 2

/-- A lattice point and its four neighbours. -/
def star (x y : Nat) : List (Nat × Nat) := [(x, y), (x - 1, y), (x + 1, y), (x, y - 1), (x, y + 1)]

/-- Average of the differences at a lattice point and its neighbours, weighted with one over the squared distance from `c`. -/
noncomputable def starAverage (w : Nat) (L : LevelSet ℝ) (c : Coord ℝ) (x y : Nat) : ℝ :=
  ((star x y).map fun q => gap w L q.1 q.2 / sqDist c q.1 q.2).sum / ((star x y).map fun q => 1 / sqDist c q.1 q.2).sum

/-- The values `φ'` are `φ`, or its reinitialisation. -/
def Settled (w h : Nat) (L : LevelSet D) (φ φ' : List D) : Prop :=
  φ' = φ ∨ ∃ m F, IsGrid w h m ∧ (∀ i, flags m i = flags L.mesh i) ∧ FMM.marchDistance m φ (FMM.new m false) = .ok F ∧ φ' = F.sd

open Classical in
/-- Norm of the gradient of the values `φ` at a lattice point, for motion with velocity `v`: the upwind norm, or at corners of the domain where `φ` is
flat the difference with the diagonal neighbour times `√2`. -/
noncomputable def gradientNorm (w h : Nat) (φ : Nat → Nat → ℝ) (v : ℝ) (x y : Nat) : ℝ :=
  if FlatCorner w h φ x y then |φ x y - φ (inward w x) (inward h y)| * Real.sqrt 2
  else upwindGradient w h φ (if v < 0 then -1 else 1) x y

end Slsm.Program
