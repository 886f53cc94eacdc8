import Verif.Spec.LevelSet

/-! # Histories of calls on one level set object -/

namespace Slsm

variable {D : Type} [FP D]

namespace LevelSet

/-- Mask, edge, band and mine flags of a node. -/
def flags (m : Mesh D) (i : Nat) : Option (Bool × Bool × Bool × Bool) :=
  (m.nodes[i]?).map fun nd => (nd.isMasked, nd.isDomain, nd.isActive, nd.isMine)

/-- One completed call on a level set object, or one piece of code using its public data: `assign` stands for user code
writing the public vectors (keeping their length), `annotate` for code that writes into the mesh without touching the grid
and the flags (discretisation of the boundary and area fractions: `Verif/Props/Boundary.lean`). -/
inductive Call (w h : Nat) : LevelSet D → LevelSet D → Prop
  | maskHoles {L L' : LevelSet D} (holes : List (Hole D)) (e : maskHoles holes L = .ok L') : Call w h L L'
  | maskPoints {L L' : LevelSet D} (points : List (Coord D)) (e : maskPoints points L = .ok L') : Call w h L L'
  | reinitialise {L L' : LevelSet D} (e : reinitialise L = .ok L') : Call w h L L'
  | update {L L' : LevelSet D} (dt : D) (b : Bool) (e : update dt L = .ok (b, L')) : Call w h L L'
  | velocities {L L' : LevelSet D} (points : List (BoundaryPoint D)) (e : computeVelocities points L = .ok L') : Call w h L L'
  | noisyVelocities {ρ : Type} {L L' : LevelSet D} {normal : ρ → D × ρ} {points points' : List (BoundaryPoint D)} {dt dt' T s : D}
      {g g' : ρ} (e : computeVelocitiesNoise normal points dt T g L = .ok (points', dt', s, g', L')) : Call w h L L'
  | gradients {L L' : LevelSet D} (e : computeGradients L = .ok L') : Call w h L L'
  | assign {L : LevelSet D} (sd vel grad target : List D) (h1 : sd.length = L.mesh.nNodes) (h2 : vel.length = L.mesh.nNodes)
      (h3 : grad.length = L.mesh.nNodes) :
      Call w h L { L with signedDistance := sd, velocity := vel, gradient := grad, target := target }
  | annotate {L : LevelSet D} (m : Mesh D) (area : D) (hg : IsGrid w h m) (hf : ∀ i, flags m i = flags L.mesh i) :
      Call w h L { L with mesh := m, area := area }

/-- Any number of calls, in any order. -/
inductive Calls (w h : Nat) : LevelSet D → LevelSet D → Prop
  | refl {L : LevelSet D} : Calls w h L L
  | snoc {L L1 L2 : LevelSet D} (hs : Calls w h L L1) (hc : Call w h L1 L2) : Calls w h L L2

/-- Level sets a program can have in its hands: the result of a constructor followed by any calls.  (Band widths are
`unsigned int`s; the number of nodes is below 2³¹.) -/
inductive Reachable (w h : Nat) : LevelSet D → Prop
  | new {L : LevelSet D} {s : Shape D} {moveLimit : D} {bandWidth : Nat} {f : Bool} (hw : 1 ≤ w) (hh : 1 ≤ h)
      (hN : (w + 1) * (h + 1) < 2 ^ 31) (hb : bandWidth < 2 ^ 32) (e : new w h s moveLimit bandWidth f = .ok L) : Reachable w h L
  | newTarget {L : LevelSet D} {s t : Shape D} {moveLimit : D} {bandWidth : Nat} {f : Bool} (hw : 1 ≤ w) (hh : 1 ≤ h)
      (hN : (w + 1) * (h + 1) < 2 ^ 31) (hb : bandWidth < 2 ^ 32) (e : newTarget w h s t moveLimit bandWidth f = .ok L) :
      Reachable w h L
  | call {L L' : LevelSet D} (hr : Reachable w h L) (hc : Call w h L L') : Reachable w h L'

end LevelSet

end Slsm
