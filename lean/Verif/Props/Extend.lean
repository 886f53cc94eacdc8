import Verif.Proof.ExtendMore
import Verif.Props.Motion

/-! # No division by zero and no root of a negative number (C102)

`Extends g` (`Verif/Spec/Extend.lean`): a number system that contains the real numbers and in which `x / 0` and the root of a negative number are anything at all.
`L.map g` is the level set `L` with its numbers taken in that system.  Every theorem says that the call has the same outcome there -- the same values, the same
failures -- as over the reals: the result never depends on a division by zero or on the root of a negative number. -/

namespace Slsm

/-- **C102** (there is such a system): the real numbers with one more value, "undefined", for division by zero, roots of negative numbers and everything calculated from them. -/
theorem C102_checked : Extends (some : ℝ → Option ℝ) where
  add _ _ := rfl
  sub _ _ := rfl
  mul _ _ := rfl
  neg _ := rfl
  abs _ := rfl
  nat _ := rfl
  maxVal := rfl
  div a b h := by
    show (if b = 0 then none else some (a / b)) = some (a / b)
    rw [if_neg h]
  sqrt a h := by
    show (if a < 0 then none else some (Real.sqrt a)) = some (Real.sqrt a)
    rw [if_neg (not_lt.2 h)]
  lt a b := FP.lt_real a b
  le a b := FP.le_real a b
  eq a b := FP.eq_real a b
  floor _ := rfl
  trunc _ := rfl

/-- In that system division by zero and roots of negative numbers are visible. -/
example : FP.div (some 1) (some 0 : Option ℝ) = none ∧ FP.sqrt (some (-1) : Option ℝ) = none ∧ FP.add none (some 1 : Option ℝ) = none := by
  refine ⟨?_, ?_, rfl⟩
  · show (if (0 : ℝ) = 0 then none else some (1 / 0)) = (none : Option ℝ)
    rw [if_pos rfl]
  · show (if (-1 : ℝ) < 0 then none else some (Real.sqrt (-1))) = none
    rw [if_pos (by norm_num)]

namespace LevelSet

variable {E : Type} [FP E] {g : ℝ → E}

/-- **C102** (construction): for every shape, size and parameters. -/
theorem C102_new (H : Extends g) (w h : Nat) (s t : Shape ℝ) (moveLimit : ℝ) (bandWidth : Nat) (f : Bool) :
    LevelSet.new w h (s.map g) (g moveLimit) bandWidth f = (LevelSet.new w h s moveLimit bandWidth f).map (LevelSet.map g) ∧
    LevelSet.newTarget w h (s.map g) (t.map g) (g moveLimit) bandWidth f = (LevelSet.newTarget w h s t moveLimit bandWidth f).map (LevelSet.map g) :=
  ⟨map_lsnew H w h s moveLimit bandWidth f, map_newTarget H w h s t moveLimit bandWidth f⟩

/-- **C102** (march): for every level set whatsoever, whatever its numbers are. -/
theorem C102_reinitialise (H : Extends g) (L : LevelSet ℝ) : reinitialise (L.map g) = (reinitialise L).map (LevelSet.map g) :=
  map_reinitialise H L

/-- **C102** (masks): for every level set and every region. -/
theorem C102_mask (H : Extends g) (L : LevelSet ℝ) (holes : List (Hole ℝ)) (points : List (Coord ℝ)) :
    maskHoles (holes.map (Hole.map g)) (L.map g) = (maskHoles holes L).map (LevelSet.map g) ∧
    maskPoints (points.map (Coord.map g)) (L.map g) = (maskPoints points L).map (LevelSet.map g) :=
  ⟨map_maskHoles H holes L, map_maskPoints H points L⟩

/-- **C102** (motion): for every level set and every time step. -/
theorem C102_update (H : Extends g) (L : LevelSet ℝ) (dt : ℝ) : update (g dt) (L.map g) = (update dt L).map (Prod.map id (LevelSet.map g)) :=
  map_update H dt L

/-- **C102** (velocities): for every level set and every boundary points. -/
theorem C102_velocities (H : Extends g) (L : LevelSet ℝ) (points : List (BoundaryPoint ℝ)) :
    computeVelocities (points.map (BoundaryPoint.map g)) (L.map g) = (computeVelocities points L).map (LevelSet.map g) :=
  map_computeVelocities H points L

/-- **C102** (velocities with noise): for every level set, boundary points of positive length, positive time step and temperature at least zero. -/
theorem C102_noise {ρ : Type} (H : Extends g) (normal : ρ → ℝ × ρ) (points : List (BoundaryPoint ℝ)) {dt T : ℝ} (s : ρ) (L : LevelSet ℝ)
    (hm : 0 < L.moveLimit) (hdt : 0 < dt) (hT : 0 ≤ T) (hp : ∀ p ∈ points, 0 < p.length) :
    computeVelocitiesNoise (fun s => Prod.map g id (normal s)) (points.map (BoundaryPoint.map g)) (g dt) (g T) s (L.map g) =
      (computeVelocitiesNoise normal points dt T s L).map
        (Prod.map (List.map (BoundaryPoint.map g)) (Prod.map g (Prod.map g (Prod.map id (LevelSet.map g))))) :=
  map_computeVelocitiesNoise H normal points s L hm hdt hT hp

/-- **C102** (gradients): for every level set. -/
theorem C102_gradients (H : Extends g) (L : LevelSet ℝ) : computeGradients (L.map g) = (computeGradients L).map (LevelSet.map g) :=
  map_computeGradients H L

/-- **C102** (boundary): for every level set whose mesh has the nodes it says it has. -/
theorem C102_discretise (H : Extends g) (L : LevelSet ℝ) (isTarget : Bool) (hn : L.mesh.nodes.length ≤ L.mesh.nNodes) :
    Boundary.discretise (L.map g) isTarget = (Boundary.discretise L isTarget).map (Prod.map (Boundary.map g) (LevelSet.map g)) :=
  Boundary.map_discretise H L isTarget hn

/-- **C102** (boundary of a level set in use): for every history of calls. -/
theorem C102_discretise_reachable (H : Extends g) {w h : Nat} {L : LevelSet ℝ} (hr : Reachable w h L) (isTarget : Bool) :
    Boundary.discretise (L.map g) isTarget = (Boundary.discretise L isTarget).map (Prod.map (Boundary.map g) (LevelSet.map g)) :=
  C102_discretise H L isTarget (by rw [hr.core.grid.nodes_length, hr.core.grid.nNodes])

/-- **C102** (perimeter and area fractions): for every boundary and level set. -/
theorem C102_measures (H : Extends g) (L : LevelSet ℝ) (b : Boundary ℝ) (p : BoundaryPoint ℝ) :
    Boundary.computePerimeter (b.map g) (p.map g) = (Boundary.computePerimeter b p).map g ∧
    Area.computeAreaFractions (L.map g) (b.map g) = (Area.computeAreaFractions L b).map (LevelSet.map g) :=
  ⟨Boundary.map_computePerimeter H b p, Area.map_computeAreaFractions H L b⟩

/-- **C102** (sensitivities): for every callback, step and point of non-zero length; the correction for noise likewise. -/
theorem C102_sensitivity (H : Extends g) {δ T : ℝ} {p : BoundaryPoint ℝ} {b : Boundary ℝ} {c : BoundaryPoint ℝ → Res ℝ} {c' : BoundaryPoint E → Res E}
    (hc : ∀ p, c' (p.map g) = (c p).map g) (hδ : δ ≠ 0) (hp : p.length ≠ 0) (hb : ∀ p ∈ b.points, p.length ≠ 0) :
    Sensitivity.computeSensitivity (g δ) (p.map g) c' = (Sensitivity.computeSensitivity δ p c).map (Prod.map g (BoundaryPoint.map g)) ∧
    Sensitivity.itoCorrection (g δ) (b.map g) (g T) = (Sensitivity.itoCorrection δ b T).map (Boundary.map g) :=
  ⟨Sensitivity.map_computeSensitivity H p hc hδ hp, Sensitivity.map_itoCorrection H b hδ hb⟩

/-- **C102** (shape matching program): the mismatch at a point, for every level set. -/
theorem C102_mismatch (H : Extends g) (L : LevelSet ℝ) (c : Coord ℝ) :
    Program.mismatchSensitivity (L.map g) (c.map g) = (Program.mismatchSensitivity L c).map g :=
  Program.map_mismatchSensitivity H L c

/-- A run in which a "not a number" would show: the plane through a 5 by 5 mesh is marched, its gradients are computed and it is moved.  In the system with the
value "undefined" the three calls give the same numbers as over the reals -- none of them undefined. -/
example : ∃ L : LevelSet ℝ, Reachable 5 5 L ∧ (∀ x y, x ≤ 5 → y ≤ 5 → field 5 L x y = 1 * x + 0 * y + -(3 / 2)) ∧
    reinitialise (L.map some) = (reinitialise L).map (LevelSet.map some) ∧
    computeGradients (L.map some) = (computeGradients L).map (LevelSet.map some) ∧
    Boundary.discretise (L.map some) false = (Boundary.discretise L false).map (Prod.map (Boundary.map some) (LevelSet.map some)) := by
  obtain ⟨L, hr, hL, -⟩ := example_plane 1 0 (-(3 / 2))
  exact ⟨L, hr, hL, C102_reinitialise C102_checked L, C102_gradients C102_checked L, C102_discretise_reachable C102_checked hr false⟩

/-- The conditions on noise are needed: below zero temperature the noise is undefined. -/
example : LevelSet.thermalStep (some (1 / 2) : Option ℝ) (some 1) (some (-1)) = (some 1, some 1) ∧
    FP.sqrt (FP.mul (FP.nat 2) (some (-1) : Option ℝ)) = none := by
  have e : FP.sqrt (FP.mul (FP.nat 2) (some (-1) : Option ℝ)) = none := by
    show (if ((2 : Nat) : ℝ) * (-1) < 0 then none else some (Real.sqrt _)) = none
    rw [if_pos (by norm_num)]
  refine ⟨?_, e⟩
  unfold LevelSet.thermalStep
  dsimp only
  rw [e]
  have : ∀ x y : Option ℝ, FP.lt x (FP.mul none y) = false := fun x y => by cases x <;> rfl
  rw [this]
  show (some 1, some ((1 : Nat) : ℝ)) = _
  rw [Nat.cast_one]

end LevelSet

end Slsm
