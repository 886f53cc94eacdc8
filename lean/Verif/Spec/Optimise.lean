import Verif.Model.Optimise
import Verif.Lib.Real
import Mathlib.Algebra.BigOperators.Fin

/-! # Specification vocabulary for the optimiser -/

namespace Slsm.Optimise

/-- Normal displacement proposed for a point by the multipliers `lambda`: `Σ λ_k s_k`, with `s_k` the sensitivity of function `k` (0 is the
objective, `k ≥ 1` the constraints) at the point. -/
noncomputable def proposed (lambda : List ℝ) (p : BoundaryPoint ℝ) : ℝ :=
  ((lambda.zip p.sensitivities).map fun x => x.1 * x.2).sum

/-- Points on the edge of the domain may not move out of it: their displacement is cut off at the (negative) limit. -/
noncomputable def capped (p : BoundaryPoint ℝ) (d : ℝ) : ℝ := if p.isDomain then max d p.negativeLimit else d

/-- Change of function `k` that the sensitivities predict for the multipliers `lambda`: every point that is not fixed moves by its (cut off)
displacement, and contributes its sensitivity times its length. -/
noncomputable def predicted (pts : List (BoundaryPoint ℝ)) (lambda : List ℝ) (k : Nat) : ℝ :=
  (pts.map fun p => if p.isFixed then 0 else capped p (proposed lambda p) * p.sensitivities.getD k 0 * p.length).sum

/-- The multiplier `x` of function `k` on its own moves no point by more than `limit`.  (The first condition only matters if all
sensitivities are below the smallest normal double `2⁻¹⁰²²`.) -/
def Allowed (pts : List (BoundaryPoint ℝ)) (limit : ℝ) (k : Nat) (x : ℝ) : Prop :=
  |x| / 2 ^ 1022 ≤ limit ∧ ∀ p ∈ pts, p.isFixed = false → |x * p.sensitivities.getD k 0| ≤ limit

/-- The multipliers `lambda` of the scaled problem, in natural units. -/
noncomputable def natural (s : Optimise ℝ) (lambda : List ℝ) : List ℝ :=
  (List.range (s.nConstraints + 1)).map fun k => lambda.getD k 0 * s.scaleFactors.getD k 0

/-- Some movable point of positive length responds to function `k`, and no length is negative. -/
def Responds (pts : List (BoundaryPoint ℝ)) (k : Nat) : Prop :=
  (∀ p ∈ pts, 0 ≤ p.length) ∧ ∃ p ∈ pts, p.isFixed = false ∧ p.sensitivities.getD k 0 ≠ 0 ∧ 0 < p.length

/-- Arguments of the constructor that a user should pass: a limit between 0 and 1, at least one point, a sensitivity at every movable point and
a multiplier for the objective and each constraint, and fewer than 31 constraints; each function has an effect somewhere. -/
structure ValidInput (pts : List (BoundaryPoint ℝ)) (distances lambdas : List ℝ) (limit : ℝ) (equality : List Bool) : Prop where
  limit : 0 < limit ∧ limit < 1
  points : pts ≠ []
  lambdas : lambdas.length = distances.length + 1
  equality : equality = [] ∨ equality.length = distances.length
  few : distances.length < 31
  sizes : ∀ p ∈ pts, p.isFixed = false → distances.length < p.sensitivities.length
  responds : ∀ k, k ≤ distances.length → Responds pts k

/-- Objects a program can hold: made by the constructor; after a call of `solve`; after the program has changed the points, multipliers or
time step to which the object refers. -/
inductive Reached : Optimise ℝ → Prop where
  | made {pts distances lambdas dt limit isMax equality s} (h : Optimise.new pts distances lambdas dt limit isMax equality = .ok s) : Reached s
  | solved {nlopt fuel s r} (h : Reached s) (e : solve nlopt fuel s = .ok r) : Reached r.1
  | changed {s} (h : Reached s) (pts : List (BoundaryPoint ℝ)) (lambdas : List ℝ) (dt : ℝ) :
      Reached { s with points := pts, lambdas := lambdas, timeStep := dt }

end Slsm.Optimise
