import Verif.Spec.FMM
import Verif.Spec.Interface
import Verif.Lib.Real

/-!
# Distances to the interface, and the upwind discretisation of `|∇T| = 1`
-/

namespace Slsm

/-! ### interface nodes -/

/-- Fractions of the grid spacing, measured from node `i`, at which the linear interpolant of `f` vanishes on an edge to a
neighbour (in the sense of `adj`). -/
def crossings (adj : Nat → Nat → Prop) (f : Nat → ℝ) (i : Nat) : Set ℝ :=
  {d | ∃ n, adj i n ∧ f i * f n < 0 ∧ d = f i / (f i - f n)}

open Classical in
/-- `1/d²` for the least element `d` of `S`, and `0` if there is none. -/
noncomputable def invSq (S : Set ℝ) : ℝ := if S.Nonempty then 1 / sInf S ^ 2 else 0

/-- `x` and `y` are on the same side: both positive, both negative or both zero. -/
def SameSide (x y : ℝ) : Prop := (0 < x ∧ 0 < y) ∨ (x < 0 ∧ y < 0) ∨ (x = 0 ∧ y = 0)

/-! ### the node update -/

/-- What one direction offers: the value of the nearest node and of the one behind it, if final. -/
structure Side where
  first : Option ℝ
  second : Option ℝ

/-- Value of node `k`, if it exists and is final. (Values from the largest double upwards count as missing; over the doubles
this excludes only that number and infinities.) -/
noncomputable def finalValue (m : Mesh ℝ) (s : AS ℝ) (k : Nat) : Option ℝ :=
  if k ≠ m.nNodes ∧ s.st k = .frozen ∧ |s.sd k| < FP.maxVal then some (s.sd k) else none

/-- Direction `j` of node `n`. -/
noncomputable def sideOf (m : Mesh ℝ) (s : AS ℝ) (n j : Nat) : Side :=
  ⟨finalValue m s (nb m n j), finalValue m s (nb m (nb m n j) j)⟩

/-- The second value of a direction can be used if it is not larger in magnitude than the first. -/
noncomputable def Side.usable (d : Side) (v : ℝ) : Option ℝ :=
  match d.second with
  | some v2 => if |v2| ≤ |v| then some v2 else none
  | none => none

/-- Upwind values of one axis: the first value and, for second order, the value behind it. -/
abbrev Upwind := Option (ℝ × Option ℝ)

/-- Only this direction. -/
noncomputable def Side.only (d : Side) : Upwind := d.first.map fun v => (v, d.usable v)

/-- Upwind values as intended: the direction whose first value has the smaller magnitude (`l` in case of a tie). -/
noncomputable def upwind (l r : Side) : Upwind :=
  match l.only, r.only with
  | some a, some b => if |b.1| < |a.1| then some b else some a
  | some a, none => some a
  | none, b => b

/-- Upwind values as the code computes them: if `r` wins but has no usable second value, the second value of `l` is kept. -/
noncomputable def upwindCode (l r : Side) : Upwind :=
  match l.only, r.only with
  | some a, some b => if |b.1| < |a.1| then some (b.1, b.2.or a.2) else some a
  | some a, none => some a
  | none, b => b

/-- The code's upwind values of axis `i` at node `n` (`0` horizontal, `1` vertical). -/
noncomputable def axisCode (m : Mesh ℝ) (s : AS ℝ) (n i : Nat) : Upwind :=
  upwindCode (sideOf m s n (2 * i)) (sideOf m s n (2 * i + 1))

/-- The intended upwind values of axis `i` at node `n`. -/
noncomputable def axisGood (m : Mesh ℝ) (s : AS ℝ) (n i : Nat) : Upwind :=
  upwind (sideOf m s n (2 * i)) (sideOf m s n (2 * i + 1))

/-- Axis `i` of node `n` uses a second value from the other side, more than four times the first in magnitude. -/
def StaleAt (m : Mesh ℝ) (s : AS ℝ) (n i : Nat) : Prop :=
  ∃ d1 d2, axisGood m s n i = some (d1, none) ∧ axisCode m s n i = some (d1, some d2) ∧ 4 * |d1| < |d2|

/-- Squared upwind difference along one axis: first order `(T-d₁)²`, second order `((3T - 4d₁ + d₂)/2)²`. -/
noncomputable def diffSq (T : ℝ) : Upwind → ℝ
  | none => 0
  | some (d1, none) => (T - d1) ^ 2
  | some (d1, some d2) => ((3 * T - 4 * d1 + d2) / 2) ^ 2

/-- Left-hand side of the discrete Eikonal equation `|∇T|² = 1` at node `n`. -/
noncomputable def eik (m : Mesh ℝ) (s : AS ℝ) (n : Nat) (T : ℝ) : ℝ :=
  diffSq T (axisCode m s n 0) + diffSq T (axisCode m s n 1)

end Slsm
