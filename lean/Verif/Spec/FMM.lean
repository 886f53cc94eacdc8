import Verif.Model.FMM
import Verif.Spec.Grid
import Verif.Lib.Order
import Mathlib.Logic.Function.Basic

/-!
# The fast marching method as an abstract machine

The state is the status, signed distance and velocity of every node.  Elementary events: a node next to a final node
enters the trial band with a first estimate, a non-final node is re-estimated, a trial node of least absolute value
becomes final.  The estimate (`updateV`) and the extension velocity (`velV`) are pure functions of the state.  There is no
queue in this machine.
-/

namespace Slsm

variable {D : Type} [FP D]

/-- the neighbour of node `i` in direction `j` -/
def nb (m : Mesh D) (i j : Nat) : Nat :=
  match m.nodes[i]? with
  | some nd => nd.neighbours.getD j 0
  | none => 0

/-- status, signed distance and velocity of every node -/
structure AS (D : Type) where
  st : Nat → FMMStatus
  sd : Nat → D
  vel : Nat → D

namespace FMM

/-! ### value-level versions of `updateNode` and `finaliseVelocity` -/

/-- one direction of the stencil -/
def stencilV (m : Mesh D) (s : AS D) (n i j : Nat) (d : D × D) : D × D :=
  if nb m n (2 * i + j) ≠ m.nNodes ∧ s.st (nb m n (2 * i + j)) = .frozen ∧
      FP.lt (FP.abs (s.sd (nb m n (2 * i + j)))) (FP.abs d.1) = true then
    (s.sd (nb m n (2 * i + j)),
      if nb m (nb m n (2 * i + j)) (2 * i + j) ≠ m.nNodes ∧
          s.st (nb m (nb m n (2 * i + j)) (2 * i + j)) = .frozen ∧
          FP.le (FP.abs (s.sd (nb m (nb m n (2 * i + j)) (2 * i + j)))) (FP.abs (s.sd (nb m n (2 * i + j)))) = true
      then s.sd (nb m (nb m n (2 * i + j)) (2 * i + j)) else d.2)
  else d

/-- `(dist1, dist2)` for dimension `i` -/
def dists (m : Mesh D) (s : AS D) (n i : Nat) : D × D := stencilV m s n i 1 (stencilV m s n i 0 (FP.maxVal, FP.maxVal))

/-- the quadratic coefficients -/
def coeffs (m : Mesh D) (s : AS D) (n : Nat) : D × D × D :=
  accum (dists m s n 1).1 (dists m s n 1).2
    (accum (dists m s n 0).1 (dists m s n 0).2 (FP.nat 0, FP.nat 0, FP.nat 0))

/-- the root selected by `solveQuadratic` -/
def rootV (cp sd a b c : D) : D :=
  if FP.lt (FP.nat 0) (FP.sub (FP.mul b b) (FP.mul (FP.mul (FP.nat 4) a) c)) then
    if FP.lt doubleEpsilon cp then
      FP.div (FP.add (FP.neg b) (FP.sqrt (FP.sub (FP.mul b b) (FP.mul (FP.mul (FP.nat 4) a) c)))) (FP.mul (FP.nat 2) a)
    else
      FP.div (FP.sub (FP.neg b) (FP.sqrt (FP.sub (FP.mul b b) (FP.mul (FP.mul (FP.nat 4) a) c)))) (FP.mul (FP.nat 2) a)
  else sd

/-- value of `updateNode` -/
def updateV (m : Mesh D) (cp : Nat → D) (s : AS D) (n : Nat) : D :=
  rootV (cp n) (s.sd n) (coeffs m s n).1 (coeffs m s n).2.1 (FP.sub (coeffs m s n).2.2 (FP.nat 1))

/-- one neighbour in `finaliseVelocity`, for the state of its dimension -/
def frontV (m : Mesh D) (s : AS D) (n i : Nat) (t : Bool × D × D × D) : Bool × D × D × D :=
  if nb m n i ≠ m.nNodes ∧ s.st (nb m n i) = .frozen ∧ (!t.1 || FP.lt (FP.abs (s.sd (nb m n i))) t.2.1) = true then
    (true, FP.abs (s.sd (nb m n i)), FP.abs (FP.sub (s.sd n) (s.sd (nb m n i))), s.vel (nb m n i))
  else t

/-- result of the two neighbours of dimension `k` -/
def fronts (m : Mesh D) (s : AS D) (n k : Nat) : Bool × D × D × D :=
  frontV m s n (2 * k + 1) (frontV m s n (2 * k) (false, FP.nat 0, FP.nat 0, FP.nat 0))

/-- the denominator of the extension velocity -/
def velDen (m : Mesh D) (s : AS D) (n : Nat) : D :=
  FP.add (FP.add (FP.nat 0) (fronts m s n 0).2.2.1) (fronts m s n 1).2.2.1

/-- the extension velocity -/
def velV (m : Mesh D) (s : AS D) (n : Nat) : D :=
  FP.div (FP.add (FP.add (FP.nat 0) (FP.mul (fronts m s n 0).2.2.1 (fronts m s n 0).2.2.2))
    (FP.mul (fronts m s n 1).2.2.1 (fronts m s n 1).2.2.2)) (velDen m s n)

/-! ### the machine -/

/-- What can happen to a node. -/
inductive Event where
  /-- node `n` enters the trial band with its first estimate -/
  | discover (n : Nat)
  /-- node `n`, not yet final, is re-estimated -/
  | estimate (n : Nat)
  /-- node `n` becomes final -/
  | freeze (n : Nat)
  deriving DecidableEq

/-- One event.  `cp` is the copy of the input level set, `isVel` says whether velocities are extended, `adm n` whether node
`n` may enter the trial band. -/
inductive Micro (m : Mesh D) (cp : Nat → D) (isVel : Bool) (adm : Nat → Prop) : AS D → Event → AS D → Prop
  /-- an unvisited, admissible node with a final neighbour is estimated and enters the trial band -/
  | discover (s : AS D) (n : Nat) (hn : n < m.nNodes) (hs : s.st n = .none) (ha : adm n)
      (hf : ∃ j, j < 4 ∧ nb m n j ≠ m.nNodes ∧ s.st (nb m n j) = .frozen) :
      Micro m cp isVel adm s (.discover n)
        { s with st := Function.update s.st n .trial, sd := Function.update s.sd n (updateV m cp s n) }
  /-- a node that is not final is re-estimated -/
  | estimate (s : AS D) (n : Nat) (hn : n < m.nNodes) (hs : s.st n ≠ .frozen) :
      Micro m cp isVel adm s (.estimate n) { s with sd := Function.update s.sd n (updateV m cp s n) }
  /-- a trial node with smallest absolute value becomes final, after all neighbours of the nodes that are final with another absolute value have entered the trial band;
  in velocity mode its velocity is set -/
  | freeze (s : AS D) (n : Nat) (hn : n < m.nNodes) (hs : s.st n = .trial)
      (hmin : TotalCmp D → ∀ i, i < m.nNodes → s.st i = .trial → FP.lt (FP.abs (s.sd i)) (FP.abs (s.sd n)) = false)
      (hden : isVel = true → FP.eq (velDen m { s with st := Function.update s.st n .frozen } n) (FP.nat 0) = false)
      (hband : TotalCmp D → ∀ i j, i < m.nNodes → j < 4 → s.st i = .none → adm i → nb m i j ≠ m.nNodes → s.st (nb m i j) = .frozen →
        FP.eq (FP.abs (s.sd (nb m i j))) (FP.abs (s.sd n)) = true) :
      Micro m cp isVel adm s (.freeze n)
        { s with
          st := Function.update s.st n .frozen
          vel := if isVel then
              Function.update s.vel n (velV m { s with st := Function.update s.st n .frozen } n)
            else s.vel }

/-- A run of the machine: the events in order of occurrence. -/
inductive Run (m : Mesh D) (cp : Nat → D) (isVel : Bool) (adm : Nat → Prop) : AS D → List Event → AS D → Prop
  | nil (s : AS D) : Run m cp isVel adm s [] s
  | snoc {s s' s'' : AS D} {l : List Event} {e : Event} (r : Run m cp isVel adm s l s')
      (h : Micro m cp isVel adm s' e s'') : Run m cp isVel adm s (l ++ [e]) s''

/-- Some run leads from the first state to the second. -/
def Micros (m : Mesh D) (cp : Nat → D) (isVel : Bool) (adm : Nat → Prop) (s s' : AS D) : Prop :=
  ∃ l, Run m cp isVel adm s l s'

/-- Some run leads to a state in which a trial node with smallest absolute value is to become final, but the weights of its final neighbours add up to zero. -/
def Stuck (m : Mesh D) (cp : Nat → D) (isVel : Bool) (adm : Nat → Prop) (s0 : AS D) : Prop :=
  isVel = true ∧ ∃ s n, Micros m cp isVel adm s0 s ∧ n < m.nNodes ∧ s.st n = .trial ∧
    (TotalCmp D → ∀ i, i < m.nNodes → s.st i = .trial → FP.lt (FP.abs (s.sd i)) (FP.abs (s.sd n)) = false) ∧
    (TotalCmp D → ∀ i j, i < m.nNodes → j < 4 → s.st i = .none → adm i → nb m i j ≠ m.nNodes → s.st (nb m i j) = .frozen →
        FP.eq (FP.abs (s.sd (nb m i j))) (FP.abs (s.sd n)) = true) ∧
    FP.eq (velDen m { s with st := Function.update s.st n .frozen } n) (FP.nat 0) = true

end FMM

end Slsm
