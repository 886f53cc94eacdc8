import Verif.Spec.Grid

/-!
# Interface of a level set on the grid

A level set assigns a number to every node.  Node `i` is *on the interface* if its value is zero or a lattice neighbour has a
value of strictly opposite sign (the product is negative).
-/

namespace Slsm

/-- `n` is the left or right lattice neighbour of `i`. -/
def HAdj (w h i n : Nat) : Prop :=
  ∃ x x' y, x ≤ w ∧ x' ≤ w ∧ y ≤ h ∧ i = nodeNo w x y ∧ n = nodeNo w x' y ∧ (x' = x + 1 ∨ x = x' + 1)

/-- `n` is the lower or upper lattice neighbour of `i`. -/
def VAdj (w h i n : Nat) : Prop :=
  ∃ x y y', x ≤ w ∧ y ≤ h ∧ y' ≤ h ∧ i = nodeNo w x y ∧ n = nodeNo w x y' ∧ (y' = y + 1 ∨ y = y' + 1)

/-- `n` is one of the (up to four) lattice neighbours of `i`. -/
def Adj (w h i n : Nat) : Prop := HAdj w h i n ∨ VAdj w h i n

variable {D : Type} [FP D]

/-- The values at `i` and `n` have strictly opposite signs. -/
def Opposite (f : Nat → D) (i n : Nat) : Prop := FP.lt (FP.mul (f i) (f n)) (FP.nat 0) = true

/-- Node `i` is zero or next to a sign change. -/
def OnInterface (w h : Nat) (f : Nat → D) (i : Nat) : Prop :=
  FP.eq (f i) (FP.nat 0) = true ∨ ∃ n, Adj w h i n ∧ Opposite f i n

/-- The level set has an interface. -/
def HasInterface (w h : Nat) (f : Nat → D) : Prop := ∃ i, i < (w + 1) * (h + 1) ∧ OnInterface w h f i

/-- The level set stored in a list (one entry per node; used only for indices within the list). -/
def vals (l : List D) (i : Nat) : D := l.getD i (FP.nat 0)

/-- Node `i` is active (in the narrow band and not fixed). -/
def Active (m : Mesh D) (i : Nat) : Prop := ∃ nd, m.nodes[i]? = some nd ∧ nd.isActive = true

/-- Nodes that information from the interface can reach: nodes satisfying `onI`, and nodes satisfying `act` next to such
a node. -/
inductive Fed (w h : Nat) (onI act : Nat → Prop) : Nat → Prop
  | base {i : Nat} (hi : onI i) : Fed w h onI act i
  | step {i n : Nat} (hi : Fed w h onI act i) (ha : Adj w h i n) (hn : act n) : Fed w h onI act n

end Slsm
