import Verif.Spec.Eikonal
import Verif.Spec.History

/-! # Vocabulary for level sets with the same boundary -/

namespace Slsm

open FMM

/-- The two functions have the same values at all nodes on or next to the boundary; elsewhere their values may differ but are on the same side, and those
inside are above the machine epsilon (with which the code compares). -/
def SameBoundary (w h : Nat) (f f' : Nat → ℝ) : Prop :=
  ∀ i, i < (w + 1) * (h + 1) → (OnInterface w h f i → f' i = f i) ∧
    (¬ OnInterface w h f i → (1 / 2 ^ 52 < f i ∧ 1 / 2 ^ 52 < f' i) ∨ (f i < 0 ∧ f' i < 0))

open Classical in
/-- Signed distance from node `i` to the boundary, for nodes on or next to it: `± 1/√(1/dx² + 1/dy²)` with the least distances along the axes. -/
noncomputable def boundaryDistance (w h : Nat) (f : Nat → ℝ) (i : Nat) : ℝ :=
  if f i = 0 then 0 else
    (if f i < 0 then -1 else 1) * (1 / Real.sqrt (invSq (crossings (HAdj w h) f i) + invSq (crossings (VAdj w h) f i)))

/-- State in which the march from the values `f` begins: nodes on or next to the boundary are final and have their distance, the others have their old value. -/
def Begins (w h : Nat) (f : Nat → ℝ) (s : AS ℝ) : Prop :=
  ∀ i, i < (w + 1) * (h + 1) → (OnInterface w h f i → s.st i = .frozen ∧ s.sd i = boundaryDistance w h f i) ∧
    (¬ OnInterface w h f i → s.st i = .none ∧ s.sd i = f i)

/-- Some run of the march from the values `f` comes to a state where a node next to a final one has a discrete Eikonal equation without two solutions. -/
def Unsolvable (w h : Nat) (m : Mesh ℝ) (f : Nat → ℝ) (isVel : Bool) (ad : Nat → Prop) : Prop :=
  ∃ (s0 s1 : AS ℝ) (C : Nat → ℝ) (l : List Event) (n k : Nat), Begins w h f s0 ∧ (∀ i, i < (w + 1) * (h + 1) → C i = f i) ∧ Run m C isVel ad s0 l s1 ∧
    s1.st n ≠ .frozen ∧ Adj w h n k ∧ s1.st k = .frozen ∧ ¬ ∃ T1 T2, T1 ≠ T2 ∧ eik m s1 n T1 = 1 ∧ eik m s1 n T2 = 1

end Slsm
