import Verif.Spec.Area
import Verif.Spec.Program

/-! # Specification vocabulary for shape matching: how much of the domain differs between two structures -/

namespace Slsm.Program

/-- Sum over the cells of a `w` by `h` grid of the difference between the areas that the structures described by `f` and by `g` occupy in the cell. -/
noncomputable def areaDifference (w h : Nat) (f g : Nat → Nat → ℝ) : ℝ :=
  ∑ y ∈ Finset.range h, ∑ x ∈ Finset.range w, |cellArea f x y - cellArea g x y|

/-- Area that the structure described by `f` occupies in the domain. -/
noncomputable def totalArea (w h : Nat) (f : Nat → Nat → ℝ) : ℝ := ∑ y ∈ Finset.range h, ∑ x ∈ Finset.range w, cellArea f x y

/-- `A` lists the areas that the structure described by `f` occupies in the cells, row by row from below. -/
structure ListsAreas (w h : Nat) (f : Nat → Nat → ℝ) (A : List ℝ) : Prop where
  length : A.length = w * h
  area : ∀ x y, x < w → y < h → A[x + y * w]? = some (cellArea f x y)

end Slsm.Program
