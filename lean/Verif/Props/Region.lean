import Verif.Proof.Region
import Verif.Props.Area

/-! # Property C45: area fractions are areas of sets of points -/

namespace Slsm

open LevelSet Boundary Area MeasureTheory

section
variable {w h : Nat} {L L' L1 : LevelSet ℝ} {b : Boundary ℝ} {isTarget : Bool}

/-- **C45** (measure; partial: not for a saddle whose value at the centre is zero, see `C45_saddle_tie`): the area fraction of a cell is the Lebesgue measure of the part of the
cell that belongs to the structure. -/
theorem C45_measure_partial (T : Tame w h L isTarget) (hN : isTarget = true ∨ NearSeen w h L isTarget) (e : discretise L isTarget = .ok (b, L'))
    (e1 : computeAreaFractions L' b = .ok L1) {x y : Nat} (hx : x < w) (hy : y < h)
    (ht : Saddle (level w L isTarget) x y → centreValue (level w L isTarget) x y ≠ 0) :
    ∃ el, L1.mesh.elements[cellNo w x y]? = some el ∧ 0 ≤ el.area ∧ volume (structureIn (level w L isTarget) x y) = ENNReal.ofReal el.area := by
  obtain ⟨el, h1, h2⟩ := C45_cells_partial T hN e e1 hx hy
  refine ⟨el, h1, ?_, ?_⟩
  · rw [h2]; exact (C45_bounds _ _ _).1.1
  · rw [h2, Region.volume_in ht]

/-- **C45** (total measure; partial as above): the returned area is the Lebesgue measure of the structure. -/
theorem C45_total_measure_partial (T : Tame w h L isTarget) (hN : isTarget = true ∨ NearSeen w h L isTarget) (e : discretise L isTarget = .ok (b, L'))
    (e1 : computeAreaFractions L' b = .ok L1) (ht : NoTie w h (level w L isTarget)) :
    0 ≤ L1.area ∧ volume (structureSet w h (level w L isTarget)) = ENNReal.ofReal L1.area := by
  refine ⟨(C45_total_bounds T hN e e1).1, ?_⟩
  rw [C45_total_area T hN e e1, Region.volume_set ht]

/-- A single cell of which the lower two thirds belong to the structure: hypotheses and values. -/
example : ∃ (L L' L1 : LevelSet ℝ) (b : Boundary ℝ), Tame 1 1 L true ∧ discretise L true = .ok (b, L') ∧ computeAreaFractions L' b = .ok L1 ∧
    NoTie 1 1 (level 1 L true) ∧ volume (structureSet 1 1 (level 1 L true)) = ENNReal.ofReal (2 / 3) := by
  obtain ⟨L, L', L1, b, T, e, e1, h1, -, h2⟩ := half_full
  have ht : NoTie 1 1 (level 1 L true) := fun x y hx hy hs => absurd hs (h2 x y hx hy)
  exact ⟨L, L', L1, b, T, e, e1, ht, by rw [(C45_total_measure_partial T (.inl rfl) e e1 ht).2, h1]⟩

end

end Slsm
