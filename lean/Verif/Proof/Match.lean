import Verif.Spec.Match
import Verif.Props.Area
import Verif.Proof.Demo

/-! # Areas of the target and of the structure -/

namespace Slsm.Program

open LevelSet

variable {w h : Nat}

theorem sum_grid (F : Nat → Nat → ℝ) (w h : Nat) :
    ∑ i ∈ Finset.range (w * h), F (i % w) (i / w) = ∑ y ∈ Finset.range h, ∑ x ∈ Finset.range w, F x y := by
  induction h with
  | zero => simp
  | succ h ih =>
    rw [Finset.sum_range_succ, ← ih, Nat.mul_succ, Finset.sum_range_add]
    congr 1
    refine Finset.sum_congr rfl fun x hx => ?_
    have hx' := Finset.mem_range.1 hx
    rw [show w * h + x = x + h * w by ring, idx_mod hx', idx_div hx']

/-- The areas of the elements of a mesh are those of a structure. -/
structure HasAreas (w h : Nat) (m : Mesh ℝ) (f : Nat → Nat → ℝ) : Prop where
  count : m.nElements = w * h
  area : ∀ x y, x < w → y < h → ∃ el, m.elements[x + y * w]? = some el ∧ el.area = cellArea f x y

theorem HasAreas.at {m : Mesh ℝ} {f : Nat → Nat → ℝ} (H : HasAreas w h m f) {i : Nat} (hi : i < w * h) :
    ∃ el, m.elements[i]? = some el ∧ el.area = cellArea f (i % w) (i / w) := by
  have := H.area (i % w) (i / w) (idx_mod_lt hi) (idx_div_lt hi)
  rwa [idx_eq] at this

theorem ListsAreas.at {A : List ℝ} {f : Nat → Nat → ℝ} (H : ListsAreas w h f A) {i : Nat} (hi : i < w * h) :
    A[i]? = some (cellArea f (i % w) (i / w)) := by
  have := H.area (i % w) (i / w) (idx_mod_lt hi) (idx_div_lt hi)
  rwa [idx_eq] at this

theorem hasAreas {L L' L1 : LevelSet ℝ} {b : Boundary ℝ} {isTarget : Bool} (T : Boundary.Tame w h L isTarget)
    (hN : isTarget = true ∨ Boundary.NearSeen w h L isTarget) (e : Boundary.discretise L isTarget = .ok (b, L'))
    (e1 : Area.computeAreaFractions L' b = .ok L1) : HasAreas w h L1.mesh (Boundary.level w L isTarget) := by
  refine ⟨?_, fun x y hx hy => C45_cells_partial T hN e e1 hx hy⟩
  rw [(C45_frame e1).1]
  exact (grid_after T e).nElements

theorem mismatch_sum {m : Mesh ℝ} {A : List ℝ} {f g : Nat → Nat → ℝ} (H : HasAreas w h m f) (hA : ListsAreas w h g A) :
    areaMismatch m A = .ok (areaDifference w h g f) := by
  unfold areaMismatch areaDifference
  rw [H.count, ← sum_grid (fun x y => |cellArea g x y - cellArea f x y|)]
  refine forN_eq (fun n => ∑ i ∈ Finset.range n, |cellArea g (i % w) (i / w) - cellArea f (i % w) (i / w)|) (by simp) fun i hi => ?_
  obtain ⟨el, h1, h2⟩ := H.at hi
  rw [rd_of_getElem? (hA.at hi), rd_of_getElem? h1]
  simp only [bind, Except.bind, pure, Except.pure, FP.add_real, FP.abs_real, FP.sub_real, h2]
  rw [Finset.sum_range_succ]

theorem target_list {m : Mesh ℝ} {f : Nat → Nat → ℝ} (H : HasAreas w h m f) :
    ∃ A, (forN m.nElements (List.replicate m.nElements (FP.nat 0 : ℝ)) fun i A => do
      let el ← rd m.elements i
      wr A i el.area) = .ok A ∧ ListsAreas w h f A := by
  let g : Nat → List ℝ := fun n => ((List.range (w * h)).map fun i => if i < n then cellArea f (i % w) (i / w) else 0)
  have hg : ∀ n, (g n).length = w * h := fun n => by simp [g]
  refine ⟨g (w * h), ?_, hg _, fun x y hx hy => ?_⟩
  · rw [H.count]
    refine forN_eq g ?_ fun i hi => ?_
    · apply List.ext_getElem (by simp [g])
      intro i _ _
      simp [g]
    · obtain ⟨el, h1, h2⟩ := H.at hi
      rw [rd_of_getElem? h1]
      simp only [bind, Except.bind]
      rw [wr_eq _ (by rw [hg]; exact hi)]
      refine congrArg Except.ok ?_
      apply List.ext_getElem (by rw [List.length_set, hg, hg])
      intro j hj hj'
      rw [List.getElem_set]
      simp only [g, List.getElem_map, List.getElem_range]
      by_cases hij : i = j
      · subst hij
        simp [h2]
      · rw [if_neg hij]
        by_cases h3 : j < i
        · rw [if_pos h3, if_pos (by omega)]
        · rw [if_neg h3, if_neg (by omega)]
  · have hi := idx_lt hx hy
    rw [List.getElem?_eq_getElem (by rw [hg]; exact hi)]
    simp only [g, List.getElem_map, List.getElem_range]
    rw [if_pos hi, idx_mod hx, idx_div hx]

end Slsm.Program
