import Verif.Proof.Perimeter
import Verif.Props.Region

/-! # Property C87: the discretised boundary is the frontier of the structure -/

namespace Slsm

open LevelSet Boundary Area MeasureTheory Measure Front Region

section
variable {w h : Nat} {L L' : LevelSet ℝ} {b : Boundary ℝ} {isTarget : Bool}

/-- **C87** (frontier; partial: no lattice point on the contour, no saddle whose value at the centre is zero): the points on the segments of the boundary
are exactly the points of the domain that are limits of the structure and limits of the rest of the domain. -/
theorem C87_frontier_partial (T : Tame w h L isTarget) (G : Generic w h (level w L isTarget)) (ht : NoTie w h (level w L isTarget))
    (e : discretise L isTarget = .ok (b, L')) :
    closure (structureSet w h (level w L isTarget)) ∩ closure (domainSet w h \ structureSet w h (level w L isTarget)) = boundarySet b := by
  obtain ⟨b', L2, e', E⟩ := tame_exact T
  rw [e] at e'
  cases e'
  ext z
  rw [Set.mem_inter_iff, frontier_iff T.grid.w_pos T.grid.h_pos G ht, boundary_cuts E T.vis G]
  constructor
  · rintro ⟨x, y, hx, hy, hz, h0⟩
    exact ⟨x, y, hx, hy, hz, by rw [way_pos G ht hx hy]; exact h0⟩
  · rintro ⟨x, y, hx, hy, hz, h0⟩
    exact ⟨x, y, hx, hy, hz, by rw [way_pos G ht hx hy] at h0; exact h0⟩

/-- **C87** (frontier in the open domain; partial as above): away from the edge of the domain, the boundary is the topological frontier of the structure. -/
theorem C87_interior_partial (T : Tame w h L isTarget) (G : Generic w h (level w L isTarget)) (ht : NoTie w h (level w L isTarget))
    (e : discretise L isTarget = .ok (b, L')) :
    frontier (structureSet w h (level w L isTarget)) ∩ interior (domainSet w h) = boundarySet b ∩ interior (domainSet w h) := by
  rw [← C87_frontier_partial T G ht e]
  ext z
  constructor
  · rintro ⟨h1, h2⟩
    rw [frontier_eq_closure_inter_closure] at h1
    refine ⟨⟨h1.1, ?_⟩, h2⟩
    refine closure_mono ?_ (isOpen_interior.inter_closure ⟨h2, h1.2⟩)
    rintro z ⟨h3, h4⟩
    exact ⟨interior_subset h3, h4⟩
  · rintro ⟨⟨h1, h3⟩, h2⟩
    refine ⟨?_, h2⟩
    rw [frontier_eq_closure_inter_closure]
    exact ⟨h1, closure_mono (fun z hz => hz.2) h3⟩

/-- **C87** (lattice points; partial as above): lattice points inside belong to the structure, lattice points outside do not, and none is on the boundary. -/
theorem C87_nodes_partial (T : Tame w h L isTarget) (G : Generic w h (level w L isTarget)) (ht : NoTie w h (level w L isTarget))
    (e : discretise L isTarget = .ok (b, L')) {i j : Nat} (hi : i ≤ w) (hj : j ≤ h) :
    (((i : ℝ), (j : ℝ)) ∈ structureSet w h (level w L isTarget) ↔ nodeSide (level w L isTarget i j) = .inside) ∧ ((i : ℝ), (j : ℝ)) ∉ boundarySet b := by
  have hwp := T.grid.w_pos
  have hhp := T.grid.h_pos
  obtain ⟨x, y, hx, hy, hz, hs⟩ := node_sign hwp hhp G (posC (level w L isTarget)) hi hj
  have hg := generic_cell G hx hy
  refine ⟨⟨?_, fun hin => ?_⟩, fun hb => ?_⟩
  · rintro ⟨x', y', hx', hy', hz'⟩
    by_contra hc
    have ho : nodeSide (level w L isTarget i j) = .outside := by
      rcases nodeSide_cases (level w L isTarget i j) with h | h | h
      · exact absurd h hc
      · exact h
      · exact absurd h (G i j hi hj)
    have h1 := hs.2.2 (neg_of_outside ho)
    have h2 := (in_sig (generic_cell G hx' hy') (ht x' y' hx' hy')).1 _ hz'
    have h3 := (agree (pos := posC (level w L isTarget)) hg (generic_cell G hx' hy') hz (in_square hz')).2.1 h1
    linarith
  · by_contra hc
    have h1 := hs.1.2 (pos_of_inside hin)
    have h2 := (in_sig hg (ht x y hx hy)).2 _ hz fun h => hc ⟨x, y, hx, hy, h⟩
    linarith
  · rw [← C87_frontier_partial T G ht e] at hb
    obtain ⟨x', y', hx', hy', hz', h0⟩ := (frontier_iff hwp hhp G ht).1 hb
    have h3 := agree (pos := posC (level w L isTarget)) hg (generic_cell G hx' hy') hz hz'
    rcases side_sign (G i j hi hj) with hp | hn
    · have := h3.1.1 (hs.1.2 hp); linarith
    · have := h3.2.1 (hs.2.2 hn); linarith

/-- **C87** (separation of lattice points): no connected set of the domain leads from a lattice point inside to a lattice point outside without meeting the
boundary. Holds also with saddles of any kind. -/
theorem C87_crossing (T : Tame w h L isTarget) (G : Generic w h (level w L isTarget)) (e : discretise L isTarget = .ok (b, L'))
    {A : Set (ℝ × ℝ)} (hA : IsPreconnected A) (hd : A ⊆ domainSet w h) {i j i' j' : Nat} (hi : i ≤ w) (hj : j ≤ h) (hi' : i' ≤ w) (hj' : j' ≤ h)
    (hp : ((i : ℝ), (j : ℝ)) ∈ A) (hq : ((i' : ℝ), (j' : ℝ)) ∈ A) (hin : nodeSide (level w L isTarget i j) = .inside)
    (hout : nodeSide (level w L isTarget i' j') = .outside) : (A ∩ boundarySet b).Nonempty := by
  obtain ⟨b', L2, e', E⟩ := tame_exact T
  rw [e] at e'
  cases e'
  have hwp := T.grid.w_pos
  have hhp := T.grid.h_pos
  by_contra hc
  obtain ⟨x, y, hx, hy, hz, hs⟩ := node_sign hwp hhp G (wayC w (values L isTarget)) hi hj
  obtain ⟨x', y', hx', hy', hz', hs'⟩ := node_sign hwp hhp G (wayC w (values L isTarget)) hi' hj'
  have := one_sign hwp hhp G (wayC w (values L isTarget)) hA hd (fun z hz x y hx hy hzc h0 =>
    hc ⟨z, hz, (boundary_cuts E T.vis G).2 ⟨x, y, hx, hy, hzc, h0⟩⟩) hp hq hx hy hx' hy' hz hz' (hs.1.2 (pos_of_inside hin))
  have h2 := hs'.2.2 (neg_of_outside hout)
  linarith

/-- **C87** (separation; partial as `C87_frontier_partial`): a connected set of the domain that does not meet the boundary lies in the structure or outside of it. -/
theorem C87_separates_partial (T : Tame w h L isTarget) (G : Generic w h (level w L isTarget)) (ht : NoTie w h (level w L isTarget))
    (e : discretise L isTarget = .ok (b, L')) {A : Set (ℝ × ℝ)} (hA : IsPreconnected A) (hd : A ⊆ domainSet w h) (hb : Disjoint A (boundarySet b)) :
    A ⊆ structureSet w h (level w L isTarget) ∨ Disjoint A (structureSet w h (level w L isTarget)) := by
  have hwp := T.grid.w_pos
  have hhp := T.grid.h_pos
  by_contra hc
  rw [not_or, Set.not_subset, Set.not_disjoint_iff] at hc
  obtain ⟨⟨q, hq, hqS⟩, p, hp, x, y, hx, hy, hpS⟩ := hc
  have h0 : ∀ z ∈ A, ∀ x y, x < w → y < h → z ∈ cellSquare x y → sgc (level w L isTarget) (posC (level w L isTarget)) x y z ≠ 0 := by
    intro z hz x y hx hy hzc h0
    refine Set.disjoint_left.1 hb hz ?_
    rw [← C87_frontier_partial T G ht e]
    exact (frontier_iff hwp hhp G ht).2 ⟨x, y, hx, hy, hzc, h0⟩
  obtain ⟨x', y', hx', hy', hq'⟩ := cell_of hwp hhp (hd hq)
  have h1 := (in_sig (generic_cell G hx hy) (ht x y hx hy)).1 _ hpS
  have h2 := (in_sig (generic_cell G hx' hy') (ht x' y' hx' hy')).2 _ hq' fun h => hqS ⟨x', y', hx', hy', h⟩
  have h3 := one_sign hwp hhp G (posC (level w L isTarget)) hA hd h0 hp hq hx hy hx' hy' (in_square hpS) hq'
    (lt_of_le_of_ne h1 (h0 p hp x y hx hy (in_square hpS)).symm)
  linarith

/-- **C87** (length): the length of the boundary is the one-dimensional Hausdorff measure (for the Euclidean distance) of the set of points on its segments: no
piece of the contour is counted twice. Holds also with saddles of any kind. -/
theorem C87_length (T : Tame w h L isTarget) (G : Generic w h (level w L isTarget)) (e : discretise L isTarget = .ok (b, L')) :
    0 ≤ b.length ∧ μH[1] (WithLp.toLp 2 '' boundarySet b) = ENNReal.ofReal b.length := by
  obtain ⟨b', L2, e', E⟩ := tame_exact T
  rw [e] at e'
  cases e'
  exact measure_boundary E T.vis G

/-- **C87** (perimeter; partial as `C87_frontier_partial`): the length of the boundary is the perimeter of the structure in the domain. -/
theorem C87_perimeter_partial (T : Tame w h L isTarget) (G : Generic w h (level w L isTarget)) (ht : NoTie w h (level w L isTarget))
    (e : discretise L isTarget = .ok (b, L')) :
    μH[1] (WithLp.toLp 2 '' (closure (structureSet w h (level w L isTarget)) ∩ closure (domainSet w h \ structureSet w h (level w L isTarget)))) =
      ENNReal.ofReal b.length := by
  rw [C87_frontier_partial T G ht e]
  exact (C87_length T G e).2

end

/-- A single cell of which the lower two thirds belong to the structure meets the hypotheses; the boundary separates the lower from the upper lattice points, so
it is not empty. -/
example : ∃ (L L' : LevelSet ℝ) (b : Boundary ℝ), Tame 1 1 L true ∧ Generic 1 1 (level 1 L true) ∧ NoTie 1 1 (level 1 L true) ∧
    discretise L true = .ok (b, L') := by
  obtain ⟨L, L', L1, b, T, e, -, -, G, h2⟩ := half_full
  exact ⟨L, L', b, T, G, fun x y hx hy hs => absurd hs (h2 x y hx hy), e⟩

/-- Values of two cells, one above the other, with the lattice points between them on the contour. -/
noncomputable def crease (_ y : Nat) : ℝ := if y = 1 then 0 else 1

/-- **C87** needs the condition on lattice points: if two lattice points between two cells of the structure lie on the contour, the boundary has two segments between them, although all of the
domain belongs to the structure; the length is twice that of the set of points. -/
theorem C87_needs_generic : ∃ (L L' : LevelSet ℝ) (b : Boundary ℝ), Tame 1 2 L true ∧ discretise L true = .ok (b, L') ∧
    structureSet 1 2 (level 1 L true) = domainSet 1 2 ∧ boundarySet b = segment ℝ ((0 : ℝ), (1 : ℝ)) (1, 1) ∧ b.length = 2 := by
  have hin : ∀ x y, y ≠ 1 → nodeSide (crease x y) = .inside := fun x y h => side_in (by simp [crease, h]; norm_num)
  have hbd : ∀ x, nodeSide (crease x 1) = .boundary := fun x => by rw [nodeSide_boundary]; simp [crease]
  have hno : ∀ x y, nodeSide (crease x y) ≠ .outside := by
    intro x y
    by_cases h : y = 1
    · subst h; rw [hbd]; decide
    · rw [hin x y h]; decide
  obtain ⟨L, -, T, hl⟩ := with_target 1 2 (by norm_num) (by norm_num) (by norm_num) crease
    ⟨fun x y hx hy hc => by simp [crease], fun x y hx hy hc => by
      unfold crease; split <;> split <;> norm_num⟩ ⟨fun x y hx hy => by
        by_cases h : y = 1
        · subst h
          exact ⟨(x, 1 + 1), by simp, by rw [hin x (1 + 1) (by norm_num)]; decide⟩
        · exact ⟨(x, y), by simp, by rw [hin x y h]; decide⟩, fun x y hx hy hb => by
        have hy1 : y = 1 := by
          by_contra h
          rw [hin x y h] at hb
          cases hb
        subst hy1
        have hx2 : x = 0 ∨ x = 1 := by omega
        rcases hx2 with rfl | rfl <;>
          simp [latticeEnds, cornerEnds, hbd, hin]⟩
  obtain ⟨b, L', e, E⟩ := tame_exact T
  have lin : ∀ x y, x ≤ 1 → y ≤ 2 → y ≠ 1 → nodeSide (level 1 L true x y) = .inside := fun x y hx hy h => by rw [hl x y hx hy]; exact hin x y h
  have lbd : ∀ x, x ≤ 1 → nodeSide (level 1 L true x 1) = .boundary := fun x hx => by rw [hl x 1 hx (by norm_num)]; exact hbd x
  have a0 : cellArcs 1 L.mesh (values L true) true 0 0 = [(.c 2, .c 3)] := by
    unfold cellArcs
    rw [arcs_pick]
    have e0 : side 1 (values L true) 0 0 0 = .inside := lin 0 0 (by norm_num) (by norm_num) (by norm_num)
    have e1 : side 1 (values L true) 0 0 1 = .inside := lin 1 0 (by norm_num) (by norm_num) (by norm_num)
    have e2 : side 1 (values L true) 0 0 2 = .boundary := lbd 1 (by norm_num)
    have e3 : side 1 (values L true) 0 0 3 = .boundary := lbd 0 (by norm_num)
    rw [e0, e1, e2, e3]
    generalize firstWay 1 (values L true) 0 0 = fw
    simp only [look, Bool.true_or]
    revert fw
    decide
  have a1 : cellArcs 1 L.mesh (values L true) true 0 1 = [(.c 0, .c 1)] := by
    unfold cellArcs
    rw [arcs_pick]
    have e0 : side 1 (values L true) 0 1 0 = .boundary := lbd 0 (by norm_num)
    have e1 : side 1 (values L true) 0 1 1 = .boundary := lbd 1 (by norm_num)
    have e2 : side 1 (values L true) 0 1 2 = .inside := lin 1 2 (by norm_num) (by norm_num) (by norm_num)
    have e3 : side 1 (values L true) 0 1 3 = .inside := lin 0 2 (by norm_num) (by norm_num) (by norm_num)
    rw [e0, e1, e2, e3]
    generalize firstWay 1 (values L true) 0 1 = fw
    simp only [look, Bool.true_or]
    revert fw
    decide
  refine ⟨L, L', b, T, e, ?_, ?_, ?_⟩
  · ext z
    constructor
    · rintro ⟨x, y, hx, hy, hz⟩
      exact cell_domain hx hy (in_square hz)
    · intro hz
      obtain ⟨x, y, hx, hy, hc⟩ := cell_of (by norm_num) (by norm_num) hz
      refine ⟨x, y, hx, hy, ?_⟩
      unfold structureIn
      rw [if_pos]
      · exact hc
      · intro q hq
        have : q.1 ≤ 1 ∧ q.2 ≤ 2 := by
          simp only [cellCorners, List.mem_cons, List.not_mem_nil, or_false] at hq
          rcases hq with rfl | rfl | rfl | rfl <;> constructor <;> dsimp only <;> omega
        rw [hl q.1 q.2 this.1 this.2]
        exact hno _ _
  · ext z
    rw [boundary_arcs E]
    constructor
    · rintro ⟨x, y, hx, hy, a, ha, hz⟩
      have hx0 : x = 0 := by omega
      have hy0 : y = 0 ∨ y = 1 := by omega
      subst hx0
      rcases hy0 with rfl | rfl
      · rw [a0, List.mem_singleton] at ha
        subst ha
        rw [segment_symm]
        simpa [LP.place, cornerAt, Place.coord, pt] using hz
      · rw [a1, List.mem_singleton] at ha
        subst ha
        simpa [LP.place, cornerAt, Place.coord, pt] using hz
    · intro hz
      refine ⟨0, 1, by norm_num, by norm_num, _, by rw [a1]; exact List.mem_singleton.2 rfl, ?_⟩
      simpa [LP.place, cornerAt, Place.coord, pt] using hz
  · rw [boundary_length E]
    simp [Finset.sum_range_succ, a0, a1, arcLen, LP.place, cornerAt, Place.coord]
    norm_num

end Slsm
