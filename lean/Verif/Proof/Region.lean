import Verif.Proof.Polygon
import Verif.Proof.AreaSpec
import Verif.Spec.Region

/-! # The measure of the structure -/

namespace Slsm.Region

open MeasureTheory Set Boundary Area Polygon

section
variable {f : Nat → Nat → ℝ} {x y w h : Nat}

/-- A point of the plane as a pair. -/
def pt (c : Coord ℝ) : ℝ × ℝ := (c.x, c.y)

def walkKey : LP → Nat
  | .c j => 2 * j
  | .e j => 2 * j + 1

theorem walk_sorted : walkLP.Pairwise fun p q => walkKey p < walkKey q := by decide

set_option maxHeartbeats 4000000 in
/-- Three places in the order of the walk turn left unless they are on one edge. -/
theorem walk_turns {X Y : ℝ} {τ : Nat → ℝ} (hτ : ∀ j, 0 < τ j ∧ τ j < 1) {p q r : LP} (hp : p ∈ walkLP) (hq : q ∈ walkLP) (hr : r ∈ walkLP)
    (h1 : walkKey p < walkKey q) (h2 : walkKey q < walkKey r) : 0 < cr (pt (cellPoint X Y τ p)) (pt (cellPoint X Y τ q)) (pt (cellPoint X Y τ r)) ∨
      ∃ j, j < 4 ∧ LP.c j ∈ [p, q, r] ∧ LP.e j ∈ [p, q, r] ∧ LP.c (after j) ∈ [p, q, r] := by
  obtain ⟨a0, b0⟩ := hτ 0
  obtain ⟨a1, b1⟩ := hτ 1
  obtain ⟨a2, b2⟩ := hτ 2
  obtain ⟨a3, b3⟩ := hτ 3
  have p0 := sub_pos.2 b0
  have p1 := sub_pos.2 b1
  have p2 := sub_pos.2 b2
  have p3 := sub_pos.2 b3
  simp only [walkLP, List.mem_cons, List.not_mem_nil, or_false] at hp hq hr
  rcases hp with rfl | rfl | rfl | rfl | rfl | rfl | rfl | rfl <;> rcases hq with rfl | rfl | rfl | rfl | rfl | rfl | rfl | rfl <;>
    first
    | (exfalso; revert h1; decide)
    | (rcases hr with rfl | rfl | rfl | rfl | rfl | rfl | rfl | rfl <;>
        first
        | (exfalso; revert h2; decide)
        | (right; decide)
        | (left
           simp only [cr, pt, cellPoint]
           nlinarith [mul_pos a0 a1, mul_pos a0 a2, mul_pos a0 a3, mul_pos a1 a2, mul_pos a1 a3, mul_pos a2 a3, mul_pos p0 p1, mul_pos p0 p2, mul_pos p0 p3,
             mul_pos p1 p2, mul_pos p1 p3, mul_pos p2 p3, mul_pos a0 p1, mul_pos a0 p3, mul_pos a1 p2, mul_pos a1 p0, mul_pos a2 p1, mul_pos a2 p3, mul_pos a3 p0, mul_pos a3 p2]))

theorem filter_turns {X Y : ℝ} {τ : Nat → ℝ} (hτ : ∀ j, 0 < τ j ∧ τ j < 1) {S : LP → Bool}
    (hS : ∀ j, j < 4 → S (.c j) = true → S (.e j) = true → S (.c (after j)) = false) :
    LeftTurns ((walkLP.filter S).map fun p => pt (cellPoint X Y τ p)) := by
  intro a b c h
  obtain ⟨l, hl, e⟩ := List.sublist_map_iff.1 h
  match l, e with
  | [p, q, r], e =>
    simp only [List.map_cons, List.map_nil, List.cons.injEq, and_true] at e
    obtain ⟨rfl, rfl, rfl⟩ := e
    have hw := hl.trans List.filter_sublist
    have hs := walk_sorted.sublist hw
    have hm : ∀ t ∈ [p, q, r], t ∈ walkLP ∧ S t = true := fun t ht => List.mem_filter.1 (hl.subset ht)
    simp only [List.pairwise_cons, List.mem_cons, List.not_mem_nil, or_false] at hs
    rcases walk_turns (X := X) (Y := Y) hτ (hm p (by simp)).1 (hm q (by simp)).1 (hm r (by simp)).1 (hs.1 q (.inl rfl)) (hs.2.1 r rfl) with h | ⟨j, hj, h1, h2, h3⟩
    · exact h
    · have := hS j hj (hm _ h1).2 (hm _ h2).2
      rw [(hm _ h3).2] at this
      cases this

theorem struct_edge (s : Nat → NodeStatus) (j : Nat) (h1 : structLP s (.c j) = true) (h2 : structLP s (.e j) = true) : structLP s (.c (after j)) = false := by
  simp only [structLP, cutPair] at *
  revert h1 h2
  cases s j <;> cases s (after j) <;> simp

theorem void_edge (s : Nat → NodeStatus) (j : Nat) (h1 : voidLP s (.c j) = true) (h2 : voidLP s (.e j) = true) : voidLP s (.c (after j)) = false := by
  simp only [voidLP, cutPair] at *
  revert h1 h2
  cases s j <;> cases s (after j) <;> simp

theorem lace_ring (l : List (Coord ℝ)) : lace (l.map pt) = ringSum l := by
  unfold lace ringSum
  rw [← List.map_rotate, List.zipWith_map]
  rfl

open Classical in
theorem hull_vertices (P : Place → Prop) : hull ((((cellWalk x y).filter fun p => decide (P p)).map fun p => p.coord f).map pt) = convexHull ℝ (cellVertices f x y P) := by
  unfold hull
  congr 1
  ext z
  simp only [List.mem_map, List.mem_filter, decide_eq_true_eq, mem_setOf_eq, cellVertices]
  constructor
  · rintro ⟨c, ⟨p, ⟨h1, h2⟩, rfl⟩, rfl⟩
    exact ⟨p, h1, h2, rfl⟩
  · rintro ⟨p, h1, h2, rfl⟩
    exact ⟨_, ⟨p, ⟨h1, h2⟩, rfl⟩, rfl⟩

theorem volume_structure : 0 ≤ polyArea (structurePolygon f x y) ∧
    volume (convexHull ℝ (cellVertices f x y (StructureVertex f x y))) = ENNReal.ofReal (polyArea (structurePolygon f x y)) := by
  have h := hull_vertices (f := f) (x := x) (y := y) (StructureVertex f x y)
  change hull ((structurePolygon f x y).map pt) = _ at h
  have ht : LeftTurns ((structurePolygon f x y).map pt) := by
    rw [structurePolygon_eq, List.map_map]
    exact filter_turns (crossing_in f x y) fun j _ => struct_edge _ j
  obtain ⟨h1, h2⟩ := volume_hull ht
  rw [lace_ring] at h1 h2
  rw [← h, h2, polyArea_eq]
  exact ⟨by positivity, rfl⟩

theorem volume_void : 0 ≤ polyArea (voidPolygon f x y) ∧
    volume (convexHull ℝ (cellVertices f x y (VoidVertex f))) = ENNReal.ofReal (polyArea (voidPolygon f x y)) := by
  have h := hull_vertices (f := f) (x := x) (y := y) (VoidVertex f)
  change hull ((voidPolygon f x y).map pt) = _ at h
  have ht : LeftTurns ((voidPolygon f x y).map pt) := by
    rw [voidPolygon_eq, List.map_map]
    exact filter_turns (crossing_in f x y) fun j _ => void_edge _ j
  obtain ⟨h1, h2⟩ := volume_hull ht
  rw [lace_ring] at h1 h2
  rw [← h, h2, polyArea_eq]
  exact ⟨by positivity, rfl⟩

theorem volume_square (x y : Nat) : volume (cellSquare x y) = 1 := by
  unfold cellSquare
  rw [Measure.volume_eq_prod, Measure.prod_prod, Real.volume_Icc, Real.volume_Icc]
  simp

theorem square_convex (x y : Nat) : Convex ℝ (cellSquare x y) := (convex_Icc _ _).prod (convex_Icc _ _)

theorem point_square {X Y : ℝ} {τ : Nat → ℝ} (hτ : ∀ j, 0 < τ j ∧ τ j < 1) {p : LP} (hp : p ∈ walkLP) : pt (cellPoint X Y τ p) ∈ Icc X (X + 1) ×ˢ Icc Y (Y + 1) := by
  have a := hτ 0
  have b := hτ 1
  have c := hτ 2
  have d := hτ 3
  simp only [walkLP, List.mem_cons, List.not_mem_nil, or_false] at hp
  rcases hp with rfl | rfl | rfl | rfl | rfl | rfl | rfl | rfl <;> simp only [pt, cellPoint, mem_prod, mem_Icc] <;> refine ⟨⟨?_, ?_⟩, ?_, ?_⟩ <;> linarith

theorem vertices_square {P : Place → Prop} (hc : ∀ j, P (edgeAt x y j) → (edgeAt x y j).onContour f) : convexHull ℝ (cellVertices f x y P) ⊆ cellSquare x y := by
  refine convexHull_min ?_ (square_convex x y)
  rintro z ⟨p, hp, h1, rfl⟩
  rw [walk_place, List.mem_map] at hp
  obtain ⟨q, hq, rfl⟩ := hp
  have := place_point (f := f) (x := x) (y := y) hq (fun j hj => by subst hj; exact hc j h1)
  change pt (Place.coord f (LP.place x y q)) ∈ _
  rw [this]
  exact point_square (crossing_in f x y) hq

theorem structure_square : convexHull ℝ (cellVertices f x y (StructureVertex f x y)) ⊆ cellSquare x y := by
  refine vertices_square fun j h => ?_
  unfold edgeAt at h ⊢
  split at h <;> exact h

theorem void_square : convexHull ℝ (cellVertices f x y (VoidVertex f)) ⊆ cellSquare x y := by
  refine vertices_square fun j h => ?_
  unfold edgeAt at h ⊢
  split at h <;> exact h

theorem vertices_finite (P : Place → Prop) : (cellVertices f x y P).Finite := by
  refine ((List.finite_toSet (cellWalk x y)).image fun p => ((p.coord f).x, (p.coord f).y)).subset ?_
  rintro z ⟨p, hp, -, rfl⟩
  exact ⟨p, hp, rfl⟩

theorem hull_measurable (P : Place → Prop) : MeasurableSet (convexHull ℝ (cellVertices f x y P)) := ((vertices_finite P).isClosed_convexHull ℝ).measurableSet

theorem square_measurable (x y : Nat) : MeasurableSet (cellSquare x y) := measurableSet_Icc.prod measurableSet_Icc

theorem in_square : structureIn f x y ⊆ cellSquare x y := by
  unfold structureIn
  split
  · exact Subset.rfl
  · split
    · exact empty_subset _
    · split
      · exact sdiff_subset
      · exact structure_square

theorem in_measurable : MeasurableSet (structureIn f x y) := by
  unfold structureIn
  split
  · exact square_measurable x y
  · split
    · exact .empty
    · split
      · exact (square_measurable x y).diff (hull_measurable _)
      · exact hull_measurable _

/-- The area fraction is the measure of the part of the cell that belongs to the structure. -/
theorem volume_in (ht : Saddle f x y → centreValue f x y ≠ 0) : volume (structureIn f x y) = ENNReal.ofReal (cellArea f x y) := by
  unfold structureIn cellArea
  split
  · rw [volume_square]; simp
  · split
    · simp
    · by_cases hs : Saddle f x y ∧ centreValue f x y < 0
      · rw [if_pos hs, if_pos ⟨hs.1, hs.2.le⟩, measure_sdiff void_square (hull_measurable _).nullMeasurableSet (by rw [volume_void.2]; exact ENNReal.ofReal_ne_top),
          volume_square, volume_void.2, ENNReal.ofReal_sub _ volume_void.1, ENNReal.ofReal_one]
      · rw [if_neg hs, if_neg (fun h => hs ⟨h.1, lt_of_le_of_ne h.2 (ht h.1)⟩), volume_structure.2]

/-- Different cells have no area in common. -/
theorem squares_disjoint {x y x' y' : Nat} (hne : ¬ (x = x' ∧ y = y')) : volume (cellSquare x y ∩ cellSquare x' y') = 0 := by
  unfold cellSquare
  rw [prod_inter_prod, Measure.volume_eq_prod, Measure.prod_prod]
  have key : ∀ a b : Nat, a ≠ b → volume (Icc (a : ℝ) (a + 1) ∩ Icc (b : ℝ) (b + 1)) = 0 := by
    intro a b hab
    rw [Icc_inter_Icc, Real.volume_Icc, ENNReal.ofReal_eq_zero]
    rcases Nat.lt_or_gt_of_ne hab with h | h
    · have : (a : ℝ) + 1 ≤ b := by exact_mod_cast h
      have h1 := le_max_right (a : ℝ) b
      have h2 := min_le_left ((a : ℝ) + 1) (b + 1)
      linarith
    · have : (b : ℝ) + 1 ≤ a := by exact_mod_cast h
      have h1 := le_max_left (a : ℝ) b
      have h2 := min_le_right ((a : ℝ) + 1) (b + 1)
      linarith
  by_cases hx : x = x'
  · rw [key y y' fun h => hne ⟨hx, h⟩, mul_zero]
  · rw [key x x' hx, zero_mul]

theorem volume_set (ht : NoTie w h f) : volume (structureSet w h f) = ENNReal.ofReal (∑ i ∈ Finset.range (w * h), cellArea f (i % w) (i / w)) := by
  have e : structureSet w h f = ⋃ i ∈ Finset.range (w * h), structureIn f (i % w) (i / w) := by
    ext z
    simp only [structureSet, mem_setOf_eq, mem_iUnion, Finset.mem_range, exists_prop]
    constructor
    · rintro ⟨x, y, hx, hy, hz⟩
      refine ⟨x + y * w, idx_lt hx hy, ?_⟩
      rw [idx_mod hx, idx_div hx]
      exact hz
    · rintro ⟨i, hi, hz⟩
      exact ⟨i % w, i / w, idx_mod_lt hi, idx_div_lt hi, hz⟩
  rw [e, measure_biUnion_finset₀]
  · rw [ENNReal.ofReal_sum_of_nonneg]
    · refine Finset.sum_congr rfl fun i hi => volume_in ?_
      rw [Finset.mem_range] at hi
      exact ht _ _ (idx_mod_lt hi) (idx_div_lt hi)
    · intro i _
      rcases stat_cases (cellSide f (i % w) (i / w)) with h | h | h
      · rw [cellArea_inside h]; norm_num
      · rw [cellArea_outside h]
      · exact (cellArea_between h).1.le
  · intro i hi j hj hij
    refine measure_mono_null (inter_subset_inter in_square in_square) (squares_disjoint fun hc => hij ?_)
    rw [← Nat.mod_add_div i w, ← Nat.mod_add_div j w, hc.1, hc.2]
  · intro i _
    exact in_measurable.nullMeasurableSet

end

end Slsm.Region
