import Verif.Proof.LSHist

/-! # Properties C22–C26: construction of level sets and initial shapes

`new` stands for the three constructors without target shape, `newTarget` for the three with a target shape.  Statements over an
arbitrary number type `D` hold for every behaviour of the floating point operations (NaN included). -/

namespace Slsm

open LevelSet

set_option linter.unusedSectionVars false

section
variable {D : Type} [FP D] {w h : Nat}

/-! ### C22 -/

/-- **C22** (validation): for every mesh size, shape and parameters the constructor either returns or exits; it returns exactly if
the band width is at least three, the move limit compares as positive and as smaller than one, and (for the default pattern)
there is room for three holes in each direction. -/
theorem C22_accepts_iff (hw : 1 ≤ w) (hh : 1 ≤ h) (hN : (w + 1) * (h + 1) < 2 ^ 31) (s : Shape D) (hs : s ≠ .points [])
    (moveLimit : D) (bandWidth : Nat) (hb : bandWidth < 2 ^ 32) (f : Bool) :
    ((∃ L, new w h s moveLimit bandWidth f = .ok L) ∨ new w h s moveLimit bandWidth f = .error .exit) ∧
    ((∃ L, new w h s moveLimit bandWidth f = .ok L) ↔
      2 < bandWidth ∧ FP.lt (FP.nat 0) moveLimit = true ∧ FP.lt moveLimit (FP.nat 1) = true ∧
        (s = .cheese → 2 < nCheese (D := D) w ∧ 2 < nCheese (D := D) h)) := by
  norm_num at hN hb
  have hs' : ∀ l, s = .points l → l ≠ [] := by rintro l rfl rfl; exact hs rfl
  have hsh : ShapeOk D w h s ↔ (s = .cheese → 2 < nCheese (D := D) w ∧ 2 < nCheese (D := D) h) := by
    cases s with
    | cheese => unfold ShapeOk; simp
    | holes l => unfold ShapeOk; simp
    | points l => unfold ShapeOk; simp [hs' l rfl]
  have := new_spec (D := D) (moveLimit := moveLimit) ⟨hw, hh, by norm_num; omega⟩ hN hb f hs'
  cases hr : new w h s moveLimit bandWidth f with
  | ok L =>
    rw [hr, wp_ok] at this
    refine ⟨.inl ⟨L, rfl⟩, fun _ => ?_, fun _ => ⟨L, rfl⟩⟩
    exact ⟨this.1.1, this.1.2.1, this.1.2.2, hsh.1 this.2.1⟩
  | error e =>
    rw [hr, wp_error] at this
    refine ⟨.inr (by rw [this.1]), ?_, ?_⟩
    · rintro ⟨L, h⟩; cases h
    · rintro ⟨a, b, c, d⟩
      exact absurd ⟨⟨a, b, c⟩, hsh.2 d⟩ this.2

/-- **C22** (parameters are kept): the object built has the parameters given, nothing is masked, and the narrow band is that of its
values (see C27). -/
theorem C22_result (hw : 1 ≤ w) (hh : 1 ≤ h) (hN : (w + 1) * (h + 1) < 2 ^ 31) {s : Shape D} {moveLimit : D} {bandWidth : Nat}
    (hb : bandWidth < 2 ^ 32) {f : Bool} {L : LevelSet D} (e : new w h s moveLimit bandWidth f = .ok L) :
    L.moveLimit = moveLimit ∧ L.bandWidth = bandWidth ∧ L.isFixedDomain = f ∧ IsGrid w h L.mesh ∧
      L.signedDistance.length = (w + 1) * (h + 1) ∧ (∀ i, ¬ L.Masked i) ∧ BandOk L := by
  norm_num at hN hb
  have hs' : ∀ l, s = .points l → l ≠ [] := by rintro l rfl rfl; exact new_points_nil e
  obtain ⟨-, -, B⟩ := wp_of_ok (new_spec (D := D) ⟨hw, hh, by norm_num; omega⟩ hN hb f hs') e
  exact ⟨B.params.1, B.params.2.1, B.params.2.2, B.wf.grid, by rw [B.wf.sd, B.wf.grid.nNodes], B.unmasked, B.band⟩

/-- **C22** (with a target): the same validation; the constructor never has undefined behaviour, and the target kept is the fast
marching result of the target shape. -/
theorem C22_target (hw : 1 ≤ w) (hh : 1 ≤ h) (hN : (w + 1) * (h + 1) < 2 ^ 31) (s t : Shape D) (hs : s ≠ .points [])
    (ht : t ≠ .points []) (moveLimit : D) (bandWidth : Nat) (hb : bandWidth < 2 ^ 32) (f : Bool) :
    newTarget w h s t moveLimit bandWidth f = .error .exit ∨
    ∃ L, newTarget w h s t moveLimit bandWidth f = .ok L ∧
      2 < bandWidth ∧ FP.lt (FP.nat 0) moveLimit = true ∧ FP.lt moveLimit (FP.nat 1) = true ∧
      L.moveLimit = moveLimit ∧ L.bandWidth = bandWidth ∧ L.isFixedDomain = f ∧ (∀ i, ¬ L.Masked i) ∧ BandOk L ∧
      L.target.length = (w + 1) * (h + 1) := by
  norm_num at hN hb
  have hs' : ∀ l, s = .points l → l ≠ [] := by rintro l rfl rfl; exact hs rfl
  have ht' : ∀ l, t = .points l → l ≠ [] := by rintro l rfl rfl; exact ht rfl
  have := newTarget_spec (D := D) (moveLimit := moveLimit) hw hh hN hb f hs' ht'
  cases hr : newTarget w h s t moveLimit bandWidth f with
  | ok L =>
    rw [hr, wp_ok] at this
    obtain ⟨g, -, -, B⟩ := this
    obtain ⟨m, F, hm, hF, ht, -⟩ := B.value
    refine .inr ⟨L, rfl, g.1, g.2.1, g.2.2, B.params.1, B.params.2.1, B.params.2.2, B.unmasked, B.band, ?_⟩
    have G := new_grid ⟨hw, hh, by norm_num; omega⟩ hm
    have := FMM.marchDistance_spec G ((List.range m.nNodes).map (shapeVal t m)) (by simp) false
    rw [hF, wp_ok] at this
    rw [ht, this.L.d, G.nNodes]
  | error e =>
    rw [hr, wp_error] at this
    exact .inl (by rw [this.1])

end

/-- A non-trivial instance of the hypotheses: doubles, a 100 × 80 domain, three holes. -/
example (a b c : Hole Float) : ((100 + 1) * (80 + 1) < 2 ^ 31) ∧ (Shape.holes [a, b, c] ≠ .points []) := ⟨by norm_num, by simp⟩

theorem nCheese_real (n : Nat) (hn : n < 2 ^ 31) : 2 < nCheese (D := ℝ) n ↔ 75 ≤ n := by
  unfold nCheese
  have e : FP.floor ((FP.add (FP.div (FP.nat n) (FP.nat 30)) (FP.lit 1 2) : ℝ)) = ⌊(n : ℝ) / 30 + 1 / 2⌋₊ := by simp
  rw [e]
  have hle : ⌊(n : ℝ) / 30 + 1 / 2⌋₊ ≤ n + 1 := by
    apply Nat.floor_le_of_le
    push_cast
    have : (0 : ℝ) ≤ n := Nat.cast_nonneg n
    linarith
  norm_num at hn
  rw [show u32 _ = ⌊(n : ℝ) / 30 + 1 / 2⌋₊ from u32_of_lt (by omega)]
  rw [show (2 < ⌊(n : ℝ) / 30 + 1 / 2⌋₊) ↔ 3 ≤ ⌊(n : ℝ) / 30 + 1 / 2⌋₊ from Iff.rfl, Nat.le_floor_iff (by positivity)]
  constructor
  · intro hh
    push_cast at hh
    have : (75 : ℝ) ≤ n := by linarith
    exact_mod_cast this
  · intro hh
    have : (75 : ℝ) ≤ n := by exact_mod_cast hh
    push_cast
    linarith

/-- **C22** (default pattern): with exact arithmetic the default pattern is accepted exactly for domains of at least 75 × 75. -/
theorem C22_cheese {w h : Nat} (hw : 1 ≤ w) (hh : 1 ≤ h) (hN : (w + 1) * (h + 1) < 2 ^ 31)
    (moveLimit : ℝ) (bandWidth : Nat) (hb : bandWidth < 2 ^ 32) (f : Bool) :
    (∃ L, new w h .cheese moveLimit bandWidth f = .ok L) ↔ 2 < bandWidth ∧ 0 < moveLimit ∧ moveLimit < 1 ∧ 75 ≤ w ∧ 75 ≤ h := by
  have hw' : w < 2 ^ 31 := by nlinarith
  have hh' : h < 2 ^ 31 := by nlinarith
  rw [(C22_accepts_iff hw hh hN .cheese (by simp) moveLimit bandWidth hb f).2, nCheese_real w hw', nCheese_real h hh']
  simp

example : ∃ L, new 90 75 .cheese (1 / 2 : ℝ) 6 true = .ok L :=
  (C22_cheese (by norm_num) (by norm_num) (by norm_num) _ _ (by norm_num) _).2 (by norm_num)

example : ¬ ∃ L, new 90 74 .cheese (1 / 2 : ℝ) 6 true = .ok L := fun h =>
  absurd ((C22_cheese (by norm_num) (by norm_num) (by norm_num) _ _ (by norm_num) _).1 h) (by norm_num)

/-! ### C23 -/

section
variable {w h : Nat}

theorem built {D : Type} [FP D] (hw : 1 ≤ w) (hh : 1 ≤ h) (hN : (w + 1) * (h + 1) < 2 ^ 31) {s : Shape D} {moveLimit : D} {bandWidth : Nat}
    (hb : bandWidth < 2 ^ 32) {f : Bool} {L : LevelSet D} (e : new w h s moveLimit bandWidth f = .ok L) :
    Built w h s moveLimit bandWidth f L := by
  norm_num at hN hb
  have hs' : ∀ l, s = .points l → l ≠ [] := by rintro l rfl rfl; exact new_points_nil e
  exact (wp_of_ok (new_spec (D := D) ⟨hw, hh, by norm_num; omega⟩ hN hb f hs') e).2.2

/-- **C23** (value): the value at every node is the least of the distance to the nearest domain edge and the distances to the holes
(distance to the centre minus radius). -/
theorem C23_holes_exact (hw : 1 ≤ w) (hh : 1 ≤ h) (hN : (w + 1) * (h + 1) < 2 ^ 31) {holes : List (Hole ℝ)} {moveLimit : ℝ}
    {bandWidth : Nat} (hb : bandWidth < 2 ^ 32) {f : Bool} {L : LevelSet ℝ}
    (e : new w h (.holes holes) moveLimit bandWidth f = .ok L) {x y : Nat} (hx : x ≤ w) (hy : y ≤ h) :
    IsLeast ({(edgeDist w h x y : ℝ)} ∪ {d | ∃ hole ∈ holes, d = distance hole.coord (lattice x y) - hole.r})
      (vals L.signedDistance (nodeNo w x y)) := by
  have B := built hw hh hN hb e
  obtain ⟨m, hm, hv⟩ := B.value
  have G := new_grid ⟨hw, hh, by norm_num at hN ⊢; omega⟩ hm
  rw [hv, vals_map_range _ (by rw [G.nNodes]; exact nodeNo_lt hx hy)]
  unfold shapeVal
  dsimp only
  rw [edgeVal_real G hx hy, node_coord G hx hy]
  exact holesVal_least _ _ _

/-- **C23** (order): the object does not depend on the order of the holes (nor on repetitions: only the set of holes matters). -/
theorem C23_order_irrelevant (hw : 1 ≤ w) (hh : 1 ≤ h) (hN : (w + 1) * (h + 1) < 2 ^ 31) {holes holes' : List (Hole ℝ)}
    (hmem : ∀ c, c ∈ holes ↔ c ∈ holes') (moveLimit : ℝ) (bandWidth : Nat) (f : Bool) :
    new w h (.holes holes) moveLimit bandWidth f = new w h (.holes holes') moveLimit bandWidth f := by
  unfold new
  have hb := base_spec (D := ℝ) (w := w) (h := h) (moveLimit := moveLimit) (bandWidth := min bandWidth 4294967295)
    ⟨hw, hh, by norm_num at hN ⊢; omega⟩ (by omega) f false
  cases hbase : base w h moveLimit bandWidth f false with
  | error er => rfl
  | ok L =>
    have hL : L.mesh.nodes.length = L.mesh.nNodes ∧ L.signedDistance.length = L.mesh.nNodes ∧ IsGrid w h L.mesh := by
      unfold base at hbase
      obtain ⟨m, hm, G, -⟩ := new_isGrid (D := ℝ) hw hh (by norm_num at hN; omega)
      rw [hm] at hbase
      simp only [bind, Except.bind] at hbase
      cases h1 : check (decide (2 < bandWidth)) with
      | error er => rw [h1] at hbase; cases hbase
      | ok u =>
        rw [h1] at hbase
        dsimp only at hbase
        cases h2 : check ((FP.lt (FP.nat 0) moveLimit) && (FP.lt moveLimit (FP.nat 1))) with
        | error er => rw [h2] at hbase; cases hbase
        | ok u =>
          rw [h2] at hbase
          simp only [pure, Except.pure, Except.ok.injEq] at hbase
          rw [← hbase]
          exact ⟨by show m.nodes.length = m.nNodes; rw [G.nodes_length, G.nNodes], by simp, G⟩
    obtain ⟨e1, e2, G⟩ := hL
    simp only [bind, Except.bind]
    unfold initialise
    dsimp only
    rw [initialiseHoles_eq e1 e2, initialiseHoles_eq e1 e2]
    have : ∀ p v, holesVal p holes v = holesVal p holes' v := by
      intro p v
      refine IsLeast.unique (holesVal_least p holes v) ?_
      have := holesVal_least p holes' v
      have hset : ({v} ∪ {d | ∃ hole ∈ holes', d = distance hole.coord p - hole.r} : Set ℝ) =
          {v} ∪ {d | ∃ hole ∈ holes, d = distance hole.coord p - hole.r} := by
        ext d; simp only [Set.mem_union, Set.mem_singleton_iff, Set.mem_setOf_eq, hmem]
      rwa [hset] at this
    simp only [this]

/-- A concrete case: one hole of radius 2.5 in the middle of a 10 × 10 domain; its centre has value `-2.5`. -/
example : ∃ L, new 10 10 (.holes [⟨⟨5, 5⟩, 5 / 2⟩]) (1 / 2 : ℝ) 3 false = .ok L ∧ vals L.signedDistance (nodeNo 10 5 5) = -(5 / 2) := by
  obtain ⟨L, hL⟩ := (C22_accepts_iff (D := ℝ) (w := 10) (h := 10) (by norm_num) (by norm_num) (by norm_num)
    (.holes [⟨⟨5, 5⟩, 5 / 2⟩]) (by simp) (1 / 2) 3 (by norm_num) false).2.2
    ⟨by norm_num, by norm_num, by norm_num, fun h => by cases h⟩
  refine ⟨L, hL, ?_⟩
  have := C23_holes_exact (by norm_num) (by norm_num) (by norm_num) (by norm_num) hL (x := 5) (y := 5) (by norm_num) (by norm_num)
  refine this.unique ⟨.inr ⟨_, List.mem_singleton.2 rfl, ?_⟩, ?_⟩
  · simp [distance, lattice]
  · rintro d (hd | ⟨hole, hm, hd⟩)
    · rw [Set.mem_singleton_iff] at hd
      rw [hd]
      have : (0 : ℝ) ≤ (edgeDist 10 10 5 5 : ℝ) := Nat.cast_nonneg _
      linarith
    · rw [List.mem_singleton] at hm
      rw [hd, hm]
      simp [distance, lattice]

/-! ### C24 -/

/-- **C24** (proper segments): the distance computed is the smallest distance of the point from the points of the segment. -/
theorem C24_segment_distance {a b p : Coord ℝ} (hlen : 1 / 10 ^ 6 ≤ (b.x - a.x) ^ 2 + (b.y - a.y) ^ 2) :
    IsLeast (segDistances p a b) (pointToLineDistance a b p) :=
  pointToLine_long (by norm_num at hlen ⊢; exact hlen)

/-- **C24** (segments shorter than 10⁻³): the distance computed is that of the first end point, which differs from the distance of
every point of the segment by at most 10⁻³. -/
theorem C24_short_segment {a b p : Coord ℝ} (hlen : (b.x - a.x) ^ 2 + (b.y - a.y) ^ 2 < 1 / 10 ^ 6) :
    pointToLineDistance a b p = distance p a ∧ ∀ d ∈ segDistances p a b, |pointToLineDistance a b p - d| ≤ 1 / 1000 :=
  pointToLine_short (by norm_num at hlen ⊢; exact hlen)

example : (1 : ℝ) / 10 ^ 6 ≤ ((⟨3, 4⟩ : Coord ℝ).x - (⟨0, 0⟩ : Coord ℝ).x) ^ 2 + ((⟨3, 4⟩ : Coord ℝ).y - (⟨0, 0⟩ : Coord ℝ).y) ^ 2 := by
  norm_num

example : (0 - 0 : ℝ) ^ 2 + (1 / 2000 - 0) ^ 2 < 1 / 10 ^ 6 := by norm_num

/-! ### C25 -/

/-- **C25** (value): the value at every node is, up to the sign, the least of the distance to the nearest domain edge and the
distances computed for the sides (C24); the sign is flipped exactly if the inside test accepts the node. -/
theorem C25_polygon_value (hw : 1 ≤ w) (hh : 1 ≤ h) (hN : (w + 1) * (h + 1) < 2 ^ 31) {points : List (Coord ℝ)} {moveLimit : ℝ}
    {bandWidth : Nat} (hb : bandWidth < 2 ^ 32) {f : Bool} {L : LevelSet ℝ}
    (e : new w h (.points points) moveLimit bandWidth f = .ok L) {x y : Nat} (hx : x ≤ w) (hy : y ≤ h) :
    ∃ u inside, isInsidePolygon (lattice x y) points = .ok inside ∧
      vals L.signedDistance (nodeNo w x y) = (if inside then -u else u) ∧ 0 ≤ u ∧
      IsLeast ({(edgeDist w h x y : ℝ)} ∪ {d | ∃ s ∈ sides points, d = pointToLineDistance s.1 s.2 (lattice x y)}) u := by
  have B := built hw hh hN hb e
  have h0 : points ≠ [] := by rintro rfl; exact new_points_nil e
  obtain ⟨m, hm, hv⟩ := B.value
  have G := new_grid ⟨hw, hh, by norm_num at hN ⊢; omega⟩ hm
  have hl := polyVal_least (lattice x y) points (edgeDist w h x y : ℝ)
  refine ⟨polyVal (lattice x y) points (edgeDist w h x y), winding (lattice x y) points 0 != 0, isInsidePolygon_eq _ h0, ?_, ?_, hl⟩
  · rw [hv, vals_map_range _ (by rw [G.nNodes]; exact nodeNo_lt hx hy)]
    unfold shapeVal
    dsimp only
    rw [edgeVal_real G hx hy, node_coord G hx hy]
    unfold pointsVal
    split <;> simp
  · rcases hl.1 with hd | ⟨s, -, hd⟩
    · rw [Set.mem_singleton_iff] at hd; rw [hd]; exact Nat.cast_nonneg _
    · rw [hd]; exact pointToLine_nonneg _ _ _

/-- **C25** (distance): if no side is shorter than 10⁻³, the magnitude is the exact distance to the polyline or, if smaller, to the
domain edge. -/
theorem C25_polygon_distance (hw : 1 ≤ w) (hh : 1 ≤ h) (hN : (w + 1) * (h + 1) < 2 ^ 31) {points : List (Coord ℝ)} {moveLimit : ℝ}
    {bandWidth : Nat} (hb : bandWidth < 2 ^ 32) {f : Bool} {L : LevelSet ℝ}
    (e : new w h (.points points) moveLimit bandWidth f = .ok L) {x y : Nat} (hx : x ≤ w) (hy : y ≤ h)
    (hlong : ∀ s ∈ sides points, 1 / 10 ^ 6 ≤ (s.2.x - s.1.x) ^ 2 + (s.2.y - s.1.y) ^ 2) :
    IsLeast ({(edgeDist w h x y : ℝ)} ∪ {d | ∃ s ∈ sides points, d ∈ segDistances (lattice x y) s.1 s.2})
      |vals L.signedDistance (nodeNo w x y)| := by
  obtain ⟨u, inside, h1, h2, h3, h4⟩ := C25_polygon_value hw hh hN hb e hx hy
  have habs : |vals L.signedDistance (nodeNo w x y)| = u := by
    rw [h2]; split
    · rw [abs_neg, abs_of_nonneg h3]
    · exact abs_of_nonneg h3
  rw [habs]
  constructor
  · rcases h4.1 with hd | ⟨s, hs, hd⟩
    · exact .inl hd
    · exact .inr ⟨s, hs, by rw [hd]; exact (C24_segment_distance (hlong s hs)).1⟩
  · rintro d (hd | ⟨s, hs, hd⟩)
    · exact h4.2 (.inl hd)
    · exact (h4.2 (.inr ⟨s, hs, rfl⟩)).trans ((C24_segment_distance (hlong s hs)).2 hd)

/-- A triangle meeting the hypotheses. -/
example : (∃ L, new 10 10 (.points [⟨2, 2⟩, ⟨8, 2⟩, ⟨5, 7⟩, ⟨2, 2⟩]) (1 / 2 : ℝ) 3 false = .ok L) ∧
    ∀ s ∈ sides [(⟨2, 2⟩ : Coord ℝ), ⟨8, 2⟩, ⟨5, 7⟩, ⟨2, 2⟩], 1 / 10 ^ 6 ≤ (s.2.x - s.1.x) ^ 2 + (s.2.y - s.1.y) ^ 2 := by
  refine ⟨(C22_accepts_iff (D := ℝ) (by norm_num) (by norm_num) (by norm_num) _ (by simp) (1 / 2) 3 (by norm_num) false).2.2
    ⟨by norm_num, by norm_num, by norm_num, fun h => by cases h⟩, ?_⟩
  intro s hs
  simp [sides] at hs
  rcases hs with rfl | rfl | rfl <;> norm_num

/-! ### C26 -/

/-- **C26** (partial): the inside test answers whether the number of upward minus downward crossings of the ray to the right is
non-zero, provided that for every side that meets the height of the point the cross product is zero or at least one in magnitude.
Missing: all other polygons, where the answer can be wrong (`C26_truncation_error`), since the code truncates the cross product to
an integer. -/
theorem C26_winding_partial {p : Coord ℝ} {points : List (Coord ℝ)} (h0 : points ≠ [])
    (hk : ∀ s ∈ sides points, (s.1.y ≤ p.y ↔ p.y < s.2.y) → cross p s.1 s.2 = 0 ∨ 1 ≤ |cross p s.1 s.2|) :
    isInsidePolygon p points = .ok (decide (crossingNumber p points ≠ 0)) := by
  rw [isInsidePolygon_eq p h0, winding_real hk 0, zero_add]
  congr 1
  by_cases hz : crossingNumber p points = 0 <;> simp [hz]

/-- **C26** (integer vertices): for every polygon whose vertices have integer coordinates and every node of the grid the inside test
is right. -/
theorem C26_integer_polygons {points : List (Coord ℝ)} (h0 : points ≠ [])
    (hint : ∀ v ∈ points, (∃ k : ℤ, v.x = k) ∧ ∃ k : ℤ, v.y = k) (x y : Nat) :
    isInsidePolygon (lattice x y) points = .ok (decide (crossingNumber (lattice x y) points ≠ 0)) := by
  refine C26_winding_partial h0 fun s hs _ => ?_
  have m1 : s.1 ∈ points := (List.of_mem_zip hs).1
  have m2 : s.2 ∈ points := List.mem_of_mem_tail (List.of_mem_zip hs).2
  obtain ⟨⟨a, ha⟩, b, hb⟩ := hint _ m1
  obtain ⟨⟨c, hc⟩, d, hd⟩ := hint _ m2
  have : cross (lattice x y) s.1 s.2 = (((c - a) * (y - b) - (x - a) * (d - b) : ℤ) : ℝ) := by
    unfold cross lattice
    rw [ha, hb, hc, hd]; push_cast; ring
  rw [this]
  by_cases hz : ((c - a) * (y - b) - (x - a) * (d - b) : ℤ) = 0
  · left; rw [hz]; simp
  · right
    rw [← Int.cast_abs]
    exact_mod_cast Int.one_le_abs hz

/-- What the crossing number means for an axis-parallel rectangle `[a, b) × [c, d)`, given counterclockwise. -/
theorem C26_rectangle {a b c d : ℝ} (hab : a < b) (hcd : c < d) (p : Coord ℝ) :
    crossingNumber p [⟨a, c⟩, ⟨b, c⟩, ⟨b, d⟩, ⟨a, d⟩, ⟨a, c⟩] ≠ 0 ↔ a ≤ p.x ∧ p.x < b ∧ c ≤ p.y ∧ p.y < d := by
  unfold crossingNumber sides crossingSign MeetsRay
  simp only [List.tail_cons, List.zip_cons_cons, List.zip_nil_right, List.map_cons, List.map_nil, List.sum_cons, List.sum_nil,
    sub_self, mul_zero, add_zero]
  have n1 : ¬ (c ≤ p.y ∧ p.y < c ∨ c ≤ p.y ∧ p.y < c) := by rintro (⟨h1, h2⟩ | ⟨h1, h2⟩) <;> linarith
  have n2 : ¬ (d ≤ p.y ∧ p.y < d ∨ d ≤ p.y ∧ p.y < d) := by rintro (⟨h1, h2⟩ | ⟨h1, h2⟩) <;> linarith
  simp only [n1, n2, false_and, if_false, if_pos hcd, if_neg (not_lt.2 hcd.le), zero_add]
  by_cases hy : c ≤ p.y ∧ p.y < d
  · have y1 : (c ≤ p.y ∧ p.y < d ∨ d ≤ p.y ∧ p.y < c) := .inl hy
    have y2 : (d ≤ p.y ∧ p.y < c ∨ c ≤ p.y ∧ p.y < d) := .inr hy
    by_cases hb : p.x < b
    · by_cases ha : p.x < a
      · rw [if_pos ⟨y1, hb⟩, if_pos ⟨y2, ha⟩]
        exact ⟨fun h => absurd rfl h, fun h => absurd h.1 (not_le.2 ha)⟩
      · rw [if_pos ⟨y1, hb⟩, if_neg fun h => ha h.2]
        exact ⟨fun _ => ⟨not_lt.1 ha, hb, hy.1, hy.2⟩, fun _ => by norm_num⟩
    · have ha : ¬ p.x < a := fun h => hb (h.trans hab)
      rw [if_neg fun h => hb h.2, if_neg fun h => ha h.2]
      exact ⟨fun h => absurd rfl h, fun h => absurd h.2.1 hb⟩
  · have y1 : ¬ (c ≤ p.y ∧ p.y < d ∨ d ≤ p.y ∧ p.y < c) := by
      rintro (h | ⟨h1, h2⟩)
      · exact hy h
      · linarith
    have y2 : ¬ (d ≤ p.y ∧ p.y < c ∨ c ≤ p.y ∧ p.y < d) := fun h => y1 h.symm
    rw [if_neg fun h => y1 h.1, if_neg fun h => y2 h.1]
    exact ⟨fun h => absurd rfl h, fun h => absurd h.2.2 hy⟩

/-- The integer-vertex theorem applies to a non-convex polygon. -/
example : ∀ v ∈ [(⟨1, 1⟩ : Coord ℝ), ⟨9, 1⟩, ⟨9, 9⟩, ⟨5, 3⟩, ⟨1, 9⟩, ⟨1, 1⟩], (∃ k : ℤ, v.x = k) ∧ ∃ k : ℤ, v.y = k := by
  intro v hv
  simp at hv
  rcases hv with rfl | rfl | rfl | rfl | rfl | rfl
  · exact ⟨⟨1, by norm_num⟩, 1, by norm_num⟩
  · exact ⟨⟨9, by norm_num⟩, 1, by norm_num⟩
  · exact ⟨⟨9, by norm_num⟩, 9, by norm_num⟩
  · exact ⟨⟨5, by norm_num⟩, 3, by norm_num⟩
  · exact ⟨⟨1, by norm_num⟩, 9, by norm_num⟩
  · exact ⟨⟨1, by norm_num⟩, 1, by norm_num⟩

/-- **C26** (counterexample to the full statement): the point `(1, 1)` is inside the unit square `[1/2, 3/2]²`, its crossing number is
not zero, but the inside test says "outside". -/
theorem C26_truncation_error :
    isInsidePolygon (lattice 1 1) [⟨1/2, 1/2⟩, ⟨3/2, 1/2⟩, ⟨3/2, 3/2⟩, ⟨1/2, 3/2⟩, ⟨1/2, 1/2⟩] = .ok false ∧
      crossingNumber (lattice 1 1) [⟨1/2, 1/2⟩, ⟨3/2, 1/2⟩, ⟨3/2, 3/2⟩, ⟨1/2, 3/2⟩, ⟨1/2, 1/2⟩] ≠ 0 := by
  constructor
  · rw [isInsidePolygon_eq _ (by simp)]
    have t : ∀ c : ℝ, |c| < 1 → FP.trunc c = 0 := by
      intro c hc
      rw [FP.trunc_real]
      rw [abs_lt] at hc
      split
      · rename_i h0; exact Int.floor_eq_zero_iff.2 ⟨h0, hc.2⟩
      · rename_i h0
        have := Int.ceil_eq_zero_iff.2 (show c ∈ Set.Ioc (-1 : ℝ) 0 from ⟨hc.1, (not_le.1 h0).le⟩)
        exact this
    have : ∀ a b, |cross (lattice 1 1) a b| < 1 → isLeftOfLine a b (lattice 1 1) = 0 := fun a b hab => by
      rw [isLeft_real]; exact t _ hab
    have z : ∀ a b n, |cross (lattice 1 1) a b| < 1 → windStep (lattice 1 1) a b n = n := by
      intro a b n hab
      unfold windStep
      rw [this a b hab]
      simp
    simp only [winding]
    rw [z, z, z, z] <;> first | rfl | (unfold cross lattice; norm_num [abs_lt])
  · exact (C26_rectangle (by norm_num) (by norm_num) _).2 (by norm_num [lattice])

end

end Slsm
