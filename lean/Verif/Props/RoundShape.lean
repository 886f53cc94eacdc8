import Verif.Proof.RoundShape
import Verif.Props.Round

/-! # C107: initial values from polygons in rounded arithmetic -/

namespace Slsm

open FP LevelSet Rounding

namespace LevelSet

variable {R : Rounding} {w h : Nat} {S : ℝ}

/-! ### Distance to a side -/

/-- **C107** (proper sides): the computed distance of a point from a segment not shorter than the tolerance is within `S·2⁻⁴⁵` of the smallest distance
of the point from the points of the segment; `S` bounds all coordinates. -/
theorem C107_segment {a b p : Coord R.Num} (hS : 1 ≤ S) (hS2 : S ≤ 2 ^ 31) (ha : Bounded S (exactly a)) (hb : Bounded S (exactly b))
    (hp : Bounded S (exactly p)) (hlen : 1 / 10 ^ 6 + 1 / 10 ^ 12 ≤ ((exactly b).x - (exactly a).x) ^ 2 + ((exactly b).y - (exactly a).y) ^ 2) :
    ∃ d, IsLeast (segDistances (exactly p) (exactly a) (exactly b)) d ∧ |(pointToLineDistance a b p).val - d| ≤ S / 2 ^ 45 :=
  segment_near hS hS2 ha hb hp hlen

/-- **C107** (all sides, also very short ones and single points): the error is at most a thousandth (and a millionth) more. -/
theorem C107_any_segment {a b p : Coord R.Num} (hS : 1 ≤ S) (hS2 : S ≤ 2 ^ 31) (ha : Bounded S (exactly a)) (hb : Bounded S (exactly b))
    (hp : Bounded S (exactly p)) :
    ∃ d, IsLeast (segDistances (exactly p) (exactly a) (exactly b)) d ∧ |(pointToLineDistance a b p).val - d| ≤ 1001 / 10 ^ 6 + S / 2 ^ 45 :=
  side_near hS hS2 ha hb hp

/-! ### The inside test -/

theorem inside_of_signs {p : Coord R.Num} {points : List (Coord R.Num)} (h0 : points ≠ []) (hk : ∀ s ∈ sides points,
    (s.1.y.val ≤ p.y.val ↔ p.y.val < s.2.y.val) → SameSign (isLeftOfLine s.1 s.2 p) (cross (exactly p) (exactly s.1) (exactly s.2))) :
    isInsidePolygon p points = .ok (decide (crossingNumber (exactly p) (points.map exactly) ≠ 0)) := by
  rw [isInsidePolygon_eq p h0, winding_rnd hk 0, zero_add]
  congr 1
  by_cases hz : crossingNumber (exactly p) (points.map exactly) = 0 <;> simp [hz]

theorem ends_of_side {α : Type} {vs : List α} {s : α × α} (hs : s ∈ Slsm.sides vs) : s.1 ∈ vs ∧ s.2 ∈ vs :=
  ⟨(List.of_mem_zip hs).1, List.mem_of_mem_tail (List.of_mem_zip hs).2⟩

theorem side_exactly {vs : List (Coord R.Num)} {s : Coord R.Num × Coord R.Num} (hs : s ∈ Slsm.sides vs) :
    (exactly s.1, exactly s.2) ∈ Slsm.sides (vs.map exactly) := by
  unfold Slsm.sides at *
  rw [← List.map_tail, List.zip_map]
  exact List.mem_map_of_mem hs

/-- **C107** (inside test, partial): the test in rounded arithmetic answers whether the number of upward minus downward crossings of the ray to the right
is non-zero, if for every side that meets the height of the point the exact cross product is zero or at least `1 + S²·2⁻⁴⁶` in magnitude.  Missing: all
other polygons, for which the answer can be wrong even in exact arithmetic (`C26_truncation_error`). -/
theorem C107_inside_partial {p : Coord R.Num} {points : List (Coord R.Num)} (h0 : points ≠ []) (hS : 1 ≤ S) (hS2 : S ≤ 2 ^ 22)
    (hb : ∀ v ∈ points, Bounded S (exactly v)) (hp : Bounded S (exactly p)) (hk : ∀ s ∈ Slsm.sides (points.map exactly),
      (s.1.y ≤ (exactly p).y ↔ (exactly p).y < s.2.y) → cross (exactly p) s.1 s.2 = 0 ∨ 1 + S ^ 2 / 2 ^ 46 ≤ |cross (exactly p) s.1 s.2|) :
    isInsidePolygon p points = .ok (decide (crossingNumber (exactly p) (points.map exactly) ≠ 0)) := by
  refine inside_of_signs h0 fun s hs hm => ?_
  obtain ⟨m1, m2⟩ := ends_of_side hs
  refine same_sign (cross_near hS (hS2.trans (by norm_num)) (hb _ m1) (hb _ m2) hp) ?_ (hk _ (side_exactly hs) hm)
  have : S ^ 2 ≤ (2 ^ 22) ^ 2 := by gcongr
  norm_num at this ⊢
  linarith

/-- **C107** (inside test, whole vertices): for vertices and points with whole coordinates up to `2²⁵` the test in rounded arithmetic is right. -/
theorem C107_whole_inside {p : Coord R.Num} {points : List (Coord R.Num)} (h0 : points ≠ []) (hv : ∀ v ∈ points, Whole (exactly v))
    (hp : Whole (exactly p)) : isInsidePolygon p points = .ok (decide (crossingNumber (exactly p) (points.map exactly) ≠ 0)) :=
  inside_of_signs h0 fun _ hs _ => whole_sign (hv _ (ends_of_side hs).1) (hv _ (ends_of_side hs).2) hp

/-! ### Values at the nodes -/

section
variable {points : List (Coord R.Num)} {moveLimit : R.Num} {bandWidth : Nat} {f : Bool} {L : LevelSet R.Num}

theorem exactly_nat {x y : Nat} (hx : x ≤ 2 ^ 53) (hy : y ≤ 2 ^ 53) : exactly (⟨FP.nat x, FP.nat y⟩ : Coord R.Num) = lattice x y := by
  unfold exactly lattice
  rw [val_nat hx, val_nat hy]

theorem points_value (hw : 1 ≤ w) (hh : 1 ≤ h) (hN : (w + 1) * (h + 1) < 2 ^ 31) (hb : bandWidth < 2 ^ 32)
    (e : LevelSet.new w h (.points points) moveLimit bandWidth f = .ok L) {x y : Nat} (hx : x ≤ w) (hy : y ≤ h) {E : ℝ} (h0 : 0 ≤ E)
    (hE : ∀ s ∈ Slsm.sides points, ∃ d, IsLeast (segDistances (lattice x y) (exactly s.1) (exactly s.2)) d ∧
      |(pointToLineDistance s.1 s.2 ⟨FP.nat x, FP.nat y⟩).val - d| ≤ E) :
    ∃ u m inside, isInsidePolygon (⟨FP.nat x, FP.nat y⟩ : Coord R.Num) points = .ok inside ∧ lay w L.signedDistance x y = (if inside then -u else u) ∧
      0 ≤ u ∧ IsLeast ({(edgeDist w h x y : ℝ)} ∪ {d | ∃ s ∈ Slsm.sides (points.map exactly), d ∈ segDistances (lattice x y) s.1 s.2}) m ∧ |u - m| ≤ E := by
  have w53 : w < 2 ^ 53 := by nlinarith
  have h53 : h < 2 ^ 53 := by nlinarith
  have hpts : points ≠ [] := by rintro rfl; exact new_points_nil e
  obtain ⟨mm, hm, hv⟩ := (built hw hh hN hb e).value
  have G := new_grid ⟨hw, hh, by norm_num at hN ⊢; omega⟩ hm
  have hlt : nodeNo w x y < mm.nodes.length := by rw [G.nodes_length]; exact nodeNo_lt hx hy
  have hc := G.coord x y _ hx hy (get_node hlt)
  have hex : exactly (⟨FP.nat x, FP.nat y⟩ : Coord R.Num) = lattice x y := exactly_nat (by omega) (by omega)
  have hedge := edgeVal_rnd G w53.le h53.le hx hy
  obtain ⟨m, hm1, hm2⟩ := polyVal_near (⟨FP.nat x, FP.nat y⟩ : Coord R.Num) points (by rw [hex]; exact hE)
    (edgeVal mm (nodeOf mm (nodeNo w x y))) (edgeDist w h x y : ℝ) (by rw [hedge, sub_self, abs_zero]; exact h0)
  rw [hex] at hm1
  refine ⟨_, m, _, isInsidePolygon_eq _ hpts, ?_, segs_nonneg _ (by rw [hedge]; positivity) _ _, hm1, hm2⟩
  unfold lay
  rw [hv, vals_map_range _ (by rw [G.nNodes]; exact nodeNo_lt hx hy)]
  unfold shapeVal
  dsimp only
  rw [hc]
  unfold pointsVal
  split_ifs
  · rw [val_mul, val_neg, val_one, mul_neg_one]
    exact R.neg _ (polyVal (D := R.Num) _ _ _).fix
  · rfl

theorem lattice_bounded (hwS : (w : ℝ) ≤ S) (hhS : (h : ℝ) ≤ S) {x y : Nat} (hx : x ≤ w) (hy : y ≤ h) : Bounded S (lattice x y) := by
  have xr : (x : ℝ) ≤ w := by exact_mod_cast hx
  have yr : (y : ℝ) ≤ h := by exact_mod_cast hy
  have x0 : (0 : ℝ) ≤ x := by positivity
  have y0 : (0 : ℝ) ≤ y := by positivity
  exact ⟨by rw [show (lattice x y).x = x from rfl, abs_of_nonneg x0]; linarith, by rw [show (lattice x y).y = y from rfl, abs_of_nonneg y0]; linarith⟩

/-- **C107** (values): if no side is shorter than the tolerance, the value at every node is, up to a sign, within `S·2⁻⁴⁵` of the exact distance to the
polyline or, if smaller, to the nearest domain edge; it is negated exactly if the inside test accepts the node. -/
theorem C107_value (hw : 1 ≤ w) (hh : 1 ≤ h) (hN : (w + 1) * (h + 1) < 2 ^ 31) (hb : bandWidth < 2 ^ 32)
    (e : LevelSet.new w h (.points points) moveLimit bandWidth f = .ok L) {x y : Nat} (hx : x ≤ w) (hy : y ≤ h) (hS : 1 ≤ S) (hS2 : S ≤ 2 ^ 31)
    (hwS : (w : ℝ) ≤ S) (hhS : (h : ℝ) ≤ S) (hv : ∀ v ∈ points, Bounded S (exactly v))
    (hlong : ∀ s ∈ Slsm.sides (points.map exactly), 1 / 10 ^ 6 + 1 / 10 ^ 12 ≤ (s.2.x - s.1.x) ^ 2 + (s.2.y - s.1.y) ^ 2) :
    ∃ u m inside, isInsidePolygon (⟨FP.nat x, FP.nat y⟩ : Coord R.Num) points = .ok inside ∧ lay w L.signedDistance x y = (if inside then -u else u) ∧
      0 ≤ u ∧ IsLeast ({(edgeDist w h x y : ℝ)} ∪ {d | ∃ s ∈ Slsm.sides (points.map exactly), d ∈ segDistances (lattice x y) s.1 s.2}) m ∧
      |u - m| ≤ S / 2 ^ 45 := by
  have hex : exactly (⟨FP.nat x, FP.nat y⟩ : Coord R.Num) = lattice x y := exactly_nat (by nlinarith) (by nlinarith)
  refine points_value hw hh hN hb e hx hy (by positivity) fun s hs => ?_
  obtain ⟨m1, m2⟩ := ends_of_side hs
  have := segment_near hS hS2 (hv _ m1) (hv _ m2) (p := ⟨FP.nat x, FP.nat y⟩) (by rw [hex]; exact lattice_bounded hwS hhS hx hy) (hlong _ (side_exactly hs))
  rwa [hex] at this

/-- **C107** (values, any sides): the same for polygons with arbitrarily short sides, with an error of at most a thousandth (and a millionth) more. -/
theorem C107_any_value (hw : 1 ≤ w) (hh : 1 ≤ h) (hN : (w + 1) * (h + 1) < 2 ^ 31) (hb : bandWidth < 2 ^ 32)
    (e : LevelSet.new w h (.points points) moveLimit bandWidth f = .ok L) {x y : Nat} (hx : x ≤ w) (hy : y ≤ h) (hS : 1 ≤ S) (hS2 : S ≤ 2 ^ 31)
    (hwS : (w : ℝ) ≤ S) (hhS : (h : ℝ) ≤ S) (hv : ∀ v ∈ points, Bounded S (exactly v)) :
    ∃ u m inside, isInsidePolygon (⟨FP.nat x, FP.nat y⟩ : Coord R.Num) points = .ok inside ∧ lay w L.signedDistance x y = (if inside then -u else u) ∧
      0 ≤ u ∧ IsLeast ({(edgeDist w h x y : ℝ)} ∪ {d | ∃ s ∈ Slsm.sides (points.map exactly), d ∈ segDistances (lattice x y) s.1 s.2}) m ∧
      |u - m| ≤ 1001 / 10 ^ 6 + S / 2 ^ 45 := by
  have hex : exactly (⟨FP.nat x, FP.nat y⟩ : Coord R.Num) = lattice x y := exactly_nat (by nlinarith) (by nlinarith)
  refine points_value hw hh hN hb e hx hy (by positivity) fun s hs => ?_
  obtain ⟨m1, m2⟩ := ends_of_side hs
  have := side_near hS hS2 (hv _ m1) (hv _ m2) (p := ⟨FP.nat x, FP.nat y⟩) (by rw [hex]; exact lattice_bounded hwS hhS hx hy)
  rwa [hex] at this

/-- **C107** (whole vertices): for a polygon whose vertices have whole coordinates up to `2²⁵`, consecutive ones distinct, the value at every node is
within `2⁻²⁰` of the exact signed distance: negative inside, that is where the crossing number of the polygon is not zero. -/
theorem C107_whole_polygon (hw : 1 ≤ w) (hh : 1 ≤ h) (hN : (w + 1) * (h + 1) < 2 ^ 31) (hb : bandWidth < 2 ^ 32)
    (e : LevelSet.new w h (.points points) moveLimit bandWidth f = .ok L) {x y : Nat} (hx : x ≤ w) (hy : y ≤ h) (hw2 : w ≤ 2 ^ 25) (hh2 : h ≤ 2 ^ 25)
    (hv : ∀ v ∈ points, Whole (exactly v)) (hne : ∀ s ∈ Slsm.sides (points.map exactly), s.1 ≠ s.2) :
    ∃ u m, lay w L.signedDistance x y = (if crossingNumber (lattice x y) (points.map exactly) ≠ 0 then -u else u) ∧ 0 ≤ u ∧
      IsLeast ({(edgeDist w h x y : ℝ)} ∪ {d | ∃ s ∈ Slsm.sides (points.map exactly), d ∈ segDistances (lattice x y) s.1 s.2}) m ∧
      |u - m| ≤ 1 / 2 ^ 20 := by
  have hpts : points ≠ [] := by rintro rfl; exact new_points_nil e
  have hex : exactly (⟨FP.nat x, FP.nat y⟩ : Coord R.Num) = lattice x y := exactly_nat (by omega) (by omega)
  have bd : ∀ {k : ℤ} {c : ℝ}, |k| ≤ 2 ^ 25 → c = k → |c| ≤ 2 ^ 25 := by
    rintro k c hk rfl
    rw [← Int.cast_abs]
    exact_mod_cast hk
  have hB : ∀ v ∈ points, Bounded (2 ^ 25) (exactly v) := fun v hm => by
    obtain ⟨⟨a, ha, ea⟩, b, hb, eb⟩ := hv v hm
    exact ⟨bd ha ea, bd hb eb⟩
  obtain ⟨u, m, inside, h1, h2, h3, h4, h5⟩ := C107_value (S := 2 ^ 25) hw hh hN hb e hx hy (by norm_num) (by norm_num)
    (by exact_mod_cast hw2) (by exact_mod_cast hh2) hB (fun s hs => by
      obtain ⟨m1, m2⟩ := ends_of_side hs
      obtain ⟨v1, n1, e1⟩ := List.mem_map.1 m1
      obtain ⟨v2, n2, e2⟩ := List.mem_map.1 m2
      obtain ⟨⟨a, -, ea⟩, b, -, eb⟩ := hv v1 n1
      obtain ⟨⟨c, -, ec⟩, d, -, ed⟩ := hv v2 n2
      rw [e1] at ea eb
      rw [e2] at ec ed
      have hz : (s.2.x - s.1.x) ^ 2 + (s.2.y - s.1.y) ^ 2 = (((c - a) ^ 2 + (d - b) ^ 2 : ℤ) : ℝ) := by
        rw [ea, eb, ec, ed]; push_cast; ring
      have hpos : 0 < (c - a) ^ 2 + (d - b) ^ 2 := by
        rcases eq_or_ne (c - a) 0 with h | h
        · rcases eq_or_ne (d - b) 0 with h' | h'
          · exfalso
            apply hne s hs
            have k1 : s.1.x = s.2.x := by rw [ea, ec]; congr 1; omega
            have k2 : s.1.y = s.2.y := by rw [eb, ed]; congr 1; omega
            generalize s.1 = z1 at k1 k2
            generalize s.2 = z2 at k1 k2
            cases z1; cases z2
            simp only at k1 k2
            rw [k1, k2]
          · positivity
        · positivity
      have : (1 : ℝ) ≤ (((c - a) ^ 2 + (d - b) ^ 2 : ℤ) : ℝ) := by exact_mod_cast hpos
      rw [hz]
      exact le_trans (by norm_num) this)
  have hin := C107_whole_inside (p := (⟨FP.nat x, FP.nat y⟩ : Coord R.Num)) hpts hv (by
    rw [hex]
    refine ⟨⟨x, ?_, by simp [lattice]⟩, y, ?_, by simp [lattice]⟩ <;> rw [Nat.abs_cast] <;> norm_cast <;> omega)
  rw [hin, hex] at h1
  injection h1 with h1
  refine ⟨u, m, ?_, h3, h4, h5.trans (by norm_num)⟩
  rw [h2, ← h1]
  simp only [decide_eq_true_eq]

end

/-! ### A case in IEEE binary64 -/

/-- The square from `(2, 2)` to `(8, 8)`. -/
noncomputable def square64 : List (Coord binary64.Num) :=
  [⟨FP.nat 2, FP.nat 2⟩, ⟨FP.nat 8, FP.nat 2⟩, ⟨FP.nat 8, FP.nat 8⟩, ⟨FP.nat 2, FP.nat 8⟩, ⟨FP.nat 2, FP.nat 2⟩]

theorem square64_exactly : square64.map exactly = [⟨2, 2⟩, ⟨8, 2⟩, ⟨8, 8⟩, ⟨2, 8⟩, ⟨2, 2⟩] := by
  unfold square64 exactly
  simp only [List.map_cons, List.map_nil]
  rw [val_nat (by norm_num), val_nat (by norm_num)]
  norm_num

/-- In binary64 the level set is constructed, the conditions of all parts hold, and the value in the middle is nearly `-3`. -/
example : ∃ L : LevelSet binary64.Num, LevelSet.new 10 10 (.points square64) (Boundary.halfNum 1 (by norm_num)) 6 false = .ok L ∧
    (∀ v ∈ square64, Whole (exactly v)) ∧ |lay 10 L.signedDistance 5 5 - (-3)| ≤ 1 / 2 ^ 20 := by
  have hb : 6 < 2 ^ 32 := by norm_num
  obtain ⟨L, e⟩ := (C22_accepts_iff (D := binary64.Num) (w := 10) (h := 10) (by norm_num) (by norm_num) (by norm_num) (.points square64)
    (by simp [square64]) (Boundary.halfNum 1 (by norm_num)) 6 hb false).2.2 ⟨by norm_num, by rw [lt_iff, val_zero]; simp [Boundary.halfNum], by
      rw [lt_iff, val_one]; simp only [Boundary.halfNum]; norm_num, fun h => by cases h⟩
  have hW : ∀ v ∈ square64, Whole (exactly v) := by
    intro v hv
    have : exactly v ∈ square64.map exactly := List.mem_map_of_mem hv
    rw [square64_exactly] at this
    simp only [List.mem_cons, List.not_mem_nil, or_false] at this
    rcases this with h | h | h | h | h <;> rw [h]
    · exact ⟨⟨2, by norm_num, by norm_num⟩, 2, by norm_num, by norm_num⟩
    · exact ⟨⟨8, by norm_num, by norm_num⟩, 2, by norm_num, by norm_num⟩
    · exact ⟨⟨8, by norm_num, by norm_num⟩, 8, by norm_num, by norm_num⟩
    · exact ⟨⟨2, by norm_num, by norm_num⟩, 8, by norm_num, by norm_num⟩
    · exact ⟨⟨2, by norm_num, by norm_num⟩, 2, by norm_num, by norm_num⟩
  have hs : ∀ s ∈ Slsm.sides (square64.map exactly), s.1 ≠ s.2 ∧ ∀ d ∈ segDistances (lattice 5 5) s.1 s.2, 3 ≤ d := by
    rw [square64_exactly]
    intro s hs
    simp only [Slsm.sides, List.tail_cons, List.zip_cons_cons, List.zip_nil_right, List.mem_cons, List.not_mem_nil, or_false] at hs
    rcases hs with rfl | rfl | rfl | rfl <;> refine ⟨by simp, ?_⟩ <;> rintro d ⟨t, -, -, rfl⟩ <;> unfold distance along lattice <;>
      refine Real.le_sqrt_of_sq_le ?_ <;> dsimp only <;> norm_num <;> nlinarith [sq_nonneg t, sq_nonneg (5 - (2 + t * 6)), sq_nonneg (5 - (8 + t * (-6)))]
  refine ⟨L, e, hW, ?_⟩
  obtain ⟨u, m, h1, -, h3, h4⟩ := C107_whole_polygon (w := 10) (h := 10) (by norm_num) (by norm_num) (by norm_num) hb e (x := 5) (y := 5) (by norm_num)
    (by norm_num) (by norm_num) (by norm_num) hW fun s hs' => (hs s hs').1
  have hc : crossingNumber (lattice 5 5) (square64.map exactly) ≠ 0 := by
    rw [square64_exactly]
    exact (C26_rectangle (by norm_num) (by norm_num) (lattice 5 5)).2 ⟨by norm_num [lattice], by norm_num [lattice], by norm_num [lattice], by norm_num [lattice]⟩
  rw [if_pos hc] at h1
  have m3 : m = 3 := by
    refine h3.unique ⟨.inr ⟨(⟨2, 2⟩, ⟨8, 2⟩), by rw [square64_exactly]; simp [Slsm.sides], 1 / 2, by norm_num, by norm_num, ?_⟩, ?_⟩
    · unfold distance along lattice
      rw [show (3 : ℝ) = Real.sqrt (3 ^ 2) by rw [Real.sqrt_sq]; norm_num]
      norm_num
    · rintro d (hd | ⟨s, hs', hd⟩)
      · rw [Set.mem_singleton_iff] at hd
        rw [hd]
        norm_num [edgeDist]
      · exact (hs s hs').2 d hd
  rw [m3] at h4
  rw [h1, abs_sub_comm, show -3 - -u = u - 3 by ring]
  exact h4

/-- The square from `(3/2, 3/2)` to `(17/2, 17/2)`, its vertices are not whole, meets the conditions of the inside test in its middle. -/
example : let vs : List (Coord binary64.Num) := let a := Boundary.halfNum 3 (by norm_num); let b := Boundary.halfNum 17 (by norm_num)
      [⟨a, a⟩, ⟨b, a⟩, ⟨b, b⟩, ⟨a, b⟩, ⟨a, a⟩]
    (∀ v ∈ vs, Bounded 10 (exactly v)) ∧ ∀ s ∈ Slsm.sides (vs.map exactly), (s.1.y ≤ (lattice 5 5).y ↔ (lattice 5 5).y < s.2.y) →
      cross (lattice 5 5) s.1 s.2 = 0 ∨ 1 + (10 : ℝ) ^ 2 / 2 ^ 46 ≤ |cross (lattice 5 5) s.1 s.2| := by
  intro vs
  have hv : vs.map exactly = [⟨3 / 2, 3 / 2⟩, ⟨17 / 2, 3 / 2⟩, ⟨17 / 2, 17 / 2⟩, ⟨3 / 2, 17 / 2⟩, ⟨3 / 2, 3 / 2⟩] := by
    simp [vs, exactly, Boundary.halfNum]
  constructor
  · intro v hm
    have : exactly v ∈ vs.map exactly := List.mem_map_of_mem hm
    rw [hv] at this
    simp only [List.mem_cons, List.not_mem_nil, or_false] at this
    unfold Bounded
    rcases this with h | h | h | h | h <;> rw [h] <;> norm_num [abs_of_pos]
  · rw [hv]
    intro s hs _
    simp only [Slsm.sides, List.tail_cons, List.zip_cons_cons, List.zip_nil_right, List.mem_cons, List.not_mem_nil, or_false] at hs
    right
    rcases hs with rfl | rfl | rfl | rfl <;> unfold cross lattice <;> norm_num [abs_of_pos]

end LevelSet

end Slsm
