import Verif.Proof.Reinit
import Verif.Props.Demo
import Verif.Proof.Columns

/-! # C81: where the boundary is after reinitialisation -/

namespace Slsm.LevelSet

open Program

variable {w h : Nat} {L L' : LevelSet ℝ} {p : Place}

/-- **C81** (place): reinitialisation leaves the boundary on every edge that it cuts, and moves it to the point that divides the edge in the ratio of the estimated
distances of the ends. -/
theorem C81_place (hr : Reachable w h L) (e : reinitialise L = .ok L') (hg : p.inGrid w h) (hc : p.cut (Boundary.level w L false)) :
    p.cut (Boundary.level w L' false) ∧ 0 < lineDistance w h L p.first ∧ 0 < lineDistance w h L p.last ∧
    p.coord (Boundary.level w L' false) = along (latticePoint p.first) (latticePoint p.last)
      (lineDistance w h L p.first / (lineDistance w h L p.first + lineDistance w h L p.last)) := by
  obtain ⟨i1, i2, a1, a2⟩ := edge_adj hg hc
  have hs := cut_iff.1 hc
  obtain ⟨s1, d1, p1⟩ := cut_ends hr e i1 a1 hs
  obtain ⟨s2, d2, p2⟩ := cut_ends hr e i2 a2 (by rw [mul_comm]; exact hs)
  have hc' : p.cut (Boundary.level w L' false) := cut_iff.2 ((sameSide_mul s1 s2).1 hs)
  refine ⟨hc', p1, p2, ?_⟩
  rw [coord_along hc']
  show along _ _ (|vals L'.signedDistance _| / (|vals L'.signedDistance _| + |vals L'.signedDistance _|)) = _
  rw [d1, d2]

/-- **C81** (partial, edges): the boundary stays on the same edges and moves less than the length of an edge; it does not appear on another edge,
unless a node changes sides (`C17_side_kept_partial`). -/
theorem C81_edges_partial (hr : Reachable w h L) (e : reinitialise L = .ok L') (hg : p.inGrid w h) :
    (p.cut (Boundary.level w L false) → p.cut (Boundary.level w L' false) ∧
      Boundary.distance (p.coord (Boundary.level w L' false)) (p.coord (Boundary.level w L false)) < 1) ∧
    ((∀ i, i < L.mesh.nNodes → SameSide (vals L.signedDistance i) (vals L'.signedDistance i)) → p.cut (Boundary.level w L' false) →
      p.cut (Boundary.level w L false)) := by
  have hlt : ∀ q ∈ p.ends, nodeNo w q.1 q.2 < L.mesh.nNodes := fun q hq => by
    rw [hr.core.grid.nNodes]
    exact nodeNo_lt (hg q hq).1 (hg q hq).2
  constructor
  · intro hc
    obtain ⟨h1, -⟩ := C81_place hr e hg hc
    refine ⟨h1, ?_⟩
    rw [coord_along h1, coord_along hc]
    have frac : ∀ {a b : ℝ}, a * b < 0 → 0 < |a| / (|a| + |b|) ∧ |a| / (|a| + |b|) < 1 := by
      intro a b hab
      have ha : 0 < |a| := abs_pos.2 fun h0 => by rw [h0, zero_mul] at hab; exact lt_irrefl _ hab
      have hb : 0 < |b| := abs_pos.2 fun h0 => by rw [h0, mul_zero] at hab; exact lt_irrefl _ hab
      exact ⟨by positivity, (div_lt_one (by positivity)).2 (by linarith)⟩
    obtain ⟨f1, f2⟩ := frac (cut_iff.1 hc)
    obtain ⟨f3, f4⟩ := frac (cut_iff.1 h1)
    generalize |Boundary.level w L false p.first.1 p.first.2| / _ = t at *
    generalize |Boundary.level w L' false p.first.1 p.first.2| / _ = t' at *
    have hlen : ((latticePoint p.last).x - (latticePoint p.first).x) ^ 2 + ((latticePoint p.last).y - (latticePoint p.first).y) ^ 2 = 1 := by
      cases p with
      | node x y => exact absurd hc id
      | hor x y => unfold latticePoint Place.first Place.last; push_cast; ring
      | ver x y => unfold latticePoint Place.first Place.last; push_cast; ring
    unfold Boundary.distance along
    dsimp only
    rw [Real.sqrt_lt' one_pos]
    have : (t' - t) ^ 2 < 1 := by nlinarith
    calc _ = (t' - t) ^ 2 * (((latticePoint p.last).x - (latticePoint p.first).x) ^ 2 + ((latticePoint p.last).y - (latticePoint p.first).y) ^ 2) := by ring
      _ < 1 ^ 2 := by rw [hlen]; linarith
  · intro hs hc
    rw [cut_iff] at hc ⊢
    have m1 : p.first ∈ p.ends := by cases p <;> simp [Place.first, Place.ends]
    have m2 : p.last ∈ p.ends := by cases p <;> simp [Place.last, Place.ends]
    exact (sameSide_mul (hs _ (hlt _ m1)) (hs _ (hlt _ m2))).2 hc

/-- **C81** (straight boundary): where the boundary is straight the reinitialisation leaves it in place. -/
theorem C81_straight (hr : Reachable w h L) (e : reinitialise L = .ok L') (hg : p.inGrid w h) (hc : p.cut (Boundary.level w L false)) {a b c : ℝ}
    (hab : a ≠ 0 ∨ b ≠ 0) (h1 : StraightAt w h L a b c p.first) (h2 : StraightAt w h L a b c p.last) :
    p.coord (Boundary.level w L' false) = p.coord (Boundary.level w L false) := by
  obtain ⟨i1, i2, -, -⟩ := edge_adj hg hc
  rw [coord_along (C81_place hr e hg hc).1, coord_along hc]
  congr 1
  have hS : 0 < Real.sqrt (a ^ 2 + b ^ 2) := Real.sqrt_pos.2 (by rcases hab with h | h <;> positivity)
  show |vals L'.signedDistance _| / (|vals L'.signedDistance _| + |vals L'.signedDistance _|) = |vals L.signedDistance _| / (|vals L.signedDistance _| + |vals L.signedDistance _|)
  rw [straight_ends hr e hab i1 h1, straight_ends hr e hab i2 h2, ← add_div, div_div_div_cancel_right₀ hS.ne']

/-- The hypotheses are met, for example, by a diagonal in a domain of 5 × 5 cells, on all horizontal edges but the lowest. -/
example : ∃ L L' : LevelSet ℝ, Reachable 5 5 L ∧ reinitialise L = .ok L' ∧ ∀ x y, x + y = 4 → 1 ≤ y → (Place.hor x y).inGrid 5 5 ∧
    (Place.hor x y).cut (Boundary.level 5 L false) ∧ StraightAt 5 5 L 2 2 (-9) (Place.hor x y).first ∧ StraightAt 5 5 L 2 2 (-9) (Place.hor x y).last := by
  obtain ⟨L, hL⟩ := (C22_accepts_iff (D := ℝ) (w := 5) (h := 5) (by norm_num) (by norm_num) (by norm_num)
    (.holes []) (by simp) (1 / 2) 3 (by norm_num) false).2.2
    ⟨by norm_num, by norm_num, by norm_num, fun h => by cases h⟩
  have hr : Reachable 5 5 L := .new (by norm_num) (by norm_num) (by norm_num) (by norm_num) hL
  have C := hr.core
  have hN : L.mesh.nNodes = 36 := C.grid.nNodes
  let L1 : LevelSet ℝ := { L with signedDistance := (List.range 36).map fun i => 2 * ((i % 6 : Nat) : ℝ) + 2 * ((i / 6 : Nat) : ℝ) + -9, target := [] }
  have hr1 : Reachable 5 5 L1 := .call hr (.assign _ L.velocity L.gradient [] (by simp [hN]) C.velocity C.gradient)
  have hv : ∀ x y, x ≤ 5 → y ≤ 5 → vals L1.signedDistance (nodeNo 5 x y) = 2 * x + 2 * y + -9 := by
    intro x y hx hy
    have hlt : nodeNo 5 x y < 36 := nodeNo_lt (w := 5) (h := 5) hx hy
    show vals (List.map _ _) _ = _
    rw [vals_map_range _ hlt, show nodeNo 5 x y % 6 = x by unfold nodeNo; omega, show nodeNo 5 x y / 6 = y by unfold nodeNo; omega]
  have cut : ∀ x y, x + y = 4 → vals L1.signedDistance (nodeNo 5 x y) = -1 ∧ vals L1.signedDistance (nodeNo 5 (x + 1) y) = 1 ∧
      vals L1.signedDistance (nodeNo 5 x (y + 1)) = 1 := by
    intro x y hxy
    have : (x : ℝ) + y = 4 := by exact_mod_cast hxy
    rw [hv x y (by omega) (by omega), hv (x + 1) y (by omega) (by omega), hv x (y + 1) (by omega) (by omega)]
    push_cast
    refine ⟨?_, ?_, ?_⟩ <;> linarith
  obtain ⟨L', e⟩ : ∃ L', reinitialise L1 = .ok L' := by
    rcases C27_reinitialise hr1 with ⟨L', F, e1, -⟩ | ⟨-, hno⟩
    · exact ⟨L', e1⟩
    · obtain ⟨c1, c2, -⟩ := cut 0 4 rfl
      refine absurd ⟨nodeNo 5 0 4, nodeNo_lt (w := 5) (h := 5) (by norm_num) (by norm_num),
        .inr ⟨nodeNo 5 1 4, .inl ⟨0, 1, 4, by norm_num, by norm_num, by norm_num, rfl, rfl, .inl rfl⟩, ?_⟩⟩ hno
      unfold Opposite
      rw [c1, c2]
      norm_num
  refine ⟨L1, L', hr1, e, fun x y hxy hy => ?_⟩
  obtain ⟨c1, c2, c3⟩ := cut x y hxy
  obtain ⟨d1, d2, d3⟩ := cut (x + 1) (y - 1) (by omega)
  refine ⟨fun q hq => ?_, ?_, ⟨fun x' y' hx' hy' _ => hv x' y' hx' hy', fun _ => ?_, fun _ => ?_⟩, fun x' y' hx' hy' _ => hv x' y' hx' hy', fun _ => ?_, fun _ => ?_⟩
  · simp only [Place.ends, List.mem_cons, List.not_mem_nil, or_false] at hq
    rcases hq with rfl | rfl <;> constructor <;> dsimp only <;> omega
  · show vals L1.signedDistance _ * vals L1.signedDistance _ < 0
    rw [c1, c2]; norm_num
  · exact ⟨_, ⟨x, x + 1, y, by omega, by omega, by omega, rfl, rfl, .inl rfl⟩, by simp only [Place.first]; rw [c1, c2]; norm_num⟩
  · exact ⟨_, ⟨x, y, y + 1, by omega, by omega, by omega, rfl, rfl, .inl rfl⟩, by simp only [Place.first]; rw [c1, c3]; norm_num⟩
  · exact ⟨_, ⟨x + 1, x, y, by omega, by omega, by omega, rfl, rfl, .inr rfl⟩, by simp only [Place.last]; rw [c1, c2]; norm_num⟩
  · exact ⟨_, ⟨x + 1, y, y - 1, by omega, by omega, by omega, rfl, rfl, .inr (by omega)⟩, by simp only [Place.last]; rw [d1, c2]; norm_num⟩

/-- **C81** (negation): reinitialisation moves the boundary, even if the level set has just been reinitialised. -/
theorem C81_moves : ∃ (L L1 L2 L1' L2' : LevelSet ℝ) (b1 b2 : Boundary ℝ), Reachable 5 5 L ∧ reinitialise L = .ok L1 ∧ reinitialise L1 = .ok L2 ∧
    Boundary.discretise L1 false = .ok (b1, L1') ∧ Boundary.discretise L2 false = .ok (b2, L2') ∧
    ∃ p ∈ b2.points, ∀ q ∈ b1.points, q.coord ≠ p.coord := by
  obtain ⟨L, hr, hf, hx⟩ := columns_level (cols 0)
  obtain ⟨L1, e1, hf1, hB1, hx1⟩ := columns_reinitialise (cols_turns 0) cols_nearest.1 hr hf hx
  have hf1 := hf1.congr cols_sign.1
  have hr1 : Reachable 5 5 L1 := .call hr (.reinitialise e1)
  obtain ⟨T1, N1⟩ := columns_tame (cols_turns 1) hr1 hf1 hB1 hx1
  obtain ⟨L2, e2, hf2, hB2, hx2⟩ := columns_reinitialise (cols_turns 1) cols_nearest.2 hr1 hf1 hx1
  have hf2 := hf2.congr cols_sign.2
  have hr2 : Reachable 5 5 L2 := .call hr1 (.reinitialise e2)
  obtain ⟨T2, N2⟩ := columns_tame (cols_turns 2) hr2 hf2 hB2 hx2
  obtain ⟨b1, L1', d1⟩ := C41_safe_partial T1
  obtain ⟨b2, L2', d2⟩ := C41_safe_partial T2
  exact ⟨L, L1, L2, L1', L2', b1, b2, hr, e1, e2, d1, d2, columns_moved T1 T2 hf1 hf2 d1 d2⟩

end Slsm.LevelSet
