import Verif.Proof.BndExact

/-! Number of segments at each place. -/

namespace Slsm

open FP

namespace Boundary

section
variable {w h : Nat} {ml : ℝ} {m0 : Mesh ℝ} {sd : List ℝ} {isTarget : Bool}

theorem sum_cell (F : Nat → Nat) (a b : Nat) :
    (∑ e ∈ Finset.range (w * h), if e % w = a ∧ e / w = b then F e else 0) = if a < w ∧ b < h then F (cellNo w a b) else 0 := by
  by_cases hab : a < w ∧ b < h
  · rw [if_pos hab]
    have : ∀ e ∈ Finset.range (w * h), (if e % w = a ∧ e / w = b then F e else 0) = if e = cellNo w a b then F e else 0 := by
      intro e _
      have : (e % w = a ∧ e / w = b) ↔ e = cellNo w a b := by
        constructor
        · rintro ⟨rfl, rfl⟩
          unfold cellNo
          rw [mul_comm]; exact (Nat.mod_add_div e w).symm
        · rintro rfl
          exact ⟨idx_mod hab.1, idx_div hab.1⟩
      simp only [this]
    rw [Finset.sum_congr rfl this, Finset.sum_ite_eq', if_pos]
    rw [Finset.mem_range]
    unfold cellNo
    obtain ⟨h1, h2⟩ := hab
    calc a + b * w < w + b * w := by omega
      _ = (b + 1) * w := by ring
      _ ≤ h * w := Nat.mul_le_mul_right _ h2
      _ = w * h := Nat.mul_comm _ _
  · rw [if_neg hab]
    refine Finset.sum_eq_zero fun e he => if_neg ?_
    rintro ⟨rfl, rfl⟩
    rw [Finset.mem_range] at he
    refine hab ⟨Nat.mod_lt _ (Nat.pos_of_ne_zero ?_), Nat.div_lt_of_lt_mul he⟩
    rintro rfl
    simp at he

theorem sum_cell_x (F : Nat → Nat) (a b : Nat) :
    (∑ e ∈ Finset.range (w * h), if e % w + 1 = a ∧ e / w = b then F e else 0) = if 0 < a ∧ a ≤ w ∧ b < h then F (cellNo w (a - 1) b) else 0 := by
  cases a with
  | zero => simp
  | succ a =>
    simp only [Nat.add_right_cancel_iff]
    rw [sum_cell]
    simp only [Nat.add_sub_cancel, Nat.succ_pos, true_and, Nat.succ_le_iff]

theorem sum_cell_y (F : Nat → Nat) (a b : Nat) :
    (∑ e ∈ Finset.range (w * h), if e % w = a ∧ e / w + 1 = b then F e else 0) = if a < w ∧ 0 < b ∧ b ≤ h then F (cellNo w a (b - 1)) else 0 := by
  cases b with
  | zero => simp
  | succ b =>
    simp only [Nat.add_right_cancel_iff]
    rw [sum_cell]
    simp only [Nat.add_sub_cancel, Nat.succ_pos, true_and, Nat.succ_le_iff]

theorem sum_cell_xy (F : Nat → Nat) (a b : Nat) :
    (∑ e ∈ Finset.range (w * h), if e % w + 1 = a ∧ e / w + 1 = b then F e else 0) =
      if 0 < a ∧ a ≤ w ∧ 0 < b ∧ b ≤ h then F (cellNo w (a - 1) (b - 1)) else 0 := by
  cases b with
  | zero => simp
  | succ b =>
    simp only [Nat.add_right_cancel_iff]
    rw [sum_cell_x]
    simp only [Nat.add_sub_cancel, Nat.succ_pos, true_and, Nat.succ_le_iff]

theorem em (x y : Nat) (hx : x < w) : cellNo w x y % w = x := idx_mod hx
theorem ed (x y : Nat) (hx : x < w) : cellNo w x y / w = y := idx_div hx

theorem hor_degree {px py : Nat} (hp : (Place.hor px py).inGrid w h) :
    occ (.hor px py) (run w m0 sd isTarget (w * h)).pairs =
      (if py < h then occ (.e 0) (cellArcs w m0 sd isTarget px py) else 0) +
      (if 0 < py then occ (.e 2) (cellArcs w m0 sd isTarget px (py - 1)) else 0) := by
  have h1 := hp (px + 1, py) (by simp [Place.ends])
  dsimp only at h1
  rw [run_occ]
  have : ∀ e ∈ Finset.range (w * h), occ (.hor px py) ((cellArcs w m0 sd isTarget (e % w) (e / w)).map fun g =>
      (g.1.place (e % w) (e / w), g.2.place (e % w) (e / w))) =
      (if e % w = px ∧ e / w = py then occ (.e 0) (cellArcs w m0 sd isTarget (e % w) (e / w)) else 0) +
      (if e % w = px ∧ e / w + 1 = py then occ (.e 2) (cellArcs w m0 sd isTarget (e % w) (e / w)) else 0) := by
    intro e _
    rw [cell_occ]
    simp [eight, LP.place, edgeAt]
  rw [Finset.sum_congr rfl this, Finset.sum_add_distrib, sum_cell, sum_cell_y, em _ _ (by omega), ed _ _ (by omega), em _ _ (by omega), ed _ _ (by omega)]
  congr 1
  · simp only [show px < w from by omega, true_and]
  · simp only [show px < w from by omega, true_and, h1.2, and_true]

theorem ver_degree {px py : Nat} (hp : (Place.ver px py).inGrid w h) :
    occ (.ver px py) (run w m0 sd isTarget (w * h)).pairs =
      (if px < w then occ (.e 3) (cellArcs w m0 sd isTarget px py) else 0) +
      (if 0 < px then occ (.e 1) (cellArcs w m0 sd isTarget (px - 1) py) else 0) := by
  have h1 := hp (px, py + 1) (by simp [Place.ends])
  dsimp only at h1
  rw [run_occ]
  have : ∀ e ∈ Finset.range (w * h), occ (.ver px py) ((cellArcs w m0 sd isTarget (e % w) (e / w)).map fun g =>
      (g.1.place (e % w) (e / w), g.2.place (e % w) (e / w))) =
      (if e % w = px ∧ e / w = py then occ (.e 3) (cellArcs w m0 sd isTarget (e % w) (e / w)) else 0) +
      (if e % w + 1 = px ∧ e / w = py then occ (.e 1) (cellArcs w m0 sd isTarget (e % w) (e / w)) else 0) := by
    intro e _
    rw [cell_occ]
    simp [eight, LP.place, edgeAt]
    omega
  rw [Finset.sum_congr rfl this, Finset.sum_add_distrib, sum_cell, sum_cell_x]
  congr 1
  · by_cases hx : px < w
    · rw [em _ _ hx, ed _ _ hx]
      simp only [show py < h from by omega, and_true]
    · simp [hx]
  · by_cases hx : 0 < px
    · rw [em _ _ (by omega), ed _ _ (by omega)]
      simp only [show py < h from by omega, and_true, h1.1]
    · simp [hx]

theorem node_degree {qx qy : Nat} (hp : (Place.node qx qy).inGrid w h) :
    occ (.node qx qy) (run w m0 sd isTarget (w * h)).pairs =
      (if qx < w ∧ qy < h then occ (.c 0) (cellArcs w m0 sd isTarget qx qy) else 0) +
      (if 0 < qx ∧ qy < h then occ (.c 1) (cellArcs w m0 sd isTarget (qx - 1) qy) else 0) +
      (if 0 < qx ∧ 0 < qy then occ (.c 2) (cellArcs w m0 sd isTarget (qx - 1) (qy - 1)) else 0) +
      (if qx < w ∧ 0 < qy then occ (.c 3) (cellArcs w m0 sd isTarget qx (qy - 1)) else 0) := by
  have h1 := hp (qx, qy) (by simp [Place.ends])
  dsimp only at h1
  rw [run_occ]
  have : ∀ e ∈ Finset.range (w * h), occ (.node qx qy) ((cellArcs w m0 sd isTarget (e % w) (e / w)).map fun g =>
      (g.1.place (e % w) (e / w), g.2.place (e % w) (e / w))) =
      (if e % w = qx ∧ e / w = qy then occ (.c 0) (cellArcs w m0 sd isTarget (e % w) (e / w)) else 0) +
      (if e % w + 1 = qx ∧ e / w = qy then occ (.c 1) (cellArcs w m0 sd isTarget (e % w) (e / w)) else 0) +
      (if e % w + 1 = qx ∧ e / w + 1 = qy then occ (.c 2) (cellArcs w m0 sd isTarget (e % w) (e / w)) else 0) +
      (if e % w = qx ∧ e / w + 1 = qy then occ (.c 3) (cellArcs w m0 sd isTarget (e % w) (e / w)) else 0) := by
    intro e _
    rw [cell_occ]
    simp [eight, LP.place, edgeAt, cornerAt]
    omega
  rw [Finset.sum_congr rfl this, Finset.sum_add_distrib, Finset.sum_add_distrib, Finset.sum_add_distrib, sum_cell, sum_cell_x, sum_cell_xy, sum_cell_y]
  congr 1
  · congr 1
    · congr 1
      · split_ifs with hc
        · rw [em _ _ hc.1, ed _ _ hc.1]
        · rfl
      · by_cases hx : 0 < qx
        · rw [em _ _ (by omega), ed _ _ (by omega)]
          simp only [hx, h1.1, true_and]
        · simp [hx]
    · by_cases hx : 0 < qx
      · rw [em _ _ (by omega), ed _ _ (by omega)]
        simp only [hx, h1.1, h1.2, true_and, and_true]
      · simp [hx]
  · by_cases hx : qx < w
    · rw [em _ _ hx, ed _ _ hx]
      simp only [hx, h1.2, true_and, and_true]
    · simp [hx]

/-- Every crossed edge is looked at. -/
def Vis (w h : Nat) (m0 : Mesh ℝ) (sd : List ℝ) (isTarget : Bool) : Prop :=
  ∀ x y j, x < w → y < h → j < 4 → Crossed (side w sd x y j) (side w sd x y (after j)) → look w m0 isTarget x y j = true

theorem Vis.pick (V : Vis w h m0 sd isTarget) {x y : Nat} (hx : x < w) (hy : y < h) : ∀ j ∈ List.range 4,
    cutPair (pick (side w sd x y 0) (side w sd x y 1) (side w sd x y 2) (side w sd x y 3) j)
      (pick (side w sd x y 0) (side w sd x y 1) (side w sd x y 2) (side w sd x y 3) (after j)) = true →
    pick (look w m0 isTarget x y 0) (look w m0 isTarget x y 1) (look w m0 isTarget x y 2) (look w m0 isTarget x y 3) j = true := by
  intro j hj hc
  rw [List.mem_range] at hj
  rw [pick_eq _ hj]
  rw [pick_eq _ hj, pick_eq _ (after_lt hj), cutPair_iff] at hc
  exact V x y j hx hy hj hc

theorem edge_once (V : Vis w h m0 sd isTarget) {x y j : Nat} (hx : x < w) (hy : y < h) (hj : j < 4)
    (hc : Crossed (side w sd x y j) (side w sd x y (after j))) : occ (.e j) (cellArcs w m0 sd isTarget x y) = 1 := by
  unfold cellArcs
  rw [arcs_pick]
  refine table_cut _ (side_mem w sd x y 0) _ (side_mem w sd x y 1) _ (side_mem w sd x y 2) _ (side_mem w sd x y 3)
    _ _ _ _ _ (V.pick hx hy) j (List.mem_range.2 hj) ?_
  rw [pick_eq _ hj, pick_eq _ (after_lt hj)]
  exact cutPair_iff.2 hc

/-- A crossed edge belongs to one segment of each of its cells. -/
theorem edge_degree (V : Vis w h m0 sd isTarget) {p : Place} (hp : p.inGrid w h) (hc : p.onContour (onGrid w sd))
    (he : ∀ x y, p ≠ .node x y) : occ p (run w m0 sd isTarget (w * h)).pairs = (p.cells w h).length := by
  cases p with
  | node x y => exact absurd rfl (he x y)
  | hor x y =>
    have h1 := hp (x + 1, y) (by simp [Place.ends])
    dsimp only at h1
    rw [hor_degree hp, Place.cells, List.length_append, add_comm]
    congr 1
    · by_cases h0 : 0 < y
      · rw [if_pos h0, if_pos h0]
        have hh : y - 1 + 1 = y := by omega
        refine edge_once V (by omega) (by omega) (by omega) ?_
        rw [show side w sd x (y - 1) 2 = nodeSide (onGrid w sd (x + 1) y) by simp only [side, cornerAt]; rw [hh],
          show side w sd x (y - 1) (after 2) = nodeSide (onGrid w sd x y) by unfold side cornerAt after; simp [hh]]
        exact Crossed.symm hc
      · rw [if_neg h0, if_neg h0]; rfl
    · by_cases h0 : y < h
      · rw [if_pos h0, if_pos h0]
        exact edge_once V (by omega) h0 (by omega) hc
      · rw [if_neg h0, if_neg h0]; rfl
  | ver x y =>
    have h1 := hp (x, y + 1) (by simp [Place.ends])
    dsimp only at h1
    rw [ver_degree hp, Place.cells, List.length_append, add_comm]
    congr 1
    · by_cases h0 : 0 < x
      · rw [if_pos h0, if_pos h0]
        have hh : x - 1 + 1 = x := by omega
        refine edge_once V (by omega) (by omega) (by omega) ?_
        rw [show side w sd (x - 1) y 1 = nodeSide (onGrid w sd x y) by simp only [side, cornerAt]; rw [hh],
          show side w sd (x - 1) y (after 1) = nodeSide (onGrid w sd x (y + 1)) by unfold side cornerAt after; simp [hh]]
        exact hc
      · rw [if_neg h0, if_neg h0]; rfl
    · by_cases h0 : x < w
      · rw [if_pos h0, if_pos h0]
        exact edge_once V h0 (by omega) (by omega) (Crossed.symm hc)
      · rw [if_neg h0, if_neg h0]; rfl

theorem cells_le_two (p : Place) : (p.cells w h).length ≤ 2 := by
  cases p with
  | node x y => simp [Place.cells]
  | hor x y => simp only [Place.cells, List.length_append]; split_ifs <;> simp
  | ver x y => simp only [Place.cells, List.length_append]; split_ifs <;> simp

/-! ### the points -/

theorem addKeys_nodup {keys l : List Place} (h : keys.Nodup) : (addKeys keys l).Nodup := by
  unfold addKeys
  induction l generalizing keys with
  | nil => exact h
  | cons p l ih =>
    refine ih ?_
    unfold addKey
    split
    · exact h
    · rename_i hp
      exact List.nodup_append.2 ⟨h, List.nodup_singleton _, by
        intro a ha b hb; rw [List.mem_singleton] at hb; subst hb; intro e; subst e; exact hp ha⟩

theorem mem_keys {p : Place} {n : Nat} : p ∈ (run w m0 sd isTarget n).keys ↔
    ∃ e, e < n ∧ ∃ q ∈ cellMarks w m0 sd isTarget (e % w) (e / w), q.place (e % w) (e / w) = p := by
  show p ∈ addKeys [] (allMarks w m0 sd isTarget n) ↔ _
  rw [mem_addKeys_iff]
  unfold allMarks
  rw [upTo_mem]
  simp only [List.not_mem_nil, false_or, List.mem_map]

/-- The cell and the number of an edge. -/
theorem edge_cell {p : Place} (hw : 1 ≤ w) (hh : 1 ≤ h) (hp : p.inGrid w h) (he : ∀ x y, p ≠ .node x y) :
    ∃ x y j, x < w ∧ y < h ∧ j < 4 ∧ edgeAt x y j = p := by
  cases p with
  | node x y => exact absurd rfl (he x y)
  | hor x y =>
    have h1 := hp (x + 1, y) (by simp [Place.ends])
    dsimp only at h1
    by_cases h0 : y < h
    · exact ⟨x, y, 0, by omega, h0, by omega, rfl⟩
    · refine ⟨x, y - 1, 2, by omega, by omega, by omega, ?_⟩
      show Place.hor x (y - 1 + 1) = _
      rw [show y - 1 + 1 = y by omega]
  | ver x y =>
    have h1 := hp (x, y + 1) (by simp [Place.ends])
    dsimp only at h1
    by_cases h0 : x < w
    · exact ⟨x, y, 3, h0, by omega, by omega, rfl⟩
    · refine ⟨x - 1, y, 1, by omega, by omega, by omega, ?_⟩
      show Place.ver (x - 1 + 1) y = _
      rw [show x - 1 + 1 = x by omega]

/-- Every crossed edge has its point. -/
theorem edge_key (hw : 1 ≤ w) (hh : 1 ≤ h) (V : Vis w h m0 sd isTarget) {p : Place} (hp : p.inGrid w h) (hc : p.onContour (onGrid w sd))
    (he : ∀ x y, p ≠ .node x y) : p ∈ (run w m0 sd isTarget (w * h)).keys := by
  obtain ⟨x, y, j, hx, hy, hj, rfl⟩ := edge_cell hw hh hp he
  have hc' : Crossed (side w sd x y j) (side w sd x y (after j)) := (edgeAt_onContour hj).1 hc
  rw [mem_keys]
  refine ⟨cellNo w x y, ?_, .e j, ?_, ?_⟩
  · unfold cellNo
    calc x + y * w < w + y * w := by omega
      _ = (y + 1) * w := by ring
      _ ≤ h * w := Nat.mul_le_mul_right _ hy
      _ = w * h := Nat.mul_comm _ _
  · rw [em _ _ hx, ed _ _ hx]
    exact (cell_fair w m0 sd isTarget x y).2.2 j hj hc' (V x y j hx hy hj hc')
  · rw [em _ _ hx, ed _ _ hx]; rfl

/-! ### when the call returns -/

theorem flat_corner {f : Nat → Nat → ℝ} {x y : Nat}
    (F : ∃ q ∈ [(x, y), (x + 1, y), (x + 1, y + 1), (x, y + 1)], nodeSide (f q.1 q.2) ≠ .boundary) :
    ∃ j, j < 4 ∧ nodeSide (f (cornerAt x y j).1 (cornerAt x y j).2) ≠ .boundary := by
  obtain ⟨q, hq, hn⟩ := F
  simp only [List.mem_cons, List.not_mem_nil, or_false] at hq
  rcases hq with rfl | rfl | rfl | rfl
  · exact ⟨0, by omega, hn⟩
  · exact ⟨1, by omega, hn⟩
  · exact ⟨2, by omega, hn⟩
  · exact ⟨3, by omega, hn⟩

theorem tidy_cellOk (V : Vis w h m0 sd isTarget) {x y : Nat} (hx : x < w) (hy : y < h)
    (F : ∃ q ∈ [(x, y), (x + 1, y), (x + 1, y + 1), (x, y + 1)], nodeSide (onGrid w sd q.1 q.2) ≠ .boundary) :
    cellOk w m0 sd isTarget x y := by
  constructor
  · intro ho
    rw [defined_pick]
    exact table_defined _ (side_mem w sd x y 0) _ (side_mem w sd x y 1) _ (side_mem w sd x y 2) _ (side_mem w sd x y 3) _ _ _ _
      (V.pick hx hy) ho
  · unfold cellArcs
    rw [arcs_pick]
    obtain ⟨j, hj, hn⟩ := flat_corner F
    refine table_two _ (side_mem w sd x y 0) _ (side_mem w sd x y 1) _ (side_mem w sd x y 2) _ (side_mem w sd x y 3) _ _ _ _ _
      ⟨j, List.mem_range.2 hj, ?_⟩
    rw [pick_eq _ hj]
    exact hn

/-- Segments of a cell at a corner on the contour. -/
theorem corner_ends_le (V : Vis w h m0 sd isTarget) {x y j : Nat} (hx : x < w) (hy : y < h) (hj : j < 4) (hb : side w sd x y j = .boundary) :
    occ (.c j) (cellArcs w m0 sd isTarget x y) ≤
      cornerEnds (side w sd x y (before j)) (side w sd x y (after (after j))) (side w sd x y (after j)) := by
  have := table_ends_le _ (side_mem w sd x y 0) _ (side_mem w sd x y 1) _ (side_mem w sd x y 2) _ (side_mem w sd x y 3)
    (look w m0 isTarget x y 0) (look w m0 isTarget x y 1) (look w m0 isTarget x y 2) (look w m0 isTarget x y 3) (firstWay w sd x y)
    (V.pick hx hy) j (List.mem_range.2 hj) (by rw [pick_eq _ hj]; exact hb)
  unfold cellArcs
  rw [arcs_pick]
  rw [pick_eq _ (after_lt hj), pick_eq _ (before_lt hj), pick_eq _ (after_lt (after_lt hj))] at this
  exact this

theorem corner_ends (V : Vis w h m0 sd isTarget) {x y j : Nat} (hx : x < w) (hy : y < h) (hj : j < 4) (hb : side w sd x y j = .boundary)
    (H : ∀ k, k < 4 → side w sd x y k = .boundary → look w m0 isTarget x y k = true) :
    occ (.c j) (cellArcs w m0 sd isTarget x y) =
      cornerEnds (side w sd x y (before j)) (side w sd x y (after (after j))) (side w sd x y (after j)) := by
  have := table_ends _ (side_mem w sd x y 0) _ (side_mem w sd x y 1) _ (side_mem w sd x y 2) _ (side_mem w sd x y 3)
    (look w m0 isTarget x y 0) (look w m0 isTarget x y 1) (look w m0 isTarget x y 2) (look w m0 isTarget x y 3) (firstWay w sd x y)
    (by
      intro k hk hc
      rcases hc with hc | hc
      · exact V.pick hx hy k hk hc
      · rw [pick_eq _ (List.mem_range.1 hk)] at hc ⊢
        exact H k (List.mem_range.1 hk) hc) j (List.mem_range.2 hj) (by rw [pick_eq _ hj]; exact hb)
  unfold cellArcs
  rw [arcs_pick]
  rw [pick_eq _ (after_lt hj), pick_eq _ (before_lt hj), pick_eq _ (after_lt (after_lt hj))] at this
  exact this

/-- Rewriting of the sum over the cells around a lattice point. -/
theorem lattice_rel (r : Nat → Nat → Prop) (r0 : r 0 0) (radd : ∀ a b c d, r a b → r c d → r (a + c) (b + d)) {qx qy : Nat}
    (hp : (Place.node qx qy).inGrid w h) (hb : nodeSide (onGrid w sd qx qy) = .boundary)
    (H : ∀ x y j, x < w → y < h → j < 4 → cornerAt x y j = (qx, qy) → r (occ (.c j) (cellArcs w m0 sd isTarget x y))
      (cornerEnds (side w sd x y (before j)) (side w sd x y (after (after j))) (side w sd x y (after j)))) :
    r (occ (.node qx qy) (run w m0 sd isTarget (w * h)).pairs) (latticeEnds w h (onGrid w sd) qx qy) := by
  have h1 := hp (qx, qy) (by simp [Place.ends])
  dsimp only at h1
  rw [node_degree hp]
  unfold latticeEnds
  refine radd _ _ _ _ (radd _ _ _ _ (radd _ _ _ _ ?_ ?_) ?_) ?_
  · split_ifs with hc
    · exact H qx qy 0 hc.1 hc.2 (by omega) rfl
    · exact r0
  · split_ifs with hc
    · have := H (qx - 1) qy 1 (by omega) hc.2 (by omega) (by simp only [cornerAt]; rw [show qx - 1 + 1 = qx by omega])
      simp only [side, cornerAt, after, before] at this
      norm_num at this
      rw [show qx - 1 + 1 = qx by omega] at this
      exact this
    · exact r0
  · split_ifs with hc
    · have := H (qx - 1) (qy - 1) 2 (by omega) (by omega) (by omega)
        (by simp only [cornerAt]; rw [show qx - 1 + 1 = qx by omega, show qy - 1 + 1 = qy by omega])
      simp only [side, cornerAt, after, before] at this
      norm_num at this
      rw [show qx - 1 + 1 = qx by omega, show qy - 1 + 1 = qy by omega] at this
      exact this
    · exact r0
  · split_ifs with hc
    · have := H qx (qy - 1) 3 hc.1 (by omega) (by omega) (by simp only [cornerAt]; rw [show qy - 1 + 1 = qy by omega])
      simp only [side, cornerAt, after, before] at this
      norm_num at this
      rw [show qy - 1 + 1 = qy by omega] at this
      exact this
    · exact r0

theorem side_of_corner {x y j qx qy : Nat} (e : cornerAt x y j = (qx, qy)) : side w sd x y j = nodeSide (onGrid w sd qx qy) := by
  unfold side
  rw [e]

theorem node_ends_le (V : Vis w h m0 sd isTarget) {qx qy : Nat} (hp : (Place.node qx qy).inGrid w h)
    (hb : nodeSide (onGrid w sd qx qy) = .boundary) :
    occ (.node qx qy) (run w m0 sd isTarget (w * h)).pairs ≤ latticeEnds w h (onGrid w sd) qx qy :=
  lattice_rel (· ≤ ·) (le_refl _) (fun _ _ _ _ h1 h2 => Nat.add_le_add h1 h2) hp hb fun _ _ _ hx hy hj e =>
    corner_ends_le V hx hy hj (by rw [side_of_corner e, hb])

theorem node_ends (V : Vis w h m0 sd isTarget) {qx qy : Nat} (hp : (Place.node qx qy).inGrid w h)
    (hb : nodeSide (onGrid w sd qx qy) = .boundary)
    (H : ∀ x y j, x < w → y < h → j < 4 → side w sd x y j = .boundary → look w m0 isTarget x y j = true) :
    occ (.node qx qy) (run w m0 sd isTarget (w * h)).pairs = latticeEnds w h (onGrid w sd) qx qy :=
  lattice_rel (· = ·) rfl (fun _ _ _ _ h1 h2 => by rw [h1, h2]) hp hb fun _ _ _ hx hy hj e =>
    corner_ends V hx hy hj (by rw [side_of_corner e, hb]) fun k hk hs => H _ _ k hx hy hk hs

/-- Discretisation of gentle values, with tidy lattice points on the contour, returns. -/
theorem discretise_safe {L : LevelSet ℝ} (S : Setup w h L.mesh (if isTarget then L.target else L.signedDistance))
    (V : Vis w h L.mesh (if isTarget then L.target else L.signedDistance) isTarget)
    (hB : Tidy w h (onGrid w (if isTarget then L.target else L.signedDistance))) :
    wp (discretise L isTarget) (fun r => Exact w h L (if isTarget then L.target else L.signedDistance) isTarget r.1 r.2) noErr := by
  generalize hs : (if isTarget then L.target else L.signedDistance) = sd at S V hB
  have hok : ∀ x y, x < w → y < h → cellOk w L.mesh sd isTarget x y := fun x y hx hy => tidy_cellOk V hx hy (hB.flat x y hx hy)
  have := discretise_exact (L := L) (isTarget := isTarget) (w := w) (h := h) (by rw [hs]; exact S) (by rw [hs]; exact hok)
  rw [hs] at this
  refine wp_mono this (fun _ h => h) fun e he => ?_
  obtain ⟨p, hp, hd⟩ := he.2
  obtain ⟨hpg, hpc⟩ : p.inGrid w h ∧ p.onContour (onGrid w sd) := by
    obtain ⟨e', he', q, hq, rfl⟩ := mem_keys.1 hp
    have hlt : e' < L.mesh.nElements := by rw [S.grid.nElements]; exact he'
    obtain ⟨x, y, hx, hy, rfl⟩ := S.grid.elem_index hlt
    rw [em _ _ hx, ed _ _ hx] at hq ⊢
    have hf := (cell_fair w L.mesh sd isTarget x y).1 q hq
    cases q with
    | c j =>
      simp only [fair, Bool.and_eq_true, decide_eq_true_eq] at hf
      refine ⟨fun q' hq' => ?_, hf.2⟩
      rw [show ((LP.c j).place x y).ends = [cornerAt x y j] from rfl, List.mem_singleton] at hq'
      subst hq'
      exact cornerAt_le hx hy j
    | e j =>
      simp only [fair, Bool.and_eq_true, decide_eq_true_eq] at hf
      exact ⟨edgeAt_inGrid hx hy hf.1, (edgeAt_onContour hf.1).2 (cutPair_iff.1 hf.2)⟩
  have h2 : occ p (run w L.mesh sd isTarget (w * h)).pairs ≤ 2 := by
    by_cases hn : ∀ x y, p ≠ .node x y
    · rw [edge_degree V hpg hpc hn]; exact cells_le_two p
    · simp only [not_forall, not_not] at hn
      obtain ⟨x, y, rfl⟩ := hn
      have := hpg (x, y) (by simp [Place.ends])
      exact le_trans (node_ends_le V hpg hpc) (hB.ends x y this.1 this.2 hpc)
  exact absurd hd (by omega)

end

end Boundary

end Slsm
