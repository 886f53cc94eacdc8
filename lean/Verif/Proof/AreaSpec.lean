import Verif.Proof.AreaRun
import Verif.Spec.Area

/-! Area fractions: the polygon of the code is that of the specification. -/

namespace Slsm

open FP Boundary

namespace Area

section
variable {f : Nat → Nat → ℝ} {x y : Nat}

/-- Sides of the corners of a cell. -/
noncomputable def cellSide (f : Nat → Nat → ℝ) (x y j : Nat) : NodeStatus := nodeSide (f (cornerAt x y j).1 (cornerAt x y j).2)

/-- Place of the crossing along an edge. -/
noncomputable def crossAt (f : Nat → Nat → ℝ) : Place → ℝ
  | .node _ _ => 1 / 2
  | .hor x y => f x y / (f x y - f (x + 1) y)
  | .ver x y => f x y / (f x y - f x (y + 1))

open Classical in
noncomputable def crossing (f : Nat → Nat → ℝ) (x y j : Nat) : ℝ :=
  if (edgeAt x y j).onContour f then crossAt f (edgeAt x y j) else 1 / 2

theorem edge_pair {j : Nat} (hj : j < 4) : (edgeAt x y j).onContour f ↔ cutPair (cellSide f x y j) (cellSide f x y (after j)) = true := by
  rw [cutPair_iff, edgeAt_onContour hj]
  rfl

theorem crossing_in (f : Nat → Nat → ℝ) (x y j : Nat) : 0 < crossing f x y j ∧ crossing f x y j < 1 := by
  unfold crossing
  split
  · rename_i h
    generalize edgeAt x y j = p at h
    cases p with
    | node a b => simp only [crossAt]; norm_num
    | hor a b => exact ⟨(cross_pos h).1, (cross_pos h).2.1⟩
    | ver a b => exact ⟨(cross_pos h).1, (cross_pos h).2.1⟩
  · norm_num

theorem place_point {p : LP} (hp : p ∈ walkLP) (hc : ∀ j, p = .e j → (edgeAt x y j).onContour f) :
    (p.place x y).coord f = cellPoint x y (crossing f x y) p := by
  simp only [walkLP, List.mem_cons, List.not_mem_nil, or_false] at hp
  rcases hp with rfl | rfl | rfl | rfl | rfl | rfl | rfl | rfl
  · simp [LP.place, cornerAt, Place.coord, cellPoint]
  · have := hc 0 rfl
    simp only [LP.place, cellPoint, crossing]; rw [if_pos this]; simp [edgeAt, Place.coord, crossAt]
  · simp [LP.place, cornerAt, Place.coord, cellPoint]
  · have := hc 1 rfl
    simp only [LP.place, cellPoint, crossing]; rw [if_pos this]; simp [edgeAt, Place.coord, crossAt]
  · simp [LP.place, cornerAt, Place.coord, cellPoint]
  · have := hc 2 rfl
    simp only [LP.place, cellPoint, crossing]; rw [if_pos this]; simp [edgeAt, Place.coord, crossAt]
  · simp [LP.place, cornerAt, Place.coord, cellPoint]
  · have := hc 3 rfl
    simp only [LP.place, cellPoint, crossing]; rw [if_pos this]; simp [edgeAt, Place.coord, crossAt]

theorem walk_place (x y : Nat) : cellWalk x y = walkLP.map (LP.place x y) := rfl

theorem crossed_comm (a b : NodeStatus) : Crossed a b ↔ Crossed b a := by
  cases a <;> cases b <;> decide

theorem structure_iff {p : LP} (hp : p ∈ walkLP) : StructureVertex f x y (p.place x y) ↔ structLP (cellSide f x y) p = true := by
  have e1 : ∀ a, 2 * a + 1 - a = a + 1 := fun a => by omega
  have e2 : ∀ a, 2 * a + 1 - (a + 1) = a := fun a => by omega
  simp only [walkLP, List.mem_cons, List.not_mem_nil, or_false] at hp
  rcases hp with rfl | rfl | rfl | rfl | rfl | rfl | rfl | rfl <;>
    simp [LP.place, StructureVertex, structLP, cornerAt, cellSide, edgeAt, e1, e2, after, before, Place.onContour, cutPair_iff, -not_and, not_and_or,
      or_comm, crossed_comm (nodeSide (f x (y + 1))) (nodeSide (f (x + 1) (y + 1))), crossed_comm (nodeSide (f x (y + 1))) (nodeSide (f x y))]

theorem void_iff {p : LP} (hp : p ∈ walkLP) : VoidVertex f (p.place x y) ↔ voidLP (cellSide f x y) p = true := by
  simp only [walkLP, List.mem_cons, List.not_mem_nil, or_false] at hp
  rcases hp with rfl | rfl | rfl | rfl | rfl | rfl | rfl | rfl <;>
    simp [LP.place, VoidVertex, voidLP, cornerAt, cellSide, edgeAt, after, Place.onContour, cutPair_iff,
      crossed_comm (nodeSide (f x (y + 1))) (nodeSide (f (x + 1) (y + 1))), crossed_comm (nodeSide (f x (y + 1))) (nodeSide (f x y))]

theorem filter_points (P : Place → Prop) (Q : LP → Bool) [DecidablePred P] (h : ∀ p ∈ walkLP, P (p.place x y) ↔ Q p = true)
    (hQ : ∀ j, Q (.e j) = true → j < 4 → (edgeAt x y j).onContour f) :
    ((cellWalk x y).filter fun p => decide (P p)).map (fun p => p.coord f) = (walkLP.filter Q).map (cellPoint x y (crossing f x y)) := by
  rw [walk_place, List.filter_map, List.map_map]
  have : walkLP.filter ((fun p => decide (P p)) ∘ LP.place x y) = walkLP.filter Q := by
    refine List.filter_congr fun p hp => ?_
    simp only [Function.comp]
    rw [Bool.eq_iff_iff, decide_eq_true_iff]
    exact h p hp
  rw [this]
  refine List.map_congr_left fun p hp => ?_
  rw [List.mem_filter] at hp
  refine place_point hp.1 fun j hj => ?_
  subst hj
  refine hQ j hp.2 ?_
  have := hp.1
  simp [walkLP] at this
  omega

theorem structurePolygon_eq : structurePolygon f x y = (walkLP.filter (structLP (cellSide f x y))).map (cellPoint x y (crossing f x y)) := by
  classical
  unfold structurePolygon
  convert filter_points (f := f) (x := x) (y := y) (StructureVertex f x y) _ (fun p hp => structure_iff hp) (fun j h hj => (edge_pair hj).2 h) using 3

theorem voidPolygon_eq : voidPolygon f x y = (walkLP.filter (voidLP (cellSide f x y))).map (cellPoint x y (crossing f x y)) := by
  classical
  unfold voidPolygon
  convert filter_points (f := f) (x := x) (y := y) (VoidVertex f) _ (fun p hp => void_iff hp) (fun j h hj => (edge_pair hj).2 h) using 3

theorem shift_points (X Y : ℝ) (τ : Nat → ℝ) (l : List LP) : ringSum (l.map (cellPoint X Y τ)) = ringSum (l.map (cellPoint 0 0 τ)) := by
  rw [← ringSum_shift X Y (l.map (cellPoint 0 0 τ)), List.map_map]
  congr 1
  refine List.map_congr_left fun p _ => ?_
  simp only [Function.comp]
  unfold cellPoint
  split <;> simp <;> ring_nf <;> simp

theorem cellSide_mem (f : Nat → Nat → ℝ) (x y j : Nat) : cellSide f x y j ∈ sts := by
  unfold cellSide
  rcases nodeSide_cases (f (cornerAt x y j).1 (cornerAt x y j).2) with h | h | h <;> rw [h] <;> simp [sts]

theorem structLP_pick (s : Nat → NodeStatus) : walkLP.filter (structLP s) = walkLP.filter (structLP (pick (s 0) (s 1) (s 2) (s 3))) := rfl
theorem voidLP_pick (s : Nat → NodeStatus) : walkLP.filter (voidLP s) = walkLP.filter (voidLP (pick (s 0) (s 1) (s 2) (s 3))) := rfl
theorem stat_pick (s : Nat → NodeStatus) : stat s = stat (pick (s 0) (s 1) (s 2) (s 3)) := rfl
theorem isSaddle_pick (s : Nat → NodeStatus) : isSaddle s = isSaddle (pick (s 0) (s 1) (s 2) (s 3)) := rfl

theorem stat_inside {s : Nat → NodeStatus} : stat s = .inside ↔ ∀ j, j < 4 → s j ≠ .outside := by
  unfold stat elemStatus
  constructor
  · intro h j hj e
    have : NodeStatus.outside ∈ [s 0, s 1, s 2, s 3] := by
      match j, hj with
      | 0, _ => simp [e]
      | 1, _ => simp [e]
      | 2, _ => simp [e]
      | 3, _ => simp [e]
    rw [if_neg (fun h => h this)] at h
    split at h <;> cases h
  · intro h
    rw [if_pos]
    simp only [List.mem_cons, List.not_mem_nil, or_false, not_or]
    exact ⟨(h 0 (by omega)).symm, (h 1 (by omega)).symm, (h 2 (by omega)).symm, (h 3 (by omega)).symm⟩

theorem stat_outside {s : Nat → NodeStatus} (hn : ¬ ∀ j, j < 4 → s j ≠ .outside) : stat s = .outside ↔ ∀ j, j < 4 → s j ≠ .inside := by
  have h1 : ¬ (NodeStatus.outside ∉ [s 0, s 1, s 2, s 3]) := by
    intro hno
    apply hn
    simp only [List.mem_cons, List.not_mem_nil, or_false, not_or] at hno
    intro j hj
    match j, hj with
    | 0, _ => exact fun e => hno.1 e.symm
    | 1, _ => exact fun e => hno.2.1 e.symm
    | 2, _ => exact fun e => hno.2.2.1 e.symm
    | 3, _ => exact fun e => hno.2.2.2 e.symm
  unfold stat elemStatus
  rw [if_neg h1]
  constructor
  · intro h j hj e
    have : NodeStatus.inside ∈ [s 0, s 1, s 2, s 3] := by
      match j, hj with
      | 0, _ => simp [e]
      | 1, _ => simp [e]
      | 2, _ => simp [e]
      | 3, _ => simp [e]
    rw [if_neg (fun h => h this)] at h
    cases h
  · intro h
    rw [if_pos]
    simp only [List.mem_cons, List.not_mem_nil, or_false, not_or]
    exact ⟨(h 0 (by omega)).symm, (h 1 (by omega)).symm, (h 2 (by omega)).symm, (h 3 (by omega)).symm⟩

theorem corners_iff (P : NodeStatus → Prop) : (∀ q ∈ cellCorners x y, P (nodeSide (f q.1 q.2))) ↔ ∀ j, j < 4 → P (cellSide f x y j) := by
  constructor
  · intro h j hj
    match j, hj with
    | 0, _ => exact h (x, y) (by simp [cellCorners])
    | 1, _ => exact h (x + 1, y) (by simp [cellCorners])
    | 2, _ => exact h (x + 1, y + 1) (by simp [cellCorners])
    | 3, _ => exact h (x, y + 1) (by simp [cellCorners])
  · intro h q hq
    simp only [cellCorners, List.mem_cons, List.not_mem_nil, or_false] at hq
    rcases hq with rfl | rfl | rfl | rfl
    · exact h 0 (by omega)
    · exact h 1 (by omega)
    · exact h 2 (by omega)
    · exact h 3 (by omega)

theorem saddle_iff : Saddle f x y ↔ isSaddle (cellSide f x y) = true := by
  unfold Saddle isSaddle
  simp only [Bool.and_eq_true, cutPair_iff, cellSide, cornerAt, and_assoc]

/-- The three cases of `cellArea`. -/
theorem cellArea_inside (h : stat (cellSide f x y) = .inside) : cellArea f x y = 1 := by
  unfold cellArea
  rw [if_pos ((corners_iff (· ≠ .outside)).2 (stat_inside.1 h))]

theorem not_inside (h : stat (cellSide f x y) ≠ .inside) : ¬ ∀ q ∈ cellCorners x y, nodeSide (f q.1 q.2) ≠ .outside :=
  fun h' => h (stat_inside.2 ((corners_iff (· ≠ .outside)).1 h'))

theorem cellArea_outside (h : stat (cellSide f x y) = .outside) : cellArea f x y = 0 := by
  have hn : ¬ ∀ q ∈ cellCorners x y, nodeSide (f q.1 q.2) ≠ .outside := not_inside (by rw [h]; decide)
  unfold cellArea
  rw [if_neg hn, if_pos ((corners_iff (· ≠ .inside)).2 ((stat_outside (fun h' => hn ((corners_iff (· ≠ .outside)).2 h'))).1 h))]

open Classical in
theorem cellArea_cut (h : stat (cellSide f x y) = .none) : cellArea f x y =
    if isSaddle (cellSide f x y) = true ∧ centreValue f x y ≤ 0 then 1 - polyArea (voidPolygon f x y) else polyArea (structurePolygon f x y) := by
  have hn : ¬ ∀ q ∈ cellCorners x y, nodeSide (f q.1 q.2) ≠ .outside := not_inside (by rw [h]; decide)
  have hn' : ¬ ∀ q ∈ cellCorners x y, nodeSide (f q.1 q.2) ≠ .inside := by
    intro h'
    have := (stat_outside (fun h' => hn ((corners_iff (· ≠ .outside)).2 h'))).2 ((corners_iff (· ≠ .inside)).1 h')
    rw [h] at this
    cases this
  unfold cellArea
  rw [if_neg hn, if_neg hn']
  simp only [saddle_iff]

theorem stat_cases (s : Nat → NodeStatus) : stat s = .inside ∨ stat s = .outside ∨ stat s = .none := by
  unfold stat elemStatus
  split
  · exact .inl rfl
  · split
    · exact .inr (.inl rfl)
    · exact .inr (.inr rfl)

theorem structure_pos (h : stat (cellSide f x y) = .none) : 0 < polyArea (structurePolygon f x y) ∧ polyArea (structurePolygon f x y) < 1 := by
  rw [polyArea_eq, structurePolygon_eq, shift_points, structLP_pick]
  have := structure_bounds (crossing_in f x y) _ (cellSide_mem f x y 0) _ (cellSide_mem f x y 1) _ (cellSide_mem f x y 2) _ (cellSide_mem f x y 3)
    (by rw [← stat_pick]; exact h)
  constructor <;> linarith [this.1, this.2]

theorem flip_mem {s : NodeStatus} (h : s ∈ sts) : flip s ∈ sts := by
  simp only [sts, List.mem_cons, List.not_mem_nil, or_false] at h
  rcases h with rfl | rfl | rfl <;> decide

theorem flip_stat : ∀ s0 ∈ sts, ∀ s1 ∈ sts, ∀ s2 ∈ sts, ∀ s3 ∈ sts, stat (pick s0 s1 s2 s3) = .none →
    stat (pick (flip s0) (flip s1) (flip s2) (flip s3)) = .none := by decide +kernel

theorem void_pos (h : stat (cellSide f x y) = .none) (hs : isSaddle (cellSide f x y) = true) :
    0 < polyArea (voidPolygon f x y) ∧ polyArea (voidPolygon f x y) < 1 := by
  rw [polyArea_eq, voidPolygon_eq, shift_points, voidLP_pick, void_flip _ (cellSide_mem f x y 0) _ (cellSide_mem f x y 1) _
    (cellSide_mem f x y 2) _ (cellSide_mem f x y 3) (by rw [← isSaddle_pick]; exact hs)]
  have := structure_bounds (crossing_in f x y) _ (flip_mem (cellSide_mem f x y 0)) _ (flip_mem (cellSide_mem f x y 1)) _
    (flip_mem (cellSide_mem f x y 2)) _ (flip_mem (cellSide_mem f x y 3))
    (flip_stat _ (cellSide_mem f x y 0) _ (cellSide_mem f x y 1) _ (cellSide_mem f x y 2) _ (cellSide_mem f x y 3) (by rw [← stat_pick]; exact h))
  constructor <;> linarith [this.1, this.2]

theorem cellArea_between (h : stat (cellSide f x y) = .none) : 0 < cellArea f x y ∧ cellArea f x y < 1 := by
  rw [cellArea_cut h]
  split
  · rename_i hs
    have := void_pos h hs.1
    constructor <;> linarith [this.1, this.2]
  · exact structure_pos h

end

/-! ### the code gives the area of the specification -/

section
variable {w h : Nat} {L L' : LevelSet ℝ} {sd : List ℝ} {isTarget : Bool} {b : Boundary ℝ} {x y : Nat}

theorem verts_walk (s : Nat → NodeStatus) (v : Nat → Bool) (first : Bool) (hs : ∀ j, s j ∈ sts) {o : NodeStatus} (ho : o = .inside ∨ o = .outside) :
    ∀ p ∈ verts s v first o, p ∈ walkLP := by
  have := table_walk _ (hs 0) _ (hs 1) _ (hs 2) _ (hs 3) (v 0) (v 1) (v 2) (v 3) first
  rw [verts_pick]
  rcases ho with rfl | rfl
  · exact this.1
  · exact this.2

theorem verts_edge {j : Nat} {o : NodeStatus} (m : Mesh ℝ)
    (hj : LP.e j ∈ verts (side w sd x y) (look w m isTarget x y) (firstWay w sd x y) o) : (edgeAt x y j).onContour (onGrid w sd) := by
  unfold verts at hj
  rw [List.mem_append] at hj
  rcases hj with hj | hj
  · obtain ⟨i, -, hi⟩ := upTo_mem.1 hj
    unfold cornerV at hi
    split at hi
    · simp at hi
    · split at hi
      · split at hi <;> simp at hi
      · simp at hi
  · obtain ⟨g, hg, hj⟩ := List.mem_flatMap.1 hj
    obtain ⟨h1, h2, -⟩ := cell_fair w m sd isTarget x y
    obtain ⟨h3, h4, -⟩ := h2 g hg
    have : fair (side w sd x y) (.e j) = true := by
      simp only [List.mem_cons, List.not_mem_nil, or_false] at hj
      rcases hj with hj | hj
      · rw [hj]; exact h1 _ h3
      · rw [hj]; exact h1 _ h4
    simp only [fair, Bool.and_eq_true, decide_eq_true_eq] at this
    exact (edge_pair this.1).2 this.2

theorem four_saddle {s : Nat → NodeStatus} {v : Nat → Bool} (hv : ∀ j, j < 4 → cutPair (s j) (s (after j)) = true → v j = true) :
    (upTo (edgeCuts s v) 4).length = 4 ↔ isSaddle s = true := by
  have key : ∀ j, j < 4 → (edgeCuts s v j).length = if cutPair (s j) (s (after j)) = true then 1 else 0 := by
    intro j hj
    unfold edgeCuts
    by_cases hc : cutPair (s j) (s (after j)) = true
    · rw [if_pos (hv j hj hc), if_pos hc, if_pos hc]; rfl
    · rw [if_neg hc, if_neg hc]; split <;> rfl
  have : (upTo (edgeCuts s v) 4).length = (edgeCuts s v 0).length + (edgeCuts s v 1).length + (edgeCuts s v 2).length + (edgeCuts s v 3).length := by
    simp [upTo, List.length_append, Nat.add_assoc]
  rw [this, key 0 (by omega), key 1 (by omega), key 2 (by omega), key 3 (by omega)]
  unfold isSaddle
  change _ ↔ (cutPair (s 0) (s (after 0)) && cutPair (s 1) (s (after 1)) && cutPair (s 2) (s (after 2)) && cutPair (s 3) (s (after 3))) = true
  generalize cutPair (s 0) (s (after 0)) = a
  generalize cutPair (s 1) (s (after 1)) = b
  generalize cutPair (s 2) (s (after 2)) = c
  generalize cutPair (s 3) (s (after 3)) = d
  revert a b c d
  decide

theorem cell_area (E : Exact w h L sd isTarget b L') (S : Setup w h L.mesh sd) (V : Vis w h L.mesh sd isTarget)
    (H : ∀ x y j, x < w → y < h → j < 4 → side w sd x y j = .boundary → look w L.mesh isTarget x y j = true)
    (hx : x < w) (hy : y < h) {el : Element ℝ} (hel : L'.mesh.elements[cellNo w x y]? = some el) :
    areaOf L'.mesh b el = .ok (cellArea (onGrid w sd) x y) := by
  have hst := (cell_segment E S.grid hx hy hel).1
  have hv : ∀ j, j < 4 → cutPair (side w sd x y j) (side w sd x y (after j)) = true → look w L.mesh isTarget x y j = true :=
    fun j hj hc => V x y j hx hy hj (cutPair_iff.1 hc)
  have hside : side w sd x y = cellSide (onGrid w sd) x y := rfl
  unfold finalStatus at hst
  unfold areaOf
  rcases stat_cases (side w sd x y) with hs | hs | hs
  · rw [if_neg, hs] at hst
    · rw [if_pos hst, cellArea_inside (by rw [← hside]; exact hs)]; simp [pure, Except.pure]
    · rintro ⟨-, h4⟩
      rw [four_saddle hv] at h4
      have h0 : cutPair (side w sd x y 0) (side w sd x y 1) = true := by
        simp only [isSaddle, Bool.and_eq_true] at h4; exact h4.1.1.1
      rw [cutPair_iff] at h0
      rw [stat_inside] at hs
      rcases h0 with h0 | h0
      · exact hs 1 (by omega) h0.2
      · exact hs 0 (by omega) h0.1
  · rw [if_neg (by rw [hs]; simp), hs] at hst
    rw [if_neg (by rw [hst]; decide), if_pos hst, cellArea_outside (by rw [← hside]; exact hs)]; simp [pure, Except.pure]
  · have m := side_mem w sd x y
    have hns : stat (side w sd x y) ≠ .outside := by rw [hs]; decide
    have t6 := table_six _ (m 0) _ (m 1) _ (m 2) _ (m 3) (look w L.mesh isTarget x y 0) (look w L.mesh isTarget x y 1)
      (look w L.mesh isTarget x y 2) (look w L.mesh isTarget x y 3) (firstWay w sd x y) (by
        intro j hj hc
        rw [List.mem_range] at hj
        have ha := after_lt hj
        rw [pick_eq _ hj] at hc ⊢
        rw [pick_eq _ ha] at hc
        exact hv j hj hc) (by rw [← stat_pick]; exact hs)
    have tv := table_verts _ (m 0) _ (m 1) _ (m 2) _ (m 3) (look w L.mesh isTarget x y 0) (look w L.mesh isTarget x y 1)
      (look w L.mesh isTarget x y 2) (look w L.mesh isTarget x y 3) (firstWay w sd x y) (by
        intro j hj hc
        rw [List.mem_range] at hj
        have ha := after_lt hj
        rw [pick_eq _ hj] at hc ⊢
        rw [pick_eq _ ha] at hc
        rcases hc with hc | hc
        · exact hv j hj hc
        · exact H x y j hx hy hj hc) (by rw [← stat_pick]; exact hs)
    rw [← verts_pick, ← verts_pick, ← isSaddle_pick] at t6
    rw [← verts_pick, ← verts_pick, ← isSaddle_pick, ← structLP_pick, ← voidLP_pick] at tv
    have poly : ∀ o : NodeStatus, o = .inside ∨ o = .outside →
        ringSum (sort (isClockwise ⟨(x : ℝ) + 1/2, (y : ℝ) + 1/2⟩)
          ((verts (side w sd x y) (look w L.mesh isTarget x y) (firstWay w sd x y) o).map fun p => (p.place x y).coord (onGrid w sd))) =
        ringSum ((walkLP.filter fun p => decide (p ∈ verts (side w sd x y) (look w L.mesh isTarget x y) (firstWay w sd x y) o)).map
          (cellPoint x y (crossing (onGrid w sd) x y))) := by
      intro o ho
      have hw := verts_walk (side w sd x y) (look w L.mesh isTarget x y) (firstWay w sd x y) m ho
      rw [← ringSum_sort (crossing_in (onGrid w sd) x y) hw]
      congr 2
      refine List.map_congr_left fun p hp => place_point (hw p hp) fun j hj => ?_
      subst hj
      exact verts_edge L.mesh hp
    rw [hs] at hst
    by_cases hd : isSaddle (side w sd x y) = true
    · rw [if_pos ⟨by decide, (four_saddle hv).2 hd⟩] at hst
      unfold centreStatus at hst
      have hcv : 0 < centreSum w sd x y ↔ ¬ centreValue (onGrid w sd) x y ≤ 0 := by
        unfold centreSum centreValue
        rw [not_le]
        constructor <;> intro h <;> linarith
      by_cases hc : 0 < centreSum w sd x y
      · rw [if_pos hc] at hst
        have hso : soughtSide el = .inside := by unfold soughtSide; rw [hst, if_neg (by decide)]
        rw [if_neg (by rw [hst]; decide), if_neg (by rw [hst]; decide),
          cut_collect E S hx hy hel (by rw [hso]; exact t6.1)]
        dsimp only
        rw [if_neg (by rw [hst]; decide), cellArea_cut (by rw [← hside]; exact hs), if_neg (fun h => hcv.1 hc h.2), hso,
          poly _ (.inl rfl), tv.1, hside, ← structurePolygon_eq, ← polyArea_eq, abs_of_pos (structure_pos (by rw [← hside]; exact hs)).1]
      · rw [if_neg hc] at hst
        have hso : soughtSide el = .outside := by unfold soughtSide; rw [hst, if_pos rfl]
        rw [if_neg (by rw [hst]; decide), if_neg (by rw [hst]; decide),
          cut_collect E S hx hy hel (by rw [hso]; exact t6.2 hd)]
        dsimp only
        rw [if_pos hst, cellArea_cut (by rw [← hside]; exact hs),
          if_pos ⟨by rw [← hside]; exact hd, not_not.1 (fun h => hc (hcv.2 h))⟩, hso, poly _ (.inr rfl), tv.2 hd, hside, ← voidPolygon_eq, ← polyArea_eq, abs_of_pos (void_pos (by rw [← hside]; exact hs) (by rw [← hside]; exact hd)).1]
    · rw [if_neg (fun h => hd ((four_saddle hv).1 h.2))] at hst
      have hso : soughtSide el = .inside := by unfold soughtSide; rw [hst, if_neg (by decide)]
      rw [if_neg (by rw [hst]; decide), if_neg (by rw [hst]; decide),
        cut_collect E S hx hy hel (by rw [hso]; exact t6.1)]
      dsimp only
      rw [if_neg (by rw [hst]; decide), cellArea_cut (by rw [← hside]; exact hs), if_neg (fun h => hd h.1), hso,
        poly _ (.inl rfl), tv.1, hside, ← structurePolygon_eq, ← polyArea_eq, abs_of_pos (structure_pos (by rw [← hside]; exact hs)).1]

end

/-! ### exchanging the sides -/

section
variable {f : Nat → Nat → ℝ} {x y : Nat}

theorem nodeSide_neg (v : ℝ) : nodeSide (-v) = flip (nodeSide v) := by
  unfold nodeSide
  rw [abs_neg]
  by_cases h1 : |v| < 1 / 10 ^ 6
  · rw [if_pos h1, if_pos h1]; rfl
  · rw [if_neg h1, if_neg h1]
    have hv : v ≠ 0 := by rintro rfl; apply h1; norm_num
    by_cases h2 : v < 0
    · rw [if_pos h2, if_neg (by linarith)]; rfl
    · have : -v < 0 := by
        have := lt_of_le_of_ne (not_lt.1 h2) (Ne.symm hv)
        linarith
      rw [if_pos this, if_neg h2]; rfl

theorem cellSide_neg (j : Nat) : cellSide (fun a c => -f a c) x y j = flip (cellSide f x y j) := nodeSide_neg _

theorem crossing_neg : crossing (fun a c => -f a c) x y = crossing f x y := by
  funext j
  have h1 : (edgeAt x y j).onContour (fun a c => -f a c) ↔ (edgeAt x y j).onContour f := by
    have hf : ∀ a b : ℝ, Crossed (nodeSide (-a)) (nodeSide (-b)) ↔ Crossed (nodeSide a) (nodeSide b) := by
      intro a b
      rw [nodeSide_neg, nodeSide_neg]
      rcases nodeSide_cases a with h | h | h <;> rcases nodeSide_cases b with h' | h' | h' <;> rw [h, h'] <;> decide
    generalize edgeAt x y j = p
    cases p with
    | node a b =>
      show nodeSide (-f a b) = .boundary ↔ nodeSide (f a b) = .boundary
      rw [nodeSide_neg]
      rcases nodeSide_cases (f a b) with h | h | h <;> rw [h] <;> decide
    | hor a b => exact hf _ _
    | ver a b => exact hf _ _
  have h2 : crossAt (fun a c => -f a c) (edgeAt x y j) = crossAt f (edgeAt x y j) := by
    have hf : ∀ a b : ℝ, -a / (-a - -b) = a / (a - b) := by
      intro a b
      rw [← neg_sub_neg, ← neg_div_neg_eq]; ring_nf
    generalize edgeAt x y j = p
    cases p with
    | node a b => rfl
    | hor a b => exact hf _ _
    | ver a b => exact hf _ _
  unfold crossing
  by_cases hc : (edgeAt x y j).onContour f
  · rw [if_pos hc, if_pos (h1.2 hc), h2]
  · rw [if_neg hc, if_neg (fun h => hc (h1.1 h))]

/-- Neighbouring corners are not both on the contour. -/
theorem cellArea_neg (hflat : ∃ q ∈ cellCorners x y, nodeSide (f q.1 q.2) ≠ .boundary)
    (hadj : stat (cellSide f x y) = .none → ∀ j, j < 4 → cellSide f x y j = .boundary → cellSide f x y (after j) ≠ .boundary)
    (hsad : Saddle f x y → centreValue f x y ≠ 0) : cellArea (fun a c => -f a c) x y = 1 - cellArea f x y := by
  have m := cellSide_mem f x y
  have hfs : cellSide (fun a c => -f a c) x y = fun j => flip (cellSide f x y j) := funext fun j => cellSide_neg j
  have hstat : ∀ s0 ∈ sts, ∀ s1 ∈ sts, ∀ s2 ∈ sts, ∀ s3 ∈ sts,
      (stat (pick s0 s1 s2 s3) = .inside → ¬ (s0 = .boundary ∧ s1 = .boundary ∧ s2 = .boundary ∧ s3 = .boundary) →
        stat (pick (flip s0) (flip s1) (flip s2) (flip s3)) = .outside) ∧
      (stat (pick s0 s1 s2 s3) = .outside → stat (pick (flip s0) (flip s1) (flip s2) (flip s3)) = .inside) := by decide +kernel
  have hst := hstat _ (m 0) _ (m 1) _ (m 2) _ (m 3)
  rw [← stat_pick] at hst
  have hnf : stat (cellSide (fun a c => -f a c) x y) = stat (pick (flip (cellSide f x y 0)) (flip (cellSide f x y 1)) (flip (cellSide f x y 2))
      (flip (cellSide f x y 3))) := by rw [hfs]; rfl
  rcases stat_cases (cellSide f x y) with h | h | h
  · rw [cellArea_inside h, cellArea_outside, sub_self]
    rw [hnf]
    refine hst.1 h fun hall => ?_
    obtain ⟨q, hq, hne⟩ := hflat
    simp only [cellCorners, List.mem_cons, List.not_mem_nil, or_false] at hq
    rcases hq with rfl | rfl | rfl | rfl
    · exact hne hall.1
    · exact hne hall.2.1
    · exact hne hall.2.2.1
    · exact hne hall.2.2.2
  · rw [cellArea_outside h, cellArea_inside, sub_zero]
    rw [hnf]
    exact hst.2 h
  · have h' : stat (cellSide (fun a c => -f a c) x y) = .none := by
      rw [hnf]; exact flip_stat _ (m 0) _ (m 1) _ (m 2) _ (m 3) (by rw [← stat_pick]; exact h)
    have hsf : ∀ s0 ∈ sts, ∀ s1 ∈ sts, ∀ s2 ∈ sts, ∀ s3 ∈ sts,
      isSaddle (pick (flip s0) (flip s1) (flip s2) (flip s3)) = isSaddle (pick s0 s1 s2 s3) := by decide +kernel
    have hs' : isSaddle (cellSide (fun a c => -f a c) x y) = isSaddle (cellSide f x y) := by
      rw [isSaddle_pick (cellSide f x y), ← hsf _ (m 0) _ (m 1) _ (m 2) _ (m 3), hfs]; rfl
    have hcen : centreValue (fun a c => -f a c) x y = -centreValue f x y := by unfold centreValue; ring
    have hspoly : structurePolygon (fun a c => -f a c) x y = (walkLP.filter (structLP (pick (flip (cellSide f x y 0)) (flip (cellSide f x y 1))
        (flip (cellSide f x y 2)) (flip (cellSide f x y 3))))).map (cellPoint x y (crossing f x y)) := by
      rw [structurePolygon_eq, crossing_neg, hfs]; rfl
    have hvpoly : voidPolygon (fun a c => -f a c) x y = (walkLP.filter (voidLP (pick (flip (cellSide f x y 0)) (flip (cellSide f x y 1))
        (flip (cellSide f x y 2)) (flip (cellSide f x y 3))))).map (cellPoint x y (crossing f x y)) := by
      rw [voidPolygon_eq, crossing_neg, hfs]; rfl
    rw [cellArea_cut h, cellArea_cut h', hs', hcen]
    by_cases hd : isSaddle (cellSide f x y) = true
    · have hne := hsad (saddle_iff.2 hd)
      have hds : isSaddle (pick (cellSide f x y 0) (cellSide f x y 1) (cellSide f x y 2) (cellSide f x y 3)) = true := by rw [← isSaddle_pick]; exact hd
      rcases lt_or_gt_of_ne hne with hc | hc
      · rw [if_neg (fun h => by linarith [h.2]), if_pos ⟨hd, hc.le⟩, hspoly, voidPolygon_eq, voidLP_pick,
          void_flip _ (m 0) _ (m 1) _ (m 2) _ (m 3) hds]
        ring
      · rw [if_pos ⟨hd, by linarith⟩, if_neg (fun h => by linarith [h.2]), hvpoly, structurePolygon_eq,
          void_flip _ (flip_mem (m 0)) _ (flip_mem (m 1)) _ (flip_mem (m 2)) _ (flip_mem (m 3))
            (by rw [hsf _ (m 0) _ (m 1) _ (m 2) _ (m 3)]; exact hds)]
        have hff : ∀ s ∈ sts, flip (flip s) = s := by decide
        rw [hff _ (m 0), hff _ (m 1), hff _ (m 2), hff _ (m 3), ← structLP_pick]
    · rw [if_neg (fun h => hd h.1), if_neg (fun h => hd h.1), polyArea_eq, polyArea_eq, hspoly, structurePolygon_eq, shift_points,
        shift_points _ _ _ (walkLP.filter (structLP (cellSide f x y)))]
      have := structure_complement (crossing f x y) _ (m 0) _ (m 1) _ (m 2) _ (m 3) (by rw [← stat_pick]; exact h)
        (by rw [← isSaddle_pick]; simpa using hd) (by
          intro j hj hb
          rw [List.mem_range] at hj
          rw [pick_eq _ hj] at hb
          rw [pick_eq _ (after_lt hj)]
          exact hadj h j hj hb)
      rw [← structLP_pick (cellSide f x y)] at this
      linarith

end

/-! ### segments of a cell with four cuts -/

def touches (j : Nat) (g : LP × LP) : Bool := (decide (g.1 = .e j) || decide (g.1 = .e (before j))) && (decide (g.2 = .e j) || decide (g.2 = .e (before j)))

set_option maxRecDepth 100000 in
theorem table_saddle : ∀ s0 ∈ sts, ∀ s1 ∈ sts, ∀ s2 ∈ sts, ∀ s3 ∈ sts, isSaddle (pick s0 s1 s2 s3) = true → ∀ f : Bool,
    ∀ g ∈ arcs (pick s0 s1 s2 s3) (pick true true true true) f, ∃ j ∈ List.range 4, touches j g = true ∧
      pick s0 s1 s2 s3 j = if decide (s0 = .inside) = f then .outside else .inside := by decide +kernel

theorem touches_ends {x y j : Nat} {g : LP × LP} (hj : j < 4) (h : touches j g = true) :
    cornerAt x y j ∈ (g.1.place x y).ends ∧ cornerAt x y j ∈ (g.2.place x y).ends := by
  have key : ∀ p : LP, p = .e j ∨ p = .e (before j) → cornerAt x y j ∈ (p.place x y).ends := by
    rintro p (rfl | rfl)
    · match j, hj with
      | 0, _ => simp [LP.place, edgeAt, Place.ends, cornerAt]
      | 1, _ => simp [LP.place, edgeAt, Place.ends, cornerAt]
      | 2, _ => simp [LP.place, edgeAt, Place.ends, cornerAt]
      | 3, _ => simp [LP.place, edgeAt, Place.ends, cornerAt]
    · match j, hj with
      | 0, _ => simp [LP.place, edgeAt, Place.ends, cornerAt, before]
      | 1, _ => simp [LP.place, edgeAt, Place.ends, cornerAt, before]
      | 2, _ => simp [LP.place, edgeAt, Place.ends, cornerAt, before]
      | 3, _ => simp [LP.place, edgeAt, Place.ends, cornerAt, before]
  simp only [touches, Bool.and_eq_true, Bool.or_eq_true, decide_eq_true_eq] at h
  exact ⟨key _ h.1, key _ h.2⟩

section
variable {w h : Nat} {L L' : LevelSet ℝ} {sd : List ℝ} {isTarget : Bool} {b : Boundary ℝ} {x y : Nat}

theorem saddle_segment (E : Exact w h L sd isTarget b L') (V : Vis w h L.mesh sd isTarget)
    (hx : x < w) (hy : y < h) (hs : Saddle (onGrid w sd) x y) (hc : centreValue (onGrid w sd) x y ≠ 0)
    {s : BoundarySegment ℝ} (hm : s ∈ b.segments) (he : s.element = cellNo w x y) :
    ∃ q ∈ cellCorners x y, nodeSide (onGrid w sd q.1 q.2) = (if 0 < centreValue (onGrid w sd) x y then .outside else .inside) ∧
      ∃ u v : Place, q ∈ u.ends ∧ q ∈ v.ends ∧ u ≠ v ∧ u.onContour (onGrid w sd) ∧ v.onContour (onGrid w sd) ∧
        (∃ p, b.points[s.start]? = some p ∧ p.coord = u.coord (onGrid w sd)) ∧ ∃ p, b.points[s.stop]? = some p ∧ p.coord = v.coord (onGrid w sd) := by
  obtain ⟨W, R, _, hb, hl, _⟩ := E.rep
  rw [hb] at hm
  change s ∈ W.bnd.segments at hm
  rw [R.segs] at hm
  obtain ⟨g, hg, rfl⟩ := List.mem_map.1 hm
  change g.e = _ at he
  obtain ⟨ka, kb⟩ := R.arcMem g hg
  have key : ∀ p ∈ (run w L.mesh sd isTarget (w * h)).keys, ∃ pt,
      b.points[(run w L.mesh sd isTarget (w * h)).keys.idxOf p]? = some pt ∧ pt.coord = p.coord (onGrid w sd) := by
    intro p hp
    obtain ⟨pt, h1, h2⟩ := R.pts _ p (List.getElem?_idxOf hp)
    obtain ⟨q, h3, h4⟩ := hl.pt _ _ h1
    exact ⟨q, h3, by rw [h4.coord, initialisePoint_coord h2]⟩
  have hg' := hg
  change g ∈ upTo _ _ at hg'
  rw [upTo_mem] at hg'
  obtain ⟨e, -, hg'⟩ := hg'
  obtain ⟨a, ha, rfl⟩ := List.mem_map.1 hg'
  change e = _ at he
  subst he
  have em : cellNo w x y % w = x := idx_mod hx
  have ed : cellNo w x y / w = y := idx_div hx
  rw [em, ed] at ha ka kb
  have hd : isSaddle (side w sd x y) = true := saddle_iff.1 hs
  have hds := hd
  rw [isSaddle_pick] at hds
  simp only [isSaddle, Bool.and_eq_true] at hd
  have m := side_mem w sd x y
  have hlook : cellArcs w L.mesh sd isTarget x y = arcs (pick (side w sd x y 0) (side w sd x y 1) (side w sd x y 2) (side w sd x y 3))
      (pick true true true true) (firstWay w sd x y) := by
    unfold cellArcs
    rw [arcs_pick, V x y 0 hx hy (by omega) (cutPair_iff.1 hd.1.1.1), V x y 1 hx hy (by omega) (cutPair_iff.1 hd.1.1.2),
      V x y 2 hx hy (by omega) (cutPair_iff.1 hd.1.2), V x y 3 hx hy (by omega) (cutPair_iff.1 hd.2)]
  rw [hlook] at ha
  obtain ⟨j, hj, ht, hv⟩ := table_saddle _ (m 0) _ (m 1) _ (m 2) _ (m 3) hds _ a ha
  rw [List.mem_range] at hj
  rw [pick_eq _ hj] at hv
  obtain ⟨t1, t2⟩ := touches_ends (x := x) (y := y) hj ht
  obtain ⟨p, hp, hpc⟩ := key _ ka
  obtain ⟨q, hq, hqc⟩ := key _ kb
  refine ⟨cornerAt x y j, ?_, ?_, a.1.place x y, a.2.place x y, t1, t2, ?_, (R.contour _ ka).2, (R.contour _ kb).2, ⟨p, ?_, hpc⟩, ⟨q, ?_, hqc⟩⟩
  · match j, hj with
    | 0, _ => simp [cellCorners, cornerAt]
    | 1, _ => simp [cellCorners, cornerAt]
    | 2, _ => simp [cellCorners, cornerAt]
    | 3, _ => simp [cellCorners, cornerAt]
  · change side w sd x y j = _
    rw [hv]
    have hcs : 0 < centreSum w sd x y ↔ 0 < centreValue (onGrid w sd) x y := by
      unfold centreSum centreValue
      constructor <;> intro h <;> linarith
    have hcs' : centreSum w sd x y < 0 ↔ centreValue (onGrid w sd) x y < 0 := by
      unfold centreSum centreValue
      constructor <;> intro h <;> linarith
    have h0 : side w sd x y 0 = .inside ∨ side w sd x y 0 = .outside := by
      rcases cutPair_iff.1 hd.1.1.1 with h | h
      · exact .inl h.1
      · exact .inr h.1
    unfold firstWay
    rcases lt_or_gt_of_ne hc with hc' | hc'
    · rw [if_neg (not_lt.2 hc'.le)]
      rcases h0 with h0 | h0
      · rw [if_neg]
        rw [h0]
        simp only [hcs, hcs', true_and, not_lt.2 hc'.le, reduceCtorEq, false_and, or_false, decide_true, decide_false]
        decide
      · rw [if_neg]
        rw [h0]
        simp only [hcs, hcs', true_and, hc', reduceCtorEq, false_and, false_or, decide_true, decide_false]
        decide
    · rw [if_pos hc']
      rcases h0 with h0 | h0
      · rw [if_pos]
        rw [h0]
        simp only [hcs, hcs', true_and, hc', reduceCtorEq, false_and, or_false, decide_true]
      · rw [if_pos]
        rw [h0]
        simp only [hcs, hcs', true_and, not_lt.2 hc'.le, reduceCtorEq, false_and, false_or, decide_false]
  · have := (cell_fair w L.mesh sd isTarget x y).2.1 a (by rw [hlook]; exact ha)
    have h8 := cell_eight (w := w) (sd := sd) (isTarget := isTarget) (m0 := L.mesh) (x := x) (y := y) (g := a) (by rw [hlook]; exact ha)
    exact fun e => h8.2.2 (place_inj h8.1 h8.2.1 e)
  · rw [em, ed]; exact hp
  · rw [em, ed]; exact hq

end

end Area

end Slsm
