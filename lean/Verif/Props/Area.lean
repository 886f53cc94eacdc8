import Verif.Proof.AreaSpec
import Verif.Proof.BndPlain
import Verif.Props.Boundary

/-! # Area fractions -/

namespace Slsm

open LevelSet Boundary Area

/-! ### C45: for every number type -/

section
variable {D : Type} [FP D] {L L1 : LevelSet D} {b : Boundary D}

/-- **C45** (frame): `computeAreaFractions` changes nothing but the total and the area fractions of the elements. -/
theorem C45_frame (e : computeAreaFractions L b = .ok L1) :
    L1 = { L with mesh := { L.mesh with elements := L1.mesh.elements }, area := L1.area } ∧
    L1.mesh.elements.length = L.mesh.elements.length ∧
    ∀ (i : Nat) (el1 : Element D), L1.mesh.elements[i]? = some el1 → ∃ el, L.mesh.elements[i]? = some el ∧ el1 = { el with area := el1.area } ∧
      (L.mesh.nElements ≤ i → el1 = el) := by
  obtain ⟨as, F⟩ := filled e
  have key : ∀ (i : Nat), (L.mesh.elements[i]? = none ∧ L1.mesh.elements[i]? = none) ∨ ∃ el el1, L.mesh.elements[i]? = some el ∧
      L1.mesh.elements[i]? = some el1 ∧ el1 = { el with area := el1.area } ∧ (L.mesh.nElements ≤ i → el1 = el) := by
    intro i
    rcases Nat.lt_or_ge i L.mesh.nElements with hi | hi
    · have hi' : i < as.length := by rw [F.count]; exact hi
      obtain ⟨el, h1, -, h3⟩ := F.done i _ (List.getElem?_eq_getElem hi')
      exact .inr ⟨el, _, h1, h3, rfl, fun h => by omega⟩
    · rw [F.rest i hi]
      rcases h : L.mesh.elements[i]? with _ | el
      · exact .inl ⟨rfl, rfl⟩
      · exact .inr ⟨el, el, rfl, rfl, rfl, fun _ => rfl⟩
  refine ⟨?_, ?_, ?_⟩
  · have e1 : L1.area = as.foldl FP.add (FP.nat 0) := by rw [F.eq]
    rw [e1]; exact F.eq
  · refine Nat.le_antisymm ?_ ?_
    · by_contra hlt
      rw [not_le] at hlt
      rcases key L.mesh.elements.length with h | ⟨el, _, h, -⟩
      · have := List.getElem?_eq_none_iff.1 h.2; omega
      · rw [List.getElem?_eq_none (le_refl _)] at h; cases h
    · by_contra hlt
      rw [not_le] at hlt
      rcases key L1.mesh.elements.length with h | ⟨el, el1, -, h, -⟩
      · have := List.getElem?_eq_none_iff.1 h.1; omega
      · rw [List.getElem?_eq_none (le_refl _)] at h; cases h
  · intro i el1 hel
    rcases key i with h | ⟨el, el1', h1, h2, h3, h4⟩
    · rw [h.2] at hel; cases hel
    · rw [h2] at hel; cases hel
      exact ⟨el, h1, h3, h4⟩

/-- **C45** (inside and outside): an element inside the structure gets the area fraction one, an element outside zero. -/
theorem C45_inside_outside (e : computeAreaFractions L b = .ok L1) {i : Nat} (hi : i < L.mesh.nElements) :
    ∃ el1, L1.mesh.elements[i]? = some el1 ∧ (el1.status = .inside → el1.area = FP.nat 1) ∧ (el1.status = .outside → el1.area = FP.nat 0) := by
  obtain ⟨as, F⟩ := filled e
  have hi' : i < as.length := by rw [F.count]; exact hi
  obtain ⟨el, h1, h2, h3⟩ := F.done i _ (List.getElem?_eq_getElem hi')
  refine ⟨_, h3, fun hs => ?_, fun hs => ?_⟩
  · change el.status = _ at hs
    unfold areaOf at h2
    rw [if_pos hs] at h2
    exact (Except.ok.inj h2).symm
  · change el.status = _ at hs
    unfold areaOf at h2
    rw [if_neg (by rw [hs]; decide), if_pos hs] at h2
    exact (Except.ok.inj h2).symm

/-- **C45** (total): the returned value is the sum of the area fractions of all elements, added up in their order. -/
theorem C45_total (e : computeAreaFractions L b = .ok L1) :
    L1.area = ((L1.mesh.elements.take L1.mesh.nElements).map fun el => el.area).foldl FP.add (FP.nat 0) := by
  obtain ⟨as, F⟩ := filled e
  have hn : L1.mesh.nElements = L.mesh.nElements := by rw [F.eq]
  have hl : (L1.mesh.elements.take L1.mesh.nElements).map (fun el => el.area) = as := by
    apply List.ext_getElem?
    intro i
    rw [List.getElem?_map, List.getElem?_take, hn]
    rcases Nat.lt_or_ge i L.mesh.nElements with hi | hi
    · rw [if_pos hi]
      have hi' : i < as.length := by rw [F.count]; exact hi
      obtain ⟨el, -, -, h3⟩ := F.done i _ (List.getElem?_eq_getElem hi')
      rw [h3, List.getElem?_eq_getElem hi']
      rfl
    · rw [if_neg (by omega), List.getElem?_eq_none (by rw [F.count]; exact hi)]
      rfl
  rw [hl, F.eq]

end

/-! ### C45: cut cells -/

section
variable {w h : Nat} {L L' L1 : LevelSet ℝ} {b : Boundary ℝ} {isTarget : Bool}

theorem area_exact (T : Tame w h L isTarget) (hN : isTarget = true ∨ NearSeen w h L isTarget) (e : discretise L isTarget = .ok (b, L'))
    {x y : Nat} (hx : x < w) (hy : y < h) {el : Element ℝ} (hel : L'.mesh.elements[cellNo w x y]? = some el) :
    areaOf L'.mesh b el = .ok (cellArea (level w L isTarget) x y) := by
  obtain ⟨b', L2, e', E⟩ := tame_exact T
  rw [e] at e'
  cases e'
  obtain ⟨V, H⟩ := near_look hN T.gentle
  exact cell_area E T.setup V H hx hy hel

theorem grid_after (T : Tame w h L isTarget) (e : discretise L isTarget = .ok (b, L')) : IsGrid w h L'.mesh := by
  have M := made T.toReady e
  exact M.annot.1.grid T.grid

/-- **C45** (defined): after a discretisation the area fractions can be computed: no undefined behaviour. -/
theorem C45_returns (T : Tame w h L isTarget) (hN : isTarget = true ∨ NearSeen w h L isTarget) (e : discretise L isTarget = .ok (b, L')) :
    ∃ L1, computeAreaFractions L' b = .ok L1 := by
  have G := grid_after T e
  have := fill_wp L' b
  rcases hr : computeAreaFractions L' b with err | L1
  · rw [hr] at this
    rcases this with ⟨hlt, -⟩ | ⟨i, el, hi, hel, ha⟩
    · rw [G.elements_length, G.nElements] at hlt; omega
    · rw [G.nElements] at hi
      have hx := idx_mod_lt hi
      have hy := idx_div_lt hi
      have hc : cellNo w (i % w) (i / w) = i := by unfold cellNo; rw [Nat.mul_comm]; exact Nat.mod_add_div i w
      rw [area_exact T hN e hx hy (by rw [hc]; exact hel)] at ha
      cases ha
  · exact ⟨L1, rfl⟩

/-- **C45** (value; partial: for a saddle whose value at the centre is zero, `cellArea` follows the code, see `C45_saddle_tie`): the area fraction of every cell is the area of the part of the cell that belongs to the structure: one if no corner is
outside, zero if none is inside, otherwise the area of the polygon of `cellArea`, whose vertices are corners of the cell and points of the
contour. -/
theorem C45_cells_partial (T : Tame w h L isTarget) (hN : isTarget = true ∨ NearSeen w h L isTarget) (e : discretise L isTarget = .ok (b, L'))
    (e1 : computeAreaFractions L' b = .ok L1) {x y : Nat} (hx : x < w) (hy : y < h) :
    ∃ el, L1.mesh.elements[cellNo w x y]? = some el ∧ el.area = cellArea (level w L isTarget) x y := by
  have G := grid_after T e
  obtain ⟨as, F⟩ := filled e1
  have hi : cellNo w x y < as.length := by rw [F.count, G.nElements]; exact idx_lt hx hy
  obtain ⟨el, h1, h2, h3⟩ := F.done _ _ (List.getElem?_eq_getElem hi)
  rw [area_exact T hN e hx hy h1] at h2
  exact ⟨_, h3, (Except.ok.inj h2).symm⟩

/-- The total over all cells. -/
theorem C45_total_area (T : Tame w h L isTarget) (hN : isTarget = true ∨ NearSeen w h L isTarget) (e : discretise L isTarget = .ok (b, L'))
    (e1 : computeAreaFractions L' b = .ok L1) :
    L1.area = ∑ i ∈ Finset.range (w * h), cellArea (level w L isTarget) (i % w) (i / w) := by
  have G := grid_after T e
  obtain ⟨as, F⟩ := filled e1
  have hl : as = (List.range (w * h)).map fun i => cellArea (level w L isTarget) (i % w) (i / w) := by
    apply List.ext_getElem (by rw [F.count, G.nElements, List.length_map, List.length_range])
    intro i hi hi'
    rw [List.length_map, List.length_range] at hi'
    have hx := idx_mod_lt hi'
    have hy := idx_div_lt hi'
    have hc : cellNo w (i % w) (i / w) = i := by unfold cellNo; rw [Nat.mul_comm]; exact Nat.mod_add_div i w
    obtain ⟨el, h1, h2, -⟩ := F.done _ _ (List.getElem?_eq_getElem hi)
    rw [area_exact T hN e hx hy (by rw [hc]; exact h1)] at h2
    rw [List.getElem_map, List.getElem_range]
    exact (Except.ok.inj h2).symm
  have hs : ∀ (l : List ℝ) (a : ℝ), l.foldl FP.add a = a + l.sum := by
    intro l
    induction l with
    | nil => intro a; simp
    | cons c l ih => intro a; rw [List.foldl_cons, ih]; simp; ring
  have : L1.area = as.foldl FP.add (FP.nat 0) := by rw [F.eq]
  rw [this, hs, hl, sum_range_map]
  simp

/-- **C45** (bounds): a cell with a corner inside and a corner outside has an area fraction strictly between zero and one. -/
theorem C45_bounds (f : Nat → Nat → ℝ) (x y : Nat) : (0 ≤ cellArea f x y ∧ cellArea f x y ≤ 1) ∧
    ((∃ q ∈ cellCorners x y, nodeSide (f q.1 q.2) = .inside) → (∃ q ∈ cellCorners x y, nodeSide (f q.1 q.2) = .outside) →
      0 < cellArea f x y ∧ cellArea f x y < 1) := by
  refine ⟨?_, fun hi ho => ?_⟩
  · rcases stat_cases (cellSide f x y) with h | h | h
    · rw [cellArea_inside h]; norm_num
    · rw [cellArea_outside h]; norm_num
    · have := cellArea_between h
      exact ⟨this.1.le, this.2.le⟩
  · refine cellArea_between ?_
    rcases stat_cases (cellSide f x y) with h | h | h
    · obtain ⟨q, hq, hs⟩ := ho
      exact absurd hs ((corners_iff (· ≠ .outside)).2 (stat_inside.1 h) q hq)
    · have hn : ¬ ∀ j, j < 4 → cellSide f x y j ≠ .outside := fun h' => by
        rw [stat_inside.2 h'] at h; cases h
      obtain ⟨q, hq, hs⟩ := hi
      exact absurd hs ((corners_iff (· ≠ .inside)).2 ((stat_outside hn).1 h) q hq)
    · exact h

/-- **C45** (bounds of the total). -/
theorem C45_total_bounds (T : Tame w h L isTarget) (hN : isTarget = true ∨ NearSeen w h L isTarget) (e : discretise L isTarget = .ok (b, L'))
    (e1 : computeAreaFractions L' b = .ok L1) : 0 ≤ L1.area ∧ L1.area ≤ w * h := by
  rw [C45_total_area T hN e e1]
  constructor
  · exact Finset.sum_nonneg fun i _ => (C45_bounds _ _ _).1.1
  · calc _ ≤ ∑ i ∈ Finset.range (w * h), (1 : ℝ) := Finset.sum_le_sum fun i _ => (C45_bounds _ _ _).1.2
      _ = w * h := by simp

/-- **C45** (exchange): exchanging inside and outside turns the area fraction `a` of a cell into `1 - a`, if the cell is not flat, has no two
neighbouring corners on the contour, and is not a saddle with value zero at the centre. -/
theorem C45_complement {f : Nat → Nat → ℝ} {x y : Nat} (hflat : ∃ q ∈ cellCorners x y, nodeSide (f q.1 q.2) ≠ .boundary)
    (hadj : ∀ q ∈ cellCorners x y, ∀ r ∈ cellCorners x y, (q.1 = r.1 ∨ q.2 = r.2) → q ≠ r →
      ¬ (nodeSide (f q.1 q.2) = .boundary ∧ nodeSide (f r.1 r.2) = .boundary))
    (hsad : Saddle f x y → centreValue f x y ≠ 0) : cellArea (fun a c => -f a c) x y = 1 - cellArea f x y := by
  refine cellArea_neg hflat (fun _ j hj hb ha => ?_) hsad
  have hm : ∀ i, i < 4 → cornerAt x y i ∈ cellCorners x y := by
    intro i hi
    match i, hi with
    | 0, _ => simp [cellCorners, cornerAt]
    | 1, _ => simp [cellCorners, cornerAt]
    | 2, _ => simp [cellCorners, cornerAt]
    | 3, _ => simp [cellCorners, cornerAt]
  refine hadj _ (hm j hj) _ (hm _ (after_lt hj)) ?_ (cornerAt_ne hj) ⟨hb, ha⟩
  match j, hj with
  | 0, _ => simp [cornerAt, after]
  | 1, _ => simp [cornerAt, after]
  | 2, _ => simp [cornerAt, after]
  | 3, _ => simp [cornerAt, after]

/-- **C45** (four crossed edges): if the value at the centre is not zero, the segments of the cell cut off the corners on the other side of
the contour than the centre; `cellArea` is the area of the structure for this choice. -/
theorem C45_saddle_segments (T : Tame w h L isTarget) (e : discretise L isTarget = .ok (b, L')) {x y : Nat} (hx : x < w) (hy : y < h)
    (hs : Saddle (level w L isTarget) x y) (hc : centreValue (level w L isTarget) x y ≠ 0) {s : BoundarySegment ℝ} (hm : s ∈ b.segments)
    (he : s.element = cellNo w x y) :
    ∃ q ∈ cellCorners x y, nodeSide (level w L isTarget q.1 q.2) = (if 0 < centreValue (level w L isTarget) x y then .outside else .inside) ∧
      ∃ u v : Place, q ∈ u.ends ∧ q ∈ v.ends ∧ u ≠ v ∧ u.onContour (level w L isTarget) ∧ v.onContour (level w L isTarget) ∧
        (∃ p, b.points[s.start]? = some p ∧ p.coord = u.coord (level w L isTarget)) ∧
        ∃ p, b.points[s.stop]? = some p ∧ p.coord = v.coord (level w L isTarget) := by
  obtain ⟨b', L2, e', E⟩ := tame_exact T
  rw [e] at e'
  cases e'
  exact saddle_segment E T.vis hx hy hs hc hm he

/-- The area of a domain without holes is that of the rectangle. -/
theorem C45_plain (hw : 2 ≤ w) (hh : 2 ≤ h) (hN : (w + 1) * (h + 1) < 2 ^ 31) {moveLimit : ℝ} {bandWidth : Nat} (hb : bandWidth < 2 ^ 32)
    (e : new w h (.holes []) moveLimit bandWidth false = .ok L) :
    ∃ b L' L1, discretise L false = .ok (b, L') ∧ computeAreaFractions L' b = .ok L1 ∧ L1.area = w * h := by
  obtain ⟨T, b, L', e'⟩ := C41_plain_partial hw hh hN hb e
  have hr : Reachable w h L := .new (by omega) (by omega) hN hb e
  have B := built (by omega) (by omega) hN hb e
  have hS : NearSeen w h L false := near_of_band hr B.band B.params.2.2
  obtain ⟨L1, e1⟩ := C45_returns T (.inr hS) e'
  refine ⟨b, L', L1, e', e1, ?_⟩
  rw [C45_total_area T (.inr hS) e' e1]
  have : ∀ i ∈ Finset.range (w * h), cellArea (level w L false) (i % w) (i / w) = 1 := by
    intro i hi
    rw [Finset.mem_range] at hi
    have hx := idx_mod_lt hi
    have hy := idx_div_lt hi
    unfold cellArea
    rw [if_pos]
    intro q hq
    have hq' : q.1 ≤ w ∧ q.2 ≤ h := by
      simp only [cellCorners, List.mem_cons, List.not_mem_nil, or_false] at hq
      rcases hq with rfl | rfl | rfl | rfl <;> constructor <;> dsimp only <;> omega
    rw [plain_side (by omega) (by omega) hN hb e hq'.1 hq'.2]
    split <;> simp
  rw [Finset.sum_congr rfl this]
  simp

end

/-! ### examples -/

/-- Any gentle and tidy values on a small grid can be the target of a level set. -/
theorem with_target (w h : Nat) (hw : 1 ≤ w) (hh : 1 ≤ h) (hN : (w + 1) * (h + 1) < 2 ^ 31) (F : Nat → Nat → ℝ)
    (hG : Gentle w h F) (hT : Tidy w h F) : ∃ L : LevelSet ℝ, Reachable w h L ∧ Tame w h L true ∧ ∀ x y, x ≤ w → y ≤ h → level w L true x y = F x y := by
  obtain ⟨L, hL⟩ := (C22_accepts_iff (D := ℝ) (w := w) (h := h) hw hh hN
    (.holes []) (by simp) (1 / 2) 3 (by norm_num) false).2.2 ⟨by norm_num, by norm_num, by norm_num, fun h => by cases h⟩
  have hr : Reachable w h L := .new hw hh hN (by norm_num) hL
  have C := hr.core
  have hV : ∀ x y, x ≤ w → y ≤ h → vals ((List.range ((w + 1) * (h + 1))).map fun i => F (i % (w + 1)) (i / (w + 1))) (nodeNo w x y) = F x y := by
    intro x y hx hy
    rw [vals_map_range _ (nodeNo_lt hx hy)]
    have e1 : nodeNo w x y % (w + 1) = x := idx_mod (by omega)
    have e2 : nodeNo w x y / (w + 1) = y := idx_div (by omega)
    rw [e1, e2]
  refine ⟨_, .call hr (.assign L.signedDistance L.velocity L.gradient ((List.range ((w + 1) * (h + 1))).map fun i => F (i % (w + 1)) (i / (w + 1)))
    C.sd C.velocity C.gradient), ⟨⟨C.grid, ?_, by omega⟩, ⟨?_, ?_⟩, .inl rfl, ⟨?_, ?_⟩⟩, hV⟩
  · simp [values, C.grid.nNodes]
  · intro x y hx hy
    change Crossed (nodeSide (vals _ _)) (nodeSide (vals _ _)) → |vals _ _ - vals _ _| ≤ 1
    rw [values, if_pos rfl, hV x y (by omega) hy, hV (x + 1) y hx hy]
    exact hG.1 x y hx hy
  · intro x y hx hy
    change Crossed (nodeSide (vals _ _)) (nodeSide (vals _ _)) → |vals _ _ - vals _ _| ≤ 1
    rw [values, if_pos rfl, hV x y hx (by omega), hV x (y + 1) hx hy]
    exact hG.2 x y hx hy
  · intro x y hx hy
    obtain ⟨q, hq, hs⟩ := hT.flat x y hx hy
    refine ⟨q, hq, ?_⟩
    have : q.1 ≤ w ∧ q.2 ≤ h := by
      simp only [List.mem_cons, List.not_mem_nil, or_false] at hq
      rcases hq with rfl | rfl | rfl | rfl <;> constructor <;> dsimp only <;> omega
    change nodeSide (vals _ _) ≠ _
    rw [values, if_pos rfl, hV _ _ this.1 this.2]
    exact hs
  · intro x y hx hy hb
    change nodeSide (vals _ _) = _ at hb
    rw [values, if_pos rfl, hV _ _ hx hy] at hb
    refine le_trans (le_of_eq ?_) (hT.ends x y hx hy hb)
    have hh : ∀ a c, a ≤ w → c ≤ h → level w { L with
        target := (List.range ((w + 1) * (h + 1))).map fun i => F (i % (w + 1)) (i / (w + 1)) } true a c = F a c := hV
    change latticeEnds w h (level w { L with
        target := (List.range ((w + 1) * (h + 1))).map fun i => F (i % (w + 1)) (i / (w + 1)) } true) x y = _
    unfold latticeEnds
    congr 1
    · congr 1
      · congr 1
        · split
          · rename_i hc; rw [hh _ _ (by omega) (by omega), hh _ _ (by omega) (by omega), hh _ _ (by omega) (by omega)]
          · rfl
        · split
          · rename_i hc; rw [hh _ _ (by omega) (by omega), hh _ _ (by omega) (by omega), hh _ _ (by omega) (by omega)]
          · rfl
      · split
        · rename_i hc; rw [hh _ _ (by omega) (by omega), hh _ _ (by omega) (by omega), hh _ _ (by omega) (by omega)]
        · rfl
    · split
      · rename_i hc; rw [hh _ _ (by omega) (by omega), hh _ _ (by omega) (by omega), hh _ _ (by omega) (by omega)]
      · rfl

theorem side_in {v : ℝ} (h : 1 / 4 ≤ v) : nodeSide v = .inside := by rw [nodeSide_inside]; norm_num; linarith
theorem side_out {v : ℝ} (h : v ≤ -1 / 4) : nodeSide v = .outside := by rw [nodeSide_outside]; norm_num; linarith

/-- The values `1/2` at the bottom and `-1/4` at the top of a single cell. -/
noncomputable def halfFull (_ y : Nat) : ℝ := if y = 0 then 1 / 2 else -1 / 4

/-- The hypotheses of the theorems above are met, and the area fraction is that of the lower two thirds of the cell. -/
theorem half_full : ∃ (L L' L1 : LevelSet ℝ) (b : Boundary ℝ), Tame 1 1 L true ∧ discretise L true = .ok (b, L') ∧ computeAreaFractions L' b = .ok L1 ∧
    L1.area = 2 / 3 ∧ Generic 1 1 (level 1 L true) ∧ ∀ x y, x < 1 → y < 1 → ¬ Saddle (level 1 L true) x y := by
  have h0 : ∀ x, nodeSide (halfFull x 0) = .inside := fun x => side_in (by simp [halfFull]; norm_num)
  have h1 : ∀ x y, nodeSide (halfFull x (y + 1)) = .outside := fun x y => side_out (by simp [halfFull])
  have gen : Generic 1 1 halfFull := by
    intro x y hx hy
    rcases Nat.eq_zero_or_pos y with rfl | h
    · rw [h0]; simp
    · obtain ⟨y, rfl⟩ := Nat.exists_eq_succ_of_ne_zero (by omega : y ≠ 0)
      rw [h1]; simp
  obtain ⟨L, -, T, hv⟩ := with_target 1 1 (by norm_num) (by norm_num) (by norm_num) halfFull
    ⟨fun x y hx hy _ => by simp [halfFull], fun x y hx hy _ => by
      have : y = 0 := by omega
      subst this; simp [halfFull]; norm_num [abs_le]⟩ gen.tidy
  obtain ⟨b, L', e⟩ := C41_safe_partial T
  obtain ⟨L1, e1⟩ := C45_returns T (.inl rfl) e
  refine ⟨L, L', L1, b, T, e, e1, ?_, fun x y hx hy => by rw [hv x y hx hy]; exact gen x y hx hy, fun x y hx hy hs => ?_⟩
  swap
  · have hx : x = 0 := by omega
    have hy : y = 0 := by omega
    subst hx hy
    have := hs.1
    rw [hv 0 0 (by norm_num) (by norm_num), hv 1 0 (by norm_num) (by norm_num), h0, h0] at this
    revert this
    decide
  rw [C45_total_area T (.inl rfl) e e1]
  simp only [Nat.mul_one, Finset.sum_range_one, Nat.zero_mod, Nat.zero_div]
  have hl : ∀ x y, x ≤ 1 → y ≤ 1 → level 1 L true x y = halfFull x y := hv
  have hside : pick (cellSide (level 1 L true) 0 0 0) (cellSide (level 1 L true) 0 0 1) (cellSide (level 1 L true) 0 0 2)
      (cellSide (level 1 L true) 0 0 3) = pick .inside .inside .outside .outside := by
    simp only [cellSide, cornerAt]
    rw [hl 0 0 (by norm_num) (by norm_num), hl 1 0 (by norm_num) (by norm_num), hl 1 1 (by norm_num) (by norm_num), hl 0 1 (by norm_num) (by norm_num),
      h0, h0, h1 1 0, h1 0 0]
  have hc : stat (cellSide (level 1 L true) 0 0) = .none := by rw [stat_pick, hside]; decide
  have hn : isSaddle (cellSide (level 1 L true) 0 0) ≠ true := by rw [isSaddle_pick, hside]; decide
  have hw : walkLP.filter (structLP (cellSide (level 1 L true) 0 0)) = [.c 0, .c 1, .e 1, .e 3] := by rw [structLP_pick, hside]; decide
  have t1 : crossing (level 1 L true) 0 0 1 = 2 / 3 := by
    unfold crossing
    rw [if_pos]
    · simp only [edgeAt, crossAt]
      rw [hl 1 0 (by norm_num) (by norm_num), hl 1 1 (by norm_num) (by norm_num)]
      norm_num [halfFull]
    · refine .inl ⟨?_, ?_⟩
      · rw [hl 1 0 (by norm_num) (by norm_num), h0]
      · rw [hl 1 1 (by norm_num) (by norm_num), h1 1 0]
  have t3 : crossing (level 1 L true) 0 0 3 = 2 / 3 := by
    unfold crossing
    rw [if_pos]
    · simp only [edgeAt, crossAt]
      rw [hl 0 0 (by norm_num) (by norm_num), hl 0 1 (by norm_num) (by norm_num)]
      norm_num [halfFull]
    · refine .inl ⟨?_, ?_⟩
      · rw [hl 0 0 (by norm_num) (by norm_num), h0]
      · rw [hl 0 1 (by norm_num) (by norm_num), h1 0 0]
  rw [cellArea_cut hc, if_neg (fun h => hn h.1), polyArea_eq, structurePolygon_eq, hw]
  simp [ringSum, Area.cross, cellPoint, t1, t3]

/-- A saddle whose value at the centre is zero. -/
noncomputable def tie (x y : Nat) : ℝ := if x = y then -1 / 2 else 1 / 2

/-- **C45** (disagreement): if the value at the centre of a saddle is exactly zero, the area fraction can disagree with the segments.  Here
both segments cut off a corner that is outside, so that the structure between them has the area 3/4, but the area fraction is 1/4. -/
theorem C45_saddle_tie : ∃ (L L' L1 : LevelSet ℝ) (b : Boundary ℝ), Tame 1 1 L true ∧ discretise L true = .ok (b, L') ∧
    computeAreaFractions L' b = .ok L1 ∧
    nodeSide (level 1 L true 0 0) = .outside ∧ nodeSide (level 1 L true 1 0) = .inside ∧
    nodeSide (level 1 L true 1 1) = .outside ∧ nodeSide (level 1 L true 0 1) = .inside ∧
    ∃ el, L1.mesh.elements[0]? = some el ∧ el.nBoundarySegments = 2 ∧ el.area = 1 / 4 ∧
      (∃ (k : Nat) (s : BoundarySegment ℝ) (p q : BoundaryPoint ℝ), el.boundarySegments[0]? = some k ∧ b.segments[k]? = some s ∧
        b.points[s.start]? = some p ∧ b.points[s.stop]? = some q ∧ p.coord = ⟨1 / 2, 0⟩ ∧ q.coord = ⟨0, 1 / 2⟩) ∧
      ∃ (k : Nat) (s : BoundarySegment ℝ) (p q : BoundaryPoint ℝ), el.boundarySegments[1]? = some k ∧ b.segments[k]? = some s ∧
        b.points[s.start]? = some p ∧ b.points[s.stop]? = some q ∧ p.coord = ⟨1, 1 / 2⟩ ∧ q.coord = ⟨1 / 2, 1⟩ := by
  have ho : ∀ x, nodeSide (tie x x) = .outside := fun x => side_out (by simp [tie]; norm_num)
  have hi : ∀ x y, x ≠ y → nodeSide (tie x y) = .inside := fun x y h => side_in (by simp [tie, h]; norm_num)
  have gen : Generic 1 1 tie := by
    intro x y hx hy
    by_cases h : x = y
    · subst h; rw [ho]; simp
    · rw [hi x y h]; simp
  obtain ⟨L, -, T, hl⟩ := with_target 1 1 (by norm_num) (by norm_num) (by norm_num) tie
    ⟨fun x y hx hy _ => by unfold tie; split <;> split <;> norm_num, fun x y hx hy _ => by unfold tie; split <;> split <;> norm_num⟩ gen.tidy
  have l00 : level 1 L true 0 0 = -1 / 2 := by rw [hl 0 0 (by norm_num) (by norm_num)]; simp [tie]
  have l10 : level 1 L true 1 0 = 1 / 2 := by rw [hl 1 0 (by norm_num) (by norm_num)]; simp [tie]
  have l11 : level 1 L true 1 1 = -1 / 2 := by rw [hl 1 1 (by norm_num) (by norm_num)]; simp [tie]
  have l01 : level 1 L true 0 1 = 1 / 2 := by rw [hl 0 1 (by norm_num) (by norm_num)]; simp [tie]
  have s00 : nodeSide (level 1 L true 0 0) = .outside := by rw [l00]; exact side_out (by norm_num)
  have s10 : nodeSide (level 1 L true 1 0) = .inside := by rw [l10]; exact side_in (by norm_num)
  have s11 : nodeSide (level 1 L true 1 1) = .outside := by rw [l11]; exact side_out (by norm_num)
  have s01 : nodeSide (level 1 L true 0 1) = .inside := by rw [l01]; exact side_in (by norm_num)
  obtain ⟨b, L', e, E⟩ := tame_exact T
  obtain ⟨L1, e1⟩ := C45_returns T (.inl rfl) e
  have G := grid_after T e
  obtain ⟨el, hel, harea⟩ := C45_cells_partial T (.inl rfl) e e1 (x := 0) (y := 0) (by norm_num) (by norm_num)
  obtain ⟨el0, hel0, heq, -⟩ := (C45_frame e1).2.2 _ _ hel
  obtain ⟨-, hnb, hseg⟩ := cell_segment E T.grid (x := 0) (y := 0) (by norm_num) (by norm_num) hel0
  have hside : pick (cellSide (level 1 L true) 0 0 0) (cellSide (level 1 L true) 0 0 1) (cellSide (level 1 L true) 0 0 2)
      (cellSide (level 1 L true) 0 0 3) = pick .outside .inside .outside .inside := by
    simp only [cellSide, cornerAt]
    rw [s00, s10, s11, s01]
  have harcs : cellArcs 1 L.mesh (values L true) true 0 0 = [(.e 0, .e 3), (.e 1, .e 2)] := by
    unfold cellArcs
    have hf : firstWay 1 (values L true) 0 0 = false := by
      unfold firstWay
      have h1 : centreSum 1 (values L true) 0 0 = 0 := by
        show level 1 L true 0 0 + level 1 L true 1 0 + level 1 L true 1 1 + level 1 L true 0 1 = 0
        rw [l00, l10, l11, l01]; norm_num
      rw [h1]
      simp
    rw [hf, arcs_pick]
    change arcs (pick (cellSide (level 1 L true) 0 0 0) (cellSide (level 1 L true) 0 0 1) (cellSide (level 1 L true) 0 0 2)
      (cellSide (level 1 L true) 0 0 3)) (pick true true true true) false = _
    rw [hside]
    decide
  rw [harcs] at hnb hseg
  have hc : stat (cellSide (level 1 L true) 0 0) = .none := by rw [stat_pick, hside]; decide
  have hs : isSaddle (cellSide (level 1 L true) 0 0) = true := by rw [isSaddle_pick, hside]; decide
  have hw : walkLP.filter (voidLP (cellSide (level 1 L true) 0 0)) = [.c 0, .e 0, .e 1, .c 2, .e 2, .e 3] := by rw [voidLP_pick, hside]; decide
  have c0 : (Place.hor 0 0).onContour (level 1 L true) := .inr ⟨s00, s10⟩
  have c1 : (Place.ver 1 0).onContour (level 1 L true) := .inl ⟨s10, s11⟩
  have c2 : (Place.hor 0 1).onContour (level 1 L true) := .inl ⟨s01, s11⟩
  have c3 : (Place.ver 0 0).onContour (level 1 L true) := .inr ⟨s00, s01⟩
  have t0 : crossing (level 1 L true) 0 0 0 = 1 / 2 := by
    unfold crossing; rw [if_pos (show Place.onContour _ (edgeAt 0 0 0) from c0)]; simp only [edgeAt, crossAt, Nat.zero_add]; rw [l00, l10]; norm_num
  have t1 : crossing (level 1 L true) 0 0 1 = 1 / 2 := by
    unfold crossing; rw [if_pos (show Place.onContour _ (edgeAt 0 0 1) from c1)]; simp only [edgeAt, crossAt, Nat.zero_add]; rw [l10, l11]; norm_num
  have t2 : crossing (level 1 L true) 0 0 2 = 1 / 2 := by
    unfold crossing; rw [if_pos (show Place.onContour _ (edgeAt 0 0 2) from c2)]; simp only [edgeAt, crossAt, Nat.zero_add]; rw [l01, l11]; norm_num
  have t3 : crossing (level 1 L true) 0 0 3 = 1 / 2 := by
    unfold crossing; rw [if_pos (show Place.onContour _ (edgeAt 0 0 3) from c3)]; simp only [edgeAt, crossAt, Nat.zero_add]; rw [l00, l01]; norm_num
  have hcv : centreValue (level 1 L true) 0 0 = 0 := by
    unfold centreValue
    simp only [Nat.zero_add]
    rw [l00, l10, l11, l01]; norm_num
  refine ⟨L, L', L1, b, T, e, e1, s00, s10, s11, s01, el, hel, ?_, ?_, ?_, ?_⟩
  · rw [heq]; exact hnb
  · rw [harea, cellArea_cut hc, if_pos ⟨hs, hcv.le⟩, polyArea_eq, voidPolygon_eq, hw]
    simp [ringSum, Area.cross, cellPoint, t0, t1, t2, t3]
    norm_num
  · obtain ⟨k, s, p, q, h1, h2, h3, h4, h5, h6⟩ := hseg 0 _ rfl
    refine ⟨k, s, p, q, by rw [heq]; exact h1, h2, h3, h5, ?_, ?_⟩
    · rw [h4]
      show (Place.hor 0 0).coord (level 1 L true) = _
      simp only [Place.coord, Nat.zero_add]; rw [l00, l10]; norm_num
    · rw [h6]
      show (Place.ver 0 0).coord (level 1 L true) = _
      simp only [Place.coord, Nat.zero_add]; rw [l00, l01]; norm_num
  · obtain ⟨k, s, p, q, h1, h2, h3, h4, h5, h6⟩ := hseg 1 _ rfl
    refine ⟨k, s, p, q, by rw [heq]; exact h1, h2, h3, h5, ?_, ?_⟩
    · rw [h4]
      show (Place.ver 1 0).coord (level 1 L true) = _
      simp only [Place.coord, Nat.zero_add]; rw [l10, l11]; norm_num
    · rw [h6]
      show (Place.hor 0 1).coord (level 1 L true) = _
      simp only [Place.coord, Nat.zero_add]; rw [l01, l11]; norm_num

end Slsm
