import Verif.Proof.RoundArea
import Verif.Props.Round
import Verif.Props.Area

/-! Rounded arithmetic: the area fraction of a cell after a discretisation. -/

namespace Slsm

open FP Rounding Boundary

namespace Area

section
variable {R : Rounding} {f : Nat → Nat → ℝ} {x y : Nat}

theorem unit_pos : 0 < (1 / 10 ^ 6 : ℝ) / R.tol := by
  have := (tol_near (R := R)).1
  have : 0 < R.tol := by norm_num at this ⊢; linarith
  positivity

theorem scaled_side (x y : Nat) : nodeSide (R.scaled f x y) = nodeSide (R.sides f x y) := by
  have hu := unit_pos (R := R)
  have ht : 0 < R.tol := by
    have := (tol_near (R := R)).1
    norm_num at this ⊢; linarith
  have e1 : |R.scaled f x y| < 1 / 10 ^ 6 ↔ |f x y| < R.tol := by
    unfold Rounding.scaled
    rw [abs_mul, abs_of_pos hu, ← mul_div_assoc, div_lt_iff₀ ht, mul_comm (1 / 10 ^ 6 : ℝ)]
    exact mul_lt_mul_iff_left₀ (by norm_num)
  have e2 : R.scaled f x y < 0 ↔ f x y < 0 := by
    unfold Rounding.scaled
    constructor
    · intro h; by_contra h'; exact absurd h (not_lt.2 (mul_nonneg (not_lt.1 h') hu.le))
    · intro h; exact mul_neg_of_neg_of_pos h hu
  unfold Rounding.sides
  unfold nodeSide
  simp only [e1, e2]
  split_ifs <;> first | rfl | (exfalso; norm_num at *)

theorem ratio_scaled (a b : ℝ) {c : ℝ} (hc : 0 < c) : a * c / (a * c - b * c) = a / (a - b) := by
  rw [← sub_mul, mul_div_mul_right _ _ hc.ne']

theorem scaled_coord (p : Place) : p.coord (R.scaled f) = p.coord f := by
  have hu := unit_pos (R := R)
  cases p with
  | node x y => rfl
  | hor x y => simp only [Place.coord, Rounding.scaled, ratio_scaled _ _ hu]
  | ver x y => simp only [Place.coord, Rounding.scaled, ratio_scaled _ _ hu]

theorem scaled_centre : centreValue (R.scaled f) x y ≤ 0 ↔ f x y + f (x + 1) y + f (x + 1) (y + 1) + f x (y + 1) ≤ 0 := by
  have hu := unit_pos (R := R)
  unfold centreValue Rounding.scaled
  rw [← add_mul, ← add_mul, ← add_mul, mul_div_right_comm]
  constructor
  · intro h
    by_contra h'
    have : 0 < (f x y + f (x + 1) y + f (x + 1) (y + 1) + f x (y + 1)) / 4 := by linarith [not_le.1 h']
    have := mul_pos this hu
    linarith
  · intro h
    exact mul_nonpos_of_nonpos_of_nonneg (by linarith) hu.le

end

section
variable {R : Rounding} {w h : Nat} {L L' : LevelSet R.Num} {b : Boundary R.Num} {isTarget : Bool} {far : Nat → Nat → Prop} {x y : Nat}

/-- The point of the run in rounded arithmetic. -/
theorem find (C : Clear w h L isTarget) (hF : FarOk w h (sideMap w L isTarget) far) {b' : Boundary ℝ} {M' : LevelSet ℝ}
    (O : OutSim (Pos w h (values L isTarget) (level w (stand w h L isTarget far) isTarget)) (b, L') (b', M')) {k : Nat} {p' : BoundaryPoint ℝ}
    (hk : b'.points[k]? = some p') {q : Place} (hq : q.inGrid w h) (hc : q.onContour (level w (stand w h L isTarget far) isTarget))
    (hp : p'.coord = q.coord (level w (stand w h L isTarget far) isTarget)) :
    ∃ pt, b.points[k]? = some pt ∧ Sits w h (values L isTarget) q pt.coord ∧ q.within (3 / 2 / 10 ^ 6) pt.coord.x.val pt.coord.y.val := by
  rcases pairs_get O.bnd.points k with ⟨-, hn⟩ | ⟨pt, q', h1, h2, S⟩
  · exact absurd (hk.symm.trans hn) (by simp)
  have : q' = p' := Option.some.inj (h2.symm.trans hk)
  subst this
  obtain ⟨r, r1, r2, r3, r4, r5⟩ := S.coord
  have hw := stand_within (isTarget := isTarget) (far := far) C.grid hF q hq hc
  have er : r = q := by
    rw [hp] at r5
    exact Place.within_unique (by norm_num) (by norm_num) r5 hw
  subst er
  exact ⟨pt, h1, r2, r3⟩

open Classical in
/-- The vertices in rounded arithmetic. -/
noncomputable def vert (b : Boundary R.Num) (x y : Nat) : LP → Coord R.Num
  | .c j => ⟨nat (cornerAt x y j).1, nat (cornerAt x y j).2⟩
  | .e j => if h : ∃ pt ∈ b.points, (edgeAt x y j).has pt.coord.x.val pt.coord.y.val then (Classical.choose h).coord else ⟨nat 0, nat 0⟩

theorem vert_edge (C : Clear w h L isTarget) (e : discretise L isTarget = .ok (b, L')) {j : Nat} (hc : CutEdge w h (sideMap w L isTarget) (edgeAt x y j))
    {k : Nat} {pt : BoundaryPoint R.Num} (hk : b.points[k]? = some pt) (hh : (edgeAt x y j).has pt.coord.x.val pt.coord.y.val) :
    vert b x y (.e j) = pt.coord := by
  have hex : ∃ pt ∈ b.points, (edgeAt x y j).has pt.coord.x.val pt.coord.y.val := ⟨pt, List.mem_of_getElem? hk, hh⟩
  unfold vert
  dsimp only
  rw [dif_pos hex]
  obtain ⟨h1, h2⟩ := Classical.choose_spec hex
  obtain ⟨k', hk'⟩ := List.mem_iff_getElem?.1 h1
  obtain ⟨k0, pt0, g1, g2, -, -, g5, -⟩ := C94_watertight C e hc
  have a1 := g5 k pt hk hh
  have a2 := g5 k' _ hk' h2
  rw [a1] at hk
  rw [a2] at hk'
  rw [Option.some.inj (hk'.symm.trans hk)]

theorem coord_ext {c d : Coord R.Num} (h1 : c.x.val = d.x.val) (h2 : c.y.val = d.y.val) : c = d := by
  obtain ⟨⟨a, ha⟩, ⟨b, hb⟩⟩ := c
  obtain ⟨⟨a', ha'⟩, ⟨b', hb'⟩⟩ := d
  dsimp only at h1 h2
  subst h1 h2
  rfl

/-- How far along the edge. -/
noncomputable def offset (b : Boundary R.Num) (x y j : Nat) : ℝ :=
  if j = 0 ∨ j = 2 then (vert b x y (.e j)).x.val - x else (vert b x y (.e j)).y.val - y

theorem edge_offset {j : Nat} (hj : j < 4) {c : Coord R.Num} (hc : vert b x y (.e j) = c) {m : ℝ} (hw : (edgeAt x y j).within m c.x.val c.y.val) :
    m ≤ offset b x y j ∧ offset b x y j ≤ 1 - m ∧ ∀ τ : Nat → ℝ, τ j = offset b x y j → valC (vert b x y (.e j)) = cellPoint x y τ (.e j) := by
  unfold offset
  rw [hc]
  match j, hj with
  | 0, _ =>
    obtain ⟨h1, h2, h3⟩ := hw
    rw [if_pos (.inl rfl)]
    refine ⟨by linarith, by linarith, fun τ hτ => ?_⟩
    simp only [valC, cellPoint, hτ, h3]; simp
  | 1, _ =>
    obtain ⟨h1, h2, h3⟩ := hw
    rw [if_neg (by decide)]
    refine ⟨by linarith, by linarith, fun τ hτ => ?_⟩
    simp only [valC, cellPoint, hτ, h1]; simp
  | 2, _ =>
    obtain ⟨h1, h2, h3⟩ := hw
    rw [if_pos (.inr rfl)]
    refine ⟨by linarith, by linarith, fun τ hτ => ?_⟩
    simp only [valC, cellPoint, hτ, h3]; simp
  | 3, _ =>
    obtain ⟨h1, h2, h3⟩ := hw
    rw [if_neg (by decide)]
    refine ⟨by linarith, by linarith, fun τ hτ => ?_⟩
    simp only [valC, cellPoint, hτ, h1]; simp

/-- The offset is near the exact one. -/
theorem offset_near {j : Nat} (hj : j < 4) {σ : Nat → ℝ} {c : Coord R.Num} (hc : vert b x y (.e j) = c) {δ : ℝ} {g : Nat → Nat → ℝ}
    (hg : (edgeAt x y j).coord g = cellPoint x y σ (.e j)) (h1 : |c.x.val - ((edgeAt x y j).coord g).x| ≤ δ)
    (h2 : |c.y.val - ((edgeAt x y j).coord g).y| ≤ δ) : |offset b x y j - σ j| ≤ δ := by
  unfold offset
  rw [hc]
  rw [hg] at h1 h2
  match j, hj with
  | 0, _ => rw [if_pos (.inl rfl)]; rw [show c.x.val - ↑x - σ 0 = c.x.val - (x + σ 0) by ring]; exact h1
  | 1, _ => rw [if_neg (by decide)]; rw [show c.y.val - ↑y - σ 1 = c.y.val - (y + σ 1) by ring]; exact h2
  | 2, _ => rw [if_pos (.inr rfl)]; rw [show c.x.val - ↑x - σ 2 = c.x.val - (x + σ 2) by ring]; exact h1
  | 3, _ => rw [if_neg (by decide)]; rw [show c.y.val - ↑y - σ 3 = c.y.val - (y + σ 3) by ring]; exact h2

open Classical in
/-- The exact area, with the choice at saddles as the code makes it. -/
noncomputable def areaLike (f : Nat → Nat → ℝ) (x y : Nat) (p : Prop) : ℝ :=
  if stat (cellSide f x y) = .inside then 1 else if stat (cellSide f x y) = .outside then 0
  else if isSaddle (cellSide f x y) = true ∧ ¬ p then 1 - polyArea (voidPolygon f x y) else polyArea (structurePolygon f x y)

theorem areaLike_eq {f : Nat → Nat → ℝ} {p : Prop} (hp : isSaddle (cellSide f x y) = true → (p ↔ ¬ centreValue f x y ≤ 0)) :
    areaLike f x y p = cellArea f x y := by
  unfold areaLike
  rcases stat_cases (cellSide f x y) with hs | hs | hs
  · rw [if_pos hs, cellArea_inside hs]
  · rw [if_neg (by rw [hs]; decide), if_pos hs, cellArea_outside hs]
  · rw [if_neg (by rw [hs]; decide), if_neg (by rw [hs]; decide), cellArea_cut hs]
    by_cases hd : isSaddle (cellSide f x y) = true
    · have := hp hd
      by_cases hc : centreValue f x y ≤ 0
      · rw [if_pos ⟨hd, fun h => this.1 h hc⟩, if_pos ⟨hd, hc⟩]
      · rw [if_neg (fun h => h.2 (this.2 hc)), if_neg (fun h => hc h.2)]
    · rw [if_neg (fun h => hd h.1), if_neg (fun h => hd h.1)]

theorem areaLike_bounds (f : Nat → Nat → ℝ) (x y : Nat) (p : Prop) : 0 ≤ areaLike f x y p ∧ areaLike f x y p ≤ 1 := by
  unfold areaLike
  rcases stat_cases (cellSide f x y) with hs | hs | hs
  · rw [if_pos hs]; norm_num
  · rw [if_neg (by rw [hs]; decide), if_pos hs]; norm_num
  · rw [if_neg (by rw [hs]; decide), if_neg (by rw [hs]; decide)]
    split_ifs with h
    · have := void_pos hs h.1
      constructor <;> linarith [this.1, this.2]
    · have := structure_pos hs
      exact ⟨this.1.le, this.2.le⟩

/-- The area of one cell. -/
theorem cell_rnd (C : Clear w h L isTarget) (hS : isTarget = true ∨ Shown w h L isTarget) (e : discretise L isTarget = .ok (b, L'))
    (hx : x < w) (hy : y < h) {el : Element R.Num} (hel : L'.mesh.elements[cellNo w x y]? = some el) :
    ∃ a : R.Num, areaOf L'.mesh b el = .ok a ∧
      |a.val - areaLike (R.scaled (lay w (values L isTarget))) x y (0 < (sumAt w (values L isTarget) x y).val)| ≤ w * h / 2 ^ 44 := by
  have hF := unseen_ok hS
  obtain ⟨⟨b', M'⟩, e', O⟩ := Lock.ok_left (stand_lock C.toDistinct hF) e
  have T := stand_tame C hF
  obtain ⟨b2, L2, e2, E⟩ := tame_exact T
  rw [e'] at e2
  cases e2
  obtain ⟨V, H⟩ := near_look (stand_near C.grid hS) T.gentle
  have G' : IsGrid w h L'.mesh := by
    have := LevelSet.wp_of_ok (discretise_fit (isTarget := isTarget) C.grid C.len) e
    obtain ⟨W, F, hm, -⟩ := this.fit
    rw [hm]
    exact F.annot.grid C.grid
  have hsmall : (w + 1) * (h + 1) < 2 ^ 31 := C.fit
  have hwb : w < 2 ^ 31 := by nlinarith
  have hhb : h < 2 ^ 31 := by nlinarith
  rcases pairs_get O.elems (cellNo w x y) with ⟨hn, -⟩ | ⟨el1, el', he1, hel', ES⟩
  · exact absurd (hel.symm.trans hn) (by simp)
  have : el1 = el := Option.some.inj (he1.symm.trans hel)
  subst this
  obtain ⟨hst, hnb, hseg⟩ := cell_segment E T.setup.grid hx hy hel'
  have hco := G'.corner x y _ hx hy hel
  have hce := G'.centre x y _ hx hy hel
  have hfind := fun k p' q h1 h2 h3 h4 => find (k := k) (p' := p') (q := q) C hF O h1 h2 h3 h4
  have hal := stand_alike C.toDistinct hF
  have SS := stand_sides (isTarget := isTarget) (far := unseen w L isTarget) C.grid
  have hS0 := T.setup
  generalize hsd : values (stand w h L isTarget (unseen w L isTarget)) isTarget = sd at *
  have hlev : level w (stand w h L isTarget (unseen w L isTarget)) isTarget = onGrid w sd := by rw [← hsd]; rfl
  rw [hlev] at O SS hfind
  generalize hf : R.scaled (lay w (values L isTarget)) = f
  have SF : SameSides w h f (sideMap w L isTarget) := fun a c _ _ => by rw [← hf]; exact scaled_side a c
  have hsides : side w sd x y = cellSide f x y := by
    funext j
    obtain ⟨h1, h2⟩ := cornerAt_le hx hy j
    exact ((SF _ _ h1 h2).trans (SS _ _ h1 h2)).symm
  have hcut : ∀ j, j < 4 → (edgeAt x y j).onContour (onGrid w sd) → CutEdge w h (sideMap w L isTarget) (edgeAt x y j) := by
    intro j hj hc
    refine ⟨edgeAt_inGrid hx hy hj, (SS.onContour (edgeAt_inGrid hx hy hj)).2 hc, ?_⟩
    match j, hj with
    | 0, _ => intro a c; simp [edgeAt]
    | 1, _ => intro a c; simp [edgeAt]
    | 2, _ => intro a c; simp [edgeAt]
    | 3, _ => intro a c; simp [edgeAt]
  -- the point of a cut edge
  have hedge : ∀ j, j < 4 → (edgeAt x y j).onContour (onGrid w sd) → ∃ c, vert b x y (.e j) = c ∧ Sits w h (values L isTarget) (edgeAt x y j) c ∧
      (edgeAt x y j).within (3 / 2 / 10 ^ 6) c.x.val c.y.val := by
    intro j hj hc
    have hc' := hcut j hj hc
    obtain ⟨k, pt, g1, g2, -⟩ := C94_watertight C e hc'
    rcases pairs_get O.bnd.points k with ⟨hn, -⟩ | ⟨pa, q, j1, j2, S⟩
    · exact absurd (g1.symm.trans hn) (by simp)
    have : pa = pt := Option.some.inj (j1.symm.trans g1)
    subst this
    obtain ⟨s, s1, s2, s3, s4, s5⟩ := S.coord
    have es : s = edgeAt x y j := edge_unique (by norm_num) hc' g2 (meets_onContour.1 s2.1) s3
    subst es
    exact ⟨_, vert_edge C e hc' g1 g2, s2, s3⟩
  have hnode : ∀ j, j < 4 → ∃ n nd, el1.nodes[j]? = some n ∧ L'.mesh.nodes[n]? = some nd ∧ nd.coord = vert b x y (.c j) ∧ nd.status = side w sd x y j := by
    intro j hj
    obtain ⟨hle1, hle2⟩ := cornerAt_le hx hy j
    obtain ⟨W, RR, hm, -⟩ := E.rep
    obtain ⟨nd', e1, -, e3⟩ := RR.node hS0 hle1 hle2
    rw [← hm] at e1
    rcases pairs_get O.nodes (nodeNo w (cornerAt x y j).1 (cornerAt x y j).2) with ⟨-, hn⟩ | ⟨nd, nd2, n1, n2, NS⟩
    · exact absurd (e1.symm.trans hn) (by simp)
    have : nd2 = nd' := Option.some.inj (n2.symm.trans e1)
    subst this
    refine ⟨nodeNo w (cornerAt x y j).1 (cornerAt x y j).2, nd, ?_, n1, G'.coord _ _ _ hle1 hle2 n1, NS.status.trans e3⟩
    rw [hco]
    match j, hj with
    | 0, _ => rfl
    | 1, _ => rfl
    | 2, _ => rfl
    | 3, _ => rfl
  have hpt : ∀ (k : Nat) (p' : BoundaryPoint ℝ) (q : LP), b'.points[k]? = some p' → fair (side w sd x y) q = true →
      p'.coord = (q.place x y).coord (onGrid w sd) → ∃ pt, b.points[k]? = some pt ∧ pt.coord = vert b x y q := by
    intro k p' q hk hq hp
    cases q with
    | c j =>
      simp only [fair, Bool.and_eq_true, decide_eq_true_eq] at hq
      obtain ⟨hle1, hle2⟩ := cornerAt_le hx hy j
      obtain ⟨pt, g1, g2, -⟩ := hfind k p' ((LP.c j).place x y) hk (by
        intro z hz
        rw [show ((LP.c j).place x y).ends = [cornerAt x y j] from rfl, List.mem_singleton] at hz
        subst hz
        exact ⟨hle1, hle2⟩) hq.2 hp
      refine ⟨pt, g1, coord_ext ?_ ?_⟩
      · rw [g2.2.1.1]
        exact (val_nat (by omega)).symm
      · rw [g2.2.1.2]
        exact (val_nat (by omega)).symm
    | e j =>
      simp only [fair, Bool.and_eq_true, decide_eq_true_eq] at hq
      have hc : (edgeAt x y j).onContour (onGrid w sd) := (edgeAt_onContour hq.1).2 (cutPair_iff.1 hq.2)
      obtain ⟨pt, g1, g2, -⟩ := hfind k p' _ hk (edgeAt_inGrid hx hy hq.1) hc hp
      exact ⟨pt, g1, (vert_edge C e (hcut j hq.1 hc) g1 g2.2.1).symm⟩
  have hsegR : ∀ (i : Nat) (a : LP × LP), (cellArcs w (stand w h L isTarget (unseen w L isTarget)).mesh sd isTarget x y)[i]? = some a →
      ∃ (k : Nat) (g : BoundarySegment R.Num) (p q : BoundaryPoint R.Num), el1.boundarySegments[i]? = some k ∧
      b.segments[k]? = some g ∧ b.points[g.start]? = some p ∧ p.coord = vert b x y a.1 ∧ b.points[g.stop]? = some q ∧ q.coord = vert b x y a.2 := by
    intro i a ha
    obtain ⟨k, g', p', q', r1, r2, r3, r4, r5, r6⟩ := hseg i a ha
    obtain ⟨f1, f2, -⟩ := cell_fair w (stand w h L isTarget (unseen w L isTarget)).mesh sd isTarget x y
    obtain ⟨f3, f4, -⟩ := f2 a (List.mem_of_getElem? ha)
    rcases pairs_get O.bnd.segs k with ⟨-, hn⟩ | ⟨g, g2, n1, n2, GS⟩
    · exact absurd (r2.symm.trans hn) (by simp)
    have : g2 = g' := Option.some.inj (n2.symm.trans r2)
    subst this
    obtain ⟨p, p1, p2⟩ := hpt _ _ _ r3 (f1 _ f3) r4
    obtain ⟨q, q1, q2⟩ := hpt _ _ _ r5 (f1 _ f4) r6
    have hi : i < el'.nBoundarySegments := by rw [hnb]; exact (List.getElem?_eq_some_iff.1 ha).1
    refine ⟨k, g, p, q, ?_, n1, by rw [GS.start]; exact p1, p2, by rw [GS.stop]; exact q1, q2⟩
    have := congrArg (fun t => t[i]?) ES.slots.2
    simp only [List.getElem?_take, if_pos hi] at this
    rw [this]; exact r1
  have hnbR : el1.nBoundarySegments = (cellArcs w (stand w h L isTarget (unseen w L isTarget)).mesh sd isTarget x y).length := ES.nSlots.trans hnb
  have hv : ∀ j, j < 4 → cutPair (side w sd x y j) (side w sd x y (after j)) = true →
      look w (stand w h L isTarget (unseen w L isTarget)).mesh isTarget x y j = true :=
    fun j hj hc => V x y j hx hy hj (cutPair_iff.1 hc)
  rw [← ES.status] at hst
  have hso : soughtSide el1 = if el1.status = .centreOutside then .outside else .inside := rfl
  have hcentre : valC el1.coord = ⟨(x : ℝ) + 1 / 2, (y : ℝ) + 1 / 2⟩ := by
    rw [hce]
    unfold valC
    rw [val_centre (by omega), val_centre (by omega)]
  -- the area of a cut cell
  have poly : ∀ o : NodeStatus, soughtSide el1 = o → o = .inside ∨ o = .outside →
      (verts (side w sd x y) (look w (stand w h L isTarget (unseen w L isTarget)).mesh isTarget x y) (firstWay w sd x y) o).length ≤ 6 →
      ∃ a : R.Num, cutArea L'.mesh b el1 = .ok a ∧ |a.val - (let S := |ringSum ((walkLP.filter fun p => decide (p ∈
        verts (side w sd x y) (look w (stand w h L isTarget (unseen w L isTarget)).mesh isTarget x y) (firstWay w sd x y) o)).map
        (cellPoint x y (crossing f x y))) / 2|
        if el1.status = .centreOutside then 1 - S else S)| ≤ w * h / 2 ^ 44 := by
    intro o ho hio h6
    have hw := verts_walk (side w sd x y) (look w (stand w h L isTarget (unseen w L isTarget)).mesh isTarget x y) (firstWay w sd x y) (side_mem w sd x y) hio
    have he := fun j hj => verts_edge (w := w) (sd := sd) (isTarget := isTarget) (x := x) (y := y) (j := j) (o := o)
      (stand w h L isTarget (unseen w L isTarget)).mesh hj
    have h4 : ∀ j, LP.e j ∈ walkLP → j < 4 := by
      intro j hj
      simp only [walkLP, List.mem_cons, List.not_mem_nil, or_false, LP.e.injEq, reduceCtorEq, false_or] at hj
      omega
    generalize hl : verts (side w sd x y) (look w (stand w h L isTarget (unseen w L isTarget)).mesh isTarget x y) (firstWay w sd x y) o = l at *
    classical
    refine cut_rnd (A := cellArcs w (stand w h L isTarget (unseen w L isTarget)).mesh sd isTarget x y) ho hnode hnbR hsegR (l := l) hl h6
      (m := 3 / 2 / 10 ^ 6) (by norm_num) (by norm_num) (τ := fun j => if LP.e j ∈ l then offset b x y j else 1 / 2) (σ := crossing f x y)
      (fun j => ?_) (crossing_in f x y) hx hy hw (fun p hp => ?_) (fun j hj => ?_) hcentre
    · split_ifs with hj
      · obtain ⟨c, c1, c2, c3⟩ := hedge j (h4 j (hw _ hj)) (he j hj)
        have := edge_offset (h4 j (hw _ hj)) c1 c3
        exact ⟨this.1, this.2.1⟩
      · norm_num
    · cases p with
      | c j =>
        have hj : j < 4 := by
          have := hw _ hp
          simp only [walkLP, List.mem_cons, List.not_mem_nil, or_false, LP.c.injEq, reduceCtorEq, false_or] at this
          omega
        have hle := cornerAt_le hx hy j
        have e1 : valC (vert b x y (.c j)) = (⟨((cornerAt x y j).1 : ℝ), ((cornerAt x y j).2 : ℝ)⟩ : Coord ℝ) := by
          unfold valC vert
          dsimp only
          rw [val_nat (by omega), val_nat (by omega)]
        rw [e1]
        match j, hj with
        | 0, _ => simp [cornerAt, cellPoint]
        | 1, _ => simp [cornerAt, cellPoint]
        | 2, _ => simp [cornerAt, cellPoint]
        | 3, _ => simp [cornerAt, cellPoint]
      | e j =>
        obtain ⟨c, c1, c2, c3⟩ := hedge j (h4 j (hw _ hp)) (he j hp)
        exact (edge_offset (h4 j (hw _ hp)) c1 c3).2.2 _ (if_pos hp)
    · rw [if_pos hj]
      have hj4 := h4 j (hw _ hj)
      obtain ⟨c, c1, c2, c3⟩ := hedge j hj4 (he j hj)
      refine offset_near hj4 c1 (g := lay w (values L isTarget)) ?_ c2.2.2.1 c2.2.2.2
      have hcf : (edgeAt x y j).onContour f := (SF.onContour (edgeAt_inGrid hx hy hj4)).2 (hcut j hj4 (he j hj)).2.1
      have := place_point (f := f) (x := x) (y := y) (hw _ hj) (fun i hi => by cases hi; exact hcf)
      rw [← this, ← hf]
      exact (scaled_coord _).symm
  have m := side_mem w sd x y
  have hdec : isSaddle (cellSide f x y) = true → (0 < centreSum w sd x y ↔ 0 < (sumAt w (values L isTarget) x y).val) := by
    intro hd
    have hcs : ∀ j, cornerSide w (values L isTarget) x y j = cellSide f x y j := by
      intro j
      obtain ⟨h1, h2⟩ := cornerAt_le hx hy j
      rw [cellSide, SF _ _ h1 h2, sides_side]
      rfl
    have halt : Alternating w (values L isTarget) x y := by
      intro j hj
      rw [hcs, hcs]
      simp only [isSaddle, Bool.and_eq_true] at hd
      match j, hj with
      | 0, _ => exact hd.1.1.1
      | 1, _ => exact hd.1.1.2
      | 2, _ => exact hd.1.2
      | 3, _ => exact hd.2
    have h1 := (hal.sum x y hx hy halt).1
    rw [Bool.eq_iff_iff, lt_iff, val_zero, FP.lt_real, FP.nat_real, Nat.cast_zero, sumAt_real] at h1
    exact h1.symm
  unfold areaLike
  unfold finalStatus at hst
  unfold areaOf
  rw [← hsides]
  rcases stat_cases (side w sd x y) with hs | hs | hs
  · rw [if_neg, hs] at hst
    · rw [if_pos hst, if_pos hs]
      refine ⟨nat 1, rfl, ?_⟩
      rw [val_one, sub_self, abs_zero]; positivity
    · rintro ⟨-, h4⟩
      rw [four_saddle hv] at h4
      have h0 : cutPair (side w sd x y 0) (side w sd x y 1) = true := by
        simp only [isSaddle, Bool.and_eq_true] at h4; exact h4.1.1.1
      rw [cutPair_iff] at h0
      rw [stat_inside] at hs
      rcases h0 with h0 | h0
      · exact hs 1 (by omega) h0.2
      · exact hs 0 (by omega) h0.1
  · rw [if_neg (by rw [hs]; simp), hs] at hst
    rw [if_neg (by rw [hst]; decide), if_pos hst, if_neg (by rw [hs]; decide), if_pos hs]
    refine ⟨nat 0, rfl, ?_⟩
    rw [val_zero, sub_self, abs_zero]; positivity
  · have t6 := table_six _ (m 0) _ (m 1) _ (m 2) _ (m 3) (look w (stand w h L isTarget (unseen w L isTarget)).mesh isTarget x y 0)
      (look w (stand w h L isTarget (unseen w L isTarget)).mesh isTarget x y 1) (look w (stand w h L isTarget (unseen w L isTarget)).mesh isTarget x y 2)
      (look w (stand w h L isTarget (unseen w L isTarget)).mesh isTarget x y 3) (firstWay w sd x y) (by
        intro j hj hc
        rw [List.mem_range] at hj
        have ha := after_lt hj
        rw [pick_eq _ hj] at hc ⊢
        rw [pick_eq _ ha] at hc
        exact hv j hj hc) (by rw [← stat_pick]; exact hs)
    have tv := table_verts _ (m 0) _ (m 1) _ (m 2) _ (m 3) (look w (stand w h L isTarget (unseen w L isTarget)).mesh isTarget x y 0)
      (look w (stand w h L isTarget (unseen w L isTarget)).mesh isTarget x y 1) (look w (stand w h L isTarget (unseen w L isTarget)).mesh isTarget x y 2)
      (look w (stand w h L isTarget (unseen w L isTarget)).mesh isTarget x y 3) (firstWay w sd x y) (by
        intro j hj hc
        rw [List.mem_range] at hj
        have ha := after_lt hj
        rw [pick_eq _ hj] at hc ⊢
        rw [pick_eq _ ha] at hc
        rcases hc with hc | hc
        · exact hv j hj hc
        · exact H x y j hx hy hj hc) (by rw [← stat_pick]; exact hs)
    rw [← verts_pick, ← verts_pick, ← isSaddle_pick] at t6
    rw [← verts_pick, ← verts_pick, ← isSaddle_pick, ← structLP_pick, ← voidLP_pick] at tv
    have hsf : stat (cellSide f x y) = .none := by rw [← hsides]; exact hs
    have pstr : |ringSum ((walkLP.filter (structLP (side w sd x y))).map (cellPoint x y (crossing f x y))) / 2| = polyArea (structurePolygon f x y) := by
      rw [hsides, ← structurePolygon_eq, ← polyArea_eq, abs_of_pos (structure_pos hsf).1]
    have pvoid : isSaddle (side w sd x y) = true →
        |ringSum ((walkLP.filter (voidLP (side w sd x y))).map (cellPoint x y (crossing f x y))) / 2| = polyArea (voidPolygon f x y) := by
      intro hd
      rw [hsides, ← voidPolygon_eq, ← polyArea_eq, abs_of_pos (void_pos hsf (by rw [← hsides]; exact hd)).1]
    rw [if_neg (show stat (side w sd x y) ≠ .inside by rw [hs]; decide), if_neg (show stat (side w sd x y) ≠ .outside by rw [hs]; decide)]
    rw [hs] at hst
    by_cases hd : isSaddle (side w sd x y) = true
    · rw [if_pos ⟨by decide, (four_saddle hv).2 hd⟩] at hst
      unfold centreStatus at hst
      have hdec := hdec (by rw [← hsides]; exact hd)
      by_cases hc : 0 < centreSum w sd x y
      · rw [if_pos hc] at hst
        obtain ⟨a, a1, a2⟩ := poly .inside (by rw [hso, if_neg (by rw [hst]; decide)]) (.inl rfl) t6.1
        rw [if_neg (by rw [hst]; decide), if_neg (by rw [hst]; decide), if_neg (fun h => h.2 (hdec.1 hc))]
        refine ⟨a, a1, ?_⟩
        rw [tv.1] at a2
        dsimp only at a2
        rwa [if_neg (by rw [hst]; decide), pstr] at a2
      · rw [if_neg hc] at hst
        obtain ⟨a, a1, a2⟩ := poly .outside (by rw [hso, if_pos hst]) (.inr rfl) (t6.2 hd)
        rw [if_neg (by rw [hst]; decide), if_neg (by rw [hst]; decide), if_pos ⟨hd, fun h => hc (hdec.2 h)⟩]
        refine ⟨a, a1, ?_⟩
        rw [tv.2 hd] at a2
        dsimp only at a2
        rwa [if_pos hst, pvoid hd] at a2
    · rw [if_neg (fun h => hd ((four_saddle hv).1 h.2))] at hst
      obtain ⟨a, a1, a2⟩ := poly .inside (by rw [hso, if_neg (by rw [hst]; decide)]) (.inl rfl) t6.1
      rw [if_neg (by rw [hst]; decide), if_neg (by rw [hst]; decide), if_neg (fun h => hd h.1)]
      refine ⟨a, a1, ?_⟩
      rw [tv.1] at a2
      dsimp only at a2
      rwa [if_neg (by rw [hst]; decide), pstr] at a2

end

end Area

end Slsm
