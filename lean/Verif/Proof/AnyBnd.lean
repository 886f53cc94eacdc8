import Verif.Proof.BndSane

/-! Discretisation in any arithmetic: what holds whenever the calls return, without any law of the numbers. -/

namespace Slsm

open FP

namespace Boundary

section
variable {D : Type} [FP D]

/-- Value at corner `j` of a cell. -/
def cornerVal (w : Nat) (sd : List D) (x y j : Nat) : D := vals sd (nodeNo w (cornerAt x y j).1 (cornerAt x y j).2)

/-- Side of corner `j` of a cell. -/
def cornerSide (w : Nat) (sd : List D) (x y j : Nat) : NodeStatus := nodeStatus (cornerVal w sd x y j)

/-- Coordinates of corner `j` of a cell. -/
def cornerCoord (x y j : Nat) : Coord D := ⟨nat (cornerAt x y j).1, nat (cornerAt x y j).2⟩

/-- Coordinates that the code computes for a point of the cell: on a cut edge or on a corner on the contour. -/
def Spot (w : Nat) (sd : List D) (x y : Nat) (c : Coord D) : Prop :=
  (∃ j, j < 4 ∧ cutPair (cornerSide w sd x y j) (cornerSide w sd x y (after j)) = true ∧
    c = edgePoint (cornerCoord x y j) j (cornerVal w sd x y j /. (cornerVal w sd x y j -. cornerVal w sd x y (after j)))) ∨
  ∃ j, j < 4 ∧ cornerSide w sd x y j = .boundary ∧ c = edgePoint (cornerCoord x y j) 0 (nat 0)

/-- Point `k` is at `c` or has passed the test for the same point. -/
def At (pts : List (BoundaryPoint D)) (k : Nat) (c : Coord D) : Prop :=
  ∃ pt, pts[k]? = some pt ∧ (pt.coord = c ∨ isClose c pt.coord = true)

/-- Point `k` is at a spot of the cell. -/
def AtSpot (w : Nat) (sd : List D) (x y : Nat) (pts : List (BoundaryPoint D)) (k : Nat) : Prop := ∃ c, Spot w sd x y c ∧ At pts k c

/-- The length of a segment as the code computes it. -/
def chord (a b : Coord D) : D := sqrt ((a.x -. b.x) *. (a.x -. b.x) +. (a.y -. b.y) *. (a.y -. b.y))

structure SegFit (w h : Nat) (sd : List D) (pts : List (BoundaryPoint D)) (s : BoundarySegment D) : Prop where
  cell : ∃ x y, x < w ∧ y < h ∧ s.element = cellNo w x y ∧ AtSpot w sd x y pts s.start ∧ AtSpot w sd x y pts s.stop
  len : ∃ a b, pts[s.start]? = some a ∧ pts[s.stop]? = some b ∧ s.length = chord a.coord b.coord

structure Fit (w h : Nat) (ml : D) (m0 : Mesh D) (sd : List D) (W : Work D) : Prop where
  annot : Annot m0 W.mesh
  status : ∀ (i : Nat) (nd : Node D), W.mesh.nodes[i]? = some nd → nd.status = nodeStatus (vals sd i)
  nPoints : W.bnd.nPoints = W.bnd.points.length
  pts : ∀ (k : Nat) (pt : BoundaryPoint D), W.bnd.points[k]? = some pt → ∃ x y c, x < w ∧ y < h ∧ Spot w sd x y c ∧
    initialisePoint ml m0 c = .ok pt
  nSegments : W.bnd.nSegments = W.bnd.segments.length
  segs : ∀ s ∈ W.bnd.segments, SegFit w h sd W.bnd.points s
  length : W.bnd.length = (W.bnd.segments.map fun s => s.length).foldl (fun l v => l +. v) (nat 0)

variable {w h : Nat} {ml : D} {m0 : Mesh D} {sd : List D} {W : Work D} {isTarget : Bool}

theorem At.grow {pts l : List (BoundaryPoint D)} {k : Nat} {c : Coord D} (h : At pts k c) : At (pts ++ l) k c := by
  obtain ⟨pt, h1, h2⟩ := h
  exact ⟨pt, get_append h1, h2⟩

theorem AtSpot.grow {x y : Nat} {pts l : List (BoundaryPoint D)} {k : Nat} (h : AtSpot w sd x y pts k) : AtSpot w sd x y (pts ++ l) k := by
  obtain ⟨p, h1, h2⟩ := h
  exact ⟨p, h1, h2.grow⟩

theorem SegFit.grow {pts l : List (BoundaryPoint D)} {s : BoundarySegment D} (hs : SegFit w h sd pts s) : SegFit w h sd (pts ++ l) s := by
  obtain ⟨⟨x, y, h1, h2, h3, h4, h5⟩, a, b, h6, h7, h8⟩ := hs
  exact ⟨⟨x, y, h1, h2, h3, h4.grow, h5.grow⟩, a, b, get_append h6, get_append h7, h8⟩

/-- Only points have been added. -/
def More (W W' : Work D) : Prop := ∃ l, W'.bnd.points = W.bnd.points ++ l

theorem More.refl (W : Work D) : More W W := ⟨[], by simp⟩

theorem More.trans {W1 W2 W3 : Work D} (h1 : More W1 W2) (h2 : More W2 W3) : More W1 W3 := by
  obtain ⟨l1, e1⟩ := h1
  obtain ⟨l2, e2⟩ := h2
  exact ⟨l1 ++ l2, by rw [e2, e1, List.append_assoc]⟩

theorem AtSpot.more {x y k : Nat} {W W' : Work D} (h : AtSpot w sd x y W.bnd.points k) (g : More W W') : AtSpot w sd x y W'.bnd.points k := by
  obtain ⟨l, e⟩ := g
  rw [e]; exact h.grow

theorem isAdded_fit (m : Mesh D) (pts : List (BoundaryPoint D)) (c : Coord D) (n : Nat) :
    wp (isAdded m pts c n) (fun r => ∀ k, r = some k → At pts k c) anyErr := by
  unfold isAdded
  refine wp_rd_any fun nd _ => ?_
  refine wp_forN (E := anyErr) (fun _ (r : Option Nat) => ∀ k, r = some k → At pts k c) (fun k hk => by cases hk) fun i _ r hr => ?_
  cases r with
  | some k => exact hr
  | none =>
    dsimp only
    refine wp_rd_any fun idx _ => ?_
    refine wp_rd_any fun q hq => ?_
    rw [wp_pure]
    intro k hk
    split at hk
    · rename_i hc
      cases hk
      exact ⟨q, hq, .inr hc⟩
    · cases hk

theorem claim_fit (S : Fit w h ml m0 sd W) (n : Nat) :
    wp (claim n W) (fun W' => Fit w h ml m0 sd W' ∧ W'.bnd = W.bnd) anyErr := by
  unfold claim
  refine wp_modAt_any fun a b ha hb => ?_
  rw [wp_pure]
  simp only [bind, Except.bind] at hb
  cases hw : wr a.boundaryPoints a.nBoundaryPoints W.bnd.nPoints with
  | error _ => rw [hw] at hb; cases hb
  | ok l =>
    rw [hw] at hb
    cases hb
    refine ⟨⟨S.annot.trans (Annot.setNode ha ⟨rfl, wr_len hw⟩), fun i nd hi => ?_, S.nPoints, S.pts, S.nSegments, S.segs, S.length⟩, rfl⟩
    change (W.mesh.nodes.set n _)[i]? = some nd at hi
    by_cases hk : n = i
    · subst hk
      rw [List.getElem?_set_self (List.getElem?_eq_some_iff.1 ha).1] at hi
      cases hi
      exact S.status n a ha
    · rw [List.getElem?_set_ne hk] at hi
      exact S.status _ _ hi

theorem initialisePoint_at {m : Mesh D} {c : Coord D} {pt : BoundaryPoint D} (e : initialisePoint ml m c = .ok pt) :
    ∃ (n : Nat) (nd : Node D), m.getClosestNode c = .ok n ∧ m.nodes[n]? = some nd ∧
      pt = { emptyPoint with
        coord := c, negativeLimit := (maskLimit nd c (edgeLimit ml m.width m.height c).1).1, positiveLimit := ml,
        isDomain := (edgeLimit ml m.width m.height c).2, isFixed := (maskLimit nd c (edgeLimit ml m.width m.height c).1).2 } := by
  unfold initialisePoint at e
  cases hc : m.getClosestNode c with
  | error _ => rw [hc] at e; cases e
  | ok n =>
    rw [hc] at e
    simp only [bind, Except.bind] at e
    cases hr : m.nodes[n]? with
    | none => unfold rd at e; rw [hr] at e; cases e
    | some nd =>
      rw [rd_of_getElem? hr] at e
      cases e
      exact ⟨n, nd, rfl, hr, rfl⟩

theorem pushPoint_fit (S : Fit w h ml m0 sd W) {x y : Nat} (hx : x < w) (hy : y < h) {c : Coord D} (hc : Spot w sd x y c) :
    wp (pushPoint ml c W) (fun W' => Fit w h ml m0 sd W' ∧ More W W' ∧ At W'.bnd.points W.bnd.nPoints c) anyErr := by
  unfold pushPoint
  rw [Annot.initialisePoint S.annot]
  cases e : initialisePoint ml m0 c with
  | error _ => exact trivial
  | ok pt =>
    show wp (.ok _) _ _
    rw [wp_ok]
    refine ⟨⟨S.annot, S.status, ?_, ?_, S.nSegments, fun s hs => (S.segs s hs).grow, S.length⟩, ⟨[pt], rfl⟩, pt, ?_, ?_⟩
    · show W.bnd.nPoints + 1 = (W.bnd.points ++ [pt]).length
      rw [S.nPoints, List.length_append]; rfl
    · intro k q hk
      change (W.bnd.points ++ [pt])[k]? = some q at hk
      by_cases hlt : k < W.bnd.points.length
      · rw [List.getElem?_append_left hlt] at hk
        exact S.pts k q hk
      · rw [List.getElem?_append_right (by omega)] at hk
        have hk0 : k - W.bnd.points.length = 0 := by
          have := (List.getElem?_eq_some_iff.1 hk).1
          simp at this; omega
        rw [hk0] at hk
        cases hk
        exact ⟨x, y, c, hx, hy, hc, e⟩
    · show (W.bnd.points ++ [pt])[W.bnd.nPoints]? = some pt
      rw [S.nPoints, List.getElem?_append_right (le_refl _), Nat.sub_self]; rfl
    · obtain ⟨_, _, _, _, rfl⟩ := initialisePoint_at e
      exact .inl rfl

theorem cornerNode_fit (hg : IsGrid w h m0) (S : Fit w h ml m0 sd W) {x y j : Nat} (hx : x < w) (hy : y < h) (hj : j < 4) :
    cornerNode W.mesh (cellNo w x y) j = .ok (nodeNo w (cornerAt x y j).1 (cornerAt x y j).2) := by
  obtain ⟨el, hel⟩ := (S.annot.grid hg).elem_exists hx hy
  have hc := (S.annot.grid hg).corner x y el hx hy hel
  unfold cornerNode
  rw [rd_of_getElem? hel]
  simp only [bind, Except.bind]
  rw [hc]
  match j, hj with
  | 0, _ => rfl
  | 1, _ => rfl
  | 2, _ => rfl
  | 3, _ => rfl

theorem cornerCoord_fit (hg : IsGrid w h m0) (S : Fit w h ml m0 sd W) {x y j : Nat} (hx : x < w) (hy : y < h) {nd : Node D}
    (hnd : W.mesh.nodes[nodeNo w (cornerAt x y j).1 (cornerAt x y j).2]? = some nd) : nd.coord = cornerCoord x y j :=
  (S.annot.grid hg).coord _ _ nd (cornerAt_le hx hy j).1 (cornerAt_le hx hy j).2 hnd

/-- Point of a cut edge. -/
theorem cutPoint_fit (hg : IsGrid w h m0) (S : Fit w h ml m0 sd W) {x y j : Nat} (hx : x < w) (hy : y < h) (hj : j < 4)
    (hc : cutPair (cornerSide w sd x y j) (cornerSide w sd x y (after j)) = true) :
    wp (cutPoint ml (nodeNo w (cornerAt x y j).1 (cornerAt x y j).2) (nodeNo w (cornerAt x y (after j)).1 (cornerAt x y (after j)).2) j
      (cornerVal w sd x y j /. (cornerVal w sd x y j -. cornerVal w sd x y (after j))) W)
      (fun r => Fit w h ml m0 sd r.2 ∧ More W r.2 ∧ AtSpot w sd x y r.2.bnd.points r.1) anyErr := by
  unfold cutPoint
  refine wp_rd_any fun nd hnd => ?_
  rw [cornerCoord_fit hg S hx hy hnd]
  have hs : Spot w sd x y (edgePoint (cornerCoord x y j) j
      (cornerVal w sd x y j /. (cornerVal w sd x y j -. cornerVal w sd x y (after j)))) := .inl ⟨j, hj, hc, rfl⟩
  dsimp only
  generalize edgePoint (cornerCoord x y j) j (cornerVal w sd x y j /. (cornerVal w sd x y j -. cornerVal w sd x y (after j))) = c at hs ⊢
  rw [wp_bind]
  refine wp_imp (isAdded_fit _ _ _ _) fun r hr => ?_
  cases r with
  | some k => exact ⟨S, .refl W, _, hs, hr k rfl⟩
  | none =>
    dsimp only
    rw [wp_bind]
    refine wp_imp (claim_fit S _) fun W1 h1 => ?_
    rw [wp_bind]
    refine wp_imp (claim_fit h1.1 _) fun W2 h2 => ?_
    rw [wp_bind]
    refine wp_imp (pushPoint_fit h2.1 hx hy hs) fun W3 h3 => ?_
    have e : W2.bnd = W.bnd := h2.2.trans h1.2
    rw [wp_pure]
    refine ⟨h3.1, ?_, _, hs, ?_⟩
    · obtain ⟨l, hl⟩ := h3.2.1
      exact ⟨l, by rw [hl, e]⟩
    · rw [← e]; exact h3.2.2

/-- Point of a corner on the boundary. -/
theorem nodePoint_fit (hg : IsGrid w h m0) (S : Fit w h ml m0 sd W) {x y j : Nat} (hx : x < w) (hy : y < h) (hj : j < 4)
    (hb : cornerSide w sd x y j = .boundary) :
    wp (nodePoint ml (nodeNo w (cornerAt x y j).1 (cornerAt x y j).2) W)
      (fun r => Fit w h ml m0 sd r.2 ∧ More W r.2 ∧ AtSpot w sd x y r.2.bnd.points r.1) anyErr := by
  unfold nodePoint
  refine wp_rd_any fun nd hnd => ?_
  rw [cornerCoord_fit hg S hx hy hnd]
  have hs : Spot w sd x y (edgePoint (cornerCoord (D := D) x y j) 0 (nat 0)) := .inr ⟨j, hj, hb, rfl⟩
  dsimp only
  generalize edgePoint (cornerCoord (D := D) x y j) 0 (nat 0) = c at hs ⊢
  rw [wp_bind]
  refine wp_imp (isAdded_fit _ _ _ _) fun r hr => ?_
  cases r with
  | some k => exact ⟨S, .refl W, _, hs, hr k rfl⟩
  | none =>
    dsimp only
    rw [wp_bind]
    refine wp_imp (claim_fit S _) fun W1 h1 => ?_
    rw [wp_bind]
    refine wp_imp (pushPoint_fit h1.1 hx hy hs) fun W3 h3 => ?_
    rw [wp_pure]
    refine ⟨h3.1, ?_, _, hs, ?_⟩
    · obtain ⟨l, hl⟩ := h3.2.1
      exact ⟨l, by rw [hl, h1.2]⟩
    · rw [← h1.2]; exact h3.2.2

theorem addSegment_fit (S : Fit w h ml m0 sd W) {x y a b : Nat} (hx : x < w) (hy : y < h)
    (ha : AtSpot w sd x y W.bnd.points a) (hb : AtSpot w sd x y W.bnd.points b) :
    wp (addSegment (cellNo w x y) a b W) (fun W' => Fit w h ml m0 sd W' ∧ More W W') anyErr := by
  obtain ⟨pa, ha2, qa, ha3, ha4⟩ := ha
  obtain ⟨pb, hb2, qb, hb3, hb4⟩ := hb
  unfold addSegment segmentLength
  rw [rd_of_getElem? ha3, rd_of_getElem? hb3]
  rw [wp_bind, wp_bind, wp_ok, wp_bind, wp_ok, wp_pure]
  refine wp_modAt_any fun el el' hel hel' => ?_
  simp only [bind, Except.bind] at hel'
  cases hw : wr el.boundarySegments el.nBoundarySegments W.bnd.nSegments with
  | error _ => rw [hw] at hel'; cases hel'
  | ok l =>
    rw [hw] at hel'
    cases hel'
    rw [wp_pure]
    refine ⟨⟨S.annot.trans (Annot.setElem hel ⟨rfl, wr_len hw⟩), S.status, S.nPoints, S.pts, ?_, ?_, ?_⟩, ⟨[], by simp⟩⟩
    · show W.bnd.nSegments + 1 = (W.bnd.segments ++ [_]).length
      rw [List.length_append, S.nSegments]; rfl
    · intro s hs
      rcases List.mem_append.1 hs with h | h
      · exact S.segs s h
      · rw [List.mem_singleton] at h
        subst h
        exact ⟨⟨x, y, hx, hy, rfl, ⟨pa, ha2, qa, ha3, ha4⟩, pb, hb2, qb, hb3, hb4⟩, qa, qb, ha3, hb3, rfl⟩
    · show W.bnd.length +. _ = ((W.bnd.segments ++ [_]).map fun s : BoundarySegment D => s.length).foldl _ _
      rw [List.map_append, List.foldl_append, S.length]
      rfl

theorem twoNodes_fit (hg : IsGrid w h m0) (S : Fit w h ml m0 sd W) {x y j k : Nat} (hx : x < w) (hy : y < h) (hj4 : j < 4) (hk4 : k < 4)
    (hj : cornerSide w sd x y j = .boundary) (hk : cornerSide w sd x y k = .boundary) :
    wp (borderEdge ml (cellNo w x y) (nodeNo w (cornerAt x y j).1 (cornerAt x y j).2) (nodeNo w (cornerAt x y k).1 (cornerAt x y k).2) W)
      (fun W' => Fit w h ml m0 sd W' ∧ More W W') anyErr := by
  unfold borderEdge
  rw [wp_bind]
  refine wp_imp (nodePoint_fit hg S hx hy hj4 hj) fun r1 h1 => ?_
  obtain ⟨a, W1⟩ := r1
  rw [wp_bind]
  refine wp_imp (nodePoint_fit hg h1.1 hx hy hk4 hk) fun r2 h2 => ?_
  obtain ⟨b, W2⟩ := r2
  refine wp_imp (addSegment_fit h2.1 hx hy (h1.2.2.more h2.2.1) h2.2.2) fun W3 h3 => ?_
  exact ⟨h3.1, (h1.2.1.trans h2.2.1).trans h3.2⟩

/-- State inside the loop over the edges. -/
structure HalfFit (w h : Nat) (ml : D) (m0 : Mesh D) (sd : List D) (x y : Nat) (t : Work D × List Nat) : Prop where
  fit : Fit w h ml m0 sd t.1
  cuts : ∀ k ∈ t.2, AtSpot w sd x y t.1.bnd.points k

theorem side_fit (S : Fit w h ml m0 sd W) {x y j : Nat} {nd : Node D}
    (h : W.mesh.nodes[nodeNo w (cornerAt x y j).1 (cornerAt x y j).2]? = some nd) : nd.status = cornerSide w sd x y j := S.status _ _ h

theorem edgeStep_fit (hg : IsGrid w h m0) {x y j : Nat} (hx : x < w) (hy : y < h) (hj : j < 4) {t : Work D × List Nat}
    (H : HalfFit w h ml m0 sd x y t) : wp (edgeStep ml sd isTarget (cellNo w x y) j t) (HalfFit w h ml m0 sd x y) anyErr := by
  obtain ⟨W, cuts⟩ := t
  unfold edgeStep
  dsimp only
  rw [cornerNode_fit hg H.fit hx hy hj, cornerNode_fit hg H.fit hx hy (after_lt hj), wp_bind, wp_ok, wp_bind, wp_ok]
  refine wp_rd_any fun a ha => ?_
  refine wp_rd_any fun b hb => ?_
  have sa := side_fit H.fit ha
  have sb := side_fit H.fit hb
  refine wp_ite (fun _ => ?_) fun _ => H
  refine wp_ite (fun hc => ?_) fun _ => wp_ite (fun hbb => ?_) fun _ => H
  · rw [sa, sb] at hc
    refine wp_rd_any fun v1 h1 => ?_
    refine wp_rd_any fun v2 h2 => ?_
    have e1 : v1 = cornerVal w sd x y j := by
      unfold cornerVal vals; rw [List.getD_eq_getElem?_getD, h1]; rfl
    have e2 : v2 = cornerVal w sd x y (after j) := by
      unfold cornerVal vals; rw [List.getD_eq_getElem?_getD, h2]; rfl
    rw [e1, e2, wp_bind]
    refine wp_imp (cutPoint_fit hg H.fit hx hy hj hc) fun r hr => ?_
    obtain ⟨k, W'⟩ := r
    rw [wp_pure]
    refine ⟨hr.1, fun i hi => ?_⟩
    rcases List.mem_append.1 hi with h | h
    · exact (H.cuts i h).more hr.2.1
    · rw [List.mem_singleton] at h
      subst h
      exact hr.2.2
  · rw [sa, sb] at hbb
    rw [wp_bind]
    refine wp_imp (twoNodes_fit hg H.fit hx hy hj (after_lt hj) hbb.1 hbb.2) fun W' hr => ?_
    exact ⟨hr.1, fun i hi => (H.cuts i hi).more hr.2⟩

theorem oneCutCorner_fit (hg : IsGrid w h m0) {x y j p : Nat} (hx : x < w) (hy : y < h) (hj : j < 4)
    (S : Fit w h ml m0 sd W) (hp : AtSpot w sd x y W.bnd.points p) :
    wp (oneCutCorner ml (cellNo w x y) p j W) (fun W' => Fit w h ml m0 sd W' ∧ More W W') anyErr := by
  unfold oneCutCorner
  rw [cornerNode_fit hg S hx hy hj, wp_bind, wp_ok]
  refine wp_rd_any fun nd hnd => ?_
  have sn := side_fit S hnd
  refine wp_ite (fun hb => ?_) fun _ => ⟨S, .refl W⟩
  rw [cornerNode_fit hg S hx hy (after_lt hj), cornerNode_fit hg S hx hy (before_lt hj), wp_bind, wp_ok, wp_bind, wp_ok]
  refine wp_rd_any fun a ha => ?_
  refine wp_rd_any fun b hb' => ?_
  refine wp_ite (fun _ => ?_) fun _ => ⟨S, .refl W⟩
  rw [wp_bind]
  refine wp_imp (nodePoint_fit hg S hx hy hj (sn ▸ hb)) fun r hr => ?_
  obtain ⟨k, W'⟩ := r
  refine wp_imp (addSegment_fit hr.1 hx hy (hp.more hr.2.1) hr.2.2) fun W2 h2 => ?_
  exact ⟨h2.1, hr.2.1.trans h2.2⟩

theorem setStatus_fit (S : Fit w h ml m0 sd W) {e : Nat} (st : ElementStatus) :
    wp (modAt W.mesh.elements e (fun el => pure { el with status := st }) >>= fun elements =>
      (pure { W with mesh := { W.mesh with elements := elements } } : Res (Work D))) (Fit w h ml m0 sd) anyErr := by
  refine wp_modAt_any fun el el' hel hel' => ?_
  cases hel'
  rw [wp_pure]
  exact ⟨S.annot.trans (Annot.setElem hel ⟨rfl, rfl⟩), S.status, S.nPoints, S.pts, S.nSegments, S.segs, S.length⟩

theorem fourCuts_fit (hg : IsGrid w h m0) {x y p0 p1 p2 p3 : Nat} (hx : x < w) (hy : y < h) (S : Fit w h ml m0 sd W)
    (h0 : AtSpot w sd x y W.bnd.points p0) (h1 : AtSpot w sd x y W.bnd.points p1)
    (h2 : AtSpot w sd x y W.bnd.points p2) (h3 : AtSpot w sd x y W.bnd.points p3) :
    wp (fourCuts sd (cellNo w x y) p0 p1 p2 p3 W) (Fit w h ml m0 sd) anyErr := by
  unfold fourCuts
  rw [wp_bind]
  refine wp_imp (Q := fun _ => True) (by cases cornerSum W.mesh sd (cellNo w x y) <;> exact trivial) fun sum _ => ?_
  rw [cornerNode_fit hg S hx hy (by omega), wp_bind, wp_ok]
  refine wp_rd_any fun nd hnd => ?_
  rw [wp_bind]
  have : ∀ b, wp (fourSegments b (cellNo w x y) p0 p1 p2 p3 W) (Fit w h ml m0 sd) anyErr := by
    intro b
    unfold fourSegments
    split
    · rw [wp_bind]
      refine wp_imp (addSegment_fit S hx hy h0 h1) fun W1 r1 => ?_
      exact wp_imp (addSegment_fit r1.1 hx hy (h2.more r1.2) (h3.more r1.2)) fun W2 r2 => r2.1
    · rw [wp_bind]
      refine wp_imp (addSegment_fit S hx hy h0 h3) fun W1 r1 => ?_
      exact wp_imp (addSegment_fit r1.1 hx hy (h1.more r1.2) (h2.more r1.2)) fun W2 r2 => r2.1
  refine wp_imp (this _) fun W1 r1 => ?_
  exact setStatus_fit r1 _

theorem borderCorners_fit (hg : IsGrid w h m0) {x y : Nat} (hx : x < w) (hy : y < h) (S : Fit w h ml m0 sd W) :
    wp (borderCorners W.mesh (cellNo w x y))
      (fun l => ∀ n ∈ l, ∃ j, j < 4 ∧ cornerSide w sd x y j = .boundary ∧ n = nodeNo w (cornerAt x y j).1 (cornerAt x y j).2) anyErr := by
  unfold borderCorners
  refine wp_forN (E := anyErr) (fun _ (l : List Nat) => ∀ n ∈ l, ∃ j, j < 4 ∧ cornerSide w sd x y j = .boundary ∧
    n = nodeNo w (cornerAt x y j).1 (cornerAt x y j).2) (fun n hn => by cases hn) fun j hj l hl => ?_
  rw [cornerNode_fit hg S hx hy hj, wp_bind, wp_ok]
  refine wp_rd_any fun nd hnd => ?_
  rw [wp_pure]
  split
  · rename_i hb
    intro n hn
    rcases List.mem_append.1 hn with h | h
    · exact hl n h
    · rw [List.mem_singleton] at h
      exact ⟨j, hj, (side_fit S hnd) ▸ hb, h⟩
  · exact hl

theorem noCut_fit (hg : IsGrid w h m0) {x y : Nat} (hx : x < w) (hy : y < h) (S : Fit w h ml m0 sd W) :
    wp (noCut ml (cellNo w x y) W) (Fit w h ml m0 sd) anyErr := by
  unfold noCut
  rw [wp_bind]
  refine wp_imp (borderCorners_fit hg hx hy S) fun l hl => ?_
  match l, hl with
  | [], _ => exact trivial
  | [_], _ => exact trivial
  | n1 :: n2 :: t, hl =>
    obtain ⟨j, hj4, hj, rfl⟩ := hl n1 (by simp)
    obtain ⟨k, hk4, hk, rfl⟩ := hl n2 (by simp)
    exact wp_imp (twoNodes_fit hg S hx hy hj4 hk4 hj hk) fun W' h => h.1

theorem joinCuts_fit (hg : IsGrid w h m0) {x y : Nat} (hx : x < w) (hy : y < h) {t : Work D × List Nat} (H : HalfFit w h ml m0 sd x y t) :
    wp (joinCuts ml sd (cellNo w x y) t) (Fit w h ml m0 sd) anyErr := by
  obtain ⟨W, cuts⟩ := t
  have hs : Fit w h ml m0 sd W := H.fit
  have hc : ∀ k ∈ cuts, AtSpot w sd x y W.bnd.points k := H.cuts
  clear H
  unfold joinCuts
  dsimp only
  match cuts, hc with
  | [], _ =>
    dsimp only
    refine wp_rd_any fun el _ => ?_
    exact wp_ite (fun _ => hs) fun _ => noCut_fit hg hx hy hs
  | [p0], hc =>
    dsimp only
    refine wp_imp (wp_forN (E := anyErr) (fun _ (W' : Work D) => Fit w h ml m0 sd W' ∧ More W W') ⟨hs, .refl W⟩ fun j hj W' h' => ?_)
      fun W' h => h.1
    refine wp_imp (oneCutCorner_fit hg hx hy hj h'.1 ((hc p0 (by simp)).more h'.2)) fun W2 h2 => ?_
    exact ⟨h2.1, h'.2.trans h2.2⟩
  | [p0, p1], hc => exact wp_imp (addSegment_fit hs hx hy (hc p0 (by simp)) (hc p1 (by simp))) fun W2 h2 => h2.1
  | [p0, p1, p2], _ => exact hs
  | [p0, p1, p2, p3], hc =>
    exact fourCuts_fit hg hx hy hs (hc p0 (by simp)) (hc p1 (by simp)) (hc p2 (by simp)) (hc p3 (by simp))
  | p0 :: p1 :: p2 :: p3 :: p4 :: l, _ => exact hs

theorem element_fit (hg : IsGrid w h m0) {x y : Nat} (hx : x < w) (hy : y < h) (S : Fit w h ml m0 sd W) :
    wp (element ml sd isTarget (cellNo w x y) W) (Fit w h ml m0 sd) anyErr := by
  unfold element
  refine wp_rd_any fun el _ => ?_
  refine wp_ite (fun _ => S) fun _ => ?_
  rw [wp_bind]
  refine wp_imp (wp_forN (E := anyErr) (fun _ (t : Work D × List Nat) => HalfFit w h ml m0 sd x y t)
    ⟨S, fun k hk => by cases hk⟩ fun j hj t ht => edgeStep_fit hg hx hy hj ht) fun t ht => joinCuts_fit hg hx hy ht

/-- The state before the first element. -/
theorem Status.fit {m1 : Mesh D} (S : Status w h m0 sd m0.nElements m1) : Fit w h ml m0 sd { bnd := new, mesh := m1 } := by
  refine ⟨S.annot, fun i nd hi => ?_, rfl, fun k pt hk => (by cases hk), rfl, fun s hs => (by cases hs), rfl⟩
  obtain ⟨a, ha, _⟩ := S.annot.node i nd hi
  have := S.node i a ha
  change m1.nodes[i]? = some nd at hi
  rw [hi] at this
  cases this
  rfl

theorem SegFit.lt {pts : List (BoundaryPoint D)} {s : BoundarySegment D} (hs : SegFit w h sd pts s) :
    s.start < pts.length ∧ s.stop < pts.length := by
  obtain ⟨_, a, b, h1, h2, _⟩ := hs
  exact ⟨(List.getElem?_eq_some_iff.1 h1).1, (List.getElem?_eq_some_iff.1 h2).1⟩

/-- What a call of `discretise` has made, whatever the numbers. -/
structure Drawn (w h : Nat) (L : LevelSet D) (sd : List D) (b : Boundary D) (L' : LevelSet D) : Prop where
  level : L' = { L with mesh := L'.mesh }
  fit : ∃ W, Fit w h L.moveLimit L.mesh sd W ∧ L'.mesh = W.mesh ∧ b = { W.bnd with points := b.points } ∧
    Links W.bnd.points b.points (fun j => upTo (lensAt W.bnd.segments j) W.bnd.segments.length)
      (fun j => upTo (segsAt W.bnd.segments j) W.bnd.segments.length) (fun j => upTo (nbrsAt W.bnd.segments j) W.bnd.segments.length)

theorem discretise_fit {L : LevelSet D} (hg : IsGrid w h L.mesh) (hsd : L.mesh.nNodes ≤ (values L isTarget).length) :
    wp (discretise L isTarget) (fun r => Drawn w h L (values L isTarget) r.1 r.2) anyErr := by
  unfold discretise
  rw [show (if isTarget then L.target else L.signedDistance) = values L isTarget from rfl]
  generalize values L isTarget = sd at hsd ⊢
  rw [wp_bind]
  refine wp_mono (computeMeshStatus_spec hg hsd) (fun m1 S => ?_) fun _ h => h.elim
  rw [wp_bind]
  refine wp_imp (wp_forN (E := anyErr) (fun _ (W : Work D) => Fit w h L.moveLimit L.mesh sd W) S.fit fun e he W hW => ?_) fun W hW => ?_
  · rw [S.annot.nElements] at he
    obtain ⟨x, y, hx, hy, rfl⟩ := hg.elem_index he
    exact element_fit hg hx hy hW
  · rw [wp_bind]
    refine wp_mono (computePointLengths_spec hW.nSegments (fun g hgm => (hW.segs g hgm).lt) fun p hp => ?_) (fun b hb => ?_) fun _ _ => trivial
    · obtain ⟨k, hk⟩ := List.mem_iff_getElem?.1 hp
      obtain ⟨_, _, _, _, _, _, e⟩ := hW.pts k p hk
      obtain ⟨_, _, _, _, rfl⟩ := initialisePoint_at e
      exact ⟨rfl, rfl, rfl, rfl⟩
    · obtain ⟨pts, rfl, hl⟩ := hb
      rw [wp_pure]
      exact ⟨rfl, W, hW, rfl, rfl, hl⟩

end

end Boundary

end Slsm
