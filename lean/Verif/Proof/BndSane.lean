import Verif.Proof.BndLen
import Verif.Proof.LSHist

/-! Discretisation without any assumption on the values: what holds whenever the calls return. -/

namespace Slsm

open FP

namespace Boundary

/-- Any error is allowed. -/
def anyErr : Err → Prop := fun _ => True

/-- Point `k` is at `c`, up to the tolerance. -/
def Near (pts : List (BoundaryPoint ℝ)) (k : Nat) (c : Coord ℝ) : Prop :=
  ∃ pt, pts[k]? = some pt ∧ |c.x - pt.coord.x| < 1 / 10 ^ 6 ∧ |c.y - pt.coord.y| < 1 / 10 ^ 6

/-- A place of the cell where the contour passes, where point `k` is up to the tolerance. -/
def NearPlace (f : Nat → Nat → ℝ) (x y : Nat) (pts : List (BoundaryPoint ℝ)) (k : Nat) : Prop :=
  ∃ p : Place, p.ofCell x y ∧ p.onContour f ∧ Near pts k (p.coord f)

structure SegOk (w h : Nat) (f : Nat → Nat → ℝ) (pts : List (BoundaryPoint ℝ)) (s : BoundarySegment ℝ) : Prop where
  cell : ∃ x y, x < w ∧ y < h ∧ s.element = cellNo w x y ∧ NearPlace f x y pts s.start ∧ NearPlace f x y pts s.stop
  len : ∃ a b, pts[s.start]? = some a ∧ pts[s.stop]? = some b ∧ s.length = distance a.coord b.coord

/-- Status of the element of a cell: from its corners, except that cells with four cut edges are marked by their centre. -/
def ElemOk (w : Nat) (sd : List ℝ) (x y : Nat) (st : ElementStatus) : Prop :=
  st = stat (side w sd x y) ∨ (stat (side w sd x y) = .none ∧ (st = .centreInside ∨ st = .centreOutside))

structure Sane (w h : Nat) (ml : ℝ) (m0 : Mesh ℝ) (sd : List ℝ) (W : Work ℝ) : Prop where
  annot : Annot m0 W.mesh
  status : ∀ (i : Nat) (nd : Node ℝ), W.mesh.nodes[i]? = some nd → nd.status = nodeSide (vals sd i)
  nPoints : W.bnd.nPoints = W.bnd.points.length
  pts : ∀ (k : Nat) (pt : BoundaryPoint ℝ), W.bnd.points[k]? = some pt → ∃ p : Place, p.inGrid w h ∧ p.onContour (onGrid w sd) ∧
    initialisePoint ml m0 (p.coord (onGrid w sd)) = .ok pt
  nSegments : W.bnd.nSegments = W.bnd.segments.length
  segs : ∀ s ∈ W.bnd.segments, SegOk w h (onGrid w sd) W.bnd.points s
  length : W.bnd.length = (W.bnd.segments.map fun s => s.length).sum
  elems : ∀ x y (el : Element ℝ), x < w → y < h → W.mesh.elements[cellNo w x y]? = some el → ElemOk w sd x y el.status

section
variable {w h : Nat} {ml : ℝ} {m0 : Mesh ℝ} {sd : List ℝ} {W : Work ℝ} {isTarget : Bool}

theorem get_append {α : Type} {l l' : List α} {k : Nat} {a : α} (h : l[k]? = some a) : (l ++ l')[k]? = some a := by
  rw [List.getElem?_append_left (List.getElem?_eq_some_iff.1 h).1]; exact h

theorem Near.grow {pts l : List (BoundaryPoint ℝ)} {k : Nat} {c : Coord ℝ} (h : Near pts k c) : Near (pts ++ l) k c := by
  obtain ⟨pt, h1, h2⟩ := h
  exact ⟨pt, get_append h1, h2⟩

theorem NearPlace.grow {f : Nat → Nat → ℝ} {x y : Nat} {pts l : List (BoundaryPoint ℝ)} {k : Nat} (h : NearPlace f x y pts k) :
    NearPlace f x y (pts ++ l) k := by
  obtain ⟨p, h1, h2, h3⟩ := h
  exact ⟨p, h1, h2, h3.grow⟩

theorem SegOk.grow {f : Nat → Nat → ℝ} {pts l : List (BoundaryPoint ℝ)} {s : BoundarySegment ℝ} (hs : SegOk w h f pts s) :
    SegOk w h f (pts ++ l) s := by
  obtain ⟨⟨x, y, h1, h2, h3, h4, h5⟩, a, b, h6, h7, h8⟩ := hs
  exact ⟨⟨x, y, h1, h2, h3, h4.grow, h5.grow⟩, a, b, get_append h6, get_append h7, h8⟩

/-- Only points have been added. -/
def Grows (W W' : Work ℝ) : Prop := ∃ l, W'.bnd.points = W.bnd.points ++ l

theorem Grows.refl (W : Work ℝ) : Grows W W := ⟨[], by simp⟩

theorem Grows.trans {W1 W2 W3 : Work ℝ} (h1 : Grows W1 W2) (h2 : Grows W2 W3) : Grows W1 W3 := by
  obtain ⟨l1, e1⟩ := h1
  obtain ⟨l2, e2⟩ := h2
  exact ⟨l1 ++ l2, by rw [e2, e1, List.append_assoc]⟩

theorem NearPlace.grows {f : Nat → Nat → ℝ} {x y k : Nat} {W W' : Work ℝ} (h : NearPlace f x y W.bnd.points k) (g : Grows W W') :
    NearPlace f x y W'.bnd.points k := by
  obtain ⟨l, e⟩ := g
  rw [e]; exact h.grow

theorem wp_rd_any {α β : Type} {l : List α} {i : Nat} {g : α → Res β} {Q : β → Prop}
    (H : ∀ a, l[i]? = some a → wp (g a) Q anyErr) : wp (rd l i >>= g) Q anyErr := by
  rw [wp_bind]
  cases e : l[i]? with
  | none => unfold rd; rw [e]; exact trivial
  | some a => rw [rd_of_getElem? e, wp_ok]; exact H a e

theorem wp_modAt_any {α β : Type} {l : List α} {i : Nat} {u : α → Res α} {g : List α → Res β} {Q : β → Prop}
    (H : ∀ a b, l[i]? = some a → u a = .ok b → wp (g (l.set i b)) Q anyErr) : wp (modAt l i u >>= g) Q anyErr := by
  cases e : l[i]? with
  | none => unfold modAt rd; rw [e]; exact trivial
  | some a =>
    rw [modAt_some e]
    cases hu : u a with
    | error _ => exact trivial
    | ok b => exact H a b e hu

theorem wr_len {α : Type} {l l' : List α} {i : Nat} {a : α} (h : wr l i a = .ok l') : l'.length = l.length := by
  have := LevelSet.wr_length l i a
  rw [h] at this
  exact this

theorem isAdded_any (m : Mesh ℝ) (pts : List (BoundaryPoint ℝ)) (c : Coord ℝ) (n : Nat) :
    wp (isAdded m pts c n) (fun r => ∀ k, r = some k → Near pts k c) anyErr := by
  unfold isAdded
  refine wp_rd_any fun nd _ => ?_
  refine wp_forN (E := anyErr) (fun _ (r : Option Nat) => ∀ k, r = some k → Near pts k c) (fun k hk => by cases hk) fun i _ r hr => ?_
  cases r with
  | some k => exact hr
  | none =>
    dsimp only
    refine wp_rd_any fun idx _ => ?_
    refine wp_rd_any fun q hq => ?_
    rw [wp_pure]
    intro k hk
    split at hk
    · rename_i hc
      cases hk
      exact ⟨q, hq, (isClose_real _ _).1 hc⟩
    · cases hk

theorem claim_any (S : Sane w h ml m0 sd W) (n : Nat) :
    wp (claim n W) (fun W' => Sane w h ml m0 sd W' ∧ W'.bnd = W.bnd) anyErr := by
  unfold claim
  refine wp_modAt_any fun a b ha hb => ?_
  rw [wp_pure]
  simp only [bind, Except.bind] at hb
  cases hw : wr a.boundaryPoints a.nBoundaryPoints W.bnd.nPoints with
  | error _ => rw [hw] at hb; cases hb
  | ok l =>
    rw [hw] at hb
    cases hb
    refine ⟨⟨S.annot.trans (Annot.setNode ha ⟨rfl, wr_len hw⟩), fun i nd hi => ?_, S.nPoints, S.pts, S.nSegments, S.segs, S.length, S.elems⟩, rfl⟩
    change (W.mesh.nodes.set n _)[i]? = some nd at hi
    by_cases hk : n = i
    · subst hk
      rw [List.getElem?_set_self (List.getElem?_eq_some_iff.1 ha).1] at hi
      cases hi
      exact S.status n a ha
    · rw [List.getElem?_set_ne hk] at hi
      exact S.status _ _ hi

theorem pushPoint_any (S : Sane w h ml m0 sd W) {p : Place} (hp : p.inGrid w h) (hc : p.onContour (onGrid w sd)) :
    wp (pushPoint ml (p.coord (onGrid w sd)) W)
      (fun W' => Sane w h ml m0 sd W' ∧ Grows W W' ∧ Near W'.bnd.points W.bnd.nPoints (p.coord (onGrid w sd))) anyErr := by
  unfold pushPoint
  rw [Annot.initialisePoint S.annot]
  cases e : initialisePoint ml m0 (p.coord (onGrid w sd)) with
  | error _ => exact trivial
  | ok pt =>
    show wp (.ok _) _ _
    rw [wp_ok]
    refine ⟨⟨S.annot, S.status, ?_, ?_, S.nSegments, fun s hs => (S.segs s hs).grow, S.length, S.elems⟩, ⟨[pt], rfl⟩, pt, ?_, ?_⟩
    · show W.bnd.nPoints + 1 = (W.bnd.points ++ [pt]).length
      rw [S.nPoints, List.length_append]; rfl
    · intro k q hk
      change (W.bnd.points ++ [pt])[k]? = some q at hk
      by_cases hlt : k < W.bnd.points.length
      · rw [List.getElem?_append_left hlt] at hk
        exact S.pts k q hk
      · rw [List.getElem?_append_right (by omega)] at hk
        have hk0 : k - W.bnd.points.length = 0 := by
          have := (List.getElem?_eq_some_iff.1 hk).1
          simp at this; omega
        rw [hk0] at hk
        cases hk
        exact ⟨p, hp, hc, e⟩
    · show (W.bnd.points ++ [pt])[W.bnd.nPoints]? = some pt
      rw [S.nPoints, List.getElem?_append_right (le_refl _), Nat.sub_self]; rfl
    · rw [initialisePoint_coord e]; simp

theorem cornerNode_any (hg : IsGrid w h m0) (S : Sane w h ml m0 sd W) {x y j : Nat} (hx : x < w) (hy : y < h) (hj : j < 4) :
    cornerNode W.mesh (cellNo w x y) j = .ok (nodeNo w (cornerAt x y j).1 (cornerAt x y j).2) := by
  obtain ⟨el, hel⟩ := (S.annot.grid hg).elem_exists hx hy
  have hc := (S.annot.grid hg).corner x y el hx hy hel
  unfold cornerNode
  rw [rd_of_getElem? hel]
  simp only [bind, Except.bind]
  rw [hc]
  match j, hj with
  | 0, _ => rfl
  | 1, _ => rfl
  | 2, _ => rfl
  | 3, _ => rfl

theorem cornerAt_cell (x y j : Nat) : x ≤ (cornerAt x y j).1 ∧ (cornerAt x y j).1 ≤ x + 1 ∧ y ≤ (cornerAt x y j).2 ∧ (cornerAt x y j).2 ≤ y + 1 := by
  unfold cornerAt
  split <;> dsimp only <;> omega

theorem edgeAt_cell {x y j : Nat} (hj : j < 4) : (edgeAt x y j).ofCell x y := by
  intro q hq
  rcases (edgeAt_ends hj q).1 hq with rfl | rfl <;> exact cornerAt_cell x y _

/-- Point of a cut edge. -/
theorem cutPoint_any (hg : IsGrid w h m0) (S : Sane w h ml m0 sd W) {x y j : Nat} (hx : x < w) (hy : y < h) (hj : j < 4)
    (hc : Crossed (side w sd x y j) (side w sd x y (after j))) :
    wp (cutPoint ml (nodeNo w (cornerAt x y j).1 (cornerAt x y j).2) (nodeNo w (cornerAt x y (after j)).1 (cornerAt x y (after j)).2) j
      (onGrid w sd (cornerAt x y j).1 (cornerAt x y j).2 /
        (onGrid w sd (cornerAt x y j).1 (cornerAt x y j).2 - onGrid w sd (cornerAt x y (after j)).1 (cornerAt x y (after j)).2)) W)
      (fun r => Sane w h ml m0 sd r.2 ∧ Grows W r.2 ∧ NearPlace (onGrid w sd) x y r.2.bnd.points r.1) anyErr := by
  have hcont : (edgeAt x y j).onContour (onGrid w sd) := (edgeAt_onContour hj).2 hc
  unfold cutPoint
  refine wp_rd_any fun nd hnd => ?_
  have hco := (S.annot.grid hg).coord _ _ nd (cornerAt_le hx hy j).1 (cornerAt_le hx hy j).2 hnd
  rw [hco]
  simp only [FP.nat_real]
  rw [edgePoint_coord hj hc, wp_bind]
  refine wp_imp (isAdded_any _ _ _ _) fun r hr => ?_
  cases r with
  | some k => exact ⟨S, .refl W, _, edgeAt_cell hj, hcont, hr k rfl⟩
  | none =>
    dsimp only
    rw [wp_bind]
    refine wp_imp (claim_any S _) fun W1 h1 => ?_
    rw [wp_bind]
    refine wp_imp (claim_any h1.1 _) fun W2 h2 => ?_
    rw [wp_bind]
    refine wp_imp (pushPoint_any h2.1 (edgeAt_inGrid hx hy hj) hcont) fun W3 h3 => ?_
    have e : W2.bnd = W.bnd := h2.2.trans h1.2
    rw [wp_pure]
    refine ⟨h3.1, ?_, _, edgeAt_cell hj, hcont, ?_⟩
    · obtain ⟨l, hl⟩ := h3.2.1
      exact ⟨l, by rw [hl, e]⟩
    · rw [← e]; exact h3.2.2

/-- Point of a corner on the boundary. -/
theorem nodePoint_any (hg : IsGrid w h m0) (S : Sane w h ml m0 sd W) {x y j : Nat} (hx : x < w) (hy : y < h)
    (hb : side w sd x y j = .boundary) :
    wp (nodePoint ml (nodeNo w (cornerAt x y j).1 (cornerAt x y j).2) W)
      (fun r => Sane w h ml m0 sd r.2 ∧ Grows W r.2 ∧ NearPlace (onGrid w sd) x y r.2.bnd.points r.1) anyErr := by
  have hcell : (Place.node (cornerAt x y j).1 (cornerAt x y j).2).ofCell x y := by
    intro q hq
    rw [Place.ends, List.mem_singleton] at hq
    subst hq
    exact cornerAt_cell x y j
  have hgr : (Place.node (cornerAt x y j).1 (cornerAt x y j).2).inGrid w h := by
    intro q hq
    rw [Place.ends, List.mem_singleton] at hq
    subst hq
    exact cornerAt_le hx hy j
  have hcont : (Place.node (cornerAt x y j).1 (cornerAt x y j).2).onContour (onGrid w sd) := hb
  unfold nodePoint
  refine wp_rd_any fun nd hnd => ?_
  have hco := (S.annot.grid hg).coord _ _ nd (cornerAt_le hx hy j).1 (cornerAt_le hx hy j).2 hnd
  have ec : edgePoint nd.coord 0 (nat 0) = (Place.node (cornerAt x y j).1 (cornerAt x y j).2).coord (onGrid w sd) := by
    rw [hco]
    simp [edgePoint, Place.coord]
  rw [ec, wp_bind]
  refine wp_imp (isAdded_any _ _ _ _) fun r hr => ?_
  cases r with
  | some k => exact ⟨S, .refl W, _, hcell, hcont, hr k rfl⟩
  | none =>
    dsimp only
    rw [wp_bind]
    refine wp_imp (claim_any S _) fun W1 h1 => ?_
    rw [wp_bind]
    refine wp_imp (pushPoint_any h1.1 hgr hcont) fun W3 h3 => ?_
    rw [wp_pure]
    refine ⟨h3.1, ?_, _, hcell, hcont, ?_⟩
    · obtain ⟨l, hl⟩ := h3.2.1
      exact ⟨l, by rw [hl, h1.2]⟩
    · rw [← h1.2]; exact h3.2.2

theorem addSegment_any (S : Sane w h ml m0 sd W) {x y a b : Nat} (hx : x < w) (hy : y < h)
    (ha : NearPlace (onGrid w sd) x y W.bnd.points a) (hb : NearPlace (onGrid w sd) x y W.bnd.points b) :
    wp (addSegment (cellNo w x y) a b W) (fun W' => Sane w h ml m0 sd W' ∧ Grows W W') anyErr := by
  obtain ⟨pa, ha1, ha2, qa, ha3, ha4⟩ := ha
  obtain ⟨pb, hb1, hb2, qb, hb3, hb4⟩ := hb
  unfold addSegment segmentLength
  rw [rd_of_getElem? ha3, rd_of_getElem? hb3]
  rw [wp_bind, wp_bind, wp_ok, wp_bind, wp_ok, wp_pure]
  refine wp_modAt_any fun el el' hel hel' => ?_
  simp only [bind, Except.bind] at hel'
  cases hw : wr el.boundarySegments el.nBoundarySegments W.bnd.nSegments with
  | error _ => rw [hw] at hel'; cases hel'
  | ok l =>
    rw [hw] at hel'
    cases hel'
    rw [wp_pure]
    refine ⟨⟨S.annot.trans (Annot.setElem hel ⟨rfl, wr_len hw⟩), S.status, S.nPoints, S.pts, ?_, ?_, ?_, ?_⟩, ⟨[], by simp⟩⟩
    · show W.bnd.nSegments + 1 = (W.bnd.segments ++ [_]).length
      rw [List.length_append, S.nSegments]; rfl
    · intro s hs
      rcases List.mem_append.1 hs with h | h
      · exact S.segs s h
      · rw [List.mem_singleton] at h
        subst h
        refine ⟨⟨x, y, hx, hy, rfl, ⟨pa, ha1, ha2, qa, ha3, ha4⟩, pb, hb1, hb2, qb, hb3, hb4⟩, qa, qb, ha3, hb3, ?_⟩
        simp only [FP.sqrt_real, FP.add_real, FP.mul_real, FP.sub_real]
        rfl
    · show W.bnd.length +. _ = ((W.bnd.segments ++ [_]).map fun s : BoundarySegment ℝ => s.length).sum
      rw [List.map_append, List.sum_append, S.length, FP.add_real]
      simp
    · intro x' y' el' hx' hy' he'
      change (W.mesh.elements.set _ _)[_]? = some el' at he'
      by_cases hk : cellNo w x y = cellNo w x' y'
      · rw [← hk, List.getElem?_set_self (List.getElem?_eq_some_iff.1 hel).1] at he'
        cases he'
        exact S.elems x' y' el hx' hy' (hk ▸ hel)
      · rw [List.getElem?_set_ne hk] at he'
        exact S.elems x' y' el' hx' hy' he'

theorem twoNodes_any (hg : IsGrid w h m0) (S : Sane w h ml m0 sd W) {x y j k : Nat} (hx : x < w) (hy : y < h)
    (hj : side w sd x y j = .boundary) (hk : side w sd x y k = .boundary) :
    wp (borderEdge ml (cellNo w x y) (nodeNo w (cornerAt x y j).1 (cornerAt x y j).2) (nodeNo w (cornerAt x y k).1 (cornerAt x y k).2) W)
      (fun W' => Sane w h ml m0 sd W' ∧ Grows W W') anyErr := by
  unfold borderEdge
  rw [wp_bind]
  refine wp_imp (nodePoint_any hg S hx hy hj) fun r1 h1 => ?_
  obtain ⟨a, W1⟩ := r1
  rw [wp_bind]
  refine wp_imp (nodePoint_any hg h1.1 hx hy hk) fun r2 h2 => ?_
  obtain ⟨b, W2⟩ := r2
  refine wp_imp (addSegment_any h2.1 hx hy (h1.2.2.grows h2.2.1) h2.2.2) fun W3 h3 => ?_
  exact ⟨h3.1, (h1.2.1.trans h2.2.1).trans h3.2⟩

/-- State inside the loop over the edges. -/
structure Half (w h : Nat) (ml : ℝ) (m0 : Mesh ℝ) (sd : List ℝ) (x y n : Nat) (t : Work ℝ × List Nat) : Prop where
  sane : Sane w h ml m0 sd t.1
  le : t.2.length ≤ n
  all : t.2.length = n → ∀ i, i < n → Crossed (side w sd x y i) (side w sd x y (after i))
  cuts : ∀ k ∈ t.2, NearPlace (onGrid w sd) x y t.1.bnd.points k

theorem side_any (S : Sane w h ml m0 sd W) {x y j : Nat} {nd : Node ℝ}
    (h : W.mesh.nodes[nodeNo w (cornerAt x y j).1 (cornerAt x y j).2]? = some nd) : nd.status = side w sd x y j := S.status _ _ h

theorem edgeStep_any (hg : IsGrid w h m0) {x y j : Nat} (hx : x < w) (hy : y < h) (hj : j < 4) {t : Work ℝ × List Nat}
    (H : Half w h ml m0 sd x y j t) : wp (edgeStep ml sd isTarget (cellNo w x y) j t) (Half w h ml m0 sd x y (j + 1)) anyErr := by
  obtain ⟨W, cuts⟩ := t
  unfold edgeStep
  dsimp only
  rw [cornerNode_any hg H.sane hx hy hj, cornerNode_any hg H.sane hx hy (after_lt hj), wp_bind, wp_ok, wp_bind, wp_ok]
  refine wp_rd_any fun a ha => ?_
  refine wp_rd_any fun b hb => ?_
  have sa := side_any H.sane ha
  have sb := side_any H.sane hb
  have hle : cuts.length ≤ j := H.le
  have next : Half w h ml m0 sd x y (j + 1) (W, cuts) :=
    ⟨H.sane, Nat.le_succ_of_le H.le, fun e => absurd e (by show cuts.length ≠ j + 1; omega), H.cuts⟩
  refine wp_ite (fun _ => ?_) fun _ => next
  refine wp_ite (fun hc => ?_) fun _ => wp_ite (fun hbb => ?_) fun _ => next
  · rw [sa, sb, cutPair_iff] at hc
    refine wp_rd_any fun v1 h1 => ?_
    refine wp_rd_any fun v2 h2 => ?_
    have e1 : v1 = onGrid w sd (cornerAt x y j).1 (cornerAt x y j).2 := by
      unfold onGrid vals; rw [List.getD_eq_getElem?_getD, h1]; rfl
    have e2 : v2 = onGrid w sd (cornerAt x y (after j)).1 (cornerAt x y (after j)).2 := by
      unfold onGrid vals; rw [List.getD_eq_getElem?_getD, h2]; rfl
    rw [e1, e2, FP.div_real, FP.sub_real, wp_bind]
    refine wp_imp (cutPoint_any hg H.sane hx hy hj hc) fun r hr => ?_
    obtain ⟨k, W'⟩ := r
    rw [wp_pure]
    refine ⟨hr.1, ?_, fun e i hi => ?_, fun i hi => ?_⟩
    · show (cuts ++ [k]).length ≤ j + 1
      rw [List.length_append]; simp; omega
    · change (cuts ++ [k]).length = j + 1 at e
      rw [List.length_append, List.length_singleton] at e
      rcases Nat.lt_succ_iff_lt_or_eq.1 hi with h | h
      · exact H.all (by show cuts.length = j; omega) i h
      · rw [h]; exact hc
    rcases List.mem_append.1 hi with h | h
    · exact (H.cuts i h).grows hr.2.1
    · rw [List.mem_singleton] at h
      subst h
      exact hr.2.2
  · rw [sa, sb] at hbb
    rw [wp_bind]
    refine wp_imp (twoNodes_any hg H.sane hx hy hbb.1 hbb.2) fun W' hr => ?_
    exact ⟨hr.1, next.le, next.all, fun i hi => (H.cuts i hi).grows hr.2⟩

theorem oneCutCorner_any (hg : IsGrid w h m0) {x y j p : Nat} (hx : x < w) (hy : y < h) (hj : j < 4)
    (S : Sane w h ml m0 sd W) (hp : NearPlace (onGrid w sd) x y W.bnd.points p) :
    wp (oneCutCorner ml (cellNo w x y) p j W) (fun W' => Sane w h ml m0 sd W' ∧ Grows W W') anyErr := by
  unfold oneCutCorner
  rw [cornerNode_any hg S hx hy hj, wp_bind, wp_ok]
  refine wp_rd_any fun nd hnd => ?_
  have sn := side_any S hnd
  refine wp_ite (fun hb => ?_) fun _ => ⟨S, .refl W⟩
  rw [cornerNode_any hg S hx hy (after_lt hj), cornerNode_any hg S hx hy (before_lt hj), wp_bind, wp_ok, wp_bind, wp_ok]
  refine wp_rd_any fun a ha => ?_
  refine wp_rd_any fun b hb' => ?_
  refine wp_ite (fun _ => ?_) fun _ => ⟨S, .refl W⟩
  rw [wp_bind]
  refine wp_imp (nodePoint_any hg S hx hy (sn ▸ hb)) fun r hr => ?_
  obtain ⟨k, W'⟩ := r
  refine wp_imp (addSegment_any hr.1 hx hy (hp.grows hr.2.1) hr.2.2) fun W2 h2 => ?_
  exact ⟨h2.1, hr.2.1.trans h2.2⟩

theorem all_crossed {s : Nat → NodeStatus} (H : ∀ i, i < 4 → Crossed (s i) (s (after i))) : stat s = .none := by
  have h0 := H 0 (by omega)
  change Crossed (s 0) (s 1) at h0
  unfold stat elemStatus
  rcases h0 with ⟨h1, h2⟩ | ⟨h1, h2⟩ <;> simp [h1, h2]

theorem setStatus_any (S : Sane w h ml m0 sd W) {x y : Nat} (hx : x < w) (hs : stat (side w sd x y) = .none) {st : ElementStatus}
    (hst : st = .centreInside ∨ st = .centreOutside) :
    wp (modAt W.mesh.elements (cellNo w x y) (fun el => pure { el with status := st }) >>= fun elements =>
      (pure { W with mesh := { W.mesh with elements := elements } } : Res (Work ℝ))) (Sane w h ml m0 sd) anyErr := by
  refine wp_modAt_any fun el el' hel hel' => ?_
  cases hel'
  rw [wp_pure]
  refine ⟨S.annot.trans (Annot.setElem hel ⟨rfl, rfl⟩), S.status, S.nPoints, S.pts, S.nSegments, S.segs, S.length, ?_⟩
  intro x' y' el' hx' hy' he'
  change (W.mesh.elements.set _ _)[_]? = some el' at he'
  by_cases hk : cellNo w x y = cellNo w x' y'
  · rw [← hk, List.getElem?_set_self (List.getElem?_eq_some_iff.1 hel).1] at he'
    cases he'
    obtain ⟨rfl, rfl⟩ := idx_inj hx hx' hk
    exact .inr ⟨hs, hst⟩
  · rw [List.getElem?_set_ne hk] at he'
    exact S.elems x' y' el' hx' hy' he'

theorem fourCuts_any (hg : IsGrid w h m0) {x y p0 p1 p2 p3 : Nat} (hx : x < w) (hy : y < h) (S : Sane w h ml m0 sd W)
    (h0 : NearPlace (onGrid w sd) x y W.bnd.points p0) (h1 : NearPlace (onGrid w sd) x y W.bnd.points p1)
    (h2 : NearPlace (onGrid w sd) x y W.bnd.points p2) (h3 : NearPlace (onGrid w sd) x y W.bnd.points p3)
    (hall : stat (side w sd x y) = .none) :
    wp (fourCuts sd (cellNo w x y) p0 p1 p2 p3 W) (Sane w h ml m0 sd) anyErr := by
  unfold fourCuts
  rw [wp_bind]
  refine wp_imp (Q := fun _ => True) (by cases cornerSum W.mesh sd (cellNo w x y) <;> exact trivial) fun sum _ => ?_
  rw [cornerNode_any hg S hx hy (by omega), wp_bind, wp_ok]
  refine wp_rd_any fun nd hnd => ?_
  rw [wp_bind]
  have : ∀ b, wp (fourSegments b (cellNo w x y) p0 p1 p2 p3 W) (Sane w h ml m0 sd) anyErr := by
    intro b
    unfold fourSegments
    split
    · rw [wp_bind]
      refine wp_imp (addSegment_any S hx hy h0 h1) fun W1 r1 => ?_
      exact wp_imp (addSegment_any r1.1 hx hy (h2.grows r1.2) (h3.grows r1.2)) fun W2 r2 => r2.1
    · rw [wp_bind]
      refine wp_imp (addSegment_any S hx hy h0 h3) fun W1 r1 => ?_
      exact wp_imp (addSegment_any r1.1 hx hy (h1.grows r1.2) (h2.grows r1.2)) fun W2 r2 => r2.1
  refine wp_imp (this _) fun W1 r1 => ?_
  refine setStatus_any r1 hx hall ?_
  split
  · exact .inl rfl
  · exact .inr rfl

theorem borderCorners_any (hg : IsGrid w h m0) {x y : Nat} (hx : x < w) (hy : y < h) (S : Sane w h ml m0 sd W) :
    wp (borderCorners W.mesh (cellNo w x y))
      (fun l => ∀ n ∈ l, ∃ j, j < 4 ∧ side w sd x y j = .boundary ∧ n = nodeNo w (cornerAt x y j).1 (cornerAt x y j).2) anyErr := by
  unfold borderCorners
  refine wp_forN (E := anyErr) (fun _ (l : List Nat) => ∀ n ∈ l, ∃ j, j < 4 ∧ side w sd x y j = .boundary ∧
    n = nodeNo w (cornerAt x y j).1 (cornerAt x y j).2) (fun n hn => by cases hn) fun j hj l hl => ?_
  rw [cornerNode_any hg S hx hy hj, wp_bind, wp_ok]
  refine wp_rd_any fun nd hnd => ?_
  rw [wp_pure]
  split
  · rename_i hb
    intro n hn
    rcases List.mem_append.1 hn with h | h
    · exact hl n h
    · rw [List.mem_singleton] at h
      exact ⟨j, hj, (side_any S hnd) ▸ hb, h⟩
  · exact hl

theorem noCut_any (hg : IsGrid w h m0) {x y : Nat} (hx : x < w) (hy : y < h) (S : Sane w h ml m0 sd W) :
    wp (noCut ml (cellNo w x y) W) (Sane w h ml m0 sd) anyErr := by
  unfold noCut
  rw [wp_bind]
  refine wp_imp (borderCorners_any hg hx hy S) fun l hl => ?_
  match l, hl with
  | [], _ => exact trivial
  | [_], _ => exact trivial
  | n1 :: n2 :: t, hl =>
    obtain ⟨j, _, hj, rfl⟩ := hl n1 (by simp)
    obtain ⟨k, _, hk, rfl⟩ := hl n2 (by simp)
    exact wp_imp (twoNodes_any hg S hx hy hj hk) fun W' h => h.1

theorem joinCuts_any (hg : IsGrid w h m0) {x y : Nat} (hx : x < w) (hy : y < h) {t : Work ℝ × List Nat} (H : Half w h ml m0 sd x y 4 t) :
    wp (joinCuts ml sd (cellNo w x y) t) (Sane w h ml m0 sd) anyErr := by
  obtain ⟨W, cuts⟩ := t
  have hs : Sane w h ml m0 sd W := H.sane
  have hc : ∀ k ∈ cuts, NearPlace (onGrid w sd) x y W.bnd.points k := H.cuts
  have hall : cuts.length = 4 → stat (side w sd x y) = .none := fun e => all_crossed (H.all e)
  clear H
  unfold joinCuts
  dsimp only
  match cuts, hc, hall with
  | [], _, _ =>
    dsimp only
    refine wp_rd_any fun el _ => ?_
    exact wp_ite (fun _ => hs) fun _ => noCut_any hg hx hy hs
  | [p0], hc, _ =>
    dsimp only
    refine wp_imp (wp_forN (E := anyErr) (fun _ (W' : Work ℝ) => Sane w h ml m0 sd W' ∧ Grows W W') ⟨hs, .refl W⟩ fun j hj W' h' => ?_)
      fun W' h => h.1
    refine wp_imp (oneCutCorner_any hg hx hy hj h'.1 ((hc p0 (by simp)).grows h'.2)) fun W2 h2 => ?_
    exact ⟨h2.1, h'.2.trans h2.2⟩
  | [p0, p1], hc, _ => exact wp_imp (addSegment_any hs hx hy (hc p0 (by simp)) (hc p1 (by simp))) fun W2 h2 => h2.1
  | [p0, p1, p2], _, _ => exact hs
  | [p0, p1, p2, p3], hc, hall =>
    exact fourCuts_any hg hx hy hs (hc p0 (by simp)) (hc p1 (by simp)) (hc p2 (by simp)) (hc p3 (by simp)) (hall rfl)
  | p0 :: p1 :: p2 :: p3 :: p4 :: l, _, _ => exact hs

theorem element_any (hg : IsGrid w h m0) {x y : Nat} (hx : x < w) (hy : y < h) (S : Sane w h ml m0 sd W) :
    wp (element ml sd isTarget (cellNo w x y) W) (Sane w h ml m0 sd) anyErr := by
  unfold element
  refine wp_rd_any fun el _ => ?_
  refine wp_ite (fun _ => S) fun _ => ?_
  rw [wp_bind]
  refine wp_imp (wp_forN (E := anyErr) (fun n (t : Work ℝ × List Nat) => Half w h ml m0 sd x y n t)
    ⟨S, le_refl _, fun _ i hi => absurd hi (Nat.not_lt_zero i), fun k hk => by cases hk⟩
    fun j hj t ht => edgeStep_any hg hx hy hj ht) fun t ht => joinCuts_any hg hx hy ht

/-- The state before the first element. -/
theorem Status.sane {m1 : Mesh ℝ} (hg : IsGrid w h m0) (S : Status w h m0 sd m0.nElements m1) : Sane w h ml m0 sd { bnd := new, mesh := m1 } := by
  refine ⟨S.annot, fun i nd hi => ?_, rfl, fun k pt hk => (by cases hk), rfl, fun s hs => (by cases hs), ?_, ?_⟩
  · obtain ⟨a, ha, _⟩ := S.annot.node i nd hi
    have := S.node i a ha
    change m1.nodes[i]? = some nd at hi
    rw [hi] at this
    cases this
    exact nodeStatus_real _
  · simp [new]
  · intro x y el hx hy hel
    obtain ⟨a, ha⟩ := hg.elem_exists hx hy
    have := S.elem x y a hx hy ha
    change m1.elements[_]? = some el at hel
    rw [hel, if_pos (hg.elt_of_some ha)] at this
    cases this
    left
    show elemStatus (cornerStatus w sd x y) = _
    unfold cornerStatus stat side corners onGrid
    simp only [List.map_cons, List.map_nil, nodeStatus_real, cornerAt]

theorem initialisePoint_fresh {m : Mesh ℝ} {c : Coord ℝ} {pt : BoundaryPoint ℝ} (e : initialisePoint ml m c = .ok pt) :
    Fresh pt ∧ pt.length = 0 := by
  unfold initialisePoint at e
  cases hc : m.getClosestNode c with
  | error _ => rw [hc] at e; cases e
  | ok n =>
    rw [hc] at e
    simp only [bind, Except.bind] at e
    cases hr : rd m.nodes n with
    | error _ => rw [hr] at e; cases e
    | ok nd =>
      rw [hr] at e
      cases e
      exact ⟨⟨rfl, rfl, rfl, rfl⟩, by simp [emptyPoint]⟩

theorem SegOk.lt {f : Nat → Nat → ℝ} {pts : List (BoundaryPoint ℝ)} {s : BoundarySegment ℝ} (hs : SegOk w h f pts s) :
    s.start < pts.length ∧ s.stop < pts.length := by
  obtain ⟨_, a, b, h1, h2, _⟩ := hs
  exact ⟨(List.getElem?_eq_some_iff.1 h1).1, (List.getElem?_eq_some_iff.1 h2).1⟩

/-- What a call of `discretise` has made, whatever the values. -/
structure Made (w h : Nat) (L : LevelSet ℝ) (sd : List ℝ) (b : Boundary ℝ) (L' : LevelSet ℝ) : Prop where
  level : L' = { L with mesh := L'.mesh }
  sane : ∃ W, Sane w h L.moveLimit L.mesh sd W ∧ L'.mesh = W.mesh ∧ b = { W.bnd with points := b.points } ∧
    Links W.bnd.points b.points (fun j => upTo (lensAt W.bnd.segments j) W.bnd.segments.length)
      (fun j => upTo (segsAt W.bnd.segments j) W.bnd.segments.length) (fun j => upTo (nbrsAt W.bnd.segments j) W.bnd.segments.length)

theorem discretise_any {L : LevelSet ℝ} (hg : IsGrid w h L.mesh)
    (hsd : L.mesh.nNodes ≤ (if isTarget then L.target else L.signedDistance).length) :
    wp (discretise L isTarget) (fun r => Made w h L (if isTarget then L.target else L.signedDistance) r.1 r.2) anyErr := by
  generalize hs : (if isTarget then L.target else L.signedDistance) = sd at hsd
  unfold discretise
  rw [hs, wp_bind]
  refine wp_mono (computeMeshStatus_spec hg hsd) (fun m1 S => ?_) fun _ h => h.elim
  rw [wp_bind]
  refine wp_imp (wp_forN (E := anyErr) (fun _ (W : Work ℝ) => Sane w h L.moveLimit L.mesh sd W) (S.sane hg) fun e he W hW => ?_) fun W hW => ?_
  · rw [S.annot.nElements] at he
    obtain ⟨x, y, hx, hy, rfl⟩ := hg.elem_index he
    exact element_any hg hx hy hW
  · rw [wp_bind]
    refine wp_mono (computePointLengths_spec hW.nSegments (fun g hgm => (hW.segs g hgm).lt) fun p hp => ?_) (fun b hb => ?_) fun _ _ => trivial
    · obtain ⟨k, hk⟩ := List.mem_iff_getElem?.1 hp
      obtain ⟨_, _, _, e⟩ := hW.pts k p hk
      exact (initialisePoint_fresh e).1
    · obtain ⟨pts, rfl, hl⟩ := hb
      rw [wp_pure]
      exact ⟨rfl, W, hW, rfl, rfl, hl⟩

end

end Boundary

end Slsm
