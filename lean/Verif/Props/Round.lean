import Verif.Proof.RoundTame
import Verif.Proof.RoundHole
import Verif.Lib.Binary64
import Verif.Proof.Program

/-! # Discretisation in rounded arithmetic

For every rounding that meets the conditions of `Verif/Spec/Round.lean`, so for IEEE binary64 (`binary64`, `Verif/Lib/Binary64.lean`) as long
as nothing overflows. -/

namespace Slsm

open LevelSet FP Rounding

namespace Boundary

variable {R : Rounding} {w h : Nat} {L L' : LevelSet R.Num} {b : Boundary R.Num} {isTarget : Bool}

/-! ### C93: every call, in rounded arithmetic -/

section
variable (hr : Reachable w h L) (ht : isTarget = true → L.target.length = L.mesh.nNodes) (e : discretise L isTarget = .ok (b, L'))
include hr ht

theorem drawn (e : discretise L isTarget = .ok (b, L')) : Drawn w h L (values L isTarget) b L' := by
  have hv : L.mesh.nNodes ≤ (values L isTarget).length := by
    cases isTarget with
    | true => exact le_of_eq (ht rfl).symm
    | false => exact le_of_eq hr.core.sd.symm
  have := wp_of_ok (discretise_fit (isTarget := isTarget) hr.core.grid hv) e
  exact this

omit ht in
theorem fits53 : (w + 1) * (h + 1) < 2 ^ 53 := by
  have := hr.core.small
  rw [hr.core.grid.nNodes] at this
  omega

theorem point_made (e : discretise L isTarget = .ok (b, L')) {pt : BoundaryPoint R.Num} (hp : pt ∈ b.points) :
    ∃ x y c p0 ls sg nb, x < w ∧ y < h ∧ Spot w (values L isTarget) x y c ∧ initialisePoint L.moveLimit L.mesh c = .ok p0 ∧ Linked p0 pt ls sg nb ∧
      (∀ l ∈ ls, 0 ≤ l.val) := by
  have M := drawn hr ht e
  obtain ⟨W, F, -, hb, Lk⟩ := M.fit
  obtain ⟨k, hk⟩ := List.mem_iff_getElem?.1 hp
  have hlt : k < W.bnd.points.length := by rw [← Lk.len]; exact (List.getElem?_eq_some_iff.1 hk).1
  obtain ⟨q, hq, hl⟩ := Lk.pt k _ (List.getElem?_eq_getElem hlt)
  rw [hk] at hq
  cases hq
  obtain ⟨x, y, c, hx, hy, hc, hi⟩ := F.pts k _ (List.getElem?_eq_getElem hlt)
  refine ⟨x, y, c, _, _, _, _, hx, hy, hc, hi, hl, ?_⟩
  have hs : ∀ n, ∀ l ∈ upTo (lensAt W.bnd.segments k) n, 0 ≤ l.val := by
    intro n
    induction n with
    | zero => intro l h; cases h
    | succ n ih =>
      intro l hl
      rw [upTo, List.mem_append] at hl
      rcases hl with hl | hl
      · exact ih l hl
      · unfold lensAt at hl
        split at hl
        · rename_i g hg
          have hg' := F.segs g (List.mem_of_getElem? hg)
          obtain ⟨a, c, -, -, hlen⟩ := hg'.len
          have : l = g.length := by
            rw [List.mem_append] at hl
            rcases hl with hl | hl <;> split at hl <;> simp at hl <;> exact hl
          rw [this, hlen]
          exact chord_nonneg _ _
        · cases hl
  exact hs _

/-- **C93** (points): in rounded arithmetic, whatever was done to the level set before, every point of a discretised boundary belongs to a
lattice point on the contour or to an edge that the contour cuts (up to the tolerance); it lies on it exactly, so in the domain, within
`(w + h + 4)·2⁻⁵²` of the exact zero of the linear interpolant. -/
theorem C93_points (e : discretise L isTarget = .ok (b, L')) {pt : BoundaryPoint R.Num} (hp : pt ∈ b.points) :
    (∃ p : Place, p.inGrid w h ∧ p.meets R.tol (lay w (values L isTarget)) ∧ p.has pt.coord.x.val pt.coord.y.val ∧
      |pt.coord.x.val - (p.coord (lay w (values L isTarget))).x| ≤ (w + h + 4) / 2 ^ 52 ∧
      |pt.coord.y.val - (p.coord (lay w (values L isTarget))).y| ≤ (w + h + 4) / 2 ^ 52) ∧
    0 ≤ pt.coord.x.val ∧ pt.coord.x.val ≤ w ∧ 0 ≤ pt.coord.y.val ∧ pt.coord.y.val ≤ h ∧ b.nPoints = b.points.length := by
  obtain ⟨x, y, c, p0, ls, sg, nb, hx, hy, hc, hi, hl, -⟩ := point_made hr ht e hp
  obtain ⟨p, hg, -, hs⟩ := spot_sits (fits53 hr) hx hy hc
  obtain ⟨n, nd, -, -, hp0⟩ := initialisePoint_at hi
  have ec : pt.coord = c := by rw [hl.eq, hp0]
  rw [ec]
  obtain ⟨i1, i2, i3, i4⟩ := has_in hg hs.2.1
  obtain ⟨W, F, -, hb, Lk⟩ := (drawn hr ht e).fit
  refine ⟨⟨p, hg, hs⟩, i1, i2, i3, i4, ?_⟩
  rw [hb]
  show W.bnd.nPoints = b.points.length
  rw [F.nPoints, Lk.len]

/-- **C93** (limits): the movement limits of a point are `-moveLimit ≤ negativeLimit ≤ 0` and `positiveLimit = moveLimit`, and following
`negativeLimit` outwards along an axis does not leave the domain (by more than the rounding of the distance to the far edge). -/
theorem C93_limits (e : discretise L isTarget = .ok (b, L')) {pt : BoundaryPoint R.Num} (hp : pt ∈ b.points) :
    pt.positiveLimit = L.moveLimit ∧ -L.moveLimit.val ≤ pt.negativeLimit.val ∧ pt.negativeLimit.val ≤ 0 ∧
    -pt.negativeLimit.val ≤ pt.coord.x.val ∧ -pt.negativeLimit.val ≤ R.rnd (w - pt.coord.x.val) ∧
    -pt.negativeLimit.val ≤ pt.coord.y.val ∧ -pt.negativeLimit.val ≤ R.rnd (h - pt.coord.y.val) := by
  obtain ⟨-, i1, i2, i3, i4, -⟩ := C93_points hr ht e hp
  obtain ⟨x, y, c, p0, ls, sg, nb, hx, hy, hc, hi, hl, -⟩ := point_made hr ht e hp
  obtain ⟨n, nd, -, -, hp0⟩ := initialisePoint_at hi
  have ec : pt.coord = c := by rw [hl.eq, hp0]
  have en : pt.negativeLimit = (maskLimit nd c (edgeLimit L.moveLimit L.mesh.width L.mesh.height c).1).1 := by rw [hl.eq, hp0]
  have ep : pt.positiveLimit = L.moveLimit := by rw [hl.eq, hp0]
  have hm : 0 ≤ L.moveLimit.val := by
    have := (Program.reachable_params hr).2.1
    rw [lt_iff, val_zero] at this
    exact this.le
  have hf := fits53 hr
  rw [hr.core.grid.width, hr.core.grid.height] at en
  rw [ec] at i1 i2 i3 i4 ⊢
  obtain ⟨b1, b2, b3, b4, b5, b6⟩ := edgeLimit_bounds (R := R) (w := w) (h := h) (by nlinarith) (by nlinarith) hm ⟨i1, i2, i3, i4⟩
  obtain ⟨m1, m2⟩ := maskLimit_bounds nd c b2
  rw [ep, en]
  exact ⟨rfl, by linarith, m2, by linarith, by linarith, by linarith, by linarith⟩

/-- **C93** (segments): both ends of a segment are points of the boundary, its element is a cell of the grid, its length is the distance of its
ends up to rounding, and each end is (or has passed the test for the same point as) a point on the contour in the closed cell. -/
theorem C93_segments (e : discretise L isTarget = .ok (b, L')) {s : BoundarySegment R.Num} (hs : s ∈ b.segments) :
    ∃ x y p q, x < w ∧ y < h ∧ s.element = cellNo w x y ∧ b.points[s.start]? = some p ∧ b.points[s.stop]? = some q ∧
      |s.length.val - distance ⟨p.coord.x.val, p.coord.y.val⟩ ⟨q.coord.x.val, q.coord.y.val⟩| ≤
        distance ⟨p.coord.x.val, p.coord.y.val⟩ ⟨q.coord.x.val, q.coord.y.val⟩ / 2 ^ 49 + 1 / 2 ^ 500 ∧
      ∀ pt ∈ [p, q], ∃ (r : Place) (a c : ℝ), r.ofCell x y ∧ r.meets R.tol (lay w (values L isTarget)) ∧ r.has a c ∧
        |a - pt.coord.x.val| < R.tol ∧ |c - pt.coord.y.val| < R.tol := by
  obtain ⟨W, F, -, hb, Lk⟩ := (drawn hr ht e).fit
  have hs' : s ∈ W.bnd.segments := by rw [hb] at hs; exact hs
  obtain ⟨⟨x, y, hx, hy, he, ha, hc⟩, a0, c0, h1, h2, h3⟩ := F.segs s hs'
  obtain ⟨a, ga, la⟩ := Lk.pt _ _ h1
  obtain ⟨c, gc, lc⟩ := Lk.pt _ _ h2
  have ea : a.coord = a0.coord := by rw [la.eq]
  have ecc : c.coord = c0.coord := by rw [lc.eq]
  have key : ∀ {k : Nat} {pt p0 : BoundaryPoint R.Num}, AtSpot w (values L isTarget) x y W.bnd.points k → W.bnd.points[k]? = some p0 →
      pt.coord = p0.coord → ∃ (r : Place) (a c : ℝ), r.ofCell x y ∧ r.meets R.tol (lay w (values L isTarget)) ∧ r.has a c ∧
        |a - pt.coord.x.val| < R.tol ∧ |c - pt.coord.y.val| < R.tol := by
    rintro k pt p0 ⟨d, hd, p1, hp1, hclose⟩ hk hcd
    rw [hk] at hp1
    cases hp1
    obtain ⟨r, -, hrc, hrs⟩ := spot_sits (fits53 hr) hx hy hd
    refine ⟨r, d.x.val, d.y.val, hrc, hrs.1, hrs.2.1, ?_⟩
    rw [hcd]
    rcases hclose with rfl | hclose
    · rw [sub_self, sub_self, abs_zero]; exact ⟨tol_pos, tol_pos⟩
    · rw [isClose_rnd] at hclose
      exact ⟨close_lt hclose.1, close_lt hclose.2⟩
  refine ⟨x, y, a, c, hx, hy, he, ga, gc, ?_, ?_⟩
  · rw [h3, ea, ecc]; exact chord_err _ _
  · intro pt hpt
    simp only [List.mem_cons, List.not_mem_nil, or_false] at hpt
    rcases hpt with rfl | rfl
    · exact key ha h1 ea
    · exact key hc h2 ecc

/-- **C93** (lengths): lengths are not negative, no segment is longer than the boundary, and the length of the boundary is the sum of the lengths of
the segments up to the rounding of the additions. -/
theorem C93_lengths (e : discretise L isTarget = .ok (b, L')) :
    (∀ s ∈ b.segments, 0 ≤ s.length.val ∧ s.length.val ≤ b.length.val) ∧ (∀ pt ∈ b.points, 0 ≤ pt.length.val) ∧
    |b.length.val - (b.segments.map fun s => s.length.val).sum| ≤ b.nSegments * (b.length.val / 2 ^ 51 + 1 / 2 ^ 1074) ∧
    b.nSegments = b.segments.length := by
  obtain ⟨W, F, -, hb, Lk⟩ := (drawn hr ht e).fit
  have hseg : b.segments = W.bnd.segments := by rw [hb]
  have hlen : b.length = W.bnd.length := by rw [hb]
  have hn : b.nSegments = W.bnd.nSegments := by rw [hb]
  have hpos : ∀ v ∈ W.bnd.segments.map fun s => s.length, 0 ≤ v.val := by
    intro v hv
    obtain ⟨s, hs, rfl⟩ := List.mem_map.1 hv
    obtain ⟨-, a, c, -, -, h3⟩ := F.segs s hs
    rw [h3]
    exact chord_nonneg _ _
  have hz : 0 ≤ (nat 0 : R.Num).val := by rw [val_zero]
  obtain ⟨-, f2⟩ := fold_add _ hpos (nat 0) hz
  have f3 := fold_err _ hpos (nat 0) hz
  rw [← F.length] at f2 f3
  refine ⟨fun s hs => ?_, fun pt hp => ?_, ?_, ?_⟩
  · rw [hseg] at hs
    rw [hlen]
    exact ⟨hpos _ (List.mem_map_of_mem hs), f2 _ (List.mem_map_of_mem hs)⟩
  · obtain ⟨x, y, c, p0, ls, sg, nb, hx, hy, hc, hi, hl, hls⟩ := point_made hr ht e hp
    obtain ⟨n, nd, -, -, hp0⟩ := initialisePoint_at hi
    have h0 : p0.length = nat 0 := by rw [hp0]; rfl
    have : pt.length = ls.foldl (fun s v => s +. lit 1 2 *. v) p0.length := by rw [hl.eq]
    rw [this, h0]
    exact hz.trans (fold_half ls hls (nat 0) hz)
  · rw [val_zero, zero_add, List.length_map, List.map_map] at f3
    rw [hlen, hseg, hn, F.nSegments]
    exact f3
  · rw [hn, hseg, F.nSegments]

end

/-! ### C94: what the exact results become -/

/-- What is known about both runs. -/
theorem runs {far : Nat → Nat → Prop} (C : Clear w h L isTarget) (hF : FarOk w h (sideMap w L isTarget) far) (e : discretise L isTarget = .ok (b, L')) :
    ∃ b' M', Tame w h (stand w h L isTarget far) isTarget ∧ discretise (stand w h L isTarget far) isTarget = .ok (b', M') ∧
      List.Forall₂ (PtSim (Pos w h (values L isTarget) (level w (stand w h L isTarget far) isTarget))) b.points b'.points ∧
      List.Forall₂ SegSim b.segments b'.segments := by
  obtain ⟨⟨b', M'⟩, e', O⟩ := Lock.ok_left (stand_lock C.toDistinct hF) e
  exact ⟨b', M', stand_tame C hF, e', O.bnd.points, O.bnd.segs⟩

/-- **C94** (safety): if the contour keeps `2·10⁻⁶` away from the ends of the edges that it cuts, the call returns under the conditions of
`C41_safe_partial`. -/
theorem C94_safe (C : Clear w h L isTarget) : ∃ b L', discretise L isTarget = .ok (b, L') := by
  obtain ⟨b', M', e'⟩ := C41_safe_partial (stand_tame C (nowhere_ok (w := w) (h := h)))
  obtain ⟨⟨b, L'⟩, e, -⟩ := Lock.ok_right (stand_lock C.toDistinct nowhere_ok) e'
  exact ⟨b, L', e⟩

/-- **C94** (exact condition): when the lattice points on the contour and the ends of cut edges are active or masked, the call returns iff the
lattice points on the contour are tidy; otherwise it accesses memory out of range. -/
theorem C94_exact_condition (D : Distinct w h L isTarget) (hS : isTarget = true ∨ Shown w h L isTarget) :
    ((∃ b L', discretise L isTarget = .ok (b, L')) ↔ Tidy w h (R.sides (lay w (values L isTarget)))) ∧
    (¬ Tidy w h (R.sides (lay w (values L isTarget))) → discretise L isTarget = .error .ub) := by
  have hF := unseen_ok hS
  have K := stand_lock D hF
  obtain ⟨c1, c2⟩ := C41_exact_condition_partial (stand_ready D) (stand_gentle D.grid hF) (stand_near D.grid hS)
  have T := (stand_sides (isTarget := isTarget) (far := unseen w L isTarget) D.grid).tidy_iff
  refine ⟨⟨fun ⟨b, L', e⟩ => ?_, fun hT => ?_⟩, fun hT => ?_⟩
  · obtain ⟨r, e', -⟩ := Lock.ok_left K e
    exact T.2 (c1.1 ⟨r.1, r.2, e'⟩)
  · obtain ⟨b', M', e'⟩ := c1.2 (T.1 hT)
    obtain ⟨r, e, -⟩ := Lock.ok_right K e'
    exact ⟨r.1, r.2, e⟩
  · exact Lock.error_right K (c2 fun h => hT (T.2 h))

/-- **C94** (watertight): every cut edge carries exactly one point, within rounding error of the exact zero; one segment ends there if the edge is
on the edge of the domain, otherwise two; the lists of segments and neighbours of the point are right. -/
theorem C94_watertight (C : Clear w h L isTarget) (e : discretise L isTarget = .ok (b, L')) {p : Place}
    (hp : CutEdge w h (R.sides (lay w (values L isTarget))) p) :
    ∃ (k : Nat) (pt : BoundaryPoint R.Num), b.points[k]? = some pt ∧ p.has pt.coord.x.val pt.coord.y.val ∧
      |pt.coord.x.val - (p.coord (lay w (values L isTarget))).x| ≤ (w + h + 4) / 2 ^ 52 ∧
      |pt.coord.y.val - (p.coord (lay w (values L isTarget))).y| ≤ (w + h + 4) / 2 ^ 52 ∧
      (∀ (k' : Nat) (pt' : BoundaryPoint R.Num), b.points[k']? = some pt' → p.has pt'.coord.x.val pt'.coord.y.val → k' = k) ∧
      ((p.onRim w h → (segmentsOf b k).length = 1) ∧ (¬ p.onRim w h → (segmentsOf b k).length = 2)) ∧
      pt.segments.take pt.nSegments = segmentsOf b k ∧ pt.nSegments = (segmentsOf b k).length ∧
      pt.neighbours.take pt.nNeighbours = neighboursOf b k ∧ pt.nNeighbours = pt.nSegments := by
  obtain ⟨b', M', T, e', hpt, hsg⟩ := runs C nowhere_ok e
  have hp' := (stand_sides (isTarget := isTarget) (far := nowhere) C.grid).cutEdge.1 hp
  obtain ⟨k, q, g1, g2, g3, g4, g5, g6, g7, g8⟩ := C39_watertight T e' hp'
  rcases pairs_get hpt k with ⟨-, hn⟩ | ⟨pt, q', h1, h2, S⟩
  · rw [g1] at hn; cases hn
  rw [g1] at h2
  cases h2
  obtain ⟨r, r1, r2, r3, r4, r5⟩ := S.coord
  have hw := stand_within (isTarget := isTarget) (far := nowhere) C.grid nowhere_ok p hp.1 hp'.2.1
  have er : r = p := by
    rw [g2] at r5
    exact Place.within_unique (by norm_num) (by norm_num) r5 hw
  subst er
  refine ⟨k, pt, h1, r2.2.1, r2.2.2.1, r2.2.2.2, ?_, ?_, ?_, ?_, ?_, ?_⟩
  · intro k' pt' hk' hh
    rcases pairs_get hpt k' with ⟨hn, -⟩ | ⟨pa, qa, j1, j2, S'⟩
    · rw [hk'] at hn; cases hn
    rw [hk'] at j1
    cases j1
    obtain ⟨s, s1, s2, s3, s4, s5⟩ := S'.coord
    have es : s = r := edge_unique (by norm_num) hp hh (meets_onContour.1 s2.1) s3
    exact g3 k' qa j2 (by rw [s4, es])
  · rw [sim_segmentsOf hsg]; exact g4
  · rw [S.segments, S.nSegments, sim_segmentsOf hsg]; exact g5
  · rw [S.nSegments, sim_segmentsOf hsg]; exact g6
  · rw [S.neighbours, S.nNeighbours, sim_neighboursOf hsg]; exact g7
  · rw [S.nNeighbours, S.nSegments]; exact g8

/-- **C94** (lattice points): a lattice point on the contour carries a point iff segments end there, and then exactly one point with exactly these
segments. -/
theorem C94_lattice (C : Clear w h L isTarget) (hS : isTarget = true ∨ Shown w h L isTarget) (e : discretise L isTarget = .ok (b, L'))
    {x y : Nat} (hx : x ≤ w) (hy : y ≤ h) (hc : |lay w (values L isTarget) x y| < R.tol) :
    ((∃ pt ∈ b.points, pt.coord.x.val = x ∧ pt.coord.y.val = y) ↔ 0 < latticeEnds w h (R.sides (lay w (values L isTarget))) x y) ∧
    ∀ (k : Nat) (pt : BoundaryPoint R.Num), b.points[k]? = some pt → pt.coord.x.val = x → pt.coord.y.val = y →
      (segmentsOf b k).length = latticeEnds w h (R.sides (lay w (values L isTarget))) x y ∧
      pt.nSegments = (segmentsOf b k).length ∧ pt.segments.take pt.nSegments = segmentsOf b k ∧
      pt.nNeighbours = pt.nSegments ∧ pt.neighbours.take pt.nNeighbours = neighboursOf b k ∧
      ∀ (k' : Nat) (pt' : BoundaryPoint R.Num), b.points[k']? = some pt' → pt'.coord.x.val = x → pt'.coord.y.val = y → k' = k := by
  have hF := unseen_ok hS
  obtain ⟨b', M', T, e', hpt, hsg⟩ := runs C hF e
  have SS := stand_sides (isTarget := isTarget) (far := unseen w L isTarget) C.grid
  have hcs : nodeSide (R.sides (lay w (values L isTarget)) x y) = .boundary := by rw [sides_side]; exact (status_boundary _).2 hc
  have hb : nodeSide (level w (stand w h L isTarget (unseen w L isTarget)) isTarget x y) = .boundary := by
    rw [← SS x y hx hy]; exact hcs
  obtain ⟨c1, c2⟩ := C39_lattice T (stand_near C.grid hS) e' hx hy hb
  rw [← SS.latticeEnds hx hy] at c1 c2
  have same : ∀ {k : Nat} {pt : BoundaryPoint R.Num} {q : BoundaryPoint ℝ}, b.points[k]? = some pt → b'.points[k]? = some q →
      ((pt.coord.x.val = x ∧ pt.coord.y.val = y) ↔ q.coord = ⟨x, y⟩) := by
    intro k pt q hk hq
    rcases pairs_get hpt k with ⟨hn, -⟩ | ⟨pa, qa, j1, j2, S⟩
    · rw [hk] at hn; cases hn
    rw [hk] at j1
    rw [hq] at j2
    cases j1
    cases j2
    obtain ⟨s, s1, s2, s3, s4, s5⟩ := S.coord
    constructor
    · rintro ⟨k1, k2⟩
      have : s = .node x y := Place.within_unique (by norm_num) (by norm_num) s3 (show Place.within _ _ _ (.node x y) from ⟨k1, k2⟩)
      rw [s4, this]
      rfl
    · intro hq
      rw [hq] at s5
      have : s = .node x y := Place.within_unique (by norm_num) (by norm_num) s5 (show Place.within _ _ _ (.node x y) from ⟨rfl, rfl⟩)
      subst this
      exact s3
  have twin : ∀ {k : Nat} {pt : BoundaryPoint R.Num}, b.points[k]? = some pt → ∃ q, b'.points[k]? = some q ∧ PtSim (Pos w h (values L isTarget)
      (level w (stand w h L isTarget (unseen w L isTarget)) isTarget)) pt q := by
    intro k pt hk
    rcases pairs_get hpt k with ⟨hn, -⟩ | ⟨pa, qa, j1, j2, S⟩
    · rw [hk] at hn; cases hn
    rw [hk] at j1
    cases j1
    exact ⟨qa, j2, S⟩
  refine ⟨?_, ?_⟩
  · rw [← c1]
    constructor
    · rintro ⟨pt, hm, k1, k2⟩
      obtain ⟨k, hk⟩ := List.mem_iff_getElem?.1 hm
      obtain ⟨q, hq, -⟩ := twin hk
      exact ⟨q, List.mem_of_getElem? hq, (same hk hq).1 ⟨k1, k2⟩⟩
    · rintro ⟨q, hm, hq⟩
      obtain ⟨k, hk⟩ := List.mem_iff_getElem?.1 hm
      rcases pairs_get hpt k with ⟨-, hn⟩ | ⟨pa, qa, j1, j2, S⟩
      · rw [hk] at hn; cases hn
      exact ⟨pa, List.mem_of_getElem? j1, (same j1 hk).2 hq⟩
  · intro k pt hk k1 k2
    obtain ⟨q, hq, S⟩ := twin hk
    obtain ⟨d1, d2, d3, d4, d5, d6⟩ := c2 k q hq ((same hk hq).1 ⟨k1, k2⟩)
    rw [sim_segmentsOf hsg, sim_neighboursOf hsg, S.nSegments, S.segments, S.nNeighbours, S.neighbours]
    refine ⟨d1, d2, d3, d4, d5, fun k' pt' hk' k1' k2' => ?_⟩
    obtain ⟨q', hq', -⟩ := twin hk'
    exact d6 k' q' hq' ((same hk' hq').1 ⟨k1', k2'⟩)

/-- **C94** (closed curves): if the contour passes on no lattice point, exactly two segments end at every point inside the domain, exactly one at every
point on the edge of the domain, the number of points on the edge is even, and the points are pairwise different. -/
theorem C94_closed_curves (C : Clear w h L isTarget) (G : ∀ x y, x ≤ w → y ≤ h → R.tol ≤ |lay w (values L isTarget) x y|)
    (e : discretise L isTarget = .ok (b, L')) :
    (∀ (k : Nat) (pt : BoundaryPoint R.Num), b.points[k]? = some pt →
      (distToEdge w h ⟨pt.coord.x.val, pt.coord.y.val⟩ = 0 → (segmentsOf b k).length = 1) ∧
      (distToEdge w h ⟨pt.coord.x.val, pt.coord.y.val⟩ ≠ 0 → (segmentsOf b k).length = 2) ∧
      ∀ (k' : Nat) (pt' : BoundaryPoint R.Num), b.points[k']? = some pt' → pt'.coord.x.val = pt.coord.x.val → pt'.coord.y.val = pt.coord.y.val → k' = k) ∧
    Even (b.points.countP fun pt => decide (distToEdge w h ⟨pt.coord.x.val, pt.coord.y.val⟩ = 0)) := by
  obtain ⟨b', M', T, e', hpt, hsg⟩ := runs C nowhere_ok e
  have SS := stand_sides (isTarget := isTarget) (far := nowhere) C.grid
  have hG : Generic w h (R.sides (lay w (values L isTarget))) := by
    intro x y hx hy hb
    rw [sides_side] at hb
    exact absurd ((status_boundary _).1 hb) (not_lt.2 (G x y hx hy))
  have hG' := SS.generic.1 hG
  have rim : ∀ (pt : BoundaryPoint R.Num) (q : BoundaryPoint ℝ), PtSim (Pos w h (values L isTarget) (level w (stand w h L isTarget nowhere) isTarget)) pt q →
      (distToEdge w h ⟨pt.coord.x.val, pt.coord.y.val⟩ = 0 ↔ distToEdge w h q.coord = 0) := by
    intro pt q S
    obtain ⟨s, s1, s2, s3, s4, s5⟩ := S.coord
    have hn : ∀ x y, s ≠ .node x y := by
      rintro x y rfl
      have := s1 (x, y) (by simp [Place.ends])
      exact hG x y this.1 this.2 (meets_onContour.1 s2.1)
    rw [rim_iff (by norm_num) s1 hn s3]
    exact (rim_iff (by norm_num) s1 hn s5).symm
  refine ⟨fun k pt hk => ?_, ?_⟩
  · rcases pairs_get hpt k with ⟨hn, -⟩ | ⟨pa, q, j1, j2, S⟩
    · rw [hk] at hn; cases hn
    rw [hk] at j1
    cases j1
    obtain ⟨c1, c2, c3⟩ := C39_closed_curves T hG' e' j2
    rw [sim_segmentsOf hsg, Ne, rim _ _ S]
    refine ⟨c1, c2, fun k' pt' hk' k1 k2 => ?_⟩
    rcases pairs_get hpt k' with ⟨hn, -⟩ | ⟨pb, q', i1, i2, S'⟩
    · rw [hk'] at hn; cases hn
    rw [hk'] at i1
    cases i1
    refine c3 k' q' i2 ?_
    obtain ⟨s, s1, s2, s3, s4, s5⟩ := S.coord
    obtain ⟨r, r1, r2, r3, r4, r5⟩ := S'.coord
    rw [k1, k2] at r3
    rw [s4, r4, Place.within_unique (by norm_num) (by norm_num) r3 s3]
  · have := C39_even_ends T hG' e'
    suffices b.points.countP (fun pt => decide (distToEdge w h ⟨pt.coord.x.val, pt.coord.y.val⟩ = 0)) =
        b'.points.countP fun pt => decide (distToEdge w h pt.coord = 0) by rw [this]; assumption
    clear e e' hsg
    generalize b.points = l at hpt
    generalize b'.points = l' at hpt
    induction hpt with
    | nil => rfl
    | @cons a q l l' S _ ih =>
      rw [List.countP_cons, List.countP_cons, ih]
      congr 1
      have := rim _ _ S
      by_cases hd : distToEdge w h q.coord = 0
      · rw [decide_eq_true (this.2 hd), decide_eq_true hd]
      · rw [decide_eq_false fun h => hd (this.1 h), decide_eq_false hd]

/-- **C94** (segments): the ends of a segment are different points, both in the closed cell of the segment. -/
theorem C94_segments (C : Clear w h L isTarget) (e : discretise L isTarget = .ok (b, L')) {s : BoundarySegment R.Num} (hs : s ∈ b.segments) :
    ∃ x y, x < w ∧ y < h ∧ s.element = cellNo w x y ∧ s.start ≠ s.stop ∧ ∀ k ∈ [s.start, s.stop], ∃ pt, b.points[k]? = some pt ∧
      (∃ p : Place, p.ofCell x y ∧ p.meets R.tol (lay w (values L isTarget)) ∧ p.has pt.coord.x.val pt.coord.y.val) ∧
      x ≤ pt.coord.x.val ∧ pt.coord.x.val ≤ x + 1 ∧ y ≤ pt.coord.y.val ∧ pt.coord.y.val ≤ y + 1 := by
  obtain ⟨b', M', T, e', hpt, hsg⟩ := runs C nowhere_ok e
  obtain ⟨i, hi⟩ := List.mem_iff_getElem?.1 hs
  rcases pairs_get hsg i with ⟨hn, -⟩ | ⟨sa, t, j1, j2, S⟩
  · rw [hi] at hn; cases hn
  rw [hi] at j1
  cases j1
  obtain ⟨x, y, hx, hy, he, hne, hk⟩ := C38_segments_exact T e' (List.mem_of_getElem? j2)
  rw [S.start, S.stop, S.element]
  refine ⟨x, y, hx, hy, he, hne, fun k hk' => ?_⟩
  obtain ⟨q, hq, ⟨p, p1, p2, p3⟩, -⟩ := hk k hk'
  rcases pairs_get hpt k with ⟨-, hn⟩ | ⟨pt, q', i1, i2, P⟩
  · rw [hq] at hn; cases hn
  rw [hq] at i2
  cases i2
  obtain ⟨r, r1, r2, r3, r4, r5⟩ := P.coord
  have hg : p.inGrid w h := fun z hz => by
    obtain ⟨z1, z2, z3, z4⟩ := p1 z hz
    exact ⟨by omega, by omega⟩
  have hw := stand_within (isTarget := isTarget) (far := nowhere) C.grid nowhere_ok p hg p2
  rw [p3] at r5
  have er : r = p := Place.within_unique (by norm_num) (by norm_num) r5 hw
  subst er
  exact ⟨pt, i1, ⟨r, p1, r2.1, r2.2.1⟩, has_cell p1 r2.2.1⟩

/-- **C94** (the same as exact arithmetic): if moreover no value lies between the rounded tolerance and `10⁻⁶`, and in saddle cells (corners
alternately inside and outside) the sum of the corner values is not lost in rounding, the call returns iff it would in exact arithmetic on the same
numbers, with the same points, segments, links and statuses, the points within `(w + h + 4)·2⁻⁵²` of the exact ones. -/
theorem C94_as_exact (D : Distinct w h L isTarget)
    (hv : ∀ x y, x ≤ w → y ≤ h → (|lay w (values L isTarget) x y| < R.tol ↔ |lay w (values L isTarget) x y| < 1 / 10 ^ 6))
    (hs : ∀ x y, x < w → y < h → saddle (R := R) (lay w (values L isTarget)) x y →
      let f := lay w (values L isTarget)
      (|f x y| + |f (x + 1) y| + |f (x + 1) (y + 1)| + |f x (y + 1)|) / 2 ^ 50 < |f x y + f (x + 1) y + f (x + 1) (y + 1) + f x (y + 1)|) :
    (∀ er, discretise L isTarget = .error er ↔ discretise (exact L) isTarget = .error er) ∧
    ∀ b L', discretise L isTarget = .ok (b, L') → ∃ b' M', discretise (exact L) isTarget = .ok (b', M') ∧ Twin w h b b' ∧
      (L'.mesh.nodes.map fun nd => nd.status) = M'.mesh.nodes.map (fun nd => nd.status) ∧
      (L'.mesh.elements.map fun el => el.status) = M'.mesh.elements.map fun el => el.status := by
  have K := discretise_lock (exact_alike D hv hs)
  refine ⟨fun er => ?_, fun b L' e => ?_⟩
  · constructor
    · intro e
      rw [e] at K
      cases e' : discretise (exact L) isTarget with
      | ok _ => rw [e'] at K; exact K.elim
      | error x => rw [e'] at K; exact congrArg _ K.symm
    · exact Lock.error_right K
  · obtain ⟨⟨b', M'⟩, e', O⟩ := Lock.ok_left K e
    refine ⟨b', M', e', ⟨?_, ?_, ⟨O.bnd.nPoints, O.bnd.nSegments⟩, ?_⟩, ?_, ?_⟩
    · exact pairs_map O.bnd.segs fun a c S => by rw [S.start, S.stop, S.element]
    · exact pairs_map O.bnd.points fun a c S => by rw [S.nSegments, S.segments, S.nNeighbours, S.neighbours]
    · intro k p p' hk hk'
      rcases pairs_get O.bnd.points k with ⟨hn, -⟩ | ⟨pa, q, j1, j2, S⟩
      · rw [hk] at hn; cases hn
      rw [hk] at j1
      rw [hk'] at j2
      cases j1
      cases j2
      obtain ⟨s, s1, s2, s3, s4, s5⟩ := S.coord
      rw [s4, exact_coord s]
      exact ⟨s2.2.2.1, s2.2.2.2⟩
    · exact pairs_map O.nodes fun a c S => S.status
    · exact pairs_map O.elems fun a c S => S.status

/-- **C94** (holes): a level set constructed from holes well inside the domain (overlapping or not), whose rims keep `4·10⁻⁶` away from the lattice
points, meets the conditions, so its boundary is discretised. -/
theorem C94_holes {holes : List (Hole R.Num)} {moveLimit : R.Num} {bandWidth : Nat} {f : Bool} (hw : 2 ≤ w) (hh : 2 ≤ h)
    (hw2 : w ≤ 2 ^ 20) (hh2 : h ≤ 2 ^ 20) (hN : (w + 1) * (h + 1) < 2 ^ 31) (hb : bandWidth < 2 ^ 32)
    (e : LevelSet.new w h (.holes holes) moveLimit bandWidth f = .ok L) (S : Separate w h (holes.map holeVal)) :
    Clear w h L false ∧ (f = false → Shown w h L false) ∧ ∃ b L', discretise L false = .ok (b, L') := by
  obtain ⟨h1, h2⟩ := separate_clear hw hh hw2 hh2 hN hb e S
  exact ⟨h1, h2, C94_safe h1⟩

/-! ### C95: initial values in rounded arithmetic -/

/-- **C95**: in rounded arithmetic the value at a lattice point of a level set constructed from holes is within `(d + |r|)·2⁻⁴⁸ + 2⁻⁷⁹` (for the
largest `d + |r|`: distance to the centre plus radius) of the smallest among its distance to the domain edge and its distances to the holes. -/
theorem C95_holes {holes : List (Hole R.Num)} {moveLimit : R.Num} {bandWidth : Nat} {f : Bool} (hw : 1 ≤ w) (hh : 1 ≤ h)
    (hN : (w + 1) * (h + 1) < 2 ^ 31) (hb : bandWidth < 2 ^ 32) (e : LevelSet.new w h (.holes holes) moveLimit bandWidth f = .ok L)
    {x y : Nat} (hx : x ≤ w) (hy : y ≤ h) {E : ℝ} (h0 : 0 ≤ E)
    (hE : ∀ c ∈ holes.map holeVal, (Slsm.distance c.coord (lattice x y) + |c.r|) / 2 ^ 48 + 1 / 2 ^ 79 ≤ E) :
    ∃ v, IsLeast ({(edgeDist w h x y : ℝ)} ∪ {v | ∃ c ∈ holes.map holeVal, v = Slsm.distance c.coord (lattice x y) - c.r}) v ∧
      |lay w L.signedDistance x y - v| ≤ E := by
  obtain ⟨M, e'⟩ := exact_holes (R := R) hw hh hN holes f
  exact ⟨_, C23_holes_exact hw hh hN (by norm_num) e' hx hy, holes_near hw hh hN hb e (by norm_num) e' hx hy h0 fun c hc =>
    hE _ (List.mem_map_of_mem hc)⟩

/-! ### A case in IEEE binary64 -/

/-- The half `n/2` in binary64. -/
noncomputable def halfNum (n : ℕ) (hn : n ≤ 2 ^ 53) : binary64.Num := ⟨n / 2, binary64.half n hn⟩

/-- A hole of radius `5/2` in the middle of a domain of size `10×10`. -/
noncomputable def disc64 : Hole binary64.Num := ⟨⟨halfNum 10 (by norm_num), halfNum 10 (by norm_num)⟩, halfNum 5 (by norm_num)⟩

theorem disc64_separate : Separate 10 10 ([disc64].map holeVal) := by
  have hd : ([disc64].map holeVal) = [⟨⟨5, 5⟩, 5 / 2⟩] := by
    simp only [List.map_cons, List.map_nil, holeVal, disc64, halfNum]
    norm_num
  rw [hd]
  refine ⟨?_, ?_, ?_⟩
  · simp
  · simp; norm_num
  · simp only [List.mem_singleton, forall_eq]
    intro x y hx hy
    have hz : ∃ n : ℕ, Slsm.distance ⟨5, 5⟩ (lattice x y) = Real.sqrt n := by
      refine ⟨(((5 : ℤ) - x) ^ 2 + (5 - y) ^ 2).toNat, ?_⟩
      unfold Slsm.distance lattice
      congr 1
      have : ((((5 : ℤ) - x) ^ 2 + (5 - y) ^ 2).toNat : ℤ) = (5 - x) ^ 2 + (5 - y) ^ 2 := Int.toNat_of_nonneg (by positivity)
      have h2 := congrArg (fun z : ℤ => (z : ℝ)) this
      push_cast at h2
      dsimp only
      rw [← h2]
    obtain ⟨n, hn⟩ := hz
    rw [hn]
    rcases Nat.lt_or_ge n 7 with h | h
    · have h6 : (n : ℝ) ≤ 6 := by exact_mod_cast Nat.lt_succ_iff.1 h
      have : Real.sqrt n ≤ 2.45 := Real.sqrt_le_iff.2 ⟨by norm_num, by norm_num; linarith⟩
      rw [abs_of_neg (by linarith)]
      linarith
    · have h7 : (7 : ℝ) ≤ n := by exact_mod_cast h
      have : 2.6 ≤ Real.sqrt n := Real.le_sqrt_of_sq_le (by norm_num; linarith)
      rw [abs_of_pos (by linarith)]
      linarith

/-- In binary64 the level set with this hole is constructed, its boundary is discretised, and the conditions of C93, C94 and C95 hold. -/
theorem disc64_case : ∃ (L : LevelSet binary64.Num) (b : Boundary binary64.Num) (L' : LevelSet binary64.Num),
    LevelSet.new 10 10 (.holes [disc64]) (halfNum 1 (by norm_num)) 6 false = .ok L ∧ Reachable 10 10 L ∧ Clear 10 10 L false ∧
    Shown 10 10 L false ∧ discretise L false = .ok (b, L') := by
  have hb : 6 < 2 ^ 32 := by norm_num
  obtain ⟨L, e⟩ := (C22_accepts_iff (D := binary64.Num) (w := 10) (h := 10) (by norm_num) (by norm_num) (by norm_num) (.holes [disc64]) (by simp)
    (halfNum 1 (by norm_num)) 6 hb false).2.2 ⟨by norm_num, by rw [lt_iff, val_zero]; simp [halfNum], by
      rw [lt_iff, val_one]; simp only [halfNum]; norm_num, fun h => by cases h⟩
  obtain ⟨h1, h2, b, L', h3⟩ := C94_holes (by norm_num) (by norm_num) (by norm_num) (by norm_num) (by norm_num) hb e disc64_separate
  exact ⟨L, b, L', e, .new (by norm_num) (by norm_num) (by norm_num) hb e, h1, h2 rfl, h3⟩

/-- An edge that this hole cuts. -/
example : ∃ L : LevelSet binary64.Num, LevelSet.new 10 10 (.holes [disc64]) (halfNum 1 (by norm_num)) 6 false = .ok L ∧
    CutEdge 10 10 (binary64.sides (lay 10 L.signedDistance)) (.ver 5 7) := by
  obtain ⟨L, -, -, e, -⟩ := disc64_case
  refine ⟨L, e, ?_⟩
  have hb : 6 < 2 ^ 32 := by norm_num
  obtain ⟨M, e'⟩ := exact_holes (R := binary64) (w := 10) (h := 10) (by norm_num) (by norm_num) (by norm_num) [disc64] false
  have hd : ([disc64].map holeVal) = [⟨⟨5, 5⟩, 5 / 2⟩] := by
    simp only [List.map_cons, List.map_nil, holeVal, disc64, halfNum]
    norm_num
  have S := separate_sides (w := 10) (h := 10) (by norm_num) (by norm_num) (by norm_num) (by norm_num) (by norm_num) hb e disc64_separate (by norm_num) e'
  rw [S.cutEdge]
  have v7 := C23_holes_exact (w := 10) (h := 10) (by norm_num) (by norm_num) (by norm_num) (by norm_num) e' (x := 5) (y := 7) (by norm_num) (by norm_num)
  have v8 := C23_holes_exact (w := 10) (h := 10) (by norm_num) (by norm_num) (by norm_num) (by norm_num) e' (x := 5) (y := 8) (by norm_num) (by norm_num)
  rw [hd] at v7 v8
  have d7 : Slsm.distance ⟨5, 5⟩ (lattice 5 7) = 2 := by
    unfold Slsm.distance lattice
    rw [show (2 : ℝ) = Real.sqrt (2 ^ 2) by rw [Real.sqrt_sq]; norm_num]
    norm_num
  have d8 : Slsm.distance ⟨5, 5⟩ (lattice 5 8) = 3 := by
    unfold Slsm.distance lattice
    rw [show (3 : ℝ) = Real.sqrt (3 ^ 2) by rw [Real.sqrt_sq]; norm_num]
    norm_num
  have h7 : level 10 M false 5 7 ≤ -(1 / 2) := v7.2 (.inr ⟨_, List.mem_singleton.2 rfl, by rw [d7]; norm_num⟩)
  have h8 : 1 / 2 ≤ level 10 M false 5 8 := by
    rcases v8.1 with h | ⟨c, hc, h⟩
    · have h' : level 10 M false 5 8 = _ := h
      rw [h']
      norm_num [edgeDist]
    · have h' : level 10 M false 5 8 = _ := h
      rw [List.mem_singleton] at hc
      rw [h', hc, d8]
      norm_num
  refine ⟨?_, ?_, fun x y h => by cases h⟩
  · intro q hq
    simp only [Place.ends, List.mem_cons, List.not_mem_nil, or_false] at hq
    rcases hq with rfl | rfl <;> norm_num
  · exact .inr ⟨nodeSide_outside.2 (by norm_num; linarith), nodeSide_inside.2 (by norm_num; linarith)⟩

/-- For every pattern of lattice points a target with value `1` on the pattern and `-1/2` elsewhere meets the conditions of all parts of C94. -/
theorem pattern_case {L : LevelSet binary64.Num} (hr : Reachable w h L) (s : Nat → Prop) [DecidablePred s] :
    let T : LevelSet binary64.Num := { L with target := (List.range L.mesh.nNodes).map fun i => if s i then FP.nat 1 else FP.neg (halfNum 1 (by norm_num)) }
    Clear w h T true ∧ (∀ x y, x ≤ w → y ≤ h → binary64.tol ≤ |lay w (values T true) x y|) ∧
    (∀ x y, x ≤ w → y ≤ h → (|lay w (values T true) x y| < binary64.tol ↔ |lay w (values T true) x y| < 1 / 10 ^ 6)) ∧
    ∀ x y, x < w → y < h → saddle (R := binary64) (lay w (values T true)) x y →
      let f := lay w (values T true)
      (|f x y| + |f (x + 1) y| + |f (x + 1) (y + 1)| + |f x (y + 1)|) / 2 ^ 50 < |f x y + f (x + 1) y + f (x + 1) (y + 1) + f x (y + 1)| := by
  intro T
  have two : ∀ {x y : Nat}, x ≤ w → y ≤ h → lay w (values T true) x y = 1 ∨ lay w (values T true) x y = -(1 / 2) := by
    intro x y hx hy
    unfold lay values
    rw [if_pos rfl]
    dsimp only [T]
    rw [vals_map_range _ (by rw [hr.core.grid.nNodes]; exact nodeNo_lt hx hy)]
    split_ifs
    · left; exact val_one
    · right; simp [halfNum]
  have ht := tol_near (R := binary64)
  have big : ∀ x y, x ≤ w → y ≤ h → 1 / 2 ≤ |lay w (values T true) x y| := by
    intro x y hx hy
    rcases two hx hy with e | e <;> rw [e] <;> norm_num
  have hG : ∀ x y, x ≤ w → y ≤ h → binary64.tol ≤ |lay w (values T true) x y| := by
    intro x y hx hy
    have := big x y hx hy
    norm_num at ht
    linarith
  refine ⟨⟨⟨hr.core.grid, ?_, ?_, ?_⟩, .inl rfl, ?_⟩, hG, ?_, ?_⟩
  · show L.mesh.nNodes ≤ ((List.range L.mesh.nNodes).map _).length
    simp
  · have := hr.core.small
    rw [hr.core.grid.nNodes] at this
    omega
  · rintro p ⟨hp, -, hn⟩
    have key : ∀ {u v : ℝ}, (u = 1 ∨ u = -(1 / 2)) → (v = 1 ∨ v = -(1 / 2)) → 2 / 10 ^ 6 * |u - v| ≤ |u| ∧ 2 / 10 ^ 6 * |u - v| ≤ |v| := by
      rintro u v (rfl | rfl) (rfl | rfl) <;> norm_num [abs_of_pos, abs_of_neg]
    cases p with
    | node x y => exact absurd rfl (hn x y)
    | hor x y =>
      have g1 := hp (x, y) (by simp [Place.ends])
      have g2 := hp (x + 1, y) (by simp [Place.ends])
      exact key (two g1.1 g1.2) (two g2.1 g2.2)
    | ver x y =>
      have g1 := hp (x, y) (by simp [Place.ends])
      have g2 := hp (x, y + 1) (by simp [Place.ends])
      exact key (two g1.1 g1.2) (two g2.1 g2.2)
  · refine Generic.tidy fun x y hx hy hb => ?_
    rw [sides_side] at hb
    exact absurd ((status_boundary _).1 hb) (not_lt.2 (hG x y hx hy))
  · intro x y hx hy
    have h1 := big x y hx hy
    have h2 := hG x y hx hy
    constructor
    · intro h; linarith
    · intro h; norm_num at h; linarith
  · intro x y hx hy hs
    have a1 := two (x := x) (y := y) (by omega) (by omega)
    have a2 := two (x := x + 1) (y := y) (by omega) (by omega)
    have a3 := two (x := x + 1) (y := y + 1) (by omega) (by omega)
    have a4 := two (x := x) (y := y + 1) (by omega) (by omega)
    have hp := tol_pos (R := binary64)
    have t1 : ∀ {u : ℝ}, (u = 1 ∨ u = -(1 / 2)) → binary64.tol ≤ u → u = 1 := fun h1 h2 => h1.resolve_right fun h => by rw [h] at h2; linarith
    have t2 : ∀ {u : ℝ}, (u = 1 ∨ u = -(1 / 2)) → u ≤ -binary64.tol → u = -(1 / 2) := fun h1 h2 => h1.resolve_left fun h => by rw [h] at h2; linarith
    dsimp only
    rcases hs with ⟨h1, h2, h3, h4⟩ | ⟨h1, h2, h3, h4⟩
    · rw [t1 a1 h1, t2 a2 h2, t1 a3 h3, t2 a4 h4]; norm_num [abs_of_pos, abs_of_neg]
    · rw [t2 a1 h1, t1 a2 h2, t2 a3 h3, t1 a4 h4]; norm_num [abs_of_pos, abs_of_neg]

end Boundary

end Slsm
