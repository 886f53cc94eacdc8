import Verif.Proof.BndDeg

/-! Consequences for the object returned by `discretise`. -/

namespace Slsm

open FP

namespace Boundary

section
variable {w h : Nat} {L L' : LevelSet ℝ} {isTarget : Bool} {b : Boundary ℝ} {sd : List ℝ}

theorem level_eq (w : Nat) (L : LevelSet ℝ) (isTarget : Bool) : level w L isTarget = onGrid w (values L isTarget) := rfl

theorem made (R : Ready w h L isTarget) (e : discretise L isTarget = .ok (b, L')) : Made w h L (values L isTarget) b L' := by
  have := discretise_any (isTarget := isTarget) R.grid R.len
  rw [e] at this
  exact this

/-- The point before the links were made. -/
theorem Made.point (M : Made w h L sd b L') {k : Nat} {pt : BoundaryPoint ℝ} (hk : b.points[k]? = some pt) :
    ∃ p : Place, p.inGrid w h ∧ p.onContour (onGrid w sd) ∧ ∃ p0, initialisePoint L.moveLimit L.mesh (p.coord (onGrid w sd)) = .ok p0 ∧
      Linked p0 pt (upTo (lensAt b.segments k) b.segments.length) (upTo (segsAt b.segments k) b.segments.length)
        (upTo (nbrsAt b.segments k) b.segments.length) := by
  obtain ⟨W, S, _, hb, hl⟩ := M.sane
  have hlt : k < W.bnd.points.length := by rw [← hl.len]; exact (List.getElem?_eq_some_iff.1 hk).1
  obtain ⟨p, h1, h2, h3⟩ := S.pts k _ (List.getElem?_eq_getElem hlt)
  obtain ⟨q, hq, hL⟩ := hl.pt k _ (List.getElem?_eq_getElem hlt)
  rw [hk] at hq
  cases hq
  have es : b.segments = W.bnd.segments := by rw [hb]
  rw [es]
  exact ⟨p, h1, h2, _, h3, hL⟩

theorem Linked.coord {p0 p : BoundaryPoint ℝ} {ls : List ℝ} {sg nb : List Nat} (l : Linked p0 p ls sg nb) : p.coord = p0.coord := by rw [l.eq]

theorem Made.coords (M : Made w h L sd b L') : ∃ W, Sane w h L.moveLimit L.mesh sd W ∧ L'.mesh = W.mesh ∧ b = { W.bnd with points := b.points } ∧
    b.points.length = W.bnd.points.length ∧
    ∀ (k : Nat) (p0 : BoundaryPoint ℝ), W.bnd.points[k]? = some p0 → ∃ pt, b.points[k]? = some pt ∧ pt.coord = p0.coord := by
  obtain ⟨W, S, h1, hb, hl⟩ := M.sane
  refine ⟨W, S, h1, hb, hl.len, fun k p0 h0 => ?_⟩
  obtain ⟨q, hq, hL⟩ := hl.pt k p0 h0
  exact ⟨q, hq, hL.coord⟩

/-! ### lengths -/

theorem sum_range_map {M : Type} [AddCommMonoid M] (F : Nat → M) (n : Nat) : ((List.range n).map F).sum = ∑ j ∈ Finset.range n, F j := by
  induction n with
  | zero => simp
  | succ n ih => rw [List.range_succ, List.map_append, List.sum_append, ih, Finset.sum_range_succ]; simp

theorem foldl_half (l : List ℝ) (a : ℝ) : l.foldl (fun a l => a +. lit 1 2 *. l) a = a + 1 / 2 * l.sum := by
  induction l generalizing a with
  | nil => simp
  | cons c l ih =>
    rw [List.foldl_cons, ih]
    simp only [FP.add_real, FP.mul_real, FP.lit_real, List.sum_cons]
    push_cast
    ring

theorem point_length (M : Made w h L sd b L') {k : Nat} {pt : BoundaryPoint ℝ} (hk : b.points[k]? = some pt) :
    pt.length = 1 / 2 * (upTo (lensAt b.segments k) b.segments.length).sum := by
  obtain ⟨p, _, _, p0, h0, hl⟩ := M.point hk
  rw [hl.eq]
  show List.foldl _ _ _ = _
  rw [foldl_half, (initialisePoint_fresh h0).2, zero_add]

theorem lens_sum (segs : List (BoundarySegment ℝ)) (k : Nat) : (upTo (lensAt segs k) segs.length).sum =
    (segs.map fun g => (if k = g.start then g.length else 0) + if k = g.stop then g.length else 0).sum := by
  rw [lens_eq]
  induction segs with
  | nil => rfl
  | cons g l ih =>
    rw [List.flatMap_cons, List.sum_append, ih, List.map_cons, List.sum_cons, List.sum_append]
    congr 1
    congr 1 <;> split_ifs <;> simp

theorem total_length (M : Made w h L sd b L') : (b.points.map fun p => p.length).sum = (b.segments.map fun s => s.length).sum := by
  obtain ⟨W, S, _, hb, hlen, _⟩ := M.coords
  have hn : ∀ s ∈ b.segments, s.start < b.points.length ∧ s.stop < b.points.length := by
    intro s hs
    rw [hlen]
    rw [hb] at hs
    exact (S.segs s hs).lt
  have e1 : (b.points.map fun p => p.length) = (List.range b.points.length).map fun j => 1 / 2 * (upTo (lensAt b.segments j) b.segments.length).sum := by
    refine List.ext_getElem? fun k => ?_
    rw [List.getElem?_map, List.getElem?_map]
    by_cases hk : k < b.points.length
    · rw [List.getElem?_range hk, List.getElem?_eq_getElem hk, Option.map_some, Option.map_some, point_length M (List.getElem?_eq_getElem hk)]
    · rw [List.getElem?_eq_none (by omega), List.getElem?_eq_none (by simp; omega)]
      rfl
  rw [e1, sum_range_map]
  simp only [lens_sum]
  generalize b.points.length = n at hn
  generalize b.segments = segs at hn
  induction segs with
  | nil => simp
  | cons g l ih =>
    have ih := ih fun s hs => hn s (List.mem_cons_of_mem _ hs)
    obtain ⟨h1, h2⟩ := hn g List.mem_cons_self
    simp only [List.map_cons, List.sum_cons]
    rw [← ih]
    simp only [mul_add]
    rw [Finset.sum_add_distrib, Finset.sum_add_distrib]
    simp only [← Finset.mul_sum]
    rw [Finset.sum_ite_eq', Finset.sum_ite_eq', if_pos (Finset.mem_range.2 h1), if_pos (Finset.mem_range.2 h2)]
    ring

theorem distance_comm (a c : Coord ℝ) : distance a c = distance c a := by
  unfold distance; congr 1; ring

theorem Made.segment (M : Made w h L sd b L') {s : BoundarySegment ℝ} (hs : s ∈ b.segments) :
    ∃ p q, b.points[s.start]? = some p ∧ b.points[s.stop]? = some q ∧ s.length = distance p.coord q.coord := by
  obtain ⟨W, S, _, hb, hlen, hc⟩ := M.coords
  rw [hb] at hs
  obtain ⟨_, p, q, h1, h2, h3⟩ := S.segs s hs
  obtain ⟨p', h4, h5⟩ := hc _ _ h1
  obtain ⟨q', h6, h7⟩ := hc _ _ h2
  exact ⟨p', q', h4, h6, by rw [h3, h5, h7]⟩

/-- Distance to point `k`. -/
noncomputable def distTo (b : Boundary ℝ) (pt : BoundaryPoint ℝ) (k : Nat) : ℝ := ((b.points[k]?).map fun q => distance pt.coord q.coord).getD 0

theorem nbrs_lens (M : Made w h L sd b L') {k : Nat} {pt : BoundaryPoint ℝ} (hk : b.points[k]? = some pt) :
    ((upTo (nbrsAt b.segments k) b.segments.length).map (distTo b pt)).sum = (upTo (lensAt b.segments k) b.segments.length).sum := by
  rw [nbrs_eq, lens_eq]
  have H : ∀ s ∈ b.segments, (k = s.start → distTo b pt s.stop = s.length) ∧ (k = s.stop → distTo b pt s.start = s.length) := by
    intro s hs
    obtain ⟨p, q, h1, h2, h3⟩ := M.segment hs
    constructor
    · rintro rfl
      rw [hk] at h1
      cases h1
      unfold distTo
      rw [h2, h3]
      rfl
    · rintro rfl
      rw [hk] at h2
      cases h2
      unfold distTo
      rw [h1, h3, distance_comm]
      rfl
  generalize b.segments = segs at H
  induction segs with
  | nil => rfl
  | cons g l ih =>
    have ih := ih fun s hs => H s (List.mem_cons_of_mem _ hs)
    obtain ⟨h1, h2⟩ := H g List.mem_cons_self
    rw [List.flatMap_cons, List.flatMap_cons, List.map_append, List.sum_append, List.sum_append, ih]
    congr 1
    by_cases e1 : k = g.start <;> by_cases e2 : k = g.stop
    · simp only [if_pos e1, if_pos e2, List.map_append, List.map_cons, List.map_nil, List.sum_append, h1 e1, h2 e2]
    · simp only [if_pos e1, if_neg e2, List.map_append, List.map_cons, List.map_nil, List.sum_append, h1 e1]
    · simp only [if_neg e1, if_pos e2, List.map_append, List.map_cons, List.map_nil, List.sum_append, h2 e2]
    · simp only [if_neg e1, if_neg e2, List.map_append, List.map_nil, List.sum_append]

theorem mem_nbrs (M : Made w h L sd b L') {k j : Nat} (hj : j ∈ upTo (nbrsAt b.segments k) b.segments.length) : ∃ q, b.points[j]? = some q := by
  rw [nbrs_eq, List.mem_flatMap] at hj
  obtain ⟨s, hs, hj⟩ := hj
  obtain ⟨p, q, h1, h2, _⟩ := M.segment hs
  rcases List.mem_append.1 hj with h | h
  · split at h
    · rw [List.mem_singleton] at h; subst h; exact ⟨q, h2⟩
    · cases h
  · split at h
    · rw [List.mem_singleton] at h; subst h; exact ⟨p, h1⟩
    · cases h

theorem perimeter_eq (M : Made w h L sd b L') {k : Nat} {pt : BoundaryPoint ℝ} (hk : b.points[k]? = some pt) :
    computePerimeter b pt = .ok (2 * pt.length) := by
  obtain ⟨p, _, _, p0, h0, hl⟩ := M.point hk
  have hn : pt.nNeighbours = (upTo (nbrsAt b.segments k) b.segments.length).length := by rw [hl.eq]
  have ht := hl.ntake
  rw [← hn] at ht
  have key : computePerimeter b pt = .ok (((pt.neighbours.take pt.nNeighbours).map (distTo b pt)).sum) := by
    unfold computePerimeter
    refine forN_eq (fun i => ((pt.neighbours.take i).map (distTo b pt)).sum) (by simp) fun i hi => ?_
    have hi' : i < pt.neighbours.length := by
      have := hl.nle
      rw [hl.nlen]; omega
    rw [rd_eq hi']
    have hm : pt.neighbours[i] ∈ upTo (nbrsAt b.segments k) b.segments.length := by
      rw [← ht]
      refine List.mem_iff_getElem?.2 ⟨i, ?_⟩
      rw [List.getElem?_take, if_pos hi, List.getElem?_eq_getElem hi']
    obtain ⟨q, hq⟩ := mem_nbrs M hm
    simp only [bind, Except.bind]
    rw [rd_of_getElem? hq]
    dsimp only
    rw [List.take_succ, List.getElem?_eq_getElem hi', List.map_append, List.sum_append]
    simp only [Option.toList, List.map_cons, List.map_nil, List.sum_cons, List.sum_nil, add_zero, pure, Except.pure, FP.add_real,
      FP.sub_real, FP.mul_real, FP.sqrt_real]
    congr 2
    unfold distTo
    rw [hq]
    rfl
  rw [key, ht, nbrs_lens M hk, point_length M hk]
  congr 1
  ring

/-! ### limits -/

theorem min_real (a c : ℝ) : FP.min a c = Min.min a c := by
  unfold FP.min
  by_cases hac : c < a
  · rw [if_pos ((FP.lt_real _ _).2 hac), min_eq_right hac.le]
  · rw [if_neg (fun hh => hac ((FP.lt_real _ _).1 hh)), min_eq_left (not_lt.1 hac)]

theorem edgeLimit_real (ml : ℝ) (c : Coord ℝ) : edgeLimit ml w h c = (-(Min.min ml (distToEdge w h c)),
    decide (distToEdge w h c < Min.min ml (1 / 10 ^ 6))) := by
  have e : FP.min (FP.min c.x (nat w -. c.x)) (FP.min c.y (nat h -. c.y)) = distToEdge w h c := by
    simp only [min_real, FP.sub_real, FP.nat_real]
    rfl
  unfold edgeLimit
  dsimp only
  rw [e]
  by_cases hc : distToEdge w h c < ml
  · rw [if_pos ((FP.lt_real _ _).2 hc), min_eq_right hc.le]
    congr 1
    rw [Bool.eq_iff_iff, FP.lt_real, decide_eq_true_eq, lt_min_iff, FP.lit_real]
    norm_num
    exact fun _ => hc
  · rw [if_neg (fun hh => hc ((FP.lt_real _ _).1 hh)), min_eq_left (not_lt.1 hc)]
    congr 1
    symm
    rw [decide_eq_false_iff_not, lt_min_iff]
    exact fun hh => hc hh.1

open Classical in
theorem maskLimit_real (nd : Node ℝ) (c : Coord ℝ) (l : ℝ) : maskLimit nd c (-l) =
    (if nd.isMasked = true ∧ ¬ (|nd.coord.x - c.x| < 1 / 10 ^ 6 ∧ |nd.coord.y - c.y| < 1 / 10 ^ 6) then -(Min.min l (distance nd.coord c)) else -l,
      decide (nd.isMasked = true ∧ |nd.coord.x - c.x| < 1 / 10 ^ 6 ∧ |nd.coord.y - c.y| < 1 / 10 ^ 6)) := by
  have e : ((FP.abs (nd.coord.x -. c.x) <. lit 1 1000000) && (FP.abs (nd.coord.y -. c.y) <. lit 1 1000000)) =
      decide (|nd.coord.x - c.x| < 1 / 10 ^ 6 ∧ |nd.coord.y - c.y| < 1 / 10 ^ 6) := by
    rw [Bool.eq_iff_iff, Bool.and_eq_true, FP.lt_real, FP.lt_real, decide_eq_true_eq]
    simp only [FP.sub_real, FP.abs_real, FP.lit_real]
    norm_num
  by_cases hm : nd.isMasked = true
  · by_cases hc : |nd.coord.x - c.x| < 1 / 10 ^ 6 ∧ |nd.coord.y - c.y| < 1 / 10 ^ 6
    · rw [if_neg (fun hh => hh.2 hc), decide_eq_true ⟨hm, hc⟩]
      unfold maskLimit
      dsimp only
      rw [e, if_pos hm, decide_eq_true hc, if_pos rfl]
    · rw [if_pos ⟨hm, hc⟩, decide_eq_false (fun hh => hc hh.2)]
      unfold maskLimit
      dsimp only
      rw [e, if_pos hm, decide_eq_false hc, if_neg (by simp)]
      refine Prod.ext ?_ rfl
      simp only [FP.sub_real, FP.neg_real, FP.sqrt_real, FP.add_real, FP.mul_real]
      change (if FP.lt (-l) (-(distance nd.coord c)) = true then -(distance nd.coord c) else -l) = _
      by_cases hl : distance nd.coord c < l
      · rw [if_pos ((FP.lt_real _ _).2 (by linarith)), min_eq_right hl.le]
      · rw [if_neg (fun hh => hl (by have := (FP.lt_real _ _).1 hh; linarith)), min_eq_left (not_lt.1 hl)]
  · unfold maskLimit
    rw [if_neg hm, if_neg (fun hh => hm hh.1), decide_eq_false (fun hh => hm hh.1)]

open Classical in
theorem initialisePoint_real {m : Mesh ℝ} {ml : ℝ} (hg : IsGrid w h m) (hfit : (w + 1) * (h + 1) < 4294967296) {c : Coord ℝ}
    (h0 : 0 ≤ c.x) (h1 : c.x ≤ w) (h2 : 0 ≤ c.y) (h3 : c.y ≤ h) {pt : BoundaryPoint ℝ} (e : initialisePoint ml m c = .ok pt) :
    ∃ nx ny nd, nx ≤ w ∧ ny ≤ h ∧ m.nodes[nodeNo w nx ny]? = some nd ∧
      (∀ kx ky : ℕ, (c.x - nx) ^ 2 + (c.y - ny) ^ 2 ≤ (c.x - kx) ^ 2 + (c.y - ky) ^ 2) ∧
      pt.positiveLimit = ml ∧
      (pt.isDomain = true ↔ distToEdge w h c < Min.min ml (1 / 10 ^ 6)) ∧
      (pt.isFixed = true ↔ nd.isMasked = true ∧ |nx - c.x| < 1 / 10 ^ 6 ∧ |ny - c.y| < 1 / 10 ^ 6) ∧
      pt.negativeLimit = -(if nd.isMasked = true ∧ ¬ (|nx - c.x| < 1 / 10 ^ 6 ∧ |ny - c.y| < 1 / 10 ^ 6) then
        Min.min (Min.min ml (distToEdge w h c)) (distance ⟨nx, ny⟩ c) else Min.min ml (distToEdge w h c)) := by
  obtain ⟨nx, ny, hx, hy, hn, hd⟩ := getClosestNode_real hg hfit h0 h1 h2 h3
  obtain ⟨nd, hnd⟩ := hg.node_exists hx hy
  refine ⟨nx, ny, nd, hx, hy, hnd, hd, ?_⟩
  unfold initialisePoint at e
  rw [hn] at e
  simp only [bind, Except.bind] at e
  rw [rd_of_getElem? hnd] at e
  rw [hg.width, hg.height, edgeLimit_real] at e
  dsimp only at e
  rw [maskLimit_real] at e
  have hco : nd.coord = ⟨(nx : ℝ), (ny : ℝ)⟩ := hg.coord nx ny nd hx hy hnd
  rw [hco] at e
  cases e
  refine ⟨rfl, ?_, ?_, ?_⟩
  · dsimp only
    rw [decide_eq_true_eq]
  · dsimp only
    rw [decide_eq_true_eq]
  · dsimp only
    split_ifs <;> rfl

end

end Boundary

end Slsm
