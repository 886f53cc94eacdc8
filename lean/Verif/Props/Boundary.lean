import Verif.Proof.BndPlain

/-! # Properties C36–C43: the discretised boundary

`Place`, `nodeSide`, `Boundary.level`, `Boundary.Ready`, `Boundary.Tame`, … are defined in `Verif/Spec/Boundary.lean`.  A place is a
lattice point or a grid edge; `p.onContour f` says that the contour of the values `f` passes there, `p.coord f` is the point of the
contour.  `Ready` asks only for a mesh that is a grid and for as many values as nodes; it holds in every reachable state. -/

namespace Slsm

open LevelSet Boundary

section
variable {w h : Nat} {L L' : LevelSet ℝ} {b : Boundary ℝ} {isTarget : Bool}

theorem ready_of_reachable (hr : Reachable w h L) : Ready w h L false :=
  ⟨hr.core.grid, by rw [show values L false = L.signedDistance from rfl, hr.core.sd], fit_of_reachable hr⟩

theorem ready_target (hr : Reachable w h L) (ht : L.target.length = L.mesh.nNodes) : Ready w h L true :=
  ⟨hr.core.grid, by rw [show values L true = L.target from rfl, ht], fit_of_reachable hr⟩

/-- Discretising gives a state that is again reachable. -/
theorem C36_reachable (hr : Reachable w h L) (R : Ready w h L isTarget) (e : discretise L isTarget = .ok (b, L')) : Reachable w h L' := by
  obtain ⟨A, hL⟩ := (made R e).annot
  rw [hL]
  refine .call hr (.annotate L'.mesh L.area (A.grid R.grid) fun i => ?_)
  unfold flags
  rcases hi : L'.mesh.nodes[i]? with _ | nd
  · rw [List.getElem?_eq_none (by rw [← A.nlen]; exact List.getElem?_eq_none_iff.1 hi)]
  · obtain ⟨a, ha, hs⟩ := A.node i nd hi
    rw [ha, Option.map_some, Option.map_some, hs.eq]

/-! ### C36 -/

/-- **C36** (nodes): whenever `discretise` returns, each node is marked by its value; nothing else of the level set changes, nor do
coordinates, neighbours, masks and band flags. -/
theorem C36_node_status (R : Ready w h L isTarget) (e : discretise L isTarget = .ok (b, L')) {x y : Nat} (hx : x ≤ w) (hy : y ≤ h) :
    ∃ nd nd', L.mesh.nodes[nodeNo w x y]? = some nd ∧ L'.mesh.nodes[nodeNo w x y]? = some nd' ∧
      (nd'.status = .boundary ↔ |level w L isTarget x y| < 1 / 10 ^ 6) ∧
      (nd'.status = .outside ↔ level w L isTarget x y ≤ -(1 / 10 ^ 6)) ∧
      (nd'.status = .inside ↔ 1 / 10 ^ 6 ≤ level w L isTarget x y) ∧
      nd'.coord = nd.coord ∧ nd'.neighbours = nd.neighbours ∧ nd'.isMasked = nd.isMasked ∧ nd'.isActive = nd.isActive ∧
      nd'.isDomain = nd.isDomain ∧ nd'.isMine = nd.isMine ∧ L' = { L with mesh := L'.mesh } := by
  have M := made R e
  obtain ⟨A, hL⟩ := M.annot
  obtain ⟨W, S, hm, _⟩ := M.sane
  obtain ⟨nd', hnd'⟩ := (A.grid R.grid).node_exists hx hy
  obtain ⟨nd, hnd, hs⟩ := A.node _ _ hnd'
  have hst : nd'.status = nodeSide (level w L isTarget x y) := S.status _ _ (by rw [← hm]; exact hnd')
  refine ⟨nd, nd', hnd, hnd', ?_, ?_, ?_, ?_, ?_, ?_, ?_, ?_, ?_, hL⟩
  · rw [hst, nodeSide_boundary]
  · rw [hst, nodeSide_outside]
  · rw [hst, nodeSide_inside]
  all_goals rw [hs.eq]

/-- The four corners of a cell. -/
def cornerPoints (x y : Nat) : List (Nat × Nat) := [(x, y), (x + 1, y), (x + 1, y + 1), (x, y + 1)]

set_option synthInstance.maxSize 1000 in
set_option synthInstance.maxHeartbeats 200000 in
theorem element_table : ∀ s0 ∈ [NodeStatus.none, .inside, .outside, .boundary], ∀ s1 ∈ [NodeStatus.none, .inside, .outside, .boundary],
    ∀ s2 ∈ [NodeStatus.none, .inside, .outside, .boundary], ∀ s3 ∈ [NodeStatus.none, .inside, .outside, .boundary],
    ∀ st ∈ [ElementStatus.none, .inside, .outside, .centreInside, .centreOutside],
    st = elemStatus [s0, s1, s2, s3] ∨ elemStatus [s0, s1, s2, s3] = .none ∧ (st = .centreInside ∨ st = .centreOutside) →
    (st = .inside ↔ s0 ≠ .outside ∧ s1 ≠ .outside ∧ s2 ≠ .outside ∧ s3 ≠ .outside) ∧
    (st = .outside ↔ (s0 = .outside ∨ s1 = .outside ∨ s2 = .outside ∨ s3 = .outside) ∧
      s0 ≠ .inside ∧ s1 ≠ .inside ∧ s2 ≠ .inside ∧ s3 ≠ .inside) := by
  decide +kernel

/-- **C36** (elements): an element is inside iff no corner is outside, and outside iff some corner is outside and none is inside. -/
theorem C36_element_status (R : Ready w h L isTarget) (e : discretise L isTarget = .ok (b, L')) {x y : Nat} (hx : x < w) (hy : y < h) :
    ∃ el, L'.mesh.elements[cellNo w x y]? = some el ∧
      (el.status = .inside ↔ ∀ q ∈ cornerPoints x y, nodeSide (level w L isTarget q.1 q.2) ≠ .outside) ∧
      (el.status = .outside ↔ (∃ q ∈ cornerPoints x y, nodeSide (level w L isTarget q.1 q.2) = .outside) ∧
        ∀ q ∈ cornerPoints x y, nodeSide (level w L isTarget q.1 q.2) ≠ .inside) := by
  have M := made R e
  obtain ⟨W, S, hm, _⟩ := M.sane
  obtain ⟨el, hel⟩ := (M.annot.1.grid R.grid).elem_exists hx hy
  refine ⟨el, hel, ?_⟩
  have hs := S.elems x y el hx hy (by rw [← hm]; exact hel)
  unfold ElemOk stat side at hs
  simp only [cornerAt, ← level_eq] at hs
  simp only [cornerPoints, List.forall_mem_cons, List.exists_mem_cons_iff, List.not_mem_nil, false_imp_iff, implies_true, and_true,
    false_and, exists_false, or_false]
  generalize nodeSide (level w L isTarget x y) = s0 at *
  generalize nodeSide (level w L isTarget (x + 1) y) = s1 at *
  generalize nodeSide (level w L isTarget (x + 1) (y + 1)) = s2 at *
  generalize nodeSide (level w L isTarget x (y + 1)) = s3 at *
  exact element_table s0 (by cases s0 <;> decide) s1 (by cases s1 <;> decide) s2 (by cases s2 <;> decide) s3 (by cases s3 <;> decide)
    el.status (by cases el.status <;> decide) hs

/-! ### C37 -/

/-- **C37**: whenever `discretise` returns, every boundary point is in the domain, at a lattice point with value zero (within the
tolerance) or at the zero of the linear interpolant along an edge whose ends are on opposite sides. -/
theorem C37_points_on_contour (R : Ready w h L isTarget) (e : discretise L isTarget = .ok (b, L')) {pt : BoundaryPoint ℝ}
    (hp : pt ∈ b.points) : (∃ p : Place, p.inGrid w h ∧ p.onContour (level w L isTarget) ∧ pt.coord = p.coord (level w L isTarget)) ∧
      0 ≤ pt.coord.x ∧ pt.coord.x ≤ w ∧ 0 ≤ pt.coord.y ∧ pt.coord.y ≤ h ∧ b.nPoints = b.points.length := by
  have M := made R e
  obtain ⟨k, hk⟩ := List.mem_iff_getElem?.1 hp
  obtain ⟨p, h1, h2, p0, h3, h4⟩ := M.point hk
  have ec : pt.coord = p.coord (onGrid w (values L isTarget)) := by rw [h4.coord, initialisePoint_coord h3]
  obtain ⟨i1, i2, i3, i4⟩ := coord_in h1 h2
  rw [← ec] at i1 i2 i3 i4
  refine ⟨⟨p, h1, h2, ec⟩, i1, i2, i3, i4, ?_⟩
  obtain ⟨W, S, _, hb, hlen, _⟩ := M.coords
  rw [hb]
  show W.bnd.nPoints = b.points.length
  rw [S.nPoints, hlen]

/-- **C37** (meaning of the coordinates): on an edge from `(x, y)` to `(x + 1, y)` or `(x, y + 1)` crossed by the contour the point lies
strictly between the ends, at the only zero of the linear interpolant of the two values. -/
theorem C37_interpolant {f : Nat → Nat → ℝ} {p : Place} (hc : p.onContour f) :
    (∀ x y, p = .hor x y → ∃ t, p.coord f = ⟨x + t, y⟩ ∧ 0 < t ∧ t < 1 ∧ ∀ s, (1 - s) * f x y + s * f (x + 1) y = 0 ↔ s = t) ∧
    (∀ x y, p = .ver x y → ∃ t, p.coord f = ⟨x, y + t⟩ ∧ 0 < t ∧ t < 1 ∧ ∀ s, (1 - s) * f x y + s * f x (y + 1) = 0 ↔ s = t) ∧
    (∀ x y, p = .node x y → p.coord f = ⟨x, y⟩ ∧ |f x y| < 1 / 10 ^ 6) := by
  have key : ∀ a c : ℝ, a - c ≠ 0 → ∀ s, (1 - s) * a + s * c = 0 ↔ s = a / (a - c) := by
    intro a c hne s
    rw [eq_div_iff hne]
    constructor <;> intro h <;> linarith
  refine ⟨?_, ?_, ?_⟩
  · rintro x y rfl
    have := cross_pos hc
    exact ⟨_, rfl, this.1, this.2.1, key _ _ this.2.2⟩
  · rintro x y rfl
    have := cross_pos hc
    exact ⟨_, rfl, this.1, this.2.1, key _ _ this.2.2⟩
  · rintro x y rfl
    exact ⟨rfl, nodeSide_boundary.1 hc⟩

/-! ### C38 -/

/-- **C38** (any values): whenever `discretise` returns, the ends of a segment are valid point numbers, its element is a cell, its
length is the distance between its ends, and each end is within `10⁻⁶` (in each coordinate) of a place of the closed cell where the
contour passes; the length of the boundary is the sum of the lengths. -/
theorem C38_segments (R : Ready w h L isTarget) (e : discretise L isTarget = .ok (b, L')) :
    (∀ s ∈ b.segments, ∃ p q x y, b.points[s.start]? = some p ∧ b.points[s.stop]? = some q ∧ s.length = Boundary.distance p.coord q.coord ∧
      x < w ∧ y < h ∧ s.element = cellNo w x y ∧
      ∀ c ∈ [p.coord, q.coord], ∃ r : Place, r.ofCell x y ∧ r.onContour (level w L isTarget) ∧
        |(r.coord (level w L isTarget)).x - c.x| < 1 / 10 ^ 6 ∧ |(r.coord (level w L isTarget)).y - c.y| < 1 / 10 ^ 6) ∧
    b.length = (b.segments.map fun s => s.length).sum ∧ b.nSegments = b.segments.length := by
  have M := made R e
  obtain ⟨W, S, _, hb, hlen, hc⟩ := M.coords
  refine ⟨fun s hs => ?_, ?_, ?_⟩
  · obtain ⟨p, q, h1, h2, h3⟩ := M.segment hs
    rw [hb] at hs
    obtain ⟨⟨x, y, hx, hy, he, ⟨ra, ra1, ra2, pa, pa1, pa2, pa3⟩, ⟨rb, rb1, rb2, pb, pb1, pb2, pb3⟩⟩, -⟩ := S.segs s hs
    obtain ⟨p', hp', ep⟩ := hc _ _ pa1
    obtain ⟨q', hq', eq⟩ := hc _ _ pb1
    rw [h1] at hp'
    rw [h2] at hq'
    cases hp'
    cases hq'
    refine ⟨p, q, x, y, h1, h2, h3, hx, hy, he, ?_⟩
    intro c hcc
    simp only [List.mem_cons, List.not_mem_nil, or_false] at hcc
    rcases hcc with rfl | rfl
    · exact ⟨ra, ra1, ra2, by rw [ep]; exact ⟨pa2, pa3⟩⟩
    · exact ⟨rb, rb1, rb2, by rw [eq]; exact ⟨pb2, pb3⟩⟩
  · rw [hb]; exact S.length
  · rw [hb]; exact S.nSegments

/-- **C38** (well behaved values): the ends are different places of the closed cell of the element, exactly; in particular they lie in
the closed cell. -/
theorem C38_segments_exact (T : Tame w h L isTarget) (e : discretise L isTarget = .ok (b, L')) {s : BoundarySegment ℝ} (hs : s ∈ b.segments) :
    ∃ x y, x < w ∧ y < h ∧ s.element = cellNo w x y ∧ s.start ≠ s.stop ∧ ∀ k ∈ [s.start, s.stop], ∃ pt, b.points[k]? = some pt ∧
      (∃ p : Place, p.ofCell x y ∧ p.onContour (level w L isTarget) ∧ pt.coord = p.coord (level w L isTarget)) ∧
      x ≤ pt.coord.x ∧ pt.coord.x ≤ x + 1 ∧ y ≤ pt.coord.y ∧ pt.coord.y ≤ y + 1 := by
  obtain ⟨b', L2, e', E⟩ := tame_exact T
  rw [e] at e'
  cases e'
  obtain ⟨x, y, p, q, hx, hy, he, hp, hq, _, cp, cq, ⟨pa, a1, a2⟩, ⟨pb, b1, b2⟩, hne⟩ := E.segment hs
  refine ⟨x, y, hx, hy, he, hne, ?_⟩
  intro k hk
  simp only [List.mem_cons, List.not_mem_nil, or_false] at hk
  rcases hk with rfl | rfl
  · exact ⟨pa, a1, ⟨p, hp, cp, a2⟩, by rw [a2]; exact coord_ofCell hp cp⟩
  · exact ⟨pb, b1, ⟨q, hq, cq, b2⟩, by rw [b2]; exact coord_ofCell hq cq⟩

/-! ### C39 -/

/-- **C39** (well behaved values): every grid edge crossed by the contour carries exactly one boundary point; exactly two segments end
there, or exactly one if the edge is on the edge of the domain; the point lists them and the points at their other ends. -/
theorem C39_watertight (T : Tame w h L isTarget) (e : discretise L isTarget = .ok (b, L')) {p : Place} (hp : CutEdge w h (level w L isTarget) p) :
    ∃ (k : Nat) (pt : BoundaryPoint ℝ), b.points[k]? = some pt ∧ pt.coord = p.coord (level w L isTarget) ∧
      (∀ (k' : Nat) (pt' : BoundaryPoint ℝ), b.points[k']? = some pt' → pt'.coord = p.coord (level w L isTarget) → k' = k) ∧
      ((p.onRim w h → (segmentsOf b k).length = 1) ∧ (¬ p.onRim w h → (segmentsOf b k).length = 2)) ∧
      pt.segments.take pt.nSegments = segmentsOf b k ∧ pt.nSegments = (segmentsOf b k).length ∧
      pt.neighbours.take pt.nNeighbours = neighboursOf b k ∧ pt.nNeighbours = pt.nSegments := by
  obtain ⟨b', L2, e', E⟩ := tame_exact T
  rw [e] at e'
  cases e'
  have hk := edge_key T.grid.w_pos T.grid.h_pos T.vis hp.1 hp.2.1 hp.2.2
  obtain ⟨k, pt, h1, h2, h3⟩ := E.ofKey hk
  obtain ⟨p', g1, g2, g3, g4, g5, g6, g7, g8, g9⟩ := E.point h2
  rw [h1] at g1
  cases g1
  rw [edge_degree T.vis hp.1 hp.2.1 hp.2.2] at g5
  obtain ⟨-, c1, c2⟩ := cells_rim T.grid.w_pos T.grid.h_pos hp
  refine ⟨k, pt, h2, h3, fun k' pt' hk' hc' => E.unique hk' h2 (hc'.trans h3.symm), ⟨fun hr => ?_, fun hr => ?_⟩, g7, g9.symm, g8, g6⟩
  · rw [g9, g5, c1 hr]
  · rw [g9, g5, c2 hr]

/-- **C39** (lattice points on the contour): if all nodes near the contour are active or masked (or the target is discretised), there is a
boundary point at a lattice point on the contour iff the cells around it have segments there; it is the only one there and the number of
segments ending there is the number expected from the sides of the surrounding lattice points. -/
theorem C39_lattice (T : Tame w h L isTarget) (hN : isTarget = true ∨ NearSeen w h L isTarget) (e : discretise L isTarget = .ok (b, L'))
    {x y : Nat} (hx : x ≤ w) (hy : y ≤ h) (hc : nodeSide (level w L isTarget x y) = .boundary) :
    ((∃ pt ∈ b.points, pt.coord = ⟨x, y⟩) ↔ 0 < latticeEnds w h (level w L isTarget) x y) ∧
    ∀ (k : Nat) (pt : BoundaryPoint ℝ), b.points[k]? = some pt → pt.coord = ⟨x, y⟩ →
      (segmentsOf b k).length = latticeEnds w h (level w L isTarget) x y ∧
      pt.nSegments = (segmentsOf b k).length ∧ pt.segments.take pt.nSegments = segmentsOf b k ∧
      pt.nNeighbours = pt.nSegments ∧ pt.neighbours.take pt.nNeighbours = neighboursOf b k ∧
      ∀ (k' : Nat) (pt' : BoundaryPoint ℝ), b.points[k']? = some pt' → pt'.coord = ⟨x, y⟩ → k' = k := by
  obtain ⟨b', L2, e', E⟩ := tame_exact T
  rw [e] at e'
  cases e'
  obtain ⟨V, H⟩ := near_look hN T.gentle
  have hin : (Place.node x y).inGrid w h := by
    intro q hq
    simp only [Place.ends, List.mem_singleton] at hq
    rw [hq]
    exact ⟨hx, hy⟩
  have hocc := node_ends V hin hc H
  rw [← level_eq] at hocc
  have key : ∀ (k : Nat) (pt : BoundaryPoint ℝ), b.points[k]? = some pt → pt.coord = ⟨x, y⟩ →
      (run w L.mesh (values L isTarget) isTarget (w * h)).keys[k]? = some (.node x y) := by
    intro k pt hk hpc
    obtain ⟨p, h1, h2, h3, h4, -⟩ := E.point hk
    rw [h1]
    congr 1
    exact coord_inj h3 hc (by rw [← h4, hpc]; rfl)
  refine ⟨⟨fun ⟨pt, hp, hpc⟩ => ?_, fun h0 => ?_⟩, fun k pt hk hpc => ?_⟩
  · obtain ⟨k, hk⟩ := List.mem_iff_getElem?.1 hp
    have := node_key_occ (List.mem_of_getElem? (key k pt hk hpc))
    rwa [hocc] at this
  · obtain ⟨W, RW, _⟩ := E.rep
    rw [← hocc] at h0
    obtain ⟨k, pt, h1, h2, h3⟩ := E.ofKey (occ_mem RW.arcMem h0)
    exact ⟨pt, List.mem_of_getElem? h2, h3⟩
  · have hkk := key k pt hk hpc
    obtain ⟨p, h1, h2, h3, h4, h5, h6, h7, h8, h9⟩ := E.point hk
    rw [hkk] at h1
    cases h1
    refine ⟨by rw [h9, h5, hocc], h9.symm, h7, h6, h8, fun k' pt' hk' hpc' => E.unique hk' hk (by rw [hpc', hpc])⟩

/-- **C39** (nothing else): every boundary point is at a crossed edge or at a lattice point on the contour. -/
theorem C39_points (T : Tame w h L isTarget) (e : discretise L isTarget = .ok (b, L')) {pt : BoundaryPoint ℝ} (hp : pt ∈ b.points) :
    (∃ p, CutEdge w h (level w L isTarget) p ∧ pt.coord = p.coord (level w L isTarget)) ∨
    ∃ x y, x ≤ w ∧ y ≤ h ∧ nodeSide (level w L isTarget x y) = .boundary ∧ pt.coord = ⟨x, y⟩ := by
  obtain ⟨p, h1, h2, h3⟩ := (C37_points_on_contour T.toReady e hp).1
  by_cases hn : ∃ x y, p = .node x y
  · obtain ⟨x, y, rfl⟩ := hn
    have := h1 (x, y) (by simp [Place.ends])
    exact .inr ⟨x, y, this.1, this.2, h2, h3⟩
  · exact .inl ⟨p, ⟨h1, h2, fun x y hp => hn ⟨x, y, hp⟩⟩, h3⟩

/-- **C39** (no lattice point on the contour): all boundary points are of this kind: exactly two segments end at every point inside the
domain, exactly one at every point on the edge of the domain; points are pairwise different. -/
theorem C39_closed_curves (T : Tame w h L isTarget) (G : Generic w h (level w L isTarget)) (e : discretise L isTarget = .ok (b, L'))
    {k : Nat} {pt : BoundaryPoint ℝ} (hk : b.points[k]? = some pt) :
    (distToEdge w h pt.coord = 0 → (segmentsOf b k).length = 1) ∧ (distToEdge w h pt.coord ≠ 0 → (segmentsOf b k).length = 2) ∧
      ∀ (k' : Nat) (pt' : BoundaryPoint ℝ), b.points[k']? = some pt' → pt'.coord = pt.coord → k' = k := by
  obtain ⟨b', L2, e', E⟩ := tame_exact T
  rw [e] at e'
  cases e'
  obtain ⟨p, h1, h2, h3, h4, -⟩ := E.point hk
  have hp : CutEdge w h (level w L isTarget) p := by
    refine ⟨h2, h3, ?_⟩
    rintro x y rfl
    have := h2 (x, y) (by simp [Place.ends])
    exact G x y this.1 this.2 h3
  obtain ⟨k', pt', g1, g2, g3, g4, -⟩ := C39_watertight T e hp
  have : k = k' := g3 k pt hk h4
  subst this
  obtain ⟨c0, -, -⟩ := cells_rim T.grid.w_pos T.grid.h_pos hp
  rw [h4, ← level_eq]
  refine ⟨fun hd => g4.1 (c0.1 hd), fun hd => g4.2 fun hr => hd (c0.2 hr), fun k'' pt'' hk'' hc'' => E.unique hk'' hk (hc''.trans ?_)⟩
  rw [h4, ← level_eq]

open Classical in
/-- **C39** (ends of curves): the number of boundary points on the edge of the domain is even. -/
theorem C39_even_ends (T : Tame w h L isTarget) (G : Generic w h (level w L isTarget)) (e : discretise L isTarget = .ok (b, L')) :
    Even (b.points.countP fun pt => decide (distToEdge w h pt.coord = 0)) := by
  obtain ⟨b', L2, e', E⟩ := tame_exact T
  rw [e] at e'
  cases e'
  have hs := sum_degrees E
  have hn : ∀ pt ∈ b.points, pt.nSegments = if distToEdge w h pt.coord = 0 then 1 else 2 := by
    intro pt hpt
    obtain ⟨k, hk⟩ := List.mem_iff_getElem?.1 hpt
    obtain ⟨p, _, _, _, _, _, _, _, _, g9⟩ := E.point hk
    obtain ⟨c1, c2, -⟩ := C39_closed_curves T G e hk
    rw [← g9]
    split_ifs with hd
    · exact c1 hd
    · exact c2 hd
  have key : ∀ l : List (BoundaryPoint ℝ), (∀ pt ∈ l, pt.nSegments = if distToEdge w h pt.coord = 0 then 1 else 2) →
      (l.map fun p => p.nSegments).sum + l.countP (fun pt => decide (distToEdge w h pt.coord = 0)) = 2 * l.length := by
    intro l
    induction l with
    | nil => intro _; rfl
    | cons a l ih =>
      intro H
      have := ih fun pt hpt => H pt (List.mem_cons_of_mem _ hpt)
      rw [List.map_cons, List.sum_cons, List.countP_cons, List.length_cons, H a List.mem_cons_self]
      by_cases hd : distToEdge w h a.coord = 0
      · simp only [hd, if_true, decide_true]; omega
      · simp only [hd, if_false, decide_false, Bool.false_eq_true]; omega
  have := key b.points hn
  rw [hs] at this
  exact ⟨b.points.length - b.segments.length, by omega⟩

/-! ### C40 -/

/-- **C40**: whenever `discretise` returns, the lengths of the points add up to the length of the boundary, and the length of a point is
half its perimeter. -/
theorem C40_point_lengths (R : Ready w h L isTarget) (e : discretise L isTarget = .ok (b, L')) :
    (b.points.map fun pt => pt.length).sum = b.length ∧
    ∀ pt ∈ b.points, computePerimeter b pt = .ok (2 * pt.length) ∧ 0 ≤ pt.length := by
  have M := made R e
  refine ⟨?_, fun pt hp => ?_⟩
  · rw [total_length M, (C38_segments R e).2.1]
  · obtain ⟨k, hk⟩ := List.mem_iff_getElem?.1 hp
    refine ⟨perimeter_eq M hk, ?_⟩
    rw [point_length M hk, lens_sum]
    refine mul_nonneg (by norm_num) (List.sum_nonneg fun v hv => ?_)
    obtain ⟨s, hs, rfl⟩ := List.mem_map.1 hv
    obtain ⟨p, q, _, _, h3⟩ := M.segment hs
    have : 0 ≤ s.length := by rw [h3]; exact Real.sqrt_nonneg _
    split_ifs <;> simp [this]

/-! ### C41 -/

/-- **C41** (partial): for well behaved values `discretise` reads and writes within its arrays and returns.  Missing: all other values,
for some of which it does have undefined behaviour (see the theorems below). -/
theorem C41_safe_partial (T : Tame w h L isTarget) : ∃ b L', discretise L isTarget = .ok (b, L') := by
  obtain ⟨b, L', e, -⟩ := tame_exact T
  exact ⟨b, L', e⟩

/-- **C41** (partial): exact condition for values that vary by at most one along crossed edges, when all nodes near the contour are active
or masked (or the target is discretised): the call returns iff no cell has all four corners on the contour and no lattice point on the
contour has more than two segments; otherwise it accesses memory out of range. -/
theorem C41_exact_condition_partial (R : Ready w h L isTarget) (G : Gentle w h (level w L isTarget))
    (hN : isTarget = true ∨ NearSeen w h L isTarget) :
    ((∃ b L', discretise L isTarget = .ok (b, L')) ↔ Tidy w h (level w L isTarget)) ∧
    (¬ Tidy w h (level w L isTarget) → discretise L isTarget = .error .ub) := by
  obtain ⟨h1, h2⟩ := defined_iff R G hN
  refine ⟨⟨fun ⟨b, L', e⟩ => h1.1 ⟨_, e⟩, fun hT => ?_⟩, h2⟩
  obtain ⟨r, e⟩ := h1.2 hT
  exact ⟨r.1, r.2, e⟩

/-- **C41** (partial, in reachable states): the same right after the narrow band was built (`C27_after_calls`), on a domain that is not
fixed. -/
theorem C41_fresh_band_partial (hr : Reachable w h L) (hB : BandOk L) (hf : L.isFixedDomain = false)
    (hG : Gentle w h (level w L false)) :
    ((∃ b L', discretise L false = .ok (b, L')) ↔ Tidy w h (level w L false)) ∧
    (¬ Tidy w h (level w L false) → discretise L false = .error .ub) :=
  C41_exact_condition_partial (ready_of_reachable hr) hG (.inr (near_of_band hr hB hf))

/-- **C41** (partial, after reinitialisation): whatever the level set was, after `reinitialise` on a domain that is not fixed, and unless the
reinitialisation moved a node to the other side (`C17_side_kept_partial` says when), the call returns iff the contour is tidy. -/
theorem C41_reinitialised_partial {L0 : LevelSet ℝ} (hr : Reachable w h L0) (hf : L0.isFixedDomain = false) (e : reinitialise L0 = .ok L)
    (hs : ∀ i, i < L0.mesh.nNodes → SameSide (vals L0.signedDistance i) (vals L.signedDistance i)) :
    ((∃ b L', discretise L false = .ok (b, L')) ↔ Tidy w h (level w L false)) ∧
    (¬ Tidy w h (level w L false) → discretise L false = .error .ub) := by
  obtain ⟨-, B, F, -, -, hB⟩ := wp_of_ok (reinitialise_spec hr.core.toWF hr.core.small) e
  exact C41_fresh_band_partial (.call hr (.reinitialise e)) B (by rw [hB.frame]; exact hf) (reinitialise_gentle hr e hs)

/-- **C41** (partial, constructed level sets): for every list of holes, the boundary of the level set built from them is discretised
without error if (on a domain that is not fixed: iff) the contour is tidy. -/
theorem C41_holes_partial (hw : 1 ≤ w) (hh : 1 ≤ h) (hN : (w + 1) * (h + 1) < 2 ^ 31) {holes : List (Hole ℝ)} {moveLimit : ℝ}
    {bandWidth : Nat} (hb : bandWidth < 2 ^ 32) {f : Bool} (e : new w h (.holes holes) moveLimit bandWidth f = .ok L) :
    (Tidy w h (level w L false) → Tame w h L false ∧ ∃ b L', discretise L false = .ok (b, L')) ∧
    (f = false → ¬ Tidy w h (level w L false) → discretise L false = .error .ub) := by
  have hr : Reachable w h L := .new hw hh hN hb e
  have B := built hw hh hN hb e
  have G := holes_gentle hw hh hN hb e
  refine ⟨fun hT => ?_, fun hf => (C41_fresh_band_partial hr B.band (by rw [B.params.2.2, hf]) G).2⟩
  have T : Tame w h L false := ⟨ready_of_reachable hr, G, .inr fun p hp => holes_seen hw hh hN hb e hp, hT⟩
  exact ⟨T, C41_safe_partial T⟩

/-- **C41** (partial, constructed level sets): if every hole is more than one cell away from the edge of the domain and no lattice point
is on the rim of a hole, the boundary is discretised without error, on fixed and free domains. -/
theorem C41_separate_holes_partial (hw : 2 ≤ w) (hh : 2 ≤ h) (hN : (w + 1) * (h + 1) < 2 ^ 31) {holes : List (Hole ℝ)} {moveLimit : ℝ}
    {bandWidth : Nat} (hb : bandWidth < 2 ^ 32) {f : Bool} (e : new w h (.holes holes) moveLimit bandWidth f = .ok L)
    (hin : ∀ c ∈ holes, 1 < c.coord.x - c.r ∧ c.coord.x + c.r < w - 1 ∧ 1 < c.coord.y - c.r ∧ c.coord.y + c.r < h - 1)
    (hgen : ∀ c ∈ holes, ∀ x y, x ≤ w → y ≤ h → 1 / 10 ^ 6 ≤ |distance c.coord (lattice x y) - c.r|) :
    Tame w h L false ∧ ∃ b L', discretise L false = .ok (b, L') :=
  (C41_holes_partial (by omega) (by omega) hN hb e).1 (holes_rim hw hh hN hb e hin hgen).tidy

/-- The hypotheses of `C41_separate_holes_partial` are met by one hole in the middle of the domain. -/
example (f : Bool) : ∃ L : LevelSet ℝ, new 10 10 (.holes [⟨⟨5, 5⟩, 5 / 2⟩]) (1 / 2 : ℝ) 3 f = .ok L ∧ Tame 10 10 L false ∧
    (∃ b L', discretise L false = .ok (b, L')) ∧ CutEdge 10 10 (level 10 L false) (.hor 2 5) := by
  obtain ⟨L, hL⟩ := (C22_accepts_iff (D := ℝ) (w := 10) (h := 10) (by norm_num) (by norm_num) (by norm_num)
    (.holes [⟨⟨5, 5⟩, 5 / 2⟩]) (by simp) (1 / 2) 3 (by norm_num) f).2.2 ⟨by norm_num, by norm_num, by norm_num, fun h => by cases h⟩
  have key : ∀ (x : Nat) (d e : ℝ), x ≤ 10 → (edgeDist 10 10 x 5 : ℝ) = e → |(5 : ℝ) - x| = d → d - 5 / 2 ≤ e →
      level 10 L false x 5 = d - 5 / 2 := by
    intro x d e hx he hd hle
    have := C23_holes_exact (by norm_num) (by norm_num) (by norm_num) (by norm_num) hL (x := x) (y := 5) hx (by norm_num)
    have hdist : distance ⟨5, 5⟩ (lattice x 5) = d := by
      unfold distance lattice
      simp only [Nat.cast_ofNat, sub_self, ne_eq, OfNat.ofNat_ne_zero, not_false_eq_true, zero_pow, add_zero]
      rw [Real.sqrt_sq_eq_abs, hd]
    refine this.unique ⟨.inr ⟨_, List.mem_singleton.2 rfl, by rw [hdist]⟩, ?_⟩
    rintro q (hq | ⟨hole, hm, hq⟩)
    · rw [Set.mem_singleton_iff] at hq; rw [hq, he]; exact hle
    · rw [List.mem_singleton] at hm; subst hm; rw [hq, hdist]
  obtain ⟨T, hd⟩ := C41_separate_holes_partial (by norm_num) (by norm_num) (by norm_num) (by norm_num) hL
    (by simp only [List.mem_singleton, forall_eq]; norm_num)
    (by
      simp only [List.mem_singleton, forall_eq]
      intro x y hx hy
      unfold distance lattice
      dsimp only
      have hz : ((5 : ℝ) - x) ^ 2 + (5 - y) ^ 2 = (((5 - (x : ℤ)) ^ 2 + (5 - (y : ℤ)) ^ 2 : ℤ) : ℝ) := by push_cast; ring
      rw [hz]
      rcases le_or_gt ((5 - (x : ℤ)) ^ 2 + (5 - (y : ℤ)) ^ 2) 6 with h6 | h6
      · have : Real.sqrt (((5 - (x : ℤ)) ^ 2 + (5 - (y : ℤ)) ^ 2 : ℤ) : ℝ) ≤ 2.49 := by
          refine Real.sqrt_le_iff.2 ⟨by norm_num, ?_⟩
          calc (((5 - (x : ℤ)) ^ 2 + (5 - (y : ℤ)) ^ 2 : ℤ) : ℝ) ≤ 6 := by exact_mod_cast h6
            _ ≤ _ := by norm_num
        refine le_abs.2 (.inr ?_)
        linarith
      · have : 2.51 ≤ Real.sqrt (((5 - (x : ℤ)) ^ 2 + (5 - (y : ℤ)) ^ 2 : ℤ) : ℝ) := by
          refine Real.le_sqrt_of_sq_le ?_
          calc (2.51 : ℝ) ^ 2 ≤ 7 := by norm_num
            _ ≤ _ := by exact_mod_cast h6
        refine le_abs.2 (.inl ?_)
        linarith)
  refine ⟨L, hL, T, hd, ?_, ?_, fun x y hp => by cases hp⟩
  · intro q hq
    simp only [Place.ends, List.mem_cons, List.not_mem_nil, or_false] at hq
    rcases hq with rfl | rfl <;> exact ⟨by norm_num, by norm_num⟩
  · refine .inl ⟨?_, ?_⟩
    · rw [nodeSide_inside, key 2 3 2 (by norm_num) (by simp [edgeDist]) (by norm_num) (by norm_num)]; norm_num
    · rw [nodeSide_outside, key 3 2 3 (by norm_num) (by simp [edgeDist]) (by norm_num [abs_of_pos]) (by norm_num)]; norm_num

/-- The boundary of every domain of at least two by two cells without holes is discretised without error, although all its points are
lattice points. -/
theorem C41_plain_partial (hw : 2 ≤ w) (hh : 2 ≤ h) (hN : (w + 1) * (h + 1) < 2 ^ 31) {moveLimit : ℝ} {bandWidth : Nat}
    (hb : bandWidth < 2 ^ 32) {f : Bool} (e : new w h (.holes []) moveLimit bandWidth f = .ok L) :
    Tame w h L false ∧ ∃ b L', discretise L false = .ok (b, L') :=
  (C41_holes_partial (by omega) (by omega) hN hb e).1 (plain_tidy hw hh hN hb e)

/-- **C41** fails: on a domain one cell high (all lattice points are on the contour) discretising accesses memory out of range. -/
theorem C41_thin_domain_undefined (hw : 1 ≤ w) (hN : (w + 1) * (1 + 1) < 2 ^ 31) {moveLimit : ℝ} {bandWidth : Nat}
    (hb : bandWidth < 2 ^ 32) (e : new w 1 (.holes []) moveLimit bandWidth false = .ok L) : discretise L false = .error .ub := by
  refine (C41_holes_partial hw (by norm_num) hN hb e).2 rfl fun T => ?_
  obtain ⟨q, hq, hn⟩ := T.flat 0 0 (by omega) (by omega)
  refine hn ?_
  simp only [List.mem_cons, List.not_mem_nil, or_false] at hq
  rcases hq with rfl | rfl | rfl | rfl <;>
    rw [plain_side (by omega) (by omega) hN hb e (by omega) (by omega)] <;> simp

/-- Such a level set is constructed without complaint. -/
example : ∃ L, new 10 1 (.holes []) (1 / 2 : ℝ) 3 false = .ok L := (C22_accepts_iff (D := ℝ) (w := 10) (h := 1) (by norm_num) (by norm_num)
  (by norm_num) (.holes []) (by simp) (1 / 2) 3 (by norm_num) false).2.2 ⟨by norm_num, by norm_num, by norm_num, fun h => by cases h⟩

/-- **C41** fails: a hole that reaches from the inside to within half a cell of the domain edge gives four segments at a lattice point of
the edge, and discretising accesses memory out of range. -/
theorem C41_hole_at_edge_undefined : ∃ L, new 10 10 (.holes [⟨⟨5, 1⟩, 1 / 2⟩]) (1 / 2 : ℝ) 3 false = .ok L ∧
    discretise L false = .error .ub := by
  obtain ⟨L, hL⟩ := (C22_accepts_iff (D := ℝ) (w := 10) (h := 10) (by norm_num) (by norm_num) (by norm_num)
    (.holes [⟨⟨5, 1⟩, 1 / 2⟩]) (by simp) (1 / 2) 3 (by norm_num) false).2.2 ⟨by norm_num, by norm_num, by norm_num, fun h => by cases h⟩
  refine ⟨L, hL, (C41_holes_partial (by norm_num) (by norm_num) (by norm_num) (by norm_num) hL).2 rfl fun T => ?_⟩
  have V : ∀ (x y : Nat) (d m : ℝ), x ≤ 10 → y ≤ 10 → distance ⟨5, 1⟩ (lattice x y) = d →
      min (edgeDist 10 10 x y : ℝ) (d - 1 / 2) = m → level 10 L false x y = m := by
    intro x y d m hx hy hd hm
    refine (C23_holes_exact (by norm_num) (by norm_num) (by norm_num) (by norm_num) hL hx hy).unique ⟨?_, ?_⟩
    · rcases min_choice (edgeDist 10 10 x y : ℝ) (d - 1 / 2) with hc | hc
      · exact .inl (by rw [← hm, hc]; rfl)
      · exact .inr ⟨_, List.mem_singleton.2 rfl, by rw [← hm, hc, hd]⟩
    · rintro q (hq | ⟨hole, hq, he⟩)
      · rw [Set.mem_singleton_iff] at hq; rw [hq, ← hm]; exact min_le_left _ _
      · rw [List.mem_singleton] at hq; subst hq; rw [he, hd, ← hm]; exact min_le_right _ _
  have d1 : ∀ x y : Nat, (((5 : ℝ) - x) ^ 2 + (1 - y) ^ 2 = 1) → distance ⟨5, 1⟩ (lattice x y) = 1 := by
    intro x y hs
    unfold distance lattice
    dsimp only
    rw [hs, Real.sqrt_one]
  have s50 : nodeSide (level 10 L false 5 0) = .boundary := by
    rw [V 5 0 1 0 (by norm_num) (by norm_num) (d1 5 0 (by norm_num)) (by norm_num [edgeDist]), nodeSide_boundary]; norm_num
  have s60 : nodeSide (level 10 L false 6 0) = .boundary := by
    rw [V 6 0 _ 0 (by norm_num) (by norm_num) rfl ?_, nodeSide_boundary]
    · norm_num
    · have : 1 ≤ distance ⟨5, 1⟩ (lattice 6 0) := by unfold distance lattice; exact Real.one_le_sqrt.2 (by norm_num)
      rw [min_eq_left] <;> norm_num [edgeDist]
      norm_num at this
      linarith
  have s40 : nodeSide (level 10 L false 4 0) = .boundary := by
    rw [V 4 0 _ 0 (by norm_num) (by norm_num) rfl ?_, nodeSide_boundary]
    · norm_num
    · have : 1 ≤ distance ⟨5, 1⟩ (lattice 4 0) := by unfold distance lattice; exact Real.one_le_sqrt.2 (by norm_num)
      rw [min_eq_left] <;> norm_num [edgeDist]
      norm_num at this
      linarith
  have s51 : nodeSide (level 10 L false 5 1) = .outside := by
    rw [V 5 1 0 (-(1 / 2)) (by norm_num) (by norm_num) (by unfold distance lattice; norm_num) (by norm_num [edgeDist]), nodeSide_outside]
    norm_num
  have s61 : nodeSide (level 10 L false 6 1) = .inside := by
    rw [V 6 1 1 (1 / 2) (by norm_num) (by norm_num) (d1 6 1 (by norm_num)) (by norm_num [edgeDist]), nodeSide_inside]; norm_num
  have s41 : nodeSide (level 10 L false 4 1) = .inside := by
    rw [V 4 1 1 (1 / 2) (by norm_num) (by norm_num) (d1 4 1 (by norm_num)) (by norm_num [edgeDist]), nodeSide_inside]; norm_num
  have := T.ends 5 0 (by norm_num) (by norm_num) s50
  unfold latticeEnds at this
  norm_num [s60, s40, s51, s61, s41, cornerEnds] at this
  exact absurd this (by decide)

/-! ### C42 -/

/-- **C42**: if no node value is within `10⁻⁶` of zero (and the values are well behaved), exchanging inside and outside gives the same
boundary: the same points, segments, lengths, limits and flags, in the same order. -/
theorem C42_symmetric (T : Tame w h L isTarget) (G : Generic w h (level w L isTarget)) : ∃ b L1 L2, discretise L isTarget = .ok (b, L1) ∧
    discretise (negated L isTarget) isTarget = .ok (b, L2) := negated_same T G

/-- The hypotheses of `C42_symmetric` are met: a straight front between two columns of nodes. -/
example : ∃ L : LevelSet ℝ, Reachable 5 5 L ∧ Tame 5 5 L true ∧ Generic 5 5 (level 5 L true) ∧ CutEdge 5 5 (level 5 L true) (.hor 1 2) := by
  obtain ⟨L, hL⟩ := (C22_accepts_iff (D := ℝ) (w := 5) (h := 5) (by norm_num) (by norm_num) (by norm_num)
    (.holes []) (by simp) (1 / 2) 3 (by norm_num) false).2.2 ⟨by norm_num, by norm_num, by norm_num, fun h => by cases h⟩
  have hr : Reachable 5 5 L := .new (by norm_num) (by norm_num) (by norm_num) (by norm_num) hL
  have C := hr.core
  have hN : L.mesh.nNodes = 36 := C.grid.nNodes
  refine ⟨_, .call hr (.assign L.signedDistance L.velocity L.gradient ((List.range 36).map fun i => ((i % 6 : ℕ) : ℝ) - 3 / 2)
    C.sd C.velocity C.gradient), ?_⟩
  have V : ∀ x y, x ≤ 5 → y ≤ 5 → vals ((List.range 36).map fun i => ((i % 6 : ℕ) : ℝ) - 3 / 2) (nodeNo 5 x y) = (x : ℝ) - 3 / 2 := by
    intro x y hx hy
    rw [vals_map_range _ (nodeNo_lt (w := 5) (h := 5) hx hy)]
    rw [show nodeNo 5 x y % 6 = x by unfold nodeNo; omega]
  have I : ∀ x : ℕ, 2 ≤ x → nodeSide ((x : ℝ) - 3 / 2) = .inside := by
    intro x hx
    rw [nodeSide_inside]
    have : (2 : ℝ) ≤ x := by exact_mod_cast hx
    norm_num
    linarith
  have O : ∀ x : ℕ, x ≤ 1 → nodeSide ((x : ℝ) - 3 / 2) = .outside := by
    intro x hx
    rw [nodeSide_outside]
    have : (x : ℝ) ≤ 1 := by exact_mod_cast hx
    norm_num
    linarith
  have Gn : Generic 5 5 (fun x y => vals ((List.range 36).map fun i => ((i % 6 : ℕ) : ℝ) - 3 / 2) (nodeNo 5 x y)) := by
    intro x y hx hy
    dsimp only
    rw [V x y hx hy]
    rcases le_or_gt x 1 with hc | hc
    · rw [O x hc]; simp
    · rw [I x hc]; simp
  refine ⟨⟨⟨C.grid, by simp [values, hN], by norm_num⟩, ⟨?_, ?_⟩, .inl rfl, Generic.tidy Gn⟩, Gn, ?_, ?_, fun x y hp => by cases hp⟩
  · intro x y hx hy _
    change |vals _ _ - vals _ _| ≤ 1
    rw [values, if_pos rfl]
    rw [V x y (by omega) hy, V (x + 1) y hx hy]
    push_cast
    rw [abs_le]
    constructor <;> linarith
  · intro x y hx hy _
    change |vals _ _ - vals _ _| ≤ 1
    rw [values, if_pos rfl]
    rw [V x y hx (by omega), V x (y + 1) hx hy]
    simp
  · intro q hq
    simp only [Place.ends, List.mem_cons, List.not_mem_nil, or_false] at hq
    rcases hq with rfl | rfl <;> exact ⟨by norm_num, by norm_num⟩
  · refine .inr ⟨?_, ?_⟩
    · exact (congrArg nodeSide (V 1 2 (by norm_num) (by norm_num))).trans (O 1 (by norm_num))
    · exact (congrArg nodeSide (V 2 2 (by norm_num) (by norm_num))).trans (I 2 (by norm_num))

/-- Without the condition on node values, exchanging inside and outside can change the boundary: the edge of a domain without holes is a
boundary, the edge of the complement (with the same nodes on the contour) is not. -/
theorem C42_needs_generic : ∃ L : LevelSet ℝ, Tame 10 10 L false ∧ Tame 10 10 (negated L false) false ∧
    ∃ b L' b1 L1, discretise L false = .ok (b, L') ∧ b.points ≠ [] ∧ discretise (negated L false) false = .ok (b1, L1) ∧ b1.points = [] := by
  obtain ⟨L, hL⟩ := (C22_accepts_iff (D := ℝ) (w := 10) (h := 10) (by norm_num) (by norm_num) (by norm_num)
    (.holes []) (by simp) (1 / 2) 3 (by norm_num) false).2.2 ⟨by norm_num, by norm_num, by norm_num, fun h => by cases h⟩
  have hr : Reachable 10 10 L := .new (by norm_num) (by norm_num) (by norm_num) (by norm_num) hL
  have B := built (by norm_num) (by norm_num) (by norm_num) (by norm_num) hL
  obtain ⟨T, b, L', e⟩ := C41_plain_partial (by norm_num) (by norm_num) (by norm_num) (by norm_num) hL
  have hS : NearSeen 10 10 L false := near_of_band hr B.band B.params.2.2
  have hl : ∀ x y, level 10 (negated L false) false x y = -(level 10 L false x y) := by
    intro x y
    rw [level_eq, level_eq, values_negated, onGrid_neg]
  have S : ∀ x y, x ≤ 10 → y ≤ 10 → nodeSide (level 10 (negated L false) false x y) =
      if x = 0 ∨ x = 10 ∨ y = 0 ∨ y = 10 then .boundary else .outside := by
    intro x y hx hy
    rw [hl, plain_level (by norm_num) (by norm_num) (by norm_num) (by norm_num) hL hx hy]
    split_ifs with hc
    · rw [(edgeDist_zero hx hy).2 hc, nodeSide_boundary]; norm_num
    · have : (1 : ℝ) ≤ edgeDist 10 10 x y := by
        exact_mod_cast Nat.one_le_iff_ne_zero.2 fun h0 => hc ((edgeDist_zero hx hy).1 h0)
      rw [nodeSide_outside]; norm_num; linarith
  have NI : ∀ x y, x ≤ 10 → y ≤ 10 → nodeSide (level 10 (negated L false) false x y) ≠ .inside := by
    intro x y hx hy
    rw [S x y hx hy]
    split_ifs <;> simp
  have cut : ∀ p, ¬ CutEdge 10 10 (level 10 (negated L false) false) p := by
    rintro p ⟨h1, h2, h3⟩
    cases p with
    | node x y => exact h3 x y rfl
    | hor x y =>
      have a1 := h1 (x, y) (by simp [Place.ends])
      have a2 := h1 (x + 1, y) (by simp [Place.ends])
      rcases h2 with ⟨a, -⟩ | ⟨-, a⟩
      · exact NI _ _ a1.1 a1.2 a
      · exact NI _ _ a2.1 a2.2 a
    | ver x y =>
      have a1 := h1 (x, y) (by simp [Place.ends])
      have a2 := h1 (x, y + 1) (by simp [Place.ends])
      rcases h2 with ⟨a, -⟩ | ⟨-, a⟩
      · exact NI _ _ a1.1 a1.2 a
      · exact NI _ _ a2.1 a2.2 a
  have ends : ∀ x y, x ≤ 10 → y ≤ 10 → (x = 0 ∨ x = 10 ∨ y = 0 ∨ y = 10) → latticeEnds 10 10 (level 10 (negated L false) false) x y = 0 := by
    intro x y hx hy hc
    have key : ∀ {P : Prop} [Decidable P] {x1 y1 x2 y2 x3 y3 : ℕ}, (P → x1 ≤ 10 ∧ y1 ≤ 10 ∧ x2 ≤ 10 ∧ y2 ≤ 10 ∧ x3 ≤ 10 ∧ y3 ≤ 10 ∧
        ((0 < x1 ∧ x1 < 10 ∧ 0 < y1 ∧ y1 < 10) ∨ (0 < x2 ∧ x2 < 10 ∧ 0 < y2 ∧ y2 < 10) ∨ (0 < x3 ∧ x3 < 10 ∧ 0 < y3 ∧ y3 < 10))) →
        (if P then cornerEnds (nodeSide (level 10 (negated L false) false x1 y1)) (nodeSide (level 10 (negated L false) false x2 y2))
          (nodeSide (level 10 (negated L false) false x3 y3)) else 0) = 0 := by
      intro P _ x1 y1 x2 y2 x3 y3 hP
      split_ifs with hp
      · obtain ⟨a1, a2, a3, a4, a5, a6, a7⟩ := hP hp
        unfold cornerEnds
        refine if_pos ⟨?_, NI _ _ a1 a2, NI _ _ a3 a4, NI _ _ a5 a6⟩
        rcases a7 with a7 | a7 | a7
        · exact .inl (by rw [S _ _ a1 a2, if_neg (by omega)])
        · exact .inr (.inl (by rw [S _ _ a3 a4, if_neg (by omega)]))
        · exact .inr (.inr (by rw [S _ _ a5 a6, if_neg (by omega)]))
      · rfl
    unfold latticeEnds
    rw [key (by omega), key (by omega), key (by omega), key (by omega)]
  have edge : ∀ x y, x ≤ 10 → y ≤ 10 → nodeSide (level 10 (negated L false) false x y) = .boundary → x = 0 ∨ x = 10 ∨ y = 0 ∨ y = 10 := by
    intro x y hx hy hb
    by_contra hn
    rw [S x y hx hy, if_neg hn] at hb
    cases hb
  have T1 : Tame 10 10 (negated L false) false := by
    refine ⟨⟨?_, ?_, T.fit⟩, ⟨?_, ?_⟩, .inr fun p hp => absurd hp (cut p), ⟨?_, ?_⟩⟩
    · rw [(negated_mesh L false).1]; exact T.grid
    · rw [(negated_mesh L false).1, values_negated, List.length_map]; exact T.len
    · intro x y hx hy hc
      rcases hc with ⟨a, -⟩ | ⟨-, a⟩
      · exact absurd a (NI _ _ (by omega) hy)
      · exact absurd a (NI _ _ hx hy)
    · intro x y hx hy hc
      rcases hc with ⟨a, -⟩ | ⟨-, a⟩
      · exact absurd a (NI _ _ hx (by omega))
      · exact absurd a (NI _ _ hx hy)
    · intro x y hx hy
      by_contra hc
      push Not at hc
      simp only [List.mem_cons, List.not_mem_nil, or_false, forall_eq_or_imp, forall_eq] at hc
      have := edge _ _ (by omega) (by omega) hc.1
      have := edge _ _ (by omega) (by omega) hc.2.1
      have := edge _ _ (by omega) (by omega) hc.2.2.1
      have := edge _ _ (by omega) (by omega) hc.2.2.2
      omega
    · intro x y hx hy hb
      rw [ends x y hx hy (edge x y hx hy hb)]
      norm_num
  obtain ⟨b1, L1, e1⟩ := C41_safe_partial T1
  have hS1 : NearSeen 10 10 (negated L false) false := by
    intro x y hx hy hv
    rw [hl, abs_neg] at hv
    rw [(negated_mesh L false).1]
    exact hS x y hx hy hv
  refine ⟨L, T, T1, b, L', b1, L1, e, ?_, e1, ?_⟩
  · have := (C39_lattice T (.inr hS) e (x := 0) (y := 0) (by norm_num) (by norm_num)
      (by rw [plain_side (by norm_num) (by norm_num) (by norm_num) (by norm_num) hL (by norm_num) (by norm_num)]; simp)).1.2
      (by rw [plain_ends (by norm_num) (by norm_num) (by norm_num) (by norm_num) hL (by norm_num) (by norm_num) (by norm_num)]; norm_num)
    obtain ⟨pt, hp, -⟩ := this
    exact List.ne_nil_of_mem hp
  · by_contra hne
    obtain ⟨pt, hp⟩ := List.exists_mem_of_ne_nil _ hne
    rcases C39_points T1 e1 hp with ⟨p, hc, -⟩ | ⟨x, y, hx, hy, hb, hc⟩
    · exact cut p hc
    · have := (C39_lattice T1 (.inr hS1) e1 hx hy hb).1.1 ⟨pt, hp, hc⟩
      rw [ends x y hx hy (edge x y hx hy hb)] at this
      omega

/-! ### C43 -/

open Classical in
/-- **C43**: whenever `discretise` returns, the limits and flags of every point: the positive limit is the move limit; the point is
flagged as on the domain edge iff it is within `10⁻⁶` (and the move limit) of it; it is fixed iff the lattice point closest to it is
masked and within `10⁻⁶` (in each coordinate); the negative limit is minus the distance to the domain edge if that is below the move
limit, else minus the move limit, tightened to the distance to the closest lattice point if that is masked and the point not fixed. -/
theorem C43_limits (R : Ready w h L isTarget) (e : discretise L isTarget = .ok (b, L')) {pt : BoundaryPoint ℝ} (hp : pt ∈ b.points) :
    ∃ nx ny nd, nx ≤ w ∧ ny ≤ h ∧ L.mesh.nodes[nodeNo w nx ny]? = some nd ∧
      (∀ kx ky : ℕ, (pt.coord.x - nx) ^ 2 + (pt.coord.y - ny) ^ 2 ≤ (pt.coord.x - kx) ^ 2 + (pt.coord.y - ky) ^ 2) ∧
      pt.positiveLimit = L.moveLimit ∧
      (pt.isDomain = true ↔ distToEdge w h pt.coord < min L.moveLimit (1 / 10 ^ 6)) ∧
      (pt.isFixed = true ↔ nd.isMasked = true ∧ |nx - pt.coord.x| < 1 / 10 ^ 6 ∧ |ny - pt.coord.y| < 1 / 10 ^ 6) ∧
      pt.negativeLimit = -(if nd.isMasked = true ∧ pt.isFixed = false then
        min (min L.moveLimit (distToEdge w h pt.coord)) (Boundary.distance ⟨nx, ny⟩ pt.coord) else min L.moveLimit (distToEdge w h pt.coord)) := by
  have M := made R e
  obtain ⟨k, hk⟩ := List.mem_iff_getElem?.1 hp
  obtain ⟨p, h1, h2, p0, h3, h4⟩ := M.point hk
  obtain ⟨i1, i2, i3, i4⟩ := coord_in h1 h2
  obtain ⟨nx, ny, nd, g1, g2, g3, g4, g5, g6, g7, g8⟩ := initialisePoint_real R.grid R.fit i1 i2 i3 i4 h3
  have ec : pt.coord = p.coord (onGrid w (values L isTarget)) := by rw [h4.coord, initialisePoint_coord h3]
  have e1 : pt.positiveLimit = p0.positiveLimit := by rw [h4.eq]
  have e2 : pt.isDomain = p0.isDomain := by rw [h4.eq]
  have e3 : pt.isFixed = p0.isFixed := by rw [h4.eq]
  have e4 : pt.negativeLimit = p0.negativeLimit := by rw [h4.eq]
  refine ⟨nx, ny, nd, g1, g2, g3, by rw [ec]; exact g4, by rw [e1, g5], by rw [e2, ec, g6], by rw [e3, ec, g7], ?_⟩
  rw [e4, g8, ec]
  congr 1
  refine if_congr ?_ rfl rfl
  rw [e3, ← Bool.not_eq_true, g7]
  tauto

/-! ### C63 -/

/-- **C63**: discretising leaves no trace that changes a later discretisation: after any earlier discretisation (of the level set or of
the target) the same boundary is computed as without it. -/
theorem C63_repeatable {t : Bool} (R : Ready w h L t) (e : discretise L t = .ok (b, L')) (T : Tame w h L isTarget) :
    ∃ b' L1 L2, discretise L isTarget = .ok (b', L1) ∧ discretise L' isTarget = .ok (b', L2) := by
  obtain ⟨A, hL⟩ := (made R e).annot
  rw [hL]
  exact annot_same T A

end

end Slsm
