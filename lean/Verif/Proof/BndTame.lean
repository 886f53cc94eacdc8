import Verif.Proof.BndMade
import Verif.Proof.BndTidy

/-! The discretised boundary of well behaved values, in terms of the specification vocabulary. -/

namespace Slsm

open FP

namespace Boundary

section
variable {w h : Nat} {L L' : LevelSet ℝ} {isTarget : Bool} {b : Boundary ℝ} {sd : List ℝ} {f : Nat → Nat → ℝ}

theorem Tame.setup (T : Tame w h L isTarget) : Setup w h L.mesh (values L isTarget) := ⟨T.grid, T.fit, T.len, T.gentle⟩

theorem edgeAt_ne_node {x y j a c : Nat} : edgeAt x y j ≠ .node a c := by
  unfold edgeAt
  split <;> intro e <;> cases e

theorem Tame.vis (T : Tame w h L isTarget) : Vis w h L.mesh (values L isTarget) isTarget := by
  intro x y j hx hy hj hc
  unfold look
  rcases T.seen with ht | H
  · simp [ht]
  · obtain ⟨q, hq, nd, hnd, hs⟩ := H (edgeAt x y j) ⟨edgeAt_inGrid hx hy hj, (edgeAt_onContour hj).2 hc, fun _ _ => edgeAt_ne_node⟩
    have : Boundary.seen L.mesh (nodeNo w q.1 q.2) = true := by
      unfold Boundary.seen
      rw [hnd]
      simpa using hs
    rcases (edgeAt_ends hj q).1 hq with rfl | rfl
    · rw [this]; simp
    · rw [this]; simp

theorem tame_exact (T : Tame w h L isTarget) : ∃ b L', discretise L isTarget = .ok (b, L') ∧ Exact w h L (values L isTarget) isTarget b L' := by
  obtain ⟨⟨b, L'⟩, h1, h2⟩ := wp_noErr_iff.1 (discretise_safe T.setup T.vis T.tidy)
  exact ⟨b, L', h1, h2⟩

/-! ### places -/

theorem nat_frac {x x' : ℕ} {t t' : ℝ} (h0 : 0 ≤ t) (h1 : t < 1) (h0' : 0 ≤ t') (h1' : t' < 1) (e : (x : ℝ) + t = x' + t') : x = x' ∧ t = t' := by
  have a : (x : ℝ) < x' + 1 := by linarith
  have c : (x' : ℝ) < x + 1 := by linarith
  have a' : x < x' + 1 := by exact_mod_cast a
  have c' : x' < x + 1 := by exact_mod_cast c
  have : x = x' := by omega
  subst this
  exact ⟨rfl, by linarith⟩

/-- Different places on the contour have different coordinates. -/
theorem coord_inj {p p' : Place} (hc : p.onContour f) (hc' : p'.onContour f) (e : p.coord f = p'.coord f) : p = p' := by
  have e1 : (p.coord f).x = (p'.coord f).x := by rw [e]
  have e2 : (p.coord f).y = (p'.coord f).y := by rw [e]
  have z : (0 : ℝ) ≤ 0 := le_refl _
  have o : (0 : ℝ) < 1 := by norm_num
  cases p with
  | node x y =>
    cases p' with
    | node x' y' =>
      simp only [Place.coord] at e1 e2
      rw [show x = x' by exact_mod_cast e1, show y = y' by exact_mod_cast e2]
    | hor x' y' =>
      have := cross_pos hc'
      simp only [Place.coord] at e1
      have := (nat_frac z o this.1.le this.2.1 (by rw [add_zero]; exact e1)).2
      linarith
    | ver x' y' =>
      have := cross_pos hc'
      simp only [Place.coord] at e2
      have := (nat_frac z o this.1.le this.2.1 (by rw [add_zero]; exact e2)).2
      linarith
  | hor x y =>
    have t := cross_pos hc
    cases p' with
    | node x' y' =>
      simp only [Place.coord] at e1
      have := (nat_frac t.1.le t.2.1 z o (by rw [add_zero]; exact e1)).2
      linarith
    | hor x' y' =>
      have t' := cross_pos hc'
      simp only [Place.coord] at e1 e2
      rw [(nat_frac t.1.le t.2.1 t'.1.le t'.2.1 e1).1, show y = y' by exact_mod_cast e2]
    | ver x' y' =>
      simp only [Place.coord] at e1
      have := (nat_frac t.1.le t.2.1 z o (by rw [add_zero]; exact e1)).2
      linarith
  | ver x y =>
    have t := cross_pos hc
    cases p' with
    | node x' y' =>
      simp only [Place.coord] at e2
      have := (nat_frac t.1.le t.2.1 z o (by rw [add_zero]; exact e2)).2
      linarith
    | hor x' y' =>
      simp only [Place.coord] at e2
      have := (nat_frac t.1.le t.2.1 z o (by rw [add_zero]; exact e2)).2
      linarith
    | ver x' y' =>
      have t' := cross_pos hc'
      simp only [Place.coord] at e1 e2
      rw [(nat_frac t.1.le t.2.1 t'.1.le t'.2.1 e2).1, show x = x' by exact_mod_cast e1]

theorem place_inj {x y : Nat} {p q : LP} (hp : p ∈ eight) (hq : q ∈ eight) (e : p.place x y = q.place x y) : p = q := by
  simp only [eight, List.mem_cons, List.not_mem_nil, or_false] at hp hq
  rcases hp with rfl | rfl | rfl | rfl | rfl | rfl | rfl | rfl <;> rcases hq with rfl | rfl | rfl | rfl | rfl | rfl | rfl | rfl <;>
    first
    | rfl
    | (exfalso; simp [LP.place, cornerAt, edgeAt] at e)

theorem place_ofCell {x y : Nat} {p : LP} (hp : p ∈ eight) : (p.place x y).ofCell x y := by
  simp only [eight, List.mem_cons, List.not_mem_nil, or_false] at hp
  rcases hp with rfl | rfl | rfl | rfl | rfl | rfl | rfl | rfl <;>
    · intro q hq
      simp only [LP.place, cornerAt, edgeAt, Place.ends, List.mem_cons, List.not_mem_nil, or_false] at hq
      rcases hq with rfl | rfl <;> simp

theorem cell_eight {m0 : Mesh ℝ} {x y : Nat} {g : LP × LP} (hg : g ∈ cellArcs w m0 sd isTarget x y) : g.1 ∈ eight ∧ g.2 ∈ eight ∧ g.1 ≠ g.2 := by
  obtain ⟨h1, h2, _⟩ := cell_fair w m0 sd isTarget x y
  obtain ⟨h3, h4, h5⟩ := h2 g hg
  exact ⟨fair_eight (h1 _ h3), fair_eight (h1 _ h4), h5⟩

/-- Where a segment comes from. -/
theorem mem_arcs {m0 : Mesh ℝ} {g : Arc} (hg : g ∈ (run w m0 sd isTarget (w * h)).arcs) :
    ∃ x y, x < w ∧ y < h ∧ g.e = cellNo w x y ∧ g.a.ofCell x y ∧ g.b.ofCell x y ∧ g.a ≠ g.b := by
  change g ∈ upTo _ _ at hg
  rw [upTo_mem] at hg
  obtain ⟨e, he, hg⟩ := hg
  obtain ⟨l, hl, rfl⟩ := List.mem_map.1 hg
  obtain ⟨h1, h2, h3⟩ := cell_eight hl
  have hw : 0 < w := by
    rcases Nat.eq_zero_or_pos w with h | h
    · subst h; simp at he
    · exact h
  refine ⟨e % w, e / w, Nat.mod_lt _ hw, (Nat.div_lt_iff_lt_mul hw).2 (by rwa [Nat.mul_comm h w]), ?_, place_ofCell h1, place_ofCell h2, ?_⟩
  · show e = cellNo w (e % w) (e / w)
    unfold cellNo
    have := Nat.mod_add_div e w
    nlinarith
  · intro e
    exact h3 (place_inj h1 h2 e)

theorem coord_ofCell {p : Place} {x y : Nat} (hp : p.ofCell x y) (hc : p.onContour f) :
    x ≤ (p.coord f).x ∧ (p.coord f).x ≤ x + 1 ∧ y ≤ (p.coord f).y ∧ (p.coord f).y ≤ y + 1 := by
  cases p with
  | node a c =>
    have := hp (a, c) (by simp [Place.ends])
    simp only [Place.coord]
    exact_mod_cast this
  | hor a c =>
    have h1 := hp (a, c) (by simp [Place.ends])
    have h2 := hp (a + 1, c) (by simp [Place.ends])
    dsimp only at h1 h2
    have e : a = x := by omega
    subst e
    have t := cross_pos hc
    simp only [Place.coord]
    refine ⟨by linarith, by linarith, ?_, ?_⟩ <;> exact_mod_cast (by omega)
  | ver a c =>
    have h1 := hp (a, c) (by simp [Place.ends])
    have h2 := hp (a, c + 1) (by simp [Place.ends])
    dsimp only at h1 h2
    have e : c = y := by omega
    subst e
    have t := cross_pos hc
    simp only [Place.coord]
    refine ⟨?_, ?_, by linarith, by linarith⟩ <;> exact_mod_cast (by omega)

/-! ### segments and neighbours of a point -/

theorem upTo_segs {segs : List (BoundarySegment ℝ)} (hn : ∀ s ∈ segs, s.start ≠ s.stop) (k n : Nat) :
    upTo (segsAt segs k) n = (List.range n).filter fun i => (segs[i]?).any fun s => decide (s.start = k) || decide (s.stop = k) := by
  induction n with
  | zero => rfl
  | succ n ih =>
    rw [List.range_succ, List.filter_append, ← ih]
    show _ ++ _ = _ ++ _
    congr 1
    unfold segsAt
    rcases hs : segs[n]? with _ | s
    · simp [hs]
    · have hne := hn s (List.mem_of_getElem? hs)
      dsimp only
      by_cases h1 : s.start = k
      · have h2 : k ≠ s.stop := by rw [← h1]; exact hne
        simp [hs, h1, h2]
      · by_cases h2 : s.stop = k
        · simp [hs, h1, h2, Ne.symm h1]
        · simp [hs, h1, h2, Ne.symm h1, Ne.symm h2]

theorem segs_of (hn : ∀ s ∈ b.segments, s.start ≠ s.stop) (k : Nat) : upTo (segsAt b.segments k) b.segments.length = segmentsOf b k :=
  upTo_segs hn k _

theorem upTo_nbrs {segs : List (BoundarySegment ℝ)} (hn : ∀ s ∈ segs, s.start ≠ s.stop) (k n : Nat) :
    upTo (nbrsAt segs k) n = (upTo (segsAt segs k) n).filterMap fun i => (segs[i]?).map fun s => if s.start = k then s.stop else s.start := by
  induction n with
  | zero => rfl
  | succ n ih =>
    show _ ++ _ = (_ ++ _ : List Nat).filterMap _
    rw [List.filterMap_append, ← ih]
    congr 1
    unfold segsAt nbrsAt
    rcases hs : segs[n]? with _ | s
    · simp
    · have hne := hn s (List.mem_of_getElem? hs)
      dsimp only
      by_cases h1 : s.start = k
      · have h2 : k ≠ s.stop := by rw [← h1]; exact hne
        simp [hs, h1, h2]
      · by_cases h2 : s.stop = k
        · simp [hs, h1, h2, Ne.symm h1]
        · simp [h1, h2, Ne.symm h1, Ne.symm h2]

theorem nbrs_of (hn : ∀ s ∈ b.segments, s.start ≠ s.stop) (k : Nat) : upTo (nbrsAt b.segments k) b.segments.length = neighboursOf b k := by
  rw [upTo_nbrs hn, segs_of hn]
  rfl

theorem Exact.segment (E : Exact w h L sd isTarget b L') {s : BoundarySegment ℝ} (hs : s ∈ b.segments) :
    ∃ x y p q, x < w ∧ y < h ∧ s.element = cellNo w x y ∧ (p : Place).ofCell x y ∧ (q : Place).ofCell x y ∧ p ≠ q ∧
      p.onContour (onGrid w sd) ∧ q.onContour (onGrid w sd) ∧
      (∃ pt, b.points[s.start]? = some pt ∧ pt.coord = p.coord (onGrid w sd)) ∧
      (∃ pt, b.points[s.stop]? = some pt ∧ pt.coord = q.coord (onGrid w sd)) ∧ s.start ≠ s.stop := by
  obtain ⟨W, R, _, hb, hl, _⟩ := E.rep
  rw [hb] at hs
  change s ∈ W.bnd.segments at hs
  rw [R.segs] at hs
  obtain ⟨g, hg, rfl⟩ := List.mem_map.1 hs
  obtain ⟨x, y, hx, hy, he, ha, hb', hne⟩ := mem_arcs hg
  obtain ⟨ka, kb⟩ := R.arcMem g hg
  have key : ∀ p ∈ (run w L.mesh sd isTarget (w * h)).keys, ∃ pt,
      b.points[(run w L.mesh sd isTarget (w * h)).keys.idxOf p]? = some pt ∧ pt.coord = p.coord (onGrid w sd) := by
    intro p hp
    obtain ⟨pt, h1, h2⟩ := R.pts _ p (List.getElem?_idxOf hp)
    obtain ⟨q, h3, h4⟩ := hl.pt _ _ h1
    refine ⟨q, h3, ?_⟩
    rw [h4.coord, initialisePoint_coord h2]
  refine ⟨x, y, g.a, g.b, hx, hy, he, ha, hb', hne, (R.contour _ ka).2, (R.contour _ kb).2, key _ ka, key _ kb, ?_⟩
  intro e
  change List.idxOf g.a _ = List.idxOf g.b _ at e
  exact hne (List.idxOf_inj ka |>.1 e)

/-- The points, one for each place. -/
theorem Exact.point (E : Exact w h L sd isTarget b L') {k : Nat} {pt : BoundaryPoint ℝ} (hk : b.points[k]? = some pt) :
    ∃ p, (run w L.mesh sd isTarget (w * h)).keys[k]? = some p ∧ p.inGrid w h ∧ p.onContour (onGrid w sd) ∧ pt.coord = p.coord (onGrid w sd) ∧
      pt.nSegments = occ p (run w L.mesh sd isTarget (w * h)).pairs ∧ pt.nNeighbours = pt.nSegments ∧
      pt.segments.take pt.nSegments = segmentsOf b k ∧ pt.neighbours.take pt.nNeighbours = neighboursOf b k ∧
      (segmentsOf b k).length = pt.nSegments := by
  have hn : ∀ s ∈ b.segments, s.start ≠ s.stop := fun s hs => by
    obtain ⟨_, _, _, _, _, _, _, _, _, _, _, _, _, _, h⟩ := E.segment hs
    exact h
  obtain ⟨W, R, _, hb, hl, _⟩ := E.rep
  have hlt : k < W.bnd.points.length := by rw [← hl.len]; exact (List.getElem?_eq_some_iff.1 hk).1
  have hlk : k < (run w L.mesh sd isTarget (w * h)).keys.length := by rw [← R.plen]; exact hlt
  obtain ⟨q, h3, h4⟩ := hl.pt k _ (List.getElem?_eq_getElem hlt)
  rw [hk] at h3
  cases h3
  have hp := List.getElem_mem hlk
  obtain ⟨p0, h1, h2⟩ := R.pts k _ (List.getElem?_eq_getElem hlk)
  rw [List.getElem?_eq_getElem hlt] at h1
  cases h1
  have es : b.segments = W.bnd.segments := by rw [hb]
  rw [← es] at h4
  have hd := degree_occ (f := onGrid w sd) R.arcMem hp
  rw [R.nodup.idxOf_getElem k hlk, ← R.segs, ← es] at hd
  have e1 : pt.nSegments = degree b.segments k := by rw [h4.eq]; rfl
  have e2 : pt.nNeighbours = degree b.segments k := by
    rw [h4.eq]
    exact (segs_nbrs b.segments k b.segments.length).symm
  have e3 : degree b.segments k = (segmentsOf b k).length := by rw [← segs_of hn]; rfl
  refine ⟨_, List.getElem?_eq_getElem hlk, (R.contour _ hp).1, (R.contour _ hp).2, ?_, ?_, ?_, ?_, ?_, ?_⟩
  · rw [h4.coord, initialisePoint_coord h2]
  · rw [e1, hd]; rfl
  · rw [e1, e2]
  · rw [← segs_of hn, e1]; exact h4.stake
  · rw [← nbrs_of hn, e2]; unfold degree; rw [segs_nbrs]; exact h4.ntake
  · rw [e1, e3]

theorem Exact.ofKey (E : Exact w h L sd isTarget b L') {p : Place} (hp : p ∈ (run w L.mesh sd isTarget (w * h)).keys) :
    ∃ (k : Nat) (pt : BoundaryPoint ℝ), (run w L.mesh sd isTarget (w * h)).keys[k]? = some p ∧ b.points[k]? = some pt ∧ pt.coord = p.coord (onGrid w sd) := by
  obtain ⟨W, R, _, hb, hl, _⟩ := E.rep
  obtain ⟨pt, h1, h2⟩ := R.pts _ p (List.getElem?_idxOf hp)
  obtain ⟨q, h3, h4⟩ := hl.pt _ _ h1
  exact ⟨_, q, List.getElem?_idxOf hp, h3, by rw [h4.coord, initialisePoint_coord h2]⟩

theorem Exact.unique (E : Exact w h L sd isTarget b L') {k k' : Nat} {pt pt' : BoundaryPoint ℝ} (hk : b.points[k]? = some pt)
    (hk' : b.points[k']? = some pt') (e : pt.coord = pt'.coord) : k = k' := by
  obtain ⟨p, h1, _, h2, h3, _⟩ := E.point hk
  obtain ⟨p', h1', _, h2', h3', _⟩ := E.point hk'
  have : p = p' := coord_inj h2 h2' (by rw [← h3, ← h3', e])
  subst this
  obtain ⟨W, R, _⟩ := E.rep
  exact (List.getElem?_inj (List.getElem?_eq_some_iff.1 h1).1 R.nodup).1 (h1.trans h1'.symm)

/-- Edges on the domain edge have one cell. -/
theorem cells_rim (hw : 1 ≤ w) (hh : 1 ≤ h) {p : Place} (hp : CutEdge w h f p) :
    (distToEdge w h (p.coord f) = 0 ↔ p.onRim w h) ∧ ((p.onRim w h) → (p.cells w h).length = 1) ∧ (¬ (p.onRim w h) → (p.cells w h).length = 2) := by
  obtain ⟨hg, hc, hn⟩ := hp
  cases p with
  | node x y => exact absurd rfl (hn x y)
  | hor x y =>
    have h1 := hg (x + 1, y) (by simp [Place.ends])
    dsimp only at h1
    have t := cross_pos hc
    have hx : (x : ℝ) + 1 ≤ w := by exact_mod_cast h1.1
    have hy : (y : ℝ) ≤ h := by exact_mod_cast h1.2
    have x0 : (0 : ℝ) ≤ x := by positivity
    have y0 : (0 : ℝ) ≤ y := by positivity
    refine ⟨?_, ?_, ?_⟩
    · simp only [distToEdge, Place.coord, Place.onRim]
      constructor
      · intro e
        by_contra hcon
        rw [not_or] at hcon
        have a : (0 : ℝ) < y := by exact_mod_cast Nat.pos_of_ne_zero hcon.1
        have c : (y : ℝ) < h := by exact_mod_cast lt_of_le_of_ne h1.2 hcon.2
        have : 0 < Min.min (Min.min ((x : ℝ) + f x y / (f x y - f (x + 1) y)) (w - (x + f x y / (f x y - f (x + 1) y)))) (Min.min (y : ℝ) (h - y)) := by
          refine lt_min (lt_min ?_ ?_) (lt_min a ?_) <;> linarith
        linarith
      · intro e
        refine le_antisymm ?_ ?_
        · refine (min_le_right _ _).trans ?_
          rcases e with rfl | rfl
          · exact (min_le_left _ _).trans (by simp)
          · exact (min_le_right _ _).trans (by simp)
        · refine le_min (le_min ?_ ?_) (le_min y0 ?_) <;> linarith
    · rintro (rfl | rfl)
      · simp [Place.cells, show 0 < h by omega]
      · simp [Place.cells, show 0 < y by omega]
    · intro e
      simp only [Place.onRim, not_or] at e
      simp [Place.cells, Nat.pos_of_ne_zero e.1, lt_of_le_of_ne h1.2 e.2]
  | ver x y =>
    have h1 := hg (x, y + 1) (by simp [Place.ends])
    dsimp only at h1
    have t := cross_pos hc
    have hx : (x : ℝ) ≤ w := by exact_mod_cast h1.1
    have hy : (y : ℝ) + 1 ≤ h := by exact_mod_cast h1.2
    have x0 : (0 : ℝ) ≤ x := by positivity
    have y0 : (0 : ℝ) ≤ y := by positivity
    refine ⟨?_, ?_, ?_⟩
    · simp only [distToEdge, Place.coord, Place.onRim]
      constructor
      · intro e
        by_contra hcon
        rw [not_or] at hcon
        have a : (0 : ℝ) < x := by exact_mod_cast Nat.pos_of_ne_zero hcon.1
        have c : (x : ℝ) < w := by exact_mod_cast lt_of_le_of_ne h1.1 hcon.2
        have : 0 < Min.min (Min.min (x : ℝ) (w - x)) (Min.min ((y : ℝ) + f x y / (f x y - f x (y + 1))) (h - (y + f x y / (f x y - f x (y + 1))))) := by
          refine lt_min (lt_min a ?_) (lt_min ?_ ?_) <;> linarith
        linarith
      · intro e
        refine le_antisymm ?_ ?_
        · refine (min_le_left _ _).trans ?_
          rcases e with rfl | rfl
          · exact (min_le_left _ _).trans (by simp)
          · exact (min_le_right _ _).trans (by simp)
        · refine le_min (le_min x0 ?_) (le_min ?_ ?_) <;> linarith
    · rintro (rfl | rfl)
      · simp [Place.cells, show 0 < w by omega]
      · simp [Place.cells, show 0 < x by omega]
    · intro e
      simp only [Place.onRim, not_or] at e
      simp [Place.cells, Nat.pos_of_ne_zero e.1, lt_of_le_of_ne h1.1 e.2]

/-- Every end of a segment is counted at one point. -/
theorem sum_degrees (E : Exact w h L sd isTarget b L') : (b.points.map fun p => p.nSegments).sum = 2 * b.segments.length := by
  have hlt : ∀ s ∈ b.segments, s.start < b.points.length ∧ s.stop < b.points.length := by
    intro s hs
    obtain ⟨_, _, _, _, _, _, _, _, _, _, _, _, ⟨p, hp, _⟩, ⟨q, hq, _⟩, _⟩ := E.segment hs
    exact ⟨(List.getElem?_eq_some_iff.1 hp).1, (List.getElem?_eq_some_iff.1 hq).1⟩
  have hn : ∀ s ∈ b.segments, s.start ≠ s.stop := fun s hs => by
    obtain ⟨_, _, _, _, _, _, _, _, _, _, _, _, _, _, h⟩ := E.segment hs
    exact h
  have e1 : (b.points.map fun p => p.nSegments) = (List.range b.points.length).map fun j => degree b.segments j := by
    refine List.ext_getElem? fun k => ?_
    rw [List.getElem?_map, List.getElem?_map]
    by_cases hk : k < b.points.length
    · obtain ⟨p, _, _, _, _, _, _, _, _, h9⟩ := E.point (List.getElem?_eq_getElem hk)
      rw [List.getElem?_range hk, List.getElem?_eq_getElem hk, Option.map_some, Option.map_some, ← h9, ← segs_of hn]
      rfl
    · rw [List.getElem?_eq_none (by omega), List.getElem?_eq_none (by simp; omega)]
      rfl
  rw [e1, sum_range_map]
  simp only [degree_eq]
  generalize b.points.length = n at hlt
  generalize b.segments = segs at hlt
  induction segs with
  | nil => simp
  | cons g l ih =>
    have ih := ih fun s hs => hlt s (List.mem_cons_of_mem _ hs)
    obtain ⟨h1, h2⟩ := hlt g List.mem_cons_self
    simp only [List.map_cons, List.sum_cons, List.length_cons, endsAt]
    rw [Finset.sum_add_distrib, Finset.sum_add_distrib, Finset.sum_ite_eq', Finset.sum_ite_eq', if_pos (Finset.mem_range.2 h1),
      if_pos (Finset.mem_range.2 h2), ih]
    ring

end

end Boundary

end Slsm
