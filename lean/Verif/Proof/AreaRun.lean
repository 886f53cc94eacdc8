import Verif.Proof.AreaCell
import Verif.Proof.BndFlat

/-! Area fractions: the loops, and the area of a cut cell. -/

namespace Slsm

open FP Boundary

namespace Area

/-! ### the loop over all elements -/

section
variable {D : Type} [FP D]

theorem cutArea_nodes {m m' : Mesh D} (b : Boundary D) (el : Element D) (e : m'.nodes = m.nodes) : cutArea m' b el = cutArea m b el := by
  unfold cutArea
  have : nodeVertex m' el = nodeVertex m el := by
    funext i s
    unfold nodeVertex
    rw [e]
  rw [this]

theorem areaOf_nodes {m m' : Mesh D} (b : Boundary D) (el : Element D) (e : m'.nodes = m.nodes) : areaOf m' b el = areaOf m b el := by
  unfold areaOf
  rw [cutArea_nodes b el e]

/-- The state after `n` elements. -/
structure Filled (L : LevelSet D) (b : Boundary D) (n : Nat) (as : List D) (L1 : LevelSet D) : Prop where
  eq : L1 = { L with mesh := { L.mesh with elements := L1.mesh.elements }, area := as.foldl (· +. ·) (nat 0) }
  count : as.length = n
  done : ∀ (i : Nat) (a : D), as[i]? = some a → ∃ el, L.mesh.elements[i]? = some el ∧ areaOf L.mesh b el = .ok a ∧ L1.mesh.elements[i]? = some { el with area := a }
  rest : ∀ i : Nat, n ≤ i → L1.mesh.elements[i]? = L.mesh.elements[i]?

theorem fill_wp (L : LevelSet D) (b : Boundary D) :
    wp (computeAreaFractions L b) (fun L1 => ∃ as, Filled L b L.mesh.nElements as L1)
      (fun e => (L.mesh.elements.length < L.mesh.nElements ∧ e = .ub) ∨
        ∃ i el, i < L.mesh.nElements ∧ L.mesh.elements[i]? = some el ∧ areaOf L.mesh b el = .error e) := by
  unfold computeAreaFractions
  refine wp_forN (fun n L1 => ∃ as, Filled L b n as L1) ⟨[], rfl, rfl, fun i a h => (by cases h), fun i _ => rfl⟩ ?_
  rintro i hi L1 ⟨as, F⟩
  have hnodes : L1.mesh.nodes = L.mesh.nodes := by rw [F.eq]
  unfold areaStep
  rw [wp_bind]
  rcases hel : L1.mesh.elements[i]? with _ | el
  · have hlen : L.mesh.elements[i]? = none := by rw [← F.rest i (le_refl _)]; exact hel
    rw [List.getElem?_eq_none_iff] at hlen hel
    rw [rd_ub hel]
    exact .inl ⟨by omega, rfl⟩
  · rw [rd_of_getElem? hel, wp_ok]
    have hel' : L.mesh.elements[i]? = some el := by rw [← F.rest i (le_refl _)]; exact hel
    rw [wp_bind, areaOf_nodes b el hnodes]
    rcases ha : areaOf L.mesh b el with err | a
    · exact .inr ⟨i, el, hi, hel', ha⟩
    · rw [wp_ok]
      have hlt : i < L1.mesh.elements.length := (List.getElem?_eq_some_iff.1 hel).1
      rw [wr_eq _ hlt, wp_bind, wp_ok]
      refine ⟨as ++ [a], ?_, by rw [List.length_append, F.count]; rfl, ?_, ?_⟩
      · rw [List.foldl_append]
        have e1 : L1.area = as.foldl (· +. ·) (nat 0) := by rw [F.eq]
        rw [e1]
        conv_lhs => rw [F.eq]
        rfl
      · intro j c hj
        change ∃ el0, L.mesh.elements[j]? = some el0 ∧ areaOf L.mesh b el0 = .ok c ∧
          (L1.mesh.elements.set i { el with area := a })[j]? = some { el0 with area := c }
        rcases Nat.lt_trichotomy j as.length with h | h | h
        · rw [List.getElem?_append_left h] at hj
          obtain ⟨el0, h1, h2, h3⟩ := F.done j c hj
          have : i ≠ j := by have := F.count; omega
          exact ⟨el0, h1, h2, by rw [List.getElem?_set_ne this]; exact h3⟩
        · rw [List.getElem?_append_right (by omega), h, Nat.sub_self] at hj
          cases hj
          have hji : j = i := by rw [h, F.count]
          subst hji
          exact ⟨el, hel', ha, by rw [List.getElem?_set_self hlt]⟩
        · rw [List.getElem?_eq_none (by rw [List.length_append, List.length_singleton]; omega)] at hj
          cases hj
      · intro j hj
        change (L1.mesh.elements.set i { el with area := a })[j]? = _
        rw [List.getElem?_set_ne (by omega)]
        exact F.rest j (by omega)

theorem filled {L L1 : LevelSet D} {b : Boundary D} (e : computeAreaFractions L b = .ok L1) : ∃ as, Filled L b L.mesh.nElements as L1 := by
  have := fill_wp L b
  rw [e] at this
  exact this

end

/-! ### the shoelace formula -/

theorem polygonArea_real {v : List (Coord ℝ)} {n : Nat} (c : Coord ℝ) (hn : n ≤ v.length) (h32 : n < 4294967296) :
    polygonArea v n c = .ok |ringSum (sort (isClockwise c) (v.take n)) / 2| := by
  unfold polygonArea
  rw [if_neg (Nat.not_lt.2 hn)]
  have hlen : (sort (isClockwise c) (v.take n)).length = n := by
    rw [(sort_perm _ _).length_eq, List.length_take]; omega
  generalize sort (isClockwise c) (v.take n) = s at *
  have hfor : forN n (nat 0) (shoelaceStep (s ++ v.drop n) n) = .ok (((List.zipWith cross s (s.rotate 1)).take n).sum) := by
    refine forN_eq (fun i => ((List.zipWith cross s (s.rotate 1)).take i).sum) (by simp) ?_
    intro i hi
    have hi' : i < s.length := by omega
    have hz : i < (List.zipWith cross s (s.rotate 1)).length := by simp; omega
    unfold shoelaceStep
    have hj : (if i = LevelSet.sub32 n 1 then 0 else u32 (i + 1)) = (i + 1) % s.length := by
      rw [sub32_eq (by omega) h32, hlen]
      by_cases h : i = n - 1
      · rw [if_pos h]
        have : i + 1 = n := by omega
        rw [this, Nat.mod_self]
      · rw [if_neg h, u32_of_lt (by omega), Nat.mod_eq_of_lt (by omega)]
    have hj' : (i + 1) % s.length < s.length := Nat.mod_lt _ (by omega)
    rw [hj]
    dsimp only
    rw [rd_of_getElem? (by rw [List.getElem?_append_left hi', List.getElem?_eq_getElem hi']),
      rd_of_getElem? (by rw [List.getElem?_append_left hj', List.getElem?_eq_getElem hj'])]
    simp only [bind, Except.bind, pure, Except.pure]
    rw [List.take_succ_eq_append_getElem hz, List.sum_append, List.sum_singleton, List.getElem_zipWith, List.getElem_rotate]
    congr 1
    unfold cross
    simp
    ring
  dsimp only
  rw [hfor]
  simp only [bind, Except.bind, pure, Except.pure]
  have : (List.zipWith cross s (s.rotate 1)).take n = List.zipWith cross s (s.rotate 1) := by
    apply List.take_of_length_le
    simp [hlen]
  rw [this]
  congr 1
  unfold ringSum
  simp [abs_div, div_eq_mul_inv]

/-! ### collecting vertices -/

/-- `l` are the vertices collected so far. -/
structure Coll (l : List (Coord ℝ)) (s : List (Coord ℝ) × Nat) : Prop where
  len : s.1.length = 6
  count : s.2 = l.length
  take : s.1.take s.2 = l

theorem Coll.push {l : List (Coord ℝ)} {s : List (Coord ℝ) × Nat} (C : Coll l s) (c : Coord ℝ) (hl : l.length < 6) :
    ∃ t, pushVertex c s = .ok t ∧ Coll (l ++ [c]) t := by
  have h : s.2 < s.1.length := by rw [C.len, C.count]; exact hl
  unfold pushVertex
  rw [wr_eq _ h]
  refine ⟨_, rfl, by simp [C.len], by simp [C.count], ?_⟩
  dsimp only
  rw [List.take_succ_eq_append_getElem (by simpa using h)]
  simp [List.take_set_of_le, C.take]

/-! ### arcs of one cell -/

theorem filterMap_any {α : Type} (g : α → Bool) (l : List α) :
    ((List.range l.length).filter (fun k => (l[k]?).any g)).filterMap (fun k => l[k]?) = l.filter g := by
  induction l using List.reverseRecOn with
  | nil => rfl
  | append_singleton l a ih =>
    rw [filter_any_snoc, List.filterMap_append, List.filter_append]
    congr 1
    · rw [← ih]
      refine List.filterMap_congr fun k hk => ?_
      rw [List.getElem?_append_left]
      exact List.mem_range.1 (List.mem_of_mem_filter hk)
    · by_cases h : g a = true
      · simp [h]
      · simp [h]

theorem upTo_filter {G : Nat → List Arc} (hG : ∀ i, ∀ g ∈ G i, g.e = i) {e n : Nat} (he : e < n) :
    (upTo G n).filter (fun g => decide (g.e = e)) = G e := by
  induction n with
  | zero => omega
  | succ n ih =>
    change (upTo G n ++ G n).filter _ = _
    rw [List.filter_append]
    rcases Nat.lt_or_ge e n with h | h
    · rw [ih h]
      have : (G n).filter (fun g => decide (g.e = e)) = [] := by
        rw [List.filter_eq_nil_iff]
        intro g hg
        rw [hG n g hg]
        simp; omega
      rw [this, List.append_nil]
    · have hen : e = n := by omega
      subst hen
      have h1 : (upTo G e).filter (fun g => decide (g.e = e)) = [] := by
        rw [List.filter_eq_nil_iff]
        intro g hg
        obtain ⟨j, hj, hg⟩ := upTo_mem.1 hg
        rw [hG j g hg]
        simp; omega
      have h2 : (G e).filter (fun g => decide (g.e = e)) = G e := by
        rw [List.filter_eq_self]
        intro g hg
        rw [hG e g hg]
        simp
      rw [h1, h2, List.nil_append]

section
variable {w h : Nat} {L L' : LevelSet ℝ} {sd : List ℝ} {isTarget : Bool} {b : Boundary ℝ} {x y : Nat}

theorem cell_arcs (hx : x < w) (hy : y < h) (m : Mesh ℝ) :
    (segsOf (run w m sd isTarget (w * h)).arcs (cellNo w x y)).filterMap (fun k => (run w m sd isTarget (w * h)).arcs[k]?) =
      (cellArcs w m sd isTarget x y).map (arcAt x y (cellNo w x y)) := by
  unfold segsOf
  rw [filterMap_any]
  have em : cellNo w x y % w = x := idx_mod hx
  have ed : cellNo w x y / w = y := idx_div hx
  change (upTo _ (w * h)).filter _ = _
  rw [upTo_filter (fun i g hg => ?_) (show cellNo w x y < w * h from idx_lt hx hy), em, ed]
  obtain ⟨q, -, rfl⟩ := List.mem_map.1 hg
  rfl

/-- Segment `i` of the cell joins the points of arc `i`. -/
theorem cell_segment (E : Exact w h L sd isTarget b L') (hg : IsGrid w h L.mesh) (hx : x < w) (hy : y < h) {el : Element ℝ}
    (hel : L'.mesh.elements[cellNo w x y]? = some el) :
    el.status = finalStatus w L.mesh sd isTarget x y ∧ el.nBoundarySegments = (cellArcs w L.mesh sd isTarget x y).length ∧
    ∀ (i : Nat) (a : LP × LP), (cellArcs w L.mesh sd isTarget x y)[i]? = some a → ∃ (k : Nat) (s : BoundarySegment ℝ) (p q : BoundaryPoint ℝ), el.boundarySegments[i]? = some k ∧
      b.segments[k]? = some s ∧ b.points[s.start]? = some p ∧ p.coord = (a.1.place x y).coord (onGrid w sd) ∧
      b.points[s.stop]? = some q ∧ q.coord = (a.2.place x y).coord (onGrid w sd) := by
  obtain ⟨W, R, hm, hb, hl, -⟩ := E.rep
  rw [hm] at hel
  obtain ⟨h1, h2, h3⟩ := R.elems _ _ hel
  have hc := cell_arcs (sd := sd) (isTarget := isTarget) hx hy L.mesh
  have em : cellNo w x y % w = x := idx_mod hx
  have ed : cellNo w x y / w = y := idx_div hx
  have key : ∀ p ∈ (run w L.mesh sd isTarget (w * h)).keys, ∃ pt,
      b.points[(run w L.mesh sd isTarget (w * h)).keys.idxOf p]? = some pt ∧ pt.coord = p.coord (onGrid w sd) := by
    intro p hp
    obtain ⟨pt, h1, h2⟩ := R.pts _ p (List.getElem?_idxOf hp)
    obtain ⟨q, h3, h4⟩ := hl.pt _ _ h1
    exact ⟨q, h3, by rw [h4.coord, initialisePoint_coord h2]⟩
  -- every entry refers to an arc
  have hall : ∀ k ∈ segsOf (run w L.mesh sd isTarget (w * h)).arcs (cellNo w x y), ∃ g, (run w L.mesh sd isTarget (w * h)).arcs[k]? = some g := by
    intro k hk
    have := List.mem_range.1 (List.mem_of_mem_filter hk)
    exact ⟨_, List.getElem?_eq_getElem this⟩
  have hlist : ∀ l : List Nat, (∀ k ∈ l, ∃ g, (run w L.mesh sd isTarget (w * h)).arcs[k]? = some g) → ∀ i : Nat,
      (l.filterMap fun k => (run w L.mesh sd isTarget (w * h)).arcs[k]?).length = l.length ∧
      (l.filterMap fun k => (run w L.mesh sd isTarget (w * h)).arcs[k]?)[i]? = (l[i]?).bind fun k => (run w L.mesh sd isTarget (w * h)).arcs[k]? := by
    intro l
    induction l with
    | nil => intro _ i; simp
    | cons k l ih =>
      intro hl i
      obtain ⟨g, hg⟩ := hl k (by simp)
      have ih := ih fun k hk => hl k (by simp [hk])
      rw [List.filterMap_cons_some hg]
      refine ⟨by simp [(ih 0).1], ?_⟩
      cases i with
      | zero => simp [hg]
      | succ i => simpa using (ih i).2
  refine ⟨?_, ?_, ?_⟩
  · rw [h1]
    show (if cellNo w x y < w * h then _ else _) = _
    rw [if_pos (show cellNo w x y < w * h from idx_lt hx hy), em, ed]
  · rw [h3, ← (hlist _ hall 0).1, hc, List.length_map]
  · intro i a ha
    have h4 := (hlist _ hall i).2
    rw [hc, List.getElem?_map, ha] at h4
    rcases hk : (segsOf (run w L.mesh sd isTarget (w * h)).arcs (cellNo w x y))[i]? with _ | k
    · rw [hk] at h4; cases h4
    · rw [hk] at h4
      simp only [Option.map_some, Option.bind_some] at h4
      have hk' : el.boundarySegments[i]? = some k := by
        rw [← h2] at hk
        rw [List.getElem?_take] at hk
        split at hk
        · exact hk
        · cases hk
      obtain ⟨ka, kb⟩ := R.arcMem _ (List.mem_of_getElem? h4.symm)
      obtain ⟨p, hp, hpc⟩ := key _ ka
      obtain ⟨q, hq, hqc⟩ := key _ kb
      refine ⟨k, toSeg (onGrid w sd) (run w L.mesh sd isTarget (w * h)).keys (arcAt x y (cellNo w x y) a), p, q, hk', ?_, hp, hpc, hq, hqc⟩
      rw [hb]
      show W.bnd.segments[k]? = _
      rw [R.segs, List.getElem?_map, ← h4]
      rfl

/-! ### collecting the vertices of a cell -/

theorem arcV_take {l : List (LP × LP)} {i : Nat} {a : LP × LP} (h : l[i]? = some a) : arcV (l.take (i + 1)) = arcV (l.take i) ++ [a.1, a.2] := by
  obtain ⟨hi, rfl⟩ := List.getElem?_eq_some_iff.1 h
  unfold arcV
  rw [List.take_succ_eq_append_getElem hi, List.flatMap_append]
  rfl

theorem arcV_take_le (l : List (LP × LP)) (i : Nat) : (arcV (l.take i)).length ≤ (arcV l).length := by
  conv_rhs => rw [← List.take_append_drop i l]
  simp [arcV, List.flatMap_append]

theorem upTo_le {α : Type} (g : Nat → List α) {i n : Nat} (h : i ≤ n) : (upTo g i).length ≤ (upTo g n).length := by
  induction n with
  | zero =>
    have : i = 0 := by omega
    subst this; exact le_refl _
  | succ n ih =>
    rcases Nat.lt_or_ge n i with h' | h'
    · have : i = n + 1 := by omega
      subst this; exact le_refl _
    · refine (ih h').trans ?_
      change _ ≤ (upTo g n ++ g n).length
      rw [List.length_append]; omega

theorem cut_collect (E : Exact w h L sd isTarget b L') (S : Setup w h L.mesh sd) (hx : x < w) (hy : y < h) {el : Element ℝ}
    (hel : L'.mesh.elements[cellNo w x y]? = some el)
    (h6 : (verts (side w sd x y) (look w L.mesh isTarget x y) (firstWay w sd x y) (soughtSide el)).length ≤ 6) :
    cutArea L'.mesh b el = .ok (
      let a := |ringSum (sort (isClockwise ⟨(x : ℝ) + 1/2, (y : ℝ) + 1/2⟩)
        ((verts (side w sd x y) (look w L.mesh isTarget x y) (firstWay w sd x y) (soughtSide el)).map fun p => (p.place x y).coord (onGrid w sd))) / 2|
      if el.status = .centreOutside then 1 - a else a) := by
  obtain ⟨hst, hnb, hseg⟩ := cell_segment E S.grid hx hy hel
  obtain ⟨W, R, hm, -⟩ := E.rep
  have G : IsGrid w h L'.mesh := by rw [hm]; exact R.annot.grid S.grid
  have hco := G.corner x y el hx hy hel
  have hce := G.centre x y el hx hy hel
  have hnode : ∀ j, j < 4 → ∃ n nd, el.nodes[j]? = some n ∧ L'.mesh.nodes[n]? = some nd ∧
      nd.coord = ((LP.c j).place x y).coord (onGrid w sd) ∧ nd.status = side w sd x y j := by
    intro j hj
    obtain ⟨hle1, hle2⟩ := cornerAt_le hx hy j
    obtain ⟨nd, e1, e2, e3⟩ := R.node S hle1 hle2
    refine ⟨nodeNo w (cornerAt x y j).1 (cornerAt x y j).2, nd, ?_, by rw [hm]; exact e1, e2, e3⟩
    rw [hco]
    match j, hj with
    | 0, _ => rfl
    | 1, _ => rfl
    | 2, _ => rfl
    | 3, _ => rfl
  have haf : ∀ j, j < 4 → after j < 4 ∧ before j < 4 := by decide
  generalize hV : (fun p : LP => (p.place x y).coord (onGrid w sd)) = V
  have hVc : ∀ p : LP, V p = (p.place x y).coord (onGrid w sd) := fun p => by rw [← hV]
  generalize ho : soughtSide el = o at h6
  have hlen : (verts (side w sd x y) (look w L.mesh isTarget x y) (firstWay w sd x y) o).length =
    (upTo (cornerV (side w sd x y) o) 4).length + (arcV (cellArcs w L.mesh sd isTarget x y)).length := by
    unfold verts; rw [List.length_append]; rfl
  have loop1 : wp (forN 4 (List.replicate 6 (⟨nat 0, nat 0⟩ : Coord ℝ), 0) (nodeVertex L'.mesh el))
      (fun s => Coll ((upTo (cornerV (side w sd x y) o) 4).map V) s) noErr := by
    refine wp_forN (fun i s => Coll ((upTo (cornerV (side w sd x y) o) i).map V) s) ⟨rfl, rfl, rfl⟩ ?_
    intro i hi s C
    have hroom : (upTo (cornerV (side w sd x y) o) (i + 1)).length ≤ 6 := by
      have := upTo_le (cornerV (side w sd x y) o) (show i + 1 ≤ 4 by omega)
      omega
    change (upTo _ i ++ cornerV _ _ i).length ≤ 6 at hroom
    change wp _ (fun s => Coll ((upTo (cornerV (side w sd x y) o) i ++ cornerV (side w sd x y) o i).map V) s) _
    rw [List.length_append] at hroom
    rw [List.map_append]
    obtain ⟨n, nd, e1, e2, e3, e4⟩ := hnode i hi
    obtain ⟨n1, nd1, f1, f2, -, f4⟩ := hnode _ (haf i hi).1
    obtain ⟨n2, nd2, g1, g2, -, g4⟩ := hnode _ (haf i hi).2
    unfold nodeVertex
    rw [rd_of_getElem? e1, wp_bind, wp_ok, rd_of_getElem? e2, wp_bind, wp_ok, ho, e4]
    generalize upTo (cornerV (side w sd x y) o) i = u at C hroom ⊢
    unfold cornerV at hroom ⊢
    by_cases c1 : side w sd x y i = o
    · rw [if_pos c1] at hroom ⊢
      rw [if_pos c1]
      obtain ⟨t, h1, h2⟩ := C.push nd.coord (by rw [List.length_map]; simp at hroom; omega)
      rw [h1, wp_ok]
      rw [e3, ← hVc] at h2
      exact h2
    · rw [if_neg c1] at hroom ⊢
      rw [if_neg c1]
      by_cases c2 : side w sd x y i = .boundary
      · rw [if_pos c2] at hroom ⊢
        rw [if_pos c2, rd_of_getElem? f1, wp_bind, wp_ok, rd_of_getElem? g1, wp_bind, wp_ok, rd_of_getElem? f2, wp_bind, wp_ok,
          rd_of_getElem? g2, wp_bind, wp_ok, f4, g4]
        by_cases c3 : side w sd x y (after i) = .inside ∧ side w sd x y (before i) = .inside
        · rw [if_pos c3] at hroom ⊢
          rw [if_pos c3]
          obtain ⟨t, h1, h2⟩ := C.push nd.coord (by rw [List.length_map]; simp at hroom; omega)
          rw [h1, wp_ok]
          rw [e3, ← hVc] at h2
          exact h2
        · rw [if_neg c3, if_neg c3]
          show Coll _ s
          simpa using C
      · rw [if_neg c2, if_neg c2]
        show Coll _ s
        simpa using C
  obtain ⟨s1, q1, C1⟩ := wp_noErr_iff.1 loop1
  have loop2 : wp (forN el.nBoundarySegments s1 (segmentVertices b el))
      (fun s => Coll ((upTo (cornerV (side w sd x y) o) 4 ++ arcV ((cellArcs w L.mesh sd isTarget x y).take el.nBoundarySegments)).map V) s) noErr := by
    refine wp_forN (fun i s => Coll ((upTo (cornerV (side w sd x y) o) 4 ++ arcV ((cellArcs w L.mesh sd isTarget x y).take i)).map V) s)
      (by simpa [arcV] using C1) ?_
    intro i hi s C
    have hi' : i < (cellArcs w L.mesh sd isTarget x y).length := by omega
    have ha := List.getElem?_eq_getElem hi'
    generalize (cellArcs w L.mesh sd isTarget x y)[i] = a at ha
    obtain ⟨k, g, p, q, r1, r2, r3, r4, r5, r6⟩ := hseg i a ha
    have hroom := arcV_take_le (cellArcs w L.mesh sd isTarget x y) (i + 1)
    rw [arcV_take ha] at hroom ⊢
    rw [List.length_append] at hroom
    simp only [List.length_cons, List.length_nil] at hroom
    unfold segmentVertices
    obtain ⟨t, h1, h2⟩ := C.push p.coord (by rw [List.length_map, List.length_append]; omega)
    obtain ⟨t', h1', h2'⟩ := h2.push q.coord (by rw [List.length_append, List.length_map, List.length_append, List.length_singleton]; omega)
    rw [rd_of_getElem? r1, wp_bind, wp_ok, rd_of_getElem? r2, wp_bind, wp_ok, rd_of_getElem? r3, wp_bind, wp_ok, h1, wp_bind, wp_ok,
      rd_of_getElem? r5, wp_bind, wp_ok, h1', wp_ok]
    rw [r4, r6, ← hVc, ← hVc] at h2'
    simpa [List.append_assoc] using h2'
  obtain ⟨s2, q2, C2⟩ := wp_noErr_iff.1 loop2
  rw [hnb, List.take_length] at C2
  change Coll ((verts (side w sd x y) (look w L.mesh isTarget x y) (firstWay w sd x y) o).map V) s2 at C2
  unfold cutArea
  rw [q1]
  simp only [bind, Except.bind]
  rw [q2]
  dsimp only
  have hn : s2.2 ≤ s2.1.length := by rw [C2.count, C2.len, List.length_map]; exact h6
  rw [polygonArea_real _ hn (by rw [C2.len] at hn; omega), C2.take, hce]
  simp only [pure, Except.pure]
  congr 1
  simp

end

end Area

end Slsm
