import Verif.Proof.BndSame

/-! Cells with all four corners on the contour, and an exact condition for the call to return. -/

namespace Slsm

open FP

namespace Boundary

section
variable {w h : Nat} {ml : ℝ} {m1 : Mesh ℝ} {sd : List ℝ} {A : Abs} {W : Work ℝ} {isTarget : Bool}

theorem addSegment_full (R : Rep w h ml m1 sd A W) (S : Setup w h m1 sd) {e : Nat} (he : e < m1.nElements) {a b : Place}
    (ha : a ∈ A.keys) (hb : b ∈ A.keys) (hfull : (segsOf A.arcs e).length = 2) :
    addSegment e (A.keys.idxOf a) (A.keys.idxOf b) W = .error .ub := by
  obtain ⟨pa, hpa, ia⟩ := R.pts _ a (getElem?_idxOf ha)
  obtain ⟨pb, hpb, ib⟩ := R.pts _ b (getElem?_idxOf hb)
  have G' := R.annot.grid S.grid
  have hel : e < W.mesh.elements.length := by rw [G'.elements_length, ← S.grid.nElements]; exact he
  have hget := List.getElem?_eq_getElem hel
  obtain ⟨hs, ht, hn⟩ := R.elems e _ hget
  have hfree : (W.mesh.elements[e]).boundarySegments.length ≤ (W.mesh.elements[e]).nBoundarySegments := by
    rw [G'.segSlots e _ hget, hn, hfull]
  unfold addSegment segmentLength
  rw [rd_of_getElem? hpa]
  simp only [bind, Except.bind]
  rw [rd_of_getElem? hpb]
  simp only [pure, Except.pure]
  rw [modAt_some hget]
  simp only [bind, Except.bind]
  rw [wr_ub _ hfree]

theorem edgeStep_full (R : Rep w h ml m1 sd A W) (S : Setup w h m1 sd) {x y j : Nat} (hx : x < w) (hy : y < h) (hj : j < 4)
    (hb : side w sd x y j = .boundary) (hb' : side w sd x y (after j) = .boundary) (hv : look w m1 isTarget x y j = true) (l : List Nat)
    (hfull : (segsOf A.arcs (cellNo w x y)).length = 2) : edgeStep ml sd isTarget (cellNo w x y) j (W, l) = .error .ub := by
  obtain ⟨na, hna, hca, hsa⟩ := R.node S (cornerAt_le hx hy j).1 (cornerAt_le hx hy j).2
  obtain ⟨nb, hnb, hcb, hsb⟩ := R.node S (cornerAt_le hx hy (after j)).1 (cornerAt_le hx hy (after j)).2
  have hvis : visible isTarget na nb = look w m1 isTarget x y j := by
    unfold visible look
    rw [Annot.seen R.annot _ hna, Annot.seen R.annot _ hnb]
  have hsa' : na.status = side w sd x y j := hsa
  have hsb' : nb.status = side w sd x y (after j) := hsb
  unfold edgeStep
  dsimp only
  rw [R.corner S hx hy hj]
  simp only [bind, Except.bind]
  rw [R.corner S hx hy (after_lt hj)]
  dsimp only
  rw [rd_of_getElem? hna]
  dsimp only
  rw [rd_of_getElem? hnb]
  dsimp only
  rw [hvis, hsa', hsb', if_pos hv, hb, hb', if_neg (by decide), if_pos ⟨rfl, rfl⟩]
  unfold borderEdge
  obtain ⟨r, hr, h1, R1⟩ := wp_noErr_iff.1 (cornerPoint_spec (e := cellNo w x y) R S hx hy hb)
  obtain ⟨r', hr', h2, R2⟩ := wp_noErr_iff.1 (cornerPoint_spec (e := cellNo w x y) R1 S hx hy hb')
  simp only [bind, Except.bind]
  rw [hr]
  dsimp only
  rw [hr']
  dsimp only
  rw [Abs.grow_grow] at h2 R2
  have m1' : (LP.c j).place x y ∈ (A.grow x y (cellNo w x y) [.c j] []).keys := mem_grow (.inr (by simp))
  have e1 : r.1 = (A.grow x y (cellNo w x y) ([.c j] ++ [.c (after j)]) ([] ++ [])).keys.idxOf ((LP.c j).place x y) := by
    rw [h1, ← Abs.grow_grow]
    exact (idxOf_addKeys m1').symm
  rw [e1, h2]
  rw [addSegment_full R2 S (by rw [S.grid.nElements]; exact idx_lt hx hy) (mem_grow (.inr (by simp))) (mem_grow (.inr (by simp)))
    (by rw [segsOf_grow]; simpa using hfull)]

theorem element_flat (R : Rep w h ml m1 sd A W) (S : Setup w h m1 sd) {x y : Nat} (hx : x < w) (hy : y < h)
    (hb : ∀ j, j < 4 → side w sd x y j = .boundary) (hv : ∀ j, j < 4 → look w m1 isTarget x y j = true)
    (hest : A.est (cellNo w x y) = stat (side w sd x y)) (h0 : (segsOf A.arcs (cellNo w x y)).length = 0) :
    element ml sd isTarget (cellNo w x y) W = .error .ub := by
  obtain ⟨el, hel⟩ := (R.annot.grid S.grid).elem_exists hx hy
  have hst : stat (side w sd x y) ≠ .outside := by
    unfold stat
    rw [hb 0 (by omega), hb 1 (by omega), hb 2 (by omega), hb 3 (by omega)]
    decide
  have harc : ∀ j, j < 4 → (edgeArcs (side w sd x y) (look w m1 isTarget x y) j).length = 1 := by
    intro j hj
    unfold edgeArcs
    rw [if_pos (hv j hj), hb j hj, hb _ (after_lt hj)]
    simp [cutPair]
  unfold element
  rw [rd_of_getElem? hel]
  simp only [bind, Except.bind]
  rw [(R.elems _ _ hel).1, hest, if_neg hst]
  have s0 := edgeStep_spec (isTarget := isTarget) R S hx hy (show 0 < 4 by omega) (l := []) (by simp) (by rw [h0, harc 0 (by omega)]; omega)
  obtain ⟨t1, e1, R1, c1, m1'⟩ := wp_noErr_iff.1 s0
  obtain ⟨W1, l1⟩ := t1
  dsimp only at R1 c1
  have s1 := edgeStep_spec (isTarget := isTarget) R1 S hx hy (show 1 < 4 by omega) m1'
    (by rw [segsOf_grow, h0, harc 0 (by omega), harc 1 (by omega)])
  rw [← c1] at s1
  obtain ⟨t2, e2, R2, c2, m2'⟩ := wp_noErr_iff.1 s1
  obtain ⟨W2, l2⟩ := t2
  dsimp only at R2
  have s2 := edgeStep_full (isTarget := isTarget) R2 S hx hy (show 2 < 4 by omega) (hb 2 (by omega)) (hb 3 (by omega)) (hv 2 (by omega)) l2
    (by rw [segsOf_grow, segsOf_grow, h0, harc 0 (by omega), harc 1 (by omega)])
  have e1' : edgeStep ml sd isTarget (cellNo w x y) 0 (W, []) = .ok (W1, l1) := e1
  simp only [forN, bind, Except.bind]
  rw [e1']
  dsimp only
  rw [e2]
  dsimp only
  rw [s2]

theorem occ_mem {A : Abs} {p : Place} (hm : ∀ g ∈ A.arcs, g.a ∈ A.keys ∧ g.b ∈ A.keys) (h : 0 < occ p A.pairs) : p ∈ A.keys := by
  by_contra hn
  have : occ p A.pairs = 0 := by
    unfold occ Abs.pairs
    rw [List.map_map, List.sum_eq_zero_iff]
    intro v hv
    obtain ⟨g, hg, rfl⟩ := List.mem_map.1 hv
    have h1 := hm g hg
    have a1 : g.a ≠ p := fun e => hn (e ▸ h1.1)
    have a2 : g.b ≠ p := fun e => hn (e ▸ h1.2)
    simp [a1, a2]
  omega

theorem node_key_occ {m0 : Mesh ℝ} {qx qy n : Nat} (hk : Place.node qx qy ∈ (run w m0 sd isTarget n).keys) :
    0 < occ (Place.node qx qy) (run w m0 sd isTarget n).pairs := by
  obtain ⟨e, he, q, hq, hp⟩ := mem_keys.1 hk
  have hf := (cell_fair w m0 sd isTarget (e % w) (e / w)).1 q hq
  have h8 := fair_eight hf
  cases q with
  | e j => exact absurd hp edgeAt_ne_node
  | c j =>
    have hj : j < 4 := by simp only [fair, Bool.and_eq_true, decide_eq_true_eq] at hf; exact hf.1
    have hpos : 0 < occ (.c j) (cellArcs w m0 sd isTarget (e % w) (e / w)) := by
      unfold cellMarks at hq
      rw [marks_pick] at hq
      have := table_marked _ (side_mem w sd (e % w) (e / w) 0) _ (side_mem w sd (e % w) (e / w) 1) _ (side_mem w sd (e % w) (e / w) 2) _
        (side_mem w sd (e % w) (e / w) 3) _ _ _ _ (firstWay w sd (e % w) (e / w)) j (List.mem_range.2 hj) hq
      unfold cellArcs
      rw [arcs_pick]
      exact this
    rw [run_occ]
    refine Finset.sum_pos' (fun _ _ => Nat.zero_le _) ⟨e, Finset.mem_range.2 he, ?_⟩
    rw [cell_occ]
    have : occ (.c j) (cellArcs w m0 sd isTarget (e % w) (e / w)) ≤
        (eight.map fun q => if q.place (e % w) (e / w) = Place.node qx qy then occ q (cellArcs w m0 sd isTarget (e % w) (e / w)) else 0).sum :=
      List.single_le_sum (fun _ _ => Nat.zero_le _) _ (List.mem_map.2 ⟨_, h8, by rw [if_pos hp]⟩)
    omega

/-- The cell has all corners on the contour. -/
def Flat (w : Nat) (sd : List ℝ) (x y : Nat) : Prop := ∀ j, j < 4 → side w sd x y j = .boundary

theorem not_flat {x y : Nat} (h : ¬ Flat w sd x y) :
    ∃ q ∈ [(x, y), (x + 1, y), (x + 1, y + 1), (x, y + 1)], nodeSide (onGrid w sd q.1 q.2) ≠ .boundary := by
  by_contra hc
  refine h fun j hj => ?_
  by_contra hn
  refine hc ⟨cornerAt x y j, ?_, hn⟩
  match j, hj with
  | 0, _ => simp [cornerAt]
  | 1, _ => simp [cornerAt]
  | 2, _ => simp [cornerAt]
  | 3, _ => simp [cornerAt]

theorem elements_flat (S : Setup w h m1 sd) (V : Vis w h m1 sd isTarget)
    (H : ∀ x y j, x < w → y < h → j < 4 → side w sd x y j = .boundary → look w m1 isTarget x y j = true)
    (R : Rep w h ml m1 sd (run w m1 sd isTarget 0) W) {x0 y0 : Nat} (hx0 : x0 < w) (hy0 : y0 < h) (hF : Flat w sd x0 y0) :
    forN m1.nElements W (element ml sd isTarget) = .error .ub := by
  have key : wp (forN m1.nElements W (element ml sd isTarget)) (fun _ => ¬ cellNo w x0 y0 < m1.nElements) (fun e => e = .ub) := by
    refine wp_imp (wp_forN (E := fun e => e = .ub) (fun n (s : Work ℝ) => Rep w h ml m1 sd (run w m1 sd isTarget n) s ∧ ¬ cellNo w x0 y0 < n)
      ⟨R, by omega⟩ fun e he s Q => ?_) fun _ Q => Q.2
    obtain ⟨R', hn⟩ := Q
    obtain ⟨x, y, hx, hy, rfl⟩ := S.grid.elem_index he
    have em : cellNo w x y % w = x := idx_mod hx
    have ed : cellNo w x y / w = y := idx_div hx
    have hest : (run w m1 sd isTarget (cellNo w x y)).est (cellNo w x y) = stat (side w sd x y) := by
      show (if cellNo w x y < cellNo w x y then _ else _) = _
      rw [if_neg (lt_irrefl _), em, ed]
    have h0 : (segsOf (run w m1 sd isTarget (cellNo w x y)).arcs (cellNo w x y)).length = 0 := by
      rw [segsOf_length, List.length_eq_zero_iff, List.filter_eq_nil_iff]
      intro g hg hge
      have := allArcs_lt hg
      rw [of_decide_eq_true hge] at this
      exact lt_irrefl _ this
    by_cases hf : Flat w sd x y
    · rw [element_flat R' S hx hy hf (fun j hj => H x y j hx hy hj (hf j hj)) hest h0]
      rfl
    · have hne : cellNo w x0 y0 ≠ cellNo w x y := by
        intro hc
        have h1 : x0 = x := by rw [← em, ← hc]; exact (idx_mod hx0).symm
        have h2 : y0 = y := by rw [← ed, ← hc]; exact (idx_div hx0).symm
        exact hf (by rw [← h1, ← h2]; exact hF)
      have := elements_step S R' hx hy (tidy_cellOk V hx hy (not_flat hf))
      exact wp_mono this (fun s' R2 => ⟨R2, by omega⟩) fun _ h => h.elim
  cases hr : forN m1.nElements W (element ml sd isTarget) with
  | ok r =>
    rw [hr] at key
    exact absurd (by rw [S.grid.nElements]; exact idx_lt hx0 hy0) key
  | error e =>
    rw [hr] at key
    rw [show e = .ub from key]

theorem discretise_flat {L : LevelSet ℝ} (S : Setup w h L.mesh (values L isTarget)) (V : Vis w h L.mesh (values L isTarget) isTarget)
    (H : ∀ x y j, x < w → y < h → j < 4 → side w (values L isTarget) x y j = .boundary → look w L.mesh isTarget x y j = true)
    {x y : Nat} (hx : x < w) (hy : y < h) (hF : Flat w (values L isTarget) x y) : discretise L isTarget = .error .ub := by
  unfold discretise
  have hs : (if isTarget then L.target else L.signedDistance) = values L isTarget := rfl
  rw [hs]
  dsimp only
  obtain ⟨m1, e1, st⟩ := wp_noErr_iff.1 (computeMeshStatus_spec S.grid S.len)
  rw [e1]
  simp only [bind, Except.bind]
  rw [st.annot.nElements, elements_flat S V H (st.rep S.grid) hx hy hF]

/-- With all nodes near the contour active or masked, every edge that matters is looked at. -/
theorem near_look {L : LevelSet ℝ} (hN : isTarget = true ∨ NearSeen w h L isTarget) (G : Gentle w h (level w L isTarget)) :
    Vis w h L.mesh (values L isTarget) isTarget ∧
    ∀ x y j, x < w → y < h → j < 4 → side w (values L isTarget) x y j = .boundary → look w L.mesh isTarget x y j = true := by
  rcases hN with ht | hN
  · exact ⟨fun x y j _ _ _ _ => by simp [look, ht], fun x y j _ _ _ _ => by simp [look, ht]⟩
  · have key : ∀ x y j, x < w → y < h → j < 4 →
        |onGrid w (values L isTarget) (cornerAt x y j).1 (cornerAt x y j).2| < 1 → look w L.mesh isTarget x y j = true := by
      intro x y j hx hy hj hv
      obtain ⟨nd, h1, h2⟩ := hN _ _ (cornerAt_le hx hy j).1 (cornerAt_le hx hy j).2 hv
      unfold look
      have : Boundary.seen L.mesh (nodeNo w (cornerAt x y j).1 (cornerAt x y j).2) = true := by
        unfold Boundary.seen
        rw [h1]
        simpa using h2
      rw [this]
      simp
    have key2 : ∀ a c : ℝ, Crossed (nodeSide a) (nodeSide c) → |a - c| ≤ 1 → |a| < 1 := by
      intro a c hc hd
      rw [abs_le] at hd
      rw [abs_lt]
      rcases hc with ⟨h1, h2⟩ | ⟨h1, h2⟩
      · rw [nodeSide_inside] at h1; rw [nodeSide_outside] at h2
        norm_num at h1 h2
        constructor <;> linarith
      · rw [nodeSide_outside] at h1; rw [nodeSide_inside] at h2
        norm_num at h1 h2
        constructor <;> linarith
    refine ⟨fun x y j hx hy hj hc => ?_, fun x y j hx hy hj hb => ?_⟩
    · refine key x y j hx hy hj (key2 _ _ hc ?_)
      match j, hj with
      | 0, _ => exact G.1 x y (by omega) (by omega) hc
      | 1, _ => exact G.2 (x + 1) y (by omega) (by omega) hc
      | 2, _ =>
        have := G.1 x (y + 1) (by omega) (by omega) (by unfold Crossed at hc ⊢; tauto)
        rw [abs_sub_comm] at this
        exact this
      | 3, _ =>
        have := G.2 x y (by omega) (by omega) (by unfold Crossed at hc ⊢; tauto)
        rw [abs_sub_comm] at this
        exact this
    · refine key x y j hx hy hj ?_
      have := nodeSide_boundary.1 hb
      exact lt_trans this (by norm_num)

theorem tame_of_near {L : LevelSet ℝ} (R : Ready w h L isTarget) (G : Gentle w h (level w L isTarget))
    (hN : isTarget = true ∨ NearSeen w h L isTarget) (hT : Tidy w h (level w L isTarget)) : Tame w h L isTarget := by
  refine ⟨R, G, ?_, hT⟩
  by_cases ht : isTarget = true
  · exact .inl ht
  · right
    intro p hp
    obtain ⟨x, y, j, hx, hy, hj, rfl⟩ := edge_cell R.grid.w_pos R.grid.h_pos hp.1 hp.2.2
    have := (near_look hN G).1 x y j hx hy hj ((edgeAt_onContour hj).1 hp.2.1)
    unfold look at this
    simp only [ht, Bool.false_or, Bool.or_eq_true] at this
    have conv : ∀ n, Boundary.seen L.mesh n = true → ∃ nd, L.mesh.nodes[n]? = some nd ∧ (nd.isActive = true ∨ nd.isMasked = true) := by
      intro n hs
      unfold Boundary.seen at hs
      rcases hi : L.mesh.nodes[n]? with _ | nd
      · rw [hi] at hs; simp at hs
      · rw [hi] at hs
        exact ⟨nd, rfl, by simpa using hs⟩
    rcases this with h1 | h1
    · exact ⟨cornerAt x y j, (edgeAt_ends hj _).2 (.inl rfl), conv _ h1⟩
    · exact ⟨cornerAt x y (after j), (edgeAt_ends hj _).2 (.inr rfl), conv _ h1⟩

theorem near_of_band {L : LevelSet ℝ} (hr : LevelSet.Reachable w h L) (hB : LevelSet.BandOk L) (hf : L.isFixedDomain = false) : NearSeen w h L false := by
  intro x y hx hy hv
  obtain ⟨nd, hnd⟩ := hr.core.grid.node_exists hx hy
  refine ⟨nd, hnd, ?_⟩
  by_cases hm : nd.isMasked = true
  · exact .inr hm
  · left
    have : L.InBand (nodeNo w x y) := by
      refine ⟨⟨by rw [hr.core.grid.nNodes]; exact nodeNo_lt hx hy, ?_, by rw [hf]; intro h; cases h⟩, ?_⟩
      · rintro ⟨nd', h1, h2⟩
        rw [hnd] at h1
        cases h1
        exact hm h2
      · rw [FP.lt_real, FP.abs_real, FP.nat_real]
        have : (2 : ℝ) < L.bandWidth := by exact_mod_cast hr.core.bandWidth.1
        exact lt_trans hv (by linarith)
    obtain ⟨nd', h1, h2⟩ := (hB.active _).2 this
    rw [hnd] at h1
    cases h1
    exact h2

/-- Exact condition for the call to return. -/
theorem defined_iff {L : LevelSet ℝ} (R : Ready w h L isTarget) (G : Gentle w h (level w L isTarget))
    (hN : isTarget = true ∨ NearSeen w h L isTarget) :
    ((∃ r, discretise L isTarget = .ok r) ↔ Tidy w h (level w L isTarget)) ∧
    (¬ Tidy w h (level w L isTarget) → discretise L isTarget = .error .ub) := by
  obtain ⟨V, H⟩ := near_look hN G
  have S : Setup w h L.mesh (values L isTarget) := ⟨R.grid, R.fit, R.len, G⟩
  have bad : ¬ Tidy w h (level w L isTarget) → discretise L isTarget = .error .ub := by
    intro hT
    by_cases hF : ∃ x y, x < w ∧ y < h ∧ Flat w (values L isTarget) x y
    · obtain ⟨x, y, hx, hy, hF⟩ := hF
      exact discretise_flat S V H hx hy hF
    · have hflat : ∀ x y, x < w → y < h → ∃ q ∈ [(x, y), (x + 1, y), (x + 1, y + 1), (x, y + 1)],
          nodeSide (onGrid w (values L isTarget) q.1 q.2) ≠ .boundary :=
        fun x y hx hy => not_flat fun hf => hF ⟨x, y, hx, hy, hf⟩
      have hd := discretise_exact (L := L) (isTarget := isTarget) S fun x y hx hy => tidy_cellOk V hx hy (hflat x y hx hy)
      obtain ⟨qx, qy, hqx, hqy, hb, hgt⟩ : ∃ x y, x ≤ w ∧ y ≤ h ∧ nodeSide (level w L isTarget x y) = .boundary ∧
          2 < latticeEnds w h (level w L isTarget) x y := by
        by_contra hc
        refine hT ⟨hflat, fun x y hx hy hb => ?_⟩
        by_contra hn
        exact hc ⟨x, y, hx, hy, hb, by omega⟩
      have hin : (Place.node qx qy).inGrid w h := by
        intro q hq
        simp only [Place.ends, List.mem_singleton] at hq
        rw [hq]
        exact ⟨hqx, hqy⟩
      have hocc := node_ends V hin hb H
      cases hr : discretise L isTarget with
      | error e =>
        rw [hr] at hd
        rw [show e = .ub from hd.1]
      | ok r =>
        exfalso
        rw [hr] at hd
        have E : Exact w h L (values L isTarget) isTarget r.1 r.2 := hd
        have hpos : 0 < occ (Place.node qx qy) (run w L.mesh (values L isTarget) isTarget (w * h)).pairs := by
          rw [hocc]; exact lt_trans (by norm_num) hgt
        have hk : Place.node qx qy ∈ (run w L.mesh (values L isTarget) isTarget (w * h)).keys := by
          obtain ⟨W, RW, _⟩ := E.rep
          exact occ_mem RW.arcMem hpos
        have := E.le_two hk
        rw [hocc] at this
        rw [← level_eq] at this
        omega
  refine ⟨⟨fun ⟨r, hr⟩ => ?_, fun hT => ?_⟩, bad⟩
  · by_contra hT
    rw [bad hT] at hr
    cases hr
  · obtain ⟨b, L', e, -⟩ := tame_exact (tame_of_near R G hN hT)
    exact ⟨_, e⟩

end

end Boundary

end Slsm
