import Verif.Proof.BndRep

/-! Discretisation: the loop over the elements. -/

namespace Slsm

open FP

namespace Boundary

def addKeys (keys l : List Place) : List Place := l.foldl addKey keys

theorem addKeys_append (keys l l' : List Place) : addKeys keys (l ++ l') = addKeys (addKeys keys l) l' := by
  unfold addKeys; rw [List.foldl_append]

theorem addKeys_grow (keys l : List Place) : ∃ t, addKeys keys l = keys ++ t := by
  induction l generalizing keys with
  | nil => exact ⟨[], by simp [addKeys]⟩
  | cons p l ih =>
    obtain ⟨t1, h1⟩ := addKey_append keys p
    obtain ⟨t2, h2⟩ := ih (addKey keys p)
    refine ⟨t1 ++ t2, ?_⟩
    show addKeys (addKey keys p) l = _
    rw [h2, h1, List.append_assoc]

theorem mem_addKeys {keys l : List Place} {p : Place} (h : p ∈ keys) : p ∈ addKeys keys l := by
  obtain ⟨t, ht⟩ := addKeys_grow keys l
  rw [ht]; exact List.mem_append_left _ h

theorem idxOf_addKeys {keys l : List Place} {p : Place} (h : p ∈ keys) : (addKeys keys l).idxOf p = keys.idxOf p := by
  obtain ⟨t, ht⟩ := addKeys_grow keys l
  rw [ht, List.idxOf_append_of_mem h]

theorem idxOf_addKey {keys : List Place} {p q : Place} (h : p ∈ keys) : (addKey keys q).idxOf p = keys.idxOf p := by
  obtain ⟨t, ht⟩ := addKey_append keys q
  rw [ht, List.idxOf_append_of_mem h]

theorem mem_addKey_of {keys : List Place} {p q : Place} (h : p ∈ keys) : p ∈ addKey keys q := by
  obtain ⟨t, ht⟩ := addKey_append keys q
  rw [ht]; exact List.mem_append_left _ h

theorem mem_addKey_iff {keys : List Place} {p q : Place} : p ∈ addKey keys q ↔ p ∈ keys ∨ p = q := by
  unfold addKey
  split
  · constructor
    · exact .inl
    · rintro (h | rfl) <;> assumption
  · simp

theorem mem_addKeys_iff {keys l : List Place} {p : Place} : p ∈ addKeys keys l ↔ p ∈ keys ∨ p ∈ l := by
  induction l generalizing keys with
  | nil => simp [addKeys]
  | cons q l ih =>
    show p ∈ addKeys (addKey keys q) l ↔ _
    rw [ih, mem_addKey_iff, List.mem_cons, or_assoc]

/-- The node is in the narrow band or masked. -/
def seen (m : Mesh ℝ) (n : Nat) : Bool := (m.nodes[n]?).any fun nd => nd.isActive || nd.isMasked

section
variable {w h : Nat} {ml : ℝ} {m1 : Mesh ℝ} {sd : List ℝ} {A : Abs} {W : Work ℝ} {isTarget : Bool}

theorem Annot.seen {m0 m : Mesh ℝ} (R : Annot m0 m) (n : Nat) {nd : Node ℝ} (hn : m.nodes[n]? = some nd) :
    (nd.isActive || nd.isMasked) = seen m0 n := by
  obtain ⟨a, ha, hs⟩ := R.node n nd hn
  unfold Boundary.seen
  rw [ha, hs.eq]
  rfl

/-- Side of corner `j` of the cell `(x, y)`. -/
noncomputable def side (w : Nat) (sd : List ℝ) (x y j : Nat) : NodeStatus := nodeSide (onGrid w sd (cornerAt x y j).1 (cornerAt x y j).2)

/-- Whether edge `j` of the cell `(x, y)` is looked at. -/
def look (w : Nat) (m : Mesh ℝ) (isTarget : Bool) (x y j : Nat) : Bool :=
  isTarget || seen m (nodeNo w (cornerAt x y j).1 (cornerAt x y j).2) ||
    seen m (nodeNo w (cornerAt x y (after j)).1 (cornerAt x y (after j)).2)

/-- Sum of the values at the corners. -/
noncomputable def centreSum (w : Nat) (sd : List ℝ) (x y : Nat) : ℝ :=
  onGrid w sd x y + onGrid w sd (x + 1) y + onGrid w sd (x + 1) (y + 1) + onGrid w sd x (y + 1)

open Classical in
/-- The choice made for four cut edges. -/
noncomputable def firstWay (w : Nat) (sd : List ℝ) (x y : Nat) : Bool :=
  decide ((side w sd x y 0 = .inside ∧ 0 < centreSum w sd x y) ∨ (side w sd x y 0 = .outside ∧ centreSum w sd x y < 0))

def arcAt (x y e : Nat) (g : LP × LP) : Arc := ⟨g.1.place x y, g.2.place x y, e⟩

/-- The state after some points and segments of the cell `(x, y)` have been added. -/
def Abs.grow (A : Abs) (x y e : Nat) (ps : List LP) (gs : List (LP × LP)) : Abs :=
  { A with keys := addKeys A.keys (ps.map (LP.place x y)), arcs := A.arcs ++ gs.map (arcAt x y e) }

theorem Abs.grow_grow (A : Abs) (x y e : Nat) (ps ps' : List LP) (gs gs' : List (LP × LP)) :
    (A.grow x y e ps gs).grow x y e ps' gs' = A.grow x y e (ps ++ ps') (gs ++ gs') := by
  unfold Abs.grow
  simp only [List.map_append, addKeys_append, List.append_assoc]

theorem Abs.grow_nil (A : Abs) (x y e : Nat) : A.grow x y e [] [] = A := by
  unfold Abs.grow
  simp [addKeys]

theorem segsOf_grow (A : Abs) (x y e : Nat) (ps : List LP) (gs : List (LP × LP)) :
    (segsOf (A.grow x y e ps gs).arcs e).length = (segsOf A.arcs e).length + gs.length := by
  rw [segsOf_length, segsOf_length]
  unfold Abs.grow
  rw [List.filter_append, List.length_append]
  congr 1
  rw [List.filter_eq_self.2, List.length_map]
  intro g hg
  obtain ⟨g', _, rfl⟩ := List.mem_map.1 hg
  simp [arcAt]

/-- The numbers of the points at some places of the cell. -/
def nums (A : Abs) (x y : Nat) (l : List LP) : List Nat := l.map fun p => A.keys.idxOf (p.place x y)

theorem nums_grow {x y e : Nat} {ps l : List LP} {gs : List (LP × LP)} (h : ∀ p ∈ l, p.place x y ∈ A.keys) :
    nums (A.grow x y e ps gs) x y l = nums A x y l := by
  unfold nums
  refine List.map_congr_left fun p hp => ?_
  exact idxOf_addKeys (h p hp)

theorem mem_grow {x y e : Nat} {ps : List LP} {gs : List (LP × LP)} {p : LP} (h : p.place x y ∈ A.keys ∨ p ∈ ps) :
    p.place x y ∈ (A.grow x y e ps gs).keys := by
  unfold Abs.grow
  rw [mem_addKeys_iff]
  rcases h with h | h
  · exact .inl h
  · exact .inr (List.mem_map.2 ⟨p, h, rfl⟩)

theorem Rep.corner (R : Rep w h ml m1 sd A W) (S : Setup w h m1 sd) {x y j : Nat} (hx : x < w) (hy : y < h) (hj : j < 4) :
    cornerNode W.mesh (cellNo w x y) j = .ok (nodeNo w (cornerAt x y j).1 (cornerAt x y j).2) := by
  obtain ⟨el, hel⟩ := (R.annot.grid S.grid).elem_exists hx hy
  have hc := (R.annot.grid S.grid).corner x y el hx hy hel
  unfold cornerNode
  rw [rd_of_getElem? hel]
  simp only [bind, Except.bind]
  rw [hc]
  match j, hj with
  | 0, _ => rfl
  | 1, _ => rfl
  | 2, _ => rfl
  | 3, _ => rfl

theorem rd_onGrid (S : Setup w h m1 sd) {x y : Nat} (hx : x ≤ w) (hy : y ≤ h) : rd sd (nodeNo w x y) = .ok (onGrid w sd x y) := by
  have : nodeNo w x y < sd.length := lt_of_lt_of_le (by rw [S.grid.nNodes]; exact nodeNo_lt hx hy) S.len
  exact rd_vals this

/-- Add the point of a corner that is on the boundary. -/
theorem cornerPoint_spec (R : Rep w h ml m1 sd A W) (S : Setup w h m1 sd) {x y j e : Nat} (hx : x < w) (hy : y < h)
    (hb : side w sd x y j = .boundary) :
    wp (nodePoint ml (nodeNo w (cornerAt x y j).1 (cornerAt x y j).2) W)
      (fun r => r.1 = (A.grow x y e [.c j] []).keys.idxOf ((LP.c j).place x y) ∧ Rep w h ml m1 sd (A.grow x y e [.c j] []) r.2) noErr := by
  have := nodePoint_spec R S (cornerAt_le hx hy j).1 (cornerAt_le hx hy j).2 hb
  have e1 : A.grow x y e [.c j] [] = { A with keys := addKey A.keys (.node (cornerAt x y j).1 (cornerAt x y j).2) } := by
    unfold Abs.grow
    simp [addKeys, LP.place]
  rw [e1]
  exact this

theorem segment_spec (R : Rep w h ml m1 sd A W) (S : Setup w h m1 sd) {x y : Nat} (hx : x < w) (hy : y < h) {a b : LP}
    (ha : a.place x y ∈ A.keys) (hb : b.place x y ∈ A.keys) (hcap : (segsOf A.arcs (cellNo w x y)).length < 2) :
    wp (addSegment (cellNo w x y) (A.keys.idxOf (a.place x y)) (A.keys.idxOf (b.place x y)) W)
      (Rep w h ml m1 sd (A.grow x y (cellNo w x y) [] [(a, b)])) noErr := by
  have he : cellNo w x y < m1.nElements := by rw [S.grid.nElements]; exact idx_lt hx hy
  have := addSegment_spec R S he ha hb hcap
  have e1 : A.grow x y (cellNo w x y) [] [(a, b)] = { A with arcs := A.arcs ++ [⟨a.place x y, b.place x y, cellNo w x y⟩] } := by
    unfold Abs.grow
    simp [addKeys, arcAt]
  rw [e1]
  exact this

/-- Two corners on the boundary and the segment between them. -/
theorem twoCorners_spec (R : Rep w h ml m1 sd A W) (S : Setup w h m1 sd) {x y j k : Nat} (hx : x < w) (hy : y < h)
    (hb : side w sd x y j = .boundary) (hb' : side w sd x y k = .boundary) (hcap : (segsOf A.arcs (cellNo w x y)).length < 2) :
    wp (nodePoint ml (nodeNo w (cornerAt x y j).1 (cornerAt x y j).2) W >>= fun r =>
      nodePoint ml (nodeNo w (cornerAt x y k).1 (cornerAt x y k).2) r.2 >>= fun r' => addSegment (cellNo w x y) r.1 r'.1 r'.2)
      (Rep w h ml m1 sd (A.grow x y (cellNo w x y) [.c j, .c k] [(.c j, .c k)])) noErr := by
  rw [wp_bind]
  refine wp_imp (cornerPoint_spec (e := cellNo w x y) R S hx hy hb) fun r hr => ?_
  obtain ⟨h1, R1⟩ := hr
  rw [wp_bind]
  refine wp_imp (cornerPoint_spec (e := cellNo w x y) R1 S hx hy hb') fun r' hr' => ?_
  obtain ⟨h2, R2⟩ := hr'
  rw [Abs.grow_grow] at h2 R2
  have m1' : (LP.c j).place x y ∈ (A.grow x y (cellNo w x y) [.c j] []).keys := mem_grow (.inr (by simp))
  have e1 : r.1 = (A.grow x y (cellNo w x y) ([.c j] ++ [.c k]) ([] ++ [])).keys.idxOf ((LP.c j).place x y) := by
    rw [h1, ← Abs.grow_grow]
    exact (idxOf_addKeys m1').symm
  rw [e1, h2]
  have := segment_spec R2 S hx hy (a := .c j) (b := .c k) (mem_grow (.inr (by simp))) (mem_grow (.inr (by simp)))
    (by rw [segsOf_grow]; simpa using hcap)
  rw [Abs.grow_grow] at this
  exact this

theorem edgeStep_spec (R : Rep w h ml m1 sd A W) (S : Setup w h m1 sd) {x y j : Nat} (hx : x < w) (hy : y < h) (hj : j < 4)
    {l : List LP} (hl : ∀ p ∈ l, p.place x y ∈ A.keys)
    (hcap : (segsOf A.arcs (cellNo w x y)).length + (edgeArcs (side w sd x y) (look w m1 isTarget x y) j).length ≤ 2) :
    wp (edgeStep ml sd isTarget (cellNo w x y) j (W, nums A x y l))
      (fun t => Rep w h ml m1 sd (A.grow x y (cellNo w x y) (edgeKeys (side w sd x y) (look w m1 isTarget x y) j)
          (edgeArcs (side w sd x y) (look w m1 isTarget x y) j)) t.1 ∧
        t.2 = nums (A.grow x y (cellNo w x y) (edgeKeys (side w sd x y) (look w m1 isTarget x y) j)
          (edgeArcs (side w sd x y) (look w m1 isTarget x y) j)) x y (l ++ edgeCuts (side w sd x y) (look w m1 isTarget x y) j) ∧
        ∀ p ∈ l ++ edgeCuts (side w sd x y) (look w m1 isTarget x y) j,
          p.place x y ∈ (A.grow x y (cellNo w x y) (edgeKeys (side w sd x y) (look w m1 isTarget x y) j)
            (edgeArcs (side w sd x y) (look w m1 isTarget x y) j)).keys) noErr := by
  obtain ⟨na, hna, hca, hsa⟩ := R.node S (cornerAt_le hx hy j).1 (cornerAt_le hx hy j).2
  obtain ⟨nb, hnb, hcb, hsb⟩ := R.node S (cornerAt_le hx hy (after j)).1 (cornerAt_le hx hy (after j)).2
  have hvis : visible isTarget na nb = look w m1 isTarget x y j := by
    unfold visible look
    rw [Annot.seen R.annot _ hna, Annot.seen R.annot _ hnb]
  have hsa' : na.status = side w sd x y j := hsa
  have hsb' : nb.status = side w sd x y (after j) := hsb
  unfold edgeStep
  dsimp only
  rw [R.corner S hx hy hj]
  simp only [bind, Except.bind]
  rw [R.corner S hx hy (after_lt hj)]
  dsimp only
  rw [rd_of_getElem? hna]
  dsimp only
  rw [rd_of_getElem? hnb]
  dsimp only
  rw [hvis, hsa', hsb']
  by_cases hv : look w m1 isTarget x y j = true
  · rw [if_pos hv]
    by_cases hc : cutPair (side w sd x y j) (side w sd x y (after j)) = true
    · have ek : edgeKeys (side w sd x y) (look w m1 isTarget x y) j = [.e j] := by unfold edgeKeys; rw [if_pos hv, if_pos hc]
      have ea : edgeArcs (side w sd x y) (look w m1 isTarget x y) j = [] := by unfold edgeArcs; rw [if_pos hv, if_pos hc]
      have ec : edgeCuts (side w sd x y) (look w m1 isTarget x y) j = [.e j] := by unfold edgeCuts; rw [if_pos hv, if_pos hc]
      rw [ek, ea, ec, if_pos hc]
      rw [rd_onGrid S (cornerAt_le hx hy j).1 (cornerAt_le hx hy j).2]
      dsimp only
      rw [rd_onGrid S (cornerAt_le hx hy (after j)).1 (cornerAt_le hx hy (after j)).2]
      dsimp only
      have hcp := cutPoint_spec R S hx hy hj rfl rfl (cutPair_iff.1 hc)
      obtain ⟨r, hr, h1, h2⟩ := wp_noErr_iff.1 hcp
      simp only [FP.div_real, FP.sub_real]
      rw [hr]
      simp only [pure, Except.pure]
      rw [wp_ok]
      have e1 : A.grow x y (cellNo w x y) [.e j] [] = { A with keys := addKey A.keys (edgeAt x y j) } := by
        unfold Abs.grow
        simp [addKeys, LP.place]
      refine ⟨by rw [e1]; exact h2, ?_, ?_⟩
      · dsimp only
        rw [h1]
        unfold nums
        rw [List.map_append, e1]
        congr 1
        refine List.map_congr_left fun p hp => ?_
        exact (idxOf_addKey (hl p hp)).symm
      · intro p hp
        rcases List.mem_append.1 hp with hp | hp
        · exact mem_grow (.inl (hl p hp))
        · exact mem_grow (.inr hp)
    · rw [if_neg hc]
      have ec : edgeCuts (side w sd x y) (look w m1 isTarget x y) j = [] := by unfold edgeCuts; rw [if_pos hv, if_neg hc]
      rw [ec, List.append_nil]
      by_cases hbb : side w sd x y j = .boundary ∧ side w sd x y (after j) = .boundary
      · have ek : edgeKeys (side w sd x y) (look w m1 isTarget x y) j = [.c j, .c (after j)] := by
          unfold edgeKeys; rw [if_pos hv, if_neg hc, if_pos hbb]
        have ea : edgeArcs (side w sd x y) (look w m1 isTarget x y) j = [(.c j, .c (after j))] := by
          unfold edgeArcs; rw [if_pos hv, if_neg hc, if_pos hbb]
        rw [ea] at hcap
        rw [ek, ea, if_pos hbb]
        have h2 := twoCorners_spec R S hx hy hbb.1 hbb.2 (by simpa using hcap)
        obtain ⟨s', hs', R'⟩ := wp_noErr_iff.1 h2
        have hbe : borderEdge ml (cellNo w x y) (nodeNo w (cornerAt x y j).1 (cornerAt x y j).2)
            (nodeNo w (cornerAt x y (after j)).1 (cornerAt x y (after j)).2) W = .ok s' := hs'
        rw [hbe]
        simp only [pure, Except.pure]
        rw [wp_ok]
        exact ⟨R', (nums_grow hl).symm, fun p hp => mem_grow (.inl (hl p hp))⟩
      · have ek : edgeKeys (side w sd x y) (look w m1 isTarget x y) j = [] := by
          unfold edgeKeys; rw [if_pos hv, if_neg hc, if_neg hbb]
        have ea : edgeArcs (side w sd x y) (look w m1 isTarget x y) j = [] := by
          unfold edgeArcs; rw [if_pos hv, if_neg hc, if_neg hbb]
        rw [if_neg hbb, ek, ea, Abs.grow_nil]
        exact ⟨R, rfl, hl⟩
  · have ek : edgeKeys (side w sd x y) (look w m1 isTarget x y) j = [] := by unfold edgeKeys; rw [if_neg hv]
    have ea : edgeArcs (side w sd x y) (look w m1 isTarget x y) j = [] := by unfold edgeArcs; rw [if_neg hv]
    have ec : edgeCuts (side w sd x y) (look w m1 isTarget x y) j = [] := by unfold edgeCuts; rw [if_neg hv]
    rw [if_neg hv, ek, ea, ec, List.append_nil, Abs.grow_nil]
    exact ⟨R, rfl, hl⟩

theorem upTo_length_mono {α : Type} (g : Nat → List α) {a b : Nat} (h : a ≤ b) : (upTo g a).length ≤ (upTo g b).length := by
  induction b with
  | zero => rw [Nat.le_zero.1 h]
  | succ b ih =>
    rcases Nat.lt_or_ge b a with h' | h'
    · have : a = b + 1 := by omega
      rw [this]
    · refine (ih h').trans ?_
      show _ ≤ (upTo g b ++ g b).length
      rw [List.length_append]; omega

theorem edges_spec (R : Rep w h ml m1 sd A W) (S : Setup w h m1 sd) {x y : Nat} (hx : x < w) (hy : y < h)
    (h0 : (segsOf A.arcs (cellNo w x y)).length = 0)
    (hcap : (upTo (edgeArcs (side w sd x y) (look w m1 isTarget x y)) 4).length ≤ 2) :
    wp (forN 4 (W, []) (edgeStep ml sd isTarget (cellNo w x y)))
      (fun t => Rep w h ml m1 sd (A.grow x y (cellNo w x y) (upTo (edgeKeys (side w sd x y) (look w m1 isTarget x y)) 4)
          (upTo (edgeArcs (side w sd x y) (look w m1 isTarget x y)) 4)) t.1 ∧
        t.2 = nums (A.grow x y (cellNo w x y) (upTo (edgeKeys (side w sd x y) (look w m1 isTarget x y)) 4)
          (upTo (edgeArcs (side w sd x y) (look w m1 isTarget x y)) 4)) x y (upTo (edgeCuts (side w sd x y) (look w m1 isTarget x y)) 4) ∧
        ∀ p ∈ upTo (edgeCuts (side w sd x y) (look w m1 isTarget x y)) 4,
          p.place x y ∈ (A.grow x y (cellNo w x y) (upTo (edgeKeys (side w sd x y) (look w m1 isTarget x y)) 4)
            (upTo (edgeArcs (side w sd x y) (look w m1 isTarget x y)) 4)).keys) noErr := by
  refine wp_forN (E := noErr) (fun n (t : Work ℝ × List Nat) =>
    Rep w h ml m1 sd (A.grow x y (cellNo w x y) (upTo (edgeKeys (side w sd x y) (look w m1 isTarget x y)) n)
          (upTo (edgeArcs (side w sd x y) (look w m1 isTarget x y)) n)) t.1 ∧
        t.2 = nums (A.grow x y (cellNo w x y) (upTo (edgeKeys (side w sd x y) (look w m1 isTarget x y)) n)
          (upTo (edgeArcs (side w sd x y) (look w m1 isTarget x y)) n)) x y (upTo (edgeCuts (side w sd x y) (look w m1 isTarget x y)) n) ∧
        ∀ p ∈ upTo (edgeCuts (side w sd x y) (look w m1 isTarget x y)) n,
          p.place x y ∈ (A.grow x y (cellNo w x y) (upTo (edgeKeys (side w sd x y) (look w m1 isTarget x y)) n)
            (upTo (edgeArcs (side w sd x y) (look w m1 isTarget x y)) n)).keys) ?_ fun j hj t ht => ?_
  · exact ⟨by rw [show upTo (edgeKeys (side w sd x y) (look w m1 isTarget x y)) 0 = [] from rfl,
      show upTo (edgeArcs (side w sd x y) (look w m1 isTarget x y)) 0 = [] from rfl, Abs.grow_nil]; exact R, rfl, by intro p hp; cases hp⟩
  · obtain ⟨s, c⟩ := t
    obtain ⟨R', hc, hm⟩ := ht
    dsimp only at R' hc
    subst hc
    have hle := upTo_length_mono (edgeArcs (side w sd x y) (look w m1 isTarget x y)) (show j + 1 ≤ 4 by omega)
    have : upTo (edgeArcs (side w sd x y) (look w m1 isTarget x y)) (j + 1) =
      upTo (edgeArcs (side w sd x y) (look w m1 isTarget x y)) j ++ edgeArcs (side w sd x y) (look w m1 isTarget x y) j := rfl
    rw [this, List.length_append] at hle
    refine wp_imp (edgeStep_spec R' S hx hy hj hm (by rw [segsOf_grow]; omega)) fun t' ht' => ?_
    rw [Abs.grow_grow] at ht'
    exact ht'

/-! ### joining the cuts -/

theorem oneCutCorner_spec (R : Rep w h ml m1 sd A W) (S : Setup w h m1 sd) {x y j : Nat} (hx : x < w) (hy : y < h) (hj : j < 4)
    {p : LP} (hp : p.place x y ∈ A.keys)
    (hcap : (segsOf A.arcs (cellNo w x y)).length + (cornerArcs (side w sd x y) p j).length ≤ 2) :
    wp (oneCutCorner ml (cellNo w x y) (A.keys.idxOf (p.place x y)) j W)
      (Rep w h ml m1 sd (A.grow x y (cellNo w x y) (cornerKeys (side w sd x y) j) (cornerArcs (side w sd x y) p j))) noErr := by
  obtain ⟨nd, hnd, _, hst⟩ := R.node S (cornerAt_le hx hy j).1 (cornerAt_le hx hy j).2
  obtain ⟨na, hna, _, hsa⟩ := R.node S (cornerAt_le hx hy (after j)).1 (cornerAt_le hx hy (after j)).2
  obtain ⟨nb, hnb, _, hsb⟩ := R.node S (cornerAt_le hx hy (before j)).1 (cornerAt_le hx hy (before j)).2
  have hst' : nd.status = side w sd x y j := hst
  have hsa' : na.status = side w sd x y (after j) := hsa
  have hsb' : nb.status = side w sd x y (before j) := hsb
  unfold oneCutCorner
  rw [R.corner S hx hy hj]
  simp only [bind, Except.bind]
  rw [rd_of_getElem? hnd]
  dsimp only
  rw [hst']
  by_cases hb : side w sd x y j = .boundary
  · rw [if_pos hb, R.corner S hx hy (after_lt hj)]
    dsimp only
    rw [R.corner S hx hy (before_lt hj)]
    dsimp only
    rw [rd_of_getElem? hna]
    dsimp only
    rw [rd_of_getElem? hnb]
    dsimp only
    rw [hsa', hsb']
    by_cases ho : side w sd x y (after j) = .outside ∨ side w sd x y (before j) = .outside
    · have ek : cornerKeys (side w sd x y) j = [.c j] := by unfold cornerKeys; rw [if_pos hb, if_pos ho]
      have ea : cornerArcs (side w sd x y) p j = [(p, .c j)] := by unfold cornerArcs; rw [if_pos hb, if_pos ho]
      rw [if_pos ho, ek, ea]
      rw [ea] at hcap
      obtain ⟨r, hr, h1, h2⟩ := wp_noErr_iff.1 (cornerPoint_spec (e := cellNo w x y) R S hx hy hb)
      rw [hr]
      dsimp only
      have e1 : A.keys.idxOf (p.place x y) = (A.grow x y (cellNo w x y) [.c j] []).keys.idxOf (p.place x y) := (idxOf_addKeys hp).symm
      rw [h1, e1]
      have := segment_spec h2 S hx hy (a := p) (b := .c j) (mem_grow (.inl hp)) (mem_grow (.inr (by simp)))
        (by rw [segsOf_grow]; simpa using hcap)
      rw [Abs.grow_grow] at this
      exact this
    · have ek : cornerKeys (side w sd x y) j = [] := by unfold cornerKeys; rw [if_pos hb, if_neg ho]
      have ea : cornerArcs (side w sd x y) p j = [] := by unfold cornerArcs; rw [if_pos hb, if_neg ho]
      rw [if_neg ho, ek, ea, Abs.grow_nil]
      exact R
  · have ek : cornerKeys (side w sd x y) j = [] := by unfold cornerKeys; rw [if_neg hb]
    have ea : cornerArcs (side w sd x y) p j = [] := by unfold cornerArcs; rw [if_neg hb]
    rw [if_neg hb, ek, ea, Abs.grow_nil]
    exact R

theorem oneCut_spec (R : Rep w h ml m1 sd A W) (S : Setup w h m1 sd) {x y : Nat} (hx : x < w) (hy : y < h)
    {p : LP} (hp : p.place x y ∈ A.keys)
    (hcap : (segsOf A.arcs (cellNo w x y)).length + (upTo (cornerArcs (side w sd x y) p) 4).length ≤ 2) :
    wp (forN 4 W (oneCutCorner ml (cellNo w x y) (A.keys.idxOf (p.place x y))))
      (Rep w h ml m1 sd (A.grow x y (cellNo w x y) (upTo (cornerKeys (side w sd x y)) 4) (upTo (cornerArcs (side w sd x y) p) 4))) noErr := by
  refine wp_forN (E := noErr) (fun n (s : Work ℝ) =>
    Rep w h ml m1 sd (A.grow x y (cellNo w x y) (upTo (cornerKeys (side w sd x y)) n) (upTo (cornerArcs (side w sd x y) p) n)) s)
    ?_ fun j hj s R' => ?_
  · rw [show upTo (cornerKeys (side w sd x y)) 0 = [] from rfl, show upTo (cornerArcs (side w sd x y) p) 0 = [] from rfl, Abs.grow_nil]
    exact R
  · have hle := upTo_length_mono (cornerArcs (side w sd x y) p) (show j + 1 ≤ 4 by omega)
    have : upTo (cornerArcs (side w sd x y) p) (j + 1) = upTo (cornerArcs (side w sd x y) p) j ++ cornerArcs (side w sd x y) p j := rfl
    rw [this, List.length_append] at hle
    have := oneCutCorner_spec R' S hx hy hj (p := p) (mem_grow (.inl hp)) (by rw [segsOf_grow]; omega)
    rw [Abs.grow_grow] at this
    have e1 : (A.grow x y (cellNo w x y) (upTo (cornerKeys (side w sd x y)) j) (upTo (cornerArcs (side w sd x y) p) j)).keys.idxOf (p.place x y) =
      A.keys.idxOf (p.place x y) := idxOf_addKeys hp
    rw [e1] at this
    exact this

theorem cornerSum_eq (R : Rep w h ml m1 sd A W) (S : Setup w h m1 sd) {x y : Nat} (hx : x < w) (hy : y < h) :
    cornerSum W.mesh sd (cellNo w x y) = .ok (centreSum w sd x y) := by
  have h1 := fun j (hj : j < 4) => R.corner S hx hy hj
  have h2 := fun j => rd_onGrid S (cornerAt_le hx hy j).1 (cornerAt_le hx hy j).2
  unfold cornerSum
  simp only [forN, bind, Except.bind]
  rw [h1 0 (by omega)]
  dsimp only
  rw [h2 0]
  dsimp only [pure, Except.pure]
  rw [h1 1 (by omega)]
  dsimp only
  rw [h2 1]
  dsimp only
  rw [h1 2 (by omega)]
  dsimp only
  rw [h2 2]
  dsimp only
  rw [h1 3 (by omega)]
  dsimp only
  rw [h2 3]
  simp [centreSum, cornerAt]

theorem fourSegments_spec (R : Rep w h ml m1 sd A W) (S : Setup w h m1 sd) {x y : Nat} (hx : x < w) (hy : y < h) {a b c d : LP}
    (ha : a.place x y ∈ A.keys) (hb : b.place x y ∈ A.keys) (hc : c.place x y ∈ A.keys) (hd : d.place x y ∈ A.keys)
    (h0 : (segsOf A.arcs (cellNo w x y)).length = 0) (first : Bool) :
    wp (fourSegments first (cellNo w x y) (A.keys.idxOf (a.place x y)) (A.keys.idxOf (b.place x y)) (A.keys.idxOf (c.place x y))
      (A.keys.idxOf (d.place x y)) W)
      (Rep w h ml m1 sd (A.grow x y (cellNo w x y) [] (joinsFour first a b c d))) noErr := by
  have two : ∀ a b c d : LP, a.place x y ∈ A.keys → b.place x y ∈ A.keys → c.place x y ∈ A.keys → d.place x y ∈ A.keys →
      wp (addSegment (cellNo w x y) (A.keys.idxOf (a.place x y)) (A.keys.idxOf (b.place x y)) W >>= fun s =>
        addSegment (cellNo w x y) (A.keys.idxOf (c.place x y)) (A.keys.idxOf (d.place x y)) s)
      (Rep w h ml m1 sd (A.grow x y (cellNo w x y) [] [(a, b), (c, d)])) noErr := by
    intro a b c d ha hb hc hd
    rw [wp_bind]
    refine wp_imp (segment_spec R S hx hy ha hb (by omega)) fun s R' => ?_
    have := segment_spec R' S hx hy (a := c) (b := d) (mem_grow (.inl hc)) (mem_grow (.inl hd)) (by rw [segsOf_grow, h0]; simp)
    rw [Abs.grow_grow] at this
    have e1 : ∀ p : LP, (A.grow x y (cellNo w x y) [] [(a, b)]).keys.idxOf (p.place x y) = A.keys.idxOf (p.place x y) := by
      intro p; unfold Abs.grow; simp [addKeys]
    rw [e1, e1] at this
    exact this
  unfold fourSegments joinsFour
  by_cases hf : first = true
  · rw [if_pos hf, if_pos hf]
    exact two a b c d ha hb hc hd
  · rw [if_neg hf, if_neg hf]
    exact two a d b c ha hd hb hc

/-- Status of an element with four cut edges. -/
noncomputable def centreStatus (w : Nat) (sd : List ℝ) (x y : Nat) : ElementStatus :=
  open Classical in if 0 < centreSum w sd x y then .centreInside else .centreOutside

def Abs.setStatus (A : Abs) (e : Nat) (s : ElementStatus) : Abs := { A with est := Function.update A.est e s }

theorem Rep.setStatus (R : Rep w h ml m1 sd A W) {e : Nat} {el : Element ℝ} (hel : W.mesh.elements[e]? = some el) (s : ElementStatus) :
    Rep w h ml m1 sd (A.setStatus e s) { W with mesh := { W.mesh with elements := W.mesh.elements.set e { el with status := s } } } := by
  have hann := Annot.setElem (b := { el with status := s }) hel ⟨rfl, rfl⟩
  refine ⟨R.annot.trans hann, R.status, R.slots, R.nodup, R.contour, R.nPoints, R.plen, R.pts, R.arcMem, R.segs, R.nSegments, R.length, ?_⟩
  intro e' el' he'
  change (W.mesh.elements.set e _)[e']? = some el' at he'
  show el'.status = Function.update A.est e s e' ∧ _
  by_cases hee : e = e'
  · subst hee
    rw [List.getElem?_set_self (List.getElem?_eq_some_iff.1 hel).1] at he'
    cases he'
    rw [Function.update_self]
    exact ⟨rfl, (R.elems e el hel).2⟩
  · rw [List.getElem?_set_ne hee] at he'
    rw [Function.update_of_ne (Ne.symm hee)]
    exact R.elems e' el' he'

theorem fourCuts_spec (R : Rep w h ml m1 sd A W) (S : Setup w h m1 sd) {x y : Nat} (hx : x < w) (hy : y < h) {a b c d : LP}
    (ha : a.place x y ∈ A.keys) (hb : b.place x y ∈ A.keys) (hc : c.place x y ∈ A.keys) (hd : d.place x y ∈ A.keys)
    (h0 : (segsOf A.arcs (cellNo w x y)).length = 0) :
    wp (fourCuts sd (cellNo w x y) (A.keys.idxOf (a.place x y)) (A.keys.idxOf (b.place x y)) (A.keys.idxOf (c.place x y))
      (A.keys.idxOf (d.place x y)) W)
      (Rep w h ml m1 sd ((A.grow x y (cellNo w x y) [] (joinsFour (firstWay w sd x y) a b c d)).setStatus (cellNo w x y)
        (centreStatus w sd x y))) noErr := by
  obtain ⟨nd, hnd, _, hst⟩ := R.node S (cornerAt_le hx hy 0).1 (cornerAt_le hx hy 0).2
  have hst' : nd.status = side w sd x y 0 := hst
  unfold fourCuts
  rw [cornerSum_eq R S hx hy]
  simp only [bind, Except.bind]
  rw [R.corner S hx hy (by omega)]
  dsimp only
  rw [rd_of_getElem? hnd]
  dsimp only
  have hf : ((nd.status == .inside && (nat 0 <. centreSum w sd x y)) || (nd.status == .outside && (centreSum w sd x y <. nat 0))) =
      firstWay w sd x y := by
    rw [hst']
    unfold firstWay
    rw [Bool.eq_iff_iff]
    simp [FP.lt_real]
  rw [hf]
  obtain ⟨s', hs', R'⟩ := wp_noErr_iff.1 (fourSegments_spec R S hx hy ha hb hc hd h0 (firstWay w sd x y))
  rw [hs']
  dsimp only
  obtain ⟨el, hel⟩ := (R'.annot.grid S.grid).elem_exists hx hy
  rw [modAt_some hel]
  simp only [bind, Except.bind, pure, Except.pure]
  rw [wp_ok]
  have : (if (nat 0 <. centreSum w sd x y) = true then ElementStatus.centreInside else .centreOutside) = centreStatus w sd x y := by
    unfold centreStatus
    simp [FP.lt_real]
  rw [this]
  exact R'.setStatus hel _

/-- Node number of a corner. -/
def cornerNo (w x y : Nat) : LP → Nat
  | .c j => nodeNo w (cornerAt x y j).1 (cornerAt x y j).2
  | .e _ => 0

theorem borderCorners_eq (R : Rep w h ml m1 sd A W) (S : Setup w h m1 sd) {x y : Nat} (hx : x < w) (hy : y < h) :
    borderCorners W.mesh (cellNo w x y) = .ok ((upTo (borderC (side w sd x y)) 4).map (cornerNo w x y)) := by
  unfold borderCorners
  refine forN_eq (fun n => (upTo (borderC (side w sd x y)) n).map (cornerNo w x y)) rfl ?_
  intro j hj
  obtain ⟨nd, hnd, _, hst⟩ := R.node S (cornerAt_le hx hy j).1 (cornerAt_le hx hy j).2
  have hst' : nd.status = side w sd x y j := hst
  rw [R.corner S hx hy hj]
  simp only [bind, Except.bind]
  rw [rd_of_getElem? hnd]
  simp only [pure, Except.pure]
  rw [hst']
  show _ = Except.ok ((upTo (borderC (side w sd x y)) j ++ borderC (side w sd x y) j).map _)
  rw [List.map_append]
  unfold borderC
  by_cases hb : side w sd x y j = .boundary
  · rw [if_pos hb, if_pos hb]; rfl
  · rw [if_neg hb, if_neg hb]; simp

theorem borderC_mem {s : Nat → NodeStatus} {p : LP} {n : Nat} (h : p ∈ upTo (borderC s) n) : ∃ j, j < n ∧ p = .c j ∧ s j = .boundary := by
  induction n with
  | zero => cases h
  | succ n ih =>
    rcases List.mem_append.1 h with h | h
    · obtain ⟨j, h1, h2⟩ := ih h
      exact ⟨j, by omega, h2⟩
    · unfold borderC at h
      split at h
      · rw [List.mem_singleton] at h
        exact ⟨n, by omega, h, ‹_›⟩
      · cases h

theorem noCut_spec (R : Rep w h ml m1 sd A W) (S : Setup w h m1 sd) {x y : Nat} (hx : x < w) (hy : y < h)
    {a b : LP} {l : List LP} (hl : upTo (borderC (side w sd x y)) 4 = a :: b :: l)
    (hcap : (segsOf A.arcs (cellNo w x y)).length < 2) :
    wp (noCut ml (cellNo w x y) W) (Rep w h ml m1 sd (A.grow x y (cellNo w x y) [a, b] [(a, b)])) noErr := by
  obtain ⟨i, _, rfl, hi⟩ := borderC_mem (show a ∈ upTo (borderC (side w sd x y)) 4 by rw [hl]; simp)
  obtain ⟨j, _, rfl, hj⟩ := borderC_mem (show b ∈ upTo (borderC (side w sd x y)) 4 by rw [hl]; simp)
  unfold noCut
  rw [borderCorners_eq R S hx hy, hl]
  exact twoCorners_spec R S hx hy hi hj hcap

theorem joinCuts_spec (R : Rep w h ml m1 sd A W) (S : Setup w h m1 sd) {x y : Nat} (hx : x < w) (hy : y < h)
    (hl : ∀ p ∈ upTo (edgeCuts (side w sd x y) (look w m1 isTarget x y)) 4, p.place x y ∈ A.keys)
    (hdef : defined (side w sd x y) (look w m1 isTarget x y) = true)
    (hest : A.est (cellNo w x y) = stat (side w sd x y))
    (h4 : (upTo (edgeCuts (side w sd x y) (look w m1 isTarget x y)) 4).length = 4 → (segsOf A.arcs (cellNo w x y)).length = 0)
    (hcap : (segsOf A.arcs (cellNo w x y)).length + (joins (side w sd x y) (look w m1 isTarget x y) (firstWay w sd x y)).length ≤ 2) :
    wp (joinCuts ml sd (cellNo w x y) (W, nums A x y (upTo (edgeCuts (side w sd x y) (look w m1 isTarget x y)) 4)))
      (fun W' => ∃ est, (∀ e, e ≠ cellNo w x y → est e = A.est e) ∧
        (est (cellNo w x y) = if (upTo (edgeCuts (side w sd x y) (look w m1 isTarget x y)) 4).length = 4 then centreStatus w sd x y else stat (side w sd x y)) ∧
        Rep w h ml m1 sd { A.grow x y (cellNo w x y) (joinKeys (side w sd x y) (look w m1 isTarget x y))
          (joins (side w sd x y) (look w m1 isTarget x y) (firstWay w sd x y)) with est := est } W') noErr := by
  have nochange : ∀ {A' : Abs} {W' : Work ℝ}, A'.est = A.est → Rep w h ml m1 sd A' W' →
      ∃ est, (∀ e, e ≠ cellNo w x y → est e = A.est e) ∧ (est (cellNo w x y) = stat (side w sd x y)) ∧
        Rep w h ml m1 sd { A' with est := est } W' := by
    intro A' W' he R'
    exact ⟨A'.est, fun e _ => by rw [he], by rw [he, hest], R'⟩
  unfold joinCuts joinKeys
  unfold joins at hcap ⊢
  unfold defined at hdef
  dsimp only
  generalize hcuts : upTo (edgeCuts (side w sd x y) (look w m1 isTarget x y)) 4 = cuts at *
  match cuts with
  | [a, b] =>
    refine wp_imp (segment_spec R S hx hy (hl a (by simp)) (hl b (by simp)) (by simp at hcap; omega)) fun W' R' => ?_
    rw [if_neg (by simp)]
    exact nochange (A' := A.grow x y (cellNo w x y) [] [(a, b)]) rfl R'
  | [a] =>
    refine wp_imp (oneCut_spec R S hx hy (hl a (by simp)) hcap) fun W' R' => ?_
    rw [if_neg (by simp)]
    exact nochange (A' := A.grow x y (cellNo w x y) (upTo (cornerKeys (side w sd x y)) 4) (upTo (cornerArcs (side w sd x y) a) 4)) rfl R'
  | [a, b, c, d] =>
    refine wp_imp (fourCuts_spec R S hx hy (hl a (by simp)) (hl b (by simp)) (hl c (by simp)) (hl d (by simp)) (h4 rfl)) fun W' R' => ?_
    rw [if_pos (by simp)]
    exact ⟨_, fun e he => Function.update_of_ne he _ _, Function.update_self _ _ _, R'⟩
  | [] =>
    rw [if_neg (by simp)]
    dsimp only [nums, List.map_nil]
    obtain ⟨el, hel⟩ := (R.annot.grid S.grid).elem_exists hx hy
    rw [rd_of_getElem? hel]
    simp only [bind, Except.bind]
    rw [(R.elems _ _ hel).1, hest]
    by_cases hi : stat (side w sd x y) = .inside
    · rw [if_pos hi, if_pos hi, if_pos hi]
      rw [Abs.grow_nil]
      exact nochange (A' := A) rfl R
    · rw [if_neg hi] at hcap
      rw [if_neg hi, if_neg hi, if_neg hi]
      simp only [hi, decide_false, Bool.false_or, decide_eq_true_eq] at hdef
      match hbc : upTo (borderC (side w sd x y)) 4, hdef with
      | a :: b :: l, _ =>
        rw [hbc] at hcap
        refine wp_imp (noCut_spec R S hx hy hbc (by simp at hcap; omega)) fun W' R' => ?_
        exact nochange (A' := A.grow x y (cellNo w x y) [a, b] [(a, b)]) rfl R'
  | [a, b, c] =>
    rw [if_neg (by simp), Abs.grow_nil]
    exact nochange (A' := A) rfl R
  | a :: b :: c :: d :: e :: l =>
    exfalso
    have : (upTo (edgeCuts (side w sd x y) (look w m1 isTarget x y)) 4).length ≤ 4 := by
      simp only [upTo, List.length_append, List.length_nil, edgeCuts]
      split_ifs <;> simp
    rw [hcuts] at this
    simp at this
    omega

/-- Segments of the cell `(x, y)`. -/
noncomputable def cellArcs (w : Nat) (m1 : Mesh ℝ) (sd : List ℝ) (isTarget : Bool) (x y : Nat) : List (LP × LP) :=
  arcs (side w sd x y) (look w m1 isTarget x y) (firstWay w sd x y)

/-- Points of the cell `(x, y)`. -/
noncomputable def cellMarks (w : Nat) (m1 : Mesh ℝ) (sd : List ℝ) (isTarget : Bool) (x y : Nat) : List LP :=
  marks (side w sd x y) (look w m1 isTarget x y)

/-- The cell can be processed. -/
def cellOk (w : Nat) (m1 : Mesh ℝ) (sd : List ℝ) (isTarget : Bool) (x y : Nat) : Prop :=
  (stat (side w sd x y) ≠ .outside → defined (side w sd x y) (look w m1 isTarget x y) = true) ∧ (cellArcs w m1 sd isTarget x y).length ≤ 2

/-- four cut edges leave no room for anything else -/
theorem four_cuts {s : Nat → NodeStatus} {v : Nat → Bool} (h : (upTo (edgeCuts s v) 4).length = 4) : upTo (edgeArcs s v) 4 = [] := by
  have key : ∀ j, (edgeCuts s v j).length ≤ 1 ∧ ((edgeCuts s v j).length = 1 → edgeArcs s v j = []) := by
    intro j
    unfold edgeCuts edgeArcs
    split_ifs <;> simp
  simp only [upTo, List.length_append, List.length_nil, List.nil_append] at h ⊢
  have h0 := key 0
  have h1 := key 1
  have h2 := key 2
  have h3 := key 3
  rw [h0.2 (by omega), h1.2 (by omega), h2.2 (by omega), h3.2 (by omega)]
  rfl

/-- Status of the element at the end. -/
noncomputable def finalStatus (w : Nat) (m1 : Mesh ℝ) (sd : List ℝ) (isTarget : Bool) (x y : Nat) : ElementStatus :=
  if stat (side w sd x y) ≠ .outside ∧ (upTo (edgeCuts (side w sd x y) (look w m1 isTarget x y)) 4).length = 4 then centreStatus w sd x y
  else stat (side w sd x y)

theorem element_spec (R : Rep w h ml m1 sd A W) (S : Setup w h m1 sd) {x y : Nat} (hx : x < w) (hy : y < h)
    (hok : cellOk w m1 sd isTarget x y) (hest : A.est (cellNo w x y) = stat (side w sd x y))
    (h0 : (segsOf A.arcs (cellNo w x y)).length = 0) :
    wp (element ml sd isTarget (cellNo w x y) W)
      (fun W' => ∃ est, (∀ e, e ≠ cellNo w x y → est e = A.est e) ∧ est (cellNo w x y) = finalStatus w m1 sd isTarget x y ∧
        Rep w h ml m1 sd { A.grow x y (cellNo w x y) (cellMarks w m1 sd isTarget x y) (cellArcs w m1 sd isTarget x y) with est := est } W')
      noErr := by
  obtain ⟨el, hel⟩ := (R.annot.grid S.grid).elem_exists hx hy
  obtain ⟨hdef, hcap⟩ := hok
  unfold element
  rw [rd_of_getElem? hel]
  simp only [bind, Except.bind]
  rw [(R.elems _ _ hel).1, hest]
  unfold cellMarks marks finalStatus
  unfold cellArcs arcs at hcap ⊢
  by_cases ho : stat (side w sd x y) = .outside
  · rw [if_pos ho, if_pos ho, if_pos ho, if_neg (by simp [ho]), Abs.grow_nil]
    exact ⟨A.est, fun _ _ => rfl, hest, R⟩
  · rw [if_neg ho] at hcap
    rw [if_neg ho, if_neg ho, if_neg ho]
    rw [List.length_append] at hcap
    obtain ⟨t, ht, R1, hc, hm⟩ := wp_noErr_iff.1 (edges_spec (isTarget := isTarget) R S hx hy h0 (by omega))
    rw [ht]
    dsimp only
    obtain ⟨s1, c1⟩ := t
    dsimp only at R1 hc
    subst hc
    have := joinCuts_spec (isTarget := isTarget) R1 S hx hy hm (hdef ho) hest
      (fun h4 => by rw [segsOf_grow, four_cuts h4, h0]; rfl) (by rw [segsOf_grow, h0]; omega)
    refine wp_imp this fun W' hW' => ?_
    obtain ⟨est, h1, h2, R2⟩ := hW'
    rw [Abs.grow_grow] at R2
    refine ⟨est, h1, ?_, R2⟩
    rw [h2]
    simp only [ne_eq, ho, not_false_eq_true, true_and]

/-! ### all the elements -/

/-- Places of the first `n` cells, in the order of creation. -/
noncomputable def allMarks (w : Nat) (m1 : Mesh ℝ) (sd : List ℝ) (isTarget : Bool) (n : Nat) : List Place :=
  upTo (fun e => (cellMarks w m1 sd isTarget (e % w) (e / w)).map (LP.place (e % w) (e / w))) n

noncomputable def allArcs (w : Nat) (m1 : Mesh ℝ) (sd : List ℝ) (isTarget : Bool) (n : Nat) : List Arc :=
  upTo (fun e => (cellArcs w m1 sd isTarget (e % w) (e / w)).map (arcAt (e % w) (e / w) e)) n

/-- The state after `n` elements. -/
noncomputable def run (w : Nat) (m1 : Mesh ℝ) (sd : List ℝ) (isTarget : Bool) (n : Nat) : Abs where
  keys := addKeys [] (allMarks w m1 sd isTarget n)
  arcs := allArcs w m1 sd isTarget n
  est e := if e < n then finalStatus w m1 sd isTarget (e % w) (e / w) else stat (side w sd (e % w) (e / w))

theorem allArcs_lt {n : Nat} {g : Arc} (h : g ∈ allArcs w m1 sd isTarget n) : g.e < n := by
  induction n with
  | zero => cases h
  | succ n ih =>
    rcases List.mem_append.1 h with h | h
    · exact (ih h).trans (Nat.lt_succ_self n)
    · obtain ⟨g', _, rfl⟩ := List.mem_map.1 h
      exact Nat.lt_succ_self n

theorem Rep.congr {A' : Abs} (R : Rep w h ml m1 sd A W) (hk : A'.keys = A.keys) (ha : A'.arcs = A.arcs)
    (he : ∀ e, e < m1.nElements → A'.est e = A.est e) (hg : IsGrid w h m1) : Rep w h ml m1 sd A' W := by
  refine ⟨R.annot, R.status, ?_, ?_, ?_, ?_, ?_, ?_, ?_, ?_, ?_, ?_, ?_⟩
  · rw [hk]; exact R.slots
  · rw [hk]; exact R.nodup
  · rw [hk]; exact R.contour
  · rw [hk]; exact R.nPoints
  · rw [hk]; exact R.plen
  · rw [hk]; exact R.pts
  · rw [hk, ha]; exact R.arcMem
  · rw [hk, ha]; exact R.segs
  · rw [ha]; exact R.nSegments
  · rw [ha]; exact R.length
  · intro e el hel
    rw [ha, he e (by rw [← R.annot.nElements]; exact (R.annot.grid hg).elt_of_some hel)]
    exact R.elems e el hel

theorem elements_step (S : Setup w h m1 sd) {x y : Nat} (R' : Rep w h ml m1 sd (run w m1 sd isTarget (cellNo w x y)) W) (hx : x < w) (hy : y < h)
    (hok : cellOk w m1 sd isTarget x y) : wp (element ml sd isTarget (cellNo w x y) W)
      (fun s => Rep w h ml m1 sd (run w m1 sd isTarget (cellNo w x y + 1)) s) noErr := by
  have em : cellNo w x y % w = x := idx_mod hx
  have ed : cellNo w x y / w = y := idx_div hx
  refine wp_imp (element_spec R' S hx hy hok ?_ ?_) fun s' hs' => ?_
  · show (if cellNo w x y < cellNo w x y then _ else _) = _
    rw [if_neg (lt_irrefl _), em, ed]
  · rw [segsOf_length, List.length_eq_zero_iff, List.filter_eq_nil_iff]
    intro g hg hge
    have := allArcs_lt hg
    rw [of_decide_eq_true hge] at this
    exact lt_irrefl _ this
  · obtain ⟨est, h1, h2, R2⟩ := hs'
    refine R2.congr ?_ ?_ ?_ S.grid
    · show addKeys [] (upTo _ (cellNo w x y) ++ _) = addKeys (addKeys [] _) _
      rw [addKeys_append]
      dsimp only
      rw [em, ed]
      rfl
    · show upTo _ (cellNo w x y) ++ _ = _ ++ _
      dsimp only
      rw [em, ed]
      rfl
    · intro e' he'
      by_cases hee : e' = cellNo w x y
      · subst hee
        show (if cellNo w x y < cellNo w x y + 1 then _ else _) = est (cellNo w x y)
        rw [if_pos (Nat.lt_succ_self _), em, ed, h2]
      · show (if e' < cellNo w x y + 1 then _ else _) = est e'
        rw [h1 e' hee]
        show _ = if e' < cellNo w x y then _ else _
        have : e' < cellNo w x y + 1 ↔ e' < cellNo w x y := by omega
        simp only [this]

theorem elements_spec (S : Setup w h m1 sd) (R : Rep w h ml m1 sd (run w m1 sd isTarget 0) W)
    (hok : ∀ x y, x < w → y < h → cellOk w m1 sd isTarget x y) :
    wp (forN m1.nElements W (element ml sd isTarget)) (Rep w h ml m1 sd (run w m1 sd isTarget m1.nElements)) noErr := by
  refine wp_forN (E := noErr) (fun n (s : Work ℝ) => Rep w h ml m1 sd (run w m1 sd isTarget n) s) R fun e he s R' => ?_
  obtain ⟨x, y, hx, hy, rfl⟩ := S.grid.elem_index he
  exact elements_step S R' hx hy (hok x y hx hy)

end

end Boundary

end Slsm
