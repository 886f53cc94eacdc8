import Verif.Proof.BndSane
import Verif.Proof.BndTable
import Mathlib.Algebra.BigOperators.Group.Finset.Basic
import Mathlib.Algebra.BigOperators.Group.Finset.Piecewise

/-! Discretisation of gentle values: the whole run, and the number of segments at each place. -/

namespace Slsm

open FP

namespace Boundary

section
variable {D : Type} [FP D]

theorem upTo_congr {α : Type} {g g' : Nat → List α} {n : Nat} (H : ∀ i, i < n → g i = g' i) : upTo g n = upTo g' n := by
  induction n with
  | zero => rfl
  | succ n ih =>
    show upTo g n ++ g n = upTo g' n ++ g' n
    rw [ih fun i hi => H i (by omega), H n (by omega)]

/-- Contribution of a segment to the degree of `j`. -/
def endsAt (j : Nat) (g : BoundarySegment D) : Nat := (if j = g.start then 1 else 0) + (if j = g.stop then 1 else 0)

omit [FP D] in
theorem degree_eq (segs : List (BoundarySegment D)) (j : Nat) : degree segs j = (segs.map (endsAt j)).sum := by
  unfold degree
  induction segs using List.reverseRecOn with
  | nil => rfl
  | append_singleton l g ih =>
    rw [List.length_append, List.length_singleton, List.map_append, List.sum_append, ← ih]
    show (upTo _ l.length ++ segsAt (l ++ [g]) j l.length).length = _
    rw [List.length_append]
    congr 1
    · rw [upTo_congr fun i hi => ?_]
      unfold segsAt
      rw [List.getElem?_append_left hi]
    · unfold segsAt endsAt
      rw [List.getElem?_append_right (le_refl _), Nat.sub_self]
      simp only [List.getElem?_cons_zero, List.map_cons, List.map_nil, List.sum_cons, List.sum_nil, add_zero]
      split_ifs <;> rfl

omit [FP D] in
theorem lens_eq (segs : List (BoundarySegment D)) (j : Nat) : upTo (lensAt segs j) segs.length =
    segs.flatMap fun g => (if j = g.start then [g.length] else []) ++ if j = g.stop then [g.length] else [] := by
  induction segs using List.reverseRecOn with
  | nil => rfl
  | append_singleton l g ih =>
    rw [List.length_append, List.length_singleton, List.flatMap_append, ← ih]
    show upTo _ l.length ++ lensAt (l ++ [g]) j l.length = _
    congr 1
    · refine upTo_congr fun i hi => ?_
      unfold lensAt
      rw [List.getElem?_append_left hi]
    · unfold lensAt
      rw [List.getElem?_append_right (le_refl _), Nat.sub_self]
      simp

omit [FP D] in
theorem nbrs_eq (segs : List (BoundarySegment D)) (j : Nat) : upTo (nbrsAt segs j) segs.length =
    segs.flatMap fun g => (if j = g.start then [g.stop] else []) ++ if j = g.stop then [g.start] else [] := by
  induction segs using List.reverseRecOn with
  | nil => rfl
  | append_singleton l g ih =>
    rw [List.length_append, List.length_singleton, List.flatMap_append, ← ih]
    show upTo _ l.length ++ nbrsAt (l ++ [g]) j l.length = _
    congr 1
    · refine upTo_congr fun i hi => ?_
      unfold nbrsAt
      rw [List.getElem?_append_left hi]
    · unfold nbrsAt
      rw [List.getElem?_append_right (le_refl _), Nat.sub_self]
      simp

end

section
variable {w h : Nat} {ml : ℝ} {m0 : Mesh ℝ} {sd : List ℝ} {isTarget : Bool}

theorem side_stat (w : Nat) (sd : List ℝ) (x y : Nat) : elemStatus (cornerStatus w sd x y) = stat (side w sd x y) := by
  unfold cornerStatus stat side corners onGrid
  simp only [List.map_cons, List.map_nil, nodeStatus_real, cornerAt]

/-- The state before the first element. -/
theorem Status.rep {m1 : Mesh ℝ} (hg : IsGrid w h m0) (S : Status w h m0 sd m0.nElements m1) :
    Rep w h ml m0 sd (run w m0 sd isTarget 0) { bnd := new, mesh := m1 } := by
  refine ⟨S.annot, (S.sane hg (ml := ml)).status, fun x y nd hx hy hi => ?_, List.nodup_nil, fun p hp => (by cases hp), rfl, rfl,
    fun k p hk => (by cases hk), fun g hg => (by cases hg), rfl, rfl, ?_, fun e el hel => ?_⟩
  · obtain ⟨a, ha, _⟩ := S.annot.node _ nd hi
    have := S.node _ a ha
    change m1.nodes[_]? = some nd at hi
    rw [hi] at this
    cases this
    exact ⟨rfl, rfl⟩
  · show (nat 0 : ℝ) = 0
    simp
  · change m1.elements[e]? = some el at hel
    have he := (S.annot.grid hg).elt_of_some hel
    rw [S.annot.nElements] at he
    obtain ⟨x, y, hx, hy, rfl⟩ := hg.elem_index he
    obtain ⟨a, ha⟩ := hg.elem_exists hx hy
    have := S.elem x y a hx hy ha
    rw [hel, if_pos he] at this
    cases this
    refine ⟨?_, rfl, rfl⟩
    show elemStatus _ = if cellNo w x y < 0 then finalStatus w m0 sd isTarget (cellNo w x y % w) (cellNo w x y / w) else
      stat (side w sd (cellNo w x y % w) (cellNo w x y / w))
    have em : cellNo w x y % w = x := idx_mod hx
    have ed : cellNo w x y / w = y := idx_div hx
    rw [if_neg (Nat.not_lt_zero _), em, ed]
    exact side_stat w sd x y

/-- Ends of the segments. -/
def Abs.pairs (A : Abs) : List (Place × Place) := A.arcs.map fun g => (g.a, g.b)

theorem degree_occ {f : Nat → Nat → ℝ} {keys : List Place} {as : List Arc} (hm : ∀ g ∈ as, g.a ∈ keys ∧ g.b ∈ keys)
    {p : Place} (hp : p ∈ keys) : degree (as.map (toSeg f keys)) (keys.idxOf p) = occ p (as.map fun g => (g.a, g.b)) := by
  rw [degree_eq, occ, List.map_map, List.map_map]
  congr 1
  refine List.map_congr_left fun g hg => ?_
  obtain ⟨ha, hb⟩ := hm g hg
  have key : ∀ q ∈ keys, (keys.idxOf p = keys.idxOf q ↔ q = p) := by
    intro q hq
    constructor
    · intro e
      have h1 := getElem?_idxOf hp
      have h2 := getElem?_idxOf hq
      rw [e, h2] at h1
      exact Option.some.inj h1
    · rintro rfl; rfl
  simp only [Function.comp_apply, endsAt, toSeg, key _ ha, key _ hb]

/-- What `discretise` has made of gentle values. -/
structure Exact (w h : Nat) (L : LevelSet ℝ) (sd : List ℝ) (isTarget : Bool) (b : Boundary ℝ) (L' : LevelSet ℝ) : Prop where
  level : L' = { L with mesh := L'.mesh }
  rep : ∃ W, Rep w h L.moveLimit L.mesh sd (run w L.mesh sd isTarget (w * h)) W ∧ L'.mesh = W.mesh ∧ b = { W.bnd with points := b.points } ∧
    Links W.bnd.points b.points (fun j => upTo (lensAt W.bnd.segments j) W.bnd.segments.length)
      (fun j => upTo (segsAt W.bnd.segments j) W.bnd.segments.length) (fun j => upTo (nbrsAt W.bnd.segments j) W.bnd.segments.length) ∧
    computePointLengths W.bnd = .ok b

theorem Rep.fresh {A : Abs} {W : Work ℝ} (R : Rep w h ml m0 sd A W) : ∀ p ∈ W.bnd.points, Fresh p := by
  intro p hp
  obtain ⟨k, hk⟩ := List.mem_iff_getElem?.1 hp
  have hlt : k < A.keys.length := by rw [← R.plen]; exact (List.getElem?_eq_some_iff.1 hk).1
  obtain ⟨pt, h1, h2⟩ := R.pts k _ (List.getElem?_eq_getElem hlt)
  rw [h1] at hk
  cases hk
  exact (initialisePoint_fresh h2).1

theorem Rep.segLt {A : Abs} {W : Work ℝ} (R : Rep w h ml m0 sd A W) : ∀ g ∈ W.bnd.segments, g.start < W.bnd.points.length ∧ g.stop < W.bnd.points.length := by
  intro s hs
  rw [R.segs] at hs
  obtain ⟨g, hg, rfl⟩ := List.mem_map.1 hs
  rw [R.plen]
  exact ⟨List.idxOf_lt_length_iff.2 (R.arcMem g hg).1, List.idxOf_lt_length_iff.2 (R.arcMem g hg).2⟩

theorem discretise_exact {L : LevelSet ℝ} (S : Setup w h L.mesh (if isTarget then L.target else L.signedDistance))
    (hok : ∀ x y, x < w → y < h → cellOk w L.mesh (if isTarget then L.target else L.signedDistance) isTarget x y) :
    wp (discretise L isTarget) (fun r => Exact w h L (if isTarget then L.target else L.signedDistance) isTarget r.1 r.2)
      (fun e => e = .ub ∧ ∃ p ∈ (run w L.mesh (if isTarget then L.target else L.signedDistance) isTarget (w * h)).keys,
        2 < occ p (run w L.mesh (if isTarget then L.target else L.signedDistance) isTarget (w * h)).pairs) := by
  generalize hs : (if isTarget then L.target else L.signedDistance) = sd at S hok
  unfold discretise
  rw [hs, wp_bind]
  refine wp_mono (computeMeshStatus_spec S.grid S.len) (fun m1 st => ?_) fun _ h => h.elim
  rw [wp_bind, st.annot.nElements]
  refine wp_mono (elements_spec S (st.rep S.grid) hok) (fun W R => ?_) fun _ h => h.elim
  rw [S.grid.nElements] at R
  rw [wp_bind]
  have hcp := computePointLengths_spec (R.nSegments.trans (by rw [R.segs, List.length_map])) R.segLt R.fresh
  rcases hc : computePointLengths W.bnd with e | b
  all_goals rw [hc] at hcp
  rotate_left
  · obtain ⟨pts, rfl, hl⟩ : ∃ pts, b = _ ∧ _ := hcp
    exact ⟨rfl, W, R, rfl, rfl, hl, hc⟩
  · have he : e = .ub ∧ _ := hcp
    refine ⟨he.1, ?_⟩
    obtain ⟨j, hj, hd⟩ := he.2
    rw [R.plen] at hj
    refine ⟨_, List.getElem_mem hj, ?_⟩
    have := degree_occ (f := onGrid w sd) R.arcMem (List.getElem_mem hj)
    rw [R.nodup.idxOf_getElem j hj] at this
    rw [R.segs, this] at hd
    exact hd

/-- Every point has at most two segments when the call returns. -/
theorem Exact.le_two {L L' : LevelSet ℝ} {b : Boundary ℝ} (E : Exact w h L sd isTarget b L') {p : Place}
    (hp : p ∈ (run w L.mesh sd isTarget (w * h)).keys) : occ p (run w L.mesh sd isTarget (w * h)).pairs ≤ 2 := by
  obtain ⟨W, R, _, _, hl, _⟩ := E.rep
  have hlt : (run w L.mesh sd isTarget (w * h)).keys.idxOf p < W.bnd.points.length := by
    rw [R.plen]; exact List.idxOf_lt_length_iff.2 hp
  obtain ⟨q, _, hq⟩ := hl.pt _ _ (List.getElem?_eq_getElem hlt)
  have := hq.sle
  have hd := degree_occ (f := onGrid w sd) R.arcMem hp
  unfold Abs.pairs
  rw [← hd, ← R.segs]
  exact this

/-! ### counting -/

theorem occ_append {α : Type} [DecidableEq α] (p : α) (l l' : List (α × α)) : occ p (l ++ l') = occ p l + occ p l' := by
  unfold occ; rw [List.map_append, List.sum_append]

theorem occ_upTo {α : Type} [DecidableEq α] (p : α) (g : Nat → List (α × α)) (n : Nat) :
    occ p (upTo g n) = ∑ e ∈ Finset.range n, occ p (g e) := by
  induction n with
  | zero => rfl
  | succ n ih =>
    rw [Finset.sum_range_succ, ← ih]
    exact occ_append p _ _

theorem upTo_map {α β : Type} (u : α → β) (g : Nat → List α) (n : Nat) : (upTo g n).map u = upTo (fun i => (g i).map u) n := by
  induction n with
  | zero => rfl
  | succ n ih =>
    show (upTo g n ++ g n).map u = upTo _ n ++ _
    rw [List.map_append, ih]

theorem run_occ (p : Place) (n : Nat) : occ p (run w m0 sd isTarget n).pairs =
    ∑ e ∈ Finset.range n, occ p ((cellArcs w m0 sd isTarget (e % w) (e / w)).map fun g =>
      (g.1.place (e % w) (e / w), g.2.place (e % w) (e / w))) := by
  rw [← occ_upTo]
  unfold Abs.pairs
  show occ p ((allArcs w m0 sd isTarget n).map _) = _
  unfold allArcs
  rw [upTo_map]
  congr 1
  refine upTo_congr fun e _ => ?_
  rw [List.map_map]
  rfl

/-- The corners and edges of a cell. -/
def eight : List LP := [.c 0, .c 1, .c 2, .c 3, .e 0, .e 1, .e 2, .e 3]

theorem side_mem (w : Nat) (sd : List ℝ) (x y j : Nat) : side w sd x y j ∈ sts := by
  unfold side
  rcases nodeSide_cases (onGrid w sd (cornerAt x y j).1 (cornerAt x y j).2) with h | h | h <;> rw [h] <;> simp [sts]

theorem pick_eq {α : Type} (s : Nat → α) {j : Nat} (hj : j < 4) : pick (s 0) (s 1) (s 2) (s 3) j = s j := by
  match j, hj with
  | 0, _ => rfl
  | 1, _ => rfl
  | 2, _ => rfl
  | 3, _ => rfl

theorem fair_eight {s : Nat → NodeStatus} {p : LP} (h : fair s p = true) : p ∈ eight := by
  cases p with
  | c j =>
    have : j < 4 := by simp [fair] at h; exact h.1
    match j, this with
    | 0, _ => simp [eight]
    | 1, _ => simp [eight]
    | 2, _ => simp [eight]
    | 3, _ => simp [eight]
  | e j =>
    have : j < 4 := by simp [fair] at h; exact h.1
    match j, this with
    | 0, _ => simp [eight]
    | 1, _ => simp [eight]
    | 2, _ => simp [eight]
    | 3, _ => simp [eight]

theorem fair_pick {s : Nat → NodeStatus} {p : LP} : fair (pick (s 0) (s 1) (s 2) (s 3)) p = fair s p := by
  cases p with
  | c j =>
    unfold fair
    by_cases hj : j < 4
    · simp only [pick_eq s hj]
    · simp [hj]
  | e j =>
    unfold fair
    by_cases hj : j < 4
    · simp only [pick_eq s hj, pick_eq s (after_lt hj)]
    · simp [hj]

theorem cell_fair (w : Nat) (m0 : Mesh ℝ) (sd : List ℝ) (isTarget : Bool) (x y : Nat) :
    (∀ p ∈ cellMarks w m0 sd isTarget x y, fair (side w sd x y) p = true) ∧
    (∀ g ∈ cellArcs w m0 sd isTarget x y, g.1 ∈ cellMarks w m0 sd isTarget x y ∧ g.2 ∈ cellMarks w m0 sd isTarget x y ∧ g.1 ≠ g.2) ∧
    (∀ j, j < 4 → Crossed (side w sd x y j) (side w sd x y (after j)) → look w m0 isTarget x y j = true →
      LP.e j ∈ cellMarks w m0 sd isTarget x y) := by
  have := table_fair _ (side_mem w sd x y 0) _ (side_mem w sd x y 1) _ (side_mem w sd x y 2) _ (side_mem w sd x y 3)
    (look w m0 isTarget x y 0) (look w m0 isTarget x y 1) (look w m0 isTarget x y 2) (look w m0 isTarget x y 3) (firstWay w sd x y)
  unfold cellArcs cellMarks
  rw [arcs_pick, marks_pick]
  refine ⟨fun p hp => ?_, this.2.1, fun j hj hc hl => ?_⟩
  · rw [← fair_pick]; exact this.1 p hp
  · refine this.2.2 j (List.mem_range.2 hj) ?_ ?_
    · rw [pick_eq _ hj, pick_eq _ (after_lt hj)]; exact cutPair_iff.2 hc
    · rw [pick_eq _ hj]; exact hl

theorem sum_eight (x y : Nat) (P : Place) {q : LP} (hq : q ∈ eight) (u : LP → Nat) :
    (eight.map fun r => if r.place x y = P then u r + (if q = r then 1 else 0) else 0).sum =
    (eight.map fun r => if r.place x y = P then u r else 0).sum + if q.place x y = P then 1 else 0 := by
  have hn : eight.Nodup := by decide
  generalize eight = l at *
  induction l with
  | nil => cases hq
  | cons r l ih =>
    simp only [List.map_cons, List.sum_cons]
    obtain ⟨hr, hn'⟩ := List.nodup_cons.1 hn
    rcases List.mem_cons.1 hq with rfl | hq'
    · have : (l.map fun r => if r.place x y = P then u r + (if q = r then 1 else 0) else 0) = l.map fun r => if r.place x y = P then u r else 0 := by
        refine List.map_congr_left fun r hr' => ?_
        have : q ≠ r := by rintro rfl; exact hr hr'
        simp [this]
      rw [this, if_pos rfl]
      split_ifs <;> omega
    · have hqr : q ≠ r := by rintro rfl; exact hr hq'
      rw [ih hq' hn', if_neg hqr, add_zero]
      omega

theorem occ_place (x y : Nat) (P : Place) {l : List (LP × LP)} (hl : ∀ g ∈ l, g.1 ∈ eight ∧ g.2 ∈ eight) :
    occ P (l.map fun g => (g.1.place x y, g.2.place x y)) = (eight.map fun q => if q.place x y = P then occ q l else 0).sum := by
  induction l with
  | nil => simp [occ]
  | cons g l ih =>
    have ih := ih fun g' hg' => hl g' (List.mem_cons_of_mem _ hg')
    obtain ⟨h1, h2⟩ := hl g List.mem_cons_self
    have e : ∀ q : LP, occ q (g :: l) = occ q l + (if g.1 = q then 1 else 0) + (if g.2 = q then 1 else 0) := by
      intro q; unfold occ; simp only [List.map_cons, List.sum_cons]; omega
    have e' : occ P ((g :: l).map fun g => (g.1.place x y, g.2.place x y)) =
        occ P (l.map fun g => (g.1.place x y, g.2.place x y)) + (if g.1.place x y = P then 1 else 0) + (if g.2.place x y = P then 1 else 0) := by
      unfold occ; simp only [List.map_cons, List.sum_cons]; omega
    rw [e', ih]
    simp only [e]
    rw [sum_eight x y P h2 fun q => occ q l + if g.1 = q then 1 else 0, sum_eight x y P h1 fun q => occ q l]

theorem cell_occ (w : Nat) (m0 : Mesh ℝ) (sd : List ℝ) (isTarget : Bool) (x y : Nat) (P : Place) :
    occ P ((cellArcs w m0 sd isTarget x y).map fun g => (g.1.place x y, g.2.place x y)) =
      (eight.map fun q => if q.place x y = P then occ q (cellArcs w m0 sd isTarget x y) else 0).sum := by
  refine occ_place x y P fun g hg => ?_
  obtain ⟨h1, h2, _⟩ := cell_fair w m0 sd isTarget x y
  exact ⟨fair_eight (h1 _ (h2 g hg).1), fair_eight (h1 _ (h2 g hg).2.1)⟩

end

end Boundary

end Slsm
