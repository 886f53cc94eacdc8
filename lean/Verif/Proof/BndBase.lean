import Verif.Spec.Boundary
import Verif.Proof.LSBand
import Verif.Spec.History

/-! Discretisation: what the steps leave unchanged; status of nodes and elements. -/

namespace Slsm

open FP

section
variable {D : Type} [FP D] {w h : Nat}

/-- `b` is `a` with other boundary slots and status. -/
structure SameNode (a b : Node D) : Prop where
  eq : b = { a with boundaryPoints := b.boundaryPoints, nBoundaryPoints := b.nBoundaryPoints, status := b.status }
  len : b.boundaryPoints.length = a.boundaryPoints.length

/-- `b` is `a` with other segment slots, status and area. -/
structure SameElem (a b : Element D) : Prop where
  eq : b = { a with boundarySegments := b.boundarySegments, nBoundarySegments := b.nBoundarySegments, status := b.status, area := b.area }
  len : b.boundarySegments.length = a.boundarySegments.length

/-- `m` is `m0` with other annotations of nodes and elements. -/
structure Annot (m0 m : Mesh D) : Prop where
  width : m.width = m0.width
  height : m.height = m0.height
  nNodes : m.nNodes = m0.nNodes
  nElements : m.nElements = m0.nElements
  xy : m.xyToIndex = m0.xyToIndex
  nlen : m.nodes.length = m0.nodes.length
  elen : m.elements.length = m0.elements.length
  node : ∀ (i : Nat) (b : Node D), m.nodes[i]? = some b → ∃ a, m0.nodes[i]? = some a ∧ SameNode a b
  elem : ∀ (i : Nat) (b : Element D), m.elements[i]? = some b → ∃ a, m0.elements[i]? = some a ∧ SameElem a b

theorem SameNode.refl (a : Node D) : SameNode a a := ⟨rfl, rfl⟩
theorem SameElem.refl (a : Element D) : SameElem a a := ⟨rfl, rfl⟩

theorem SameNode.trans {a b c : Node D} (h1 : SameNode a b) (h2 : SameNode b c) : SameNode a c :=
  ⟨by rw [h2.eq, h1.eq], h2.len.trans h1.len⟩

theorem SameElem.trans {a b c : Element D} (h1 : SameElem a b) (h2 : SameElem b c) : SameElem a c :=
  ⟨by rw [h2.eq, h1.eq], h2.len.trans h1.len⟩

theorem Annot.refl (m : Mesh D) : Annot m m :=
  ⟨rfl, rfl, rfl, rfl, rfl, rfl, rfl, fun _ b h => ⟨b, h, .refl b⟩, fun _ b h => ⟨b, h, .refl b⟩⟩

theorem Annot.trans {m0 m1 m2 : Mesh D} (h1 : Annot m0 m1) (h2 : Annot m1 m2) : Annot m0 m2 := by
  refine ⟨h2.width.trans h1.width, h2.height.trans h1.height, h2.nNodes.trans h1.nNodes, h2.nElements.trans h1.nElements,
    h2.xy.trans h1.xy, h2.nlen.trans h1.nlen, h2.elen.trans h1.elen, fun i c hc => ?_, fun i c hc => ?_⟩
  · obtain ⟨b, hb, s2⟩ := h2.node i c hc
    obtain ⟨a, ha, s1⟩ := h1.node i b hb
    exact ⟨a, ha, s1.trans s2⟩
  · obtain ⟨b, hb, s2⟩ := h2.elem i c hc
    obtain ⟨a, ha, s1⟩ := h1.elem i b hb
    exact ⟨a, ha, s1.trans s2⟩

theorem Annot.setNode {m : Mesh D} {i : Nat} {a b : Node D} (ha : m.nodes[i]? = some a) (hs : SameNode a b) :
    Annot m { m with nodes := m.nodes.set i b } := by
  refine ⟨rfl, rfl, rfl, rfl, rfl, by simp, rfl, fun k c hc => ?_, fun _ c hc => ⟨c, hc, .refl c⟩⟩
  change (m.nodes.set i b)[k]? = some c at hc
  by_cases hk : i = k
  · subst hk
    rw [List.getElem?_set_self (List.getElem?_eq_some_iff.1 ha).1] at hc
    cases hc
    exact ⟨a, ha, hs⟩
  · rw [List.getElem?_set_ne hk] at hc
    exact ⟨c, hc, .refl c⟩

theorem Annot.setElem {m : Mesh D} {i : Nat} {a b : Element D} (ha : m.elements[i]? = some a) (hs : SameElem a b) :
    Annot m { m with elements := m.elements.set i b } := by
  refine ⟨rfl, rfl, rfl, rfl, rfl, rfl, by simp, fun _ c hc => ⟨c, hc, .refl c⟩, fun k c hc => ?_⟩
  change (m.elements.set i b)[k]? = some c at hc
  by_cases hk : i = k
  · subst hk
    rw [List.getElem?_set_self (List.getElem?_eq_some_iff.1 ha).1] at hc
    cases hc
    exact ⟨a, ha, hs⟩
  · rw [List.getElem?_set_ne hk] at hc
    exact ⟨c, hc, .refl c⟩

theorem Annot.grid {m0 m : Mesh D} (A : Annot m0 m) (G : IsGrid w h m0) : IsGrid w h m := by
  constructor
  · exact G.w_pos
  · exact G.h_pos
  · rw [A.width]; exact G.width
  · rw [A.height]; exact G.height
  · rw [A.nNodes]; exact G.nNodes
  · rw [A.nElements]; exact G.nElements
  · rw [A.nlen]; exact G.nodes_length
  · rw [A.elen]; exact G.elements_length
  · intro x y nd hx hy e
    obtain ⟨a, ha, s⟩ := A.node _ _ e
    rw [s.eq]; exact G.coord x y a hx hy ha
  · intro x y nd hx hy e
    obtain ⟨a, ha, s⟩ := A.node _ _ e
    rw [s.eq]; exact G.neighbours x y a hx hy ha
  · intro x y nd hx hy e
    obtain ⟨a, ha, s⟩ := A.node _ _ e
    rw [s.eq]; exact G.isDomain x y a hx hy ha
  · intro n nd e
    obtain ⟨a, ha, s⟩ := A.node _ _ e
    rw [s.eq]; exact G.cells n a ha
  · intro n nd e
    obtain ⟨a, ha, s⟩ := A.node _ _ e
    rw [s.len]; exact G.slots n a ha
  · intro x y el hx hy e
    obtain ⟨a, ha, s⟩ := A.elem _ _ e
    rw [s.eq]; exact G.centre x y a hx hy ha
  · intro x y el hx hy e
    obtain ⟨a, ha, s⟩ := A.elem _ _ e
    rw [s.eq]; exact G.corner x y a hx hy ha
  · intro n el e
    obtain ⟨a, ha, s⟩ := A.elem _ _ e
    rw [s.len]; exact G.segSlots n a ha
  · rw [A.xy]; exact G.xy_length
  · rw [A.xy]; exact G.xy_col
  · rw [A.xy]; exact G.xy

/-- nodes of the original mesh in the annotated one -/
theorem Annot.node_of {m0 m : Mesh D} (A : Annot m0 m) {i : Nat} {a : Node D} (ha : m0.nodes[i]? = some a) :
    ∃ b, m.nodes[i]? = some b ∧ SameNode a b := by
  have : i < m.nodes.length := by rw [A.nlen]; exact (List.getElem?_eq_some_iff.1 ha).1
  obtain ⟨a', ha', s⟩ := A.node i _ (List.getElem?_eq_getElem this)
  rw [ha] at ha'
  cases ha'
  exact ⟨_, List.getElem?_eq_getElem this, s⟩

theorem Annot.elem_of {m0 m : Mesh D} (A : Annot m0 m) {i : Nat} {a : Element D} (ha : m0.elements[i]? = some a) :
    ∃ b, m.elements[i]? = some b ∧ SameElem a b := by
  have : i < m.elements.length := by rw [A.elen]; exact (List.getElem?_eq_some_iff.1 ha).1
  obtain ⟨a', ha', s⟩ := A.elem i _ (List.getElem?_eq_getElem this)
  rw [ha] at ha'
  cases ha'
  exact ⟨_, List.getElem?_eq_getElem this, s⟩

theorem Annot.flags {m0 m : Mesh D} (A : Annot m0 m) (i : Nat) : LevelSet.flags m i = LevelSet.flags m0 i := by
  unfold LevelSet.flags
  cases h : m.nodes[i]? with
  | none =>
    have : m0.nodes[i]? = none := by
      rw [List.getElem?_eq_none_iff] at h ⊢
      rw [← A.nlen]; exact h
    rw [this]
  | some b =>
    obtain ⟨a, ha, s⟩ := A.node i b h
    rw [ha, s.eq]
    rfl

theorem Annot.getElement {m0 m : Mesh D} (A : Annot m0 m) (p : Coord D) : m.getElement p = m0.getElement p := by
  unfold Mesh.getElement
  simp only [A.width]

theorem Annot.getClosestNode {m0 m : Mesh D} (A : Annot m0 m) (p : Coord D) : m.getClosestNode p = m0.getClosestNode p := by
  unfold Mesh.getClosestNode
  rw [A.getElement]
  cases h : m0.elements[m0.getElement p]? with
  | none =>
    have h' : m.elements[m0.getElement p]? = none := by
      rw [List.getElem?_eq_none_iff] at h ⊢
      rw [A.elen]; exact h
    unfold rd
    rw [h, h']
  | some a =>
    obtain ⟨b, hb, s⟩ := A.elem_of h
    rw [rd_of_getElem? h, rd_of_getElem? hb, s.eq]
    rfl

end

namespace Boundary

section
variable {D : Type} [FP D] {w h : Nat}

theorem Annot.initialisePoint {m0 m : Mesh D} (A : Annot m0 m) (ml : D) (c : Coord D) :
    initialisePoint ml m c = initialisePoint ml m0 c := by
  unfold Boundary.initialisePoint
  rw [A.width, A.height, A.getClosestNode]
  cases m0.getClosestNode c with
  | error e => rfl
  | ok n =>
    simp only [bind, Except.bind]
    cases h : m0.nodes[n]? with
    | none =>
      have h' : m.nodes[n]? = none := by
        rw [List.getElem?_eq_none_iff] at h ⊢
        rw [A.nlen]; exact h
      unfold rd
      rw [h, h']
    | some a =>
      obtain ⟨b, hb, s⟩ := A.node_of h
      rw [rd_of_getElem? h, rd_of_getElem? hb, s.eq]
      rfl

/-! ### status -/

omit [FP D] in
theorem modAt_some {α : Type} {v : List α} {i : Nat} {f : α → Res α} {a : α} (h : v[i]? = some a) :
    modAt v i f = (f a >>= fun b => .ok (v.set i b)) := by
  obtain ⟨hl, he⟩ := List.getElem?_eq_some_iff.1 h
  unfold modAt
  rw [rd_of_getElem? h]
  simp only [bind, Except.bind]
  cases hf : f a with
  | error e => rfl
  | ok b => exact wr_eq _ hl

theorem rd_vals {sd : List D} {i : Nat} (hs : i < sd.length) : rd sd i = .ok (vals sd i) := by
  rw [rd_eq hs]
  unfold vals; rw [List.getD_eq_getElem?_getD, List.getElem?_eq_getElem hs]; rfl

/-- a node after the first loop of `computeMeshStatus` -/
def marked (sd : List D) (i : Nat) (nd : Node D) : Node D := { nd with nBoundaryPoints := 0, status := nodeStatus (vals sd i) }

structure Marked (m : Mesh D) (sd : List D) (k : Nat) (m' : Mesh D) : Prop where
  annot : Annot m m'
  node : ∀ (i : Nat) (nd : Node D), m.nodes[i]? = some nd → m'.nodes[i]? = some (if i < k then marked sd i nd else nd)
  elems : m'.elements = m.elements

theorem markNode_spec {m m' : Mesh D} {sd : List D} {k : Nat} (hk : k < m.nodes.length) (hs : k < sd.length) (M : Marked m sd k m') :
    wp (markNode sd k m') (Marked m sd (k + 1)) noErr := by
  unfold markNode
  rw [rd_vals hs]
  simp only [bind, Except.bind]
  have h0 := M.node k _ (List.getElem?_eq_getElem hk)
  rw [if_neg (lt_irrefl k)] at h0
  rw [modAt_some h0]
  simp only [bind, Except.bind, pure, Except.pure]
  rw [wp_ok]
  refine ⟨M.annot.trans (Annot.setNode h0 ⟨rfl, rfl⟩), fun i nd hi => ?_, M.elems⟩
  show (m'.nodes.set k _)[i]? = _
  by_cases hik : k = i
  · subst hik
    rw [List.getElem?_set_self (List.getElem?_eq_some_iff.1 h0).1, if_pos (Nat.lt_succ_self k)]
    rw [List.getElem?_eq_getElem hk] at hi
    cases hi
    rfl
  · rw [List.getElem?_set_ne hik, M.node i nd hi]
    have : i < k + 1 ↔ i < k := by omega
    simp only [this]

/-- status of an element from the status of its nodes -/
def elemStatus (l : List NodeStatus) : ElementStatus :=
  if NodeStatus.outside ∉ l then .inside else if NodeStatus.inside ∉ l then .outside else .none

theorem tally_spec {m : Mesh D} {el : Element D} {n0 n1 n2 n3 : Nat} (he : el.nodes = [n0, n1, n2, n3]) {a0 a1 a2 a3 : Node D}
    (h0 : m.nodes[n0]? = some a0) (h1 : m.nodes[n1]? = some a1) (h2 : m.nodes[n2]? = some a2) (h3 : m.nodes[n3]? = some a3) :
    ∃ t, tally m el = .ok t ∧ (if t.2 = 0 then ElementStatus.inside else if t.1 = 0 then .outside else .none) =
      elemStatus [a0.status, a1.status, a2.status, a3.status] := by
  have key : tally m el = .ok ((fun t s => if s = NodeStatus.inside then (t.1 + 1, t.2) else if s = .outside then (t.1, t.2 + 1) else t)
      ((fun t s => if s = NodeStatus.inside then (t.1 + 1, t.2) else if s = .outside then (t.1, t.2 + 1) else t)
      ((fun t s => if s = NodeStatus.inside then (t.1 + 1, t.2) else if s = .outside then (t.1, t.2 + 1) else t)
      ((fun (t : Nat × Nat) s => if s = NodeStatus.inside then (t.1 + 1, t.2) else if s = .outside then (t.1, t.2 + 1) else t)
        (0, 0) a0.status) a1.status) a2.status) a3.status) := by
    unfold tally
    simp only [forN, he, bind, Except.bind, rd, List.getElem?_cons_zero, List.getElem?_cons_succ, h0, h1, h2, h3, pure, Except.pure]
  refine ⟨_, key, ?_⟩
  generalize a0.status = s0
  generalize a1.status = s1
  generalize a2.status = s2
  generalize a3.status = s3
  revert s0 s1 s2 s3
  intro s0 s1 s2 s3
  cases s0 <;> cases s1 <;> cases s2 <;> cases s3 <;> rfl

/-- statuses of the corners of a cell -/
def cornerStatus (w : Nat) (sd : List D) (x y : Nat) : List NodeStatus := (corners w x y).map fun n => nodeStatus (vals sd n)

/-- an element after `computeMeshStatus` -/
def markedE (w : Nat) (sd : List D) (x y : Nat) (el : Element D) : Element D :=
  { el with nBoundarySegments := 0, status := elemStatus (cornerStatus w sd x y) }

/-- The result of `computeMeshStatus`. -/
structure Status (w h : Nat) (m : Mesh D) (sd : List D) (k : Nat) (m' : Mesh D) : Prop where
  annot : Annot m m'
  node : ∀ (i : Nat) (nd : Node D), m.nodes[i]? = some nd → m'.nodes[i]? = some (marked sd i nd)
  elem : ∀ x y (el : Element D), x < w → y < h → m.elements[cellNo w x y]? = some el →
    m'.elements[cellNo w x y]? = some (if cellNo w x y < k then markedE w sd x y el else el)

theorem markElement_spec {m m' : Mesh D} {sd : List D} (G : IsGrid w h m) {x y : Nat} (hx : x < w) (hy : y < h)
    (S : Status w h m sd (cellNo w x y) m') : wp (markElement (cellNo w x y) m') (Status w h m sd (cellNo w x y + 1)) noErr := by
  obtain ⟨el, hel⟩ := G.elem_exists hx hy
  have hel' := S.elem x y el hx hy hel
  rw [if_neg (lt_irrefl _)] at hel'
  have hc := G.corner x y el hx hy hel
  obtain ⟨b0, hb0⟩ := G.node_exists (x := x) (y := y) (by omega) (by omega)
  obtain ⟨b1, hb1⟩ := G.node_exists (x := x + 1) (y := y) (by omega) (by omega)
  obtain ⟨b2, hb2⟩ := G.node_exists (x := x + 1) (y := y + 1) (by omega) (by omega)
  obtain ⟨b3, hb3⟩ := G.node_exists (x := x) (y := y + 1) (by omega) (by omega)
  obtain ⟨t, ht, hst⟩ := tally_spec (m := m') hc (S.node _ _ hb0) (S.node _ _ hb1) (S.node _ _ hb2) (S.node _ _ hb3)
  unfold markElement
  rw [rd_of_getElem? hel']
  simp only [bind, Except.bind]
  rw [ht]
  dsimp only
  rw [modAt_some hel']
  simp only [bind, Except.bind, pure, Except.pure]
  rw [wp_ok]
  refine ⟨S.annot.trans (Annot.setElem hel' ⟨rfl, rfl⟩), fun i nd hi => S.node i nd hi, fun x' y' el' hx' hy' he' => ?_⟩
  show (m'.elements.set _ _)[cellNo w x' y']? = _
  by_cases hk : cellNo w x y = cellNo w x' y'
  · obtain ⟨rfl, rfl⟩ := idx_inj hx hx' hk
    rw [List.getElem?_set_self (List.getElem?_eq_some_iff.1 hel').1, if_pos (Nat.lt_succ_self _)]
    rw [hel] at he'
    cases he'
    rw [hst]
    rfl
  · rw [List.getElem?_set_ne hk, S.elem x' y' el' hx' hy' he']
    have : cellNo w x' y' < cellNo w x y + 1 ↔ cellNo w x' y' < cellNo w x y := by omega
    simp only [this]

theorem computeMeshStatus_spec {m : Mesh D} {sd : List D} (G : IsGrid w h m) (hsd : m.nNodes ≤ sd.length) :
    wp (computeMeshStatus m sd) (Status w h m sd m.nElements) noErr := by
  unfold computeMeshStatus
  rw [wp_bind]
  have hN : m.nodes.length = m.nNodes := by rw [G.nodes_length, G.nNodes]
  refine wp_imp (wp_forN (E := noErr) (fun k (m' : Mesh D) => Marked m sd k m') ?_ fun i hi s hs => ?_) fun m1 M => ?_
  · exact ⟨.refl m, fun i nd hi => by rw [if_neg (Nat.not_lt_zero i)]; exact hi, rfl⟩
  · exact markNode_spec (by omega) (by omega) hs
  · rw [M.annot.nElements]
    refine wp_forN (E := noErr) (fun k (m' : Mesh D) => Status w h m sd k m') ?_ fun i hi s hs => ?_
    · refine ⟨M.annot, fun i nd hi => ?_, fun x y el hx hy he => ?_⟩
      · rw [M.node i nd hi, if_pos (by rw [← hN]; exact (List.getElem?_eq_some_iff.1 hi).1)]
      · rw [if_neg (Nat.not_lt_zero _), M.elems]; exact he
    · obtain ⟨x, y, hx, hy, rfl⟩ := G.elem_index hi
      exact markElement_spec G hx hy hs

end

end Boundary

end Slsm
