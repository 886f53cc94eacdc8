import Verif.Proof.ExtendVel
import Verif.Model.Area

/-! # Calculation in larger number systems: the boundary and the area fractions -/

namespace Slsm

open LevelSet (map_bind' bind_map' rd_map' forN_map)

variable {E : Type} [FP E] {g : ℝ → E}

theorem wp_modAt' {α : Type} {v : List α} {i : Nat} {f : α → Res α} {Q : List α → Prop}
    (h : ∀ a b, v[i]? = some a → f a = .ok b → Q (v.set i b)) : wp (modAt v i f) Q (fun _ => True) := by
  unfold modAt
  rw [wp_bind]; refine wp_rd' fun a ha => ?_
  rw [wp_bind]
  cases e : f a with
  | error _ => trivial
  | ok b => exact wp_wr' (h a b ha e)

theorem hyp_map (H : Extends g) (a b : ℝ) : FP.sqrt (g (FP.add (FP.mul a a) (FP.mul b b))) = g (FP.sqrt (FP.add (FP.mul a a) (FP.mul b b))) :=
  H.sqrt' _ (add_nonneg (mul_self_nonneg a) (mul_self_nonneg b))

namespace Boundary

/-- The boundary under construction with other numbers. -/
def Work.map (g : ℝ → E) (s : Work ℝ) : Work E := { bnd := s.bnd.map g, mesh := s.mesh.map g }

/-- Every node carries the status belonging to its value. -/
def Signed (sd : List ℝ) (m : Mesh ℝ) : Prop := ∀ (n : Nat) nd v, m.nodes[n]? = some nd → sd[n]? = some v → nd.status = nodeStatus v

/-! ## The marks stay -/

theorem Signed.set {sd : List ℝ} {m : Mesh ℝ} (h : Signed sd m) {n : Nat} {a b : Node ℝ} (ha : m.nodes[n]? = some a) (hb : b.status = a.status) :
    Signed sd { m with nodes := m.nodes.set n b } := by
  intro k nd v hk hv
  dsimp only at hk
  rw [List.getElem?_set] at hk
  split at hk
  · next e =>
    split at hk
    · cases hk
      subst e
      rw [hb]
      exact h n a v ha hv
    · cases hk
  · exact h k nd v hk hv

theorem claim_signed {sd : List ℝ} (n : Nat) {s : Work ℝ} (h : Signed sd s.mesh) : wp (claim n s) (fun t => Signed sd t.mesh) (fun _ => True) := by
  unfold claim
  rw [wp_bind]
  refine wp_modAt' fun a b ha hb => h.set ha ?_
  cases e : wr a.boundaryPoints a.nBoundaryPoints s.bnd.nPoints with
  | error _ => rw [e] at hb; cases hb
  | ok l => rw [e] at hb; cases hb; rfl

theorem pushPoint_signed {sd : List ℝ} (ml : ℝ) (c : Coord ℝ) {s : Work ℝ} (h : Signed sd s.mesh) :
    wp (pushPoint ml c s) (fun t => Signed sd t.mesh) (fun _ => True) := by
  unfold pushPoint
  rw [wp_bind]
  exact wp_any _ fun _ => h

theorem cutPoint_signed {sd : List ℝ} (ml : ℝ) (n1 n2 j : Nat) (d : ℝ) {s : Work ℝ} (h : Signed sd s.mesh) :
    wp (cutPoint ml n1 n2 j d s) (fun t => Signed sd t.2.mesh) (fun _ => True) := by
  unfold cutPoint
  rw [wp_bind]; refine wp_any _ fun nd => ?_
  rw [wp_bind]; refine wp_any _ fun found => ?_
  cases found with
  | some k => exact h
  | none =>
    dsimp only
    rw [wp_bind]; refine wp_imp (claim_signed n1 h) fun s h => ?_
    rw [wp_bind]; refine wp_imp (claim_signed n2 h) fun s h => ?_
    rw [wp_bind]; exact wp_imp (pushPoint_signed ml _ h) fun s h => h

theorem nodePoint_signed {sd : List ℝ} (ml : ℝ) (n : Nat) {s : Work ℝ} (h : Signed sd s.mesh) :
    wp (nodePoint ml n s) (fun t => Signed sd t.2.mesh) (fun _ => True) := by
  unfold nodePoint
  rw [wp_bind]; refine wp_any _ fun nd => ?_
  rw [wp_bind]; refine wp_any _ fun found => ?_
  cases found with
  | some k => exact h
  | none =>
    dsimp only
    rw [wp_bind]; refine wp_imp (claim_signed n h) fun s h => ?_
    rw [wp_bind]; exact wp_imp (pushPoint_signed ml _ h) fun s h => h

theorem addSegment_signed {sd : List ℝ} (i a b : Nat) {s : Work ℝ} (h : Signed sd s.mesh) :
    wp (addSegment i a b s) (fun t => Signed sd t.mesh) (fun _ => True) := by
  unfold addSegment
  rw [wp_bind]; refine wp_any _ fun len => ?_
  rw [wp_bind]; exact wp_any _ fun els => h

theorem borderEdge_signed {sd : List ℝ} (ml : ℝ) (i n1 n2 : Nat) {s : Work ℝ} (h : Signed sd s.mesh) :
    wp (borderEdge ml i n1 n2 s) (fun t => Signed sd t.mesh) (fun _ => True) := by
  unfold borderEdge
  rw [wp_bind]; refine wp_imp (nodePoint_signed ml n1 h) fun s h => ?_
  rw [wp_bind]; refine wp_imp (nodePoint_signed ml n2 h) fun s h => ?_
  exact addSegment_signed _ _ _ h

theorem edgeStep_signed {sd sd' : List ℝ} (ml : ℝ) (tg : Bool) (i j : Nat) {t : Work ℝ × List Nat} (h : Signed sd t.1.mesh) :
    wp (edgeStep ml sd' tg i j t) (fun t => Signed sd t.1.mesh) (fun _ => True) := by
  unfold edgeStep
  rw [wp_bind]; refine wp_any _ fun n1 => ?_
  rw [wp_bind]; refine wp_any _ fun n2 => ?_
  rw [wp_bind]; refine wp_any _ fun a => ?_
  rw [wp_bind]; refine wp_any _ fun b => ?_
  refine wp_ite (fun _ => ?_) (fun _ => h)
  refine wp_ite (fun _ => ?_) (fun _ => ?_)
  · rw [wp_bind]; refine wp_any _ fun v1 => ?_
    rw [wp_bind]; refine wp_any _ fun v2 => ?_
    rw [wp_bind]; exact wp_imp (cutPoint_signed ml n1 n2 j _ h) fun s h => h
  · refine wp_ite (fun _ => ?_) (fun _ => h)
    rw [wp_bind]; exact wp_imp (borderEdge_signed ml i n1 n2 h) fun s h => h

theorem joinCuts_signed {sd sd' : List ℝ} (ml : ℝ) (i : Nat) {t : Work ℝ × List Nat} (h : Signed sd t.1.mesh) :
    wp (joinCuts ml sd' i t) (fun t => Signed sd t.mesh) (fun _ => True) := by
  obtain ⟨s, cuts⟩ := t
  unfold joinCuts
  dsimp only at h ⊢
  match cuts with
  | [p0, p1] => exact addSegment_signed _ _ _ h
  | [p0] =>
    refine wp_imp (wp_forN (fun _ (t : Work ℝ) => Signed sd t.mesh) h (fun j t _ h => ?_)) fun t ht => ht
    unfold oneCutCorner
    rw [wp_bind]; refine wp_any _ fun n => ?_
    rw [wp_bind]; refine wp_any _ fun nd => ?_
    refine wp_ite (fun _ => ?_) (fun _ => h)
    rw [wp_bind]; refine wp_any _ fun na => ?_
    rw [wp_bind]; refine wp_any _ fun nb => ?_
    rw [wp_bind]; refine wp_any _ fun a => ?_
    rw [wp_bind]; refine wp_any _ fun b => ?_
    refine wp_ite (fun _ => ?_) (fun _ => h)
    rw [wp_bind]; refine wp_imp (nodePoint_signed ml n h) fun s h => ?_
    exact addSegment_signed _ _ _ h
  | [p0, p1, p2, p3] =>
    dsimp only
    unfold fourCuts
    rw [wp_bind]; refine wp_any _ fun sum => ?_
    rw [wp_bind]; refine wp_any _ fun n => ?_
    rw [wp_bind]; refine wp_any _ fun nd => ?_
    rw [wp_bind]
    unfold fourSegments
    refine wp_imp (Q := fun t : Work ℝ => Signed sd t.mesh) (wp_ite (fun _ => ?_) (fun _ => ?_)) fun s h => ?_
    · rw [wp_bind]; refine wp_imp (addSegment_signed _ _ _ h) fun s h => ?_
      exact addSegment_signed _ _ _ h
    · rw [wp_bind]; refine wp_imp (addSegment_signed _ _ _ h) fun s h => ?_
      exact addSegment_signed _ _ _ h
    · rw [wp_bind]; exact wp_any _ fun els => h
  | [] =>
    dsimp only
    rw [wp_bind]; refine wp_any _ fun el => ?_
    refine wp_ite (fun _ => h) (fun _ => ?_)
    unfold noCut
    rw [wp_bind]; refine wp_any _ fun l => ?_
    match l with
    | [] => trivial
    | [_] => trivial
    | n1 :: n2 :: _ =>
      dsimp only
      rw [wp_bind]; refine wp_imp (nodePoint_signed ml n1 h) fun s h => ?_
      rw [wp_bind]; refine wp_imp (nodePoint_signed ml n2 h) fun s h => ?_
      exact addSegment_signed _ _ _ h
  | [_, _, _] => exact h
  | _ :: _ :: _ :: _ :: _ :: _ => exact h

theorem status_signed {m : Mesh ℝ} {sd : List ℝ} (hn : m.nodes.length ≤ m.nNodes) :
    wp (computeMeshStatus m sd) (Signed sd) (fun _ => True) := by
  unfold computeMeshStatus
  rw [wp_bind]
  refine wp_imp (wp_forN (fun k (t : Mesh ℝ) => t.nodes.length = m.nodes.length ∧
    ∀ n, n < k → ∀ nd v, t.nodes[n]? = some nd → sd[n]? = some v → nd.status = nodeStatus v) ⟨rfl, fun n hn => absurd hn (Nat.not_lt_zero n)⟩
    (fun k t _ h => ?_)) fun t h => ?_
  · unfold markNode
    rw [wp_bind]; refine wp_rd' fun v hv => ?_
    rw [wp_bind]; refine wp_modAt' fun a b ha hb => ?_
    refine ⟨by simpa using h.1, fun n hn nd w hnd hw => ?_⟩
    dsimp only at hnd
    rw [List.getElem?_set] at hnd
    split at hnd
    · next e =>
      split at hnd
      · cases hnd
        cases hb
        subst e
        rw [hv] at hw
        cases hw
        rfl
      · cases hnd
    · exact h.2 n (by omega) nd w hnd hw
  · refine wp_imp (wp_forN (fun _ (t : Mesh ℝ) => Signed sd t) (fun n nd v hnd hv => ?_) (fun j t _ h => ?_)) fun t ht => ht
    · refine h.2 n ?_ nd v hnd hv
      have := (List.getElem?_eq_some_iff.1 hnd).1
      omega
    · unfold markElement
      rw [wp_bind]; refine wp_any _ fun el => ?_
      rw [wp_bind]; refine wp_any _ fun tl => ?_
      rw [wp_bind]; exact wp_any _ fun els => h

/-! ## The calculation -/

variable (H : Extends g)

include H

theorem map_nodeStatus (v : ℝ) : nodeStatus (g v) = nodeStatus v := by
  unfold nodeStatus
  rw [H.abs', H.lit (by decide), H.lt_eq, H.nat', H.lt_eq]

theorem map_markNode (sd : List ℝ) (i : Nat) (m : Mesh ℝ) : markNode (sd.map g) i (m.map g) = (markNode sd i m).map (Mesh.map g) := by
  unfold markNode
  rw [rd_map', bind_map', map_bind']
  refine bind_congr fun v => ?_
  rw [map_bind', Mesh.map_nodes, map_nodeStatus H, modAt_map' (Node.map g) (f := fun nd => pure { nd with nBoundaryPoints := 0, status := nodeStatus v })
    (fun nd => rfl), bind_map']
  rfl

omit H in
theorem map_tally (m : Mesh ℝ) (el : Element ℝ) : tally (m.map g) (el.map g) = tally m el := by
  unfold tally
  rw [Mesh.map_nodes]
  simp only [rd_map', bind_map']
  rfl

omit H in
theorem map_markElement (i : Nat) (m : Mesh ℝ) : markElement i (m.map g) = (markElement i m).map (Mesh.map g) := by
  unfold markElement
  rw [Mesh.map_elements, rd_map', bind_map', map_bind']
  refine bind_congr fun el => ?_
  rw [map_tally, map_bind']
  refine bind_congr fun t => ?_
  rw [map_bind', modAt_map' (Element.map g) (f := fun el => pure { el with nBoundarySegments := 0, status := _ }) (fun el => rfl), bind_map']
  rfl

theorem map_computeMeshStatus (m : Mesh ℝ) (sd : List ℝ) : computeMeshStatus (m.map g) (sd.map g) = (computeMeshStatus m sd).map (Mesh.map g) := by
  unfold computeMeshStatus
  rw [map_bind']
  refine (congrArg (· >>= _) (forN_map (Mesh.map g) m.nNodes (fun i m _ => map_markNode H sd i m) m)).trans ?_
  rw [bind_map']
  exact bind_congr fun m => forN_map (Mesh.map g) m.nElements (fun i m _ => map_markElement i m) m

theorem map_edgePoint (c : Coord ℝ) (e : Nat) (d : ℝ) : edgePoint (c.map g) e (g d) = (edgePoint c e d).map g := by
  unfold edgePoint
  dsimp only [Coord.map]
  rw [H.add', H.add', H.sub', H.sub']
  split_ifs <;> rfl

theorem map_isClose (p q : Coord ℝ) : isClose (p.map g) (q.map g) = isClose p q := by
  unfold isClose
  dsimp only [Coord.map]
  rw [H.sub', H.sub', H.abs', H.abs', H.lit (by decide), H.lt_eq, H.lt_eq]

theorem map_isAdded (m : Mesh ℝ) (pts : List (BoundaryPoint ℝ)) (p : Coord ℝ) (node : Nat) :
    isAdded (m.map g) (pts.map (BoundaryPoint.map g)) (p.map g) node = isAdded m pts p node := by
  unfold isAdded
  rw [Mesh.map_nodes, rd_map', bind_map']
  refine bind_congr fun nd => ?_
  show forN nd.nBoundaryPoints none _ = _
  refine forN_congr fun i _ t => ?_
  cases t with
  | some k => rfl
  | none =>
    dsimp only
    show (rd nd.boundaryPoints i >>= _) = _
    refine bind_congr fun k => ?_
    rw [rd_map', bind_map']
    refine bind_congr fun q => ?_
    show pure (if isClose (p.map g) (q.coord.map g) = true then _ else _) = _
    rw [map_isClose H]

theorem map_edgeLimit (ml : ℝ) (w h : Nat) (c : Coord ℝ) : edgeLimit (g ml) w h (c.map g) = Prod.map g id (edgeLimit ml w h c) := by
  unfold edgeLimit
  dsimp only [Coord.map]
  simp only [H.nat', H.sub', H.min', H.lt_eq, H.neg', H.lit (show (1000000 : Nat) ≠ 0 by decide)]
  split <;> rfl

theorem map_maskLimit (nd : Node ℝ) (c : Coord ℝ) (l : ℝ) : maskLimit (nd.map g) (c.map g) (g l) = Prod.map g id (maskLimit nd c l) := by
  unfold maskLimit
  dsimp only [Coord.map, Node.map]
  simp only [H.sub', H.abs', H.mul', H.add', H.lit (show (1000000 : Nat) ≠ 0 by decide), H.lt_eq]
  rw [hyp_map H, H.neg', H.lt_eq]
  split_ifs <;> rfl

theorem map_initialisePoint (ml : ℝ) (m : Mesh ℝ) (c : Coord ℝ) :
    initialisePoint (g ml) (m.map g) (c.map g) = (initialisePoint ml m c).map (BoundaryPoint.map g) := by
  unfold initialisePoint
  dsimp only
  rw [Mesh.map_getClosestNode H, map_bind']
  refine bind_congr fun node => ?_
  rw [Mesh.map_nodes, rd_map', bind_map', map_bind']
  refine bind_congr fun nd => ?_
  show pure _ = _
  rw [show edgeLimit (g ml) (m.map g).width (m.map g).height (c.map g) = _ from map_edgeLimit H ml m.width m.height c]
  dsimp only [Prod.map]
  rw [map_maskLimit H]
  unfold emptyPoint
  rw [H.nat']
  rfl

omit H in
theorem map_claim (n : Nat) (s : Work ℝ) : claim n (s.map g) = (claim n s).map (Work.map g) := by
  unfold claim
  rw [map_bind']
  refine (congrArg (· >>= _) (modAt_map' (Node.map g) (f := fun nd => wr nd.boundaryPoints nd.nBoundaryPoints s.bnd.nPoints >>= fun bp =>
    pure { nd with boundaryPoints := bp, nBoundaryPoints := nd.nBoundaryPoints + 1 }) (fun nd => ?_) s.mesh.nodes n)).trans ?_
  · rw [map_bind']
    rfl
  · rw [bind_map']
    rfl

theorem map_pushPoint (ml : ℝ) (c : Coord ℝ) (s : Work ℝ) : pushPoint (g ml) (c.map g) (s.map g) = (pushPoint ml c s).map (Work.map g) := by
  unfold pushPoint
  rw [map_bind']
  refine (congrArg (· >>= _) (map_initialisePoint H ml s.mesh c)).trans ?_
  rw [bind_map']
  refine bind_congr fun p => ?_
  refine congrArg Except.ok ?_
  dsimp only [Work.map, Boundary.map]
  rw [List.map_append]
  rfl

theorem map_cutPoint (ml : ℝ) (n1 n2 j : Nat) (d : ℝ) (s : Work ℝ) :
    cutPoint (g ml) n1 n2 j (g d) (s.map g) = (cutPoint ml n1 n2 j d s).map (Prod.map id (Work.map g)) := by
  unfold cutPoint
  rw [map_bind']
  refine (congrArg (· >>= _) (rd_map' (Node.map g) s.mesh.nodes n1)).trans ?_
  rw [bind_map']
  refine bind_congr fun nd => ?_
  dsimp only
  rw [show edgePoint (nd.map g).coord j (g d) = _ from map_edgePoint H nd.coord j d, map_bind']
  refine (congrArg (· >>= _) (map_isAdded H s.mesh s.bnd.points (edgePoint nd.coord j d) n1)).trans ?_
  refine bind_congr fun found => ?_
  cases found with
  | some k => rfl
  | none =>
    dsimp only
    rw [map_claim, bind_map', map_bind']
    refine bind_congr fun s1 => ?_
    rw [map_claim, bind_map', map_bind']
    refine bind_congr fun s1 => ?_
    rw [map_pushPoint H, bind_map', map_bind']
    rfl

theorem map_nodePoint (ml : ℝ) (n : Nat) (s : Work ℝ) :
    nodePoint (g ml) n (s.map g) = (nodePoint ml n s).map (Prod.map id (Work.map g)) := by
  unfold nodePoint
  rw [map_bind']
  refine (congrArg (· >>= _) (rd_map' (Node.map g) s.mesh.nodes n)).trans ?_
  rw [bind_map']
  refine bind_congr fun nd => ?_
  dsimp only
  rw [H.nat', show edgePoint (nd.map g).coord 0 (g (FP.nat 0)) = _ from map_edgePoint H nd.coord 0 (FP.nat 0), map_bind']
  refine (congrArg (· >>= _) (map_isAdded H s.mesh s.bnd.points (edgePoint nd.coord 0 (FP.nat 0)) n)).trans ?_
  refine bind_congr fun found => ?_
  cases found with
  | some k => rfl
  | none =>
    dsimp only
    rw [map_claim, bind_map', map_bind']
    refine bind_congr fun s1 => ?_
    rw [map_pushPoint H, bind_map', map_bind']
    rfl

theorem map_segmentLength (pts : List (BoundaryPoint ℝ)) (a b : Nat) :
    segmentLength (pts.map (BoundaryPoint.map g)) a b = (segmentLength pts a b).map g := by
  unfold segmentLength
  rw [rd_map', bind_map', map_bind']
  refine bind_congr fun p => ?_
  rw [rd_map', bind_map', map_bind']
  refine bind_congr fun q => ?_
  dsimp only [BoundaryPoint.map, Coord.map]
  rw [H.sub', H.sub', H.mul', H.mul', H.add', hyp_map H]
  rfl

theorem map_addSegment (i a b : Nat) (s : Work ℝ) : addSegment i a b (s.map g) = (addSegment i a b s).map (Work.map g) := by
  unfold addSegment
  rw [map_bind']
  refine (congrArg (· >>= _) (map_segmentLength H s.bnd.points a b)).trans ?_
  rw [bind_map']
  refine bind_congr fun len => ?_
  rw [map_bind']
  refine (congrArg (· >>= _) (modAt_map' (Element.map g) (f := fun el => wr el.boundarySegments el.nBoundarySegments s.bnd.nSegments >>= fun bs =>
    pure { el with boundarySegments := bs, nBoundarySegments := el.nBoundarySegments + 1 }) (fun el => ?_) s.mesh.elements i)).trans ?_
  · rw [map_bind']
    rfl
  · rw [bind_map']
    refine bind_congr fun els => ?_
    refine congrArg Except.ok ?_
    dsimp only [Work.map, Boundary.map]
    rw [List.map_append, H.nat', H.add']
    rfl

omit H in
theorem map_cornerNode (m : Mesh ℝ) (i j : Nat) : cornerNode (m.map g) i j = cornerNode m i j := by
  unfold cornerNode
  rw [Mesh.map_elements, rd_map', bind_map']
  rfl

theorem map_borderEdge (ml : ℝ) (i n1 n2 : Nat) (s : Work ℝ) : borderEdge (g ml) i n1 n2 (s.map g) = (borderEdge ml i n1 n2 s).map (Work.map g) := by
  unfold borderEdge
  rw [map_nodePoint H, bind_map', map_bind']
  refine bind_congr fun r => ?_
  obtain ⟨a, s⟩ := r
  dsimp only [Prod.map, id]
  rw [map_nodePoint H, bind_map', map_bind']
  refine bind_congr fun r => ?_
  obtain ⟨b, s⟩ := r
  exact map_addSegment H i a b s

omit H in
theorem cutSub_ne {a b : ℝ} (h : cutPair (nodeStatus a) (nodeStatus b) = true) : (FP.sub a b : ℝ) ≠ 0 := by
  have key : ∀ v : ℝ, (nodeStatus v = .inside → 0 ≤ v) ∧ (nodeStatus v = .outside → v < 0) := by
    intro v
    unfold nodeStatus
    simp only [FP.lt_real, FP.nat_real, Nat.cast_zero]
    constructor
    · intro hv
      split at hv
      · cases hv
      · split at hv
        · cases hv
        · next h => exact not_lt.1 h
    · intro hv
      split at hv
      · cases hv
      · split at hv
        · next h => exact h
        · cases hv
  unfold cutPair at h
  simp only [Bool.or_eq_true, Bool.and_eq_true, beq_iff_eq] at h
  show a - b ≠ 0
  rcases h with ⟨h1, h2⟩ | ⟨h1, h2⟩
  · have := (key a).1 h1
    have := (key b).2 h2
    linarith
  · have := (key a).2 h1
    have := (key b).1 h2
    linarith

theorem map_edgeStep (ml : ℝ) (sd : List ℝ) (tg : Bool) (i j : Nat) (t : Work ℝ × List Nat) (h : Signed sd t.1.mesh) :
    edgeStep (g ml) (sd.map g) tg i j (Prod.map (Work.map g) id t) = (edgeStep ml sd tg i j t).map (Prod.map (Work.map g) id) := by
  obtain ⟨s, cuts⟩ := t
  unfold edgeStep
  dsimp only [Prod.map, id] at h ⊢
  rw [map_bind']
  refine (congrArg (· >>= _) (map_cornerNode s.mesh i j)).trans (bind_congr fun n1 => ?_)
  rw [map_bind']
  refine (congrArg (· >>= _) (map_cornerNode s.mesh i (after j))).trans (bind_congr fun n2 => ?_)
  rw [map_bind']
  refine (congrArg (· >>= _) (rd_map' (Node.map g) s.mesh.nodes n1)).trans ?_
  rw [bind_map']
  cases ea : rd s.mesh.nodes n1 with
  | error _ => rfl
  | ok a =>
    rw [ok_bind', ok_bind', map_bind']
    refine (congrArg (· >>= _) (rd_map' (Node.map g) s.mesh.nodes n2)).trans ?_
    rw [bind_map']
    cases eb : rd s.mesh.nodes n2 with
    | error _ => rfl
    | ok b =>
      rw [ok_bind', ok_bind', map_ite']
      refine if_congr Iff.rfl ?_ rfl
      rw [map_ite']
      by_cases hc : cutPair a.status b.status = true
      · rw [if_pos hc]
        refine (if_pos hc).trans ?_
        rw [rd_map', bind_map', map_bind']
        cases e1 : rd sd n1 with
        | error _ => rfl
        | ok v1 =>
          rw [ok_bind', ok_bind', rd_map', bind_map', map_bind']
          cases e2 : rd sd n2 with
          | error _ => rfl
          | ok v2 =>
            rw [ok_bind', ok_bind']
            rw [rd_eq_ok] at ea eb e1 e2
            rw [h n1 a v1 ea e1, h n2 b v2 eb e2] at hc
            rw [H.sub', H.div' _ _ (cutSub_ne hc), map_cutPoint H, bind_map', map_bind']
            rfl
      · rw [if_neg hc]
        refine (if_neg hc).trans ?_
        rw [map_ite', map_borderEdge H, bind_map', map_bind']
        rfl

theorem map_oneCutCorner (ml : ℝ) (i p j : Nat) (s : Work ℝ) : oneCutCorner (g ml) i p j (s.map g) = (oneCutCorner ml i p j s).map (Work.map g) := by
  unfold oneCutCorner
  rw [map_bind']
  refine (congrArg (· >>= _) (map_cornerNode s.mesh i j)).trans (bind_congr fun n => ?_)
  rw [map_bind']
  refine (congrArg (· >>= _) (rd_map' (Node.map g) s.mesh.nodes n)).trans ?_
  rw [bind_map']
  refine bind_congr fun nd => ?_
  rw [map_ite']
  refine if_congr Iff.rfl ?_ rfl
  rw [map_bind']
  refine (congrArg (· >>= _) (map_cornerNode s.mesh i (after j))).trans (bind_congr fun na => ?_)
  rw [map_bind']
  refine (congrArg (· >>= _) (map_cornerNode s.mesh i (before j))).trans (bind_congr fun nb => ?_)
  rw [map_bind']
  refine (congrArg (· >>= _) (rd_map' (Node.map g) s.mesh.nodes na)).trans ?_
  rw [bind_map']
  refine bind_congr fun a => ?_
  rw [map_bind']
  refine (congrArg (· >>= _) (rd_map' (Node.map g) s.mesh.nodes nb)).trans ?_
  rw [bind_map']
  refine bind_congr fun b => ?_
  rw [map_ite']
  refine if_congr Iff.rfl ?_ rfl
  rw [map_nodePoint H, bind_map', map_bind']
  refine bind_congr fun r => ?_
  obtain ⟨k, s⟩ := r
  exact map_addSegment H i p k s

theorem map_cornerSum (m : Mesh ℝ) (sd : List ℝ) (i : Nat) : cornerSum (m.map g) (sd.map g) i = (cornerSum m sd i).map g := by
  unfold cornerSum
  rw [H.nat']
  refine forN_map g 4 (fun j t _ => ?_) _
  rw [map_bind', map_cornerNode]
  refine bind_congr fun n => ?_
  rw [rd_map', bind_map', map_bind']
  refine bind_congr fun v => ?_
  rw [H.add']
  rfl

theorem map_fourSegments (f : Bool) (i p0 p1 p2 p3 : Nat) (s : Work ℝ) :
    fourSegments f i p0 p1 p2 p3 (s.map g) = (fourSegments f i p0 p1 p2 p3 s).map (Work.map g) := by
  unfold fourSegments
  rw [map_addSegment H, map_addSegment H, bind_map', bind_map', map_ite', map_bind', map_bind']
  simp only [map_addSegment H]

theorem map_fourCuts (sd : List ℝ) (i p0 p1 p2 p3 : Nat) (s : Work ℝ) :
    fourCuts (sd.map g) i p0 p1 p2 p3 (s.map g) = (fourCuts sd i p0 p1 p2 p3 s).map (Work.map g) := by
  unfold fourCuts
  rw [map_bind']
  refine (congrArg (· >>= _) (map_cornerSum H s.mesh sd i)).trans ?_
  rw [bind_map']
  refine bind_congr fun sum => ?_
  rw [map_bind']
  refine (congrArg (· >>= _) (map_cornerNode s.mesh i 0)).trans (bind_congr fun n => ?_)
  rw [map_bind']
  refine (congrArg (· >>= _) (rd_map' (Node.map g) s.mesh.nodes n)).trans ?_
  rw [bind_map']
  refine bind_congr fun nd => ?_
  rw [H.nat', H.lt_eq, H.lt_eq, map_fourSegments H, bind_map', map_bind']
  refine bind_congr fun s => ?_
  rw [map_bind']
  refine (congrArg (· >>= _) (modAt_map' (Element.map g) (f := fun el => pure { el with status := if FP.lt (FP.nat 0) sum = true then .centreInside else .centreOutside })
    (fun el => rfl) s.mesh.elements i)).trans ?_
  rw [bind_map']
  rfl

omit H in
theorem map_borderCorners (m : Mesh ℝ) (i : Nat) : borderCorners (m.map g) i = borderCorners m i := by
  unfold borderCorners
  simp only [map_cornerNode, Mesh.map_nodes, rd_map', bind_map']
  rfl

theorem map_noCut (ml : ℝ) (i : Nat) (s : Work ℝ) : noCut (g ml) i (s.map g) = (noCut ml i s).map (Work.map g) := by
  unfold noCut
  rw [map_bind']
  refine (congrArg (· >>= _) (map_borderCorners s.mesh i)).trans (bind_congr fun l => ?_)
  match l with
  | [] => rfl
  | [_] => rfl
  | n1 :: n2 :: _ =>
    dsimp only
    exact map_borderEdge H ml i n1 n2 s

theorem map_joinCuts (ml : ℝ) (sd : List ℝ) (i : Nat) (t : Work ℝ × List Nat) :
    joinCuts (g ml) (sd.map g) i (Prod.map (Work.map g) id t) = (joinCuts ml sd i t).map (Work.map g) := by
  obtain ⟨s, cuts⟩ := t
  unfold joinCuts
  dsimp only [Prod.map, id]
  match cuts with
  | [p0, p1] => exact map_addSegment H i p0 p1 s
  | [p0] => exact forN_map (Work.map g) 4 (fun j s _ => map_oneCutCorner H ml i p0 j s) s
  | [p0, p1, p2, p3] => exact map_fourCuts H sd i p0 p1 p2 p3 s
  | [] =>
    dsimp only
    rw [map_bind']
    refine (congrArg (· >>= _) (rd_map' (Element.map g) s.mesh.elements i)).trans ?_
    rw [bind_map']
    refine bind_congr fun el => ?_
    rw [map_noCut H, map_ite']
    rfl
  | [_, _, _] => rfl
  | _ :: _ :: _ :: _ :: _ :: _ => rfl

theorem map_element (ml : ℝ) (sd : List ℝ) (tg : Bool) (i : Nat) (s : Work ℝ) (h : Signed sd s.mesh) :
    element (g ml) (sd.map g) tg i (s.map g) = (element ml sd tg i s).map (Work.map g) ∧
      ∀ t, element ml sd tg i s = .ok t → Signed sd t.mesh := by
  have e := forN_map_inv (Prod.map (Work.map g) id) (fun t : Work ℝ × List Nat => Signed sd t.1.mesh) (f := edgeStep ml sd tg i)
    (f' := edgeStep (g ml) (sd.map g) tg i) 4 (s := (s, [])) h
    (fun j t _ ht => ⟨map_edgeStep H ml sd tg i j t ht, of_wp (edgeStep_signed ml tg i j ht)⟩)
  unfold element
  constructor
  · rw [map_bind']
    refine (congrArg (· >>= _) (rd_map' (Element.map g) s.mesh.elements i)).trans ?_
    rw [bind_map']
    refine bind_congr fun el => ?_
    rw [map_ite']
    refine if_congr Iff.rfl rfl ?_
    refine (congrArg (· >>= _) e.1).trans ?_
    rw [bind_map', map_bind']
    exact bind_congr fun t => map_joinCuts H ml sd i t
  · refine of_wp ?_
    rw [wp_bind]; refine wp_any _ fun el => ?_
    refine wp_ite (fun _ => h) (fun _ => ?_)
    rw [wp_bind]
    cases e2 : forN 4 (s, []) (edgeStep ml sd tg i) with
    | error _ => trivial
    | ok t => exact joinCuts_signed ml i (e.2 t e2)

theorem map_addLength (k : Nat) (len : ℝ) (pts : List (BoundaryPoint ℝ)) :
    addLength k (g len) (pts.map (BoundaryPoint.map g)) = (addLength k len pts).map (List.map (BoundaryPoint.map g)) := by
  unfold addLength
  refine modAt_map' (BoundaryPoint.map g) (fun p => ?_) pts k
  dsimp only [BoundaryPoint.map]
  rw [H.lit (by decide), H.mul', H.add']
  rfl

omit H in
theorem map_linkSegment (k i : Nat) (pts : List (BoundaryPoint ℝ)) :
    linkSegment k i (pts.map (BoundaryPoint.map g)) = (linkSegment k i pts).map (List.map (BoundaryPoint.map g)) := by
  unfold linkSegment
  refine modAt_map' (BoundaryPoint.map g) (fun p => ?_) pts k
  rw [map_bind']
  rfl

omit H in
theorem map_linkNeighbour (k i : Nat) (pts : List (BoundaryPoint ℝ)) :
    linkNeighbour k i (pts.map (BoundaryPoint.map g)) = (linkNeighbour k i pts).map (List.map (BoundaryPoint.map g)) := by
  unfold linkNeighbour
  refine modAt_map' (BoundaryPoint.map g) (fun p => ?_) pts k
  rw [map_bind']
  rfl

theorem map_linkStep (segs : List (BoundarySegment ℝ)) (i : Nat) (pts : List (BoundaryPoint ℝ)) :
    linkStep (segs.map (BoundarySegment.map g)) i (pts.map (BoundaryPoint.map g)) = (linkStep segs i pts).map (List.map (BoundaryPoint.map g)) := by
  unfold linkStep
  rw [rd_map', bind_map', map_bind']
  refine bind_congr fun sg => ?_
  dsimp only [BoundarySegment.map]
  rw [map_addLength H, bind_map', map_bind']
  refine bind_congr fun pts => ?_
  rw [map_addLength H, bind_map', map_bind']
  refine bind_congr fun pts => ?_
  rw [map_linkSegment, bind_map', map_bind']
  refine bind_congr fun pts => ?_
  rw [map_linkSegment, bind_map', map_bind']
  refine bind_congr fun pts => ?_
  rw [map_linkNeighbour, bind_map', map_bind']
  exact bind_congr fun pts => map_linkNeighbour _ _ pts

theorem map_computePointLengths (b : Boundary ℝ) : computePointLengths (b.map g) = (computePointLengths b).map (Boundary.map g) := by
  unfold computePointLengths
  rw [map_bind']
  refine (congrArg (· >>= _) (forN_map (List.map (BoundaryPoint.map g)) b.nSegments (fun i pts _ => map_linkStep H b.segments i pts) b.points)).trans ?_
  rw [bind_map']
  rfl

theorem map_discretise (L : LevelSet ℝ) (tg : Bool) (hn : L.mesh.nodes.length ≤ L.mesh.nNodes) :
    discretise (L.map g) tg = (discretise L tg).map (Prod.map (Boundary.map g) (LevelSet.map g)) := by
  unfold discretise
  dsimp only
  have es : (if tg = true then (L.map g).target else (L.map g).signedDistance) = (if tg = true then L.target else L.signedDistance).map g := by
    split <;> rfl
  rw [es]
  generalize (if tg = true then L.target else L.signedDistance) = sd
  rw [map_bind']
  refine (congrArg (· >>= _) (map_computeMeshStatus H L.mesh sd)).trans ?_
  rw [bind_map']
  cases em : computeMeshStatus L.mesh sd with
  | error _ => rfl
  | ok m =>
    rw [ok_bind', ok_bind']
    have hm : Signed sd m := of_wp (status_signed hn) m em
    have e0 : ({ bnd := Boundary.new, mesh := m.map g } : Work E) = Work.map g { bnd := Boundary.new, mesh := m } := by
      unfold Boundary.new
      rw [H.nat']
      rfl
    rw [e0, map_bind']
    refine (congrArg (· >>= _) (forN_map_inv (Work.map g) (fun s : Work ℝ => Signed sd s.mesh) m.nElements hm
      (fun i s _ hs => map_element H L.moveLimit sd tg i s hs)).1).trans ?_
    rw [bind_map']
    refine bind_congr fun s => ?_
    rw [map_bind']
    refine (congrArg (· >>= _) (map_computePointLengths H s.bnd)).trans ?_
    rw [bind_map']
    rfl

theorem map_computePerimeter (b : Boundary ℝ) (p : BoundaryPoint ℝ) : computePerimeter (b.map g) (p.map g) = (computePerimeter b p).map g := by
  unfold computePerimeter
  rw [H.nat']
  refine forN_map g p.nNeighbours (fun i len _ => ?_) _
  rw [map_bind']
  refine bind_congr fun k => ?_
  rw [map_bind']
  refine (congrArg (· >>= _) (rd_map' (BoundaryPoint.map g) b.points k)).trans ?_
  rw [bind_map']
  refine bind_congr fun q => ?_
  dsimp only [BoundaryPoint.map, Coord.map]
  rw [H.sub', H.sub', H.mul', H.mul', H.add', hyp_map H, H.add']
  rfl

end Boundary

/-! ## Area fractions -/

namespace Area

section
variable {α β : Type} (f : α → β) {less : α → α → Bool} {less' : β → β → Bool} (h : ∀ a b, less' (f a) (f b) = less a b)

include h

theorem map_insertAt (a : α) (l : List α) : insertAt less' (f a) (l.map f) = (insertAt less a l).map f := by
  cases l with
  | nil => rfl
  | cons b r =>
    have hc : less' (f a) ∘ f = less a := funext fun b => h a b
    unfold insertAt
    simp only [List.map_cons, h]
    rw [← List.map_cons, ← List.map_reverse, List.dropWhile_map, List.takeWhile_map, hc]
    split
    · rfl
    · simp

theorem map_sort (l : List α) : sort less' (l.map f) = (sort less l).map f := by
  unfold sort
  suffices ∀ s : List α, (l.map f).foldl (fun s a => insertAt less' a s) (s.map f) = (l.foldl (fun s a => insertAt less a s) s).map f from this []
  induction l with
  | nil => intro s; rfl
  | cons a r ih =>
    intro s
    simp only [List.map_cons, List.foldl_cons]
    rw [map_insertAt f h, ih]

end

variable (H : Extends g)

include H

theorem map_isClockwise (c p q : Coord ℝ) : isClockwise (c.map g) (p.map g) (q.map g) = isClockwise c p q := by
  unfold isClockwise
  dsimp only [Coord.map]
  simp only [H.nat', H.sub', H.mul', H.lt_eq, H.le_eq, H.eq_eq]

theorem map_polygonArea (v : List (Coord ℝ)) (n : Nat) (c : Coord ℝ) :
    polygonArea (v.map (Coord.map g)) n (c.map g) = (polygonArea v n c).map g := by
  unfold polygonArea
  rw [List.length_map, map_ite']
  refine if_congr Iff.rfl rfl ?_
  dsimp only
  rw [← List.map_take, ← List.map_drop, map_sort (Coord.map g) (fun a b => map_isClockwise H c a b), ← List.map_append, map_bind', H.nat']
  generalize sort (isClockwise c) (v.take n) ++ v.drop n = u
  refine (congrArg (· >>= _) (forN_map g n (f := shoelaceStep u n) (fun i a _ => ?_) _)).trans ?_
  · unfold shoelaceStep
    dsimp only
    rw [rd_map', bind_map', map_bind']
    refine bind_congr fun p => ?_
    rw [rd_map', bind_map', map_bind']
    refine bind_congr fun q => ?_
    dsimp only [Coord.map]
    rw [H.mul', H.mul', H.add', H.sub']
    rfl
  · rw [bind_map']
    refine bind_congr fun a => ?_
    rw [H.lit (by decide), H.mul', H.abs']
    rfl

omit H in
theorem map_pushVertex (c : Coord ℝ) (s : List (Coord ℝ) × Nat) :
    pushVertex (c.map g) (Prod.map (List.map (Coord.map g)) id s) = (pushVertex c s).map (Prod.map (List.map (Coord.map g)) id) := by
  unfold pushVertex
  rw [map_bind']
  refine (congrArg (· >>= _) (wr_map' (Coord.map g) s.1 s.2 c)).trans ?_
  rw [bind_map']
  rfl

omit H in
theorem map_nodeVertex (m : Mesh ℝ) (el : Element ℝ) (i : Nat) (s : List (Coord ℝ) × Nat) :
    nodeVertex (m.map g) (el.map g) i (Prod.map (List.map (Coord.map g)) id s) = (nodeVertex m el i s).map (Prod.map (List.map (Coord.map g)) id) := by
  unfold nodeVertex
  rw [map_bind']
  refine bind_congr fun node => ?_
  rw [Mesh.map_nodes, rd_map', bind_map', map_bind']
  refine bind_congr fun nd => ?_
  rw [map_ite', map_ite']
  refine if_congr Iff.rfl (map_pushVertex nd.coord s) (if_congr Iff.rfl ?_ rfl)
  rw [map_bind']
  refine bind_congr fun n1 => ?_
  rw [map_bind']
  refine bind_congr fun n2 => ?_
  rw [rd_map', bind_map', map_bind']
  refine bind_congr fun a => ?_
  rw [rd_map', bind_map', map_bind']
  refine bind_congr fun b => ?_
  rw [map_ite']
  exact if_congr Iff.rfl (map_pushVertex nd.coord s) rfl

omit H in
theorem map_segmentVertices (b : Boundary ℝ) (el : Element ℝ) (i : Nat) (s : List (Coord ℝ) × Nat) :
    segmentVertices (b.map g) (el.map g) i (Prod.map (List.map (Coord.map g)) id s) =
      (segmentVertices b el i s).map (Prod.map (List.map (Coord.map g)) id) := by
  unfold segmentVertices
  rw [map_bind']
  refine bind_congr fun k => ?_
  rw [map_bind']
  refine (congrArg (· >>= _) (rd_map' (BoundarySegment.map g) b.segments k)).trans ?_
  rw [bind_map']
  refine bind_congr fun sg => ?_
  rw [map_bind']
  refine (congrArg (· >>= _) (rd_map' (BoundaryPoint.map g) b.points sg.start)).trans ?_
  rw [bind_map']
  refine bind_congr fun p => ?_
  rw [map_bind']
  refine (congrArg (· >>= _) (map_pushVertex p.coord s)).trans ?_
  rw [bind_map']
  refine bind_congr fun s => ?_
  rw [map_bind']
  refine (congrArg (· >>= _) (rd_map' (BoundaryPoint.map g) b.points sg.stop)).trans ?_
  rw [bind_map']
  exact bind_congr fun q => map_pushVertex q.coord s

theorem map_cutArea (m : Mesh ℝ) (b : Boundary ℝ) (el : Element ℝ) : cutArea (m.map g) (b.map g) (el.map g) = (cutArea m b el).map g := by
  unfold cutArea
  have e0 : ((List.replicate 6 ⟨FP.nat 0, FP.nat 0⟩, 0) : List (Coord E) × Nat) =
      Prod.map (List.map (Coord.map g)) id ((List.replicate 6 ⟨FP.nat 0, FP.nat 0⟩, 0) : List (Coord ℝ) × Nat) := by
    simp only [Prod.map, List.map_replicate, Coord.map, H.nat', id]
  rw [e0, map_bind']
  refine (congrArg (· >>= _) (forN_map (Prod.map (List.map (Coord.map g)) id) 4 (fun i s _ => map_nodeVertex m el i s) _)).trans ?_
  rw [bind_map']
  refine bind_congr fun s => ?_
  rw [map_bind']
  refine (congrArg (· >>= _) (forN_map (Prod.map (List.map (Coord.map g)) id) el.nBoundarySegments (fun i s _ => map_segmentVertices b el i s) s)).trans ?_
  rw [bind_map']
  refine bind_congr fun s => ?_
  rw [map_bind']
  refine (congrArg (· >>= _) (map_polygonArea H s.1 s.2 el.coord)).trans ?_
  rw [bind_map']
  refine bind_congr fun a => ?_
  rw [H.nat', H.sub']
  show pure (if el.status = .centreOutside then _ else _) = _
  split
  · rw [map_pure']; rfl
  · rfl

theorem map_areaOf (m : Mesh ℝ) (b : Boundary ℝ) (el : Element ℝ) : areaOf (m.map g) (b.map g) (el.map g) = (areaOf m b el).map g := by
  unfold areaOf
  rw [map_cutArea H, H.nat', H.nat', map_ite', map_ite']
  rfl

theorem map_areaStep (b : Boundary ℝ) (i : Nat) (L : LevelSet ℝ) : areaStep (b.map g) i (L.map g) = (areaStep b i L).map (LevelSet.map g) := by
  unfold areaStep
  rw [map_bind']
  refine (congrArg (· >>= _) (rd_map' (Element.map g) L.mesh.elements i)).trans ?_
  rw [bind_map']
  refine bind_congr fun el => ?_
  rw [map_bind']
  refine (congrArg (· >>= _) (map_areaOf H L.mesh b el)).trans ?_
  rw [bind_map']
  refine bind_congr fun a => ?_
  rw [map_bind']
  refine (congrArg (· >>= _) (wr_map' (Element.map g) L.mesh.elements i { el with area := a })).trans ?_
  rw [bind_map']
  refine bind_congr fun els => ?_
  refine congrArg Except.ok ?_
  dsimp only [LevelSet.map]
  rw [H.add']
  rfl

theorem map_computeAreaFractions (L : LevelSet ℝ) (b : Boundary ℝ) :
    computeAreaFractions (L.map g) (b.map g) = (computeAreaFractions L b).map (LevelSet.map g) := by
  unfold computeAreaFractions
  rw [H.nat']
  exact forN_map (LevelSet.map g) L.mesh.nElements (fun i L _ => map_areaStep H b i L) { L with area := FP.nat 0 }

end Area

end Slsm
