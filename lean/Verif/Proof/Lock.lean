import Verif.Proof.AnyBnd

/-! Two runs of the discretisation in two arithmetics, side by side: when the numbers decide alike, the runs take the same course. -/

namespace Slsm

open FP

/-- Two results agree: both are values in the relation or both are the same failure. -/
def Lock {α β : Type} (P : α → β → Prop) : Res α → Res β → Prop
  | .ok a, .ok b => P a b
  | .error e, .error e' => e = e'
  | _, _ => False

section
variable {α β γ δ : Type} {P : α → β → Prop} {Q : γ → δ → Prop}

theorem Lock.bind {r : Res α} {s : Res β} {f : α → Res γ} {g : β → Res δ} (h : Lock P r s) (k : ∀ a b, P a b → Lock Q (f a) (g b)) :
    Lock Q (r >>= f) (s >>= g) := by
  cases r <;> cases s
  · exact h
  · exact h.elim
  · exact h.elim
  · exact k _ _ h

theorem Lock.pure {a : α} {b : β} (h : P a b) : Lock P (Pure.pure a : Res α) (Pure.pure b : Res β) := h

theorem Lock.mono {P' : α → β → Prop} {r : Res α} {s : Res β} (h : Lock P r s) (k : ∀ a b, P a b → P' a b) : Lock P' r s := by
  cases r <;> cases s
  · exact h
  · exact h.elim
  · exact h.elim
  · exact k _ _ h

theorem Lock.refl (r : Res α) : Lock (fun a b => a = b) r r := by
  cases r
  · rfl
  · rfl

theorem Lock.forN {P : Nat → α → β → Prop} {f : Nat → α → Res α} {g : Nat → β → Res β} {a : α} {b : β} {n : Nat} (h0 : P 0 a b)
    (hs : ∀ i, i < n → ∀ a b, P i a b → Lock (P (i + 1)) (f i a) (g i b)) : Lock (P n) (Slsm.forN n a f) (Slsm.forN n b g) := by
  induction n with
  | zero => exact h0
  | succ n ih => exact (ih fun i hi => hs i (by omega)).bind (hs n (by omega))

theorem pairs_get {l : List α} {m : List β} (h : List.Forall₂ P l m) (i : Nat) :
    (l[i]? = none ∧ m[i]? = none) ∨ ∃ a b, l[i]? = some a ∧ m[i]? = some b ∧ P a b := by
  induction h generalizing i with
  | nil => exact .inl ⟨by simp, by simp⟩
  | cons hp _ ih =>
    cases i with
    | zero => exact .inr ⟨_, _, rfl, rfl, hp⟩
    | succ i => simpa using ih i

theorem pairs_set {l : List α} {m : List β} (h : List.Forall₂ P l m) {a : α} {b : β} (hab : P a b) (i : Nat) :
    List.Forall₂ P (l.set i a) (m.set i b) := by
  induction h generalizing i with
  | nil => exact .nil
  | cons hp ht ih =>
    cases i with
    | zero => exact .cons hab ht
    | succ i => exact .cons hp (ih i)

theorem pairs_of_get {l : List α} {m : List β} (hl : l.length = m.length)
    (h : ∀ (i : Nat) a b, l[i]? = some a → m[i]? = some b → P a b) : List.Forall₂ P l m := by
  rw [List.forall₂_iff_get]
  refine ⟨hl, fun i h1 h2 => h i _ _ ?_ ?_⟩
  · simp
  · simp

theorem pairs_snoc {l : List α} {m : List β} (h : List.Forall₂ P l m) {a : α} {b : β} (hab : P a b) :
    List.Forall₂ P (l ++ [a]) (m ++ [b]) := List.rel_append h (.cons hab .nil)

theorem Lock.rd {l : List α} {m : List β} (h : List.Forall₂ P l m) (i : Nat) :
    Lock (fun a b => P a b ∧ l[i]? = some a ∧ m[i]? = some b) (Slsm.rd l i) (Slsm.rd m i) := by
  unfold Slsm.rd
  rcases pairs_get h i with ⟨h1, h2⟩ | ⟨a, b, h1, h2, h3⟩
  · rw [h1, h2]; rfl
  · rw [h1, h2]; exact ⟨h3, rfl, rfl⟩

/-- Modification of an entry: the relation of the entry, of the new lists, and what the new lists are. -/
theorem Lock.modAt {l : List α} {m : List β} (h : List.Forall₂ P l m) (i : Nat) {f : α → Res α} {g : β → Res β}
    {K : α → α → β → β → Prop}
    (hf : ∀ a b, P a b → Lock (fun a' b' => P a' b' ∧ K a a' b b') (f a) (g b)) :
    Lock (fun l' m' => List.Forall₂ P l' m' ∧ ∃ a a' b b', l[i]? = some a ∧ m[i]? = some b ∧ K a a' b b' ∧
      l' = l.set i a' ∧ m' = m.set i b') (Slsm.modAt l i f) (Slsm.modAt m i g) := by
  unfold Slsm.modAt
  refine (Lock.rd h i).bind fun a b hab => ?_
  refine (hf a b hab.1).bind fun a' b' hk => ?_
  unfold wr
  rw [if_pos (List.getElem?_eq_some_iff.1 hab.2.1).1, if_pos (List.getElem?_eq_some_iff.1 hab.2.2).1]
  exact ⟨pairs_set h hk.1 i, a, a', b, b', hab.2.1, hab.2.2, hk.2, rfl, rfl⟩

end

namespace Boundary

section
variable {D E : Type} [FP D] [FP E]

/-- Two arrays with the same entries in use. -/
def Used (n : Nat) (l m : List Nat) : Prop := l.length = m.length ∧ l.take n = m.take n

theorem Used.get {n : Nat} {l m : List Nat} (h : Used n l m) {i : Nat} (hi : i < n) : rd l i = rd m i := by
  have := congrArg (fun t => t[i]?) h.2
  simp only [List.getElem?_take, if_pos hi] at this
  unfold rd
  rw [this]

theorem Used.wr {n : Nat} {l m : List Nat} (h : Used n l m) (a : Nat) :
    Lock (fun l' m' => Used (n + 1) l' m' ∧ l'.length = l.length ∧ m'.length = m.length) (Slsm.wr l n a) (Slsm.wr m n a) := by
  unfold Slsm.wr
  rw [h.1]
  split
  · rename_i hn
    refine ⟨⟨by simp [h.1], ?_⟩, by simp [h.1], by simp⟩
    rw [List.take_add_one, List.take_add_one, List.take_set_of_le (le_refl _), List.take_set_of_le (le_refl _), h.2,
      List.getElem?_set_self (by rw [h.1]; exact hn), List.getElem?_set_self hn]
  · rfl

structure NodeSim (a : Node D) (b : Node E) : Prop where
  status : a.status = b.status
  slots : Used b.nBoundaryPoints a.boundaryPoints b.boundaryPoints
  nSlots : a.nBoundaryPoints = b.nBoundaryPoints
  active : a.isActive = b.isActive
  masked : a.isMasked = b.isMasked

structure ElemSim (a : Element D) (b : Element E) : Prop where
  nodes : a.nodes = b.nodes
  slots : Used b.nBoundarySegments a.boundarySegments b.boundarySegments
  nSlots : a.nBoundarySegments = b.nBoundarySegments
  status : a.status = b.status

structure PtSim (pos : Coord D → Coord E → Prop) (a : BoundaryPoint D) (b : BoundaryPoint E) : Prop where
  coord : pos a.coord b.coord
  nSegments : a.nSegments = b.nSegments
  segments : a.segments = b.segments
  nNeighbours : a.nNeighbours = b.nNeighbours
  neighbours : a.neighbours = b.neighbours

structure SegSim (a : BoundarySegment D) (b : BoundarySegment E) : Prop where
  start : a.start = b.start
  stop : a.stop = b.stop
  element : a.element = b.element

/-- Sum of the corner values as the code forms it. -/
def sumAt (w : Nat) (sd : List D) (x y : Nat) : D :=
  (((nat 0 +. cornerVal w sd x y 0) +. cornerVal w sd x y 1) +. cornerVal w sd x y 2) +. cornerVal w sd x y 3

/-- All four edges of the cell are cut. -/
def Alternating (w : Nat) (sd : List D) (x y : Nat) : Prop :=
  ∀ j, j < 4 → cutPair (cornerSide w sd x y j) (cornerSide w sd x y (after j)) = true

/-- Two grids with values that decide alike. -/
structure Alike (w h : Nat) (ml : D) (m0 : Mesh D) (sd : List D) (ml' : E) (m0' : Mesh E) (sd' : List E)
    (pos : Coord D → Coord E → Prop) : Prop where
  grid : IsGrid w h m0
  grid' : IsGrid w h m0'
  len : m0.nNodes ≤ sd.length
  len' : m0'.nNodes ≤ sd'.length
  side : ∀ i, i < (w + 1) * (h + 1) → nodeStatus (vals sd i) = nodeStatus (vals sd' i)
  flags : ∀ (i : Nat) (a : Node D) (b : Node E), m0.nodes[i]? = some a → m0'.nodes[i]? = some b →
    a.isActive = b.isActive ∧ a.isMasked = b.isMasked
  sum : ∀ x y, x < w → y < h → Alternating w sd x y →
    (nat 0 <. sumAt w sd x y) = (nat 0 <. sumAt w sd' x y) ∧ (sumAt w sd x y <. nat 0) = (sumAt w sd' x y <. nat 0)
  cut : ∀ x y j, x < w → y < h → j < 4 → cutPair (cornerSide w sd x y j) (cornerSide w sd x y (after j)) = true →
    pos (edgePoint (cornerCoord x y j) j (cornerVal w sd x y j /. (cornerVal w sd x y j -. cornerVal w sd x y (after j))))
      (edgePoint (cornerCoord x y j) j (cornerVal w sd' x y j /. (cornerVal w sd' x y j -. cornerVal w sd' x y (after j))))
  node : ∀ x y j, x < w → y < h → j < 4 → cornerSide w sd x y j = .boundary →
    pos (edgePoint (cornerCoord x y j) 0 (nat 0)) (edgePoint (cornerCoord x y j) 0 (nat 0))
  close : ∀ c c' d d', pos c c' → pos d d' → isClose c d = isClose c' d'
  init : ∀ c c', pos c c' → (∃ pt, initialisePoint ml m0 c = .ok pt) ∧ ∃ pt, initialisePoint ml' m0' c' = .ok pt

structure Sim (m0 : Mesh D) (sd : List D) (m0' : Mesh E) (sd' : List E) (pos : Coord D → Coord E → Prop) (W : Work D) (V : Work E) : Prop where
  annot : Annot m0 W.mesh
  annot' : Annot m0' V.mesh
  status : ∀ (i : Nat) (nd : Node D), W.mesh.nodes[i]? = some nd → nd.status = nodeStatus (vals sd i)
  nodes : List.Forall₂ NodeSim W.mesh.nodes V.mesh.nodes
  elems : List.Forall₂ ElemSim W.mesh.elements V.mesh.elements
  points : List.Forall₂ (PtSim pos) W.bnd.points V.bnd.points
  segs : List.Forall₂ SegSim W.bnd.segments V.bnd.segments
  nPoints : W.bnd.nPoints = V.bnd.nPoints
  nSegments : W.bnd.nSegments = V.bnd.nSegments

variable {w h : Nat} {ml : D} {m0 : Mesh D} {sd : List D} {W : Work D} {isTarget : Bool}
  {ml' : E} {m0' : Mesh E} {sd' : List E} {V : Work E} {pos : Coord D → Coord E → Prop}

local notation "Al" => Alike w h ml m0 sd ml' m0' sd' pos
local notation "Si" => Sim m0 sd m0' sd' pos

theorem isAdded_lock (A : Al) (S : Si W V) {c : Coord D} {c' : Coord E} (hc : pos c c') (n : Nat) :
    Lock (fun a b => a = b) (isAdded W.mesh W.bnd.points c n) (isAdded V.mesh V.bnd.points c' n) := by
  unfold isAdded
  refine (Lock.rd S.nodes n).bind fun nd nd' hn => ?_
  rw [hn.1.nSlots]
  refine Lock.forN (P := fun _ a b => a = b) rfl fun i hi a b hab => ?_
  subst hab
  cases a with
  | some k => exact Lock.pure rfl
  | none =>
    dsimp only
    rw [hn.1.slots.get hi]
    refine (Lock.refl (rd nd'.boundaryPoints i)).bind fun k k' hk => ?_
    subst hk
    refine (Lock.rd S.points k).bind fun q q' hq => ?_
    rw [A.close c c' q.coord q'.coord hc hq.1.coord]
    exact Lock.pure rfl

theorem claim_lock (S : Si W V) (n : Nat) :
    Lock (fun W' V' => Si W' V') (claim n W) (claim n V) := by
  unfold claim
  refine (Lock.modAt (K := fun a a' b b' => SameNode a a' ∧ SameNode b b' ∧ a'.status = a.status) S.nodes n fun a b hab => ?_).bind fun l m hlm => ?_
  · rw [hab.nSlots, S.nPoints]
    refine (hab.slots.wr _).bind fun l m hlm => ?_
    exact Lock.pure ⟨⟨hab.status, hlm.1, rfl, hab.active, hab.masked⟩, ⟨rfl, hlm.2.1⟩, ⟨rfl, hlm.2.2⟩, rfl⟩
  · obtain ⟨hf, a, a', b, b', ha, hb, ⟨k1, k2, k3⟩, rfl, rfl⟩ := hlm
    refine Lock.pure ⟨S.annot.trans (Annot.setNode ha k1), S.annot'.trans (Annot.setNode hb k2), fun i nd hi => ?_, hf, S.elems, S.points,
      S.segs, S.nPoints, S.nSegments⟩
    change (W.mesh.nodes.set n a')[i]? = some nd at hi
    by_cases hk : n = i
    · subst hk
      rw [List.getElem?_set_self (List.getElem?_eq_some_iff.1 ha).1] at hi
      cases hi
      rw [k3]
      exact S.status n a ha
    · rw [List.getElem?_set_ne hk] at hi
      exact S.status _ _ hi

theorem pushPoint_lock (A : Al) (S : Si W V) {c : Coord D} {c' : Coord E} (hc : pos c c') :
    Lock (fun W' V' => Si W' V') (pushPoint ml c W) (pushPoint ml' c' V) := by
  obtain ⟨⟨pt, h1⟩, pt', h2⟩ := A.init c c' hc
  unfold pushPoint
  rw [Annot.initialisePoint S.annot, Annot.initialisePoint S.annot', h1, h2]
  obtain ⟨_, _, _, _, rfl⟩ := initialisePoint_at h1
  obtain ⟨_, _, _, _, rfl⟩ := initialisePoint_at h2
  exact ⟨S.annot, S.annot', S.status, S.nodes, S.elems, pairs_snoc S.points ⟨hc, rfl, rfl, rfl, rfl⟩, S.segs,
    by show _ + 1 = _ + 1; rw [S.nPoints], S.nSegments⟩

/-- Same number of a point, similar states. -/
def PairSim (m0 : Mesh D) (sd : List D) (m0' : Mesh E) (sd' : List E) (pos : Coord D → Coord E → Prop) (r : Nat × Work D) (r' : Nat × Work E) : Prop :=
  r.1 = r'.1 ∧ Sim m0 sd m0' sd' pos r.2 r'.2

theorem cornerNode_lock (A : Al) (S : Si W V) {x y j : Nat} (hx : x < w) (hy : y < h) (hj : j < 4) :
    Lock (fun a b => a = b ∧ a = nodeNo w (cornerAt x y j).1 (cornerAt x y j).2)
      (cornerNode W.mesh (cellNo w x y) j) (cornerNode V.mesh (cellNo w x y) j) := by
  obtain ⟨el, hel⟩ := (S.annot.grid A.grid).elem_exists hx hy
  have hc := (S.annot.grid A.grid).corner x y el hx hy hel
  unfold cornerNode
  refine (Lock.rd S.elems (cellNo w x y)).bind fun a b hab => ?_
  rw [hel] at hab
  obtain ⟨h1, h2, -⟩ := hab
  cases h2
  rw [← h1.nodes, hc]
  match j, hj with
  | 0, _ => exact ⟨rfl, rfl⟩
  | 1, _ => exact ⟨rfl, rfl⟩
  | 2, _ => exact ⟨rfl, rfl⟩
  | 3, _ => exact ⟨rfl, rfl⟩

theorem coord_lock (A : Al) (S : Si W V) {x y j : Nat} (hx : x < w) (hy : y < h) {nd : Node D} {nd' : Node E}
    (h1 : W.mesh.nodes[nodeNo w (cornerAt x y j).1 (cornerAt x y j).2]? = some nd)
    (h2 : V.mesh.nodes[nodeNo w (cornerAt x y j).1 (cornerAt x y j).2]? = some nd') :
    nd.coord = cornerCoord x y j ∧ nd'.coord = cornerCoord x y j :=
  ⟨(S.annot.grid A.grid).coord _ _ nd (cornerAt_le hx hy j).1 (cornerAt_le hx hy j).2 h1,
    (S.annot'.grid A.grid').coord _ _ nd' (cornerAt_le hx hy j).1 (cornerAt_le hx hy j).2 h2⟩

theorem cutPoint_lock (A : Al) (S : Si W V) {x y j : Nat} (hx : x < w) (hy : y < h) (hj : j < 4)
    (hc : cutPair (cornerSide w sd x y j) (cornerSide w sd x y (after j)) = true) (n2 : Nat) :
    Lock (PairSim m0 sd m0' sd' pos)
      (cutPoint ml (nodeNo w (cornerAt x y j).1 (cornerAt x y j).2) n2 j
        (cornerVal w sd x y j /. (cornerVal w sd x y j -. cornerVal w sd x y (after j))) W)
      (cutPoint ml' (nodeNo w (cornerAt x y j).1 (cornerAt x y j).2) n2 j
        (cornerVal w sd' x y j /. (cornerVal w sd' x y j -. cornerVal w sd' x y (after j))) V) := by
  unfold cutPoint
  refine (Lock.rd S.nodes _).bind fun a b hab => ?_
  obtain ⟨e1, e2⟩ := coord_lock A S hx hy hab.2.1 hab.2.2
  rw [e1, e2]
  have hp := A.cut x y j hx hy hj hc
  refine (isAdded_lock A S hp _).bind fun f f' hf => ?_
  subst hf
  cases f with
  | some k => exact Lock.pure ⟨rfl, S⟩
  | none =>
    dsimp only
    refine (claim_lock S _).bind fun W1 V1 S1 => ?_
    refine (claim_lock S1 _).bind fun W2 V2 S2 => ?_
    refine (pushPoint_lock A S2 hp).bind fun W3 V3 S3 => ?_
    exact Lock.pure ⟨S.nPoints, S3⟩

theorem nodePoint_lock (A : Al) (S : Si W V) {x y j : Nat} (hx : x < w) (hy : y < h) (hj : j < 4)
    (hc : cornerSide w sd x y j = .boundary) :
    Lock (PairSim m0 sd m0' sd' pos)
      (nodePoint ml (nodeNo w (cornerAt x y j).1 (cornerAt x y j).2) W)
      (nodePoint ml' (nodeNo w (cornerAt x y j).1 (cornerAt x y j).2) V) := by
  unfold nodePoint
  refine (Lock.rd S.nodes _).bind fun a b hab => ?_
  obtain ⟨e1, e2⟩ := coord_lock A S hx hy hab.2.1 hab.2.2
  rw [e1, e2]
  have hp := A.node x y j hx hy hj hc
  refine (isAdded_lock A S hp _).bind fun f f' hf => ?_
  subst hf
  cases f with
  | some k => exact Lock.pure ⟨rfl, S⟩
  | none =>
    dsimp only
    refine (claim_lock S _).bind fun W1 V1 S1 => ?_
    refine (pushPoint_lock A S1 hp).bind fun W3 V3 S3 => ?_
    exact Lock.pure ⟨S.nPoints, S3⟩

theorem addSegment_lock (S : Si W V) (i a b : Nat) :
    Lock (fun W' V' => Si W' V') (addSegment i a b W) (addSegment i a b V) := by
  unfold addSegment segmentLength
  refine Lock.bind (P := fun _ _ => True) ?_ fun len len' _ => ?_
  · refine (Lock.rd S.points a).bind fun _ _ _ => (Lock.rd S.points b).bind fun _ _ _ => Lock.pure trivial
  · refine (Lock.modAt (K := fun a a' b b' => SameElem a a' ∧ SameElem b b') S.elems i fun p q hpq => ?_).bind fun l m hlm => ?_
    · rw [hpq.nSlots, S.nSegments]
      refine (hpq.slots.wr _).bind fun l m hlm => ?_
      exact Lock.pure ⟨⟨hpq.nodes, hlm.1, rfl, hpq.status⟩, ⟨rfl, hlm.2.1⟩, ⟨rfl, hlm.2.2⟩⟩
    · obtain ⟨hf, a, a', b, b', ha, hb, ⟨k1, k2⟩, rfl, rfl⟩ := hlm
      exact Lock.pure ⟨S.annot.trans (Annot.setElem ha k1), S.annot'.trans (Annot.setElem hb k2), S.status, S.nodes, hf, S.points,
        pairs_snoc S.segs ⟨rfl, rfl, rfl⟩, S.nPoints, by show _ + 1 = _ + 1; rw [S.nSegments]⟩

theorem twoNodes_lock (A : Al) (S : Si W V) {x y j k : Nat} (hx : x < w) (hy : y < h) (hj4 : j < 4) (hk4 : k < 4)
    (hj : cornerSide w sd x y j = .boundary) (hk : cornerSide w sd x y k = .boundary) :
    Lock (fun W' V' => Si W' V')
      (borderEdge ml (cellNo w x y) (nodeNo w (cornerAt x y j).1 (cornerAt x y j).2) (nodeNo w (cornerAt x y k).1 (cornerAt x y k).2) W)
      (borderEdge ml' (cellNo w x y) (nodeNo w (cornerAt x y j).1 (cornerAt x y j).2) (nodeNo w (cornerAt x y k).1 (cornerAt x y k).2) V) := by
  unfold borderEdge
  refine (nodePoint_lock A S hx hy hj4 hj).bind fun r r' hr => ?_
  obtain ⟨a, W1⟩ := r
  obtain ⟨a', V1⟩ := r'
  obtain ⟨rfl, S1⟩ := hr
  refine (nodePoint_lock A S1 hx hy hk4 hk).bind fun r r' hr => ?_
  obtain ⟨b, W2⟩ := r
  obtain ⟨b', V2⟩ := r'
  obtain ⟨rfl, S2⟩ := hr
  exact addSegment_lock S2 _ _ _

/-- In the middle of a cell: the same cuts, and if every edge so far was cut then the sides say so. -/
structure HalfSim (w : Nat) (m0 : Mesh D) (sd : List D) (m0' : Mesh E) (sd' : List E) (pos : Coord D → Coord E → Prop) (x y j : Nat)
    (t : Work D × List Nat) (t' : Work E × List Nat) : Prop where
  sim : Sim m0 sd m0' sd' pos t.1 t'.1
  cuts : t.2 = t'.2
  le : t.2.length ≤ j
  all : t.2.length = j → ∀ i, i < j → cutPair (cornerSide w sd x y i) (cornerSide w sd x y (after i)) = true

theorem HalfSim.stay {x y j : Nat} {t : Work D × List Nat} {t' : Work E × List Nat} (H : HalfSim w m0 sd m0' sd' pos x y j t t') :
    HalfSim w m0 sd m0' sd' pos x y (j + 1) t t' :=
  ⟨H.sim, H.cuts, by have := H.le; omega, fun e => by have := H.le; omega⟩

theorem rd_vals' {l : List D} {i : Nat} (hi : i < l.length) : rd l i = .ok (vals l i) := by
  unfold rd vals
  rw [List.getElem?_eq_getElem hi, List.getD_eq_getElem?_getD, List.getElem?_eq_getElem hi]
  rfl

theorem corner_lt {x y j : Nat} (hx : x < w) (hy : y < h) : nodeNo w (cornerAt x y j).1 (cornerAt x y j).2 < (w + 1) * (h + 1) :=
  nodeNo_lt (cornerAt_le hx hy j).1 (cornerAt_le hx hy j).2

theorem rd_sd (A : Al) {x y j : Nat} (hx : x < w) (hy : y < h) :
    rd sd (nodeNo w (cornerAt x y j).1 (cornerAt x y j).2) = .ok (cornerVal w sd x y j) ∧
      rd sd' (nodeNo w (cornerAt x y j).1 (cornerAt x y j).2) = .ok (cornerVal w sd' x y j) := by
  have h1 := A.len
  have h2 := A.len'
  rw [A.grid.nNodes] at h1
  rw [A.grid'.nNodes] at h2
  have := corner_lt (j := j) hx hy
  exact ⟨rd_vals' (by omega), rd_vals' (by omega)⟩

theorem edgeStep_lock (A : Al) {x y j : Nat} (hx : x < w) (hy : y < h) (hj : j < 4) {t : Work D × List Nat} {t' : Work E × List Nat}
    (H : HalfSim w m0 sd m0' sd' pos x y j t t') :
    Lock (HalfSim w m0 sd m0' sd' pos x y (j + 1)) (edgeStep ml sd isTarget (cellNo w x y) j t) (edgeStep ml' sd' isTarget (cellNo w x y) j t') := by
  obtain ⟨W, cuts⟩ := t
  obtain ⟨V, cuts'⟩ := t'
  have hcu := H.cuts
  dsimp only at hcu
  subst hcu
  have hj' : after j < 4 := by unfold after; split <;> omega
  have S := H.sim
  dsimp only at S
  unfold edgeStep
  dsimp only
  refine (cornerNode_lock A S hx hy hj).bind fun n1 n1' h1 => ?_
  refine (cornerNode_lock A S hx hy hj').bind fun n2 n2' h2 => ?_
  obtain ⟨rfl, rfl⟩ := h1
  obtain ⟨rfl, rfl⟩ := h2
  refine (Lock.rd S.nodes _).bind fun a a' ha => ?_
  refine (Lock.rd S.nodes _).bind fun b b' hb => ?_
  have sa : a.status = cornerSide w sd x y j := S.status _ _ ha.2.1
  have sb : b.status = cornerSide w sd x y (after j) := S.status _ _ hb.2.1
  rw [show visible isTarget a b = visible isTarget a' b' by
    unfold visible; rw [ha.1.active, ha.1.masked, hb.1.active, hb.1.masked], ← ha.1.status, ← hb.1.status]
  split
  · split
    · rename_i hcut
      rw [sa, sb] at hcut
      rw [(rd_sd A hx hy).1, (rd_sd A hx hy).1, (rd_sd A hx hy).2, (rd_sd A hx hy).2]
      refine (Lock.bind (P := PairSim m0 sd m0' sd' pos) (cutPoint_lock A S hx hy hj hcut _) fun r r' hr => ?_)
      obtain ⟨k, W1⟩ := r
      obtain ⟨k', V1⟩ := r'
      obtain ⟨rfl, S1⟩ := hr
      refine Lock.pure ⟨S1, rfl, ?_, ?_⟩
      · have := H.le
        dsimp only at this ⊢
        rw [List.length_append, List.length_singleton]; omega
      · intro e i hi
        dsimp only at e
        rw [List.length_append, List.length_singleton] at e
        rcases Nat.lt_succ_iff_lt_or_eq.1 hi with h | h
        · exact H.all (by dsimp only; omega) i h
        · subst h; exact hcut
    · split
      · rename_i hb2
        rw [sa, sb] at hb2
        refine (twoNodes_lock A S hx hy hj hj' hb2.1 hb2.2).bind fun W1 V1 S1 => ?_
        exact Lock.pure (HalfSim.stay ⟨S1, rfl, H.le, H.all⟩)
      · exact Lock.pure H.stay
  · exact Lock.pure H.stay

theorem oneCutCorner_lock (A : Al) (S : Si W V) {x y j p : Nat} (hx : x < w) (hy : y < h) (hj : j < 4) :
    Lock (fun W' V' => Si W' V') (oneCutCorner ml (cellNo w x y) p j W) (oneCutCorner ml' (cellNo w x y) p j V) := by
  have h4 : after j < 4 := by unfold after; split <;> omega
  have h5 : before j < 4 := by unfold before; split <;> omega
  unfold oneCutCorner
  refine (cornerNode_lock A S hx hy hj).bind fun n1 n1' h1 => ?_
  obtain ⟨rfl, rfl⟩ := h1
  refine (Lock.rd S.nodes _).bind fun a a' ha => ?_
  rw [← ha.1.status]
  have sa : a.status = cornerSide w sd x y j := S.status _ _ ha.2.1
  split
  · rename_i hbd
    refine (cornerNode_lock A S hx hy h4).bind fun n2 n2' h2 => ?_
    refine (cornerNode_lock A S hx hy h5).bind fun n3 n3' h3 => ?_
    obtain ⟨rfl, rfl⟩ := h2
    obtain ⟨rfl, rfl⟩ := h3
    refine (Lock.rd S.nodes _).bind fun b b' hb => ?_
    refine (Lock.rd S.nodes _).bind fun c c' hc => ?_
    rw [← hb.1.status, ← hc.1.status]
    split
    · refine (nodePoint_lock A S hx hy hj (sa ▸ hbd)).bind fun r r' hr => ?_
      obtain ⟨k, W1⟩ := r
      obtain ⟨k', V1⟩ := r'
      obtain ⟨rfl, S1⟩ := hr
      exact addSegment_lock S1 _ _ _
    · exact Lock.pure S
  · exact Lock.pure S

theorem cornerSum_lock (A : Al) (S : Si W V) {x y : Nat} (hx : x < w) (hy : y < h) :
    cornerSum W.mesh sd (cellNo w x y) = .ok (sumAt w sd x y) ∧ cornerSum V.mesh sd' (cellNo w x y) = .ok (sumAt w sd' x y) := by
  have key : ∀ {F : Type} [FP F] {m : Mesh F} {l : List F}, IsGrid w h m → m.nNodes ≤ l.length →
      cornerSum m l (cellNo w x y) = .ok (sumAt w l x y) := by
    intro F _ m l hg hl
    obtain ⟨el, hel⟩ := hg.elem_exists hx hy
    have hc := hg.corner x y el hx hy hel
    have hv : ∀ j, rd l (nodeNo w (cornerAt x y j).1 (cornerAt x y j).2) = .ok (cornerVal w l x y j) := fun j =>
      rd_vals' (by rw [hg.nNodes] at hl; have := corner_lt (j := j) hx hy; omega)
    have hn : ∀ j, j < 4 → cornerNode m (cellNo w x y) j = .ok (nodeNo w (cornerAt x y j).1 (cornerAt x y j).2) := by
      intro j hj
      unfold cornerNode
      rw [rd_of_getElem? hel]
      simp only [bind, Except.bind]
      rw [hc]
      match j, hj with
      | 0, _ => rfl
      | 1, _ => rfl
      | 2, _ => rfl
      | 3, _ => rfl
    unfold cornerSum
    simp only [forN, bind, Except.bind]
    rw [hn 0 (by omega)]
    dsimp only
    rw [hv 0]
    dsimp only [pure, Except.pure]
    rw [hn 1 (by omega)]
    dsimp only
    rw [hv 1]
    dsimp only
    rw [hn 2 (by omega)]
    dsimp only
    rw [hv 2]
    dsimp only
    rw [hn 3 (by omega)]
    dsimp only
    rw [hv 3]
    rfl
  exact ⟨key (S.annot.grid A.grid) (by rw [S.annot.nNodes]; exact A.len), key (S.annot'.grid A.grid') (by rw [S.annot'.nNodes]; exact A.len')⟩

theorem fourCuts_lock (A : Al) (S : Si W V) {x y p0 p1 p2 p3 : Nat} (hx : x < w) (hy : y < h) (halt : Alternating w sd x y) :
    Lock (fun W' V' => Si W' V') (fourCuts sd (cellNo w x y) p0 p1 p2 p3 W) (fourCuts sd' (cellNo w x y) p0 p1 p2 p3 V) := by
  unfold fourCuts
  rw [(cornerSum_lock A S hx hy).1, (cornerSum_lock A S hx hy).2]
  show Lock _ (cornerNode W.mesh _ 0 >>= _) (cornerNode V.mesh _ 0 >>= _)
  refine (cornerNode_lock A S hx hy (by omega : 0 < 4)).bind fun n1 n1' h1 => ?_
  obtain ⟨rfl, rfl⟩ := h1
  refine (Lock.rd S.nodes _).bind fun a a' ha => ?_
  rw [← ha.1.status, (A.sum x y hx hy halt).1, (A.sum x y hx hy halt).2]
  refine Lock.bind (P := fun W' V' => Si W' V') ?_ fun W1 V1 S1 => ?_
  · unfold fourSegments
    split
    · exact (addSegment_lock S _ _ _).bind fun W1 V1 S1 => addSegment_lock S1 _ _ _
    · exact (addSegment_lock S _ _ _).bind fun W1 V1 S1 => addSegment_lock S1 _ _ _
  · refine (Lock.modAt (K := fun a a' b b' => SameElem a a' ∧ SameElem b b') S1.elems (cellNo w x y) fun p q hpq => ?_).bind fun l m hlm => ?_
    · exact ⟨⟨hpq.nodes, hpq.slots, hpq.nSlots, rfl⟩, ⟨rfl, rfl⟩, ⟨rfl, rfl⟩⟩
    · obtain ⟨hf, a, a', b, b', ha, hb, ⟨k1, k2⟩, rfl, rfl⟩ := hlm
      exact Lock.pure ⟨S1.annot.trans (Annot.setElem ha k1), S1.annot'.trans (Annot.setElem hb k2), S1.status, S1.nodes, hf, S1.points,
        S1.segs, S1.nPoints, S1.nSegments⟩

theorem borderCorners_lock (A : Al) (S : Si W V) {x y : Nat} (hx : x < w) (hy : y < h) :
    Lock (fun l l' => l = l' ∧ ∀ n ∈ l, ∃ j, j < 4 ∧ n = nodeNo w (cornerAt x y j).1 (cornerAt x y j).2 ∧ cornerSide w sd x y j = .boundary)
      (borderCorners W.mesh (cellNo w x y)) (borderCorners V.mesh (cellNo w x y)) := by
  unfold borderCorners
  refine Lock.forN (P := fun _ l l' => l = l' ∧
    ∀ n ∈ l, ∃ j, j < 4 ∧ n = nodeNo w (cornerAt x y j).1 (cornerAt x y j).2 ∧ cornerSide w sd x y j = .boundary) ⟨rfl, by simp⟩ ?_
  rintro j hj l _ ⟨rfl, hl⟩
  refine (cornerNode_lock A S hx hy hj).bind fun n1 n1' h1 => ?_
  obtain ⟨rfl, rfl⟩ := h1
  refine (Lock.rd S.nodes _).bind fun a a' ha => ?_
  rw [← ha.1.status]
  have sa : a.status = cornerSide w sd x y j := S.status _ _ ha.2.1
  refine Lock.pure ⟨rfl, fun n hn => ?_⟩
  split at hn
  · rename_i hb
    rcases List.mem_append.1 hn with h | h
    · exact hl n h
    · rw [List.mem_singleton] at h
      exact ⟨j, hj, h, sa ▸ hb⟩
  · exact hl n hn

theorem noCut_lock (A : Al) (S : Si W V) {x y : Nat} (hx : x < w) (hy : y < h) :
    Lock (fun W' V' => Si W' V') (noCut ml (cellNo w x y) W) (noCut ml' (cellNo w x y) V) := by
  unfold noCut
  refine (borderCorners_lock A S hx hy).bind fun l l' hl => ?_
  obtain ⟨rfl, hl⟩ := hl
  match l with
  | [] => rfl
  | [_] => rfl
  | n1 :: n2 :: t =>
    obtain ⟨j, hj, rfl, hbj⟩ := hl n1 (by simp)
    obtain ⟨k, hk, rfl, hbk⟩ := hl n2 (by simp)
    exact twoNodes_lock A S hx hy hj hk hbj hbk

theorem joinCuts_lock (A : Al) {x y : Nat} (hx : x < w) (hy : y < h) {t : Work D × List Nat} {t' : Work E × List Nat}
    (H : HalfSim w m0 sd m0' sd' pos x y 4 t t') :
    Lock (fun W' V' => Si W' V') (joinCuts ml sd (cellNo w x y) t) (joinCuts ml' sd' (cellNo w x y) t') := by
  obtain ⟨W, cuts⟩ := t
  obtain ⟨V, cuts'⟩ := t'
  have hcu := H.cuts
  dsimp only at hcu
  subst hcu
  have S := H.sim
  dsimp only at S
  unfold joinCuts
  dsimp only
  match cuts, H with
  | [], _ =>
    dsimp only
    refine (Lock.rd S.elems _).bind fun a b hab => ?_
    rw [← hab.1.status]
    split
    · exact Lock.pure S
    · exact noCut_lock A S hx hy
  | [p0], _ => exact Lock.forN (P := fun _ W' V' => Si W' V') S fun j hj _ _ S1 => oneCutCorner_lock A S1 hx hy hj
  | [p0, p1], _ => exact addSegment_lock S _ _ _
  | [_, _, _], _ => exact Lock.pure S
  | [p0, p1, p2, p3], H => exact fourCuts_lock A S hx hy (H.all rfl)
  | _ :: _ :: _ :: _ :: _ :: _, H => have := H.le; simp only [List.length_cons] at this; omega

theorem element_lock (A : Al) (S : Si W V) {x y : Nat} (hx : x < w) (hy : y < h) :
    Lock (fun W' V' => Si W' V') (element ml sd isTarget (cellNo w x y) W) (element ml' sd' isTarget (cellNo w x y) V) := by
  unfold element
  refine (Lock.rd S.elems _).bind fun a b hab => ?_
  rw [← hab.1.status]
  split
  · exact Lock.pure S
  · refine Lock.bind (P := HalfSim w m0 sd m0' sd' pos x y 4) (Lock.forN (P := fun j t t' => HalfSim w m0 sd m0' sd' pos x y j t t')
      ⟨S, rfl, le_refl _, fun _ i hi => by omega⟩ fun j hj t t' H => edgeStep_lock A hx hy hj H) fun t t' H => joinCuts_lock A hx hy H

theorem modPt_lock {l : List (BoundaryPoint D)} {m : List (BoundaryPoint E)} (H : List.Forall₂ (PtSim pos) l m) (k : Nat)
    {f : BoundaryPoint D → Res (BoundaryPoint D)} {g : BoundaryPoint E → Res (BoundaryPoint E)}
    (hf : ∀ a b, PtSim pos a b → Lock (PtSim pos) (f a) (g b)) : Lock (List.Forall₂ (PtSim pos)) (modAt l k f) (modAt m k g) :=
  (Lock.modAt (K := fun _ _ _ _ => True) H k fun a b hab => (hf a b hab).mono fun _ _ h => ⟨h, trivial⟩).mono fun _ _ h => h.1

theorem linkStep_lock {segs : List (BoundarySegment D)} {segs' : List (BoundarySegment E)} (hs : List.Forall₂ SegSim segs segs')
    {l : List (BoundaryPoint D)} {m : List (BoundaryPoint E)} (H : List.Forall₂ (PtSim pos) l m) (i : Nat) :
    Lock (List.Forall₂ (PtSim pos)) (linkStep segs i l) (linkStep segs' i m) := by
  unfold linkStep
  refine (Lock.rd hs i).bind fun g g' hg => ?_
  rw [hg.1.start, hg.1.stop]
  have wrl : ∀ (l : List Nat) (i a : Nat), Lock (fun a b => a = b) (wr l i a) (wr l i a) := fun l i a => Lock.refl _
  have len : ∀ (k : Nat) (v : D) (v' : E) {l : List (BoundaryPoint D)} {m : List (BoundaryPoint E)}, List.Forall₂ (PtSim pos) l m →
      Lock (List.Forall₂ (PtSim pos)) (addLength k v l) (addLength k v' m) := by
    intro k v v' l m H
    exact modPt_lock H k fun a b hab => Lock.pure ⟨hab.1, hab.2, hab.3, hab.4, hab.5⟩
  refine (len _ _ _ H).bind fun _ _ H => ?_
  refine (len _ _ _ H).bind fun _ _ H => ?_
  have seg : ∀ (k : Nat) {l : List (BoundaryPoint D)} {m : List (BoundaryPoint E)}, List.Forall₂ (PtSim pos) l m →
      Lock (List.Forall₂ (PtSim pos)) (linkSegment k i l) (linkSegment k i m) := by
    intro k l m H
    refine modPt_lock H k fun a b hab => ?_
    rw [hab.nSegments, hab.segments]
    refine (wrl _ _ _).bind fun s s' e => ?_
    subst e
    exact Lock.pure ⟨hab.1, rfl, rfl, hab.4, hab.5⟩
  have nbr : ∀ (k n : Nat) {l : List (BoundaryPoint D)} {m : List (BoundaryPoint E)}, List.Forall₂ (PtSim pos) l m →
      Lock (List.Forall₂ (PtSim pos)) (linkNeighbour k n l) (linkNeighbour k n m) := by
    intro k n l m H
    refine modPt_lock H k fun a b hab => ?_
    rw [hab.nNeighbours, hab.neighbours]
    refine (wrl _ _ _).bind fun s s' e => ?_
    subst e
    exact Lock.pure ⟨hab.1, hab.2, hab.3, rfl, rfl⟩
  refine (seg _ H).bind fun _ _ H => ?_
  refine (seg _ H).bind fun _ _ H => ?_
  refine (nbr _ _ H).bind fun _ _ H => ?_
  exact nbr _ _ H

/-- Two boundaries with the same points, segments and links up to coordinates. -/
structure BndSim (pos : Coord D → Coord E → Prop) (b : Boundary D) (b' : Boundary E) : Prop where
  points : List.Forall₂ (PtSim pos) b.points b'.points
  segs : List.Forall₂ SegSim b.segments b'.segments
  nPoints : b.nPoints = b'.nPoints
  nSegments : b.nSegments = b'.nSegments

theorem computePointLengths_lock {b : Boundary D} {b' : Boundary E} (B : BndSim pos b b') :
    Lock (BndSim pos) (computePointLengths b) (computePointLengths b') := by
  unfold computePointLengths
  rw [B.nSegments]
  refine Lock.bind (P := List.Forall₂ (PtSim pos)) (Lock.forN (P := fun _ l m => List.Forall₂ (PtSim pos) l m) B.points
    fun i _ l m H => linkStep_lock B.segs H i) fun l m H => ?_
  exact Lock.pure ⟨H, B.segs, B.nPoints, rfl⟩

/-- The boundaries and the annotations of the two meshes are the same up to coordinates. -/
structure OutSim (pos : Coord D → Coord E → Prop) (r : Boundary D × LevelSet D) (r' : Boundary E × LevelSet E) : Prop where
  bnd : BndSim pos r.1 r'.1
  nodes : List.Forall₂ NodeSim r.2.mesh.nodes r'.2.mesh.nodes
  elems : List.Forall₂ ElemSim r.2.mesh.elements r'.2.mesh.elements

theorem elem_get {F : Type} [FP F] {m m' : Mesh F} {l : List F} (G : IsGrid w h m) (T : Status w h m l m.nElements m') {i : Nat} {el : Element F}
    (hi : m'.elements[i]? = some el) : ∃ x y a, x < w ∧ y < h ∧ i = cellNo w x y ∧ m.elements[i]? = some a ∧ el = markedE w l x y a := by
  obtain ⟨a, ha, _⟩ := T.annot.elem i el hi
  have hlt : i < m.nElements := by
    rw [G.nElements, ← G.elements_length]
    exact (List.getElem?_eq_some_iff.1 ha).1
  obtain ⟨x, y, hx, hy, rfl⟩ := G.elem_index hlt
  have := T.elem x y a hx hy ha
  rw [if_pos hlt, hi] at this
  cases this
  exact ⟨x, y, a, hx, hy, rfl, ha, rfl⟩

theorem status_sim (A : Al) {m1 : Mesh D} {m1' : Mesh E} (T : Status w h m0 sd m0.nElements m1) (T' : Status w h m0' sd' m0'.nElements m1') :
    Si { bnd := new, mesh := m1 } { bnd := new, mesh := m1' } := by
  refine ⟨T.annot, T'.annot, fun i nd hi => ?_, ?_, ?_, .nil, .nil, rfl, rfl⟩
  · obtain ⟨a, ha, _⟩ := T.annot.node i nd hi
    have := T.node i a ha
    change m1.nodes[i]? = some nd at hi
    rw [hi] at this
    cases this
    rfl
  · refine pairs_of_get ?_ fun i nd nd' hi hi' => ?_
    · show m1.nodes.length = m1'.nodes.length
      rw [T.annot.nlen, T'.annot.nlen, A.grid.nodes_length, A.grid'.nodes_length]
    · change m1.nodes[i]? = some nd at hi
      change m1'.nodes[i]? = some nd' at hi'
      obtain ⟨a, ha, _⟩ := T.annot.node i nd hi
      obtain ⟨b, hb, _⟩ := T'.annot.node i nd' hi'
      have e1 := T.node i a ha
      have e2 := T'.node i b hb
      rw [hi] at e1
      rw [hi'] at e2
      cases e1
      cases e2
      have hlt : i < (w + 1) * (h + 1) := by rw [← A.grid.nodes_length]; exact (List.getElem?_eq_some_iff.1 ha).1
      refine ⟨A.side i hlt, ⟨?_, rfl⟩, rfl, (A.flags i a b ha hb).1, (A.flags i a b ha hb).2⟩
      show a.boundaryPoints.length = b.boundaryPoints.length
      rw [A.grid.slots i a ha, A.grid'.slots i b hb]
  · refine pairs_of_get ?_ fun i el el' hi hi' => ?_
    · show m1.elements.length = m1'.elements.length
      rw [T.annot.elen, T'.annot.elen, A.grid.elements_length, A.grid'.elements_length]
    · obtain ⟨x, y, a, hx, hy, rfl, ha, rfl⟩ := elem_get A.grid T hi
      obtain ⟨x', y', b, hx', hy', e, hb, rfl⟩ := elem_get A.grid' T' hi'
      obtain ⟨rfl, rfl⟩ := idx_inj hx hx' (by unfold cellNo at e; omega)
      refine ⟨?_, ⟨?_, rfl⟩, rfl, ?_⟩
      · show a.nodes = b.nodes
        rw [A.grid.corner x y a hx hy ha, A.grid'.corner x y b hx hy hb]
      · show a.boundarySegments.length = b.boundarySegments.length
        rw [A.grid.segSlots _ a ha, A.grid'.segSlots _ b hb]
      · show elemStatus _ = elemStatus _
        congr 1
        unfold cornerStatus
        refine List.map_congr_left fun n hn => A.side n ?_
        unfold corners at hn
        simp only [List.mem_cons, List.not_mem_nil, or_false] at hn
        rcases hn with rfl | rfl | rfl | rfl <;> exact nodeNo_lt (by omega) (by omega)

/-- **The two runs take the same course.** -/
theorem discretise_lock {L : LevelSet D} {M : LevelSet E}
    (A : Alike w h L.moveLimit L.mesh (values L isTarget) M.moveLimit M.mesh (values M isTarget) pos) :
    Lock (OutSim pos) (discretise L isTarget) (discretise M isTarget) := by
  unfold discretise
  rw [show (if isTarget then L.target else L.signedDistance) = values L isTarget from rfl,
    show (if isTarget then M.target else M.signedDistance) = values M isTarget from rfl]
  obtain ⟨m1, e1, T⟩ := wp_noErr_iff.1 (computeMeshStatus_spec A.grid A.len)
  obtain ⟨m1', e1', T'⟩ := wp_noErr_iff.1 (computeMeshStatus_spec A.grid' A.len')
  dsimp only
  rw [e1, e1']
  show Lock _ (forN m1.nElements _ _ >>= _) (forN m1'.nElements _ _ >>= _)
  rw [T.annot.nElements, T'.annot.nElements, A.grid'.nElements, ← A.grid.nElements]
  refine Lock.bind (P := Sim L.mesh (values L isTarget) M.mesh (values M isTarget) pos)
    (Lock.forN (P := fun _ W V => Sim L.mesh (values L isTarget) M.mesh (values M isTarget) pos W V) (status_sim A T T')
      fun e he W V S => ?_) fun W V S => ?_
  · obtain ⟨x, y, hx, hy, rfl⟩ := A.grid.elem_index he
    exact element_lock A S hx hy
  · refine (computePointLengths_lock (pos := pos) ⟨S.points, S.segs, S.nPoints, S.nSegments⟩).bind fun b b' B => ?_
    exact Lock.pure ⟨B, S.nodes, S.elems⟩

end

end Boundary

end Slsm
