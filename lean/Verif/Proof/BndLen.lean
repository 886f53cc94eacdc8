import Verif.Proof.BndRun

/-! Lengths and links of the points. -/

namespace Slsm

open FP

namespace Boundary

section
variable {D : Type} [FP D]

/-- A point after the lengths `ls` have been added, with the segments `sg` and neighbours `nb`. -/
structure Linked (p0 p : BoundaryPoint D) (ls : List D) (sg nb : List Nat) : Prop where
  eq : p = { p0 with
    length := ls.foldl (fun a l => a +. lit 1 2 *. l) p0.length, segments := p.segments, nSegments := sg.length,
    neighbours := p.neighbours, nNeighbours := nb.length }
  slen : p.segments.length = 2
  nlen : p.neighbours.length = 2
  sle : sg.length ≤ 2
  nle : nb.length ≤ 2
  stake : p.segments.take sg.length = sg
  ntake : p.neighbours.take nb.length = nb

/-- All the points. -/
structure Links (P0 pts : List (BoundaryPoint D)) (ls : Nat → List D) (sg nb : Nat → List Nat) : Prop where
  len : pts.length = P0.length
  pt : ∀ (j : Nat) (p0 : BoundaryPoint D), P0[j]? = some p0 → ∃ p, pts[j]? = some p ∧ Linked p0 p (ls j) (sg j) (nb j)

/-- Append to the list of `k`. -/
def putAt {α : Type} (l : Nat → List α) (k : Nat) (a : α) (j : Nat) : List α := l j ++ if j = k then [a] else []

theorem Links.set {P0 pts : List (BoundaryPoint D)} {ls ls' : Nat → List D} {sg nb sg' nb' : Nat → List Nat}
    (L : Links P0 pts ls sg nb) {k : Nat} {p : BoundaryPoint D} (hk : k < P0.length)
    (hs : ∀ p0, P0[k]? = some p0 → Linked p0 p (ls' k) (sg' k) (nb' k))
    (ho : ∀ j, j ≠ k → ls' j = ls j ∧ sg' j = sg j ∧ nb' j = nb j) : Links P0 (pts.set k p) ls' sg' nb' := by
  refine ⟨by rw [List.length_set, L.len], fun j p0 hj => ?_⟩
  by_cases h : k = j
  · subst h
    exact ⟨p, by rw [List.getElem?_set_self (by rw [L.len]; exact hk)], hs p0 hj⟩
  · obtain ⟨q, hq, hl⟩ := L.pt j p0 hj
    obtain ⟨e1, e2, e3⟩ := ho j (Ne.symm h)
    exact ⟨q, by rw [List.getElem?_set_ne h]; exact hq, by rw [e1, e2, e3]; exact hl⟩

theorem putAt_self {α : Type} (l : Nat → List α) (k : Nat) (a : α) : putAt l k a k = l k ++ [a] := by
  unfold putAt; rw [if_pos rfl]

theorem putAt_ne {α : Type} (l : Nat → List α) {j k : Nat} (a : α) (h : j ≠ k) : putAt l k a j = l j := by
  unfold putAt; rw [if_neg h, List.append_nil]

theorem addLength_spec {P0 pts : List (BoundaryPoint D)} {ls : Nat → List D} {sg nb : Nat → List Nat}
    (L : Links P0 pts ls sg nb) {k : Nat} (hk : k < P0.length) (len : D) :
    wp (addLength k len pts) (fun pts' => Links P0 pts' (putAt ls k len) sg nb) noErr := by
  obtain ⟨p, hp, l⟩ := L.pt k _ (List.getElem?_eq_getElem hk)
  unfold addLength
  rw [modAt_some hp]
  simp only [bind, Except.bind, pure, Except.pure]
  rw [wp_ok]
  refine L.set hk (fun p0 h0 => ?_) fun j hj => ⟨putAt_ne _ _ hj, rfl, rfl⟩
  rw [List.getElem?_eq_getElem hk] at h0
  cases h0
  rw [putAt_self]
  refine ⟨?_, l.slen, l.nlen, l.sle, l.nle, l.stake, l.ntake⟩
  rw [List.foldl_append]
  conv_lhs => rw [l.eq]
  rfl

theorem linkSegment_spec {P0 pts : List (BoundaryPoint D)} {ls : Nat → List D} {sg nb : Nat → List Nat}
    (L : Links P0 pts ls sg nb) {k : Nat} (hk : k < P0.length) (i : Nat) :
    wp (linkSegment k i pts) (fun pts' => Links P0 pts' ls (putAt sg k i) nb) (fun e => e = .ub ∧ 2 < (putAt sg k i k).length) := by
  obtain ⟨p, hp, l⟩ := L.pt k _ (List.getElem?_eq_getElem hk)
  have hn : p.nSegments = (sg k).length := by rw [l.eq]
  unfold linkSegment
  rw [modAt_some hp]
  by_cases hf : (sg k).length < 2
  · simp only [bind, Except.bind]
    rw [wr_eq _ (by rw [hn, l.slen]; exact hf)]
    simp only [pure, Except.pure]
    rw [wp_ok]
    refine L.set hk (fun p0 h0 => ?_) fun j hj => ⟨rfl, putAt_ne _ _ hj, rfl⟩
    rw [List.getElem?_eq_getElem hk] at h0
    cases h0
    rw [putAt_self]
    refine ⟨?_, by dsimp only; rw [List.length_set, l.slen], l.nlen, by rw [List.length_append]; simp; omega, l.nle, ?_, l.ntake⟩
    · rw [List.length_append, List.length_singleton, ← hn]
      conv_lhs => rw [l.eq]
      simp only [hn]
    · show (p.segments.set _ _).take _ = _
      rw [List.length_append, List.length_singleton, hn, LevelSet.take_set_succ _ _ _ (by rw [l.slen]; exact hf), l.stake]
  · simp only [bind, Except.bind]
    rw [wr_ub _ (by rw [hn, l.slen]; omega)]
    rw [wp_error, putAt_self, List.length_append]
    exact ⟨rfl, by simp; omega⟩

theorem linkNeighbour_spec {P0 pts : List (BoundaryPoint D)} {ls : Nat → List D} {sg nb : Nat → List Nat}
    (L : Links P0 pts ls sg nb) {k : Nat} (hk : k < P0.length) (i : Nat) :
    wp (linkNeighbour k i pts) (fun pts' => Links P0 pts' ls sg (putAt nb k i)) (fun e => e = .ub ∧ 2 < (putAt nb k i k).length) := by
  obtain ⟨p, hp, l⟩ := L.pt k _ (List.getElem?_eq_getElem hk)
  have hn : p.nNeighbours = (nb k).length := by rw [l.eq]
  unfold linkNeighbour
  rw [modAt_some hp]
  by_cases hf : (nb k).length < 2
  · simp only [bind, Except.bind]
    rw [wr_eq _ (by rw [hn, l.nlen]; exact hf)]
    simp only [pure, Except.pure]
    rw [wp_ok]
    refine L.set hk (fun p0 h0 => ?_) fun j hj => ⟨rfl, rfl, putAt_ne _ _ hj⟩
    rw [List.getElem?_eq_getElem hk] at h0
    cases h0
    rw [putAt_self]
    refine ⟨?_, l.slen, by dsimp only; rw [List.length_set, l.nlen], l.sle, by rw [List.length_append]; simp; omega, l.stake, ?_⟩
    · rw [List.length_append, List.length_singleton, ← hn]
      conv_lhs => rw [l.eq]
      simp only [hn]
    · show (p.neighbours.set _ _).take _ = _
      rw [List.length_append, List.length_singleton, hn, LevelSet.take_set_succ _ _ _ (by rw [l.nlen]; exact hf), l.ntake]
  · simp only [bind, Except.bind]
    rw [wr_ub _ (by rw [hn, l.nlen]; omega)]
    rw [wp_error, putAt_self, List.length_append]
    exact ⟨rfl, by simp; omega⟩

/-- What the segments say about point `j`: lengths, segment numbers and neighbours. -/
def lensAt (segs : List (BoundarySegment D)) (j i : Nat) : List D :=
  match segs[i]? with
  | some g => (if j = g.start then [g.length] else []) ++ if j = g.stop then [g.length] else []
  | none => []

def segsAt (segs : List (BoundarySegment D)) (j i : Nat) : List Nat :=
  match segs[i]? with
  | some g => (if j = g.start then [i] else []) ++ if j = g.stop then [i] else []
  | none => []

def nbrsAt (segs : List (BoundarySegment D)) (j i : Nat) : List Nat :=
  match segs[i]? with
  | some g => (if j = g.start then [g.stop] else []) ++ if j = g.stop then [g.start] else []
  | none => []

theorem segsAt_nbrsAt (segs : List (BoundarySegment D)) (j i : Nat) : (segsAt segs j i).length = (nbrsAt segs j i).length := by
  unfold segsAt nbrsAt
  split
  · split_ifs <;> rfl
  · rfl

theorem segs_nbrs (segs : List (BoundarySegment D)) (j n : Nat) :
    (upTo (segsAt segs j) n).length = (upTo (nbrsAt segs j) n).length := by
  induction n with
  | zero => rfl
  | succ n ih =>
    show (upTo (segsAt segs j) n ++ segsAt segs j n).length = (upTo (nbrsAt segs j) n ++ nbrsAt segs j n).length
    rw [List.length_append, List.length_append, ih, segsAt_nbrsAt]

/-- Number of ends of the first `n` segments at point `j`. -/
def degree (segs : List (BoundarySegment D)) (j : Nat) : Nat := (upTo (segsAt segs j) segs.length).length

theorem linkStep_spec {P0 pts : List (BoundaryPoint D)} {segs : List (BoundarySegment D)}
    (hseg : ∀ g ∈ segs, g.start < P0.length ∧ g.stop < P0.length) {i : Nat} (hi : i < segs.length)
    (L : Links P0 pts (fun j => upTo (lensAt segs j) i) (fun j => upTo (segsAt segs j) i) (fun j => upTo (nbrsAt segs j) i)) :
    wp (linkStep segs i pts) (fun pts' => Links P0 pts' (fun j => upTo (lensAt segs j) (i + 1)) (fun j => upTo (segsAt segs j) (i + 1))
      (fun j => upTo (nbrsAt segs j) (i + 1))) (fun e => e = .ub ∧ ∃ j, j < P0.length ∧ 2 < degree segs j) := by
  have hget := List.getElem?_eq_getElem hi
  obtain ⟨hs, ht⟩ := hseg _ (List.getElem_mem hi)
  generalize hg : segs[i] = g at *
  have hls : ∀ j, lensAt segs j i = (if j = g.start then [g.length] else []) ++ if j = g.stop then [g.length] else [] := by
    intro j; unfold lensAt; rw [hget]
  have hsg : ∀ j, segsAt segs j i = (if j = g.start then [i] else []) ++ if j = g.stop then [i] else [] := by
    intro j; unfold segsAt; rw [hget]
  have hnb : ∀ j, nbrsAt segs j i = (if j = g.start then [g.stop] else []) ++ if j = g.stop then [g.start] else [] := by
    intro j; unfold nbrsAt; rw [hget]
  have hmono : ∀ j, (upTo (segsAt segs j) (i + 1)).length ≤ degree segs j := fun j => upTo_length_mono _ hi
  unfold linkStep
  rw [rd_of_getElem? hget, wp_bind, wp_ok, wp_bind]
  refine wp_mono (addLength_spec L hs g.length) (fun p1 L1 => ?_) (fun _ h => h.elim)
  rw [wp_bind]
  refine wp_mono (addLength_spec L1 ht g.length) (fun p2 L2 => ?_) (fun _ h => h.elim)
  rw [wp_bind]
  refine wp_mono (linkSegment_spec L2 hs i) (fun p3 L3 => ?_) (fun e h => ⟨h.1, g.start, hs, ?_⟩)
  · rw [wp_bind]
    refine wp_mono (linkSegment_spec L3 ht i) (fun p4 L4 => ?_) (fun e h => ⟨h.1, g.stop, ht, ?_⟩)
    · rw [wp_bind]
      refine wp_mono (linkNeighbour_spec L4 hs g.stop) (fun p5 L5 => ?_) (fun e h => ⟨h.1, g.start, hs, ?_⟩)
      · refine wp_mono (linkNeighbour_spec L5 ht g.start) (fun p6 L6 => ?_) (fun e h => ⟨h.1, g.stop, ht, ?_⟩)
        · convert L6 using 2 with j j j
          · show upTo (lensAt segs j) i ++ lensAt segs j i = _
            rw [hls]; simp only [putAt, List.append_assoc]
          · show upTo (segsAt segs j) i ++ segsAt segs j i = _
            rw [hsg]; simp only [putAt, List.append_assoc]
          · show upTo (nbrsAt segs j) i ++ nbrsAt segs j i = _
            rw [hnb]; simp only [putAt, List.append_assoc]
        · refine lt_of_lt_of_le (lt_of_lt_of_le h.2 (le_of_eq ?_)) (hmono g.stop)
          rw [segs_nbrs]
          show _ = (upTo (nbrsAt segs g.stop) i ++ nbrsAt segs g.stop i).length
          rw [hnb]; simp only [putAt, List.append_assoc]
      · refine lt_of_lt_of_le (lt_of_lt_of_le h.2 ?_) (hmono g.start)
        rw [segs_nbrs]
        show _ ≤ (upTo (nbrsAt segs g.start) i ++ nbrsAt segs g.start i).length
        rw [hnb]; simp only [putAt, List.length_append]; omega
    · refine lt_of_lt_of_le (lt_of_lt_of_le h.2 (le_of_eq ?_)) (hmono g.stop)
      show _ = (upTo (segsAt segs g.stop) i ++ segsAt segs g.stop i).length
      rw [hsg]; simp only [putAt, List.append_assoc]
  · refine lt_of_lt_of_le (lt_of_lt_of_le h.2 ?_) (hmono g.start)
    show _ ≤ (upTo (segsAt segs g.start) i ++ segsAt segs g.start i).length
    rw [hsg]; simp only [putAt, List.length_append]; omega

/-- A point without links. -/
structure Fresh (p : BoundaryPoint D) : Prop where
  segments : p.segments.length = 2
  neighbours : p.neighbours.length = 2
  nSegments : p.nSegments = 0
  nNeighbours : p.nNeighbours = 0

theorem computePointLengths_spec {b : Boundary D} (hn : b.nSegments = b.segments.length)
    (hseg : ∀ g ∈ b.segments, g.start < b.points.length ∧ g.stop < b.points.length) (hf : ∀ p ∈ b.points, Fresh p) :
    wp (computePointLengths b) (fun b' => ∃ pts, b' = { b with points := pts } ∧
      Links b.points pts (fun j => upTo (lensAt b.segments j) b.segments.length) (fun j => upTo (segsAt b.segments j) b.segments.length)
        (fun j => upTo (nbrsAt b.segments j) b.segments.length))
      (fun e => e = .ub ∧ ∃ j, j < b.points.length ∧ 2 < degree b.segments j) := by
  unfold computePointLengths
  rw [wp_bind, hn]
  refine wp_imp (wp_forN (fun i (pts : List (BoundaryPoint D)) => Links b.points pts (fun j => upTo (lensAt b.segments j) i)
    (fun j => upTo (segsAt b.segments j) i) (fun j => upTo (nbrsAt b.segments j) i)) ?_ fun i hi pts L => linkStep_spec hseg hi L)
    fun pts L => ⟨pts, rfl, L⟩
  refine ⟨rfl, fun j p0 h0 => ⟨p0, h0, ?_⟩⟩
  have F := hf p0 (List.mem_of_getElem? h0)
  refine ⟨?_, F.segments, F.neighbours, by simp [upTo], by simp [upTo], rfl, rfl⟩
  obtain ⟨_, _, h1, h2⟩ := F
  cases p0
  dsimp only at h1 h2
  subst h1 h2
  rfl

end

end Boundary

end Slsm
