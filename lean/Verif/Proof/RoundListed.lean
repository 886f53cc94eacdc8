import Verif.Proof.RoundNormal
import Verif.Props.RoundMove

/-! # The points recorded at the nodes after discretising in rounded arithmetic -/

namespace Slsm

open FP Rounding LevelSet

namespace Boundary

section
variable {R : Rounding} {w h : Nat} {L L' : LevelSet R.Num} {b : Boundary R.Num} {isTarget : Bool}

theorem clear_drawn (C : Clear w h L isTarget) (e : discretise L isTarget = .ok (b, L')) : Drawn w h L (values L isTarget) b L' := by
  have := wp_of_ok (discretise_fit (isTarget := isTarget) C.grid C.len) e
  exact this

theorem clear_reachable (hr : Reachable w h L) (C : Clear w h L isTarget) (e : discretise L isTarget = .ok (b, L')) : Reachable w h L' := by
  have D := clear_drawn C e
  obtain ⟨W, F, hm, -, -⟩ := D.fit
  have A : Annot L.mesh L'.mesh := by rw [hm]; exact F.annot
  rw [D.level]
  exact .call hr (.annotate L'.mesh L.area (A.grid C.grid) fun i => A.flags i)

/-- The places of the points, and what is recorded at the nodes. -/
theorem clear_places (C : Clear w h L isTarget) (e : discretise L isTarget = .ok (b, L')) :
    ∃ keys : List Place, keys.length = b.points.length ∧ b.nPoints = b.points.length ∧
      (∀ x y, x ≤ w → y ≤ h → pointsAt L'.mesh (nodeNo w x y) = slotsOf keys (x, y)) ∧
      (∀ (n : Nat) (nd : Node R.Num), L'.mesh.nodes[n]? = some nd → nd.nBoundaryPoints ≤ 4) ∧
      ∀ (k : Nat) (pt : BoundaryPoint R.Num), b.points[k]? = some pt → ∃ p, keys[k]? = some p ∧ p.inGrid w h ∧ Sits w h (values L isTarget) p pt.coord := by
  obtain ⟨⟨b', M'⟩, e', O⟩ := Lock.ok_left (stand_lock C.toDistinct nowhere_ok) e
  obtain ⟨b2, M2, e2, E⟩ := tame_exact (stand_tame C (nowhere_ok (w := w) (h := h)))
  rw [e'] at e2
  cases e2
  have hl := O.bnd.points.length_eq
  obtain ⟨W, Q, hm, hb, Lk, -⟩ := E.rep
  have hlen : b'.points.length = (run w (stand w h L isTarget nowhere).mesh (values (stand w h L isTarget nowhere) isTarget) isTarget (w * h)).keys.length := by
    rw [Lk.len, Q.plen]
  refine ⟨_, by rw [← hlen, hl], ?_, fun x y hx hy => ?_, fun n nd hn => ?_, fun k pt hk => ?_⟩
  · obtain ⟨V, F, -, hb2, Lk2⟩ := (clear_drawn C e).fit
    rw [hb2]
    show V.bnd.nPoints = b.points.length
    rw [F.nPoints, Lk2.len]
  · unfold pointsAt
    rcases pairs_get O.nodes (nodeNo w x y) with ⟨h1, h2⟩ | ⟨a, c, h1, h2, S⟩
    · exfalso
      have A : Annot (stand w h L isTarget nowhere).mesh M'.mesh := by rw [hm]; exact Q.annot
      obtain ⟨nd, hnd⟩ := (A.grid (stand_ready C.toDistinct).grid).node_exists hx hy
      have h2' : M'.mesh.nodes[nodeNo w x y]? = none := h2
      rw [h2'] at hnd
      cases hnd
    · have h1' : L'.mesh.nodes[nodeNo w x y]? = some a := h1
      rw [h1']
      dsimp only
      have h2' : M'.mesh.nodes[nodeNo w x y]? = some c := h2
      rw [hm] at h2'
      rw [S.nSlots, S.slots.2]
      exact (Q.slots x y c hx hy h2').1
  · rcases pairs_get O.nodes n with ⟨h1, -⟩ | ⟨a, c, h1, h2, S⟩
    · have h1' : L'.mesh.nodes[n]? = none := h1
      rw [h1'] at hn; cases hn
    · have h1' : L'.mesh.nodes[n]? = some a := h1
      rw [h1'] at hn
      cases hn
      have h2' : M'.mesh.nodes[n]? = some c := h2
      have A : Annot (stand w h L isTarget nowhere).mesh M'.mesh := by rw [hm]; exact Q.annot
      have G := A.grid (stand_ready C.toDistinct).grid
      have hlt : n < M'.mesh.nNodes := by
        rw [G.nNodes, ← G.nodes_length]
        exact (List.getElem?_eq_some_iff.1 h2').1
      obtain ⟨x, y, hx, hy, rfl⟩ := G.node_index hlt
      have h4 := G.slots _ _ h2'
      rw [hm] at h2'
      obtain ⟨q1, q2⟩ := Q.slots x y c hx hy h2'
      rw [S.nSlots, q2, ← q1, List.length_take, h4]
      exact min_le_right _ _
  · rcases pairs_get O.bnd.points k with ⟨h1, -⟩ | ⟨pa, q, h1, h2, S⟩
    · have h1' : b.points[k]? = none := h1
      rw [h1'] at hk; cases hk
    · have h1' : b.points[k]? = some pa := h1
      rw [h1'] at hk
      cases hk
      obtain ⟨p, g1, g2, g3, g4, -⟩ := E.point h2
      refine ⟨p, g1, g2, ?_⟩
      obtain ⟨r, r1, r2, r3, r4, r5⟩ := S.coord
      have hw := stand_within (isTarget := isTarget) (far := nowhere) C.grid nowhere_ok p g2 g3
      have er : r = p := by
        rw [g4] at r5
        exact Place.within_unique (by norm_num) (by norm_num) r5 hw
      subst er
      exact r2

/-- A point is recorded at the ends of its edge. -/
theorem recorded_ends (C : Core w h L) {m : Mesh R.Num} {keys : List Place}
    (hs : ∀ x y, x ≤ w → y ≤ h → pointsAt m (nodeNo w x y) = slotsOf keys (x, y)) (k : Nat) :
    recorded { L with mesh := m } k = (listed w keys k L.band).length := by
  unfold recorded listed
  show (L.band.map fun n => (pointsAt m n).count k).sum = _
  have hin : ∀ n ∈ L.band, (pointsAt m n).count k = if k ∈ slotsOf keys (latticeOf w n) then 1 else 0 := by
    intro n hn
    obtain ⟨x, y, hx, hy, rfl⟩ := C.grid.node_index (C.band_free _ hn).1
    rw [hs x y hx hy, latticeOf_nodeNo hx]
    by_cases hm : k ∈ slotsOf keys (x, y)
    · rw [if_pos hm, List.count_eq_one_of_mem (slotsOf_nodup _ _) hm]
    · rw [if_neg hm, List.count_eq_zero_of_not_mem hm]
  rw [List.map_congr_left hin]
  generalize L.band = l
  induction l with
  | nil => rfl
  | cons a t ih =>
    rw [List.map_cons, List.sum_cons, ih, List.map_cons, List.filter_cons]
    by_cases hm : k ∈ slotsOf keys (latticeOf w a)
    · simp [hm, Nat.add_comm]
    · simp [hm]

open Classical in
theorem listed_ends (C : Core w h L) {keys : List Place} {k : Nat} {p : Place} (hk : keys[k]? = some p) (hp : p.inGrid w h) :
    (listed w keys k L.band).Perm (p.ends.filter fun q => decide (nodeNo w q.1 q.2 ∈ L.band)) := by
  refine (List.perm_ext_iff_of_nodup ?_ ?_).2 fun q => ?_
  · unfold listed
    refine List.Nodup.filter _ (List.Nodup.map (fun a c e => latticeOf_inj e) ?_)
    exact C.band_sorted.imp fun hlt => Nat.ne_of_lt hlt
  · exact List.Nodup.filter _ (ends_nodup p)
  · unfold listed
    simp only [List.mem_filter, List.mem_map, decide_eq_true_eq]
    have hs : k ∈ slotsOf keys q ↔ q ∈ p.ends := by
      rw [mem_slotsOf]
      constructor
      · rintro ⟨p', h1, h2⟩
        rw [hk] at h1
        cases h1
        exact h2
      · exact fun h2 => ⟨p, hk, h2⟩
    rw [hs, and_comm]
    refine and_congr_right fun hq => ?_
    constructor
    · rintro ⟨n, hn, rfl⟩
      rw [nodeNo_latticeOf]
      exact hn
    · intro hn
      exact ⟨_, hn, latticeOf_nodeNo (hp q hq).1⟩

end

end Boundary

end Slsm
