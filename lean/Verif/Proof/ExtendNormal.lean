import Verif.Proof.ExtendOpt
import Verif.Proof.BndNormal

/-! # Calculation in larger number systems: normal vectors -/

namespace Slsm

open LevelSet (map_bind' bind_map' rd_map' forN_map)

/-- A loop with an invariant that depends on the counter. -/
theorem forN_map_idx {α β : Type} (T : α → β) (P : Nat → α → Prop) {f : Nat → α → Res α} {f' : Nat → β → Res β} (n : Nat) {s : α} (h0 : P 0 s)
    (h : ∀ i s, i < n → P i s → f' i (T s) = (f i s).map T ∧ ∀ t, f i s = .ok t → P (i + 1) t) :
    forN n (T s) f' = (forN n s f).map T ∧ ∀ t, forN n s f = .ok t → P n t := by
  induction n with
  | zero => exact ⟨rfl, fun t ht => by cases ht; exact h0⟩
  | succ n ih =>
    obtain ⟨h1, h2⟩ := ih fun i s hi => h i s (by omega)
    change (forN n (T s) f' >>= f' n = (forN n s f >>= f n).map T) ∧ ∀ t, (forN n s f >>= f n) = .ok t → P (n + 1) t
    rw [h1]
    cases e : forN n s f with
    | error e => exact ⟨rfl, fun t ht => by cases ht⟩
    | ok t => exact h n t (by omega) (h2 t e)

variable {E : Type} [FP E] {g : ℝ → E} (H : Extends g)

include H

namespace Boundary

theorem map_lineDiff {r : Nat → Res ℝ} {r' : Nat → Res E} (h : ∀ k, r' k = (r k).map g) (n x : Nat) : lineDiff r' n x = (lineDiff r n x).map g := by
  unfold lineDiff
  rw [LevelSet.map_diff H h, LevelSet.map_diff H h, LevelSet.map_diff H h, map_ite', map_ite', map_bind', bind_map']
  refine if_congr Iff.rfl rfl (if_congr Iff.rfl rfl (bind_congr fun d => ?_))
  rw [H.lit (by decide), H.mul']
  rfl

theorem map_normalPoint (nd : Node ℝ) (nx ny : ℝ) (j : Nat) (s : List (BoundaryPoint ℝ) × List Bool × List ℝ) :
    normalPoint (nd.map g) (g nx) (g ny) j (Prod.map (List.map (BoundaryPoint.map g)) (Prod.map id (List.map g)) s) =
      (normalPoint nd nx ny j s).map (Prod.map (List.map (BoundaryPoint.map g)) (Prod.map id (List.map g))) := by
  obtain ⟨pts, st, wt⟩ := s
  unfold normalPoint
  dsimp only [Prod.map, id]
  rw [map_bind']
  refine bind_congr fun k => ?_
  rw [map_bind', rd_map', bind_map']
  refine bind_congr fun p => ?_
  dsimp only [Node.map, BoundaryPoint.map, Coord.map]
  simp only [H.sub', H.mul', H.add', H.lit (show 1000000 ≠ 0 by decide), H.lt_eq]
  rw [map_ite']
  by_cases h : FP.lt (FP.add (FP.mul (FP.sub nd.coord.x p.coord.x) (FP.sub nd.coord.x p.coord.x)) (FP.mul (FP.sub nd.coord.y p.coord.y) (FP.sub nd.coord.y p.coord.y)))
      (FP.lit 1 1000000 : ℝ) = true
  · rw [if_pos h, if_pos h, map_bind']
    refine (congrArg (· >>= _) (wr_map' (BoundaryPoint.map g) pts k { p with normal := ⟨nx, ny⟩ })).trans ?_
    rw [bind_map']
    refine bind_congr fun pts' => ?_
    rw [map_bind', H.nat', wr_map', bind_map']
    refine bind_congr fun wt' => ?_
    rw [map_bind']
    rfl
  · rw [if_neg h, if_neg h, map_bind']
    refine bind_congr fun set => ?_
    rw [map_ite']
    refine if_congr Iff.rfl rfl ?_
    rw [FP.lt_real, not_lt] at h
    have hr := (lt_of_lt_of_le LevelSet.tol_pos h).ne'
    rw [H.div' nx (FP.add _ _) hr, H.div' ny (FP.add _ _) hr, H.add', H.add', map_bind']
    refine (congrArg (· >>= _) (wr_map' (BoundaryPoint.map g) pts k { p with normal := ⟨FP.add p.normal.x (FP.div nx _), FP.add p.normal.y (FP.div ny _)⟩ })).trans ?_
    rw [bind_map']
    refine bind_congr fun pts' => ?_
    rw [map_bind', rd_map', bind_map']
    refine bind_congr fun q => ?_
    rw [map_bind', H.nat', H.div' _ (FP.add _ _) hr, H.add', wr_map', bind_map']
    rfl

omit H in
/-- The gradient at every node of the narrow band that has boundary points is not zero. -/
def Steep (L : LevelSet ℝ) : Prop :=
  ∀ (i node : Nat) (nd : Node ℝ) (gx gy : ℝ), i < L.nNarrowBand → L.narrowBand[i]? = some node → L.mesh.nodes[node]? = some nd → 0 < nd.nBoundaryPoints →
    lineDiff (fun k => LevelSet.sdAt L k (FP.floor nd.coord.y)) L.mesh.width (FP.floor nd.coord.x) = .ok gx →
    lineDiff (fun k => LevelSet.sdAt L (FP.floor nd.coord.x) k) L.mesh.height (FP.floor nd.coord.y) = .ok gy → gx ≠ 0 ∨ gy ≠ 0

theorem map_normalNode {L : LevelSet ℝ} (hS : Steep L) {i : Nat} (hi : i < L.nNarrowBand) (s : List (BoundaryPoint ℝ) × List Bool × List ℝ) :
    normalNode (L.map g) i (Prod.map (List.map (BoundaryPoint.map g)) (Prod.map id (List.map g)) s) =
      (normalNode L i s).map (Prod.map (List.map (BoundaryPoint.map g)) (Prod.map id (List.map g))) := by
  unfold normalNode
  rw [map_bind']
  cases e1 : rd L.narrowBand i with
  | error e => 
    refine (congrArg (· >>= _) e1).trans ?_
    rfl
  | ok node =>
    refine (congrArg (· >>= _) e1).trans ?_
    rw [ok_bind', ok_bind', map_bind']
    refine (congrArg (· >>= _) (rd_map' (Node.map g) L.mesh.nodes node)).trans ?_
    rw [bind_map']
    cases e2 : rd L.mesh.nodes node with
    | error e => rfl
    | ok nd =>
      rw [ok_bind', ok_bind', map_ite']
      by_cases hb : 0 < nd.nBoundaryPoints
      · rw [if_pos hb, if_pos (show 0 < (nd.map g).nBoundaryPoints from hb), map_bind']
        have ex : FP.floor (nd.map g).coord.x = FP.floor nd.coord.x := H.floor_eq _
        have ey : FP.floor (nd.map g).coord.y = FP.floor nd.coord.y := H.floor_eq _
        rw [ex, ey]
        refine (congrArg (· >>= _) (map_lineDiff H (fun k => LevelSet.map_sdAt L k (FP.floor nd.coord.y)) L.mesh.width (FP.floor nd.coord.x))).trans ?_
        rw [bind_map']
        cases e3 : lineDiff (fun k => LevelSet.sdAt L k (FP.floor nd.coord.y)) L.mesh.width (FP.floor nd.coord.x) with
        | error e => rfl
        | ok gx =>
          rw [ok_bind', ok_bind', map_bind']
          refine (congrArg (· >>= _) (map_lineDiff H (fun k => LevelSet.map_sdAt L (FP.floor nd.coord.x) k) L.mesh.height (FP.floor nd.coord.y))).trans ?_
          rw [bind_map']
          cases e4 : lineDiff (fun k => LevelSet.sdAt L (FP.floor nd.coord.x) k) L.mesh.height (FP.floor nd.coord.y) with
          | error e => rfl
          | ok gy =>
            have h0 := hS i node nd gx gy hi (rd_eq_ok.1 e1) (rd_eq_ok.1 e2) hb e3 e4
            have hr : (FP.sqrt (FP.add (FP.mul gx gx) (FP.mul gy gy)) : ℝ) ≠ 0 := by
              simp only [FP.sqrt_real, FP.add_real, FP.mul_real]
              refine (Real.sqrt_pos.2 ?_).ne'
              rcases h0 with h | h
              · have := mul_self_pos.2 h
                have := mul_self_nonneg gy
                linarith
              · have := mul_self_pos.2 h
                have := mul_self_nonneg gx
                linarith
            rw [ok_bind', ok_bind', H.mul', H.mul', H.add', hyp_map H]
            dsimp only
            rw [H.div' _ (FP.sqrt _) hr, H.div' _ (FP.sqrt _) hr]
            exact forN_map _ _ (fun j t _ => map_normalPoint H nd _ _ j t) s
      · rw [if_neg hb, if_neg (show ¬ 0 < (nd.map g).nBoundaryPoints from hb)]
        rfl

theorem map_unitNormal (q : ℝ) (p : BoundaryPoint ℝ) (hp : p.isDomain = false → (unitNormal q p).normal ≠ ⟨0, 0⟩) :
    unitNormal (g q) (p.map g) = (unitNormal q p).map g := by
  unfold unitNormal at hp ⊢
  dsimp only at hp ⊢
  show (if p.isDomain = true then _ else _) = _
  by_cases hd : p.isDomain = true
  · rw [if_pos hd, if_pos hd]
  · rw [if_neg hd, if_neg hd]
    have hp := hp (by simpa using hd)
    rw [if_neg hd] at hp
    dsimp only at hp
    have hq : q ≠ 0 := by
      rintro rfl
      exact hp (by simp)
    dsimp only [BoundaryPoint.map, Coord.map]
    rw [H.div' _ _ hq, H.div' _ _ hq, H.mul', H.mul', H.add', hyp_map H]
    have hr : (FP.sqrt (FP.add (FP.mul (FP.div p.normal.x q) (FP.div p.normal.x q)) (FP.mul (FP.div p.normal.y q) (FP.div p.normal.y q))) : ℝ) ≠ 0 := by
      intro h0
      rw [h0] at hp
      exact hp (by simp)
    rw [H.div' _ (FP.sqrt _) hr, H.div' _ (FP.sqrt _) hr]

theorem map_computeNormalVectors {b b' : Boundary ℝ} {L : LevelSet ℝ} (hS : Steep L) (e : computeNormalVectors b L = .ok b')
    (hn : ∀ p ∈ b'.points, p.isDomain = false → p.normal ≠ ⟨0, 0⟩) : computeNormalVectors (b.map g) (L.map g) = .ok (b'.map g) := by
  rw [show (Except.ok (b'.map g) : Res (Boundary E)) = (Except.ok b' : Res (Boundary ℝ)).map (Boundary.map g) from rfl, ← e]
  unfold computeNormalVectors at e ⊢
  rw [map_bind']
  refine (congrArg (· >>= _) (forN_map (List.map (BoundaryPoint.map g)) b.nPoints (fun i l _ =>
    modAt_map' (BoundaryPoint.map g) (f := fun p => pure { p with normal := ⟨FP.nat 0, FP.nat 0⟩ }) (fun p => ?_) l i) b.points)).trans ?_
  · rw [H.nat']
    rfl
  rw [bind_map']
  cases e1 : forN b.nPoints b.points fun i l => modAt l i fun p => pure { p with normal := ⟨FP.nat 0, FP.nat 0⟩ } with
  | error _ => rfl
  | ok pts =>
    rw [e1] at e
    rw [ok_bind'] at e
    rw [ok_bind', ok_bind', map_bind']
    have q2 := forN_map (Prod.map (List.map (BoundaryPoint.map g)) (Prod.map id (List.map g))) L.nNarrowBand (fun i s hi => map_normalNode H hS hi s)
      (pts, List.replicate b.nPoints false, List.replicate b.nPoints (FP.nat 0))
    rw [Prod.map, Prod.map, List.map_replicate, ← H.nat'] at q2
    refine (congrArg (· >>= _) q2).trans ?_
    rw [bind_map']
    cases e2 : forN L.nNarrowBand (pts, List.replicate b.nPoints false, List.replicate b.nPoints (FP.nat 0)) (normalNode L) with
    | error _ => rfl
    | ok r =>
      obtain ⟨pts2, st, wt⟩ := r
      rw [e2] at e
      rw [ok_bind'] at e
      dsimp only at e
      rw [ok_bind', ok_bind', map_bind']
      dsimp only [Prod.map, id]
      have hval : ∀ (i : Nat) (p : BoundaryPoint ℝ) (q : ℝ), i < b.nPoints → pts2[i]? = some p → wt[i]? = some q → p.isDomain = false → (unitNormal q p).normal ≠ ⟨0, 0⟩ := by
        intro i p q hi hp hq hd
        obtain ⟨pts3, e3, e4⟩ := bind_ok_inv e
        cases e4
        obtain ⟨-, -, h3⟩ := any_ok (any_modEach (fun i x y => ∃ q, wt[i]? = some q ∧ y = unitNormal q x) fun i w hi hw => by
          rw [wp_bind]
          refine any_rd fun q hq => any_modAt fun x hx => ⟨x, _, hx, rfl, q, hq, rfl⟩) e3
        obtain ⟨x, y, h4, h5, q', h6, rfl⟩ := h3 i hi
        rw [hp] at h4
        rw [hq] at h6
        cases h4
        cases h6
        exact hn _ (List.mem_of_getElem? h5) (by rw [unitNormal_frame]; exact hd)
      refine (congrArg (· >>= _) (forN_map_idx (List.map (BoundaryPoint.map g)) (fun n l => ∀ j, n ≤ j → l[j]? = pts2[j]?)
        (f := fun i l => rd wt i >>= fun q => modAt l i fun p => pure (unitNormal q p)) b.nPoints (fun _ _ => rfl) (fun i l hi hl => ⟨?_, ?_⟩)).1).trans ?_
      · rw [map_bind', rd_map', bind_map']
        cases e5 : rd wt i with
        | error _ => rfl
        | ok q =>
          rw [ok_bind', ok_bind']
          unfold modAt
          rw [rd_map', bind_map', map_bind']
          cases e6 : rd l i with
          | error _ => rfl
          | ok p =>
            have hp := rd_eq_ok.1 e6
            rw [hl i le_rfl] at hp
            rw [ok_bind', ok_bind']
            dsimp only
            rw [map_unitNormal H q p (hval i p q hi hp (rd_eq_ok.1 e5)), pure_ok', ok_bind', pure_ok', ok_bind', wr_map']
      · refine of_wp ?_
        rw [wp_bind]
        refine wp_any _ fun q => any_modAt fun x hx => ?_
        rw [wp_pure]
        intro j hj
        rw [List.getElem?_set_ne (by omega)]
        exact hl j (by omega)
      · rw [bind_map']
        rfl

omit H [FP E] in
/-- In terms of the lattice: the gradient at the nodes of the narrow band that have boundary points is not zero. -/
theorem steep_of {w h : Nat} {L : LevelSet ℝ} (C : LevelSet.Core w h L) (hs : ∀ (x y : Nat) (nd : Node ℝ), x ≤ w → y ≤ h → nodeNo w x y ∈ L.band →
    L.mesh.nodes[nodeNo w x y]? = some nd → 0 < nd.nBoundaryPoints → nodalGradient w h (level w L false) (x, y) ≠ ⟨0, 0⟩) : Steep L := by
  intro i node nd gx gy hi hb hnd hpos ex ey
  have G := C.grid
  have hmem : node ∈ L.band := List.mem_of_getElem? (i := i) (by
    unfold LevelSet.band
    rw [List.getElem?_take, if_pos hi, hb])
  have hn : node < L.mesh.nNodes := by
    have := (List.getElem?_eq_some_iff.1 hnd).1
    rw [G.nodes_length] at this
    rw [G.nNodes]
    exact this
  obtain ⟨x, y, hx, hy, rfl⟩ := G.node_index hn
  have hc : nd.coord = ⟨(x : ℝ), (y : ℝ)⟩ := by
    have := G.coord x y nd hx hy hnd
    rw [this]
    simp [FP.nat_real]
  have hw1 := G.w_pos
  have hh1 := G.h_pos
  have hsml := C.small
  have hwb : w < 4294967295 := by
    have h1 := G.nNodes
    have : (w + 1) * 1 ≤ (w + 1) * (h + 1) := Nat.mul_le_mul_left _ (by omega)
    omega
  have hhb : h < 4294967295 := by
    have h1 := G.nNodes
    have : 1 * (h + 1) ≤ (w + 1) * (h + 1) := Nat.mul_le_mul_right _ (by omega)
    omega
  have f1 : FP.floor nd.coord.x = x := by rw [hc]; exact Nat.floor_natCast x
  have f2 : FP.floor nd.coord.y = y := by rw [hc]; exact Nat.floor_natCast y
  rw [f1, f2, G.width, lineDiff_eq (g := fun k => level w L false k y) hw1 hwb (fun k hk => LevelSet.sdAt_eq C.toWF hk hy) hx] at ex
  rw [f1, f2, G.height, lineDiff_eq (g := fun k => level w L false x k) hh1 hhb (fun k hk => LevelSet.sdAt_eq C.toWF hx hk) hy] at ey
  cases ex
  cases ey
  have := hs x y nd hx hy hmem hnd hpos
  by_contra hne
  push Not at hne
  refine this ?_
  unfold nodalGradient
  dsimp only
  rw [hne.1, hne.2]

end Boundary

end Slsm
