import Verif.Proof.ExtendFMM

/-! # Calculation in larger number systems: the level set -/

namespace Slsm

open LevelSet (map_bind' bind_map' rd_map' forN_map)

variable {E : Type} [FP E] {g : ℝ → E}

section
omit [FP E]

theorem Mesh.map_nodes (m : Mesh ℝ) : (m.map g).nodes = m.nodes.map (Node.map g) := rfl

theorem Mesh.map_elements (m : Mesh ℝ) : (m.map g).elements = m.elements.map (Element.map g) := rfl

end

variable (H : Extends g)

include H

/-! ## The mesh -/

theorem Mesh.map_initialiseNode (i : Nat) (m : Mesh ℝ) : Mesh.initialiseNode i (m.map g) = (Mesh.initialiseNode i m).map (Mesh.map g) := by
  unfold Mesh.initialiseNode
  dsimp only
  generalize ex : i % u32 (m.width + 1) = x
  generalize ey : i / u32 (m.width + 1) = y
  have ex' : i % u32 ((m.map g).width + 1) = x := ex
  have ey' : i / u32 ((m.map g).width + 1) = y := ey
  rw [ex', ey']
  rw [Mesh.map_nodes, modAt_map' (Node.map g) (f := fun nd => Mesh.neighboursOf m.width m.height m.nNodes nd.neighbours x y >>= fun nb => pure { nd with
        isDomain := x == 0 || x == m.width || y == 0 || y == m.height
        isMasked := false
        nElements := 0
        nBoundaryPoints := 0
        coord := ⟨FP.nat x, FP.nat y⟩
        neighbours := nb })]
  · rw [bind_map', map_bind']
    refine bind_congr fun nodes => ?_
    rw [map_bind']
    rfl
  · intro nd
    rw [map_bind']
    refine bind_congr fun nb => ?_
    rw [H.nat', H.nat']
    rfl

theorem Mesh.map_initialiseElement (i : Nat) (m : Mesh ℝ) : Mesh.initialiseElement i (m.map g) = (Mesh.initialiseElement i m).map (Mesh.map g) := by
  unfold Mesh.initialiseElement
  dsimp only
  rw [Mesh.map_elements, rd_map', bind_map', map_bind']
  refine bind_congr fun el => ?_
  rw [map_bind']
  refine bind_congr fun nd => ?_
  rw [map_bind']
  refine bind_congr fun nd => ?_
  rw [map_bind']
  refine bind_congr fun nd => ?_
  rw [map_bind']
  refine bind_congr fun nd => ?_
  rw [H.nat', H.nat', H.lit (by decide), H.add', H.add', map_bind']
  refine (congrArg (· >>= _) (wr_map' (Element.map g) m.elements i { el with coord := ⟨_, _⟩, nodes := nd })).trans ?_
  rw [bind_map']
  refine bind_congr fun els => ?_
  rw [map_bind']
  refine (congrArg (· >>= _) (forN_map (List.map (Node.map g)) (f := fun j nodes => rd nd j >>= fun node => modAt nodes node fun n =>
    wr n.elements n.nElements i >>= fun es => pure { n with elements := es, nElements := n.nElements + 1 }) 4 (fun j nodes _ => ?_) m.nodes)).trans ?_
  · rw [map_bind']
    refine bind_congr fun k => ?_
    refine modAt_map' (Node.map g) (fun n => ?_) nodes k
    rw [map_bind']
    rfl
  · rw [bind_map']
    rfl

theorem Mesh.map_new (w h : Nat) : (Mesh.new w h : Res (Mesh E)) = (Mesh.new w h : Res (Mesh ℝ)).map (Mesh.map g) := by
  unfold Mesh.new Mesh.initialiseNodes Mesh.initialiseElements
  dsimp only
  rw [map_bind']
  have e0 : (Element.new : Element E) = (Element.new : Element ℝ).map g := by
    unfold Element.new; rw [H.nat']; rfl
  have n0 : (Node.new : Node E) = (Node.new : Node ℝ).map g := by
    unfold Node.new; rw [H.nat']; rfl
  have m0 : ({
        width := w
        height := h
        nElements := u32 (w * h)
        nNodes := u32 (u32 (1 + w) * u32 (1 + h))
        elements := List.replicate (u32 (w * h)) Element.new
        nodes := List.replicate (u32 (u32 (1 + w) * u32 (1 + h))) Node.new
        xyToIndex := List.replicate (u32 (w + 1)) (List.replicate (u32 (h + 1)) 0) } : Mesh E) = Mesh.map g {
        width := w
        height := h
        nElements := u32 (w * h)
        nNodes := u32 (u32 (1 + w) * u32 (1 + h))
        elements := List.replicate (u32 (w * h)) Element.new
        nodes := List.replicate (u32 (u32 (1 + w) * u32 (1 + h))) Node.new
        xyToIndex := List.replicate (u32 (w + 1)) (List.replicate (u32 (h + 1)) 0) } := by
    rw [e0, n0, ← List.map_replicate (f := Element.map g), ← List.map_replicate (f := Node.map g)]
    rfl
  rw [m0]
  refine (congrArg (· >>= _) (forN_map (Mesh.map g) _ (fun i m _ => Mesh.map_initialiseNode H i m) _)).trans ?_
  rw [bind_map']
  refine bind_congr fun m => ?_
  exact forN_map (Mesh.map g) _ (fun i m _ => Mesh.map_initialiseElement H i m) m

theorem Mesh.map_getElement (m : Mesh ℝ) (p : Coord ℝ) : (m.map g).getElement (p.map g) = m.getElement p := by
  unfold Mesh.getElement
  dsimp only [Coord.map]
  rw [H.lit (by decide), H.sub', H.sub', H.nat', H.lt_eq, H.lt_eq]
  have : ∀ (b : Bool) (x y : ℝ), (if b = true then g x else g y) = g (if b = true then x else y) := fun b x y => by split <;> rfl
  rw [this, this, H.floor_eq, H.floor_eq]
  rfl

theorem Mesh.map_getClosestNode (m : Mesh ℝ) (p : Coord ℝ) : (m.map g).getClosestNode (p.map g) = m.getClosestNode p := by
  unfold Mesh.getClosestNode
  rw [Mesh.map_getElement H, Mesh.map_elements, rd_map', bind_map']
  refine bind_congr fun el => ?_
  dsimp only [Coord.map, Element.map]
  rw [H.sub', H.sub', H.nat', H.lt_eq, H.lt_eq]

namespace LevelSet

/-! ## Narrow band -/

omit H in
theorem map_addMine (i : Nat) (L : LevelSet ℝ) : addMine i (L.map g) = (addMine i L).map (LevelSet.map g) := by
  unfold addMine
  refine (congrArg (· >>= _) (modAt_map' (Node.map g) (f := fun nd => pure { nd with isMine := true }) (fun nd => rfl) L.mesh.nodes i)).trans ?_
  rw [bind_map', map_bind']
  refine bind_congr fun nodes => ?_
  rw [map_bind']
  rfl

theorem map_addBand (i : Nat) (s : ℝ) (L : LevelSet ℝ) : addBand i (g s) (L.map g) = (addBand i s L).map (LevelSet.map g) := by
  unfold addBand
  refine (congrArg (· >>= _) (modAt_map' (Node.map g) (f := fun nd => pure { nd with isActive := true }) (fun nd => rfl) L.mesh.nodes i)).trans ?_
  rw [bind_map', map_bind']
  refine bind_congr fun nodes => ?_
  rw [map_bind']
  refine bind_congr fun nb => ?_
  dsimp only
  rw [map_ite', H.nat', H.lt_eq, ← map_addMine]
  rfl

theorem map_bandNode (i : Nat) (L : LevelSet ℝ) : bandNode i (L.map g) = (bandNode i L).map (LevelSet.map g) := by
  unfold bandNode
  refine (congrArg (· >>= _) (modAt_map' (Node.map g) (f := fun nd => pure { nd with isActive := false }) (fun nd => rfl) L.mesh.nodes i)).trans ?_
  rw [bind_map', map_bind']
  refine bind_congr fun nodes => ?_
  rw [map_bind']
  refine (congrArg (· >>= _) (rd_map' (Node.map g) nodes i)).trans ?_
  rw [bind_map']
  refine bind_congr fun nd => ?_
  rw [map_ite']
  refine if_congr Iff.rfl ?_ rfl
  rw [map_bind']
  refine (congrArg (· >>= _) (rd_map' g L.signedDistance i)).trans ?_
  rw [bind_map']
  refine bind_congr fun v => ?_
  rw [H.abs', H.nat', H.lt_eq, map_ite', ← map_addBand H]
  rfl

theorem map_initialiseNarrowBand (L : LevelSet ℝ) : initialiseNarrowBand (L.map g) = (initialiseNarrowBand L).map (LevelSet.map g) :=
  forN_map (LevelSet.map g) _ (fun i L _ => map_bandNode H i L) { L with nNarrowBand := 0, nMines := 0 }

theorem map_reinitialise (L : LevelSet ℝ) : reinitialise (L.map g) = (reinitialise L).map (LevelSet.map g) := by
  unfold reinitialise
  show (FMM.marchDistance (L.mesh.map g) (L.signedDistance.map g) (FMM.new (L.mesh.map g) false) >>= _) = _
  rw [FMM.map_new H, FMM.map_marchDistance H, bind_map', map_bind']
  exact bind_congr fun F => map_initialiseNarrowBand H { L with signedDistance := F.sd }

/-! ## Initial shapes -/

theorem map_closestDomainBoundary (L : LevelSet ℝ) : closestDomainBoundary (L.map g) = (closestDomainBoundary L).map (LevelSet.map g) := by
  unfold closestDomainBoundary
  refine (congrArg (· >>= _) (forN_map (List.map g) (f := fun i sd => rd L.mesh.nodes i >>= fun nd =>
    wr sd i (FP.nat (Nat.min (FP.floor (FP.min nd.coord.x (FP.sub (FP.nat L.mesh.width) nd.coord.x)))
      (FP.floor (FP.min nd.coord.y (FP.sub (FP.nat L.mesh.height) nd.coord.y)))))) L.mesh.nNodes (fun i sd _ => ?_) L.signedDistance)).trans ?_
  · rw [map_bind']
    refine (congrArg (· >>= _) (rd_map' (Node.map g) L.mesh.nodes i)).trans ?_
    rw [bind_map']
    refine bind_congr fun nd => ?_
    dsimp only [Node.map, Coord.map, LevelSet.map, Mesh.map]
    simp only [H.nat', H.sub', H.min', H.floor_eq, wr_map']
  · rw [bind_map', map_bind']
    rfl

theorem map_centreDist (c p : Coord ℝ) : centreDist (c.map g) (p.map g) = g (centreDist c p) := by
  unfold centreDist
  dsimp only [Coord.map]
  rw [H.sub', H.sub', H.mul', H.mul', H.add', H.sqrt']
  exact add_nonneg (mul_self_nonneg _) (mul_self_nonneg _)

theorem map_initialiseHoles (holes : List (Hole ℝ)) (L : LevelSet ℝ) :
    initialiseHoles (holes.map (Hole.map g)) (L.map g) = (initialiseHoles holes L).map (LevelSet.map g) := by
  unfold initialiseHoles
  rw [map_closestDomainBoundary H, bind_map', map_bind']
  refine bind_congr fun L => ?_
  rw [map_bind', List.length_map]
  refine (congrArg (· >>= _) (forN_map (List.map g) (f := fun i sd => forN holes.length sd fun j sd => rd holes j >>= fun hole =>
    rd L.mesh.nodes i >>= fun nd => rd sd i >>= fun v => if FP.lt (FP.sub (centreDist hole.coord nd.coord) hole.r) v = true then
      wr sd i (FP.sub (centreDist hole.coord nd.coord) hole.r) else pure sd) L.mesh.nNodes (fun i sd _ => ?_) L.signedDistance)).trans ?_
  · refine forN_map (List.map g) holes.length (fun j sd _ => ?_) sd
    rw [rd_map', bind_map', map_bind']
    refine bind_congr fun hole => ?_
    rw [map_bind']
    refine (congrArg (· >>= _) (rd_map' (Node.map g) L.mesh.nodes i)).trans ?_
    rw [bind_map']
    refine bind_congr fun nd => ?_
    rw [map_bind', rd_map', bind_map']
    refine bind_congr fun v => ?_
    rw [map_ite']
    show (if FP.lt (FP.sub (centreDist (hole.coord.map g) (nd.coord.map g)) (g hole.r)) (g v) = true then
      wr (sd.map g) i (FP.sub (centreDist (hole.coord.map g) (nd.coord.map g)) (g hole.r)) else _) = _
    rw [map_centreDist H, H.sub', H.lt_eq, wr_map']
    rfl
  · rw [bind_map']
    rfl

theorem map_nCheese (n : Nat) : nCheese (D := E) n = nCheese (D := ℝ) n := by
  unfold nCheese
  rw [H.nat', H.nat', H.lit (by decide), H.div' _ (FP.nat 30) (by rw [FP.nat_real]; norm_num), H.add', H.floor_eq]

theorem map_cheeseHoles (w h nx ny : Nat) (hx : nx ≠ 0) (hy : ny ≠ 0) :
    (cheeseHoles w h nx ny : List (Hole E)) = (cheeseHoles w h nx ny : List (Hole ℝ)).map (Hole.map g) := by
  unfold cheeseHoles
  have h2 : ∀ n : Nat, n ≠ 0 → (FP.nat (2 * n) : ℝ) ≠ 0 := fun n hn => by
    rw [FP.nat_real]; exact_mod_cast (by omega : 2 * n ≠ 0)
  simp only [H.nat', H.div' _ _ (h2 nx hx), H.div' _ _ (h2 ny hy), H.mul', H.add', List.map_append, List.map_map]
  rfl

theorem map_initialiseCheese (L : LevelSet ℝ) : initialiseCheese (L.map g) = (initialiseCheese L).map (LevelSet.map g) := by
  unfold initialiseCheese
  dsimp only
  rw [map_nCheese H, map_nCheese H]
  show (check (decide (2 < nCheese (D := ℝ) L.mesh.width) && decide (2 < nCheese (D := ℝ) L.mesh.height)) >>= fun _ =>
    initialiseHoles (cheeseHoles L.mesh.width L.mesh.height (nCheese (D := ℝ) L.mesh.width) (nCheese (D := ℝ) L.mesh.height)) (L.map g)) = _
  by_cases h : (decide (2 < nCheese (D := ℝ) L.mesh.width) && decide (2 < nCheese (D := ℝ) L.mesh.height)) = true
  · have h' := h
    simp only [Bool.and_eq_true, decide_eq_true_eq] at h'
    rw [map_cheeseHoles H _ _ _ _ (by omega) (by omega), map_initialiseHoles H, map_bind']
  · rw [Bool.not_eq_true] at h
    rw [h]
    rfl

theorem map_pointToLineDistance (a b p : Coord ℝ) : pointToLineDistance (a.map g) (b.map g) (p.map g) = g (pointToLineDistance a b p) := by
  unfold pointToLineDistance
  dsimp only [Coord.map]
  simp only [H.sub', H.mul', H.add', H.lit (show (1000000 : Nat) ≠ 0 by decide), H.lt_eq, H.nat']
  split
  · rw [H.sqrt']
    exact add_nonneg (mul_self_nonneg _) (mul_self_nonneg _)
  · next h =>
    rw [FP.lt_real, not_lt] at h
    rw [H.div' _ _ (ne_of_gt (lt_of_lt_of_le (by simp [FP.lit]) h))]
    simp only [H.min', H.max', H.sub', H.mul', H.add']
    rw [H.sqrt']
    exact add_nonneg (mul_self_nonneg _) (mul_self_nonneg _)

theorem map_windStep (p a b : Coord ℝ) (n : Int) : windStep (p.map g) (a.map g) (b.map g) n = windStep p a b n := by
  unfold windStep isLeftOfLine
  dsimp only [Coord.map]
  simp only [H.le_eq, H.lt_eq, H.sub', H.mul', H.trunc_eq]

theorem map_isInsidePolygon (p : Coord ℝ) (l : List (Coord ℝ)) : isInsidePolygon (p.map g) (l.map (Coord.map g)) = isInsidePolygon p l := by
  unfold isInsidePolygon
  simp only [List.length_map, rd_map', bind_map', map_windStep H]

theorem map_polyNode (m : Mesh ℝ) (l : List (Coord ℝ)) (i : Nat) (sd : List ℝ) :
    polyNode (m.map g) (l.map (Coord.map g)) i (sd.map g) = (polyNode m l i sd).map (List.map g) := by
  unfold polyNode
  rw [map_bind', List.length_map]
  refine (congrArg (· >>= _) (forN_map (List.map g) (f := fun j sd => rd l j >>= fun a => rd l (j + 1) >>= fun b => rd m.nodes i >>= fun nd =>
    rd sd i >>= fun v => if FP.lt (pointToLineDistance a b nd.coord) v = true then wr sd i (pointToLineDistance a b nd.coord) else pure sd)
    (l.length - 1) (fun j sd _ => ?_) sd)).trans ?_
  · rw [rd_map', bind_map', map_bind']
    refine bind_congr fun a => ?_
    rw [rd_map', bind_map', map_bind']
    refine bind_congr fun b => ?_
    rw [Mesh.map_nodes, rd_map', bind_map', map_bind']
    refine bind_congr fun nd => ?_
    rw [rd_map', bind_map', map_bind']
    refine bind_congr fun v => ?_
    show (if FP.lt (pointToLineDistance (a.map g) (b.map g) (nd.coord.map g)) (g v) = true then
      wr (sd.map g) i (pointToLineDistance (a.map g) (b.map g) (nd.coord.map g)) else _) = _
    rw [map_pointToLineDistance H, H.lt_eq, wr_map', map_ite']
    rfl
  · rw [bind_map']
    refine bind_congr fun sd => ?_
    rw [map_bind', Mesh.map_nodes, rd_map', bind_map']
    refine bind_congr fun nd => ?_
    show (isInsidePolygon (nd.coord.map g) _ >>= _) = _
    rw [map_isInsidePolygon H, map_bind']
    refine bind_congr fun b => ?_
    rw [map_ite']
    refine if_congr Iff.rfl ?_ rfl
    rw [rd_map', bind_map', map_bind']
    refine bind_congr fun v => ?_
    rw [H.nat', H.neg', H.mul', wr_map']

theorem map_initialisePoints (l : List (Coord ℝ)) (L : LevelSet ℝ) :
    initialisePoints (l.map (Coord.map g)) (L.map g) = (initialisePoints l L).map (LevelSet.map g) := by
  unfold initialisePoints
  rw [List.length_map, map_ite']
  refine if_congr Iff.rfl rfl ?_
  rw [map_closestDomainBoundary H, bind_map', map_bind']
  refine bind_congr fun L => ?_
  rw [map_bind']
  refine (congrArg (· >>= _) (forN_map (List.map g) L.mesh.nNodes (fun i sd _ => map_polyNode H L.mesh l i sd) L.signedDistance)).trans ?_
  rw [bind_map']
  rfl

theorem map_initialise (s : Shape ℝ) (L : LevelSet ℝ) : initialise (s.map g) (L.map g) = (initialise s L).map (LevelSet.map g) := by
  cases s with
  | cheese => exact map_initialiseCheese H L
  | holes l => exact map_initialiseHoles H l L
  | points l => exact map_initialisePoints H l L

theorem map_base (w h : Nat) (ml : ℝ) (bw : Nat) (fx tg : Bool) : base w h (g ml) bw fx tg = (base w h ml bw fx tg).map (LevelSet.map g) := by
  unfold base
  rw [Mesh.map_new H, bind_map', map_bind']
  refine bind_congr fun m => ?_
  rw [map_bind']
  refine bind_congr fun _ => ?_
  rw [map_bind', H.nat' 0, H.nat' 1, H.lt_eq, H.lt_eq]
  refine bind_congr fun _ => ?_
  dsimp only
  rw [H.lit (by decide), H.nat', H.mul', H.trunc_eq]
  refine congrArg Except.ok ?_
  unfold LevelSet.map
  dsimp only
  rw [List.map_replicate]
  cases tg
  · rfl
  · simp only [if_true, List.map_replicate]
    rfl

theorem map_lsnew (w h : Nat) (s : Shape ℝ) (ml : ℝ) (bw : Nat) (fx : Bool) :
    LevelSet.new w h (s.map g) (g ml) bw fx = (LevelSet.new w h s ml bw fx).map (LevelSet.map g) := by
  unfold LevelSet.new
  rw [map_base H, bind_map', map_bind']
  refine bind_congr fun L => ?_
  rw [map_initialise H, bind_map', map_bind']
  exact bind_congr fun L => map_initialiseNarrowBand H L

theorem map_newTarget (w h : Nat) (s t : Shape ℝ) (ml : ℝ) (bw : Nat) (fx : Bool) :
    LevelSet.newTarget w h (s.map g) (t.map g) (g ml) bw fx = (LevelSet.newTarget w h s t ml bw fx).map (LevelSet.map g) := by
  unfold LevelSet.newTarget
  rw [map_base H, bind_map', map_bind']
  refine bind_congr fun L => ?_
  rw [map_initialise H, bind_map', map_bind']
  refine bind_congr fun L => ?_
  rw [map_reinitialise H, bind_map', map_bind']
  refine bind_congr fun L => ?_
  rw [map_bind']
  refine (congrArg (· >>= _) (map_initialise H s { L with target := L.signedDistance })).trans ?_
  rw [bind_map']
  exact bind_congr fun L => map_initialiseNarrowBand H L

/-! ## Masks and motion -/

theorem map_maskNode (i : Nat) (L : LevelSet ℝ) : maskNode i (L.map g) = (maskNode i L).map (LevelSet.map g) := by
  unfold maskNode
  rw [H.lit (by decide), H.neg', map_bind']
  refine (congrArg (· >>= _) (wr_map' g L.signedDistance i _)).trans ?_
  rw [bind_map']
  refine bind_congr fun sd => ?_
  rw [map_bind']
  refine (congrArg (· >>= _) (modAt_map' (Node.map g) (f := fun nd => pure { nd with isMasked := true }) (fun nd => rfl) L.mesh.nodes i)).trans ?_
  rw [bind_map']
  rfl

theorem map_maskHoles (holes : List (Hole ℝ)) (L : LevelSet ℝ) :
    maskHoles (holes.map (Hole.map g)) (L.map g) = (maskHoles holes L).map (LevelSet.map g) := by
  unfold maskHoles
  rw [map_bind', List.length_map]
  refine (congrArg (· >>= _) (forN_map (LevelSet.map g) (f := fun i L => forN holes.length L fun j L => rd holes j >>= fun hole =>
    rd L.mesh.nodes i >>= fun nd => if FP.lt (centreDist hole.coord nd.coord) hole.r = true then maskNode i L else pure L)
    L.mesh.nNodes (fun i L _ => ?_) L)).trans ?_
  · refine forN_map (LevelSet.map g) holes.length (fun j L _ => ?_) L
    rw [rd_map', bind_map', map_bind']
    refine bind_congr fun hole => ?_
    rw [map_bind']
    refine (congrArg (· >>= _) (rd_map' (Node.map g) L.mesh.nodes i)).trans ?_
    rw [bind_map']
    refine bind_congr fun nd => ?_
    show (if FP.lt (centreDist (hole.coord.map g) (nd.coord.map g)) (g hole.r) = true then _ else _) = _
    rw [map_centreDist H, H.lt_eq, map_ite', map_maskNode H]
    rfl
  · rw [bind_map']
    exact bind_congr fun L => map_reinitialise H L

theorem map_inRegion (l : List (Coord ℝ)) (p : Coord ℝ) : inRegion (l.map (Coord.map g)) (p.map g) = inRegion l p := by
  match l with
  | [] => exact map_isInsidePolygon H p []
  | [a] => exact map_isInsidePolygon H p [a]
  | [a, b] =>
    refine congrArg Except.ok ?_
    unfold inRectangle
    dsimp only [Coord.map]
    simp only [H.lt_eq]
  | a :: b :: c :: r => exact map_isInsidePolygon H p (a :: b :: c :: r)

theorem map_maskPoints (l : List (Coord ℝ)) (L : LevelSet ℝ) :
    maskPoints (l.map (Coord.map g)) (L.map g) = (maskPoints l L).map (LevelSet.map g) := by
  unfold maskPoints
  rw [map_bind']
  refine (congrArg (· >>= _) (forN_map (LevelSet.map g) (f := fun i L => rd L.mesh.nodes i >>= fun nd => inRegion l nd.coord >>= fun b =>
    if b = true then maskNode i L else pure L) L.mesh.nNodes (fun i L _ => ?_) L)).trans ?_
  · rw [map_bind']
    refine (congrArg (· >>= _) (rd_map' (Node.map g) L.mesh.nodes i)).trans ?_
    rw [bind_map']
    refine bind_congr fun nd => ?_
    show (inRegion _ (nd.coord.map g) >>= _) = _
    rw [map_inRegion H, map_bind']
    refine bind_congr fun b => ?_
    rw [map_maskNode H, map_ite']
    rfl
  · rw [bind_map']
    exact bind_congr fun L => map_reinitialise H L

theorem map_updateBandNode (t : ℝ) (i : Nat) (L : LevelSet ℝ) : updateBandNode (g t) i (L.map g) = (updateBandNode t i L).map (LevelSet.map g) := by
  unfold updateBandNode
  rw [map_bind']
  refine bind_congr fun node => ?_
  rw [map_bind']
  refine (congrArg (· >>= _) (rd_map' g L.signedDistance node)).trans ?_
  rw [bind_map']
  refine bind_congr fun s => ?_
  rw [map_bind']
  refine (congrArg (· >>= _) (rd_map' g L.gradient node)).trans ?_
  rw [bind_map']
  refine bind_congr fun gr => ?_
  rw [map_bind']
  refine (congrArg (· >>= _) (rd_map' g L.velocity node)).trans ?_
  rw [bind_map']
  refine bind_congr fun v => ?_
  dsimp only
  rw [map_bind']
  refine (congrArg (· >>= _) (rd_map' (Node.map g) L.mesh.nodes node)).trans ?_
  rw [bind_map']
  refine bind_congr fun nd => ?_
  rw [H.mul', H.mul', H.sub', H.nat', H.lt_eq]
  have : ∀ (b : Bool) (x y : ℝ), (if b = true then g x else g y) = g (if b = true then x else y) := fun b x y => by split <;> rfl
  rw [this, map_bind']
  refine (congrArg (· >>= _) (wr_map' g L.signedDistance node _)).trans ?_
  rw [bind_map']
  refine bind_congr fun sd => ?_
  rw [map_bind']
  refine (congrArg (· >>= _) (modAt_map' (Node.map g) (f := fun nd => pure { nd with nBoundaryPoints := 0 }) (fun nd => rfl) L.mesh.nodes node)).trans ?_
  rw [bind_map']
  rfl

theorem map_mineHit (L : LevelSet ℝ) : mineHit (L.map g) = mineHit L := by
  unfold mineHit
  dsimp only [LevelSet.map]
  simp only [rd_map', bind_map', H.abs', H.nat', H.lt_eq]

theorem map_update (t : ℝ) (L : LevelSet ℝ) : update (g t) (L.map g) = (update t L).map (Prod.map id (LevelSet.map g)) := by
  unfold update
  rw [map_bind']
  refine (congrArg (· >>= _) (forN_map (LevelSet.map g) L.nNarrowBand (fun i L _ => map_updateBandNode H t i L) L)).trans ?_
  rw [bind_map']
  refine bind_congr fun L => ?_
  rw [map_mineHit H, map_bind']
  refine bind_congr fun hit => ?_
  rw [map_ite', map_reinitialise H, bind_map', map_bind']
  rfl

end LevelSet

end Slsm
