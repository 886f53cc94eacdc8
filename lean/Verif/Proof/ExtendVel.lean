import Verif.Proof.ExtendLS

/-! # Calculation in larger number systems: velocities and gradients -/

namespace Slsm

open LevelSet (map_bind' bind_map' rd_map' forN_map)

variable {E : Type} [FP E] {g : ℝ → E}

theorem wp_rd' {α : Type} {v : List α} {i : Nat} {Q : α → Prop} (h : ∀ a, v[i]? = some a → Q a) : wp (rd v i) Q (fun _ => True) := by
  cases e : rd v i with
  | error _ => trivial
  | ok a => exact h a (rd_eq_ok.1 e)

theorem wp_wr' {α : Type} {v : List α} {i : Nat} {a : α} {Q : List α → Prop} (h : Q (v.set i a)) : wp (wr v i a) Q (fun _ => True) := by
  unfold wr
  split
  · exact h
  · trivial

namespace LevelSet

/-- The weights are not negative, and the velocity is zero where the weight is. -/
def Weighed (weight vel : List ℝ) : Prop := ∀ (i : Nat) (a q : ℝ), vel[i]? = some a → weight[i]? = some q → 0 ≤ q ∧ (q = 0 → a = 0)

theorem Weighed.set {w v : List ℝ} (h : Weighed w v) (i : Nat) {a q : ℝ} (hq : 0 < q) : Weighed (w.set i q) (v.set i a) := by
  intro k b r hb hr
  rw [List.getElem?_set] at hb hr
  by_cases e : i = k
  · rw [if_pos e] at hb hr
    split at hr
    · cases hr
      exact ⟨hq.le, fun h0 => absurd h0 hq.ne'⟩
    · cases hr
  · rw [if_neg e] at hb hr
    exact h k b r hb hr

theorem Weighed.setVel {w v : List ℝ} (h : Weighed w v) (i : Nat) {a : ℝ} (hw : ∀ q, w[i]? = some q → q ≠ 0) : Weighed w (v.set i a) := by
  intro k b r hb hr
  by_cases e : i = k
  · subst e
    by_cases hl : i < v.length
    · exact ⟨(h i _ r (List.getElem?_eq_getElem hl) hr).1, fun h0 => absurd h0 (hw r hr)⟩
    · rw [List.getElem?_eq_none (by rw [List.length_set]; omega)] at hb
      cases hb
  · rw [List.getElem?_set, if_neg e] at hb
    exact h k b r hb hr

/-- The arrays of the velocities with other numbers. -/
def mapVel (g : ℝ → E) (s : List Bool × List ℝ × List ℝ) : List Bool × List E × List E := (s.1, s.2.1.map g, s.2.2.map g)

theorem tol_pos : (0 : ℝ) < FP.lit 1 1000000 := by simp [FP.lit]

theorem deposit_weighed (node : Nat) (v r : ℝ) {s : List Bool × List ℝ × List ℝ} (h : Weighed s.2.1 s.2.2) :
    wp (deposit node v r s) (fun t => Weighed t.2.1 t.2.2) (fun _ => True) := by
  obtain ⟨b, w, u⟩ := s
  unfold deposit
  refine wp_ite (fun _ => ?_) (fun hr => ?_)
  · rw [wp_bind]; refine wp_wr' ?_
    rw [wp_bind]; refine wp_wr' ?_
    rw [wp_bind]; refine wp_wr' ?_
    exact h.set node (by rw [FP.nat_real]; norm_num)
  · have hp : 0 < r := by
      rw [FP.lt_real, not_lt] at hr
      exact lt_of_lt_of_le tol_pos hr
    rw [wp_bind]; refine wp_rd' fun st _ => ?_
    refine wp_ite (fun _ => h) (fun _ => ?_)
    rw [wp_bind]; refine wp_rd' fun a ha => ?_
    rw [wp_bind]; refine wp_wr' ?_
    rw [wp_bind]; refine wp_rd' fun q hq => ?_
    rw [wp_bind]; refine wp_wr' ?_
    refine h.set node ?_
    have := (h node a q ha hq).1
    have h1 : 0 < 1 / r := by positivity
    show 0 < q + (FP.nat 1 : ℝ) / r
    rw [FP.nat_real, Nat.cast_one]
    linarith

theorem depositPoint_weighed (m : Mesh ℝ) (p : BoundaryPoint ℝ) {s : List Bool × List ℝ × List ℝ} (h : Weighed s.2.1 s.2.2) :
    wp (depositPoint m p s) (fun t => Weighed t.2.1 t.2.2) (fun _ => True) := by
  unfold depositPoint
  rw [wp_bind]; refine wp_any _ fun node => ?_
  rw [wp_bind]; refine wp_rd' fun nd _ => ?_
  rw [wp_bind]; refine wp_imp (deposit_weighed node _ _ h) fun t ht => ?_
  refine wp_imp (wp_forN (fun _ t => Weighed t.2.1 t.2.2) ht (fun j t _ ht => ?_)) fun t ht => ht
  unfold depositNbr
  rw [wp_bind]; refine wp_any _ fun nb => ?_
  refine wp_ite (fun _ => ?_) (fun _ => ht)
  rw [wp_bind]; refine wp_rd' fun nd _ => ?_
  exact wp_ite (fun _ => deposit_weighed nb _ _ ht) (fun _ => ht)

variable (H : Extends g)

include H

theorem map_deposit (node : Nat) (v r : ℝ) (s : List Bool × List ℝ × List ℝ) :
    deposit node (g v) (g r) (mapVel g s) = (deposit node v r s).map (mapVel g) := by
  obtain ⟨b, w, u⟩ := s
  unfold deposit mapVel
  dsimp only
  rw [H.lit (by decide), H.lt_eq, map_ite']
  by_cases hr : FP.lt r (FP.lit 1 1000000 : ℝ) = true
  · rw [if_pos hr, if_pos hr, wr_map', bind_map', map_bind']
    refine bind_congr fun u => ?_
    rw [H.nat', wr_map', bind_map', map_bind']
    refine bind_congr fun w => ?_
    rw [map_bind']
    rfl
  · rw [if_neg hr, if_neg hr]
    have hp : r ≠ 0 := by
      rw [FP.lt_real, not_lt] at hr
      exact (lt_of_lt_of_le tol_pos hr).ne'
    rw [map_bind']
    refine bind_congr fun st => ?_
    rw [map_ite']
    refine if_congr Iff.rfl rfl ?_
    rw [rd_map', bind_map', map_bind']
    refine bind_congr fun a => ?_
    rw [H.div' _ _ hp, H.add', wr_map', bind_map', map_bind']
    refine bind_congr fun u => ?_
    rw [rd_map', bind_map', map_bind']
    refine bind_congr fun q => ?_
    rw [H.nat', H.div' _ _ hp, H.add', wr_map', bind_map', map_bind']
    rfl

theorem map_sqDist (a b : Coord ℝ) : sqDist (a.map g) (b.map g) = g (sqDist a b) := by
  unfold sqDist
  dsimp only [Coord.map]
  simp only [H.sub', H.mul', H.add']

theorem map_depositNbr (m : Mesh ℝ) (node : Nat) (p : BoundaryPoint ℝ) (j : Nat) (s : List Bool × List ℝ × List ℝ) :
    depositNbr (m.map g) node (p.map g) j (mapVel g s) = (depositNbr m node p j s).map (mapVel g) := by
  unfold depositNbr
  rw [map_nbr, map_bind']
  refine bind_congr fun nb => ?_
  rw [map_ite']
  refine if_congr Iff.rfl ?_ rfl
  rw [Mesh.map_nodes, rd_map', bind_map', map_bind']
  refine bind_congr fun nd => ?_
  show (if (FP.lt (sqDist (nd.coord.map g) (p.coord.map g)) _ || FP.le (sqDist (nd.coord.map g) (p.coord.map g)) _) = true then
    deposit nb (g p.velocity) (sqDist (nd.coord.map g) (p.coord.map g)) (mapVel g s) else _) = _
  rw [map_sqDist H, H.lit (by decide), H.nat', H.lt_eq, H.le_eq, map_deposit H, map_ite']
  rfl

theorem map_depositPoint (m : Mesh ℝ) (p : BoundaryPoint ℝ) (s : List Bool × List ℝ × List ℝ) :
    depositPoint (m.map g) (p.map g) (mapVel g s) = (depositPoint m p s).map (mapVel g) := by
  unfold depositPoint
  show ((m.map g).getClosestNode (p.coord.map g) >>= _) = _
  rw [Mesh.map_getClosestNode H, map_bind']
  refine bind_congr fun node => ?_
  rw [Mesh.map_nodes, rd_map', bind_map', map_bind']
  refine bind_congr fun nd => ?_
  show (deposit node (g p.velocity) (sqDist (nd.coord.map g) (p.coord.map g)) (mapVel g s) >>= _) = _
  rw [map_sqDist H, map_deposit H, bind_map', map_bind']
  refine bind_congr fun s => ?_
  exact forN_map (mapVel g) 4 (fun j s _ => map_depositNbr H m node p j s) s

theorem map_normaliseNode (nb : List Nat) {w v : List ℝ} (i : Nat) (h : Weighed w v) :
    normaliseNode nb (w.map g) i (v.map g) = (normaliseNode nb w i v).map (List.map g) ∧ ∀ t, normaliseNode nb w i v = .ok t → Weighed w t := by
  unfold normaliseNode
  cases e : rd nb i with
  | error _ => exact ⟨rfl, fun t ht => by cases ht⟩
  | ok node =>
    rw [ok_bind', ok_bind', rd_map']
    cases e1 : rd v node with
    | error _ => exact ⟨rfl, fun t ht => by cases ht⟩
    | ok a =>
      rw [map_ok', ok_bind', ok_bind', H.nat', H.eq_eq]
      by_cases ha : FP.eq a (FP.nat 0 : ℝ) = true
      · rw [if_pos ha, if_pos ha]
        exact ⟨rfl, fun t ht => by cases ht; exact h⟩
      · rw [if_neg ha, if_neg ha, rd_map']
        cases e2 : rd w node with
        | error _ => exact ⟨rfl, fun t ht => by cases ht⟩
        | ok q =>
          rw [map_ok', ok_bind', ok_bind']
          rw [rd_eq_ok] at e1 e2
          have hq : q ≠ 0 := fun h0 => ha (by rw [FP.eq_real, FP.nat_real, Nat.cast_zero]; exact (h node a q e1 e2).2 h0)
          rw [H.div' _ _ hq, wr_map']
          refine ⟨rfl, of_wp (wp_wr' (h.setVel node fun r hr => ?_))⟩
          rw [e2] at hr
          cases hr
          exact hq

theorem map_initialiseVelocities (pts : List (BoundaryPoint ℝ)) (L : LevelSet ℝ) :
    initialiseVelocities (pts.map (BoundaryPoint.map g)) (L.map g) = (initialiseVelocities pts L).map (LevelSet.map g) := by
  unfold initialiseVelocities
  dsimp only
  have e0 := forN_map (List.map g) (f := fun i (v : List ℝ) => wr v i (FP.nat 0)) (g := fun i (v : List E) => wr v i (FP.nat 0)) L.mesh.nNodes
    (fun i v _ => by rw [H.nat', wr_map']) L.velocity
  refine (congrArg (· >>= _) e0).trans ?_
  have hz : ∀ v, forN L.mesh.nNodes L.velocity (fun i (v : List ℝ) => wr v i (FP.nat 0)) = .ok v →
      Weighed (List.replicate L.mesh.nNodes (FP.nat 0)) v := by
    refine of_wp ?_
    refine wp_imp (wp_forN (fun k v => ∀ i, i < k → ∀ a, v[i]? = some a → a = 0) (fun i hi => absurd hi (Nat.not_lt_zero i)) (fun k v _ hv => ?_)) fun v hv => ?_
    · refine wp_wr' fun i hi a ha => ?_
      rw [List.getElem?_set] at ha
      split at ha
      · split at ha
        · cases ha
          rw [FP.nat_real, Nat.cast_zero]
        · cases ha
      · exact hv i (by omega) a ha
    · intro i a q ha hq
      rw [List.getElem?_replicate] at hq
      split at hq
      · next hi =>
        cases hq
        refine ⟨by rw [FP.nat_real]; exact Nat.cast_nonneg _, fun _ => hv i hi a ha⟩
      · cases hq
  cases ev : forN L.mesh.nNodes L.velocity (fun i (v : List ℝ) => wr v i (FP.nat 0)) with
  | error _ => rfl
  | ok vel =>
    rw [map_ok', ok_bind', ok_bind', List.length_map]
    have hw := hz vel ev
    have e1 := forN_map_inv (mapVel g) (fun s => Weighed s.2.1 s.2.2) (f := fun i s => rd pts i >>= fun p => depositPoint L.mesh p s)
      (f' := fun i s => rd (pts.map (BoundaryPoint.map g)) i >>= fun p => depositPoint (L.map g).mesh p s) pts.length
      (s := (List.replicate L.mesh.nNodes false, List.replicate L.mesh.nNodes (FP.nat 0), vel)) hw
      (fun i s _ hs => by
        rw [rd_map', bind_map', map_bind']
        refine ⟨bind_congr fun p => map_depositPoint H L.mesh p s, of_wp ?_⟩
        rw [wp_bind]
        exact wp_rd' fun p _ => depositPoint_weighed L.mesh p hs)
    have es : ((List.replicate (L.map g).mesh.nNodes false, List.replicate (L.map g).mesh.nNodes (FP.nat 0), vel.map g) : List Bool × List E × List E) =
        mapVel g (List.replicate L.mesh.nNodes false, List.replicate L.mesh.nNodes (FP.nat 0), vel) := by
      unfold mapVel
      rw [List.map_replicate, ← H.nat']
      rfl
    rw [es, e1.1]
    have e2 := e1.2
    cases ed : forN pts.length (List.replicate L.mesh.nNodes false, List.replicate L.mesh.nNodes (FP.nat 0), vel)
        (fun i s => rd pts i >>= fun p => depositPoint L.mesh p s) with
    | error _ => rfl
    | ok s =>
      have hs := e2 s ed
      obtain ⟨b, w, u⟩ := s
      rw [map_ok', ok_bind', ok_bind', map_bind']
      have e3 := (forN_map_inv (List.map g) (Weighed w) (f := normaliseNode L.narrowBand w) (f' := normaliseNode L.narrowBand (w.map g)) L.nNarrowBand hs
        (fun i v _ hv => map_normaliseNode H L.narrowBand i hv)).1
      refine (congrArg (· >>= _) e3).trans ?_
      rw [bind_map']
      rfl

theorem map_computeVelocities (pts : List (BoundaryPoint ℝ)) (L : LevelSet ℝ) :
    computeVelocities (pts.map (BoundaryPoint.map g)) (L.map g) = (computeVelocities pts L).map (LevelSet.map g) := by
  unfold computeVelocities
  rw [map_initialiseVelocities H, bind_map', map_bind']
  refine bind_congr fun L => ?_
  show (FMM.marchVelocity (L.mesh.map g) (L.signedDistance.map g) (L.velocity.map g) (FMM.new (L.mesh.map g) false) >>= _) = _
  rw [FMM.map_new H, FMM.map_marchVelocity H, bind_map', map_bind']
  rfl

/-! ## Gradients -/

theorem map_gradHJWENO (v1 v2 v3 v4 v5 : ℝ) : gradHJWENO (g v1) (g v2) (g v3) (g v4) (g v5) = g (gradHJWENO v1 v2 v3 v4 v5) := by
  have n4 : (FP.nat 4 : ℝ) ≠ 0 := by rw [FP.nat_real]; norm_num
  have n12 : (FP.nat 12 : ℝ) ≠ 0 := by rw [FP.nat_real]; norm_num
  have n6 : (FP.nat 6 : ℝ) ≠ 0 := by rw [FP.nat_real]; norm_num
  have sq : ∀ a b x y : ℝ, 0 ≤ a → 0 ≤ b → 0 < FP.add (FP.add (FP.mul (FP.mul a x) x) (FP.mul (FP.mul b y) y)) (FP.lit 1 1000000 : ℝ) := by
    intro a b x y ha hb
    have h1 : 0 ≤ a * x * x := by rw [mul_assoc]; exact mul_nonneg ha (mul_self_nonneg x)
    have h2 : 0 ≤ b * y * y := by rw [mul_assoc]; exact mul_nonneg hb (mul_self_nonneg y)
    have := tol_pos
    simp only [FP.add_real, FP.mul_real]
    linarith
  have q4 : (0 : ℝ) ≤ FP.div (FP.nat 1) (FP.nat 4) := by simp only [FP.div_real, FP.nat_real]; positivity
  have q12 : (0 : ℝ) ≤ FP.div (FP.nat 13) (FP.nat 12) := by simp only [FP.div_real, FP.nat_real]; positivity
  unfold gradHJWENO
  dsimp only
  simp only [H.nat', H.lit (show (1000000 : Nat) ≠ 0 by decide), H.lit (show (10 : Nat) ≠ 0 by decide), H.sub', H.mul', H.add',
    H.div' _ _ n4, H.div' _ _ n12, H.div' _ _ n6]
  have p1 := sq _ _ (FP.add (FP.sub v1 (FP.mul (FP.nat 2) v2)) v3) (FP.add (FP.sub v1 (FP.mul (FP.nat 4) v2)) (FP.mul (FP.nat 3) v3)) q12 q4
  have p2 := sq _ _ (FP.add (FP.sub v2 (FP.mul (FP.nat 2) v3)) v4) (FP.sub v2 v4) q12 q4
  have p3 := sq _ _ (FP.add (FP.sub v3 (FP.mul (FP.nat 2) v4)) v5) (FP.add (FP.sub (FP.mul (FP.nat 3) v3) (FP.mul (FP.nat 4) v4)) v5) q12 q4
  revert p1 p2 p3
  generalize FP.add (FP.add (FP.mul (FP.mul (FP.div (FP.nat 13) (FP.nat 12)) _) _) _) (FP.lit 1 1000000 : ℝ) = a1
  generalize FP.add (FP.add (FP.mul (FP.mul (FP.div (FP.nat 13) (FP.nat 12)) _) _) _) (FP.lit 1 1000000 : ℝ) = a2
  generalize FP.add (FP.add (FP.mul (FP.mul (FP.div (FP.nat 13) (FP.nat 12)) _) _) _) (FP.lit 1 1000000 : ℝ) = a3
  intro p1 p2 p3
  rw [H.div' _ (FP.mul a1 a1) (mul_pos p1 p1).ne', H.div' _ (FP.mul a2 a2) (mul_pos p2 p2).ne', H.div' _ (FP.mul a3 a3) (mul_pos p3 p3).ne']
  simp only [H.add']
  have ht : (0 : ℝ) < FP.add (FP.add (FP.div (FP.lit 1 10) (FP.mul a1 a1)) (FP.div (FP.lit 6 10) (FP.mul a2 a2))) (FP.div (FP.lit 3 10) (FP.mul a3 a3)) := by
    simp only [FP.add_real, FP.div_real, FP.mul_real, FP.lit, FP.nat_real]
    positivity
  simp only [H.div' _ _ ht.ne', H.mul', H.add']

omit H in
theorem map_sdAt (L : LevelSet ℝ) (x y : Nat) : sdAt (L.map g) x y = (sdAt L x y).map g := by
  unfold sdAt
  rw [map_bind']
  refine bind_congr fun col => ?_
  rw [map_bind']
  exact bind_congr fun i => rd_map' g L.signedDistance i

theorem map_diff {r : Nat → Res ℝ} {r' : Nat → Res E} (h : ∀ k, r' k = (r k).map g) (i j : Nat) : diff r' i j = (diff r i j).map g := by
  unfold diff
  rw [h, bind_map', map_bind']
  refine bind_congr fun a => ?_
  rw [h, bind_map', map_bind']
  refine bind_congr fun b => ?_
  rw [H.sub']
  rfl

theorem map_derivForward {r : Nat → Res ℝ} {r' : Nat → Res E} (h : ∀ k, r' k = (r k).map g) (n x : Nat) :
    derivForward r' n x = (derivForward r n x).map g := by
  unfold derivForward
  simp only [map_diff H h, bind_map', map_gradHJWENO H, map_ite', map_bind']
  rfl

theorem map_derivBackward {r : Nat → Res ℝ} {r' : Nat → Res E} (h : ∀ k, r' k = (r k).map g) (n x : Nat) :
    derivBackward r' n x = (derivBackward r n x).map g := by
  unfold derivBackward
  simp only [map_diff H h, bind_map', map_gradHJWENO H, map_ite', map_bind']
  rfl

theorem map_cornerGradient (L : LevelSet ℝ) (lsf : ℝ) (x y x2 y2 : Nat) :
    cornerGradient (L.map g) (g lsf) x y x2 y2 = (cornerGradient L lsf x y x2 y2).map (Option.map g) := by
  unfold cornerGradient
  rw [map_sdAt, bind_map', map_bind']
  refine bind_congr fun a => ?_
  rw [H.lit (by decide), H.sub', H.abs', H.lt_eq, map_ite']
  refine if_congr Iff.rfl ?_ rfl
  rw [map_sdAt, bind_map', map_bind']
  refine bind_congr fun b => ?_
  rw [H.sub', H.abs', H.lt_eq, map_ite']
  refine if_congr Iff.rfl ?_ rfl
  rw [map_sdAt, bind_map', map_bind']
  refine bind_congr fun c => ?_
  rw [H.sub', H.abs', H.nat', H.sqrt' _ (by rw [FP.nat_real]; exact Nat.cast_nonneg _), H.mul']
  rfl

theorem map_cornerCase (L : LevelSet ℝ) (lsf : ℝ) (x y : Nat) : cornerCase (L.map g) (g lsf) x y = (cornerCase L lsf x y).map (Option.map g) := by
  unfold cornerCase
  simp only [map_cornerGradient H, map_ite']
  rfl

theorem map_upwindNorm (a b c d : ℝ) : upwindNorm (g a) (g b) (g c) (g d) = g (upwindNorm a b c d) := by
  unfold upwindNorm
  dsimp only
  simp only [H.nat', H.lt_eq, H.mul', H.add']
  have key : ∀ (t : Bool) (x y : ℝ), (if t = true then g x else g y) = g (if t = true then x else y) := fun t x y => by split <;> rfl
  have hn : ∀ (t : Bool) (x y : ℝ), 0 ≤ x → (0 : ℝ) ≤ if t = true then FP.add x (FP.mul y y) else x := fun t x y h => by
    split
    · exact add_nonneg h (mul_self_nonneg y)
    · exact h
  simp only [key, H.add']
  rw [H.sqrt']
  exact hn _ _ _ (hn _ _ _ (hn _ _ _ (hn _ _ _ (by rw [FP.nat_real]; exact Nat.cast_nonneg _))))

theorem map_computeGradient (L : LevelSet ℝ) (node : Nat) : computeGradient (L.map g) node = (computeGradient L node).map g := by
  unfold computeGradient
  rw [map_bind']
  refine (congrArg (· >>= _) (rd_map' (Node.map g) L.mesh.nodes node)).trans ?_
  rw [bind_map']
  refine bind_congr fun nd => ?_
  dsimp only [Node.map, Coord.map]
  rw [H.floor_eq, H.floor_eq, map_bind']
  refine (congrArg (· >>= _) (rd_map' g L.signedDistance node)).trans ?_
  rw [bind_map']
  refine bind_congr fun lsf => ?_
  rw [map_cornerCase H, bind_map', map_bind']
  refine bind_congr fun co => ?_
  cases co with
  | some c => rfl
  | none =>
    dsimp only [Option.map]
    rw [map_bind']
    refine (congrArg (· >>= _) (rd_map' g L.velocity node)).trans ?_
    rw [bind_map']
    refine bind_congr fun v => ?_
    rw [map_derivForward H (fun k => map_sdAt L k _), bind_map', map_bind']
    refine bind_congr fun r => ?_
    rw [map_derivBackward H (fun k => map_sdAt L k _), bind_map', map_bind']
    refine bind_congr fun l => ?_
    rw [map_derivForward H (fun k => map_sdAt L _ k), bind_map', map_bind']
    refine bind_congr fun u => ?_
    rw [map_derivBackward H (fun k => map_sdAt L _ k), bind_map', map_bind']
    refine bind_congr fun d => ?_
    have key : ∀ (t : Bool) (x y : ℝ), (if t = true then g x else g y) = g (if t = true then x else y) := fun t x y => by split <;> rfl
    simp only [H.nat', H.neg', H.lt_eq, key, H.mul', map_upwindNorm H]
    rfl

theorem map_computeGradients (L : LevelSet ℝ) : computeGradients (L.map g) = (computeGradients L).map (LevelSet.map g) := by
  unfold computeGradients
  rw [map_bind']
  have e0 : (List.replicate (L.map g).gradient.length (FP.nat 0) : List E) = (List.replicate L.gradient.length (FP.nat 0)).map g := by
    rw [List.map_replicate, ← H.nat']
    exact congrArg (List.replicate · _) (List.length_map g)
  rw [e0]
  refine (congrArg (· >>= _) (forN_map (List.map g) (f := fun i l => rd L.narrowBand i >>= fun node => computeGradient L node >>= fun v => wr l node v)
    L.nNarrowBand (fun i l _ => ?_) _)).trans ?_
  · rw [map_bind']
    refine bind_congr fun node => ?_
    rw [map_computeGradient H, bind_map', map_bind']
    exact bind_congr fun v => wr_map' g l node v
  · rw [bind_map']
    rfl

end LevelSet

end Slsm
