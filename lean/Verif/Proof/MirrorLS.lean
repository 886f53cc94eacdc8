import Verif.Proof.Mirror
import Verif.Proof.Scaling
import Verif.Spec.Mirror
import Verif.Props.LevelSet

/-! # Operations on a level set with inside and outside exchanged -/

namespace Slsm

theorem Both.to_map {α β : Type} {g : α → β} {r : Res α} {r' : Res β} (h : Both (fun a b => b = g a) r r') : r' = r.map g := by
  cases r with
  | ok a =>
    cases r' with
    | ok b => exact congrArg Except.ok h
    | error e => exact h.elim
  | error e =>
    cases r' with
    | ok b => exact h.elim
    | error e' => exact congrArg Except.error (Eq.symm h)

theorem Both.of_map {α β : Type} {g : α → β} {r : Res α} {r' : Res β} (h : r' = r.map g) : Both (fun a b => b = g a) r r' := by
  subst h
  cases r <;> rfl

namespace LevelSet

/-- Distances with the opposite sign, other velocities and gradients. -/
noncomputable def twin (v g : List ℝ) (L : LevelSet ℝ) : LevelSet ℝ :=
  { L with signedDistance := L.signedDistance.map (- ·), velocity := v, gradient := g }

theorem twin_addMine (v g : List ℝ) (i : Nat) (L : LevelSet ℝ) : addMine i (twin v g L) = (addMine i L).map (twin v g) := by
  unfold addMine twin
  simp only [map_bind']
  rfl

theorem twin_addBand (v g : List ℝ) (i : Nat) (s : ℝ) (L : LevelSet ℝ) : addBand i s (twin v g L) = (addBand i s L).map (twin v g) := by
  unfold addBand
  simp only [map_bind']
  refine bind_congr fun nodes => bind_congr fun nb => ?_
  by_cases h : FP.lt (FP.nat (u32 (L.bandWidth + 4294967295))) s = true
  · rw [if_pos h, ← twin_addMine]
    exact if_pos h
  · rw [if_neg h]
    exact if_neg h

theorem twin_bandNode (v g : List ℝ) (i : Nat) (L : LevelSet ℝ) : bandNode i (twin v g L) = (bandNode i L).map (twin v g) := by
  unfold bandNode
  simp only [map_bind']
  refine bind_congr fun nodes => bind_congr fun nd => ?_
  by_cases h : (!nd.isMasked && (!nd.isDomain || !L.isFixedDomain)) = true
  · rw [if_pos h]
    refine (if_pos h).trans ?_
    simp only [map_bind']
    change rd (L.signedDistance.map (- ·)) i >>= _ = rd L.signedDistance i >>= _
    rw [rd_map', bind_map']
    refine bind_congr fun x => ?_
    beta_reduce
    rw [FMM.fabs_neg]
    by_cases h' : FP.lt (FP.abs x) (FP.nat L.bandWidth) = true
    · rw [if_pos h', ← twin_addBand]
      exact if_pos h'
    · rw [if_neg h']
      exact if_neg h'
  · rw [if_neg h]
    exact if_neg h

theorem twin_reinitialise (v g : List ℝ) {L : LevelSet ℝ} (hl : L.signedDistance.length = L.mesh.nNodes) (hc : Clear L.signedDistance) :
    reinitialise (twin v g L) = (reinitialise L).map (twin v g) := by
  unfold reinitialise initialiseNarrowBand
  simp only [map_bind']
  have := (FMM.flip_marchDistance hl hc false).to_map
  change FMM.marchDistance L.mesh (L.signedDistance.map (- ·)) (FMM.new L.mesh false) >>= _ = _
  rw [this, bind_map']
  refine bind_congr fun F => ?_
  exact forN_map (twin v g) L.mesh.nNodes (fun i s _ => twin_bandNode v g i s) { L with signedDistance := F.sd, nNarrowBand := 0, nMines := 0 }

theorem twin_mineHit (v g : List ℝ) (L : LevelSet ℝ) : mineHit (twin v g L) = mineHit L := by
  unfold mineHit
  refine forN_congr fun i _ hit => ?_
  by_cases h : hit = true
  · rw [if_pos h, if_pos h]
  · rw [if_neg h, if_neg h]
    refine bind_congr fun k => ?_
    change rd (L.signedDistance.map (- ·)) k >>= _ = _
    rw [rd_map', bind_map']
    refine bind_congr fun x => ?_
    beta_reduce
    rw [FMM.fabs_neg]

/-! ### Velocities -/

theorem complement_computeVelocities (points : List (BoundaryPoint ℝ)) {L : LevelSet ℝ} (hl : L.signedDistance.length = L.mesh.nNodes)
    (hc : Clear L.signedDistance) : computeVelocities points (complement L) = (computeVelocities points L).map complement := by
  unfold computeVelocities
  have h1 : initialiseVelocities points (complement L) = (initialiseVelocities points L).map complement := by
    unfold initialiseVelocities
    simp only [map_bind']
    rfl
  rw [h1, bind_map', map_bind']
  cases e : initialiseVelocities points L with
  | error x => rfl
  | ok L1 =>
    have hL : L1.mesh = L.mesh ∧ L1.signedDistance = L.signedDistance := by
      unfold initialiseVelocities at e
      have : (initialiseVelocities points L).map (fun A => (A.mesh, A.signedDistance)) = (initialiseVelocities points L).map fun _ => (L.mesh, L.signedDistance) := by
        unfold initialiseVelocities
        simp only [map_bind']
        rfl
      unfold initialiseVelocities at this
      rw [e] at this
      have := Except.ok.inj this
      exact ⟨congrArg Prod.fst this, congrArg Prod.snd this⟩
    change FMM.marchVelocity L1.mesh (L1.signedDistance.map fun v => -v) L1.velocity (FMM.new L1.mesh false) >>= _ =
      (FMM.marchVelocity L1.mesh L1.signedDistance L1.velocity (FMM.new L1.mesh false) >>= _).map complement
    have hf := (FMM.flip_marchVelocity (m := L1.mesh) (sd := L1.signedDistance) (by rw [hL.2, hL.1]; exact hl) (by rw [hL.2]; exact hc) L1.velocity false).to_map
    rw [hf, bind_map', map_bind']
    rfl

theorem computeVelocities_scale {points points' : List (BoundaryPoint ℝ)} {L : LevelSet ℝ} (hl : L.velocity.length = L.mesh.nNodes) (c : ℝ)
    (h1 : points'.map (·.coord) = points.map (·.coord)) (h2 : points'.map (·.velocity) = points.map fun p => c * p.velocity) :
    computeVelocities points' L = (computeVelocities points L).map (speedUp c) := by
  rcases computeVelocities_matrix points hl with ⟨e, h⟩ | ⟨sd, A, -, h⟩
  · rw [h points' h1, h points rfl]; rfl
  · rw [h points' h1, h points rfl]
    change Except.ok _ = Except.ok _
    have l1 : points'.length = points.length := by simpa using congrArg List.length h1
    have : ∀ i, (points'.mapIdx fun j p => A i j * p.velocity).sum = c * (points.mapIdx fun j p => A i j * p.velocity).sum := by
      intro i
      rw [sum_mapIdx, sum_mapIdx, l1, Finset.mul_sum]
      refine Finset.sum_congr rfl fun j hj => ?_
      have hj := Finset.mem_range.1 hj
      have hv : (points'[j]'(by omega)).velocity = c * points[j].velocity := by
        have := congrArg (fun l => l[j]?) h2
        simpa [hj, l1] using this
      rw [List.getElem?_eq_getElem (by omega), List.getElem?_eq_getElem hj]
      simp only [Option.map_some, Option.getD_some]
      rw [hv]
      ring
    unfold speedUp
    simp only [this, List.map_map, Function.comp_def]

/-! ### Gradients -/

theorem gradHJWENO_neg (a b c d e : ℝ) : gradHJWENO (-a) (-b) (-c) (-d) (-e) = -gradHJWENO a b c d e := by
  unfold gradHJWENO
  simp only [FP.add_real, FP.sub_real, FP.mul_real, FP.div_real, FP.nat_real, FP.lit_real]
  have k1 : ∀ k : ℝ, k * (-a - ((2 : ℕ) : ℝ) * -b + -c) * (-a - ((2 : ℕ) : ℝ) * -b + -c) = k * (a - ((2 : ℕ) : ℝ) * b + c) * (a - ((2 : ℕ) : ℝ) * b + c) := fun k => by ring
  have k2 : ∀ k : ℝ, k * (-a - ((4 : ℕ) : ℝ) * -b + ((3 : ℕ) : ℝ) * -c) * (-a - ((4 : ℕ) : ℝ) * -b + ((3 : ℕ) : ℝ) * -c) =
    k * (a - ((4 : ℕ) : ℝ) * b + ((3 : ℕ) : ℝ) * c) * (a - ((4 : ℕ) : ℝ) * b + ((3 : ℕ) : ℝ) * c) := fun k => by ring
  have k3 : ∀ k : ℝ, k * (-b - ((2 : ℕ) : ℝ) * -c + -d) * (-b - ((2 : ℕ) : ℝ) * -c + -d) = k * (b - ((2 : ℕ) : ℝ) * c + d) * (b - ((2 : ℕ) : ℝ) * c + d) := fun k => by ring
  have k4 : ∀ k : ℝ, k * (-b - -d) * (-b - -d) = k * (b - d) * (b - d) := fun k => by ring
  have k5 : ∀ k : ℝ, k * (-c - ((2 : ℕ) : ℝ) * -d + -e) * (-c - ((2 : ℕ) : ℝ) * -d + -e) = k * (c - ((2 : ℕ) : ℝ) * d + e) * (c - ((2 : ℕ) : ℝ) * d + e) := fun k => by ring
  have k6 : ∀ k : ℝ, k * (((3 : ℕ) : ℝ) * -c - ((4 : ℕ) : ℝ) * -d + -e) * (((3 : ℕ) : ℝ) * -c - ((4 : ℕ) : ℝ) * -d + -e) =
    k * (((3 : ℕ) : ℝ) * c - ((4 : ℕ) : ℝ) * d + e) * (((3 : ℕ) : ℝ) * c - ((4 : ℕ) : ℝ) * d + e) := fun k => by ring
  rw [k1, k2, k3, k4, k5, k6]
  generalize (_ : ℝ) / ((_ + _ + _) * (_ + _ + _)) / _ = w1
  ring

theorem diff_neg (g : Nat → Res ℝ) (i j : Nat) : diff (fun k => (g k).map (- ·)) i j = (diff g i j).map (- ·) := by
  unfold diff
  rw [bind_map', map_bind']
  refine bind_congr fun a => ?_
  rw [bind_map', map_bind']
  refine bind_congr fun b => ?_
  change Except.ok (-a - -b) = Except.ok (-(a - b))
  congr 1
  ring

theorem pure_map {α β : Type} (a : α) (f : α → β) : (pure a : Res α).map f = pure (f a) := rfl

theorem ite_map {α β : Type} {c : Prop} [Decidable c] (a b : Res α) (f : α → β) : (if c then a else b).map f = if c then a.map f else b.map f := by
  split_ifs <;> rfl

theorem derivForward_neg (g : Nat → Res ℝ) (n x : Nat) : derivForward (fun k => (g k).map (- ·)) n x = (derivForward g n x).map (- ·) := by
  unfold derivForward
  simp only [diff_neg, bind_map', map_bind', gradHJWENO_neg, ite_map, pure_map]

theorem derivBackward_neg (g : Nat → Res ℝ) (n x : Nat) : derivBackward (fun k => (g k).map (- ·)) n x = (derivBackward g n x).map (- ·) := by
  unfold derivBackward
  simp only [diff_neg, bind_map', map_bind', gradHJWENO_neg, ite_map, pure_map]

theorem sdAt_twin (v g : List ℝ) (L : LevelSet ℝ) (x y : Nat) : sdAt (twin v g L) x y = (sdAt L x y).map (- ·) := by
  unfold sdAt
  simp only [map_bind']
  refine bind_congr fun col => bind_congr fun i => ?_
  exact rd_map' (- ·) L.signedDistance i

theorem cornerGradient_twin (v g : List ℝ) (L : LevelSet ℝ) (lsf : ℝ) (x y x2 y2 : Nat) :
    cornerGradient (twin v g L) (-lsf) x y x2 y2 = cornerGradient L lsf x y x2 y2 := by
  have e : ∀ a b : ℝ, FP.abs (FP.sub (-a) (-b)) = FP.abs (FP.sub a b) := by
    intro a b
    change |(-a) - (-b)| = |a - b|
    rw [← abs_neg]
    congr 1
    ring
  unfold cornerGradient
  simp only [sdAt_twin, bind_map', e]

theorem cornerCase_twin (v g : List ℝ) (L : LevelSet ℝ) (lsf : ℝ) (x y : Nat) : cornerCase (twin v g L) (-lsf) x y = cornerCase L lsf x y := by
  unfold cornerCase
  simp only [cornerGradient_twin]
  rfl

/-- The gradient for opposite distances and velocities. -/
theorem twin_computeGradient (g : List ℝ) (L : LevelSet ℝ) (node : Nat) :
    Both (fun a b => ∀ v, L.velocity[node]? = some v → v ≠ 0 → b = a) (computeGradient L node) (computeGradient (twin (L.velocity.map (- ·)) g L) node) := by
  refine Both.same (rd L.mesh.nodes node) fun nd _ => ?_
  refine Both.bind (Both.rd_map (- ·) L.signedDistance node) fun lsf lsf' _ hl => ?_
  obtain ⟨rfl, -⟩ := hl
  dsimp only
  rw [cornerCase_twin]
  refine Both.same (cornerCase L lsf (FP.floor nd.coord.x) (FP.floor nd.coord.y)) fun corner _ => ?_
  rcases corner with _ | c
  swap
  · exact Both.ok fun _ _ _ => rfl
  refine Both.bind (Both.rd_map (- ·) L.velocity node) fun v v' _ hv => ?_
  obtain ⟨rfl, hv⟩ := hv
  have hd : ∀ y, (fun k => sdAt (twin (L.velocity.map (- ·)) g L) k y) = fun k => (sdAt L k y).map (- ·) := fun y => funext fun k => sdAt_twin _ _ _ _ _
  have hd' : ∀ x, (fun k => sdAt (twin (L.velocity.map (- ·)) g L) x k) = fun k => (sdAt L x k).map (- ·) := fun x => funext fun k => sdAt_twin _ _ _ _ _
  simp only [hd, hd', derivForward_neg, derivBackward_neg]
  refine Both.bind (Both.of_map rfl) fun r r' _ hr => ?_
  refine Both.bind (Both.of_map rfl) fun l l' _ hl => ?_
  refine Both.bind (Both.of_map rfl) fun u u' _ hu => ?_
  refine Both.bind (Both.of_map rfl) fun d d' _ hd => ?_
  refine Both.ok fun v0 hv0 hne => ?_
  have hvv : v = v0 := Option.some.inj (hv.symm.trans hv0)
  subst hvv
  have hs : ∀ z : ℝ, (if FP.lt (-v) (FP.nat 0) = true then FP.neg (FP.nat 1) else FP.nat 1 : ℝ) *. (-z) = (if FP.lt v (FP.nat 0) = true then FP.neg (FP.nat 1) else FP.nat 1 : ℝ) *. z := by
    intro z
    rcases lt_or_gt_of_ne hne with h | h
    · rw [if_neg (fun h' => by have := (FP.lt_real _ _).1 h'; rw [FP.nat_real, Nat.cast_zero] at this; linarith),
        if_pos ((FP.lt_real _ _).2 (by rw [FP.nat_real, Nat.cast_zero]; exact h))]
      change ((1 : ℕ) : ℝ) * -z = -((1 : ℕ) : ℝ) * z
      ring
    · rw [if_pos ((FP.lt_real _ _).2 (by rw [FP.nat_real, Nat.cast_zero]; linarith)),
        if_neg (fun h' => by have := (FP.lt_real _ _).1 h'; rw [FP.nat_real, Nat.cast_zero] at this; linarith)]
      change -((1 : ℕ) : ℝ) * -z = ((1 : ℕ) : ℝ) * z
      ring
  rw [hr, hl, hu, hd, hs, hs, hs, hs]

/-- Gradients that agree wherever the node moves. -/
def GradSame (v g g' : List ℝ) : Prop := g'.length = g.length ∧ ∀ (i : Nat) (x : ℝ), v[i]? = some x → x ≠ 0 → g'[i]? = g[i]?

theorem twin_computeGradients (g : List ℝ) {L : LevelSet ℝ} (hg : g.length = L.gradient.length) :
    Both (fun A B => A = { L with gradient := A.gradient } ∧ B = twin (A.velocity.map (- ·)) B.gradient A ∧ GradSame A.velocity A.gradient B.gradient)
      (computeGradients L) (computeGradients (twin (L.velocity.map (- ·)) g L)) := by
  refine Both.bind (R := GradSame L.velocity) (Both.forN ⟨?_, fun i x _ _ => ?_⟩ fun i _ a b hab => ?_) fun a b _ hab => ?_
  · simp [twin, hg]
  · change (List.replicate g.length _)[i]? = _
    rw [hg]
  · refine Both.same (rd L.narrowBand i) fun node _ => ?_
    refine Both.bind (twin_computeGradient g L node) fun c d _ hcd => ?_
    by_cases hn : node < a.length
    · rw [wr_eq _ hn, wr_eq _ (by rw [hab.1]; exact hn)]
      refine Both.ok ⟨by simpa using hab.1, fun k x hx hne => ?_⟩
      rw [List.getElem?_set, List.getElem?_set, hab.1]
      split_ifs with h1
      · subst h1; rw [hcd x hx hne]
      · exact hab.2 k x hx hne
    · rw [wr_ub _ (by omega), wr_ub _ (by rw [hab.1]; omega)]
      exact Both.error _
  · exact Both.ok ⟨rfl, rfl, hab⟩

/-! ### Update -/

theorem twin_core {w h : Nat} {L : LevelSet ℝ} (C : Core w h L) {v g : List ℝ} (hv : v.length = L.mesh.nNodes) (hg : g.length = L.mesh.nNodes) : Core w h (twin v g L) where
  grid := C.grid
  sd := by simpa [twin] using C.sd
  velocity := hv
  gradient := hg
  narrowBand := C.narrowBand
  mines := C.mines
  bandWidth := C.bandWidth
  small := C.small
  band_count := C.band_count
  band_sorted := C.band_sorted
  band_free := C.band_free
  mine_count := C.mine_count
  mine_sub := C.mine_sub
  active := C.active

theorem vals_neg (l : List ℝ) (i : Nat) : vals (l.map (- ·)) i = -vals l i := by
  unfold vals
  rw [List.getD_eq_getElem?_getD, List.getD_eq_getElem?_getD, List.getElem?_map]
  cases l[i]? <;> simp [FP.nat_real]

theorem twin_update {w h : Nat} {L : LevelSet ℝ} (C : Core w h L) (dt : ℝ) {g : List ℝ} (hg : g.length = L.mesh.nNodes) (hG : GradSame L.velocity L.gradient g)
    (hedge : ∀ i ∈ L.band, ¬ L.OnDomainEdge i) (hc : ∀ φ, MotionOf L dt φ → Clear φ) :
    update dt (twin (L.velocity.map (- ·)) g L) = (update dt L).map fun r => (r.1, twin (L.velocity.map (- ·)) g r.2) := by
  have C' := twin_core C (v := L.velocity.map (- ·)) (g := g) (by simpa using C.velocity) hg
  have hloop : ∃ L1, forN L.nNarrowBand L (updateBandNode dt) = .ok L1 ∧ Moved L dt (· ∈ L.band) L1 := by
    have := update_loop C dt
    cases e : forN L.nNarrowBand L (updateBandNode dt) with
    | ok L1 => rw [e] at this; exact ⟨L1, rfl, this⟩
    | error x => rw [e] at this; exact this.elim
  obtain ⟨L1, e1, M⟩ := hloop
  have hloop' : ∃ L2, forN L.nNarrowBand (twin (L.velocity.map (- ·)) g L) (updateBandNode dt) = .ok L2 ∧ Moved (twin (L.velocity.map (- ·)) g L) dt (· ∈ L.band) L2 := by
    have := update_loop C' dt
    change wp (forN L.nNarrowBand (twin (L.velocity.map (- ·)) g L) (updateBandNode dt)) _ _ at this
    cases e : forN L.nNarrowBand (twin (L.velocity.map (- ·)) g L) (updateBandNode dt) with
    | ok L1 => rw [e] at this; exact ⟨L1, rfl, this⟩
    | error x => rw [e] at this; exact this.elim
  obtain ⟨L2, e2, M'⟩ := hloop'
  have hsd : L2.signedDistance = L1.signedDistance.map (- ·) := by
    have l1 : L1.signedDistance.length = L.mesh.nNodes := by rw [M.sdLen, C.sd]
    have l2 : L2.signedDistance.length = L.mesh.nNodes := by rw [M'.sdLen]; exact C'.sd
    have hv : ∀ i, vals L2.signedDistance i = -vals L1.signedDistance i := by
      intro i
      by_cases hb : i ∈ L.band
      · rw [(M.yes i hb).1, (M'.yes i hb).1]
        have hi : i < L.mesh.nNodes := (C.band_free i hb).1
        have hd : (nodeOf L.mesh i).isDomain = false := by
          by_contra hcon
          exact hedge i hb ⟨_, get_node (by rw [C.nodes_len]; exact hi), by simpa using hcon⟩
        unfold movedVal
        change (if (nodeOf L.mesh i).isDomain && _ then _ else _) = _
        simp only [hd, Bool.false_and]
        change vals (L.signedDistance.map (- ·)) i - dt * vals g i * vals (L.velocity.map (- ·)) i = -(vals L.signedDistance i - dt * vals L.gradient i * vals L.velocity i)
        rw [vals_neg, vals_neg]
        by_cases h0 : vals L.velocity i = 0
        · rw [h0]; ring
        · have hvl : L.velocity[i]? = some (vals L.velocity i) := by
            unfold vals
            rw [List.getElem?_eq_getElem (by rw [C.velocity]; exact hi), List.getD_eq_getElem?_getD, List.getElem?_eq_getElem (by rw [C.velocity]; exact hi)]
            rfl
          have : vals g i = vals L.gradient i := by
            unfold vals
            rw [List.getD_eq_getElem?_getD, List.getD_eq_getElem?_getD, hG.2 i _ hvl h0]
          rw [this]
          ring
      · rw [(M.no i hb).1, (M'.no i hb).1]
        exact vals_neg L.signedDistance i
    refine List.ext_getElem (by simp [l1, l2]) fun i h1 h2 => ?_
    have := hv i
    unfold vals at this
    rw [List.getD_eq_getElem?_getD, List.getD_eq_getElem?_getD, List.getElem?_eq_getElem h1, List.getElem?_eq_getElem (by simpa using h2)] at this
    simpa using this
  have hnodes : L2.mesh.nodes = L1.mesh.nodes := by
    refine List.ext_getElem? fun i => ?_
    by_cases hb : i ∈ L.band
    · have hi : i < L.mesh.nNodes := (C.band_free i hb).1
      have hnd := get_node (m := L.mesh) (i := i) (by rw [C.nodes_len]; exact hi)
      rw [(M.yes i hb).2 _ hnd, (M'.yes i hb).2 _ hnd]
    · rw [(M.no i hb).2, (M'.no i hb).2]
      rfl
  have hL2 : L2 = twin (L.velocity.map (- ·)) g L1 := by
    rw [M'.frame, hsd, hnodes, M.frame]
    rfl
  unfold update
  change forN L.nNarrowBand (twin (L.velocity.map (- ·)) g L) (updateBandNode dt) >>= _ = _
  rw [e1, e2, hL2]
  change mineHit (twin (L.velocity.map (- ·)) g L1) >>= _ = (mineHit L1 >>= _).map _
  rw [twin_mineHit, map_bind']
  refine bind_congr fun hit => ?_
  cases hit with
  | false => rfl
  | true =>
    have hr := twin_reinitialise (L.velocity.map (- ·)) g (L := L1) (by rw [M.sdLen, C.sd, M.frame]) (hc _ (motion_of_moved C M))
    change reinitialise (twin (L.velocity.map (- ·)) g L1) >>= _ = (reinitialise L1 >>= _).map _
    rw [hr, bind_map', map_bind']
    rfl

end LevelSet

end Slsm
