import Verif.Proof.FlipBnd
import Verif.Props.Frontier
import Verif.Props.Motion
import Verif.Props.FMM

/-! # Property C92: the grid has no preferred side

`Flip` (`Verif/Spec/Flip.lean`) are the mirror images of the grid and its reflection in the diagonal. -/

namespace Slsm

open LevelSet Boundary Area

section
variable {σ : Flip} {w h : Nat} {L L' M M' : LevelSet ℝ}

theorem edge_iff (hr : Reachable w h L) {x y : Nat} (hx : x ≤ w) (hy : y ≤ h) : L.OnDomainEdge (nodeNo w x y) ↔ onEdge w h x y := by
  have C := hr.core
  unfold OnDomainEdge
  constructor
  · rintro ⟨nd, h1, h2⟩
    exact (C.grid.isDomain x y nd hx hy h1).1 h2
  · intro he
    have hlt : nodeNo w x y < L.mesh.nodes.length := by rw [C.nodes_len, C.grid.nNodes]; exact nodeNo_lt hx hy
    exact ⟨_, List.getElem?_eq_getElem hlt, (C.grid.isDomain x y _ hx hy (List.getElem?_eq_getElem hlt)).2 he⟩

theorem image_size (σ : Flip) (hw : 1 ≤ w) (hh : 1 ≤ h) (hN : (w + 1) * (h + 1) < 2 ^ 31) :
    1 ≤ σ.width w h ∧ 1 ≤ σ.height w h ∧ (σ.width w h + 1) * (σ.height w h + 1) < 2 ^ 31 := by
  cases σ <;> simp only [Flip.width, Flip.height] <;> refine ⟨by omega, by omega, ?_⟩
  · exact hN
  · exact hN
  · rw [Nat.mul_comm]; exact hN

/-- **C92** (holes): the level set built from the images of the holes has the images of the values. -/
theorem C92_holes (hw : 1 ≤ w) (hh : 1 ≤ h) (hN : (w + 1) * (h + 1) < 2 ^ 31) {holes : List (Hole ℝ)} {m m' : ℝ}
    {k k' : Nat} (hk : k < 2 ^ 32) (hk' : k' < 2 ^ 32) {f f' : Bool} (e : new w h (.holes holes) m k f = .ok L)
    (e' : new (σ.width w h) (σ.height w h) (.holes (holes.map (σ.hole w h))) m' k' f' = .ok M) :
    σ.Image w h (lay w L.signedDistance) (lay (σ.width w h) M.signedDistance) := by
  intro x y hx hy
  have hn := node_le σ hx hy
  have hw' := image_size σ hw hh hN
  have h1 := C23_holes_exact hw hh hN hk e hx hy
  have h2 := C23_holes_exact hw'.1 hw'.2.1 hw'.2.2 hk' e' hn.1 hn.2
  refine h2.unique ?_
  have he : edgeDist (σ.width w h) (σ.height w h) (σ.node w h x y).1 (σ.node w h x y).2 = edgeDist w h x y := by
    cases σ <;> simp only [edgeDist, Flip.width, Flip.height, Flip.node]
    · rw [Nat.sub_sub_self hx]; exact congrArg (fun n : Nat => n.min _) (Nat.min_comm _ _)
    · rw [Nat.sub_sub_self hy]; exact congrArg (fun n : Nat => Nat.min _ n) (Nat.min_comm _ _)
    · exact Nat.min_comm _ _
  have hd : ∀ c : Coord ℝ, distance (σ.coord w h c) (lattice (σ.node w h x y).1 (σ.node w h x y).2) = distance c (lattice x y) := by
    intro c
    unfold distance
    congr 1
    cases σ <;> simp only [Flip.coord, Flip.point, Flip.node, lattice]
    · rw [Nat.cast_sub hx]; ring
    · rw [Nat.cast_sub hy]; ring
    · ring
  have hs : ({d | ∃ hole ∈ holes.map (σ.hole w h), d = distance hole.coord (lattice (σ.node w h x y).1 (σ.node w h x y).2) - hole.r} : Set ℝ) =
      {d | ∃ hole ∈ holes, d = distance hole.coord (lattice x y) - hole.r} := by
    ext d
    constructor
    · rintro ⟨_, hm, rfl⟩
      obtain ⟨c, hc, rfl⟩ := List.mem_map.1 hm
      exact ⟨c, hc, by rw [← hd]; rfl⟩
    · rintro ⟨c, hc, rfl⟩
      exact ⟨_, List.mem_map.2 ⟨c, hc, rfl⟩, by rw [← hd]; rfl⟩
  rw [he, hs]
  exact h1

/-- A new level set has zero velocities and gradients. -/
theorem new_zero {k : Nat} {f : Bool} {m : ℝ} {s : Shape ℝ} (hw : 1 ≤ w) (hh : 1 ≤ h) (hN : (w + 1) * (h + 1) < 2 ^ 31) (hk : k < 2 ^ 32)
    (e : new w h s m k f = .ok L) (i : Nat) : vals L.velocity i = 0 ∧ vals L.gradient i = 0 := by
  norm_num at hN hk
  have hs : ∀ l, s = .points l → l ≠ [] := by rintro l rfl rfl; exact new_points_nil e
  have he := e
  unfold LevelSet.new at e
  have hb := base_spec (D := ℝ) (moveLimit := m) (w := w) (h := h) ⟨hw, hh, by norm_num; omega⟩ hk f false
  cases h0 : base w h m k f false with
  | error x => rw [h0] at e; cases e
  | ok B =>
    rw [h0, wp_ok] at hb
    obtain ⟨-, W, -⟩ := hb
    have hz : ∃ n, B.velocity = List.replicate n 0 ∧ B.gradient = List.replicate n 0 := by
      unfold base at h0
      cases h1 : (Mesh.new w h : Res (Mesh ℝ)) with
      | error x => rw [h1] at h0; cases h0
      | ok mesh =>
        rw [h1] at h0
        simp only [bind, Except.bind, check] at h0
        split at h0
        · cases h0
        · split at h0
          · cases h0
          · cases h0
            exact ⟨mesh.nNodes, by simp, by simp⟩
    have hsh : ShapeOk ℝ w h s := by
      exact (wp_of_ok (new_spec (D := ℝ) (moveLimit := m) (w := w) (h := h) ⟨hw, hh, by norm_num; omega⟩ hN hk f hs) he).2.1
    rw [h0] at e
    simp only [bind, Except.bind] at e
    rw [initialise_eq W hsh] at e
    simp only at e
    have W1 : WF w h { B with signedDistance := ((List.range B.mesh.nNodes).map (shapeVal s B.mesh)) } := { W with sd := by simp }
    obtain ⟨-, -, hB⟩ := wp_of_ok (initialiseNarrowBand_spec W1 (by rw [W1.grid.nNodes]; exact hN)) e
    obtain ⟨n, h1, h2⟩ := hz
    rw [hB.frame]
    show vals B.velocity i = 0 ∧ vals B.gradient i = 0
    rw [h1, h2]
    have : vals (List.replicate n (0 : ℝ)) i = 0 := by
      unfold vals
      rw [List.getD_eq_getElem?_getD, List.getElem?_replicate]
      split <;> simp
    exact ⟨this, this⟩

/-- **C92** (narrow band): if masks, band width and treatment of the domain edge correspond, the narrow bands (and mines) built for a level
set and its image correspond. -/
theorem C92_band (hr : Reachable w h L) (hr' : Reachable (σ.width w h) (σ.height w h) M) (B : BandOk L) (B' : BandOk M)
    (I : σ.Image w h (lay w L.signedDistance) (lay (σ.width w h) M.signedDistance)) (hm : σ.Nodes w h L.Masked M.Masked)
    (hb : M.bandWidth = L.bandWidth) (hf : M.isFixedDomain = L.isFixedDomain) :
    σ.Nodes w h (· ∈ L.band) (· ∈ M.band) ∧ σ.Nodes w h (· ∈ L.mineList) (· ∈ M.mineList) := by
  have key : ∀ x y, x ≤ w → y ≤ h → (M.InBand (nodeNo (σ.width w h) (σ.node w h x y).1 (σ.node w h x y).2) ↔ L.InBand (nodeNo w x y)) := by
    intro x y hx hy
    have hn := node_le σ hx hy
    unfold InBand Free
    rw [hm x y hx hy, edge_iff hr hx hy, edge_iff hr' hn.1 hn.2, node_onEdge σ hx hy, hb, hf]
    have : vals M.signedDistance (nodeNo (σ.width w h) (σ.node w h x y).1 (σ.node w h x y).2) = vals L.signedDistance (nodeNo w x y) := I x y hx hy
    rw [this, hr.core.grid.nNodes, hr'.core.grid.nNodes]
    have h1 := nodeNo_lt hx hy
    have h2 := nodeNo_lt hn.1 hn.2
    simp only [h1, h2, true_and]
  refine ⟨fun x y hx hy => ?_, fun x y hx hy => ?_⟩
  · show _ ∈ M.band ↔ _ ∈ L.band
    rw [B.band_mem, B'.band_mem]; exact key x y hx hy
  · show _ ∈ M.mineList ↔ _ ∈ L.mineList
    rw [B.mine_mem, B'.mine_mem]
    unfold AtRim
    have : vals M.signedDistance (nodeNo (σ.width w h) (σ.node w h x y).1 (σ.node w h x y).2) = vals L.signedDistance (nodeNo w x y) := I x y hx hy
    rw [key x y hx hy, this, hb]

/-- **C92** (construction): the level set built from the images of the holes is the image of the level set built from the holes. -/
theorem C92_new (hw : 1 ≤ w) (hh : 1 ≤ h) (hN : (w + 1) * (h + 1) < 2 ^ 31) {holes : List (Hole ℝ)} {m m' : ℝ}
    {k : Nat} (hk : k < 2 ^ 32) {f : Bool} (e : new w h (.holes holes) m k f = .ok L)
    (e' : new (σ.width w h) (σ.height w h) (.holes (holes.map (σ.hole w h))) m' k f = .ok M) : IsImage σ w h L M := by
  obtain ⟨hw', hh', hN'⟩ := image_size σ hw hh hN
  have B := built hw hh hN hk e
  have B' := built hw' hh' hN' hk e'
  have I := C92_holes hw hh hN hk hk e e'
  obtain ⟨b1, b2⟩ := C92_band (.new hw hh hN hk e) (.new hw' hh' hN' hk e') B.band B'.band I
    (fun x y _ _ => ⟨fun h => absurd h (B'.unmasked _), fun h => absurd h (B.unmasked _)⟩)
    (by rw [B.params.2.1, B'.params.2.1]) (by rw [B.params.2.2, B'.params.2.2])
  refine ⟨I, fun x y _ _ => ?_, fun x y _ _ => ?_, b1, b2⟩
  · exact (new_zero hw' hh' hN' hk e' _).1.trans (new_zero hw hh hN hk e _).1.symm
  · exact (new_zero hw' hh' hN' hk e' _).2.trans (new_zero hw hh hN hk e _).2.symm

/-- **C92** (gradients): the gradients computed for the image of a level set are the images of its gradients, whichever sides the derivatives are taken from. -/
theorem C92_gradients (hr : Reachable w h L) (hr' : Reachable (σ.width w h) (σ.height w h) M) (hw : 4 ≤ w) (hh : 4 ≤ h) (I : IsImage σ w h L M)
    (e : computeGradients L = .ok L') (e' : computeGradients M = .ok M') : IsImage σ w h L' M' := by
  have hw' : 4 ≤ σ.width w h ∧ 4 ≤ σ.height w h := by cases σ <;> simp only [Flip.width, Flip.height] <;> omega
  obtain ⟨L1, e1, f1, -⟩ := C34_safe hr hw hh
  obtain ⟨M1, e1', f1', -⟩ := C34_safe hr' hw'.1 hw'.2
  rw [e] at e1
  rw [e'] at e1'
  cases e1
  cases e1'
  have hg : σ.Image w h (lay w L'.gradient) (lay (σ.width w h) M'.gradient) := by
    intro x y hx hy
    have hn := node_le σ hx hy
    obtain ⟨a1, a2, a3⟩ := C34_value hr hw hh e hx hy
    obtain ⟨b1, b2, b3⟩ := C34_value hr' hw'.1 hw'.2 e' hn.1 hn.2
    have hb := I.band x y hx hy
    have J : σ.Image w h (field w L) (field (σ.width w h) M) := I.distance
    have hv : vals M.velocity (nodeNo (σ.width w h) (σ.node w h x y).1 (σ.node w h x y).2) = vals L.velocity (nodeNo w x y) := I.velocity x y hx hy
    have hfl := flat_flip (by omega) (by omega) J hx hy
    unfold lay
    by_cases hbm : nodeNo w x y ∈ L.band
    · by_cases hf : FlatCorner w h (field w L) x y
      · rw [b3 (hb.2 hbm) (hfl.2 hf), a3 hbm hf, flat_value (by omega) (by omega) J hx hy hf]
      · rw [b2 (hb.2 hbm) (fun hc => hf (hfl.1 hc)), a2 hbm hf, hv, upwind_flip (by omega) (by omega) J _ hx hy]
    · rw [b1 (fun hc => hbm (hb.1 hc)), a1 hbm]
  refine ⟨?_, ?_, hg, ?_, ?_⟩
  · rw [f1, f1']; exact I.distance
  · rw [f1, f1']; exact I.velocity
  · rw [f1, f1']; exact I.band
  · rw [f1, f1']; exact I.mines

theorem motion_flip {dt : ℝ} {φ ψ : List ℝ} (hr : Reachable w h L) (hr' : Reachable (σ.width w h) (σ.height w h) M) (I : IsImage σ w h L M)
    (h1 : MotionOf L dt φ) (h2 : MotionOf M dt ψ) : σ.Image w h (lay w φ) (lay (σ.width w h) ψ) := by
  intro x y hx hy
  have hn := node_le σ hx hy
  have hd : vals M.signedDistance (nodeNo (σ.width w h) (σ.node w h x y).1 (σ.node w h x y).2) = vals L.signedDistance (nodeNo w x y) := I.distance x y hx hy
  have hv : vals M.velocity (nodeNo (σ.width w h) (σ.node w h x y).1 (σ.node w h x y).2) = vals L.velocity (nodeNo w x y) := I.velocity x y hx hy
  have hg : vals M.gradient (nodeNo (σ.width w h) (σ.node w h x y).1 (σ.node w h x y).2) = vals L.gradient (nodeNo w x y) := I.gradient x y hx hy
  have hb := I.band x y hx hy
  have he : M.OnDomainEdge (nodeNo (σ.width w h) (σ.node w h x y).1 (σ.node w h x y).2) ↔ L.OnDomainEdge (nodeNo w x y) := by
    rw [edge_iff hr hx hy, edge_iff hr' hn.1 hn.2, node_onEdge σ hx hy]
  unfold lay
  by_cases hbm : nodeNo w x y ∈ L.band
  · by_cases hc : L.OnDomainEdge (nodeNo w x y) ∧ FP.lt (FP.nat 0)
        (FP.sub (vals L.signedDistance (nodeNo w x y)) (FP.mul (FP.mul dt (vals L.gradient (nodeNo w x y))) (vals L.velocity (nodeNo w x y)))) = true
    · rw [h1.capped _ hbm hc.1 hc.2, h2.capped _ (hb.2 hbm) (he.2 hc.1) (by rw [hd, hv, hg]; exact hc.2)]
    · rw [h1.moved _ hbm hc, h2.moved _ (hb.2 hbm) (by rw [he, hd, hv, hg]; exact hc), hd, hv, hg]
  · rw [h1.outside _ hbm, h2.outside _ (fun hc => hbm (hb.1 hc)), hd]

/-- **C92** (update): moving a level set and its image by the same time step, both are reinitialised or neither is; if not, the results are again
images of each other. -/
theorem C92_update (hr : Reachable w h L) (hr' : Reachable (σ.width w h) (σ.height w h) M) (I : IsImage σ w h L M) {dt : ℝ} {b b' : Bool}
    (e : update dt L = .ok (b, L')) (e' : update dt M = .ok (b', M')) : b' = b ∧ (b = false → IsImage σ w h L' M') := by
  obtain ⟨φ, h1, h2, h3, -, h5, h6, -⟩ := C29_update_effect hr e
  obtain ⟨ψ, g1, g2, g3, -, g5, g6, -⟩ := C29_update_effect hr' e'
  have hφ := motion_flip hr hr' I h1 g1
  have C := hr.core
  have C' := hr'.core
  have hb : b' = true ↔ b = true := by
    rw [h2, g2]
    constructor
    · rintro ⟨i, hi, hlt⟩
      obtain ⟨X, Y, hX, hY, rfl⟩ := C'.grid.node_index (C'.band_free i (C'.mine_sub i hi)).1
      have hn := node_le σ hX hY
      have hnn := σ.node_node hX hY
      rw [Flip.width_width, Flip.height_height] at hn hnn
      have a := I.mines _ _ hn.1 hn.2
      have c := hφ _ _ hn.1 hn.2
      rw [hnn] at a c
      exact ⟨_, a.1 hi, by rw [show vals φ (nodeNo w _ _) = _ from c.symm]; exact hlt⟩
    · rintro ⟨i, hi, hlt⟩
      obtain ⟨x, y, hx, hy, rfl⟩ := C.grid.node_index (C.band_free i (C.mine_sub i hi)).1
      exact ⟨_, (I.mines x y hx hy).2 hi, by rw [show vals ψ _ = _ from hφ x y hx hy]; exact hlt⟩
  have hbb : b' = b := by cases b <;> cases b' <;> simp_all
  refine ⟨hbb, fun hf => ?_⟩
  obtain ⟨i1, i2, i3⟩ := h3 hf
  obtain ⟨j1, j2, j3⟩ := g3 (by rw [hbb, hf])
  exact ⟨by rw [i1, j1]; exact hφ, by rw [h5, g5]; exact I.velocity, by rw [h6, g6]; exact I.gradient, by rw [i2, j2]; exact I.band,
    by rw [i3, j3]; exact I.mines⟩

end

section
variable {σ : Flip} {w h : Nat} {L L' L1 M M' M1 : LevelSet ℝ} {b b' : Boundary ℝ} {t t' : Bool}

theorem count_points {sd : List ℝ} (E : Exact w h L sd t b L') : b.nPoints = b.points.length := by
  obtain ⟨W, R, hm, hb, hl, _⟩ := E.rep
  rw [hl.len, R.plen, ← R.nPoints, hb]

theorem full_of (T : Tame w h L t) (hN : t = true ∨ NearSeen w h L t) : Full w h L.mesh (values L t) t := near_look hN T.gentle

/-- **C92** (discretisation returns): for values that vary by at most one along crossed edges, with all nodes near the contour visible, the image is discretised without undefined
behaviour iff the original is. -/
theorem C92_returns (R : Ready w h L t) (R' : Ready (σ.width w h) (σ.height w h) M t') (G : Gentle w h (level w L t))
    (hN : t = true ∨ NearSeen w h L t) (hN' : t' = true ∨ NearSeen (σ.width w h) (σ.height w h) M t')
    (I : σ.Image w h (level w L t) (level (σ.width w h) M t')) :
    (∃ b' M', discretise M t' = .ok (b', M')) ↔ ∃ b L', discretise L t = .ok (b, L') := by
  rw [(C41_exact_condition_partial R G hN).1, (C41_exact_condition_partial R' (gentle_flip I G) hN').1]
  refine ⟨fun T => ?_, tidy_flip I⟩
  have := tidy_flip (Flip.image_symm I) T
  rwa [Flip.width_width, Flip.height_height] at this

/-- **C92** (boundary points): the boundary points of the image are the images of the boundary points; their number is the same. -/
theorem C92_points (T : Tame w h L t) (T' : Tame (σ.width w h) (σ.height w h) M t') (hN : t = true ∨ NearSeen w h L t)
    (hN' : t' = true ∨ NearSeen (σ.width w h) (σ.height w h) M t') (I : σ.Image w h (level w L t) (level (σ.width w h) M t'))
    (e : discretise L t = .ok (b, L')) (e' : discretise M t' = .ok (b', M')) :
    (∀ c, (∃ p ∈ b'.points, p.coord = σ.coord w h c) ↔ ∃ p ∈ b.points, p.coord = c) ∧ b'.nPoints = b.nPoints := by
  obtain ⟨_, _, e1, E⟩ := tame_exact T
  obtain ⟨_, _, e1', E'⟩ := tame_exact T'
  rw [e] at e1
  rw [e'] at e1'
  cases e1
  cases e1'
  have F := full_of T hN
  have F' := full_of T' hN'
  have Md := made T.toReady e
  have Md' := made T'.toReady e'
  have H := fun p hp => point_flip (pt := p) E E' F Md Md' F' I hp
  have H' : ∀ p ∈ b'.points, ∃ q ∈ b.points, p.coord = σ.coord w h q.coord := by
    intro p hp
    have E2 : Exact (σ.width (σ.width w h) (σ.height w h)) (σ.height (σ.width w h) (σ.height w h)) L (values L t) t b L' := by
      rw [Flip.width_width, Flip.height_height]; exact E
    have F2 : Full (σ.width (σ.width w h) (σ.height w h)) (σ.height (σ.width w h) (σ.height w h)) L.mesh (values L t) t := by
      rw [Flip.width_width, Flip.height_height]; exact F
    have Md2 : Made (σ.width (σ.width w h) (σ.height w h)) (σ.height (σ.width w h) (σ.height w h)) L (values L t) b L' := by
      rw [Flip.width_width, Flip.height_height]; exact Md
    have I2 : σ.Image (σ.width w h) (σ.height w h) (level (σ.width w h) M t') (level (σ.width (σ.width w h) (σ.height w h)) L t) := by
      rw [Flip.width_width]; exact Flip.image_symm I
    obtain ⟨q, h1, h2, -⟩ := point_flip E' E2 F' Md' Md2 F2 I2 hp
    refine ⟨q, h1, ?_⟩
    rw [h2]
    have := σ.point_point (σ.width w h) (σ.height w h) (p.coord.x, p.coord.y)
    rw [Flip.width_width, Flip.height_height] at this
    unfold Flip.coord
    dsimp only
    rw [this]
  constructor
  · intro c
    constructor
    · rintro ⟨p, hp, hc⟩
      obtain ⟨q, hq, hqc⟩ := H' p hp
      exact ⟨q, hq, coord_inj' σ w h (hqc.symm.trans hc)⟩
    · rintro ⟨p, hp, rfl⟩
      obtain ⟨q, hq, hqc, -⟩ := H p hp
      exact ⟨q, hq, hqc⟩
  · have n1 := nPoints_le E fun p hp => by obtain ⟨q, h1, h2, -⟩ := H p hp; exact ⟨q, h1, h2⟩
    have n2 : b'.points.length ≤ b.points.length := nPoints_le (σ := σ) E' fun p hp => by
      obtain ⟨q, h1, h2⟩ := H' p hp
      refine ⟨q, h1, ?_⟩
      rw [h2]
      have := σ.point_point w h (q.coord.x, q.coord.y)
      unfold Flip.coord
      dsimp only
      rw [this]
    rw [count_points E, count_points E']
    exact le_antisymm n2 n1

theorem distToEdge_flip (σ : Flip) (w h : Nat) (c : Coord ℝ) : distToEdge (σ.width w h) (σ.height w h) (σ.coord w h c) = distToEdge w h c := by
  unfold distToEdge
  cases σ
  · simp only [Flip.width, Flip.height, Flip.coord, Flip.point, sub_sub_cancel]
    rw [min_comm (_ - _) c.x]
  · simp only [Flip.width, Flip.height, Flip.coord, Flip.point, sub_sub_cancel]
    rw [min_comm (_ - _) c.y]
  · simp only [Flip.width, Flip.height, Flip.coord, Flip.point]
    rw [min_comm]

/-- Squared distance of a lattice point. -/
theorem sqdist_flip (σ : Flip) {x y : Nat} (hx : x ≤ w) (hy : y ≤ h) (c : Coord ℝ) :
    ((σ.coord w h c).x - (σ.node w h x y).1) ^ 2 + ((σ.coord w h c).y - (σ.node w h x y).2) ^ 2 = (c.x - x) ^ 2 + (c.y - y) ^ 2 := by
  cases σ <;> simp only [Flip.coord, Flip.point, Flip.node, Nat.cast_sub hx, Nat.cast_sub hy] <;> ring

theorem masked_iff {x y : Nat} {nd : Node ℝ} (hn : L.mesh.nodes[nodeNo w x y]? = some nd) : L.Masked (nodeNo w x y) ↔ nd.isMasked = true := by
  constructor
  · rintro ⟨nd', h1, h2⟩
    rw [hn] at h1
    cases h1
    exact h2
  · exact fun h => ⟨nd, hn, h⟩

/-- A lattice point that is as close as one within `10⁻⁶` is the same. -/
theorem close_same {c : Coord ℝ} {x y x' y' : Nat} (hx : |(x : ℝ) - c.x| < 1 / 10 ^ 6) (hy : |(y : ℝ) - c.y| < 1 / 10 ^ 6)
    (hd : (c.x - x') ^ 2 + (c.y - y') ^ 2 = (c.x - x) ^ 2 + (c.y - y) ^ 2) : x' = x ∧ y' = y := by
  have one : ∀ {a b : ℕ} {t s : ℝ}, |(a : ℝ) - t| < 1 / 10 ^ 6 → (t - b) ^ 2 ≤ s → s ≤ 1 / 10 ^ 11 → b = a := by
    intro a b t s h1 h2 h3
    rw [abs_lt] at h1
    have h4 : (t - b) ^ 2 ≤ (1 / 10 ^ 5) ^ 2 := by norm_num at h3 ⊢; linarith
    have h5 := abs_le_of_sq_le_sq' h4 (by norm_num)
    have h6 : (b : ℝ) < a + 1 := by norm_num at h1 h5 ⊢; linarith [h1.1, h1.2, h5.1, h5.2]
    have h7 : (a : ℝ) < b + 1 := by norm_num at h1 h5 ⊢; linarith [h1.1, h1.2, h5.1, h5.2]
    have : b < a + 1 := by exact_mod_cast h6
    have : a < b + 1 := by exact_mod_cast h7
    omega
  have small : (c.x - x) ^ 2 + (c.y - y) ^ 2 ≤ 1 / 10 ^ 11 := by
    rw [abs_lt] at hx hy
    have a1 : (c.x - x) ^ 2 ≤ (1 / 10 ^ 6) ^ 2 := sq_le_sq' (by linarith [hx.2]) (by linarith [hx.1])
    have a2 : (c.y - y) ^ 2 ≤ (1 / 10 ^ 6) ^ 2 := sq_le_sq' (by linarith [hy.2]) (by linarith [hy.1])
    norm_num at a1 a2 ⊢
    linarith
  exact ⟨one hx (by rw [← hd]; linarith [sq_nonneg (c.y - y')]) small, one hy (by rw [← hd]; linarith [sq_nonneg (c.x - x')]) small⟩

/-- **C92** (limits): with the same move limit and masked nodes at the images of the masked nodes, the limits and flags of the image of a boundary point
are those of the point, if the point is not equally close to a masked and an unmasked lattice point (in particular if nothing is masked). -/
theorem C92_limits (R : Ready w h L t) (R' : Ready (σ.width w h) (σ.height w h) M t') (hl : M.moveLimit = L.moveLimit)
    (hm : ∀ x y, x ≤ w → y ≤ h → (M.Masked (nodeNo (σ.width w h) (σ.node w h x y).1 (σ.node w h x y).2) ↔ L.Masked (nodeNo w x y)))
    (e : discretise L t = .ok (b, L')) (e' : discretise M t' = .ok (b', M')) {p p' : BoundaryPoint ℝ} (hp : p ∈ b.points) (hp' : p' ∈ b'.points)
    (hc : p'.coord = σ.coord w h p.coord)
    (ht : ∀ x y x' y' : ℕ, x ≤ w → y ≤ h → x' ≤ w → y' ≤ h → (p.coord.x - x') ^ 2 + (p.coord.y - y') ^ 2 = (p.coord.x - x) ^ 2 + (p.coord.y - y) ^ 2 →
      (∀ kx ky : ℕ, (p.coord.x - x) ^ 2 + (p.coord.y - y) ^ 2 ≤ (p.coord.x - kx) ^ 2 + (p.coord.y - ky) ^ 2) →
      (L.Masked (nodeNo w x y) ↔ L.Masked (nodeNo w x' y'))) :
    p'.positiveLimit = p.positiveLimit ∧ p'.negativeLimit = p.negativeLimit ∧ p'.isDomain = p.isDomain ∧ p'.isFixed = p.isFixed := by
  obtain ⟨nx, ny, nd, n1, n2, n3, n4, n5, n6, n7, n8⟩ := C43_limits R e hp
  obtain ⟨mx', my', nd', m1, m2, m3, m4, m5, m6, m7, m8⟩ := C43_limits R' e' hp'
  have q := node_le σ m1 m2
  rw [Flip.width_width, Flip.height_height] at q
  have qq := σ.node_node m1 m2
  rw [Flip.width_width, Flip.height_height] at qq
  generalize (σ.node (σ.width w h) (σ.height w h) mx' my').1 = kx at q qq
  generalize (σ.node (σ.width w h) (σ.height w h) mx' my').2 = ky at q qq
  obtain ⟨rfl, rfl⟩ : mx' = (σ.node w h kx ky).1 ∧ my' = (σ.node w h kx ky).2 := by rw [qq]; exact ⟨rfl, rfl⟩
  have d1 := n4 kx ky
  have d2 := m4 (σ.node w h nx ny).1 (σ.node w h nx ny).2
  rw [hc, sqdist_flip σ q.1 q.2, sqdist_flip σ n1 n2] at d2
  have dd : (p.coord.x - kx) ^ 2 + (p.coord.y - ky) ^ 2 = (p.coord.x - nx) ^ 2 + (p.coord.y - ny) ^ 2 := le_antisymm d2 d1
  have mk : nd'.isMasked = true ↔ nd.isMasked = true := by
    rw [← masked_iff m3, hm kx ky q.1 q.2, ← ht nx ny kx ky n1 n2 q.1 q.2 dd n4, masked_iff n3]
  have near : (|((σ.node w h kx ky).1 : ℝ) - p'.coord.x| < 1 / 10 ^ 6 ∧ |((σ.node w h kx ky).2 : ℝ) - p'.coord.y| < 1 / 10 ^ 6) ↔
      |(nx : ℝ) - p.coord.x| < 1 / 10 ^ 6 ∧ |(ny : ℝ) - p.coord.y| < 1 / 10 ^ 6 := by
    have fl : (|((σ.node w h kx ky).1 : ℝ) - p'.coord.x| < 1 / 10 ^ 6 ∧ |((σ.node w h kx ky).2 : ℝ) - p'.coord.y| < 1 / 10 ^ 6) ↔
        |(kx : ℝ) - p.coord.x| < 1 / 10 ^ 6 ∧ |(ky : ℝ) - p.coord.y| < 1 / 10 ^ 6 := by
      rw [hc]
      cases σ
      · simp only [Flip.coord, Flip.point, Flip.node, Nat.cast_sub q.1, sub_sub_sub_cancel_left]
        rw [abs_sub_comm (p.coord.x)]
      · simp only [Flip.coord, Flip.point, Flip.node, Nat.cast_sub q.2, sub_sub_sub_cancel_left]
        rw [abs_sub_comm (p.coord.y)]
      · simp only [Flip.coord, Flip.point, Flip.node]
        exact and_comm
    rw [fl]
    constructor
    · rintro ⟨a1, a2⟩
      obtain ⟨rfl, rfl⟩ := close_same a1 a2 dd.symm
      exact ⟨a1, a2⟩
    · rintro ⟨a1, a2⟩
      obtain ⟨rfl, rfl⟩ := close_same a1 a2 dd
      exact ⟨a1, a2⟩
  have hf : p'.isFixed = p.isFixed := by
    rw [Bool.eq_iff_iff, m7, n7, mk, near]
  have hD := distToEdge_flip σ w h p.coord
  rw [← hc] at hD
  have dist : Boundary.distance ⟨((σ.node w h kx ky).1 : ℝ), ((σ.node w h kx ky).2 : ℝ)⟩ p'.coord = Boundary.distance ⟨nx, ny⟩ p.coord := by
    unfold Boundary.distance
    congr 1
    have s := sqdist_flip σ q.1 q.2 p.coord
    rw [← hc, dd] at s
    dsimp only
    linarith
  refine ⟨by rw [m5, n5, hl], ?_, ?_, hf⟩
  · rw [m8, n8, hl, hD, dist, hf]
    congr 1
    exact if_congr (by rw [mk]) rfl rfl
  · rw [Bool.eq_iff_iff, m6, n6, hl, hD]

/-- **C92** (boundary; partial: in a saddle whose value at the centre is zero the segments of a mirror image differ, see `C92_tie`): the segments of the image are the images
of the segments, so that the numbers of segments and the lengths are the same, in total and at every boundary point.  The reflection in the diagonal needs no condition. -/
theorem C92_boundary_partial (T : Tame w h L t) (T' : Tame (σ.width w h) (σ.height w h) M t') (hN : t = true ∨ NearSeen w h L t)
    (hN' : t' = true ∨ NearSeen (σ.width w h) (σ.height w h) M t') (I : σ.Image w h (level w L t) (level (σ.width w h) M t'))
    (ht : σ = .diagonal ∨ NoTie w h (level w L t)) (e : discretise L t = .ok (b, L')) (e' : discretise M t' = .ok (b', M')) :
    boundarySet b' = σ.point w h '' boundarySet b ∧ b'.nSegments = b.nSegments ∧ b'.length = b.length ∧
      ∀ p ∈ b.points, ∃ p' ∈ b'.points, p'.coord = σ.coord w h p.coord ∧ p'.nSegments = p.nSegments ∧ p'.length = p.length := by
  obtain ⟨_, _, e1, E⟩ := tame_exact T
  obtain ⟨_, _, e1', E'⟩ := tame_exact T'
  rw [e] at e1
  rw [e'] at e1'
  cases e1
  cases e1'
  have F := full_of T hN
  have F' := full_of T' hN'
  refine ⟨boundarySet_flip E E' F F' I ht, nSegments_flip E E' F F' I ht, length_flip E E' F F' I ht, fun p hp => ?_⟩
  obtain ⟨q, h1, h2, h3⟩ := point_flip E E' F (made T.toReady e) (made T'.toReady e') F' I hp
  exact ⟨q, h1, h2, (h3 ht).2, (h3 ht).1⟩

/-- **C92** (areas): the area fractions of the image are the images of the area fractions and the total is the same, saddles of all kinds included. -/
theorem C92_areas (T : Tame w h L t) (T' : Tame (σ.width w h) (σ.height w h) M t') (hN : t = true ∨ NearSeen w h L t)
    (hN' : t' = true ∨ NearSeen (σ.width w h) (σ.height w h) M t') (I : σ.Image w h (level w L t) (level (σ.width w h) M t'))
    (e : discretise L t = .ok (b, L')) (e' : discretise M t' = .ok (b', M')) (e1 : computeAreaFractions L' b = .ok L1)
    (e1' : computeAreaFractions M' b' = .ok M1) : M1.area = L1.area ∧
    ∀ x y, x < w → y < h → ∃ el el', L1.mesh.elements[cellNo w x y]? = some el ∧
      M1.mesh.elements[cellNo (σ.width w h) (σ.cell w h x y).1 (σ.cell w h x y).2]? = some el' ∧ el'.area = el.area := by
  refine ⟨?_, fun x y hx hy => ?_⟩
  · rw [C45_total_area T hN e e1, C45_total_area T' hN' e' e1']
    exact cells_sum σ (cellArea (level w L t)) (cellArea (level (σ.width w h) M t')) fun x y hx hy => cellArea_flip I hx hy
  · have hc := σ.cell_lt hx hy
    obtain ⟨el, h1, h2⟩ := C45_cells_partial T hN e e1 hx hy
    obtain ⟨el', h1', h2'⟩ := C45_cells_partial T' hN' e' e1' hc.1 hc.2
    exact ⟨el, el', h1, h1', by rw [h2, h2', cellArea_flip I hx hy]⟩

/-- **C92** (structure): the structure enclosed by the image is the image of the structure. -/
theorem C92_structure (I : σ.Image w h (level w L t) (level (σ.width w h) M t')) :
    structureSet (σ.width w h) (σ.height w h) (level (σ.width w h) M t') = σ.point w h '' structureSet w h (level w L t) := structureSet_flip I

end

/-! ### the fast marching method -/

section
open FMM
variable {σ : Flip} {w h : Nat} {m m' : Mesh ℝ} {sd sd' : List ℝ} {F F' : FMM ℝ} {t t' : Bool} {x y : Nat}

theorem cross_hor (hx : x ≤ w) (hy : y ≤ h) : crossings (HAdj w h) (vals sd) (nodeNo w x y) =
    {d | ∃ x', x' ≤ w ∧ (x' = x + 1 ∨ x = x' + 1) ∧ lay w sd x y * lay w sd x' y < 0 ∧ d = lay w sd x y / (lay w sd x y - lay w sd x' y)} := by
  ext d
  constructor
  · rintro ⟨n, ⟨x1, x', y1, h1, h2, h3, h4, rfl, h6⟩, h7, h8⟩
    obtain ⟨rfl, rfl⟩ := (nodeNo_inj hx h1).1 h4
    exact ⟨x', h2, h6, h7, h8⟩
  · rintro ⟨x', h2, h6, h7, h8⟩
    exact ⟨_, ⟨x, x', y, hx, h2, hy, rfl, rfl, h6⟩, h7, h8⟩

theorem cross_ver (hx : x ≤ w) (hy : y ≤ h) : crossings (VAdj w h) (vals sd) (nodeNo w x y) =
    {d | ∃ y', y' ≤ h ∧ (y' = y + 1 ∨ y = y' + 1) ∧ lay w sd x y * lay w sd x y' < 0 ∧ d = lay w sd x y / (lay w sd x y - lay w sd x y')} := by
  ext d
  constructor
  · rintro ⟨n, ⟨x1, y1, y', h1, h2, h3, h4, rfl, h6⟩, h7, h8⟩
    obtain ⟨rfl, rfl⟩ := (nodeNo_inj hx h1).1 h4
    exact ⟨y', h3, h6, h7, h8⟩
  · rintro ⟨y', h2, h6, h7, h8⟩
    exact ⟨_, ⟨x, y, y', hx, hy, h2, rfl, rfl, h6⟩, h7, h8⟩

theorem cross_flip (I : σ.Image w h (lay w sd) (lay (σ.width w h) sd')) (hx : x ≤ w) (hy : y ≤ h) :
    let i := nodeNo (σ.width w h) (σ.node w h x y).1 (σ.node w h x y).2
    let H := crossings (HAdj (σ.width w h) (σ.height w h)) (vals sd') i
    let V := crossings (VAdj (σ.width w h) (σ.height w h)) (vals sd') i
    (H = crossings (HAdj w h) (vals sd) (nodeNo w x y) ∧ V = crossings (VAdj w h) (vals sd) (nodeNo w x y)) ∨
      (H = crossings (VAdj w h) (vals sd) (nodeNo w x y) ∧ V = crossings (HAdj w h) (vals sd) (nodeNo w x y)) := by
  intro i H V
  have hn := node_le σ hx hy
  have h1 : H = _ := cross_hor hn.1 hn.2
  have h2 : V = _ := cross_ver hn.1 hn.2
  rw [h1, h2, cross_hor hx hy, cross_ver hx hy]
  have h0 := I x y hx hy
  cases σ with
  | leftRight =>
    left
    simp only [Flip.width, Flip.height, Flip.node] at h0 ⊢
    have hI : ∀ x' y', x' ≤ w → y' ≤ h → lay w sd' (w - x') y' = lay w sd x' y' := fun x' y' h1 h2 => I x' y' h1 h2
    rw [h0]
    constructor
    · ext d
      constructor
      · rintro ⟨a, h1, h2, h3, h4⟩
        have := hI (w - a) y (by omega) hy
        rw [Nat.sub_sub_self h1] at this
        rw [this] at h3 h4
        exact ⟨w - a, by omega, by omega, h3, h4⟩
      · rintro ⟨a, h1, h2, h3, h4⟩
        rw [← hI a y h1 hy] at h3 h4
        exact ⟨w - a, by omega, by omega, h3, h4⟩
    · ext d
      constructor
      · rintro ⟨a, h1, h2, h3, h4⟩
        rw [hI x a hx h1] at h3 h4
        exact ⟨a, h1, h2, h3, h4⟩
      · rintro ⟨a, h1, h2, h3, h4⟩
        rw [← hI x a hx h1] at h3 h4
        exact ⟨a, h1, h2, h3, h4⟩
  | upDown =>
    left
    simp only [Flip.width, Flip.height, Flip.node] at h0 ⊢
    have hI : ∀ x' y', x' ≤ w → y' ≤ h → lay w sd' x' (h - y') = lay w sd x' y' := fun x' y' h1 h2 => I x' y' h1 h2
    rw [h0]
    constructor
    · ext d
      constructor
      · rintro ⟨a, h1, h2, h3, h4⟩
        rw [hI a y h1 hy] at h3 h4
        exact ⟨a, h1, h2, h3, h4⟩
      · rintro ⟨a, h1, h2, h3, h4⟩
        rw [← hI a y h1 hy] at h3 h4
        exact ⟨a, h1, h2, h3, h4⟩
    · ext d
      constructor
      · rintro ⟨a, h1, h2, h3, h4⟩
        have := hI x (h - a) hx (by omega)
        rw [Nat.sub_sub_self h1] at this
        rw [this] at h3 h4
        exact ⟨h - a, by omega, by omega, h3, h4⟩
      · rintro ⟨a, h1, h2, h3, h4⟩
        rw [← hI x a hx h1] at h3 h4
        exact ⟨h - a, by omega, by omega, h3, h4⟩
  | diagonal =>
    right
    simp only [Flip.width, Flip.height, Flip.node] at h0 ⊢
    have hI : ∀ x' y', x' ≤ w → y' ≤ h → lay h sd' y' x' = lay w sd x' y' := fun x' y' h1 h2 => I x' y' h1 h2
    rw [h0]
    constructor
    · ext d
      constructor
      · rintro ⟨a, h1, h2, h3, h4⟩
        rw [hI x a hx h1] at h3 h4
        exact ⟨a, h1, h2, h3, h4⟩
      · rintro ⟨a, h1, h2, h3, h4⟩
        rw [← hI x a hx h1] at h3 h4
        exact ⟨a, h1, h2, h3, h4⟩
    · ext d
      constructor
      · rintro ⟨a, h1, h2, h3, h4⟩
        rw [hI a y h1 hy] at h3 h4
        exact ⟨a, h1, h2, h3, h4⟩
      · rintro ⟨a, h1, h2, h3, h4⟩
        rw [← hI a y h1 hy] at h3 h4
        exact ⟨a, h1, h2, h3, h4⟩

theorem onInterface_cross {i : Nat} : OnInterface w h (vals sd) i ↔
    vals sd i = 0 ∨ (crossings (HAdj w h) (vals sd) i).Nonempty ∨ (crossings (VAdj w h) (vals sd) i).Nonempty := by
  unfold OnInterface Adj Opposite crossings
  simp only [FP.eq_real, FP.nat_real, FP.lt_real, FP.mul_real, Nat.cast_zero]
  refine or_congr Iff.rfl ⟨?_, ?_⟩
  · rintro ⟨n, h1 | h1, h2⟩
    · exact .inl ⟨_, n, h1, h2, rfl⟩
    · exact .inr ⟨_, n, h1, h2, rfl⟩
  · rintro (⟨_, n, h1, h2, -⟩ | ⟨_, n, h1, h2, -⟩)
    · exact ⟨n, .inl h1, h2⟩
    · exact ⟨n, .inr h1, h2⟩

theorem onInterface_flip (I : σ.Image w h (lay w sd) (lay (σ.width w h) sd')) : σ.Nodes w h (OnInterface w h (vals sd))
    (OnInterface (σ.width w h) (σ.height w h) (vals sd')) := by
  intro x y hx hy
  have h0 : vals sd' (nodeNo (σ.width w h) (σ.node w h x y).1 (σ.node w h x y).2) = vals sd (nodeNo w x y) := I x y hx hy
  rw [onInterface_cross, onInterface_cross, h0]
  rcases cross_flip I hx hy with ⟨h1, h2⟩ | ⟨h1, h2⟩
  · rw [h1, h2]
  · rw [h1, h2]; tauto

/-- **C92** (reinitialisation, exit): the reinitialisation of the image ends the program iff that of the original does. -/
theorem C92_march_exit (G : IsGrid w h m) (G' : IsGrid (σ.width w h) (σ.height w h) m') (hl : sd.length = m.nNodes) (hl' : sd'.length = m'.nNodes)
    (I : σ.Image w h (lay w sd) (lay (σ.width w h) sd')) :
    marchDistance m' sd' (FMM.new m' false) = .error .exit ↔ marchDistance m sd (FMM.new m false) = .error .exit := by
  rw [C14_exit_iff G' _ hl' false (.inl rfl), C14_exit_iff G _ hl false (.inl rfl)]
  refine not_congr ⟨?_, ?_⟩
  · rintro ⟨i, hi, ho⟩
    obtain ⟨X, Y, hX, hY, rfl⟩ := G'.node_index (by rw [G'.nNodes]; exact hi)
    have hn := node_le σ hX hY
    have hnn := σ.node_node hX hY
    rw [Flip.width_width, Flip.height_height] at hn hnn
    have a := onInterface_flip I _ _ hn.1 hn.2
    rw [hnn] at a
    exact ⟨_, nodeNo_lt hn.1 hn.2, a.1 ho⟩
  · rintro ⟨i, hi, ho⟩
    obtain ⟨x, y, hx, hy, rfl⟩ := G.node_index (by rw [G.nNodes]; exact hi)
    have hn := node_le σ hx hy
    exact ⟨_, nodeNo_lt hn.1 hn.2, (onInterface_flip I x y hx hy).2 ho⟩

/-- **C92** (reinitialisation; partial: further away the values can differ, see `C92_reinit_differs`): the values given to the nodes next to the boundary of the image are the images of
the values given to the nodes next to the boundary. -/
theorem C92_reinit_partial (G : IsGrid w h m) (G' : IsGrid (σ.width w h) (σ.height w h) m') (hl : sd.length = m.nNodes) (hl' : sd'.length = m'.nNodes)
    (I : σ.Image w h (lay w sd) (lay (σ.width w h) sd')) (e : marchDistance m sd (FMM.new m t) = .ok F) (e' : marchDistance m' sd' (FMM.new m' t') = .ok F')
    (hx : x ≤ w) (hy : y ≤ h) (ho : OnInterface w h (vals sd) (nodeNo w x y)) :
    lay (σ.width w h) F'.sd (σ.node w h x y).1 (σ.node w h x y).2 = lay w F.sd x y := by
  have hn := node_le σ hx hy
  have h0 : vals sd' (nodeNo (σ.width w h) (σ.node w h x y).1 (σ.node w h x y).2) = vals sd (nodeNo w x y) := I x y hx hy
  have hi := nodeNo_lt hx hy
  have hi' := nodeNo_lt hn.1 hn.2
  rw [← G.nNodes] at hi
  rw [← G'.nNodes] at hi'
  unfold lay
  by_cases hz : vals sd (nodeNo w x y) = 0
  · rw [C16_zero G hl e hi hz, C16_zero G' hl' e' hi' (by rw [h0]; exact hz)]
  · have a : ∃ n, Adj w h (nodeNo w x y) n ∧ vals sd (nodeNo w x y) * vals sd n < 0 := by
      rcases ho with h1 | ⟨n, h1, h2⟩
      · simp at h1; exact absurd h1 hz
      · exact ⟨n, h1, by unfold Opposite at h2; simpa using h2⟩
    have a' : ∃ n, Adj (σ.width w h) (σ.height w h) (nodeNo (σ.width w h) (σ.node w h x y).1 (σ.node w h x y).2) n ∧
        vals sd' (nodeNo (σ.width w h) (σ.node w h x y).1 (σ.node w h x y).2) * vals sd' n < 0 := by
      rcases (onInterface_flip I x y hx hy).2 ho with h1 | ⟨n, h1, h2⟩
      · rw [h0] at h1; simp at h1; exact absurd h1 hz
      · exact ⟨n, h1, by unfold Opposite at h2; simpa using h2⟩
    obtain ⟨n, h1, h2⟩ := a
    obtain ⟨n', h1', h2'⟩ := a'
    rw [C16_value G hl e h1 h2, C16_value G' hl' e' h1' h2', h0]
    rcases cross_flip I hx hy with ⟨c1, c2⟩ | ⟨c1, c2⟩
    · rw [c1, c2]
    · rw [c1, c2, add_comm]

end

/-! ### where the images differ -/

section
open FMM

/-- **C92** (reinitialisation differs): the fast marching method does not treat mirror images alike.  On 3 × 1 cells, the mirror images of these values get
other values than the mirror images of the values obtained from them (the cause is the leftover value of `C21_stale_second_value`: neighbours are looked at from left to right). -/
theorem C92_reinit_differs : ∃ (m : Mesh ℝ) (sd sd' : List ℝ) (F F' : FMM ℝ), IsGrid 3 1 m ∧ sd.length = m.nNodes ∧ sd'.length = m.nNodes ∧
    Flip.leftRight.Image 3 1 (lay 3 sd) (lay 3 sd') ∧ marchDistance m sd (FMM.new m false) = .ok F ∧
    marchDistance m sd' (FMM.new m false) = .ok F' ∧ ¬ Flip.leftRight.Image 3 1 (lay 3 F.sd) (lay 3 F'.sd) := by
  obtain ⟨m, F, G, e, -, -, -, -, -, hne⟩ := C21_stale_second_value
  have hN : m.nNodes = 8 := G.nNodes
  obtain ⟨sd, hsd⟩ : ∃ sd : List ℝ, sd = [0, 1, 3 / 4, 1 / 2, 0, 0, -1 / 4, -1 / 2] := ⟨_, rfl⟩
  have hl : sd.length = m.nNodes := by rw [hN, hsd]; rfl
  have v0 : vals sd 0 = 0 := by rw [hsd]; simp [vals]
  have v1 : vals sd 1 = 1 := by rw [hsd]; simp [vals]
  have v2 : vals sd 2 = 3 / 4 := by rw [hsd]; simp [vals]
  have v3 : vals sd 3 = 1 / 2 := by rw [hsd]; simp [vals]
  have v5 : vals sd 5 = 0 := by rw [hsd]; simp [vals]
  have v6 : vals sd 6 = -1 / 4 := by rw [hsd]; simp [vals]
  have v7 : vals sd 7 = -1 / 2 := by rw [hsd]; simp [vals]
  have hI : HasInterface 3 1 (vals sd) := ⟨0, by norm_num, .inl (by simp [v0])⟩
  rcases C13_distance_safe G _ hl false with ⟨F', h1, -⟩ | h1
  swap
  · exact absurd hI ((C14_exit_iff G _ hl false (.inl rfl)).1 h1)
  refine ⟨m, [1 / 2, 3 / 4, 1, 0, -1 / 2, -1 / 4, 0, 0], sd, F, F', G, by rw [hN]; rfl, hl, ?_, e, h1, fun hc => hne ?_⟩
  · intro x y hx hy
    rw [hsd]
    interval_cases x <;> interval_cases y <;> simp [lay, vals, nodeNo, Flip.node]
  have hc2 : vals F'.sd 1 = vals F.sd 2 := hc 2 0 (by norm_num) (by norm_num)
  rw [← hc2]
  have n0 : ∀ j, nb m 0 j = (neighbourhood 3 1 0 0).getD j 0 := fun j => nb_value G (x := 0) (y := 0) (by norm_num) (by norm_num)
  have n1 : ∀ j, nb m 1 j = (neighbourhood 3 1 1 0).getD j 0 := fun j => nb_value G (x := 1) (y := 0) (by norm_num) (by norm_num)
  have n2 : ∀ j, nb m 2 j = (neighbourhood 3 1 2 0).getD j 0 := fun j => nb_value G (x := 2) (y := 0) (by norm_num) (by norm_num)
  have n5 : ∀ j, nb m 5 j = (neighbourhood 3 1 1 1).getD j 0 := fun j => nb_value G (x := 1) (y := 1) (by norm_num) (by norm_num)
  have A2 : Adj 3 1 2 6 := .inr ⟨2, 0, 1, by norm_num, by norm_num, by norm_num, rfl, rfl, .inl rfl⟩
  have A3 : Adj 3 1 3 7 := .inr ⟨3, 0, 1, by norm_num, by norm_num, by norm_num, rfl, rfl, .inl rfl⟩
  have o0 : OnInterface 3 1 (vals sd) 0 := .inl (by simp [v0])
  have o2 : OnInterface 3 1 (vals sd) 2 := .inr ⟨6, A2, by unfold Opposite; norm_num [v2, v6]⟩
  have o3 : OnInterface 3 1 (vals sd) 3 := .inr ⟨7, A3, by unfold Opposite; norm_num [v3, v7]⟩
  have o5 : OnInterface 3 1 (vals sd) 5 := .inl (by simp [v5])
  have w0 := C16_zero G hl h1 (by omega) v0
  have w5 := C16_zero G hl h1 (by omega) v5
  obtain ⟨-, p2, -⟩ := C16_bounds G hl h1 A2 (by rw [v2, v6]; norm_num)
  have q2 := (C16_bounds G hl h1 A2 (by rw [v2, v6]; norm_num)).2.2.2
  have hno : ¬ OnInterface 3 1 (vals sd) 1 := by
    rintro (h0 | ⟨n, ha, hn⟩)
    · simp [v1] at h0
    · obtain ⟨hne, j, hj, rfl⟩ := (adj_iff G (by omega)).1 ha
      have : nb m 1 j = 0 ∨ nb m 1 j = 2 ∨ nb m 1 j = 5 := by
        rw [n1]
        rw [n1, hN] at hne
        have : j = 0 ∨ j = 1 ∨ j = 2 ∨ j = 3 := by omega
        rcases this with rfl | rfl | rfl | rfl <;> simp [neighbourhood, nodeNoOr, nodeNo] at hne ⊢
      unfold Opposite at hn
      rcases this with h | h | h <;> rw [h] at hn <;> norm_num [v0, v1, v2, v5] at hn
  obtain ⟨s0, s', C, l, r, hall⟩ := C15_every_node_once G hl h1
  obtain ⟨hC, hv, -, hs', -, h3⟩ := hall 1 (by omega)
  obtain ⟨hs2, -⟩ := h3 hno
  obtain ⟨l1, l2, s1, -, r1, r2, hnf, hval⟩ := r.value hs2 (by rw [hs']; simp)
  have hz : ∀ i, i < 8 → OnInterface 3 1 (vals sd) i → s1.st i = .frozen ∧ s1.sd i = vals F'.sd i := by
    intro i hi ho'
    obtain ⟨-, hv, -, -, ho, -⟩ := hall i (by omega)
    obtain ⟨hf, -⟩ := ho ho'
    have e := (r1.frozen hf).1
    exact ⟨e, by rw [← (r2.frozen e).2.1, ← hv]⟩
  obtain ⟨z0, z0'⟩ := hz 0 (by omega) o0
  obtain ⟨z2, z2'⟩ := hz 2 (by omega) o2
  obtain ⟨z5, z5'⟩ := hz 5 (by omega) o5
  rw [w0] at z0'
  rw [w5] at z5'
  have hmax := maxVal_pos
  have s20 : sideOf m s1 1 0 = ⟨some 0, none⟩ := by
    unfold sideOf finalValue
    have e1 : nb m 1 0 = 0 := by rw [n1]; rfl
    have e2 : nb m 0 0 = 8 := by rw [n0]; rfl
    rw [e1, e2, z0, z0', abs_zero, if_pos ⟨by omega, rfl, hmax⟩, if_neg (by rw [hN]; tauto)]
  have s22 : sideOf m s1 1 2 = ⟨none, (sideOf m s1 1 2).second⟩ := by
    unfold sideOf finalValue
    have e1 : nb m 1 2 = 8 := by rw [n1]; rfl
    rw [e1, if_neg (by rw [hN]; tauto)]
  have s23 : sideOf m s1 1 3 = ⟨some 0, none⟩ := by
    unfold sideOf finalValue
    have e1 : nb m 1 3 = 5 := by rw [n1]; rfl
    have e2 : nb m 5 3 = 8 := by rw [n5]; rfl
    rw [e1, e2, z5, z5', abs_zero, if_pos ⟨by omega, rfl, hmax⟩, if_neg (by rw [hN]; tauto)]
  have a0 : axisCode m s1 1 0 = some (0, none) := by
    unfold axisCode upwindCode
    rw [s20]
    simp only [Side.only, Side.usable, Option.map_some]
    cases hs : (sideOf m s1 1 1).first with
    | none => simp
    | some v =>
      simp only [Option.map_some]
      rw [if_neg (by rw [abs_zero]; exact not_lt.2 (abs_nonneg _))]
  have a1 : axisCode m s1 1 1 = some (0, none) := by
    unfold axisCode upwindCode
    show (match (sideOf m s1 1 2).only, (sideOf m s1 1 3).only with
      | some a, some b => if |b.1| < |a.1| then some (b.1, b.2.or a.2) else some a
      | some a, none => some a
      | none, b => b) = _
    rw [s22, s23]
    simp [Side.only, Side.usable]
  have he : ∀ T, eik m s1 1 T = (T - 0) ^ 2 + (T - 0) ^ 2 := by
    intro T; unfold eik; rw [a0, a1]; simp only [diffSq]
  have hsq : Real.sqrt 2 ^ 2 = 2 := Real.sq_sqrt (by norm_num)
  have hpos : 0 < Real.sqrt 2 := Real.sqrt_pos.2 (by norm_num)
  obtain ⟨h4, -⟩ := updateV_solves (m := m) (s := s1) C 1 ⟨Real.sqrt 2 / 2, -Real.sqrt 2 / 2, by
    intro h; linarith, by rw [he]; linear_combination hsq / 2, by rw [he]; linear_combination hsq / 2⟩
  rw [← hval, ← hv, he] at h4
  exact h4

end

section

/-- The mirror image of `tie`. -/
noncomputable def eit (x y : Nat) : ℝ := if x = y then 1 / 2 else -1 / 2

theorem tie_boundary {F : Nat → Nat → ℝ} {c : ℝ} (hc : c = 1 / 2 ∨ c = -1 / 2) (h00 : F 0 0 = c) (h10 : F 1 0 = -c) (h11 : F 1 1 = c) (h01 : F 0 1 = -c) :
    ∃ (L L' : LevelSet ℝ) (b : Boundary ℝ),
      Tame 1 1 L true ∧ (∀ x y, x ≤ 1 → y ≤ 1 → level 1 L true x y = F x y) ∧ discretise L true = .ok (b, L') ∧
      (1 / 4, 1 / 4) ∈ boundarySet b ∧ ∀ z ∈ boundarySet b, z.1 + z.2 = 1 / 2 ∨ z.1 + z.2 = 3 / 2 := by
  have gen : Generic 1 1 F := by
    intro x y hx hy
    have hF : F x y = 1 / 2 ∨ F x y = -1 / 2 := by
      interval_cases x <;> interval_cases y <;> simp only [h00, h10, h11, h01] <;> rcases hc with rfl | rfl <;> norm_num
    rcases hF with h | h <;> rw [h]
    · rw [side_in (by norm_num)]; simp
    · rw [side_out (by norm_num)]; simp
  obtain ⟨L, -, T, hl⟩ := with_target 1 1 (by norm_num) (by norm_num) (by norm_num) F
    ⟨fun x y hx hy _ => by
        obtain rfl : x = 0 := by omega
        interval_cases y <;> simp only [Nat.zero_add, h00, h10, h11, h01] <;> rcases hc with rfl | rfl <;> norm_num,
      fun x y hx hy _ => by
        obtain rfl : y = 0 := by omega
        interval_cases x <;> simp only [Nat.zero_add, h00, h10, h11, h01] <;> rcases hc with rfl | rfl <;> norm_num⟩ gen.tidy
  obtain ⟨b, L', e, E⟩ := tame_exact T
  have l00 : level 1 L true 0 0 = c := by rw [hl 0 0 (by norm_num) (by norm_num), h00]
  have l10 : level 1 L true 1 0 = -c := by rw [hl 1 0 (by norm_num) (by norm_num), h10]
  have l11 : level 1 L true 1 1 = c := by rw [hl 1 1 (by norm_num) (by norm_num), h11]
  have l01 : level 1 L true 0 1 = -c := by rw [hl 0 1 (by norm_num) (by norm_num), h01]
  have harcs : cellArcs 1 L.mesh (values L true) true 0 0 = [(.e 0, .e 3), (.e 1, .e 2)] := by
    unfold cellArcs
    have hf : firstWay 1 (values L true) 0 0 = false := by
      unfold firstWay
      have h1 : centreSum 1 (values L true) 0 0 = 0 := by
        show level 1 L true 0 0 + level 1 L true 1 0 + level 1 L true 1 1 + level 1 L true 0 1 = 0
        rw [l00, l10, l11, l01]; ring
      rw [h1]
      simp
    rw [hf]
    refine ((arcs_pick _ _).1.symm.trans ?_)
    change arcs (pick (cellSide (level 1 L true) 0 0 0) (cellSide (level 1 L true) 0 0 1) (cellSide (level 1 L true) 0 0 2)
      (cellSide (level 1 L true) 0 0 3)) (fun _ => true) false = _
    simp only [cellSide, cornerAt, Nat.zero_add]
    rw [l00, l10, l11, l01]
    rcases hc with rfl | rfl
    · rw [side_in (by norm_num), side_out (by norm_num)]
      decide
    · rw [side_out (by norm_num), side_in (by norm_num)]
      decide
  have p0 : Region.pt ((LP.place 0 0 (.e 0)).coord (onGrid 1 (values L true))) = (1 / 2, 0) := by
    show Region.pt ((Place.hor 0 0).coord (level 1 L true)) = _
    simp only [Place.coord, Nat.zero_add, Region.pt]; rw [l00, l10]; rcases hc with rfl | rfl <;> norm_num
  have p3 : Region.pt ((LP.place 0 0 (.e 3)).coord (onGrid 1 (values L true))) = (0, 1 / 2) := by
    show Region.pt ((Place.ver 0 0).coord (level 1 L true)) = _
    simp only [Place.coord, Nat.zero_add, Region.pt]; rw [l00, l01]; rcases hc with rfl | rfl <;> norm_num
  have p1 : Region.pt ((LP.place 0 0 (.e 1)).coord (onGrid 1 (values L true))) = (1, 1 / 2) := by
    show Region.pt ((Place.ver 1 0).coord (level 1 L true)) = _
    simp only [Place.coord, Nat.zero_add, Region.pt]; rw [l10, l11]; rcases hc with rfl | rfl <;> norm_num
  have p2 : Region.pt ((LP.place 0 0 (.e 2)).coord (onGrid 1 (values L true))) = (1 / 2, 1) := by
    show Region.pt ((Place.hor 0 1).coord (level 1 L true)) = _
    simp only [Place.coord, Nat.zero_add, Region.pt]; rw [l01, l11]; rcases hc with rfl | rfl <;> norm_num
  refine ⟨L, L', b, T, hl, e, ?_, fun z hz => ?_⟩
  · refine (Front.boundary_arcs E).2 ⟨0, 0, by norm_num, by norm_num, (.e 0, .e 3), by rw [harcs]; simp, ?_⟩
    dsimp only
    rw [p0, p3]
    exact ⟨1 / 2, 1 / 2, by norm_num, by norm_num, by norm_num, by simp; norm_num⟩
  · obtain ⟨x, y, hx, hy, a, ha, hs⟩ := (Front.boundary_arcs E).1 hz
    obtain rfl : x = 0 := by omega
    obtain rfl : y = 0 := by omega
    rw [harcs] at ha
    simp only [List.mem_cons, List.not_mem_nil, or_false] at ha
    rcases ha with rfl | rfl
    · dsimp only at hs
      rw [p0, p3] at hs
      obtain ⟨s, t, h1, h2, h3, rfl⟩ := hs
      left
      simp
      linarith
    · dsimp only at hs
      rw [p1, p2] at hs
      obtain ⟨s, t, h1, h2, h3, rfl⟩ := hs
      right
      simp
      linarith

/-- **C92** (saddles differ): if the value at the centre of a saddle is exactly zero, the two segments run the same way in the mirror image, so that they are not the mirror images of the segments. -/
theorem C92_tie_differs : ∃ (L L' M M' : LevelSet ℝ) (b b' : Boundary ℝ), Tame 1 1 L true ∧ Tame 1 1 M true ∧
    Flip.leftRight.Image 1 1 (level 1 L true) (level 1 M true) ∧ discretise L true = .ok (b, L') ∧ discretise M true = .ok (b', M') ∧
    boundarySet b' ≠ Flip.leftRight.point 1 1 '' boundarySet b := by
  obtain ⟨L, L', b, T, hl, e, hb, hz⟩ := tie_boundary (F := tie) (c := -1 / 2) (.inr rfl) (by simp [tie]) (by simp [tie]; norm_num) (by simp [tie]) (by simp [tie]; norm_num)
  obtain ⟨M, M', b', T', hl', e', hb', hz'⟩ := tie_boundary (F := eit) (c := 1 / 2) (.inl rfl) (by simp [eit]) (by simp [eit]; norm_num) (by simp [eit]) (by simp [eit]; norm_num)
  refine ⟨L, L', M, M', b, b', T, T', ?_, e, e', fun hc => ?_⟩
  · intro x y hx hy
    rw [hl x y hx hy]
    refine (hl' (1 - x) y (by omega) hy).trans ?_
    interval_cases x <;> interval_cases y <;> simp [tie, eit]
  · rw [hc] at hb'
    obtain ⟨z, h1, h2⟩ := hb'
    have h3 := hz z h1
    simp only [Flip.point, Prod.mk.injEq] at h2
    rcases h3 with h3 | h3 <;> push_cast at h2 <;> linarith [h2.1, h2.2]

end

/-! ### examples -/

/-- The hypotheses of `C92_new` are met by a hole left of the middle, whose mirror image is a hole right of the middle. -/
example (f : Bool) : ∃ L M : LevelSet ℝ, new 10 10 (.holes [⟨⟨3, 5⟩, 3 / 2⟩]) (1 / 2 : ℝ) 3 f = .ok L ∧
    new 10 10 (.holes [⟨⟨7, 5⟩, 3 / 2⟩]) (1 / 2 : ℝ) 3 f = .ok M ∧ IsImage .leftRight 10 10 L M := by
  obtain ⟨L, hL⟩ := (C22_accepts_iff (D := ℝ) (w := 10) (h := 10) (by norm_num) (by norm_num) (by norm_num)
    (.holes [⟨⟨3, 5⟩, 3 / 2⟩]) (by simp) (1 / 2) 3 (by norm_num) f).2.2 ⟨by norm_num, by norm_num, by norm_num, fun h => by cases h⟩
  obtain ⟨M, hM⟩ := (C22_accepts_iff (D := ℝ) (w := 10) (h := 10) (by norm_num) (by norm_num) (by norm_num)
    (.holes [⟨⟨7, 5⟩, 3 / 2⟩]) (by simp) (1 / 2) 3 (by norm_num) f).2.2 ⟨by norm_num, by norm_num, by norm_num, fun h => by cases h⟩
  refine ⟨L, M, hL, hM, C92_new (by norm_num) (by norm_num) (by norm_num) (by norm_num) hL (m' := 1 / 2) ?_⟩
  have : [(⟨⟨3, 5⟩, 3 / 2⟩ : Hole ℝ)].map (Flip.leftRight.hole 10 10) = [⟨⟨7, 5⟩, 3 / 2⟩] := by
    simp only [List.map_cons, List.map_nil, Flip.hole, Flip.coord, Flip.point]
    norm_num
  rw [this]
  exact hM

/-- The hypotheses of `C92_points`, `C92_boundary_partial` and `C92_areas` are met by a straight boundary left of the middle and its mirror image. -/
example : ∃ L M : LevelSet ℝ, Tame 2 1 L true ∧ Tame 2 1 M true ∧ Flip.leftRight.Image 2 1 (level 2 L true) (level 2 M true) ∧
    NoTie 2 1 (level 2 L true) ∧ CutEdge 2 1 (level 2 L true) (.hor 0 0) ∧ CutEdge 2 1 (level 2 M true) (.hor 1 0) := by
  have gen : ∀ F : Nat → Nat → ℝ, (∀ x y, x ≤ 2 → y ≤ 1 → F x y = -3 / 4 ∨ F x y = 1 / 4 ∨ F x y = 5 / 4) → Generic 2 1 F := by
    intro F hF x y hx hy
    rcases hF x y hx hy with h | h | h <;> rw [h]
    · rw [side_out (by norm_num)]; simp
    · rw [side_in (by norm_num)]; simp
    · rw [side_in (by norm_num)]; simp
  obtain ⟨L, -, T, hl⟩ := with_target 2 1 (by norm_num) (by norm_num) (by norm_num) (fun x _ => x - 3 / 4)
    ⟨fun x y hx hy _ => by push_cast; rw [show (x : ℝ) - 3 / 4 - (x + 1 - 3 / 4) = -1 by ring]; norm_num, fun x y hx hy _ => by norm_num⟩
    (gen _ fun x y hx _ => by interval_cases x <;> norm_num).tidy
  obtain ⟨M, -, T', hm⟩ := with_target 2 1 (by norm_num) (by norm_num) (by norm_num) (fun x _ => 5 / 4 - x)
    ⟨fun x y hx hy _ => by push_cast; rw [show (5 : ℝ) / 4 - x - (5 / 4 - (x + 1)) = 1 by ring]; norm_num, fun x y hx hy _ => by norm_num⟩
    (gen _ fun x y hx _ => by interval_cases x <;> norm_num).tidy
  refine ⟨L, M, T, T', fun x y hx hy => ?_, fun x y hx hy hs => ?_, ?_, ?_⟩
  · rw [hl x y hx hy]
    refine (hm (2 - x) y (by omega) hy).trans ?_
    push_cast [hx]
    ring
  · have e : level 2 L true (x + 1) y = level 2 L true (x + 1) (y + 1) := by
      rw [hl _ _ (by omega) (by omega), hl _ _ (by omega) (by omega)]
    have := hs.2.1
    rw [e] at this
    rcases this with ⟨h1, h2⟩ | ⟨h1, h2⟩ <;> rw [h1] at h2 <;> cases h2
  · refine ⟨by simp [Place.inGrid, Place.ends], .inr ⟨?_, ?_⟩, by simp⟩
    · rw [hl 0 0 (by norm_num) (by norm_num)]; exact side_out (by norm_num)
    · rw [hl 1 0 (by norm_num) (by norm_num)]; exact side_in (by norm_num)
  · refine ⟨by simp [Place.inGrid, Place.ends], .inl ⟨?_, ?_⟩, by simp⟩
    · rw [hm 1 0 (by norm_num) (by norm_num)]; exact side_in (by norm_num)
    · rw [hm 2 0 (by norm_num) (by norm_num)]; exact side_out (by norm_num)

/-- The conditions of `C92_limits` on limits and masks hold for any two level sets constructed with the same move limit. -/
example {σ : Flip} {w h : Nat} (hw : 1 ≤ w) (hh : 1 ≤ h) (hN : (w + 1) * (h + 1) < 2 ^ 31) {s s' : Shape ℝ} {m : ℝ} {k k' : Nat} (hk : k < 2 ^ 32)
    (hk' : k' < 2 ^ 32) {f f' : Bool} {L M : LevelSet ℝ} (e : new w h s m k f = .ok L) (e' : new (σ.width w h) (σ.height w h) s' m k' f' = .ok M) :
    M.moveLimit = L.moveLimit ∧ (∀ i, ¬ L.Masked i) ∧ ∀ i, ¬ M.Masked i := by
  obtain ⟨h1, h2, h3⟩ := image_size σ hw hh hN
  have B := built hw hh hN hk e
  have B' := built h1 h2 h3 hk' e'
  exact ⟨by rw [B.params.1, B'.params.1], B.unmasked, B'.unmasked⟩

end Slsm
