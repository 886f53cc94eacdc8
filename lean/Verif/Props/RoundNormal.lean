import Verif.Proof.RoundNormal
import Verif.Props.RoundMove
import Verif.Proof.Program

/-! # C109: normal vectors in rounded arithmetic -/

namespace Slsm

open FP Rounding LevelSet Boundary

section
variable {R : Rounding} {w h : Nat} {L : LevelSet R.Num} {b b' : Boundary R.Num} {c : ℝ} {d : Coord ℝ}

/-- **C109** (returns): `computeNormalVectors` returns if the points recorded at the nodes of the narrow band are points of the boundary. -/
theorem C109_returns (hr : Reachable w h L) (hb : b.nPoints = b.points.length)
    (hs : ∀ n ∈ L.band, ∀ nd, L.mesh.nodes[n]? = some nd → nd.nBoundaryPoints ≤ 4 ∧ ∀ k ∈ pointsAt L.mesh n, k < b.points.length) :
    ∃ b', computeNormalVectors b L = .ok b' := by
  have C := hr.core
  have G := C.grid
  have hfit := fit_rnd hr
  have hw : w < 2 ^ 31 := by nlinarith
  have hh : h < 2 ^ 31 := by nlinarith
  have key : wp (computeNormalVectors b L) (fun _ => True) noErr := by
    unfold computeNormalVectors
    rw [wp_bind]
    refine wp_imp (wp_forN (fun _ v => v.length = b.points.length) rfl fun i hi v hv => ?_) fun v hv => ?_
    · exact wp_modAt (by omega) (by rw [wp_pure, List.length_set, hv])
    rw [wp_bind]
    refine wp_imp (wp_forN (fun _ (s : List (BoundaryPoint R.Num) × List Bool × List R.Num) =>
      s.1.length = b.points.length ∧ s.2.1.length = b.points.length ∧ s.2.2.length = b.points.length)
      ⟨hv, by rw [List.length_replicate, hb], by rw [List.length_replicate, hb]⟩ fun i hi s hs' => ?_) fun s hs' => ?_
    · have hbc := C.band_count
      have hl : i < L.narrowBand.length := by omega
      have hgi : L.narrowBand[i]? = some L.narrowBand[i] := List.getElem?_eq_getElem hl
      have hmem : L.narrowBand[i] ∈ L.band := by
        unfold LevelSet.band
        refine List.mem_of_getElem? (i := i) ?_
        rw [List.getElem?_take, if_pos hi, hgi]
      generalize L.narrowBand[i] = n at *
      obtain ⟨x, y, hx, hy, rfl⟩ := G.node_index (C.band_free _ hmem).1
      obtain ⟨nd, hnd⟩ := G.node_exists hx hy
      obtain ⟨h4, hpts⟩ := hs _ hmem nd hnd
      have c1 : nd.coord.x.val = x := by
        rw [G.coord x y _ hx hy hnd]
        exact val_nat (by omega)
      have c2 : nd.coord.y.val = y := by
        rw [G.coord x y _ hx hy hnd]
        exact val_nat (by omega)
      have f1 : floor nd.coord.x = x := by
        show ⌊nd.coord.x.val⌋₊ = x
        rw [c1]; exact Nat.floor_natCast x
      have f2 : floor nd.coord.y = y := by
        show ⌊nd.coord.y.val⌋₊ = y
        rw [c2]; exact Nat.floor_natCast y
      unfold normalNode
      rw [wp_bind, rd_some hgi, wp_ok, wp_bind, rd_some hnd, wp_ok]
      refine wp_ite (fun _ => ?_) fun _ => hs'
      dsimp only
      rw [f1, f2, G.width, G.height]
      obtain ⟨X, e1, -⟩ := lineDiff_near (G := fun k => LevelSet.sdAt L k y) (g := fun k => phi w L k y) G.w_pos (by omega)
        (fun k hk => sdAt_eq C.toWF hk hy) hx
      obtain ⟨Y, e2, -⟩ := lineDiff_near (G := fun k => LevelSet.sdAt L x k) (g := fun k => phi w L x k) G.h_pos (by omega)
        (fun k hk => sdAt_eq C.toWF hx hk) hy
      rw [wp_bind, e1, wp_ok, wp_bind, e2, wp_ok]
      refine wp_forN (fun _ (s : List (BoundaryPoint R.Num) × List Bool × List R.Num) =>
        s.1.length = b.points.length ∧ s.2.1.length = b.points.length ∧ s.2.2.length = b.points.length) hs' fun j hj s ⟨a1, a2, a3⟩ => ?_
      obtain ⟨P, st, wt⟩ := s
      dsimp only at a1 a2 a3
      have h5 := G.slots _ nd hnd
      have hjl : j < nd.boundaryPoints.length := by omega
      have hk : nd.boundaryPoints[j] < b.points.length := by
        apply hpts
        unfold pointsAt
        rw [hnd]
        exact List.mem_take_iff_getElem.2 ⟨j, by omega, rfl⟩
      unfold normalPoint
      dsimp only
      refine (wp_bind _ _ _ _).2 (wp_rd hjl ?_)
      refine (wp_bind _ _ _ _).2 (wp_rd (by omega) ?_)
      refine wp_ite (fun _ => ?_) fun _ => ?_
      · refine (wp_bind _ _ _ _).2 (wp_wr (by omega) ?_)
        refine (wp_bind _ _ _ _).2 (wp_wr (by omega) ?_)
        refine (wp_bind _ _ _ _).2 (wp_wr (by omega) ?_)
        simp [a1, a2, a3]
      · refine (wp_bind _ _ _ _).2 (wp_rd (by omega) ?_)
        refine wp_ite (fun _ => ⟨a1, a2, a3⟩) fun _ => ?_
        refine (wp_bind _ _ _ _).2 (wp_wr (by omega) ?_)
        refine (wp_bind _ _ _ _).2 (wp_rd (by omega) ?_)
        refine (wp_bind _ _ _ _).2 (wp_wr (by omega) ?_)
        simp [a1, a2, a3]
    · obtain ⟨P, st, wt⟩ := s
      obtain ⟨a1, a2, a3⟩ := hs'
      dsimp only at a1 a2 a3 ⊢
      rw [wp_bind]
      refine wp_imp (wp_forN (fun _ v => v.length = b.points.length) a1 fun i hi v hv => ?_) fun v hv => trivial
      refine (wp_bind _ _ _ _).2 (wp_rd (by omega) ?_)
      exact wp_modAt (by omega) (by rw [wp_pure, List.length_set, hv])
  obtain ⟨b', e, -⟩ := wp_noErr_iff.1 key
  exact ⟨b', e⟩

/-- **C109** (cone): in every rounding of real arithmetic, if the gradients at all nodes of the narrow band at which a point is recorded are not tiny and
lie in a cone around the unit vector `d` (cosine at least `c`), the point gets a vector of length one up to `2⁻⁴²`, which lies in the same cone up
to `(m + 1) 2⁻⁴²`, where `m` is the number of records. -/
theorem C109_cone (hr : Reachable w h L) (hb : b.nPoints = b.points.length) (e : computeNormalVectors b L = .ok b') {k : Nat}
    {pt : BoundaryPoint R.Num} (hk : b.points[k]? = some pt) (hp : InDomainR w h pt.coord) (hdom : pt.isDomain = false)
    (hd : d.x ^ 2 + d.y ^ 2 = 1) (hc : 1 / 2 ^ 10 ≤ c) (hc1 : c ≤ 1) (hm0 : recorded L k ≠ 0) (hm : recorded L k ≤ 2 ^ 20)
    (hg : ∀ x y, x ≤ w → y ≤ h → nodeNo w x y ∈ L.band → k ∈ pointsAt L.mesh (nodeNo w x y) →
      InCone c d (nodalGradient w h (lay w L.signedDistance) (x, y))) :
    ∃ n : Coord R.Num, b'.points[k]? = some { pt with normal := n } ∧ |n.x.val ^ 2 + n.y.val ^ 2 - 1| ≤ 1 / 2 ^ 42 ∧
      c - (recorded L k + 1) / 2 ^ 42 ≤ dot ⟨n.x.val, n.y.val⟩ d := by
  obtain ⟨N, W, hM, he⟩ := normals_at hr.core (fit_rnd hr) hb e hk ⟨⟨hp.1, hp.2.1⟩, hp.2.2⟩ hd hc1 hm hg
  obtain ⟨h1, h2⟩ := Mix.unit (p := { pt with normal := N }) hM hd hc hc1 hm0 hm hdom
  refine ⟨_, ?_, h1, h2⟩
  rw [he]
  unfold unitNormal
  split <;> rfl

/-- **C109** (direction): the square of the distance of the vector from `d` is at most `2 (1 - c)`, up to `(2 m + 3) 2⁻⁴²`; for a plane with
gradient in the direction `d` it vanishes up to rounding. -/
theorem C109_direction (hr : Reachable w h L) (hb : b.nPoints = b.points.length) (e : computeNormalVectors b L = .ok b') {k : Nat}
    {pt : BoundaryPoint R.Num} (hk : b.points[k]? = some pt) (hp : InDomainR w h pt.coord) (hdom : pt.isDomain = false)
    (hd : d.x ^ 2 + d.y ^ 2 = 1) (hc : 1 / 2 ^ 10 ≤ c) (hc1 : c ≤ 1) (hm0 : recorded L k ≠ 0) (hm : recorded L k ≤ 2 ^ 20)
    (hg : ∀ x y, x ≤ w → y ≤ h → nodeNo w x y ∈ L.band → k ∈ pointsAt L.mesh (nodeNo w x y) →
      InCone c d (nodalGradient w h (lay w L.signedDistance) (x, y))) :
    ∃ n : Coord R.Num, b'.points[k]? = some { pt with normal := n } ∧
      (n.x.val - d.x) ^ 2 + (n.y.val - d.y) ^ 2 ≤ 2 * (1 - c) + (2 * recorded L k + 3) / 2 ^ 42 := by
  obtain ⟨n, h1, h2, h3⟩ := C109_cone hr hb e hk hp hdom hd hc hc1 hm0 hm hg
  refine ⟨n, h1, ?_⟩
  have := (abs_le.1 h2).2
  unfold dot at h3
  dsimp only at h3
  have e1 : (n.x.val - d.x) ^ 2 + (n.y.val - d.y) ^ 2 = (n.x.val ^ 2 + n.y.val ^ 2 - 1) + 1 + (d.x ^ 2 + d.y ^ 2) -
    2 * (n.x.val * d.x + n.y.val * d.y) := by ring
  have e2 : (2 * (recorded L k : ℝ) + 3) / 2 ^ 42 = 2 * ((recorded L k + 1) / 2 ^ 42) + 1 / 2 ^ 42 := by ring
  rw [e1, e2, hd]
  linarith

end

/-- Values `x - 1/2` on a mesh of width five. -/
noncomputable def slopeVal (i : Nat) : binary64.Num := FP.sub (FP.nat (i % 6)) (Boundary.halfNum 1 (by norm_num))

theorem slopeVal_val (i : Nat) : (slopeVal i).val = (i % 6 : ℕ) - 1 / 2 := by
  have h6 : i % 6 < 6 := Nat.mod_lt _ (by norm_num)
  unfold slopeVal
  rw [val_sub, val_nat (by omega)]
  simp only [Boundary.halfNum]
  generalize i % 6 = n at *
  cases n with
  | zero =>
    have h2 := binary64.half 1 (by norm_num)
    have := binary64.neg _ h2
    norm_num at this ⊢
    exact this
  | succ n =>
    have h2 := binary64.half (2 * n + 1) (by omega)
    rw [show (((n + 1 : ℕ) : ℝ) - ((1 : ℕ) : ℝ) / 2) = ((2 * n + 1 : ℕ) : ℝ) / 2 by push_cast; ring, h2]
    push_cast
    ring

/-- The hypotheses of C109 can be met, in binary64: the plane `x - 1/2`, with a boundary point at `(1/2, 0)` recorded at the node at `(1, 0)` of the narrow
band; `computeNormalVectors` returns, and gives the point the vector `(1, 0)` up to rounding. -/
example : ∃ (L : LevelSet binary64.Num) (b b' : Boundary binary64.Num) (n : Coord binary64.Num), Reachable 5 5 L ∧ computeNormalVectors b L = .ok b' ∧
    b'.points.map (·.normal) = [n] ∧ (n.x.val - 1) ^ 2 + n.y.val ^ 2 ≤ 5 / 2 ^ 42 := by
  obtain ⟨L0, hr0, hv0, hb0, he0⟩ := board_level
  have C0 := hr0.core
  have hN : L0.mesh.nNodes = 36 := C0.grid.nNodes
  obtain ⟨note, hnote⟩ : ∃ note : Nat → Node binary64.Num → Node binary64.Num, note = fun i nd =>
    { nd with boundaryPoints := [0, 0, 0, 0], nBoundaryPoints := if i = 1 then 1 else 0 } := ⟨_, rfl⟩
  obtain ⟨m, hm⟩ : ∃ m : Mesh binary64.Num, m = { L0.mesh with nodes := L0.mesh.nodes.mapIdx note } := ⟨_, rfl⟩
  have hget : ∀ i : Nat, m.nodes[i]? = (L0.mesh.nodes[i]?).map (note i) := by
    intro i; rw [hm]; simp
  have A : Annot L0.mesh m := by
    refine ⟨by rw [hm], by rw [hm], by rw [hm], by rw [hm], by rw [hm], by rw [hm]; simp, by rw [hm], fun i nd hi => ?_, fun i el hi => ?_⟩
    · rw [hget, Option.map_eq_some_iff] at hi
      obtain ⟨a, ha, rfl⟩ := hi
      refine ⟨a, ha, ?_, ?_⟩
      · rw [hnote]
      · rw [hnote, C0.grid.slots _ _ ha]; rfl
    · exact ⟨el, by rw [hm] at hi; exact hi, SameElem.refl _⟩
  have hr1 : Reachable 5 5 { L0 with signedDistance := (List.range 36).map slopeVal, velocity := L0.velocity, gradient := L0.gradient, target := L0.target } :=
    .call hr0 (.assign ((List.range 36).map slopeVal) L0.velocity L0.gradient L0.target (by simp [hN]) C0.velocity C0.gradient)
  obtain ⟨L, hL⟩ : ∃ L : LevelSet binary64.Num, L = { L0 with signedDistance := (List.range 36).map slopeVal, mesh := m, area := L0.area } := ⟨_, rfl⟩
  have hr : Reachable 5 5 L := by
    rw [hL]
    exact .call hr1 (.annotate m L0.area (A.grid C0.grid) fun i => A.flags i)
  have hband : L.band = L0.band := by rw [hL]; rfl
  have hmesh : L.mesh = m := by rw [hL]
  obtain ⟨pt, hpt⟩ : ∃ pt : BoundaryPoint binary64.Num, pt = { midPoint (FP.nat 0) with coord := ⟨Boundary.halfNum 1 (by norm_num), FP.nat 0⟩, isDomain := false } := ⟨_, rfl⟩
  obtain ⟨b, hb⟩ : ∃ b : Boundary binary64.Num, b = { (Boundary.new : Boundary binary64.Num) with points := [pt], nPoints := 1 } := ⟨_, rfl⟩
  have hpa : ∀ n, pointsAt L.mesh n = if n = 1 ∧ (L0.mesh.nodes[n]?).isSome then [0] else [] := by
    intro n
    unfold pointsAt
    rw [hmesh, hget, hnote]
    cases L0.mesh.nodes[n]? with
    | none => simp
    | some nd =>
      by_cases h1 : n = 1
      · simp [h1]
      · simp [h1]
  have hsome : (L0.mesh.nodes[1]?).isSome := by
    obtain ⟨nd, hnd⟩ := C0.grid.node_exists (x := 1) (y := 0) (by norm_num) (by norm_num)
    rw [show L0.mesh.nodes[1]? = some nd from hnd]
    rfl
  obtain ⟨b', e⟩ := C109_returns (b := b) hr (by rw [hb]; rfl) fun n hn nd hnd => by
    constructor
    · rw [hmesh, hget, Option.map_eq_some_iff] at hnd
      obtain ⟨a, -, rfl⟩ := hnd
      rw [hnote]
      dsimp only
      split <;> norm_num
    · intro k hk
      rw [hpa] at hk
      split at hk
      · simp at hk; rw [hb, hk]; simp
      · simp at hk
  have hrec : recorded L 0 = 1 := by
    unfold recorded
    have hs := hr.core.band_sorted
    have hnd : L.band.Nodup := hs.imp fun h => Nat.ne_of_lt h
    have h1 : 1 ∈ L.band := by rw [hband]; exact hb0
    have hf : (fun n => (pointsAt L.mesh n).count 0) = fun n => if n = 1 then 1 else 0 := by
      funext n
      rw [hpa]
      by_cases hn : n = 1
      · subst hn; simp [hsome]
      · simp [hn]
    rw [hf]
    have : (L.band.map fun n => if n = 1 then 1 else 0).sum = L.band.count 1 := by
      generalize L.band = l
      induction l with
      | nil => rfl
      | cons a t ih =>
        rw [List.map_cons, List.sum_cons, ih, List.count_cons, Nat.add_comm]
        simp
    rw [this, List.count_eq_one_of_mem hnd h1]
  have hlay : ∀ x y, x ≤ 5 → y ≤ 5 → lay 5 L.signedDistance x y = x - 1 / 2 := by
    intro x y hx hy
    unfold lay
    rw [hL]
    dsimp only
    have : nodeNo 5 x y < 36 := by unfold nodeNo; omega
    rw [vals_map_range _ this, slopeVal_val, show nodeNo 5 x y % 6 = x by unfold nodeNo; omega]
  have hcx : pt.coord.x.val = 1 / 2 := by rw [hpt]; simp [Boundary.halfNum]
  have hcy : pt.coord.y.val = 0 := by rw [hpt]; exact val_zero
  obtain ⟨n, h1, h2⟩ := C109_direction (d := ⟨1, 0⟩) (c := 1) (k := 0) (pt := pt) hr (by rw [hb]; rfl) e (by rw [hb]; rfl)
    (by unfold InDomainR; rw [hcx, hcy]; norm_num) (by rw [hpt]) (by norm_num) (by norm_num) le_rfl (by rw [hrec]; norm_num) (by rw [hrec]; norm_num) (by
      intro x y hx hy hbm hk
      have hn1 : nodeNo 5 x y = 1 := by
        rw [hpa] at hk
        by_contra hne
        simp [hne] at hk
      have hx1 : x = 1 := by unfold nodeNo at hn1; omega
      have hy0 : y = 0 := by unfold nodeNo at hn1; omega
      subst hx1 hy0
      have hgr : nodalGradient 5 5 (lay 5 L.signedDistance) (1, 0) = ⟨1, 0⟩ := by
        unfold nodalGradient lineSlope
        simp only [Coord.mk.injEq]
        constructor
        · rw [if_neg (by norm_num), if_neg (by norm_num), hlay _ _ (by norm_num) (by norm_num), hlay _ _ (by norm_num) (by norm_num)]
          norm_num
        · rw [if_pos trivial, hlay _ _ (by norm_num) (by norm_num), hlay _ _ (by norm_num) (by norm_num)]
          norm_num
      rw [hgr]
      unfold InCone vnorm dot
      norm_num)
  refine ⟨L, b, b', n, hr, e, ?_, ?_⟩
  · have hl : b'.points.length = 1 := by
      have := (Program.normals_frame e).2.length_eq
      rw [← this, hb]; rfl
    match hq : b'.points, hl with
    | [q], _ =>
      rw [hq] at h1
      simp at h1
      simp [h1]
  · rw [hrec] at h2
    norm_num at h2 ⊢
    exact h2

end Slsm
