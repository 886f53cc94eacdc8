import Verif.Proof.ProgramDemo
import Verif.Proof.Demo
import Verif.Props.Program

/-! # A complete iteration

The domain has 5 × 5 cells and its edge is fixed; two teeth (columns of four nodes) are inside, the rest is outside. -/

namespace Slsm.Program

open LevelSet FP

/-- Nodes inside. -/
def tooth (x y : Nat) : Prop := (x = 2 ∨ x = 4) ∧ 1 ≤ y ∧ y ≤ 4

instance (x y : Nat) : Decidable (tooth x y) := by unfold tooth; infer_instance

/-- Values positive on the teeth and negative elsewhere, neither small nor large. -/
def Comb (f : Nat → ℝ) : Prop := ∀ x y, x ≤ 5 → y ≤ 5 →
  (tooth x y → 1 / 8 ≤ f (nodeNo 5 x y) ∧ f (nodeNo 5 x y) ≤ 3 / 8) ∧
  (¬ tooth x y → -(3 / 8) ≤ f (nodeNo 5 x y) ∧ f (nodeNo 5 x y) ≤ -(1 / 8))

theorem Comb.abs {f : Nat → ℝ} (hf : Comb f) {x y : Nat} (hx : x ≤ 5) (hy : y ≤ 5) : |f (nodeNo 5 x y)| ≤ 3 / 8 := by
  obtain ⟨h1, h2⟩ := hf x y hx hy
  rw [abs_le]
  by_cases h : tooth x y
  · have := h1 h
    constructor <;> linarith
  · have := h2 h
    constructor <;> linarith

theorem Comb.side {f : Nat → ℝ} (hf : Comb f) {x y : Nat} (hx : x ≤ 5) (hy : y ≤ 5) :
    nodeSide (f (nodeNo 5 x y)) = if tooth x y then .inside else .outside := by
  obtain ⟨h1, h2⟩ := hf x y hx hy
  split
  · rename_i h
    rw [nodeSide_inside]
    have := h1 h
    norm_num
    linarith
  · rename_i h
    rw [nodeSide_outside]
    have := h2 h
    norm_num
    linarith

/-- Neighbours on the other side, horizontally. -/
theorem Comb.interface {f : Nat → ℝ} (hf : Comb f) {x y : Nat} (hx : 1 ≤ x ∧ x ≤ 4) (hy : 1 ≤ y ∧ y ≤ 4) :
    OnInterface 5 5 f (nodeNo 5 x y) := by
  by_cases h : tooth x y
  · have h' : ¬ tooth (x - 1) y := by unfold tooth at *; omega
    refine .inr ⟨nodeNo 5 (x - 1) y, .inl ⟨x, x - 1, y, by omega, by omega, by omega, rfl, rfl, .inr (by omega)⟩, ?_⟩
    have a := (hf x y (by omega) (by omega)).1 h
    have b := (hf (x - 1) y (by omega) (by omega)).2 h'
    unfold Opposite
    simp only [FP.lt_real, FP.mul_real, FP.nat_real, Nat.cast_zero]
    have : f (nodeNo 5 x y) * f (nodeNo 5 (x - 1) y) < 0 := by nlinarith
    simpa using this
  · have h' : tooth (x + 1) y := by unfold tooth at *; omega
    refine .inr ⟨nodeNo 5 (x + 1) y, .inl ⟨x, x + 1, y, by omega, by omega, by omega, rfl, rfl, .inl rfl⟩, ?_⟩
    have a := (hf x y (by omega) (by omega)).2 h
    have b := (hf (x + 1) y (by omega) (by omega)).1 h'
    unfold Opposite
    have : f (nodeNo 5 x y) * f (nodeNo 5 (x + 1) y) < 0 := by nlinarith
    simpa using this

/-- A level set with given values, with all nodes but those of the fixed edge in the band, and no mines. -/
structure Combed (L : LevelSet ℝ) : Prop where
  reachable : Reachable 5 5 L
  values : Comb (vals L.signedDistance)
  unmasked : ∀ i, ¬ L.Masked i
  band : ∀ x y, x ≤ 5 → y ≤ 5 → (nodeNo 5 x y ∈ L.band ↔ (1 ≤ x ∧ x ≤ 4) ∧ 1 ≤ y ∧ y ≤ 4)
  mines : L.mineList = []

theorem comb_level : ∃ L, Combed L ∧ L.moveLimit = 1 / 2 ∧ ∀ x y, x ≤ 5 → y ≤ 5 →
    vals L.signedDistance (nodeNo 5 x y) = if tooth x y then 1 / 4 else -(1 / 4) := by
  obtain ⟨L, hL⟩ := (C22_accepts_iff (D := ℝ) (w := 5) (h := 5) (by norm_num) (by norm_num) (by norm_num)
    (.holes []) (by simp) (1 / 2) 3 (by norm_num) true).2.2
    ⟨by norm_num, by norm_num, by norm_num, fun h => by cases h⟩
  have hr : Reachable 5 5 L := .new (by norm_num) (by norm_num) (by norm_num) (by norm_num) hL
  have B := built (by norm_num) (by norm_num) (by norm_num) (by norm_num) hL
  have C := hr.core
  have hN : L.mesh.nNodes = 36 := C.grid.nNodes
  have hval : ∀ x y, x ≤ 5 → y ≤ 5 → vals L.signedDistance (nodeNo 5 x y) = (edgeDist 5 5 x y : ℝ) := by
    intro x y hx hy
    rcases (C23_holes_exact (by norm_num) (by norm_num) (by norm_num) (by norm_num) hL hx hy).1 with h | ⟨hole, hm, -⟩
    · exact h
    · cases hm
  have hle : ∀ x y, x ≤ 5 → y ≤ 5 → edgeDist 5 5 x y ≤ 2 := by
    intro x y hx hy
    unfold edgeDist
    simp only [Nat.min_def]
    split_ifs <;> omega
  let sd : List ℝ := (List.range 36).map fun i => if tooth (i % 6) (i / 6) then 1 / 4 else -(1 / 4)
  have hsd : ∀ x y, x ≤ 5 → y ≤ 5 → vals sd (nodeNo 5 x y) = if tooth x y then 1 / 4 else -(1 / 4) := by
    intro x y hx hy
    have hlt : nodeNo 5 x y < 36 := nodeNo_lt (w := 5) (h := 5) hx hy
    rw [vals_map_range _ hlt, show nodeNo 5 x y % 6 = x by unfold nodeNo; omega, show nodeNo 5 x y / 6 = y by unfold nodeNo; omega]
  refine ⟨_, ⟨.call hr (.assign sd L.velocity L.gradient [] (by simp [sd, hN]) C.velocity C.gradient), fun x y hx hy => ?_, B.unmasked, fun x y hx hy => ?_, ?_⟩,
    B.params.1, hsd⟩
  · dsimp only
    rw [hsd x y hx hy]
    constructor <;> intro h
    · rw [if_pos h]; norm_num
    · rw [if_neg h]; norm_num
  · show nodeNo 5 x y ∈ L.band ↔ _
    rw [B.band.band_mem]
    have hedge := C31_edge hr hx hy
    have hi : nodeNo 5 x y < L.mesh.nNodes := by rw [C.grid.nNodes]; exact nodeNo_lt hx hy
    constructor
    · rintro ⟨⟨-, -, h3⟩, -⟩
      have := h3 B.params.2.2
      rw [hedge] at this
      omega
    · intro h
      refine ⟨⟨hi, B.unmasked _, fun _ => by rw [hedge]; omega⟩, ?_⟩
      rw [B.params.2.1, hval x y hx hy]
      have := hle x y hx hy
      have h2 : (edgeDist 5 5 x y : ℝ) ≤ 2 := by exact_mod_cast this
      simp only [FP.abs_real, FP.nat_real, FP.lt_real]
      rw [abs_of_nonneg (by positivity)]
      norm_num
      linarith
  · show L.mineList = []
    refine List.eq_nil_iff_forall_not_mem.2 fun i hi => ?_
    obtain ⟨⟨hfree, -⟩, h2⟩ := (B.band.mine_mem i).1 hi
    obtain ⟨x, y, hx, hy, rfl⟩ := C.grid.node_index hfree.1
    rw [B.params.2.1, hval x y hx hy] at h2
    have h3 : (edgeDist 5 5 x y : ℝ) ≤ 2 := by exact_mod_cast hle x y hx hy
    simp only [FP.abs_real, FP.nat_real, FP.lt_real] at h2
    rw [abs_of_nonneg (by positivity)] at h2
    norm_num at h2
    have := hle x y hx hy
    omega

theorem Combed.generic {L : LevelSet ℝ} (H : Combed L) : Generic 5 5 (Boundary.level 5 L false) := by
  intro x y hx hy
  change nodeSide (vals L.signedDistance (nodeNo 5 x y)) ≠ _
  rw [H.values.side hx hy]
  split <;> simp

theorem Combed.tame {L : LevelSet ℝ} (H : Combed L) : Boundary.Tame 5 5 L false := by
  have hg : Gentle 5 5 (Boundary.level 5 L false) := by
    refine ⟨fun x y hx hy _ => ?_, fun x y hx hy _ => ?_⟩
    · change |vals L.signedDistance _ - vals L.signedDistance _| ≤ 1
      have a := abs_le.1 (H.values.abs (show x ≤ 5 by omega) hy)
      have b := abs_le.1 (H.values.abs hx hy)
      rw [abs_le]
      constructor <;> linarith
    · change |vals L.signedDistance _ - vals L.signedDistance _| ≤ 1
      have a := abs_le.1 (H.values.abs hx (show y ≤ 5 by omega))
      have b := abs_le.1 (H.values.abs hx hy)
      rw [abs_le]
      constructor <;> linarith
  have hside : ∀ x y, x ≤ 5 → y ≤ 5 → nodeSide (Boundary.level 5 L false x y) = if tooth x y then .inside else .outside :=
    fun x y hx hy => H.values.side hx hy
  have hact : ∀ x y, tooth x y → ∃ nd, L.mesh.nodes[nodeNo 5 x y]? = some nd ∧ (nd.isActive = true ∨ nd.isMasked = true) := by
    intro x y ht
    have : nodeNo 5 x y ∈ L.band := by
      unfold tooth at ht
      exact (H.band x y (by omega) (by omega)).2 (by omega)
    obtain ⟨nd, h1, h2⟩ := (H.reachable.core.active _).2 this
    exact ⟨nd, h1, .inl h2⟩
  have hcross : ∀ x y x' y', x ≤ 5 → y ≤ 5 → x' ≤ 5 → y' ≤ 5 →
      Crossed (nodeSide (Boundary.level 5 L false x y)) (nodeSide (Boundary.level 5 L false x' y')) → tooth x y ∨ tooth x' y' := by
    intro x y x' y' h1 h2 h3 h4 hc
    by_contra hn
    rw [not_or] at hn
    rw [hside _ _ h1 h2, hside _ _ h3 h4, if_neg hn.1, if_neg hn.2] at hc
    unfold Crossed at hc
    simp at hc
  refine ⟨ready_of_reachable H.reachable, hg, .inr fun p hp => ?_, H.generic.tidy⟩
  obtain ⟨h1, h2, h3⟩ := hp
  cases p with
  | node x y => exact absurd rfl (h3 x y)
  | hor x y =>
    have a := h1 (x, y) (by simp [Place.ends])
    have b := h1 (x + 1, y) (by simp [Place.ends])
    rcases hcross _ _ _ _ a.1 a.2 b.1 b.2 h2 with h | h
    · exact ⟨(x, y), by simp [Place.ends], hact _ _ h⟩
    · exact ⟨(x + 1, y), by simp [Place.ends], hact _ _ h⟩
  | ver x y =>
    have a := h1 (x, y) (by simp [Place.ends])
    have b := h1 (x, y + 1) (by simp [Place.ends])
    rcases hcross _ _ _ _ a.1 a.2 b.1 b.2 h2 with h | h
    · exact ⟨(x, y), by simp [Place.ends], hact _ _ h⟩
    · exact ⟨(x, y + 1), by simp [Place.ends], hact _ _ h⟩

/-- A contour that passes between lattice points and cuts an edge has a point of positive length. -/
theorem positive_point {w h : Nat} {L L' : LevelSet ℝ} {b : Boundary ℝ} (T : Boundary.Tame w h L false) (hg : Generic w h (Boundary.level w L false))
    {q : Place} (hcut : CutEdge w h (Boundary.level w L false) q) (e : Boundary.discretise L false = .ok (b, L')) : ∃ p ∈ b.points, 0 < p.length := by
  obtain ⟨k, pt, h1, h2, -, h4, -⟩ := C39_watertight T e hcut
  have hlen : 0 < (Boundary.segmentsOf b k).length := by
    by_cases hr : q.onRim w h
    · rw [h4.1 hr]; norm_num
    · rw [h4.2 hr]; norm_num
  obtain ⟨j, hj⟩ := List.exists_mem_of_length_pos hlen
  obtain ⟨s, hs⟩ : ∃ s, s ∈ b.segments := by
    unfold Boundary.segmentsOf at hj
    simp only [List.mem_filter, List.mem_range] at hj
    exact ⟨b.segments[j], List.getElem_mem hj.1⟩
  have hall : ∀ s ∈ b.segments, 0 < s.length := by
    intro s hs
    obtain ⟨p, q, x, y, g1, g2, g3, -⟩ := (C38_segments T.toReady e).1 s hs
    obtain ⟨-, -, -, -, -, hne, -⟩ := C38_segments_exact T e hs
    rw [g3]
    refine lt_of_le_of_ne (Real.sqrt_nonneg _) fun h0 => hne ?_
    have hz := (Real.sqrt_eq_zero (add_nonneg (mul_self_nonneg _) (mul_self_nonneg _))).1 h0.symm
    have hx : p.coord.x = q.coord.x := by nlinarith [sq_nonneg (p.coord.x - q.coord.x), sq_nonneg (p.coord.y - q.coord.y)]
    have hy : p.coord.y = q.coord.y := by nlinarith [sq_nonneg (p.coord.x - q.coord.x), sq_nonneg (p.coord.y - q.coord.y)]
    exact (C39_closed_curves T hg e g2).2.2 _ _ g1 (by
      cases hp : p.coord; cases hq : q.coord
      rw [hp, hq] at hx hy
      simp only at hx hy
      rw [hx, hy])
  have hb : 0 < b.length := by
    rw [(C38_segments T.toReady e).2.1]
    refine lt_of_lt_of_le (hall s hs) (List.single_le_sum (fun v hv => ?_) _ (List.mem_map.2 ⟨s, hs, rfl⟩))
    obtain ⟨s', hs', rfl⟩ := List.mem_map.1 hv
    exact (hall s' hs').le
  rw [← (C40_point_lengths T.toReady e).1] at hb
  by_contra hc
  push Not at hc
  have : ∀ l : List (BoundaryPoint ℝ), (∀ p ∈ l, p.length ≤ 0) → (l.map fun p => p.length).sum ≤ 0 := by
    intro l
    induction l with
    | nil => simp
    | cons p l ih =>
      intro h
      rw [List.map_cons, List.sum_cons]
      exact add_nonpos (h p List.mem_cons_self) (ih fun q hq => h q (List.mem_cons_of_mem _ hq))
  exact absurd hb (not_lt.2 (this _ hc))

theorem Combed.boundary {L L' : LevelSet ℝ} {b : Boundary ℝ} (H : Combed L) (e : Boundary.discretise L false = .ok (b, L')) :
    (∀ p ∈ b.points, p.isFixed = false) ∧ ∃ p ∈ b.points, 0 < p.length := by
  constructor
  · intro p hp
    obtain ⟨nx, ny, nd, h1, h2, h3, -, -, -, h4, -⟩ := C43_limits H.tame.toReady e hp
    by_contra hc
    exact H.unmasked _ ⟨nd, h3, (h4.1 (by simpa using hc)).1⟩
  · refine positive_point H.tame H.generic (q := .hor 1 2) ⟨fun q hq => ?_, ?_, fun x y h => by cases h⟩ e
    · simp only [Place.ends, List.mem_cons, List.not_mem_nil, or_false] at hq
      rcases hq with rfl | rfl <;> exact ⟨by norm_num, by norm_num⟩
    · show Crossed (nodeSide (vals L.signedDistance (nodeNo 5 1 2))) (nodeSide (vals L.signedDistance (nodeNo 5 (1 + 1) 2)))
      rw [H.values.side (by norm_num) (by norm_num), H.values.side (by norm_num) (by norm_num), if_neg (by decide), if_pos (by decide)]
      unfold Crossed
      simp

/-- Gradients are bounded, whatever the velocities are. -/
theorem gradient_bound (w h : Nat) (f : Nat → Nat → ℝ) : ∃ G : ℝ, 0 ≤ G ∧ ∀ L L' : LevelSet ℝ, Reachable w h L → 4 ≤ w → 4 ≤ h →
    field w L = f → computeGradients L = .ok L' → ∀ i, i < L.mesh.nNodes → vals L'.gradient i ≤ G := by
  let g : Nat × Nat → ℝ := fun q => upwindGradient w h f (-1) q.1 q.2 + upwindGradient w h f 1 q.1 q.2 +
    |f q.1 q.2 - f (inward w q.1) (inward h q.2)| * Real.sqrt 2
  have u0 : ∀ s x y, 0 ≤ upwindGradient w h f s x y := fun s x y => Real.sqrt_nonneg _
  have c0 : ∀ x y, 0 ≤ |f x y - f (inward w x) (inward h y)| * Real.sqrt 2 := fun x y => by positivity
  have g0 : ∀ q, 0 ≤ g q := fun q => by
    have := u0 (-1) q.1 q.2
    have := u0 1 q.1 q.2
    have := c0 q.1 q.2
    show 0 ≤ _ + _ + _
    linarith
  refine ⟨∑ q ∈ Finset.range (w + 1) ×ˢ Finset.range (h + 1), g q, Finset.sum_nonneg fun q _ => g0 q, fun L L' hr hw hh hf e i hi => ?_⟩
  obtain ⟨x, y, hx, hy, rfl⟩ := hr.core.grid.node_index hi
  have hmem : (x, y) ∈ Finset.range (w + 1) ×ˢ Finset.range (h + 1) := by
    rw [Finset.mem_product, Finset.mem_range, Finset.mem_range]
    exact ⟨by omega, by omega⟩
  refine le_trans ?_ (Finset.single_le_sum (fun q _ => g0 q) hmem)
  have a1 := u0 (-1) x y
  have a2 := u0 1 x y
  have a3 := c0 x y
  show _ ≤ upwindGradient w h f (-1) x y + upwindGradient w h f 1 x y + |f x y - f (inward w x) (inward h y)| * Real.sqrt 2
  obtain ⟨h1, h2, h3⟩ := C34_value hr hw hh e hx hy
  rw [hf] at h2 h3
  by_cases hb : nodeNo w x y ∈ L.band
  · by_cases hc : FlatCorner w h f x y
    · rw [h3 hb hc]; linarith
    · rw [h2 hb hc]
      split <;> linarith
  · rw [h1 hb]; linarith

/-- Discretising changes nothing that matters here. -/
theorem Combed.discretised {L L' : LevelSet ℝ} {b : Boundary ℝ} (H : Combed L) (e : Boundary.discretise L false = .ok (b, L')) : Combed L' := by
  obtain ⟨A, hL⟩ := (Boundary.made H.tame.toReady e).annot
  refine ⟨C36_reachable H.reachable H.tame.toReady e, by rw [hL]; exact H.values, fun i hi => ?_, by rw [hL]; exact H.band, by rw [hL]; exact H.mines⟩
  obtain ⟨nd', h1, h2⟩ := hi
  obtain ⟨nd, h3, h4⟩ := A.node i nd' h1
  exact H.unmasked i ⟨nd, h3, by rw [h4.eq] at h2; exact h2⟩

/-- The first iteration of the area minimisation program with a solver that suggests a small step. -/
theorem step_demo (K : Nat) : ∃ (s s' : State Unit ℝ) (nlopt : Optimise ℝ → NLoptRun ℝ) (fuel : Nat), K ≤ fuel ∧ Running 5 5 minimiseArea s ∧
    step minimiseArea nlopt fuel 0 s = .ok s' ∧ s.runningTime = 0 ∧ 0 < s'.runningTime ∧ Combed s.levelSet ∧ Combed s'.levelSet ∧
    ∃ t, advance minimiseArea nlopt fuel 0 s = .ok t ∧ Combed t.levelSet := by
  obtain ⟨L1, H, hml, hval⟩ := comb_level
  have hr1 := H.reachable
  have T := H.tame
  obtain ⟨b, L2, e2⟩ := C41_safe_partial T
  obtain ⟨b1, p1, b2, b2'⟩ := H.boundary e2
  have hL2 : L2 = { L1 with mesh := L2.mesh } := by
    obtain ⟨_, _, -, -, -, -, -, -, -, -, -, -, -, h4⟩ := C36_node_status T.toReady e2 (Nat.zero_le 5) (Nat.zero_le 5)
    exact h4
  let s : State Unit ℝ := { levelSet := L2, boundary := b, lambdas := [0], nReinit := 0, runningTime := 0, rng := () }
  have es : launch minimiseArea L1 1 () = .ok s := by
    unfold launch
    unfold refresh
    dsimp only
    rw [e2]
    simp only [bind, Except.bind, minimiseArea, pure, Except.pure]
    simp [s]
  have hs : Running 5 5 minimiseArea s := .launch hr1 es
  obtain ⟨L', L0, b0, F⟩ := hs.fits regular_area
  have hr2 := F.reachable
  have hsd : s.levelSet.signedDistance = L1.signedDistance := by show L2.signedDistance = _; rw [hL2]
  have hband : s.levelSet.band = L1.band := by show L2.band = _; rw [hL2]; rfl
  have hmines : s.levelSet.mineList = [] := by rw [← H.mines]; show L2.mineList = _; rw [hL2]; rfl
  have hgrid := hr2.core.grid
  have hN : s.levelSet.mesh.nNodes = 36 := hgrid.nNodes
  have H2 : Combed s.levelSet := H.discretised e2
  have hmask := H2.unmasked
  obtain ⟨ba, hba⟩ := setSensitivity_safe (k := 0) (value := fun _ => pure (FP.nat 1)) (b := s.boundary) fun p hp =>
    ⟨by rw [(F.fresh hp).1]; simp, _, rfl⟩
  have hone : ∀ p ∈ ba.points, p.sensitivities.getD 0 0 = 1 := by
    intro p hp
    obtain ⟨q, hq, v, hv, -, e⟩ := forall₂_mem' (setSensitivity_ok hba).2 hp
    cases hv
    rw [e, (F.fresh hq).1]
    simp
  have V := valid_single F (setSensitivity_frame hba).2 rfl (by
    obtain ⟨p', hp', h⟩ := forall₂_mem (setSensitivity_frame hba).2 b2
    exact ⟨p', hp', by rw [h.1]; exact b1 p1 b2, by rw [hone p' hp']; norm_num, by rw [h.1]; exact b2'⟩)
  obtain ⟨G, hG0, hG⟩ := gradient_bound 5 5 (field 5 s.levelSet)
  have hε : 0 < 1 / (4 * (G + 1)) := by positivity
  obtain ⟨o, fuel, r, s0, s1, s2, s3, sc, hfuel, h1, h2, h3, -, h5, S⟩ := Optimise.demo_with V (nlopt := Optimise.shortSolver (1 / (4 * (G + 1))))
    (fun _ => ⟨1, rfl⟩) K fun s s0 s1 hs R => by
      left
      have : s.nConstraints = 0 := by rw [hs]; rfl
      exact R.none_stay fun m hm => by omega
  have hoP : o.points = ba.points := by rw [h2]; rfl
  have hmax : o.maxDisplacement = 1 / 2 := by
    have : o.maxDisplacement = s.levelSet.moveLimit := by rw [h2]; rfl
    rw [this]
    show L2.moveLimit = _
    rw [hL2]
    exact hml
  obtain ⟨hneg, hsmall⟩ := Optimise.short_step hε h3 (by rw [h2]; rfl) (by rw [hmax]; norm_num) S (by rw [hoP]; exact hone)
  have hin : ∀ p ∈ r.1.points, InDomain 5 5 p.coord := by
    intro q hq
    obtain ⟨i, hi⟩ := List.mem_iff_getElem?.1 hq
    obtain ⟨-, -, c3, c4⟩ := Optimise.C48_consistent (.made h1) (obj := r.2) h5
    have hi' : i < o.points.length := by rw [← c3]; exact (List.getElem?_eq_some_iff.1 hi).1
    obtain ⟨q'', d1, d2, -⟩ := c4 i o.points[i] (List.getElem?_eq_getElem hi')
    rw [hi] at d1
    cases d1
    have hm : o.points[i] ∈ ba.points := by rw [← hoP]; exact List.getElem_mem hi'
    obtain ⟨ps, e1, e2⟩ := forall₂_mem' (setSensitivity_frame hba).2 hm
    rw [d2, e2.1]
    exact (F.fresh e1).2.2.2
  have hint : ∀ i, i ∈ s.levelSet.band → OnInterface 5 5 (vals s.levelSet.signedDistance) i := by
    intro i hi
    obtain ⟨x, y, hx, hy, rfl⟩ := hgrid.node_index (hr2.core.band_free i hi).1
    have := (H2.band x y hx hy).1 hi
    exact H2.values.interface this.1 this.2
  have hpo := pointsOk_real hgrid (fit_of_reachable hr2) hin
  obtain ⟨Lv, v1, v2, v3, v4⟩ := wp_noErr_iff.1 (initialiseVelocities_spec hr2.core hpo)
  obtain ⟨Fv, hFv⟩ := C18_nothing_to_extend (D := ℝ) (vel := Lv.velocity) false hgrid hr2.core.sd v3
    ⟨nodeNo 5 1 1, by decide, H2.values.interface (by norm_num) (by norm_num)⟩ fun i hi ha => hint i ((hr2.core.active i).1 ha)
  obtain ⟨Lw, hLw⟩ : ∃ Lw, computeVelocities r.1.points s.levelSet = .ok Lw := by
    unfold computeVelocities
    rw [v1]
    simp only [bind, Except.bind]
    rw [show Lv.mesh = s.levelSet.mesh by rw [v2], show Lv.signedDistance = s.levelSet.signedDistance by rw [v2], hFv]
    exact ⟨_, rfl⟩
  have rw1 : Reachable 5 5 Lw := .call hr2 (.velocities _ hLw)
  obtain ⟨Lg, hLg, f2, -⟩ := C34_safe rw1 (by norm_num) (by norm_num)
  have rg1 : Reachable 5 5 Lg := .call rw1 (.gradients hLg)
  have f1 := (C32_frame hr2 hin hLw).1
  have hmineg : Lg.mineList = [] := by
    rw [← hmines, f2, f1]
    rfl
  have hbandg : Lg.band = s.levelSet.band := by rw [f2, f1]; rfl
  have hsdg : Lg.signedDistance = s.levelSet.signedDistance := by rw [f2, f1]
  obtain ⟨u, Lu, hx⟩ : ∃ u Lu, Lg.update r.1.timeStep = .ok (u, Lu) := by
    have := update_spec rg1.core r.1.timeStep
    cases hu : update r.1.timeStep Lg with
    | ok x => exact ⟨x.1, x.2, rfl⟩
    | error er =>
      rw [hu, wp_error] at this
      obtain ⟨-, L1, M, ⟨i, hi, -⟩, -⟩ := this
      have : L1.mineList = Lg.mineList := by rw [M.frame]; rfl
      rw [this, hmineg] at hi
      cases hi
  obtain ⟨φ, M, k1, k2, -, k4, k5, -, k7⟩ := C29_update_effect rg1 hx
  have hu : u = false := by
    cases u
    · rfl
    · obtain ⟨i, hi, -⟩ := k1.1 rfl
      rw [hmineg] at hi
      cases hi
  subst hu
  obtain ⟨k2, k2', k2''⟩ := k2 rfl
  let s' : State Unit ℝ := State.mk Lu { ba with points := r.1.points } r.1.lambdas 1 (0 + r.1.timeStep) ()
  have hadv : advance minimiseArea (Optimise.shortSolver (1 / (4 * (G + 1)))) fuel 0 s = .ok s' := by
    unfold advance
    rw [show (minimiseArea : Problem Unit ℝ).assign s.levelSet s.boundary = .ok ba from hba]
    simp only [bind, Except.bind]
    rw [show (minimiseArea : Problem Unit ℝ).distances s.levelSet = .ok [] from rfl]
    dsimp only
    rw [h1]
    dsimp only
    rw [h5]
    dsimp only
    rw [show (minimiseArea : Problem Unit ℝ).extend r.1.points r.1.timeStep s.rng s.levelSet = .ok (r.1.points, r.1.timeStep, (), Lw) by
      show plain _ _ _ _ = _
      unfold plain
      rw [hLw]
      rfl]
    dsimp only
    rw [hLg]
    dsimp only
    rw [hx]
    rfl
  -- velocities and displacements
  obtain ⟨-, htime, huni, -⟩ := C72_uniform hs hadv
  have huni := huni hneg.ne
  have hvp : ∀ p ∈ r.1.points, -1 ≤ p.velocity ∧ p.velocity ≤ 0 := by
    intro q hq
    obtain ⟨u1, u2, u3⟩ := huni q hq
    have hneg' : s'.lambdas.getD 0 0 < 0 := hneg
    cases hf : q.isFixed
    · cases hd : q.isDomain
      · rw [u2 hf hd, if_pos hneg']; norm_num
      · have := u3 hf hd
        rwa [if_pos hneg'] at this
    · rw [u1 hf]; norm_num
  have hdt : r.1.timeStep = |r.1.lambdas.getD 0 0| := by
    have : s'.runningTime = s.runningTime + |s'.lambdas.getD 0 0| := htime
    have h' : 0 + r.1.timeStep = 0 + |r.1.lambdas.getD 0 0| := this
    linarith
  have hdt0 : 0 < r.1.timeStep := by rw [hdt]; exact abs_pos.2 hneg.ne
  have hdt1 : r.1.timeStep * (G + 1) ≤ 1 / 8 := by
    rw [hdt]
    rw [hmax] at hsmall
    have : 1 / (4 * (G + 1)) * (1 / 2) * (G + 1) = 1 / 8 := by field_simp; norm_num
    nlinarith
  have hvu : Combed Lu := by
    refine ⟨.call rg1 (.update _ _ hx), fun x y hx hy => ?_, fun i h => ?_, fun x y hx hy => ?_, by rw [k2'', hmineg]⟩
    · rw [k2]
      by_cases hb : nodeNo 5 x y ∈ s.levelSet.band
      · have hin' := (H2.band x y hx hy).1 hb
        have hne : ¬ Lg.OnDomainEdge (nodeNo 5 x y) := by rw [C31_edge rg1 hx hy]; omega
        rw [M.moved _ (by rw [hbandg]; exact hb) fun h => hne h.1]
        simp only [FP.sub_real, FP.mul_real]
        have hv := nodeVelocity_bounds (C32_interface_velocity hr2 hin hLw hx hy (hint _ hb)) (.inl hb) (by norm_num) hvp
        have hvel : Lg.velocity = Lw.velocity := by rw [f2]
        have hlt : nodeNo 5 x y < Lw.mesh.nNodes := by rw [rw1.core.grid.nNodes]; exact nodeNo_lt hx hy
        have g0 := C34_nonneg rw1 (by norm_num) (by norm_num) hLg hlt
        have g1 := hG Lw Lg rw1 (by norm_num) (by norm_num) (by unfold field; rw [f1]) hLg _ hlt
        rw [hvel, hsdg, hsd, hval x y hx hy]
        have a1 : r.1.timeStep * vals Lg.gradient (nodeNo 5 x y) ≤ 1 / 8 := by nlinarith
        have a0 : 0 ≤ r.1.timeStep * vals Lg.gradient (nodeNo 5 x y) := mul_nonneg hdt0.le g0
        constructor <;> intro h
        · rw [if_pos h]
          constructor <;> nlinarith
        · rw [if_neg h]
          constructor <;> nlinarith
      · rw [M.outside _ (by rw [hbandg]; exact hb), hsdg]
        exact H2.values x y hx hy
    · rw [k7] at h
      refine hmask i ?_
      rw [f2, f1] at h
      exact h
    · rw [k2', hbandg]
      exact H2.band x y hx hy
  obtain ⟨b', Ld, ed⟩ := C41_safe_partial hvu.tame
  refine ⟨s, { s' with levelSet := Ld, boundary := b' }, Optimise.shortSolver (1 / (4 * (G + 1))), fuel, hfuel, hs, ?_, rfl, ?_, H2, hvu.discretised ed, s', hadv, hvu⟩
  · unfold step
    rw [hadv]
    simp only [bind, Except.bind]
    unfold refresh
    rw [show s'.levelSet = Lu from rfl, ed]
    rfl
  · show 0 < 0 + r.1.timeStep
    linarith

end Slsm.Program
