import Verif.Proof.Umbrella

/-! # A trial that is rejected

The domain has 5 × 5 cells; the columns of nodes are inside and outside in turn, at distances that differ from column to column. -/

namespace Slsm.Program

open LevelSet

/-- Values that depend on the column, in a domain of 5 × 5 cells. -/
def Columns (c : Nat → ℝ) (f : Nat → ℝ) : Prop := ∀ x y, x ≤ 5 → y ≤ 5 → f (nodeNo 5 x y) = c x

/-- Neighbouring columns are on opposite sides, and the values are neither small nor large. -/
structure Turns (c : Nat → ℝ) : Prop where
  turn : ∀ x, x < 5 → c x * c (x + 1) < 0
  abs : ∀ x, x ≤ 5 → 1 / 8 ≤ |c x| ∧ |c x| < 1
  gentle : ∀ x, x < 5 → |c x - c (x + 1)| ≤ 1

/-- `m x` is the distance of column `x` from the nearest crossing. -/
structure Nearest (c m : Nat → ℝ) : Prop where
  attained : ∀ x, x ≤ 5 → ∃ x', x' ≤ 5 ∧ (x' = x + 1 ∨ x = x' + 1) ∧ m x = c x / (c x - c x')
  least : ∀ x x', x ≤ 5 → x' ≤ 5 → (x' = x + 1 ∨ x = x' + 1) → m x ≤ c x / (c x - c x')
  pos : ∀ x, x ≤ 5 → 0 < m x ∧ m x < 1

variable {c m : Nat → ℝ} {f : Nat → ℝ}

theorem Turns.opposite (hc : Turns c) {x x' : Nat} (hx : x ≤ 5) (hx' : x' ≤ 5) (h : x' = x + 1 ∨ x = x' + 1) : c x * c x' < 0 := by
  rcases h with rfl | rfl
  · exact hc.turn x (by omega)
  · rw [mul_comm]
    exact hc.turn x' (by omega)

theorem columns_opposite (hc : Turns c) (hn : Nearest c m) (hf : Columns c f) {x y : Nat} (hx : x ≤ 5) (hy : y ≤ 5) :
    ∃ n, HAdj 5 5 (nodeNo 5 x y) n ∧ f (nodeNo 5 x y) * f n < 0 := by
  obtain ⟨x', h1, h2, -⟩ := hn.attained x hx
  refine ⟨nodeNo 5 x' y, ⟨x, x', y, hx, h1, hy, rfl, rfl, h2⟩, ?_⟩
  rw [hf x y hx hy, hf x' y h1 hy]
  exact hc.opposite hx h1 h2

theorem columns_invSq (hc : Turns c) (hn : Nearest c m) (hf : Columns c f) {x y : Nat} (hx : x ≤ 5) (hy : y ≤ 5) :
    invSq (crossings (HAdj 5 5) f (nodeNo 5 x y)) = 1 / m x ^ 2 ∧ invSq (crossings (VAdj 5 5) f (nodeNo 5 x y)) = 0 := by
  constructor
  · have : IsLeast (crossings (HAdj 5 5) f (nodeNo 5 x y)) (m x) := by
      constructor
      · obtain ⟨x', h1, h2, h3⟩ := hn.attained x hx
        refine ⟨nodeNo 5 x' y, ⟨x, x', y, hx, h1, hy, rfl, rfl, h2⟩, ?_, ?_⟩
        · rw [hf x y hx hy, hf x' y h1 hy]
          exact hc.opposite hx h1 h2
        · rw [hf x y hx hy, hf x' y h1 hy, h3]
      · rintro d ⟨n, ⟨k, k', r, hk, hk', hr, e1, e2, e3⟩, -, rfl⟩
        obtain ⟨rfl, rfl⟩ := (nodeNo_inj hx hk).1 e1
        rw [e2, hf x y hx hy, hf k' y hk' hy]
        exact hn.least x k' hx hk' e3
    unfold invSq
    rw [if_pos ⟨_, this.1⟩, this.csInf_eq]
  · unfold invSq
    rw [if_neg]
    rintro ⟨d, n, ⟨k, r, r', hk, hr, hr', e1, e2, e3⟩, h2, -⟩
    obtain ⟨rfl, rfl⟩ := (nodeNo_inj hx hk).1 e1
    rw [e2, hf x y hx hy, hf x r' hx hr'] at h2
    exact absurd h2 (not_lt.2 (mul_self_nonneg _))

/-- A level set with given columns on a domain without fixed nodes. -/
theorem columns_level (c : Nat → ℝ) : ∃ L : LevelSet ℝ, Reachable 5 5 L ∧ Columns c (vals L.signedDistance) ∧ L.isFixedDomain = false := by
  obtain ⟨L, hL⟩ := (C22_accepts_iff (D := ℝ) (w := 5) (h := 5) (by norm_num) (by norm_num) (by norm_num)
    (.holes []) (by simp) (1 / 2) 3 (by norm_num) false).2.2
    ⟨by norm_num, by norm_num, by norm_num, fun h => by cases h⟩
  have hr : Reachable 5 5 L := .new (by norm_num) (by norm_num) (by norm_num) (by norm_num) hL
  have B := built (by norm_num) (by norm_num) (by norm_num) (by norm_num) hL
  have C := hr.core
  have hN : L.mesh.nNodes = 36 := C.grid.nNodes
  refine ⟨_, .call hr (.assign ((List.range 36).map fun i => c (i % 6)) L.velocity L.gradient []
    (by simp [hN]) C.velocity C.gradient), ?_, B.params.2.2⟩
  intro x y hx hy
  have hlt : nodeNo 5 x y < 36 := nodeNo_lt (w := 5) (h := 5) hx hy
  dsimp only
  rw [vals_map_range _ hlt, show nodeNo 5 x y % 6 = x by unfold nodeNo; omega]

/-- Reinitialisation takes the nearest crossing. -/
theorem columns_reinitialise (hc : Turns c) (hn : Nearest c m) {L : LevelSet ℝ} (hr : Reachable 5 5 L) (hf : Columns c (vals L.signedDistance))
    (hfix : L.isFixedDomain = false) : ∃ L', reinitialise L = .ok L' ∧ Columns (fun x => (if c x < 0 then -1 else 1) * m x) (vals L'.signedDistance) ∧
      BandOk L' ∧ L'.isFixedDomain = false := by
  have C := hr.core
  rcases C27_reinitialise hr with ⟨L', F, e, hF, hsd, -⟩ | ⟨-, hno⟩
  · obtain ⟨W, B, F', hF', -, hB⟩ := wp_of_ok (reinitialise_spec C.toWF C.small) e
    refine ⟨L', e, ?_, B, by rw [hB.frame]; exact hfix⟩
    intro x y hx hy
    obtain ⟨n, h1, h2⟩ := columns_opposite hc hn hf hx hy
    obtain ⟨i1, i2⟩ := columns_invSq hc hn hf hx hy
    rw [hsd, C16_value C.grid C.sd hF (.inl h1) h2, i1, i2, add_zero, hf x y hx hy, Real.sqrt_div zero_le_one, Real.sqrt_one,
      Real.sqrt_sq (hn.pos x hx).1.le, one_div_one_div]
  · obtain ⟨n, h1, h2⟩ := columns_opposite hc hn hf (Nat.zero_le 5) (Nat.zero_le 5)
    exact absurd ⟨nodeNo 5 0 0, nodeNo_lt (w := 5) (h := 5) (by norm_num) (by norm_num),
      .inr ⟨n, .inl h1, by unfold Opposite; simpa using h2⟩⟩ hno

theorem columns_generic (hc : Turns c) {L : LevelSet ℝ} (hf : Columns c (vals L.signedDistance)) : Generic 5 5 (Boundary.level 5 L false) := by
  intro x y hx hy
  change nodeSide (vals L.signedDistance (nodeNo 5 x y)) ≠ _
  rw [hf x y hx hy]
  have h1 := (hc.abs x hx).1
  rcases le_or_gt 0 (c x) with h | h
  · rw [abs_of_nonneg h] at h1
    rw [nodeSide_inside.2 (by norm_num; linarith)]
    simp
  · rw [abs_of_neg h] at h1
    rw [nodeSide_outside.2 (by norm_num; linarith)]
    simp

theorem columns_tame (hc : Turns c) {L : LevelSet ℝ} (hr : Reachable 5 5 L) (hf : Columns c (vals L.signedDistance)) (hB : BandOk L)
    (hfix : L.isFixedDomain = false) : Boundary.Tame 5 5 L false ∧ Boundary.NearSeen 5 5 L false := by
  have hN := Boundary.near_of_band hr hB hfix
  have hg : Gentle 5 5 (Boundary.level 5 L false) := by
    refine ⟨fun x y hx hy _ => ?_, fun x y hx hy _ => ?_⟩
    · change |vals L.signedDistance _ - vals L.signedDistance _| ≤ 1
      rw [hf x y (by omega) hy, hf (x + 1) y hx hy]
      exact hc.gentle x (by omega)
    · change |vals L.signedDistance _ - vals L.signedDistance _| ≤ 1
      rw [hf x y hx (by omega), hf x (y + 1) hx hy]
      simp
  refine ⟨⟨ready_of_reachable hr, hg, .inr fun p hp => ?_, (columns_generic hc hf).tidy⟩, hN⟩
  obtain ⟨q, hq⟩ : ∃ q, q ∈ p.ends := by cases p <;> exact ⟨_, List.mem_cons_self⟩
  have hin := hp.1 q hq
  refine ⟨q, hq, hN q.1 q.2 hin.1 hin.2 ?_⟩
  change |vals L.signedDistance _| < 1
  rw [hf q.1 q.2 hin.1 hin.2]
  exact (hc.abs _ hin.1).2

/-- The new boundary of the programs with weighted perimeter. -/
theorem weighted_refresh {ρ : Type} (G : Gravity ℝ) (normal : ρ → ℝ × ρ) (T M : ℝ) (A : List ℝ) {w h : Nat} (s : State ρ ℝ)
    (hr : Reachable w h s.levelSet) (Ta : Boundary.Tame w h s.levelSet false) (hN : Boundary.NearSeen w h s.levelSet false) :
    ∃ b L b' L', Boundary.discretise s.levelSet false = .ok (b, L) ∧
      refresh (weighted G normal T M A) s = .ok { s with levelSet := L', boundary := b' } ∧ L'.signedDistance = s.levelSet.signedDistance ∧
      b'.segments = b.segments ∧ b'.points.map (fun p => p.coord) = b.points.map (fun p => p.coord) ∧ L'.isFixedDomain = s.levelSet.isFixedDomain := by
  obtain ⟨b, L, e1⟩ := C41_safe_partial Ta
  obtain ⟨L', e2⟩ := C45_returns Ta (.inr hN) e1
  obtain ⟨b', e3, -⟩ := C44_normals_partial hr Ta e1
  have e4 : b.computeNormalVectors L' = .ok b' := by
    rw [(C45_frame e2).1]
    exact e3
  have hL : L = { s.levelSet with mesh := L.mesh } := by
    obtain ⟨_, _, -, -, -, -, -, -, -, -, -, -, -, h4⟩ := C36_node_status Ta.toReady e1 (Nat.zero_le _) (Nat.zero_le _)
    exact h4
  have e5 : refresh (weighted G normal T M A) s = .ok { s with levelSet := L', boundary := b' } := by
    unfold refresh
    rw [e1]
    simp only [bind, Except.bind, weighted, pure, Except.pure]
    rw [e2]
    dsimp only
    rw [e4]
  obtain ⟨n1, n2⟩ := normals_frame e4
  refine ⟨b, L, b', L', e1, e5, ?_, by rw [n1], ?_, ?_⟩
  · rw [(C45_frame e2).1]
    dsimp only
    rw [hL]
  · have : ∀ {l l' : List (BoundaryPoint ℝ)}, List.Forall₂ NormalOnly l l' → l'.map (fun p => p.coord) = l.map (fun p => p.coord) := by
      intro l l' h
      induction h with
      | nil => rfl
      | cons h _ ih => rw [List.map_cons, List.map_cons, ih, h]
    exact this n2
  · rw [(C45_frame e2).1]
    dsimp only
    rw [hL]

/-! ### An example -/

/-- The columns at the beginning, and after one and two reinitialisations. -/
noncomputable def cols : Nat → Nat → ℝ
  | 0, x => [1 / 4, -(1 / 4), 3 / 4, -(1 / 4), 1 / 4, -(1 / 4)].getD x 0
  | 1, x => [1 / 2, -(1 / 4), 3 / 4, -(1 / 4), 1 / 2, -(1 / 2)].getD x 0
  | _, x => [2 / 3, -(1 / 4), 3 / 4, -(1 / 4), 1 / 2, -(1 / 2)].getD x 0

theorem cols_turns (k : Nat) : Turns (cols k) := by
  rcases k with _ | _ | k <;>
  · refine ⟨fun x hx => ?_, fun x hx => ?_, fun x hx => ?_⟩ <;> interval_cases x <;> norm_num [cols, abs_of_pos, abs_le, abs_lt, le_abs]

theorem cols_nearest : Nearest (cols 0) (fun x => |cols 1 x|) ∧ Nearest (cols 1) (fun x => |cols 2 x|) := by
  constructor
  · refine ⟨fun x hx => ?_, fun x x' hx hx' h => ?_, fun x hx => ?_⟩
    · have : x = 0 ∨ x = 1 ∨ x = 2 ∨ x = 3 ∨ x = 4 ∨ x = 5 := by omega
      rcases this with rfl | rfl | rfl | rfl | rfl | rfl
      · exact ⟨1, by norm_num [cols, abs_of_pos, abs_of_neg]⟩
      · exact ⟨2, by norm_num [cols, abs_of_pos, abs_of_neg]⟩
      · exact ⟨1, by norm_num [cols, abs_of_pos, abs_of_neg]⟩
      · exact ⟨2, by norm_num [cols, abs_of_pos, abs_of_neg]⟩
      · exact ⟨3, by norm_num [cols, abs_of_pos, abs_of_neg]⟩
      · exact ⟨4, by norm_num [cols, abs_of_pos, abs_of_neg]⟩
    · rcases h with rfl | rfl
      · interval_cases x <;> first | omega | norm_num [cols, abs_of_pos, abs_of_neg]
      · interval_cases x' <;> first | omega | norm_num [cols, abs_of_pos, abs_of_neg]
    · have := (cols_turns 1).abs x hx
      exact ⟨by linarith [this.1], this.2⟩
  · refine ⟨fun x hx => ?_, fun x x' hx hx' h => ?_, fun x hx => ?_⟩
    · have : x = 0 ∨ x = 1 ∨ x = 2 ∨ x = 3 ∨ x = 4 ∨ x = 5 := by omega
      rcases this with rfl | rfl | rfl | rfl | rfl | rfl
      · exact ⟨1, by norm_num [cols, abs_of_pos, abs_of_neg]⟩
      · exact ⟨2, by norm_num [cols, abs_of_pos, abs_of_neg]⟩
      · exact ⟨1, by norm_num [cols, abs_of_pos, abs_of_neg]⟩
      · exact ⟨2, by norm_num [cols, abs_of_pos, abs_of_neg]⟩
      · exact ⟨5, by norm_num [cols, abs_of_pos, abs_of_neg]⟩
      · exact ⟨4, by norm_num [cols, abs_of_pos, abs_of_neg]⟩
    · rcases h with rfl | rfl
      · interval_cases x <;> first | omega | norm_num [cols, abs_of_pos, abs_of_neg]
      · interval_cases x' <;> first | omega | norm_num [cols, abs_of_pos, abs_of_neg]
    · have := (cols_turns 2).abs x hx
      exact ⟨by linarith [this.1], this.2⟩

theorem cols_sign : (∀ x, x ≤ 5 → (if cols 0 x < 0 then -1 else 1) * |cols 1 x| = cols 1 x) ∧
    ∀ x, x ≤ 5 → (if cols 1 x < 0 then -1 else 1) * |cols 2 x| = cols 2 x := by
  constructor <;> intro x hx <;> interval_cases x <;> norm_num [cols, abs_of_pos, abs_of_neg]

theorem Columns.congr {c c' f : Nat → ℝ} (hf : Columns c f) (h : ∀ x, x ≤ 5 → c x = c' x) : Columns c' f :=
  fun x y hx hy => by rw [hf x y hx hy, h x hx]

/-- Reinitialisation is not idempotent: it moves the boundary of a level set that has just been reinitialised. -/
theorem columns_moved {L1 L2 L1' L2' : LevelSet ℝ} {b1 b2 : Boundary ℝ} (T1 : Boundary.Tame 5 5 L1 false) (T2 : Boundary.Tame 5 5 L2 false)
    (h1 : Columns (cols 1) (vals L1.signedDistance)) (h2 : Columns (cols 2) (vals L2.signedDistance))
    (e1 : Boundary.discretise L1 false = .ok (b1, L1')) (e2 : Boundary.discretise L2 false = .ok (b2, L2')) :
    ∃ p ∈ b2.points, ∀ q ∈ b1.points, q.coord ≠ p.coord := by
  have hcut : CutEdge 5 5 (Boundary.level 5 L2 false) (.hor 0 2) := by
    refine ⟨?_, .inl ⟨?_, ?_⟩, fun x y hp => by cases hp⟩
    · intro q hq
      simp only [Place.ends, List.mem_cons, List.not_mem_nil, or_false] at hq
      rcases hq with rfl | rfl <;> exact ⟨by norm_num, by norm_num⟩
    · change nodeSide (vals L2.signedDistance _) = _
      rw [h2 0 2 (by norm_num) (by norm_num), nodeSide_inside]
      norm_num [cols]
    · change nodeSide (vals L2.signedDistance _) = _
      rw [h2 1 2 (by norm_num) (by norm_num), nodeSide_outside]
      norm_num [cols]
  obtain ⟨k, p, g1, g2, -⟩ := C39_watertight T2 e2 hcut
  refine ⟨p, List.mem_of_getElem? g1, fun q hq he => ?_⟩
  have v0 : Boundary.level 5 L2 false 0 2 = 2 / 3 := h2 0 2 (by norm_num) (by norm_num)
  have v1 : Boundary.level 5 L2 false 1 2 = -(1 / 4) := h2 1 2 (by norm_num) (by norm_num)
  have gx : p.coord.x = 8 / 11 := by
    rw [g2]
    unfold Place.coord
    simp only [zero_add, v0, v1]
    norm_num
  obtain ⟨⟨pl, hpl, hpc, hc⟩, -⟩ := C37_points_on_contour T1.toReady e1 hq
  have side : ∀ x y, x ≤ 5 → y ≤ 5 → Boundary.level 5 L1 false x y = cols 1 x := h1
  rw [he] at hc
  have hx := congrArg Coord.x hc
  rw [gx] at hx
  cases pl with
  | node x y =>
    have i1 := hpl (x, y) (by simp [Place.ends])
    exact absurd hpc (columns_generic (cols_turns 1) h1 x y i1.1 i1.2)
  | ver x y =>
    have i1 := hpl (x, y) (by simp [Place.ends])
    have i2 := hpl (x, y + 1) (by simp [Place.ends])
    change Crossed (nodeSide (Boundary.level 5 L1 false x y)) (nodeSide (Boundary.level 5 L1 false x (y + 1))) at hpc
    rw [side x y i1.1 i1.2, side x (y + 1) i2.1 i2.2] at hpc
    rcases hpc with ⟨j1, j2⟩ | ⟨j1, j2⟩ <;> rw [j1] at j2 <;> cases j2
  | hor x y =>
    have i1 := hpl (x, y) (by simp [Place.ends])
    have i2 := hpl (x + 1, y) (by simp [Place.ends])
    unfold Place.coord at hx
    simp only at hx
    rw [side x y i1.1 i1.2, side (x + 1) y i2.1 i2.2] at hx
    have h5 : x < 5 := by have := i2.1; simp only at this; omega
    interval_cases x <;> norm_num [cols] at hx

/-- A run of the umbrella sampling program from the beginning to the end of a rejected trial. -/
theorem rejected_demo (normal : Unit → ℝ × Unit) (T M : ℝ) (A : List ℝ) (E : Env ℝ) : ∃ (U : Umbrella Unit ℝ) (L : LevelSet ℝ) (s : State Unit ℝ)
    (v v' : Walker Unit ℝ), U.exp = Real.exp ∧ U.uniform = (fun g => (1 / 2, g)) ∧ U.beta = 1 ∧ 0 < U.spring ∧ U.G = gravity 4 1 (1 / 50) ∧ U.width = 5 ∧
      Reachable 5 5 L ∧ start (weighted U.G normal T M A) L 2 () = .ok s ∧ walker U s = .ok v ∧ trial (weighted U.G normal T M A) U E v = .ok v' ∧
      v'.nAccept = v.nAccept ∧ v'.nTrials = 1 ∧ ∃ p ∈ v'.state.boundary.points, ∀ q ∈ v.state.boundary.points, q.coord ≠ p.coord := by
  obtain ⟨L, hr, hf, hx⟩ := columns_level (cols 0)
  obtain ⟨L1, e1, hf1, hB1, hx1⟩ := columns_reinitialise (cols_turns 0) cols_nearest.1 hr hf hx
  have hf1 := hf1.congr cols_sign.1
  have hr1 : Reachable 5 5 L1 := .call hr (.reinitialise e1)
  obtain ⟨T1, N1⟩ := columns_tame (cols_turns 1) hr1 hf1 hB1 hx1
  let s0 : State Unit ℝ := { levelSet := L1, boundary := Boundary.new, lambdas := [0, 0], nReinit := 0, runningTime := 0, rng := () }
  obtain ⟨b1, L1', b1', L1'', d1, r1, sd1, sg1, cd1, fx1⟩ := weighted_refresh (gravity 4 1 (1 / 50)) normal T M A s0 hr1 T1 N1
  set s : State Unit ℝ := { s0 with levelSet := L1'', boundary := b1' } with hsdef
  have es : start (weighted (gravity 4 1 (1 / 50)) normal T M A) L 2 () = .ok s := by
    unfold start
    rw [e1]
    simp only [bind, Except.bind]
    rw [← r1]
    unfold launch
    simp [s0]
  have hs : Running 5 5 (weighted (gravity 4 1 (1 / 50)) normal T M A) s := .start hr es
  obtain ⟨L', L0, b0, F⟩ := hs.fits (regular_weighted _ normal T M A)
  obtain ⟨x, y, hc⟩ : ∃ x y, centreOfMass (gravity 4 1 (1 / 50)) s.boundary.points = .ok (x, y) := ⟨_, _, centre_sum F.incident (by norm_num)⟩
  let U : Umbrella Unit ℝ := .mk (gravity 4 1 (1 / 50)) Real.exp (fun g => (1 / 2, g)) 1 5 x (8 / 25) 0
  let v : Walker Unit ℝ := .mk s s.levelSet.signedDistance x (biasPotential x x (8 / 25)) 0 0 0 0
  have ev : walker U s = .ok v := by
    unfold walker
    rw [hc]
    simp [bind, Except.bind, pure, Except.pure, v, U]
  have hf2 : Columns (cols 1) (vals L1''.signedDistance) := by rw [sd1]; exact hf1
  have hr2 : Reachable 5 5 L1'' := F.reachable
  obtain ⟨L2, e2, hf3, hB2, hx2⟩ := columns_reinitialise (cols_turns 1) cols_nearest.2 hr2 hf2 (fx1.trans hx1)
  have hf3 := hf3.congr cols_sign.2
  have hr3 : Reachable 5 5 L2 := .call hr2 (.reinitialise e2)
  obtain ⟨T2, N2⟩ := columns_tame (cols_turns 2) hr3 hf3 hB2 hx2
  obtain ⟨b2, L2', b2', L2'', d2, r2, sd2, sg2, cd2, fx2⟩ := weighted_refresh (gravity 4 1 (1 / 50)) normal T M A
    { s with runningTime := 0, levelSet := L2, nReinit := 0, rng := () } hr3 T2 N2
  have hrej : (isAccepted Real.exp (fun g : Unit => ((1 / 2 : ℝ), g)) (biasPotential (x - 5 / 2) x (8 / 25)) (biasPotential x x (8 / 25)) 1 ()).1 = false := by
    rw [← Bool.not_eq_true, accepted_real, bias_real, bias_real, not_lt]
    rw [show -(1 * (1 / 2 * (8 / 25) * (x - 5 / 2 - x) ^ 2 - 1 / 2 * (8 / 25) * (x - x) ^ 2)) = -(1 : ℝ) by ring, Real.exp_neg, ← one_div]
    have := Real.add_one_le_exp (1 : ℝ)
    exact one_div_le_one_div_of_le (by norm_num) (by linarith)
  let t : State Unit ℝ := { s with runningTime := 0, levelSet := L2'', boundary := b2', nReinit := 0, rng := () }
  refine ⟨U, L, s, v, .mk t s.levelSet.signedDistance x (biasPotential x x (8 / 25)) 0 1 (0 + 0) 0, rfl, rfl, rfl, by norm_num [U], rfl, rfl, hr, es, ev, ?_,
    rfl, rfl, ?_⟩
  · have et : trajectory (weighted U.G normal T M A) U E v.count v.state = .ok (0, { s with runningTime := 0 }) := by
      unfold trajectory
      have : ∀ n (f : Nat × State Unit ℝ → Res (Nat × State Unit ℝ)), whileN n (fun x => x.2.runningTime <. U.interval) f (v.count, { v.state with runningTime := FP.nat 0 }) =
          .ok (0, { s with runningTime := 0 }) := by
        intro n f
        cases n <;> simp [whileN, U, v]
      exact this _ _
    unfold trial
    rw [et]
    simp only [bind, Except.bind]
    rw [show U.G = gravity 4 1 (1 / 50) from rfl, hc]
    dsimp only
    rw [show (x -. FP.lit 1 2 *. U.width : ℝ) = x - 5 / 2 by simp only [FP.sub_real, FP.mul_real, FP.lit_real, U]; norm_num]
    rw [show (isAccepted U.exp U.uniform (biasPotential (x - 5 / 2) U.centre U.spring) v.bias U.beta s.rng) = (false, ()) from Prod.ext hrej rfl]
    simp only [Bool.false_eq_true, if_false]
    rw [show ({ s.levelSet with signedDistance := v.signedDistance } : LevelSet ℝ) = L1'' from rfl, e2]
    dsimp only
    rw [r2]
    simp [pure, Except.pure, t, v]
  · obtain ⟨p, hp, hq⟩ := columns_moved T1 T2 hf1 hf3 d1 d2
    have hmem : p.coord ∈ b2'.points.map (fun p => p.coord) := by rw [cd2]; exact List.mem_map.2 ⟨p, hp, rfl⟩
    obtain ⟨p', hp', ep⟩ := List.mem_map.1 hmem
    refine ⟨p', hp', fun q hq' he => ?_⟩
    have hmem : q.coord ∈ b1.points.map (fun p => p.coord) := by rw [← cd1]; exact List.mem_map.2 ⟨q, hq', rfl⟩
    obtain ⟨q', h1, h2⟩ := List.mem_map.1 hmem
    exact hq q' h1 (by rw [h2, he, ep])

/-- A trial of positive duration that is accepted. -/
theorem accepted_demo : ∃ (U : Umbrella Unit ℝ) (E : Env ℝ) (v v' : Walker Unit ℝ), U.exp = Real.exp ∧ 0 < U.interval ∧ Walks 5 5 minimiseArea U v ∧
    trial minimiseArea U E v = .ok v' ∧ v'.nAccept = 1 ∧ v'.nTrials = 1 ∧ 0 < v'.runningTime := by
  obtain ⟨s, s', nlopt, fuel, hK, hs, es, h0, h1, hc, hc'⟩ := step_demo 2
  have hs' : Running 5 5 minimiseArea s' := .step hs es
  obtain ⟨L, L0, b0, F⟩ := hs.fits regular_area
  obtain ⟨L', L0', b0', F'⟩ := hs'.fits regular_area
  obtain ⟨x, y, hx⟩ : ∃ x y, centreOfMass (gravity 4 1 (1 / 50)) s.boundary.points = .ok (x, y) := ⟨_, _, centre_sum F.incident (by norm_num)⟩
  obtain ⟨x', y', hx'⟩ : ∃ x y, centreOfMass (gravity 4 1 (1 / 50)) s'.boundary.points = .ok (x, y) := ⟨_, _, centre_sum F'.incident (by norm_num)⟩
  let U : Umbrella Unit ℝ := .mk (gravity 4 1 (1 / 50)) Real.exp (fun g => (0, g)) 1 5 0 1 s'.runningTime
  let E : Env ℝ := .mk (fun _ => nlopt) (fun _ => 0) fuel
  let v : Walker Unit ℝ := .mk s s.levelSet.signedDistance x (biasPotential x 0 1) 0 0 0 0
  have ev : walker U s = .ok v := by
    unfold walker
    rw [hx]
    simp [bind, Except.bind, pure, Except.pure, v, U]
  have et : trajectory minimiseArea U E v.count v.state = .ok (1, s') := by
    unfold trajectory
    obtain ⟨n, hn⟩ : ∃ n, E.fuel = n + 1 := ⟨fuel - 1, by simp only [E]; omega⟩
    rw [show ({ v.state with runningTime := FP.nat 0 } : State Unit ℝ) = s by
      simp only [v, FP.nat_real, Nat.cast_zero]; rw [← h0]]
    rw [hn]
    have : whileN n (fun y : Nat × State Unit ℝ => y.2.runningTime <. U.interval) (fun y => do
        let s ← step minimiseArea (E.solver y.1) (n + 1) (E.dt y.1) y.2
        pure (y.1 + 1, s)) (1, s') = .ok (1, s') := by
      cases n <;> simp [whileN, U]
    rw [whileN, if_pos (by simpa [U, h0] using h1)]
    simp only [bind, Except.bind] at this ⊢
    rw [show step minimiseArea (E.solver v.count) (n + 1) (E.dt v.count) s = .ok s' by rw [← hn]; exact es]
    exact this
  have hacc : (isAccepted Real.exp U.uniform (biasPotential (x' - 5 / 2) 0 1) v.bias 1 s'.rng).1 = true := by
    rw [accepted_real]
    exact Real.exp_pos _
  refine ⟨U, E, v, .mk { s' with rng := () } s'.levelSet.signedDistance (x' - 5 / 2) (biasPotential (x' - 5 / 2) 0 1) 1 1 (0 + s'.runningTime) 1, rfl, h1,
    .begin hs ev, ?_, rfl, rfl, by simpa using h1⟩
  unfold trial
  rw [et]
  simp only [bind, Except.bind]
  rw [show U.G = gravity 4 1 (1 / 50) from rfl, hx']
  dsimp only
  rw [show (x' -. FP.lit 1 2 *. U.width : ℝ) = x' - 5 / 2 by simp only [FP.sub_real, FP.mul_real, FP.lit_real, U]; norm_num]
  rw [show (isAccepted U.exp U.uniform (biasPotential (x' - 5 / 2) U.centre U.spring) v.bias U.beta s'.rng) = (true, ()) from Prod.ext hacc rfl]
  simp [pure, Except.pure, U, v]

end Slsm.Program
