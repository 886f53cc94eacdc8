import Verif.Props.Boundary

/-! # An example of a boundary with corners

The domain has 5 × 5 cells.  The columns of nodes are inside and outside in turn, and the first row the other way round. -/

namespace Slsm

open LevelSet FP

/-- The node is inside. -/
def kinkIn (x y : Nat) : Prop := (x + if y = 0 then 0 else 1) % 2 = 0

instance (x y : Nat) : Decidable (kinkIn x y) := by unfold kinkIn; infer_instance

/-- Distance of the node from the boundary. -/
noncomputable def kinkDist (y : Nat) : ℝ := if y ≤ 1 then 1 / Real.sqrt 8 else 1 / 2

/-- Signed distances. -/
noncomputable def kink (x y : Nat) : ℝ := if kinkIn x y then kinkDist y else -kinkDist y

theorem kinkIn_next (x y : Nat) : kinkIn (x + 1) y ↔ ¬ kinkIn x y := by unfold kinkIn; omega

theorem kinkIn_up (x y : Nat) : kinkIn x (y + 1) ↔ if y = 0 then ¬ kinkIn x y else kinkIn x y := by
  unfold kinkIn
  by_cases h : y = 0
  · rw [if_pos h, if_pos h, if_neg (by omega)]; omega
  · rw [if_neg h, if_neg h, if_neg (by omega)]

theorem sqrt_eight : 2 < Real.sqrt 8 ∧ Real.sqrt 8 < 3 := by
  constructor
  · exact Real.lt_sqrt_of_sq_lt (by norm_num)
  · rw [Real.sqrt_lt' (by norm_num)]; norm_num

theorem kinkDist_bounds (y : Nat) : 1 / 3 < kinkDist y ∧ kinkDist y ≤ 1 / 2 := by
  obtain ⟨h1, h2⟩ := sqrt_eight
  unfold kinkDist
  split
  · constructor
    · exact one_div_lt_one_div_of_lt (by linarith) h2
    · exact one_div_le_one_div_of_le (by norm_num) h1.le
  · norm_num

/-- Values with these signs and magnitude 1/2. -/
def KinkSigns (f : Nat → ℝ) : Prop := ∀ x y, x ≤ 5 → y ≤ 5 → f (nodeNo 5 x y) = if kinkIn x y then 1 / 2 else -(1 / 2)

/-- The signed distances. -/
def Kinked (f : Nat → ℝ) : Prop := ∀ x y, x ≤ 5 → y ≤ 5 → f (nodeNo 5 x y) = kink x y

section
variable {f : Nat → ℝ} (hf : KinkSigns f) {x y : Nat} (hx : x ≤ 5) (hy : y ≤ 5)
include hf hx hy

theorem kink_half {x' y' : Nat} (hx' : x' ≤ 5) (hy' : y' ≤ 5) (hn : kinkIn x' y' ↔ ¬ kinkIn x y) :
    f (nodeNo 5 x y) * f (nodeNo 5 x' y') < 0 ∧ f (nodeNo 5 x y) / (f (nodeNo 5 x y) - f (nodeNo 5 x' y')) = 1 / 2 := by
  rw [hf x y hx hy, hf x' y' hx' hy']
  by_cases h : kinkIn x y
  · rw [if_pos h, if_neg (by rw [hn]; exact fun g => g h)]; norm_num
  · rw [if_neg h, if_pos (hn.2 h)]; norm_num

theorem kink_same {x' y' : Nat} (hx' : x' ≤ 5) (hy' : y' ≤ 5) (hn : kinkIn x' y' ↔ kinkIn x y) :
    ¬ f (nodeNo 5 x y) * f (nodeNo 5 x' y') < 0 := by
  rw [hf x y hx hy, hf x' y' hx' hy']
  by_cases h : kinkIn x y
  · rw [if_pos h, if_pos (hn.2 h)]; norm_num
  · rw [if_neg h, if_neg (by rw [hn]; exact h)]; norm_num

theorem kink_hor {n : Nat} (ha : HAdj 5 5 (nodeNo 5 x y) n) :
    f (nodeNo 5 x y) * f n < 0 ∧ f (nodeNo 5 x y) / (f (nodeNo 5 x y) - f n) = 1 / 2 := by
  obtain ⟨c, c', r, hc, hc', hr, e1, e2, e3⟩ := ha
  obtain ⟨rfl, rfl⟩ := (nodeNo_inj hx hc).1 e1
  rw [e2]
  refine kink_half hf hx hy hc' hy ?_
  rcases e3 with rfl | rfl
  · exact kinkIn_next x y
  · rw [kinkIn_next]; exact not_not.symm

theorem kink_opposite : ∃ n, HAdj 5 5 (nodeNo 5 x y) n := by
  rcases Nat.lt_or_ge x 5 with h | h
  · exact ⟨nodeNo 5 (x + 1) y, x, x + 1, y, hx, h, hy, rfl, rfl, .inl rfl⟩
  · exact ⟨nodeNo 5 4 y, 5, 4, y, by norm_num, by norm_num, hy, by rw [show x = 5 by omega], rfl, .inr rfl⟩

theorem kink_invSq : invSq (crossings (HAdj 5 5) f (nodeNo 5 x y)) = 4 ∧
    invSq (crossings (VAdj 5 5) f (nodeNo 5 x y)) = if y ≤ 1 then 4 else 0 := by
  constructor
  · have : crossings (HAdj 5 5) f (nodeNo 5 x y) = {1 / 2} := by
      ext d
      rw [Set.mem_singleton_iff]
      constructor
      · rintro ⟨n, h1, h2, rfl⟩
        exact (kink_hor hf hx hy h1).2
      · rintro rfl
        obtain ⟨n, h1⟩ := kink_opposite hf hx hy
        exact ⟨n, h1, (kink_hor hf hx hy h1).1, (kink_hor hf hx hy h1).2.symm⟩
    unfold invSq
    rw [this, if_pos (Set.singleton_nonempty _), csInf_singleton]
    norm_num
  · by_cases h1 : y ≤ 1
    · rw [if_pos h1]
      have hflip : ∀ r, r ≤ 1 → r ≠ y → (kinkIn x r ↔ ¬ kinkIn x y) := by
        intro r hr hne
        have : (r = 1 ∧ y = 0) ∨ (r = 0 ∧ y = 1) := by omega
        rcases this with ⟨rfl, rfl⟩ | ⟨rfl, rfl⟩
        · exact kinkIn_up x 0
        · rw [show kinkIn x 1 ↔ ¬ kinkIn x 0 from kinkIn_up x 0]; exact not_not.symm
      have : crossings (VAdj 5 5) f (nodeNo 5 x y) = {1 / 2} := by
        ext d
        rw [Set.mem_singleton_iff]
        constructor
        · rintro ⟨n, ⟨c, r, r', hc, hr, hr', e1, e2, e3⟩, h2, rfl⟩
          obtain ⟨rfl, rfl⟩ := (nodeNo_inj hx hc).1 e1
          rw [e2] at h2 ⊢
          by_cases hr1 : r' ≤ 1
          · exact (kink_half hf hx hy hx hr' (hflip r' hr1 (by omega))).2
          · exfalso
            have hy1 : r' = 2 ∧ y = 1 := by omega
            obtain ⟨rfl, rfl⟩ := hy1
            exact kink_same hf hx hy hx hr' (kinkIn_up x 1) h2
        · rintro rfl
          have hk := kink_half hf hx hy hx (show 1 - y ≤ 5 by omega) (hflip (1 - y) (by omega) (by omega))
          exact ⟨nodeNo 5 x (1 - y), ⟨x, y, 1 - y, hx, hy, by omega, rfl, rfl, by omega⟩, hk.1, hk.2.symm⟩
      unfold invSq
      rw [this, if_pos (Set.singleton_nonempty _), csInf_singleton]
      norm_num
    · unfold invSq
      rw [if_neg h1, if_neg]
      rintro ⟨d, n, ⟨c, r, r', hc, hr, hr', e1, e2, e3⟩, h2, -⟩
      obtain ⟨rfl, rfl⟩ := (nodeNo_inj hx hc).1 e1
      rw [e2] at h2
      refine kink_same hf hx hy hx hr' ?_ h2
      rcases e3 with rfl | rfl
      · have := kinkIn_up x y
        rw [if_neg (by omega)] at this
        exact this
      · have := kinkIn_up x r'
        rw [if_neg (by omega)] at this
        exact this.symm

end

theorem kink_level : ∃ L : LevelSet ℝ, Reachable 5 5 L ∧ KinkSigns (vals L.signedDistance) ∧ L.moveLimit = 1 / 2 ∧
    L.isFixedDomain = false ∧ (∀ i, ¬ L.Masked i) := by
  obtain ⟨L, hL⟩ := (C22_accepts_iff (D := ℝ) (w := 5) (h := 5) (by norm_num) (by norm_num) (by norm_num)
    (.holes []) (by simp) (1 / 2) 3 (by norm_num) false).2.2
    ⟨by norm_num, by norm_num, by norm_num, fun h => by cases h⟩
  have hr : Reachable 5 5 L := .new (by norm_num) (by norm_num) (by norm_num) (by norm_num) hL
  have B := built (by norm_num) (by norm_num) (by norm_num) (by norm_num) hL
  have C := hr.core
  have hN : L.mesh.nNodes = 36 := C.grid.nNodes
  refine ⟨_, .call hr (.assign ((List.range 36).map fun i => if kinkIn (i % 6) (i / 6) then 1 / 2 else -(1 / 2)) L.velocity L.gradient L.target
    (by simp [hN]) C.velocity C.gradient), ?_, B.params.1, B.params.2.2, B.unmasked⟩
  intro x y hx hy
  have hlt : nodeNo 5 x y < 36 := nodeNo_lt (w := 5) (h := 5) hx hy
  dsimp only
  rw [vals_map_range _ hlt, show nodeNo 5 x y % 6 = x by unfold nodeNo; omega, show nodeNo 5 x y / 6 = y by unfold nodeNo; omega]

/-- Reinitialisation gives the signed distances. -/
theorem kink_reinitialise {L : LevelSet ℝ} (hr : Reachable 5 5 L) (hf : KinkSigns (vals L.signedDistance)) (hfix : L.isFixedDomain = false)
    (hm : ∀ i, ¬ L.Masked i) : ∃ L', reinitialise L = .ok L' ∧ Kinked (vals L'.signedDistance) ∧ Boundary.Tame 5 5 L' false ∧
      Boundary.NearSeen 5 5 L' false ∧ L'.moveLimit = L.moveLimit ∧ (∀ i, ¬ L'.Masked i) ∧ ∀ x y, x ≤ 5 → y ≤ 5 → nodeNo 5 x y ∈ L'.band := by
  have C := hr.core
  obtain ⟨n0, h0⟩ := kink_opposite hf (Nat.zero_le 5) (Nat.zero_le 5)
  rcases C27_reinitialise hr with ⟨L', F, e, hF, hsd, -⟩ | ⟨-, hno⟩
  swap
  · refine absurd ⟨nodeNo 5 0 0, nodeNo_lt (w := 5) (h := 5) (by norm_num) (by norm_num), .inr ⟨n0, .inl h0, ?_⟩⟩ hno
    unfold Opposite
    simpa using (kink_hor hf (Nat.zero_le 5) (Nat.zero_le 5) h0).1
  obtain ⟨W, B, F', hF', -, hB⟩ := wp_of_ok (reinitialise_spec C.toWF C.small) e
  have hr' : Reachable 5 5 L' := .call hr (.reinitialise e)
  have hs : Kinked (vals L'.signedDistance) := by
    intro x y hx hy
    obtain ⟨n, h1⟩ := kink_opposite hf hx hy
    obtain ⟨i1, i2⟩ := kink_invSq hf hx hy
    rw [hsd, C16_value C.grid C.sd hF (.inl h1) (kink_hor hf hx hy h1).1, i1, i2, hf x y hx hy]
    have hd : 1 / Real.sqrt (4 + if y ≤ 1 then 4 else 0) = kinkDist y := by
      unfold kinkDist
      split
      · norm_num
      · rw [show (4 + 0 : ℝ) = 2 ^ 2 by norm_num, Real.sqrt_sq (by norm_num)]
    rw [hd]
    unfold kink
    split
    · rw [if_neg (by norm_num), one_mul]
    · rw [if_pos (by norm_num)]; ring
  have hside : ∀ i, i < L.mesh.nNodes → SameSide (vals L.signedDistance i) (vals L'.signedDistance i) := by
    intro i hi
    rw [C.grid.nNodes] at hi
    have hi' : i < 36 := hi
    have e1 : nodeNo 5 (i % 6) (i / 6) = i := by unfold nodeNo; omega
    have h1 := hf (i % 6) (i / 6) (by omega) (by omega)
    have h2 := hs (i % 6) (i / 6) (by omega) (by omega)
    rw [e1] at h1 h2
    rw [h1, h2]
    have := (kinkDist_bounds (i / 6)).1
    unfold kink
    split
    · exact .inl ⟨by norm_num, by linarith⟩
    · exact .inr (.inl ⟨by norm_num, by linarith⟩)
  have hmask : ∀ i, ¬ L'.Masked i := fun i h => hm i ((hB.masked i).1 h)
  have hfx : L'.isFixedDomain = false := by rw [hB.frame]; exact hfix
  have hN := Boundary.near_of_band hr' B hfx
  have hab : ∀ x y, |kink x y| < 1 := by
    intro x y
    have := kinkDist_bounds y
    unfold kink
    rw [abs_lt]
    split <;> constructor <;> linarith [this.1, this.2]
  have hgen : Generic 5 5 (Boundary.level 5 L' false) := by
    intro x y hx hy
    change nodeSide (vals L'.signedDistance (nodeNo 5 x y)) ≠ _
    rw [hs x y hx hy]
    have := (kinkDist_bounds y).1
    unfold kink
    split
    · rw [nodeSide_inside.2 (le_trans (by norm_num) this.le)]; simp
    · rw [nodeSide_outside.2 (by norm_num; linarith)]; simp
  refine ⟨L', e, hs, ⟨ready_of_reachable hr', reinitialise_gentle hr e hside, .inr fun p hp => ?_, hgen.tidy⟩, hN, by rw [hB.frame], hmask, ?_⟩
  · obtain ⟨q, hq⟩ : ∃ q, q ∈ p.ends := by cases p <;> exact ⟨_, List.mem_cons_self⟩
    have hin := hp.1 q hq
    refine ⟨q, hq, hN q.1 q.2 hin.1 hin.2 ?_⟩
    change |vals L'.signedDistance _| < 1
    rw [hs q.1 q.2 hin.1 hin.2]
    exact hab _ _
  · intro x y hx hy
    rw [B.band_mem]
    have hbw : (2 : ℝ) < L'.bandWidth := by exact_mod_cast W.bandWidth.1
    refine ⟨⟨by rw [W.grid.nNodes]; exact nodeNo_lt hx hy, hmask _, by rw [hfx]; simp⟩, ?_⟩
    simp only [FP.abs_real, FP.nat_real, FP.lt_real]
    rw [hs x y hx hy]
    have := hab x y
    linarith

theorem kink_mid {f : Nat → Nat → ℝ} {x y x' y' : Nat} (h1 : f x y = kink x y) (h2 : f x' y' = kink x' y') (hy : kinkDist y' = kinkDist y)
    (hn : kinkIn x' y' ↔ ¬ kinkIn x y) : f x y / (f x y - f x' y') = 1 / 2 ∧ Crossed (nodeSide (f x y)) (nodeSide (f x' y')) := by
  have hb := (kinkDist_bounds y).1
  rw [h1, h2]
  unfold kink
  rw [hy]
  have i1 : nodeSide (kinkDist y) = .inside := nodeSide_inside.2 (le_trans (by norm_num) hb.le)
  have i2 : nodeSide (-kinkDist y) = .outside := nodeSide_outside.2 (by norm_num; linarith)
  by_cases h : kinkIn x y
  · rw [if_pos h, if_neg (by rw [hn]; exact fun g => g h)]
    refine ⟨?_, .inl ⟨i1, i2⟩⟩
    field_simp
    norm_num
  · rw [if_neg h, if_pos (hn.2 h)]
    refine ⟨?_, .inr ⟨i2, i1⟩⟩
    field_simp
    norm_num

/-- The boundary point between the first two nodes of the first row: not fixed, at the edge of the domain, with one segment. -/
theorem kink_point {L L' : LevelSet ℝ} {b : Boundary ℝ} (hf : Kinked (vals L.signedDistance)) (T : Boundary.Tame 5 5 L false)
    (hm : ∀ i, ¬ L.Masked i) (hl : L.moveLimit = 1 / 2) (e : Boundary.discretise L false = .ok (b, L')) :
    CutEdge 5 5 (Boundary.level 5 L false) (.hor 0 0) ∧ (Place.hor 0 0).coord (Boundary.level 5 L false) = ⟨1 / 2, 0⟩ ∧
    ∃ (k : Nat) (p : BoundaryPoint ℝ) (j : Nat) (q : BoundaryPoint ℝ), b.points[k]? = some p ∧ p.coord = ⟨1 / 2, 0⟩ ∧ p.isDomain = true ∧
      p.isFixed = false ∧ p.neighbours.take p.nNeighbours = [j] ∧ b.points[j]? = some q ∧
      (q.coord = ⟨0, 1 / 2⟩ ∨ q.coord = ⟨1, 1 / 2⟩ ∨ q.coord = ⟨1 / 2, 1⟩) := by
  have V : ∀ x y, x ≤ 5 → y ≤ 5 → Boundary.level 5 L false x y = kink x y := hf
  have up : ∀ x, kinkIn x 1 ↔ ¬ kinkIn x 0 := fun x => kinkIn_up x 0
  have D : kinkDist 1 = kinkDist 0 := rfl
  obtain ⟨a1, a2⟩ := kink_mid (V 0 0 (by norm_num) (by norm_num)) (V 1 0 (by norm_num) (by norm_num)) rfl (kinkIn_next 0 0)
  obtain ⟨b1, b2⟩ := kink_mid (V 0 1 (by norm_num) (by norm_num)) (V 1 1 (by norm_num) (by norm_num)) rfl (kinkIn_next 0 1)
  obtain ⟨c1, c2⟩ := kink_mid (V 0 0 (by norm_num) (by norm_num)) (V 0 1 (by norm_num) (by norm_num)) D (up 0)
  obtain ⟨d1, d2⟩ := kink_mid (V 1 0 (by norm_num) (by norm_num)) (V 1 1 (by norm_num) (by norm_num)) D (up 1)
  have hcut : CutEdge 5 5 (Boundary.level 5 L false) (.hor 0 0) := by
    refine ⟨?_, a2, fun x y hp => by cases hp⟩
    intro q hq
    simp only [Place.ends, List.mem_cons, List.not_mem_nil, or_false] at hq
    rcases hq with rfl | rfl <;> exact ⟨by norm_num, by norm_num⟩
  have hcd : (Place.hor 0 0).coord (Boundary.level 5 L false) = ⟨1 / 2, 0⟩ := by
    unfold Place.coord
    simp only [zero_add, a1]
    norm_num
  obtain ⟨k, p, h1, h2, h3, h4, -, -, h5, -⟩ := C39_watertight T e hcut
  have hlen := h4.1 (.inl rfl)
  obtain ⟨i, hi⟩ := List.length_eq_one_iff.1 hlen
  have hmem : i ∈ Boundary.segmentsOf b k := by rw [hi]; exact List.mem_singleton.2 rfl
  unfold Boundary.segmentsOf at hmem
  simp only [List.mem_filter, List.mem_range] at hmem
  obtain ⟨m1, m2⟩ := hmem
  have hs := List.getElem?_eq_getElem m1
  rw [hs] at m2
  generalize hsg : b.segments[i] = s at hs m2
  simp only [Option.any_some, Bool.or_eq_true, decide_eq_true_eq] at m2
  obtain ⟨x, y, hx, hy, -, hne, hends⟩ := C38_segments_exact T e (List.mem_of_getElem? hs)
  have hn : Boundary.neighboursOf b k = [if s.start = k then s.stop else s.start] := by
    unfold Boundary.neighboursOf
    rw [hi]
    simp [hs]
  obtain ⟨-, -, -, -, -, -, -, -, g5, -, -⟩ := C43_limits T.toReady e (List.mem_of_getElem? h1)
  have hin : ∀ j ∈ [s.start, s.stop], j ≠ k → ∃ q, b.points[j]? = some q ∧
      (q.coord = ⟨0, 1 / 2⟩ ∨ q.coord = ⟨1, 1 / 2⟩ ∨ q.coord = ⟨1 / 2, 1⟩) := by
    intro j hj hjk
    obtain ⟨p', k1, -, k2⟩ := hends k (by rcases m2 with rfl | rfl <;> simp)
    rw [h1] at k1
    cases k1
    rw [h2, hcd] at k2
    obtain ⟨k2, k3, k4, k5⟩ := k2
    have hx0 : x = 0 := by
      by_contra hc
      have : (1 : ℝ) ≤ x := by exact_mod_cast Nat.one_le_iff_ne_zero.2 hc
      dsimp only at k2
      linarith
    have hy0 : y = 0 := by
      by_contra hc
      have : (1 : ℝ) ≤ y := by exact_mod_cast Nat.one_le_iff_ne_zero.2 hc
      dsimp only at k4
      linarith
    subst hx0 hy0
    obtain ⟨q, q1, ⟨r, r1, r2, r3⟩, -⟩ := hends j hj
    refine ⟨q, q1, ?_⟩
    rw [r3]
    cases r with
    | node x y =>
      have h0 := r1 (x, y) (by simp [Place.ends])
      exfalso
      have hv := V x y (by dsimp only at h0; omega) (by dsimp only at h0; omega)
      change nodeSide (Boundary.level 5 L false x y) = _ at r2
      rw [hv] at r2
      have := (kinkDist_bounds y).1
      unfold kink at r2
      split at r2
      · rw [nodeSide_inside.2 (le_trans (by norm_num) this.le)] at r2; cases r2
      · rw [nodeSide_outside.2 (by norm_num; linarith)] at r2; cases r2
    | hor x y =>
      have h0 := r1 (x, y) (by simp [Place.ends])
      have h0' := r1 (x + 1, y) (by simp [Place.ends])
      dsimp only at h0 h0'
      have hx0 : x = 0 := by omega
      subst hx0
      have : y = 0 ∨ y = 1 := by omega
      rcases this with rfl | rfl
      · exact absurd (h3 j q q1 r3) hjk
      · right; right
        unfold Place.coord
        simp only [zero_add, b1]
        norm_num
    | ver x y =>
      have h0 := r1 (x, y) (by simp [Place.ends])
      have h0' := r1 (x, y + 1) (by simp [Place.ends])
      dsimp only at h0 h0'
      have hy0 : y = 0 := by omega
      subst hy0
      have : x = 0 ∨ x = 1 := by omega
      rcases this with rfl | rfl
      · left
        unfold Place.coord
        simp only [zero_add, c1]
        norm_num
      · right; left
        unfold Place.coord
        simp only [zero_add, d1]
        norm_num
  obtain ⟨q, q1, q2⟩ := hin (if s.start = k then s.stop else s.start) (by split <;> simp) (by
    split
    · rename_i hc; rw [← hc]; exact hne.symm
    · rename_i hc; exact hc)
  refine ⟨hcut, hcd, k, p, _, q, h1, h2.trans hcd, g5.2 ?_, ?_, h5.trans hn, q1, q2⟩
  · rw [h2, hcd, hl]
    unfold Boundary.distToEdge
    norm_num
  · obtain ⟨nx, ny, nd, n1, n2, n3, -, -, -, n4, -⟩ := C43_limits T.toReady e (List.mem_of_getElem? h1)
    by_contra hc
    exact hm _ ⟨nd, n3, (n4.1 (by simpa using hc)).1⟩

end Slsm
