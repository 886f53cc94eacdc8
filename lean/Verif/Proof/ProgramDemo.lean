import Verif.Proof.ProgramSafe
import Verif.Proof.ProgramMatch
import Verif.Props.Normal
import Verif.Proof.OptDemo

/-! # Runs of the programs

The domain has 5 × 5 cells; the columns of nodes are inside and outside in turn, at distances `a` and `1 - a` from the boundary. -/

namespace Slsm.Program

open LevelSet FP

/-- Values of the level set. -/
noncomputable def stripe (a : ℝ) (x : Nat) : ℝ := if x % 2 = 0 then a else a - 1

/-- Distances that the tolerances do not blur. -/
def Mid (a : ℝ) : Prop := 1 / 10 ^ 5 ≤ a ∧ a ≤ 1 / 2

variable {a : ℝ}

theorem stripe_cases (a : ℝ) (x : Nat) : (x % 2 = 0 ∧ stripe a x = a ∧ stripe a (x + 1) = a - 1) ∨ (x % 2 = 1 ∧ stripe a x = a - 1 ∧ stripe a (x + 1) = a) := by
  unfold stripe
  rcases Nat.mod_two_eq_zero_or_one x with h | h
  · exact .inl ⟨h, by rw [if_pos h], by rw [if_neg (by omega)]⟩
  · exact .inr ⟨h, by rw [if_neg (by omega)], by rw [if_pos (by omega)]⟩

theorem Mid.pos (h : Mid a) : 0 < a := lt_of_lt_of_le (by norm_num) h.1

theorem Mid.neg (h : Mid a) : a - 1 < 0 := by linarith [h.2]

theorem stripe_abs (h : Mid a) (x : Nat) : |stripe a x| < 1 := by
  have := h.pos
  have := h.2
  rw [abs_lt]
  rcases stripe_cases a x with ⟨-, e, -⟩ | ⟨-, e, -⟩ <;> rw [e] <;> constructor <;> linarith

theorem stripe_next (h : Mid a) (x : Nat) : stripe a x * stripe a (x + 1) < 0 := by
  rcases stripe_cases a x with ⟨-, e, e'⟩ | ⟨-, e, e'⟩ <;> rw [e, e']
  · exact mul_neg_of_pos_of_neg h.pos h.neg
  · exact mul_neg_of_neg_of_pos h.neg h.pos

/-- Values that are stripes, in a domain of 5 × 5 cells. -/
def Striped (a : ℝ) (f : Nat → ℝ) : Prop := ∀ x y, x ≤ 5 → y ≤ 5 → f (nodeNo 5 x y) = stripe a x

theorem stripe_opposite (ha : Mid a) {f : Nat → ℝ} (hf : Striped a f) {x y : Nat} (hx : x ≤ 5) (hy : y ≤ 5) :
    ∃ n, HAdj 5 5 (nodeNo 5 x y) n ∧ f (nodeNo 5 x y) * f n < 0 := by
  rcases Nat.lt_or_ge x 5 with h | h
  · refine ⟨nodeNo 5 (x + 1) y, ⟨x, x + 1, y, hx, h, hy, rfl, rfl, .inl rfl⟩, ?_⟩
    rw [hf x y hx hy, hf (x + 1) y h hy]
    exact stripe_next ha x
  · have hx' : x = 5 := by omega
    subst hx'
    refine ⟨nodeNo 5 4 y, ⟨5, 4, y, by norm_num, by norm_num, hy, rfl, rfl, .inr rfl⟩, ?_⟩
    rw [hf 5 y hx hy, hf 4 y (by norm_num) hy, mul_comm]
    exact stripe_next ha 4

theorem stripe_interface (ha : Mid a) {f : Nat → ℝ} (hf : Striped a f) {x y : Nat} (hx : x ≤ 5) (hy : y ≤ 5) :
    OnInterface 5 5 f (nodeNo 5 x y) := by
  obtain ⟨n, h1, h2⟩ := stripe_opposite ha hf hx hy
  exact .inr ⟨n, .inl h1, by unfold Opposite; simpa using h2⟩

theorem stripe_invSq (ha : Mid a) {f : Nat → ℝ} (hf : Striped a f) {x y : Nat} (hx : x ≤ 5) (hy : y ≤ 5) :
    invSq (crossings (HAdj 5 5) f (nodeNo 5 x y)) = 1 / |stripe a x| ^ 2 ∧ invSq (crossings (VAdj 5 5) f (nodeNo 5 x y)) = 0 := by
  constructor
  · have : crossings (HAdj 5 5) f (nodeNo 5 x y) = {|stripe a x|} := by
      ext d
      rw [Set.mem_singleton_iff]
      have dist : ∀ n, HAdj 5 5 (nodeNo 5 x y) n → f (nodeNo 5 x y) / (f (nodeNo 5 x y) - f n) = |stripe a x| := by
        rintro n ⟨c, c', r, hc, hc', hr, e1, e2, e3⟩
        obtain ⟨rfl, rfl⟩ := (nodeNo_inj hx hc).1 e1
        rw [e2, hf x y hx hy, hf c' y hc' hy]
        have h0 := ha.pos
        have h1 := ha.neg
        rcases e3 with rfl | rfl
        · rcases stripe_cases a x with ⟨-, e, e'⟩ | ⟨-, e, e'⟩ <;> rw [e, e']
          · rw [abs_of_pos h0, show a - (a - 1) = 1 by ring, div_one]
          · rw [abs_of_neg h1, show a - 1 - a = -1 by ring, div_neg, div_one]
        · rcases stripe_cases a c' with ⟨-, e, e'⟩ | ⟨-, e, e'⟩ <;> rw [e, e']
          · rw [abs_of_neg h1, show a - 1 - a = -1 by ring, div_neg, div_one]
          · rw [abs_of_pos h0, show a - (a - 1) = 1 by ring, div_one]
      constructor
      · rintro ⟨n, h1, h2, rfl⟩
        exact dist n h1
      · rintro rfl
        obtain ⟨n, h1, h2⟩ := stripe_opposite ha hf hx hy
        exact ⟨n, h1, h2, (dist n h1).symm⟩
    unfold invSq
    rw [this, if_pos (Set.singleton_nonempty _), csInf_singleton]
  · unfold invSq
    rw [if_neg]
    rintro ⟨d, n, ⟨c, r, r', hc, hr, hr', e1, e2, e3⟩, h2, -⟩
    obtain ⟨rfl, rfl⟩ := (nodeNo_inj hx hc).1 e1
    rw [e2, hf x y hx hy, hf x r' hx hr'] at h2
    exact absurd h2 (not_lt.2 (mul_self_nonneg _))

/-- The stripes as a level set on a domain without fixed nodes, with a target of one's choice. -/
theorem striped_level (a : ℝ) (target : List ℝ) : ∃ L : LevelSet ℝ, Reachable 5 5 L ∧ Striped a (vals L.signedDistance) ∧ L.moveLimit = 1 / 2 ∧
    L.isFixedDomain = false ∧ (∀ i, ¬ L.Masked i) ∧ L.target = target := by
  obtain ⟨L, hL⟩ := (C22_accepts_iff (D := ℝ) (w := 5) (h := 5) (by norm_num) (by norm_num) (by norm_num)
    (.holes []) (by simp) (1 / 2) 3 (by norm_num) false).2.2
    ⟨by norm_num, by norm_num, by norm_num, fun h => by cases h⟩
  have hr : Reachable 5 5 L := .new (by norm_num) (by norm_num) (by norm_num) (by norm_num) hL
  have B := built (by norm_num) (by norm_num) (by norm_num) (by norm_num) hL
  have C := hr.core
  have hN : L.mesh.nNodes = 36 := C.grid.nNodes
  refine ⟨_, .call hr (.assign ((List.range 36).map fun i => stripe a (i % 6)) L.velocity L.gradient target
    (by simp [hN]) C.velocity C.gradient), ?_, B.params.1, B.params.2.2, B.unmasked, rfl⟩
  intro x y hx hy
  have hlt : nodeNo 5 x y < 36 := nodeNo_lt (w := 5) (h := 5) hx hy
  dsimp only
  rw [vals_map_range _ hlt, show nodeNo 5 x y % 6 = x by unfold nodeNo; omega]

/-- The stripes are reinitialised to themselves, with all nodes in the narrow band and no mines. -/
theorem striped_reinitialise (ha : Mid a) {L : LevelSet ℝ} (hr : Reachable 5 5 L) (hf : Striped a (vals L.signedDistance))
    (hfix : L.isFixedDomain = false) (hm : ∀ i, ¬ L.Masked i) : ∃ L', reinitialise L = .ok L' ∧ Striped a (vals L'.signedDistance) ∧ BandOk L' ∧
      L'.isFixedDomain = false ∧ L'.moveLimit = L.moveLimit ∧ (∀ i, ¬ L'.Masked i) ∧ (∀ i, i < L'.mesh.nNodes → i ∈ L'.band) ∧ L'.mineList = [] ∧
      L'.target = L.target := by
  have C := hr.core
  rcases C27_reinitialise hr with ⟨L', F, e, hF, hsd, -⟩ | ⟨-, hno⟩
  · obtain ⟨W, B, F', hF', -, hB⟩ := wp_of_ok (reinitialise_spec C.toWF C.small) e
    have hs : Striped a (vals L'.signedDistance) := by
      intro x y hx hy
      obtain ⟨n, h1, h2⟩ := stripe_opposite ha hf hx hy
      obtain ⟨i1, i2⟩ := stripe_invSq ha hf hx hy
      rw [hsd, C16_value C.grid C.sd hF (.inl h1) h2, i1, i2, add_zero, hf x y hx hy, Real.sqrt_div zero_le_one, Real.sqrt_one,
        Real.sqrt_sq (abs_nonneg _), one_div_one_div]
      split
      · rename_i hlt
        rw [abs_of_neg hlt]; ring
      · rename_i hge
        rw [abs_of_nonneg (not_lt.1 hge), one_mul]
    have hN : L'.mesh.nNodes = 36 := W.grid.nNodes
    have hmask : ∀ i, ¬ L'.Masked i := fun i h => hm i ((hB.masked i).1 h)
    have hfx : L'.isFixedDomain = false := by rw [hB.frame]; exact hfix
    have hval : ∀ i, i < L'.mesh.nNodes → |vals L'.signedDistance i| < 1 := by
      intro i hi
      rw [hN] at hi
      have h1 := hs (i % 6) (i / 6) (by omega) (by omega)
      rw [show nodeNo 5 (i % 6) (i / 6) = i by unfold nodeNo; omega] at h1
      rw [h1]
      exact stripe_abs ha _
    have hbw : (2 : ℝ) < L'.bandWidth := by exact_mod_cast W.bandWidth.1
    refine ⟨L', e, hs, B, hfx, by rw [hB.frame], hmask, fun i hi => ?_, ?_, by rw [hB.frame]⟩
    · rw [B.band_mem]
      refine ⟨⟨hi, hmask i, by rw [hfx]; simp⟩, ?_⟩
      simp only [FP.abs_real, FP.nat_real, FP.lt_real]
      have := hval i hi
      simpa using by linarith
    · refine List.eq_nil_iff_forall_not_mem.2 fun i hi => ?_
      obtain ⟨⟨hfree, -⟩, h2⟩ := (B.mine_mem i).1 hi
      simp only [FP.abs_real, FP.nat_real, FP.lt_real] at h2
      rw [Nat.cast_sub (by have := W.bandWidth.1; omega)] at h2
      have := hval i hfree.1
      push_cast at h2
      linarith
  · exact absurd ⟨nodeNo 5 0 0, nodeNo_lt (w := 5) (h := 5) (by norm_num) (by norm_num), stripe_interface ha hf (by norm_num) (by norm_num)⟩ hno

theorem stripe_side (ha : Mid a) (x : Nat) : nodeSide (stripe a x) = if x % 2 = 0 then .inside else .outside := by
  rcases stripe_cases a x with ⟨h, e, -⟩ | ⟨h, e, -⟩ <;> rw [e]
  · rw [if_pos h, nodeSide_inside]
    exact le_trans (by norm_num) ha.1
  · rw [if_neg (by omega), nodeSide_outside]
    have := ha.2
    norm_num
    linarith

theorem striped_generic (ha : Mid a) {L : LevelSet ℝ} (hf : Striped a (vals L.signedDistance)) : Generic 5 5 (Boundary.level 5 L false) := by
  intro x y hx hy
  change nodeSide (vals L.signedDistance (nodeNo 5 x y)) ≠ _
  rw [hf x y hx hy, stripe_side ha]
  split <;> simp

theorem striped_tame (ha : Mid a) {L : LevelSet ℝ} (hr : Reachable 5 5 L) (hf : Striped a (vals L.signedDistance)) (hB : BandOk L)
    (hfix : L.isFixedDomain = false) : Boundary.Tame 5 5 L false := by
  have hN := Boundary.near_of_band hr hB hfix
  have hg : Gentle 5 5 (Boundary.level 5 L false) := by
    refine ⟨fun x y hx hy _ => ?_, fun x y hx hy _ => ?_⟩
    · change |vals L.signedDistance _ - vals L.signedDistance _| ≤ 1
      rw [hf x y (by omega) hy, hf (x + 1) y hx hy, abs_le]
      rcases stripe_cases a x with ⟨-, e, e'⟩ | ⟨-, e, e'⟩ <;> rw [e, e'] <;> constructor <;> linarith
    · change |vals L.signedDistance _ - vals L.signedDistance _| ≤ 1
      rw [hf x y hx (by omega), hf x (y + 1) hx hy]
      simp
  refine ⟨ready_of_reachable hr, hg, .inr fun p hp => ?_, (striped_generic ha hf).tidy⟩
  obtain ⟨q, hq⟩ : ∃ q, q ∈ p.ends := by cases p <;> exact ⟨_, List.mem_cons_self⟩
  have hin := hp.1 q hq
  refine ⟨q, hq, hN q.1 q.2 hin.1 hin.2 ?_⟩
  change |vals L.signedDistance _| < 1
  rw [hf q.1 q.2 hin.1 hin.2]
  exact stripe_abs ha _

/-- The boundary of the stripes: no fixed points, some of positive length, some away from the edge. -/
theorem striped_boundary (ha : Mid a) {L L' : LevelSet ℝ} {b : Boundary ℝ} (T : Boundary.Tame 5 5 L false) (hf : Striped a (vals L.signedDistance))
    (hm : ∀ i, ¬ L.Masked i) (hl : L.moveLimit = 1 / 2) (e : Boundary.discretise L false = .ok (b, L')) : (∀ p ∈ b.points, p.isFixed = false) ∧
    (∃ p ∈ b.points, 0 < p.length) ∧ ∃ p ∈ b.points, p.isDomain = false := by
  have hfree : ∀ p ∈ b.points, p.isFixed = false := by
    intro p hp
    obtain ⟨nx, ny, nd, h1, h2, h3, -, -, -, h4, -⟩ := C43_limits T.toReady e hp
    by_contra hc
    exact hm _ ⟨nd, h3, (h4.1 (by simpa using hc)).1⟩
  have hcut : CutEdge 5 5 (Boundary.level 5 L false) (.hor 1 2) := by
    refine ⟨?_, .inr ⟨?_, ?_⟩, fun x y hp => by cases hp⟩
    · intro q hq
      simp only [Place.ends, List.mem_cons, List.not_mem_nil, or_false] at hq
      rcases hq with rfl | rfl <;> exact ⟨by norm_num, by norm_num⟩
    · change nodeSide (vals L.signedDistance _) = _
      rw [hf 1 2 (by norm_num) (by norm_num), stripe_side ha]
      rfl
    · change nodeSide (vals L.signedDistance _) = _
      rw [hf 2 2 (by norm_num) (by norm_num), stripe_side ha]
      rfl
  obtain ⟨k, pt, h1, h2, -, h4, -⟩ := C39_watertight T e hcut
  refine ⟨hfree, ?_, pt, List.mem_of_getElem? h1, ?_⟩
  · have hlen : 0 < (Boundary.segmentsOf b k).length := by
      by_cases hr : (Place.hor 1 2).onRim 5 5
      · rw [h4.1 hr]; norm_num
      · rw [h4.2 hr]; norm_num
    obtain ⟨j, hj⟩ := List.exists_mem_of_length_pos hlen
    obtain ⟨s, hs⟩ : ∃ s, s ∈ b.segments := by
      unfold Boundary.segmentsOf at hj
      simp only [List.mem_filter, List.mem_range] at hj
      exact ⟨b.segments[j], List.getElem_mem hj.1⟩
    have hall : ∀ s ∈ b.segments, 0 < s.length := by
      intro s hs
      obtain ⟨p, q, x, y, g1, g2, g3, -⟩ := (C38_segments T.toReady e).1 s hs
      obtain ⟨-, -, -, -, -, hne, -⟩ := C38_segments_exact T e hs
      rw [g3]
      refine lt_of_le_of_ne (Real.sqrt_nonneg _) fun h0 => hne ?_
      have hz := (Real.sqrt_eq_zero (add_nonneg (mul_self_nonneg _) (mul_self_nonneg _))).1 h0.symm
      have hx : p.coord.x = q.coord.x := by nlinarith [sq_nonneg (p.coord.x - q.coord.x), sq_nonneg (p.coord.y - q.coord.y)]
      have hy : p.coord.y = q.coord.y := by nlinarith [sq_nonneg (p.coord.x - q.coord.x), sq_nonneg (p.coord.y - q.coord.y)]
      exact (C39_closed_curves T (striped_generic ha hf) e g2).2.2 _ _ g1 (by
        cases hp : p.coord; cases hq : q.coord
        rw [hp, hq] at hx hy
        simp only at hx hy
        rw [hx, hy])
    have hb : 0 < b.length := by
      rw [(C38_segments T.toReady e).2.1]
      refine lt_of_lt_of_le (hall s hs) (List.single_le_sum (fun v hv => ?_) _ (List.mem_map.2 ⟨s, hs, rfl⟩))
      obtain ⟨s', hs', rfl⟩ := List.mem_map.1 hv
      exact (hall s' hs').le
    rw [← (C40_point_lengths T.toReady e).1] at hb
    by_contra hc
    push Not at hc
    have : ∀ l : List (BoundaryPoint ℝ), (∀ p ∈ l, p.length ≤ 0) → (l.map fun p => p.length).sum ≤ 0 := by
      intro l
      induction l with
      | nil => simp
      | cons p l ih =>
        intro h
        rw [List.map_cons, List.sum_cons]
        exact add_nonpos (h p List.mem_cons_self) (ih fun q hq => h q (List.mem_cons_of_mem _ hq))
    exact absurd hb (not_lt.2 (this _ hc))
  · obtain ⟨-, -, -, -, -, -, -, -, h5, -⟩ := C43_limits T.toReady e (List.mem_of_getElem? h1)
    by_contra hc
    have h6 := h5.1 (by simpa using hc)
    have hcd : pt.coord = ⟨2 - a, 2⟩ := by
      rw [h2]
      have v0 : Boundary.level 5 L false 1 2 = a - 1 := by
        change vals L.signedDistance _ = _
        rw [hf 1 2 (by norm_num) (by norm_num)]
        norm_num [stripe]
      have v1 : Boundary.level 5 L false 2 2 = a := by
        change vals L.signedDistance _ = _
        rw [hf 2 2 (by norm_num) (by norm_num)]
        norm_num [stripe]
      unfold Place.coord
      simp only [show 1 + 1 = 2 from rfl, v0, v1]
      rw [show a - 1 - a = -1 by ring]
      norm_num
      ring
    rw [hcd, hl] at h6
    have := ha.pos
    have := ha.2
    unfold Boundary.distToEdge at h6
    refine absurd h6 (not_lt.2 (le_trans ?_ (le_refl (1 : ℝ)) |>.trans (le_min (le_min ?_ ?_) (le_min ?_ ?_)))) <;> norm_num <;> linarith

/-- A solver that answers with the lower end of the search interval, for points with sensitivity one. -/
theorem corner_negative {s s0 s1 s2 s3 sc : Optimise ℝ} {r : Optimise ℝ × ℝ} (F : Optimise.Fresh s) (hn : s.nConstraints = 0)
    (hmax : 0 < s.maxDisplacement) (S : Optimise.Solved (Optimise.cornerSolver false) s s0 s1 s2 s3 sc r)
    (h1 : ∀ p ∈ s.points, p.sensitivities.getD 0 0 = 1) : r.1.lambdas.getD 0 0 < 0 := by
  have hlim : s0.scaleFactors.getD 0 0 * s0.negativeLambdaLimits.getD 0 0 = -s.maxDisplacement := by
    obtain ⟨-, p, hp, hpf, -, -⟩ := F.responds 0 (by omega)
    have := (Optimise.peak_limits S.prep.lim (k := 0) (by omega) (F.responds 0 (by omega)) (M := 1) le_rfl
      (fun p hp hf => by rw [h1 p hp, abs_one]) ⟨p, hp, hpf, by rw [h1 p hp, abs_one]⟩).1
    rw [this, div_one]
  obtain ⟨t, t0, -, -, v1, -⟩ := S.closed.value
  rw [Optimise.corner_step S (v1 0 (by omega) (.inr rfl))]
  simp only [Bool.false_eq_true, if_false]
  rw [hlim]
  nlinarith

/-- A run of the area minimisation program: the first iteration moves the boundary. -/
theorem area_demo : ∃ (s s' : State Unit ℝ) (fuel : Nat), Running 5 5 minimiseArea s ∧
    advance minimiseArea (Optimise.cornerSolver false) fuel 0 s = .ok s' ∧ s'.lambdas.getD 0 0 < 0 ∧ s.levelSet.moveLimit = 1 / 2 ∧
    Averaged 5 5 s.levelSet s.boundary.points ∧ s.lambdas.length = 1 ∧ Striped (1 / 2) (vals s.levelSet.signedDistance) ∧
    (∃ p ∈ s.boundary.points, p.isFixed = false ∧ 0 < p.length) ∧
    ∃ p ∈ s'.boundary.points, p.isFixed = false ∧ p.isDomain = false := by
  have ha : Mid (1 / 2) := ⟨by norm_num, le_rfl⟩
  obtain ⟨L, hr, hf, hml, hfix, hm, -⟩ := striped_level (1 / 2) []
  obtain ⟨L1, e1, hf1, hB, hfix1, hml1, hm1, hall, hmine, -⟩ := striped_reinitialise ha hr hf hfix hm
  have hr1 : Reachable 5 5 L1 := .call hr (.reinitialise e1)
  have T := striped_tame ha hr1 hf1 hB hfix1
  obtain ⟨b, L2, e2⟩ := C41_safe_partial T
  obtain ⟨b1, ⟨p1, b2, b2'⟩, ⟨p2, b3, b3'⟩⟩ := striped_boundary ha T hf1 hm1 (hml1.trans hml) e2
  have hL2 : L2 = { L1 with mesh := L2.mesh } := by
    obtain ⟨_, _, -, -, -, -, -, -, -, -, -, -, -, h4⟩ := C36_node_status T.toReady e2 (Nat.zero_le 5) (Nat.zero_le 5)
    exact h4
  let s : State Unit ℝ := { levelSet := L2, boundary := b, lambdas := [0], nReinit := 0, runningTime := 0, rng := () }
  have es : start minimiseArea L 1 () = .ok s := by
    unfold start launch
    rw [e1]
    simp only [bind, Except.bind]
    unfold refresh
    dsimp only
    rw [e2]
    simp only [bind, Except.bind, minimiseArea, pure, Except.pure]
    simp [s]
  have hs : Running 5 5 minimiseArea s := .start hr es
  obtain ⟨L', L0, b0, F⟩ := hs.fits regular_area
  have hr2 := F.reachable
  obtain ⟨ba, hba⟩ := setSensitivity_safe (k := 0) (value := fun _ => pure (FP.nat 1)) (b := s.boundary) fun p hp =>
    ⟨by rw [(F.fresh hp).1]; simp, _, rfl⟩
  have hone : ∀ p ∈ ba.points, p.sensitivities.getD 0 0 = 1 := by
    intro p hp
    obtain ⟨q, hq, v, hv, -, e⟩ := forall₂_mem' (setSensitivity_ok hba).2 hp
    cases hv
    rw [e, (F.fresh hq).1]
    simp
  have V := valid_single F (setSensitivity_frame hba).2 rfl (by
    obtain ⟨p', hp', h⟩ := forall₂_mem (setSensitivity_frame hba).2 b2
    exact ⟨p', hp', by rw [h.1]; exact b1 p1 b2, by rw [hone p' hp']; norm_num, by rw [h.1]; exact b2'⟩)
  obtain ⟨o, fuel, r, s0, s1, s2, s3, sc, h1, h2, h3, -, h5, S⟩ := Optimise.demo V false fun s s0 s1 hs R => by
    left
    have : s.nConstraints = 0 := by rw [hs]; rfl
    exact R.none_stay fun m hm => by omega
  have hoP : o.points = ba.points := by rw [h2]; rfl
  have hneg : r.1.lambdas.getD 0 0 < 0 := corner_negative h3 (by rw [h2]; rfl) (by
    have : o.maxDisplacement = s.levelSet.moveLimit := by rw [h2]; rfl
    rw [this]
    exact (real_limit hr2).1) S (by rw [hoP]; exact hone)
  have hsd : s.levelSet.signedDistance = L1.signedDistance := by show L2.signedDistance = _; rw [hL2]
  have hfs : Striped (1 / 2) (vals s.levelSet.signedDistance) := by rw [hsd]; exact hf1
  have hgrid := hr2.core.grid
  have hN : s.levelSet.mesh.nNodes = 36 := hgrid.nNodes
  have hint : ∀ i, i < s.levelSet.mesh.nNodes → OnInterface 5 5 (vals s.levelSet.signedDistance) i := by
    intro i hi
    rw [hN] at hi
    have := stripe_interface ha hfs (x := i % 6) (y := i / 6) (by omega) (by omega)
    rwa [show nodeNo 5 (i % 6) (i / 6) = i by unfold nodeNo; omega] at this
  have hband : s.levelSet.band = L1.band := by show L2.band = _; rw [hL2]; rfl
  have hmines : s.levelSet.mineList = [] := by rw [← hmine]; show L2.mineList = _; rw [hL2]; rfl
  have hav : Averaged 5 5 s.levelSet s.boundary.points := by
    intro x y hx hy _
    left
    rw [hband]
    refine hall _ ?_
    rw [hr1.core.grid.nNodes]
    exact nodeNo_lt hx hy
  -- velocities
  have hin : ∀ p ∈ r.1.points, InDomain 5 5 p.coord := by
    intro q hq
    obtain ⟨i, hi⟩ := List.mem_iff_getElem?.1 hq
    obtain ⟨-, -, c3, c4⟩ := Optimise.C48_consistent (.made h1) (obj := r.2) h5
    have hi' : i < o.points.length := by rw [← c3]; exact (List.getElem?_eq_some_iff.1 hi).1
    obtain ⟨q'', d1, d2, -⟩ := c4 i o.points[i] (List.getElem?_eq_getElem hi')
    rw [hi] at d1
    cases d1
    have hm : o.points[i] ∈ ba.points := by rw [← hoP]; exact List.getElem_mem hi'
    obtain ⟨ps, e1, e2⟩ := forall₂_mem' (setSensitivity_frame hba).2 hm
    rw [d2, e2.1]
    exact (F.fresh e1).2.2.2
  have hpo := pointsOk_real hgrid (fit_of_reachable hr2) hin
  obtain ⟨Lv, v1, v2, v3, v4⟩ := wp_noErr_iff.1 (initialiseVelocities_spec hr2.core hpo)
  obtain ⟨Fv, hFv⟩ := C18_nothing_to_extend (D := ℝ) (vel := Lv.velocity) false hgrid hr2.core.sd v3
    ⟨0, by norm_num, hint 0 (by rw [hN]; norm_num)⟩ fun i hi _ => hint i hi
  obtain ⟨Lw, hLw⟩ : ∃ Lw, computeVelocities r.1.points s.levelSet = .ok Lw := by
    unfold computeVelocities
    rw [v1]
    simp only [bind, Except.bind]
    rw [show Lv.mesh = s.levelSet.mesh by rw [v2], show Lv.signedDistance = s.levelSet.signedDistance by rw [v2], hFv]
    exact ⟨_, rfl⟩
  have rw1 : Reachable 5 5 Lw := .call hr2 (.velocities _ hLw)
  obtain ⟨Lg, hLg, f2, -⟩ := C34_safe rw1 (by norm_num) (by norm_num)
  have rg1 : Reachable 5 5 Lg := .call rw1 (.gradients hLg)
  have hmineg : Lg.mineList = [] := by
    rw [← hmines]
    have f1 := (C32_frame hr2 hin hLw).1
    rw [f2, f1]
    rfl
  obtain ⟨x, hx⟩ : ∃ x, Lg.update r.1.timeStep = .ok x := by
    have := update_spec rg1.core r.1.timeStep
    cases hu : update r.1.timeStep Lg with
    | ok x => exact ⟨x, rfl⟩
    | error er =>
      rw [hu, wp_error] at this
      obtain ⟨-, L1, M, ⟨i, hi, -⟩, -⟩ := this
      have : L1.mineList = Lg.mineList := by rw [M.frame]; rfl
      rw [this, hmineg] at hi
      cases hi
  obtain ⟨u, Lu⟩ := x
  obtain ⟨y, hy⟩ : ∃ y, periodic u 0 Lu = .ok y := by
    unfold periodic
    cases u <;> exact ⟨_, rfl⟩
  obtain ⟨Lp, n⟩ := y
  refine ⟨s, State.mk Lp { ba with points := r.1.points } r.1.lambdas n (0 + r.1.timeStep) (), fuel, hs, ?_, hneg, ?_, hav, rfl, hfs, ⟨p1, b2, b1 p1 b2, b2'⟩, ?_⟩
  · unfold advance
    rw [show (minimiseArea : Problem Unit ℝ).assign s.levelSet s.boundary = .ok ba from hba]
    simp only [bind, Except.bind]
    rw [show (minimiseArea : Problem Unit ℝ).distances s.levelSet = .ok [] from rfl]
    dsimp only
    rw [h1]
    dsimp only
    rw [h5]
    dsimp only
    rw [show (minimiseArea : Problem Unit ℝ).extend r.1.points r.1.timeStep s.rng s.levelSet = .ok (r.1.points, r.1.timeStep, (), Lw) by
      show plain _ _ _ _ = _
      unfold plain
      rw [hLw]
      rfl]
    dsimp only
    rw [hLg]
    dsimp only
    rw [hx]
    dsimp only
    rw [hy]
    rfl
  · show L2.moveLimit = _
    rw [hL2]
    exact hml1.trans hml
  · obtain ⟨i, hi⟩ := List.mem_iff_getElem?.1 b3
    obtain ⟨pa, ha1, ha2⟩ := forall₂_get (setSensitivity_frame hba).2 hi
    obtain ⟨q, d1, d2, -⟩ := (Optimise.C48_consistent (.made h1) (obj := r.2) h5).2.2.2 i pa (by rw [hoP]; exact ha1)
    refine ⟨q, List.mem_of_getElem? d1, ?_, ?_⟩
    · rw [d2, ha2.1]; exact b1 p2 b3
    · rw [d2, ha2.1]; exact b3'

/-- The code before the loop, for the stripes: up to the discretisation. -/
theorem striped_start (ha : Mid a) (target : List ℝ) : ∃ (L L1 L2 : LevelSet ℝ) (b : Boundary ℝ), Reachable 5 5 L ∧ reinitialise L = .ok L1 ∧
    Reachable 5 5 L1 ∧ Boundary.Tame 5 5 L1 false ∧ Boundary.NearSeen 5 5 L1 false ∧ Boundary.discretise L1 false = .ok (b, L2) ∧
    Striped a (vals L1.signedDistance) ∧ L1.target = target ∧ L2 = { L1 with mesh := L2.mesh } ∧ ∃ p ∈ b.points, 0 < p.length := by
  obtain ⟨L, hr, hf, hml, hfix, hm, ht⟩ := striped_level a target
  obtain ⟨L1, e1, hf1, hB, hfix1, hml1, hm1, hall, hmine, ht1⟩ := striped_reinitialise ha hr hf hfix hm
  have hr1 : Reachable 5 5 L1 := .call hr (.reinitialise e1)
  have T := striped_tame ha hr1 hf1 hB hfix1
  obtain ⟨b, L2, e2⟩ := C41_safe_partial T
  refine ⟨L, L1, L2, b, hr, e1, hr1, T, Boundary.near_of_band hr1 hB hfix1, e2, hf1, ht1.trans ht, ?_,
    (striped_boundary ha T hf1 hm1 (hml1.trans hml) e2).2.1⟩
  obtain ⟨_, _, -, -, -, -, -, -, -, -, -, -, -, h4⟩ := C36_node_status T.toReady e2 (Nat.zero_le 5) (Nat.zero_le 5)
  exact h4

/-- Sensitivities of the shape matching program are defined at boundary points within 10⁻³ of the nodes. -/
theorem striped_mismatch {L1 L2 L : LevelSet ℝ} {b : Boundary ℝ} (ha : Mid (1 / 10 ^ 4)) (Ta : Boundary.Tame 5 5 L1 false)
    (e2 : Boundary.discretise L1 false = .ok (b, L2)) (hf : Striped (1 / 10 ^ 4) (vals L1.signedDistance)) (hr : Reachable 5 5 L)
    (ht : L.target.length = L.mesh.nNodes) {q : BoundaryPoint ℝ} (hq : q ∈ b.points) : ∃ v, mismatchSensitivity L q.coord = .ok v := by
  have G := hr.core.grid
  obtain ⟨⟨pl, hpl, hpc, hc⟩, i1, i2, i3, i4, -⟩ := C37_points_on_contour Ta.toReady e2 hq
  obtain ⟨x, y, hx, hy, hn, hmin⟩ := getClosestNode_real G (fit_of_reachable hr) i1 (by exact_mod_cast i2) i3 (by exact_mod_cast i4)
  refine ⟨_, match_node G ht hr.core.sd hx hy hn ?_⟩
  obtain ⟨kx, ky, hk⟩ : ∃ kx ky : Nat, sqDist q.coord kx ky < 1 / 10 ^ 6 := by
    have side : ∀ x y, x ≤ 5 → y ≤ 5 → Boundary.level 5 L1 false x y = stripe (1 / 10 ^ 4) x := hf
    cases pl with
    | node x y =>
      have h1 := hpl (x, y) (by simp [Place.ends])
      have := striped_generic ha hf x y h1.1 h1.2
      exact absurd hpc this
    | ver x y =>
      have h1 := hpl (x, y) (by simp [Place.ends])
      have h2 := hpl (x, y + 1) (by simp [Place.ends])
      change Crossed (nodeSide (Boundary.level 5 L1 false x y)) (nodeSide (Boundary.level 5 L1 false x (y + 1))) at hpc
      rw [side x y h1.1 h1.2, side x (y + 1) h2.1 h2.2] at hpc
      rcases hpc with ⟨g1, g2⟩ | ⟨g1, g2⟩ <;> rw [g1] at g2 <;> cases g2
    | hor x y =>
      have h1 := hpl (x, y) (by simp [Place.ends])
      have h2 := hpl (x + 1, y) (by simp [Place.ends])
      rw [hc]
      unfold Place.coord sqDist
      simp only
      rw [side x y h1.1 h1.2, side (x + 1) y h2.1 h2.2]
      rcases stripe_cases (1 / 10 ^ 4) x with ⟨-, e, e'⟩ | ⟨-, e, e'⟩
      · refine ⟨x, y, ?_⟩
        rw [e, e']
        norm_num
      · refine ⟨x + 1, y, ?_⟩
        rw [e, e']
        push_cast
        ring_nf
        norm_num
  have := hmin kx ky
  unfold sqDist at hk ⊢
  nlinarith

/-- A run of the shape matching program in which all sensitivities are defined: the boundary points lie within 10⁻³ of the nodes. -/
theorem match_demo (normal : Unit → ℝ × Unit) (T : ℝ) : ∃ (s : State Unit ℝ) (b : Boundary ℝ) (k : Nat) (p : BoundaryPoint ℝ),
    Running 5 5 (shapeMatch normal T) s ∧ (shapeMatch normal T).assign s.levelSet s.boundary = .ok b ∧ s.boundary.points[k]? = some p ∧
    0 < p.length := by
  have ha : Mid (1 / 10 ^ 4) := ⟨by norm_num, by norm_num⟩
  obtain ⟨L, L1, L2, b, hr, e1, hr1, Ta, hN, e2, hf, ht, hL2, p, hp, hpl⟩ := striped_start ha (List.replicate 36 0)
  let s : State Unit ℝ := { levelSet := L2, boundary := b, lambdas := [0], nReinit := 0, runningTime := 0, rng := () }
  have es : start (shapeMatch normal T) L 1 () = .ok s := by
    unfold start launch
    rw [e1]
    simp only [bind, Except.bind]
    unfold refresh
    dsimp only
    rw [e2]
    simp only [bind, Except.bind, shapeMatch, pure, Except.pure]
    simp [s]
  have hs : Running 5 5 (shapeMatch normal T) s := .start hr es
  obtain ⟨L', L0, b0, F⟩ := hs.fits (regular_match normal T)
  have hr2 : Reachable 5 5 L2 := F.reachable
  have G := hr2.core.grid
  have ht2 : L2.target.length = L2.mesh.nNodes := by
    rw [G.nNodes, show L2.target = L1.target by rw [hL2], ht]
    rfl
  have hval : ∀ q ∈ s.boundary.points, ∃ v, mismatchSensitivity s.levelSet q.coord = .ok v := fun q hq => striped_mismatch ha Ta e2 hf hr2 ht2 hq
  obtain ⟨b1, h1⟩ := setSensitivity_safe (k := 0) (value := fun p => mismatchSensitivity s.levelSet p.coord) (b := s.boundary) fun p hp =>
    ⟨by rw [(F.fresh hp).1]; simp, hval p hp⟩
  obtain ⟨b2, h3, -⟩ := ito_ok (delta := FP.lit 1 10000) (T := T) (linked_sens F.linked (setSensitivity_frame h1).2)
  obtain ⟨k, hk⟩ := List.mem_iff_getElem?.1 hp
  refine ⟨s, b2, k, p, hs, ?_, hk, hpl⟩
  change (setSensitivity 0 (fun p => mismatchSensitivity s.levelSet p.coord) s.boundary >>= fun b' =>
    Sensitivity.itoCorrection (FP.lit 1 10000) b' T) = _
  rw [h1]
  exact h3

/-- The perimeter changes with the position of a point of the example of `BndKink`. -/
theorem kink_curvature {L L' : LevelSet ℝ} {b b' : Boundary ℝ} {k j : Nat} {p q p0 q0 : BoundaryPoint ℝ} (R : Boundary.Ready 5 5 L false)
    (e : Boundary.discretise L false = .ok (b, L')) (h1 : b.points[k]? = some p0) (hp : p = { p0 with normal := p.normal })
    (h2 : b.points[j]? = some q0) (hq : q.coord = q0.coord) (h3 : b'.points[j]? = some q) (hc : p.coord = ⟨1 / 2, 0⟩)
    (hn : p.neighbours.take p.nNeighbours = [j]) (hqc : q.coord = ⟨0, 1 / 2⟩ ∨ q.coord = ⟨1, 1 / 2⟩ ∨ q.coord = ⟨1 / 2, 1⟩)
    (hv : p.normal = ⟨-(4 / Real.sqrt 2), 4 - 4 / Real.sqrt 2⟩) : 0 < p.length ∧ Sensitivity.curvature (1 / 10000) b' p ≠ 0 := by
  have hlen : 0 < p.length := by
    have hm := List.mem_of_getElem? h1
    have H := Sensitivity.linked_of_discretise R e
    have a1 := ((C40_point_lengths R e).2 p0 hm).1
    have a2 := Sensitivity.perimeter_real H hm p0.coord
    have hn0 : p0.neighbours.take p0.nNeighbours = [j] := by rw [hp] at hn; exact hn
    have hc0 : p0.coord = ⟨1 / 2, 0⟩ := by rw [hp] at hc; exact hc
    rw [show ({ p0 with coord := p0.coord } : BoundaryPoint ℝ) = p0 from rfl, a1, hn0] at a2
    have a3 := Except.ok.inj a2
    unfold Sensitivity.perimeterAt at a3
    simp only [List.map_cons, List.map_nil, List.sum_cons, List.sum_nil, add_zero, h2, Option.elim_some] at a3
    have hl : p.length = p0.length := by rw [hp]
    rw [hl]
    have hpos : 0 < Boundary.distance p0.coord q0.coord := by
      rw [hc0, ← hq]
      unfold Boundary.distance
      refine Real.sqrt_pos.2 ?_
      rcases hqc with h | h | h <;> rw [h] <;> norm_num
    linarith
  refine ⟨hlen, ?_⟩
  have s2 : Real.sqrt 2 * Real.sqrt 2 = 2 := Real.mul_self_sqrt (by norm_num)
  have sp : 0 < Real.sqrt 2 := Real.sqrt_pos.2 (by norm_num)
  have e3 : 4 / Real.sqrt 2 = 2 * Real.sqrt 2 := by
    rw [div_eq_iff sp.ne']
    linarith
  have l1 : 1 < Real.sqrt 2 := Real.lt_sqrt_of_sq_lt (by norm_num)
  have l2 : Real.sqrt 2 < 2 := by rw [Real.sqrt_lt' (by norm_num)]; norm_num
  rw [e3] at hv
  unfold Sensitivity.curvature Sensitivity.perimeterAt Sensitivity.displaced
  rw [hn]
  simp only [List.map_cons, List.map_nil, List.sum_cons, List.sum_nil, add_zero, h3, Option.elim_some, hv, hc]
  refine div_ne_zero (div_ne_zero (sub_ne_zero.2 fun h => ?_) (by norm_num)) hlen.ne'
  unfold Boundary.distance at h
  rw [Real.sqrt_inj (add_nonneg (mul_self_nonneg _) (mul_self_nonneg _)) (add_nonneg (mul_self_nonneg _) (mul_self_nonneg _))] at h
  rcases hqc with g | g | g <;> rw [g] at h <;> dsimp only at h <;> nlinarith

/-- The code before the loop, for the example of `BndKink`. -/
theorem kink_start : ∃ (L L1 L2 : LevelSet ℝ) (b b' : Boundary ℝ) (k : Nat) (p : BoundaryPoint ℝ), Reachable 5 5 L ∧ reinitialise L = .ok L1 ∧
    Reachable 5 5 L1 ∧ Boundary.Tame 5 5 L1 false ∧ Boundary.NearSeen 5 5 L1 false ∧ Boundary.discretise L1 false = .ok (b, L2) ∧
    b.computeNormalVectors L2 = .ok b' ∧ b'.points[k]? = some p ∧ p.isFixed = false ∧ 0 < p.length ∧
    Sensitivity.curvature (1 / 10000) b' p ≠ 0 := by
  obtain ⟨L0, hr, hf, hl, hx, hm⟩ := kink_level
  obtain ⟨L, e1, k1, T, k3, k4, k5, k6⟩ := kink_reinitialise hr hf hx hm
  obtain ⟨b, L', e2⟩ := C41_safe_partial T
  have hr1 : Reachable 5 5 L := .call hr (.reinitialise e1)
  obtain ⟨b', k, p, j, q, h1, ⟨p0, q0, g1, g2, g3, g4⟩, h2, h3, -, h4, h5, h6, h7, h8⟩ := kink_normal hr1 k1 T k5 (k4.trans hl) k6 e2
  obtain ⟨c1, c2⟩ := kink_curvature T.toReady e2 g1 g2 g3 g4 h6 h3 h5 h7 h8
  exact ⟨L0, L, L', b, b', k, p, hr, e1, hr1, T, k3, e2, h1, h2, h4, c1, c2⟩

/-- A run of the perimeter minimisation program. -/
theorem perimeter_demo : ∃ (s : State Unit ℝ) (p : BoundaryPoint ℝ), Running 5 5 minimisePerimeter s ∧ s.lambdas.length = 1 ∧
    p ∈ s.boundary.points ∧ p.isFixed = false ∧ 0 < p.length ∧ Sensitivity.curvature (1 / 10000) s.boundary p ≠ 0 ∧
    ∃ L, Reachable 5 5 L ∧ start minimisePerimeter L 1 () = .ok s := by
  obtain ⟨L, L1, L2, b, b', k, p, hr, e1, hr1, Ta, hN, e2, e3, h1, h2, h3, h4⟩ := kink_start
  let s : State Unit ℝ := { levelSet := L2, boundary := b', lambdas := [0], nReinit := 0, runningTime := 0, rng := () }
  have es : start minimisePerimeter L 1 () = .ok s := by
    unfold start launch
    rw [e1]
    simp only [bind, Except.bind]
    unfold refresh
    dsimp only
    rw [e2]
    simp only [bind, Except.bind, minimisePerimeter, pure, Except.pure]
    rw [e3]
    simp [s]
  exact ⟨s, p, .start hr es, rfl, List.mem_of_getElem? h1, h2, h3, h4, L, hr, es⟩

/-- A run of the constrained perimeter program. -/
theorem constrained_demo (normal : Unit → ℝ × Unit) (T A : ℝ) : ∃ (s : State Unit ℝ) (k : Nat) (p : BoundaryPoint ℝ),
    Running 5 5 (minimisePerimeterConstrained normal T A) s ∧ s.boundary.points[k]? = some p ∧ 0 < p.length ∧
    Sensitivity.curvature (1 / 10000) s.boundary p ≠ 0 := by
  obtain ⟨L, L1, L2, b, b', k, p, hr, e1, hr1, Ta, hN, e2, e4, h1, h2, h3, h4⟩ := kink_start
  obtain ⟨L3, e3⟩ := C45_returns Ta (.inr hN) e2
  have e5 : b.computeNormalVectors L3 = .ok b' := by
    rw [(C45_frame e3).1]
    exact e4
  let s : State Unit ℝ := { levelSet := L3, boundary := b', lambdas := [0, 0], nReinit := 0, runningTime := 0, rng := () }
  have es : start (minimisePerimeterConstrained normal T A) L 2 () = .ok s := by
    unfold start launch
    rw [e1]
    simp only [bind, Except.bind]
    unfold refresh
    dsimp only
    rw [e2]
    simp only [bind, Except.bind, minimisePerimeterConstrained, pure, Except.pure]
    rw [e3]
    dsimp only
    rw [e5]
    simp [s]
  exact ⟨s, k, p, .start hr es, h1, h3, h4⟩

end Slsm.Program
