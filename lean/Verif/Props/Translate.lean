import Verif.Proof.StraightMove

/-! # C89 and C90: velocities near a straight boundary and its motion -/

namespace Slsm.LevelSet

variable {w h : Nat} {L L' : LevelSet ℝ} {a b d r : ℝ} {points : List (BoundaryPoint ℝ)}

theorem below_max (hr : Reachable w h L) : (w : ℝ) + h < FP.maxVal := by
  have C := hr.core
  have h1 : w + h < 2147483648 := by
    have h2 := C.small
    rw [C.grid.nNodes] at h2
    nlinarith
  have h2 : (w : ℝ) + h < 2147483648 := by exact_mod_cast h1
  refine h2.trans ?_
  show (2147483648 : ℝ) < (2 - 1 / 2 ^ 52) * 2 ^ 1023
  have h3 : (2 : ℝ) ^ 32 ≤ 2 ^ 1023 := pow_le_pow_right₀ (by norm_num) (by norm_num)
  have h4 : (1 : ℝ) ≤ 2 - 1 / 2 ^ 52 := by norm_num
  calc (2147483648 : ℝ) < 2 ^ 32 := by norm_num
    _ ≤ 2 ^ 1023 := h3
    _ = 1 * 2 ^ 1023 := (one_mul _).symm
    _ ≤ _ := mul_le_mul_of_nonneg_right h4 (by positivity)

/-- **C89**: near a straight boundary parallel to an axis the velocity extension always succeeds, and every node in the narrow band (a strip along the line)
gets exactly the velocity of the first node on its normal to the line, on its side. -/
theorem C89_extension (hr : Reachable w h L) (B : StraightBoundary w h (Boundary.level w L false) a b d) (hb : StripBand w h L.band a b d r)
    (hp : ∀ p ∈ points, InDomain w h p.coord) :
    ∃ L', computeVelocities points L = .ok L' ∧ ∀ x y u v, x ≤ w → y ≤ h → u ≤ w → v ≤ h → nodeNo w x y ∈ L.band → FirstOnNormal a b d x y u v →
      vals L'.velocity (nodeNo w x y) = vals L'.velocity (nodeNo w u v) := by
  have C := hr.core
  have hpo := pointsOk_real C.grid (fit_of_reachable hr) hp
  obtain ⟨L1, h1, h2, h3, -⟩ := wp_noErr_iff.1 (initialiseVelocities_spec (w := w) (h := h) C hpo)
  have em : L1.mesh = L.mesh := by rw [h2]
  have es : L1.signedDistance = L.signedDistance := by rw [h2]
  have B' : StraightBoundary w h (fun x y => vals L.signedDistance (nodeNo w x y)) a b d := B
  have hact : ∀ x y, x ≤ w → y ≤ h → (Active L.mesh (nodeNo w x y) ↔ nodeNo w x y ∈ L.band) := fun x y _ _ =>
    C.active _
  obtain ⟨F', e, hF⟩ := FMM.line_velocity (sd := L.signedDistance) (vel := L1.velocity) B' C.grid (below_max hr) rfl C.sd h3
    (fun x y hx hy => (hact x y hx hy).trans (hb x y hx hy)) false
  have hc : ∃ L', computeVelocities points L = .ok L' ∧ L'.velocity = F'.vel := by
    unfold computeVelocities
    rw [h1]
    simp only [bind, Except.bind]
    rw [em, es, e]
    exact ⟨_, rfl, rfl⟩
  obtain ⟨L', e1, e2⟩ := hc
  refine ⟨L', e1, fun x y u v hx hy hu hv hm hn => ?_⟩
  rw [e2]
  exact hF x y u v hx hy hu hv ((hact x y hx hy).2 hm) hn

/-- Every node has a first node on its normal. -/
theorem first_exists (hax : (|a| = 1 ∧ b = 0) ∨ (a = 0 ∧ |b| = 1)) (hm : ∃ X Y : ℝ, 0 ≤ X ∧ X ≤ w ∧ 0 ≤ Y ∧ Y ≤ h ∧ a * X + b * Y = d) {x y : Nat} (hx : x ≤ w) (hy : y ≤ h) :
    ∃ u v, u ≤ w ∧ v ≤ h ∧ FirstOnNormal a b d x y u v := by
  have key : ∀ k x y : Nat, x ≤ w → y ≤ h → |a * x + b * y - d| < k → ∃ u v, u ≤ w ∧ v ≤ h ∧ FirstOnNormal a b d x y u v := by
    intro k
    induction k with
    | zero => intro x y hx hy hk; exact absurd hk (not_lt.2 (by push_cast; exact abs_nonneg _))
    | succ k ih =>
      intro x y hx hy hk
      by_cases h1 : |a * x + b * y - d| < 1
      · exact ⟨x, y, hx, hy, rfl, h1, mul_self_nonneg _⟩
      · have h1 : 1 ≤ |a * x + b * y - d| := not_lt.1 h1
        obtain ⟨u', v', hu', hv', ha, e⟩ := FMM.line_toward hax hm hx hy (fun h => by rw [h] at h1; norm_num at h1)
        have hne : a * u' + b * v' ≠ a * x + b * y := by rcases e with ⟨_, q⟩ | ⟨_, q⟩ <;> intro h <;> linarith
        have hnorm := FMM.toward_normal hax hx hy hu' hv' ha hne
        have habs : |a * u' + b * v' - d| = |a * x + b * y - d| - 1 := by
          rcases e with ⟨p, q⟩ | ⟨p, q⟩ <;> rw [q]
          · rw [abs_of_pos p] at h1 ⊢; rw [abs_of_nonneg (by linarith)]
          · rw [abs_of_neg p] at h1 ⊢; rw [abs_of_nonpos (by linarith)]; ring
        push_cast at hk
        obtain ⟨u, v, hu, hv, e1, e2, e3⟩ := ih u' v' hu' hv' (by rw [habs]; linarith)
        by_cases hz : a * u' + b * v' - d = 0
        · refine ⟨u', v', hu', hv', hnorm, by rw [hz]; norm_num, by rw [hz]; simp⟩
        refine ⟨u, v, hu, hv, e1.trans hnorm, e2, ?_⟩
        rcases e with ⟨p, q⟩ | ⟨p, q⟩ <;> rw [q] at e3 hz
        · rw [abs_of_pos p] at h1
          have : 0 < a * x + b * y - d - 1 := lt_of_le_of_ne (by linarith) (Ne.symm hz)
          have : 0 ≤ a * u + b * v - d := by by_contra hc; nlinarith
          exact mul_nonneg p.le this
        · rw [abs_of_neg p] at h1
          have : a * x + b * y - d + 1 < 0 := lt_of_le_of_ne (by linarith) hz
          have : a * u + b * v - d ≤ 0 := by by_contra hc; nlinarith
          exact mul_nonneg_of_nonpos_of_nonpos p.le this
  obtain ⟨k, hk⟩ := exists_nat_gt |a * x + b * y - d|
  exact key k x y hx hy hk

/-- A node in the narrow band with a contributing point has a velocity within the bounds of those of the points. -/
theorem nodeVelocity_fed {x y : Nat} {v lo hi : ℝ} (N : NodeVelocity w h L points x y v) (hb : nodeNo w x y ∈ L.band) (hf : ∃ p ∈ points, Feeds w h L.mesh p x y)
    (hv : ∀ p ∈ points, lo ≤ p.velocity ∧ p.velocity ≤ hi) : lo ≤ v ∧ v ≤ hi := by
  by_cases hs : ∃ p ∈ points, SitsOn w h L.mesh p x y
  · have : ∃ pre p post, points = pre ++ p :: post ∧ SitsOn w h L.mesh p x y ∧ ∀ q ∈ post, ¬ SitsOn w h L.mesh q x y := by
      clear N hv hb hf
      induction points with
      | nil => obtain ⟨p, hp, -⟩ := hs; cases hp
      | cons a t ih =>
        by_cases ht : ∃ p ∈ t, SitsOn w h L.mesh p x y
        · obtain ⟨pre, p, post, h1, h2, h3⟩ := ih ht
          exact ⟨a :: pre, p, post, by rw [h1]; rfl, h2, h3⟩
        · obtain ⟨p, hp, hq⟩ := hs
          rcases List.mem_cons.1 hp with rfl | hp
          · exact ⟨[], p, t, rfl, hq, fun q hq' hs' => ht ⟨q, hq', hs'⟩⟩
          · exact absurd ⟨p, hp, hq⟩ ht
    obtain ⟨pre, p, post, h1, h2, h3⟩ := this
    rw [N.on pre p post h1 h2 h3]
    exact hv p (by rw [h1]; simp)
  · have hs' : ∀ p ∈ points, ¬ SitsOn w h L.mesh p x y := fun p hp hq => hs ⟨p, hp, hq⟩
    have hmem : ∀ p ∈ feeders w h L.mesh points x y, p ∈ points ∧ Feeds w h L.mesh p x y := by
      intro p hp; unfold feeders at hp; simpa using hp
    rw [N.near hs' hb]
    refine average_bounds ?_ (fun p hp => ?_) fun p hp => hv p (hmem p hp).1
    · obtain ⟨p, hp, hq⟩ := hf
      have : p ∈ feeders w h L.mesh points x y := by unfold feeders; simpa using ⟨hp, hq⟩
      exact List.ne_nil_of_mem this
    · exact sq_pos_of_not_on (hmem p hp).2 (hs' p (hmem p hp).1)

/-- **C89** (bounds): if every node next to the line has a contributing boundary point, all velocities in the band are between the smallest and the largest
velocity of the points; in particular points that all move at speed `V` give every node in the band exactly the velocity `V`. -/
theorem C89_bounds (hr : Reachable w h L) (B : StraightBoundary w h (Boundary.level w L false) a b d) (hb : StripBand w h L.band a b d r) (h1 : 1 ≤ r)
    (hp : ∀ p ∈ points, InDomain w h p.coord)
    (hf : ∀ x y : Nat, x ≤ w → y ≤ h → |a * x + b * y - d| < 1 → ∃ p ∈ points, Feeds w h L.mesh p x y) {lo hi : ℝ}
    (hv : ∀ p ∈ points, lo ≤ p.velocity ∧ p.velocity ≤ hi) :
    ∃ L', computeVelocities points L = .ok L' ∧ ∀ i ∈ L.band, lo ≤ vals L'.velocity i ∧ vals L'.velocity i ≤ hi := by
  obtain ⟨L', e, hL⟩ := C89_extension hr B hb hp
  refine ⟨L', e, fun i hi => ?_⟩
  have C := hr.core
  obtain ⟨x, y, hx, hy, rfl⟩ := C.grid.node_index (C.band_free _ hi).1
  obtain ⟨u, v, hu, hv', F⟩ := first_exists (w := w) (h := h) B.axis B.meets hx hy
  rw [hL x y u v hx hy hu hv' hi F]
  have hI : OnInterface w h (vals L.signedDistance) (nodeNo w u v) := by
    have B' : StraightBoundary w h (fun x y => vals L.signedDistance (nodeNo w x y)) a b d := B
    rw [FMM.line_interface B' C.grid (by rw [C.grid.nNodes]; exact nodeNo_lt hu hv'), FMM.lineG_node hu]
    exact F.2.1
  exact nodeVelocity_fed (C32_interface_velocity hr hp e hu hv' hI) ((hb u v hu hv').2 (by linarith [F.2.1])) (hf u v hu hv' F.2.1) hv

/-- With exact distances and exact lists, without mask and fixed domain, the band is a strip. -/
theorem strip_of_exact (hr : Reachable w h L) (hB : BandOk L) (hfix : L.isFixedDomain = false) (hmask : ∀ i, ¬ L.Masked i)
    (E : ExactDistance w h (Boundary.level w L false) a b d) : StripBand w h L.band a b d L.bandWidth := by
  intro x y hx hy
  have e : vals L.signedDistance (nodeNo w x y) = a * x + b * y - d := E x y hx hy
  rw [hB.band_mem]
  unfold InBand Free
  rw [FP.lt_real, FP.abs_real, FP.nat_real, e, hfix]
  constructor
  · rintro ⟨-, h⟩; exact h
  · exact fun h => ⟨⟨by rw [hr.core.grid.nNodes]; exact nodeNo_lt hx hy, hmask _, by intro h; cases h⟩, h⟩

/-- **C90**: a straight boundary parallel to an axis, all of whose points are given the same velocity, is moved exactly by velocity times time step in one iteration
(discretise, assign velocities, extend them, compute gradients, update), wherever it is away from the edge of the domain, provided the step stays within the band. -/
theorem C90_translates (hr : Reachable w h L) (hB : BandOk L) (hfix : L.isFixedDomain = false) (hmask : ∀ i, ¬ L.Masked i) (hw : 4 ≤ w) (hh : 4 ≤ h)
    (E : ExactDistance w h (Boundary.level w L false) a b d) (hax : (|a| = 1 ∧ b = 0) ∨ (a = 0 ∧ |b| = 1))
    (hm : ∃ X Y : ℝ, 0 ≤ X ∧ X ≤ w ∧ 0 ≤ Y ∧ Y ≤ h ∧ a * X + b * Y = d) (hin : ∃ u v : Nat, u ≤ w ∧ v ≤ h ∧ 1 / 10 ^ 6 ≤ a * u + b * v - d)
    {V dt : ℝ} (hstep : |V * dt| + 1 ≤ L.bandWidth) :
    ∃ bd L1, Boundary.discretise L false = .ok (bd, L1) ∧ ∀ points : List (BoundaryPoint ℝ), points.map (·.coord) = bd.points.map (·.coord) → (∀ p ∈ points, p.velocity = V) →
      ∃ L2 L3, computeVelocities points L1 = .ok L2 ∧ computeGradients L2 = .ok L3 ∧
        ((∃ p : Place, p.inGrid w h ∧ (∀ q ∈ p.ends, ¬ onEdge w h q.1 q.2) ∧ p.cut (fun x y => a * x + b * y - (d + V * dt))) → ∃ r L4, update dt L3 = .ok (r, L4)) ∧
        ∀ r L4, update dt L3 = .ok (r, L4) → ContainsLine w h (Boundary.level w L4 false) a b (d + V * dt) ∧
          (r = false → ∀ x y, x ≤ w → y ≤ h → ¬ onEdge w h x y → SameSide (Boundary.level w L4 false x y) (a * x + b * y - (d + V * dt)) ∧
            (|a * (x : ℝ) + b * y - d| < L.bandWidth → Boundary.level w L4 false x y = a * x + b * y - (d + V * dt))) := by
  obtain ⟨bd, L1, e1, hr1, hL1, hfl, hpts, hfeed⟩ := line_discretised hr hB hfix E hax hm hin
  refine ⟨bd, L1, e1, fun points hco hV => ?_⟩
  have hstrip := strip_of_exact hr hB hfix hmask E
  have es : L1.signedDistance = L.signedDistance := by rw [hL1]
  have eb : L1.band = L.band := by rw [hL1]; rfl
  have hcoord : ∀ p ∈ points, ∃ p' ∈ bd.points, p'.coord = p.coord := fun p hp => by
    have : p.coord ∈ bd.points.map (·.coord) := by rw [← hco]; exact List.mem_map.2 ⟨p, hp, rfl⟩
    exact List.mem_map.1 this
  have hcoord' : ∀ p' ∈ bd.points, ∃ p ∈ points, p.coord = p'.coord := fun p hp => by
    have : p.coord ∈ points.map (·.coord) := by rw [hco]; exact List.mem_map.2 ⟨p, hp, rfl⟩
    exact List.mem_map.1 this
  have hdom : ∀ p ∈ points, InDomain w h p.coord := fun p hp => by
    obtain ⟨p', h1, h2⟩ := hcoord p hp
    rw [← h2]; exact (hpts p' h1).1
  have E1 : ExactDistance w h (Boundary.level w L1 false) a b d := fun x y hx hy => by
    show vals L1.signedDistance _ = _
    rw [es]; exact E x y hx hy
  have hbw : (1 : ℝ) ≤ L.bandWidth := le_trans (by linarith [abs_nonneg (V * dt)]) hstep
  obtain ⟨L2, e2, hvel⟩ := C89_bounds (r := L.bandWidth) (lo := V) (hi := V) hr1 (exact_straight E1 hax hm) (by rw [eb]; exact hstrip) hbw hdom
    (fun x y hx hy h1 => by
      obtain ⟨p', h2, h3⟩ := hfeed x y hx hy h1
      obtain ⟨p, h4, h5⟩ := hcoord' p' h2
      refine ⟨p, h4, ?_⟩
      unfold Feeds sqFrom at h3 ⊢
      rw [h5]; exact h3)
    (fun p hp => by rw [hV p hp]; exact ⟨le_rfl, le_rfl⟩)
  have hr2 : Reachable w h L2 := .call hr1 (.velocities points e2)
  obtain ⟨hL2, -⟩ := C32_frame hr1 hdom e2
  obtain ⟨L3, e3, hL3, -⟩ := C34_safe hr2 hw hh
  have hr3 : Reachable w h L3 := .call hr2 (.gradients e3)
  have es2 : L2.signedDistance = L.signedDistance := by rw [hL2]; exact es
  have eb2 : L2.band = L.band := by rw [hL2]; exact eb
  have es3 : L3.signedDistance = L.signedDistance := by rw [hL3]; exact es2
  have eb3 : L3.band = L.band := by rw [hL3]; exact eb2
  have ev3 : L3.velocity = L2.velocity := by rw [hL3]
  have hvl : ∀ i ∈ L.band, vals L3.velocity i = V := fun i hi => by
    have := hvel i (by rw [eb]; exact hi)
    rw [ev3]; exact le_antisymm this.2 this.1
  have hab : a ^ 2 + b ^ 2 = 1 := by
    rcases hax with ⟨h1, h2⟩ | ⟨h1, h2⟩
    · rw [h2, ← sq_abs a, h1]; norm_num
    · rw [h1, ← sq_abs b, h2]; norm_num
  have hgr : ∀ x y, x ≤ w → y ≤ h → nodeNo w x y ∈ L.band → vals L3.gradient (nodeNo w x y) = 1 := fun x y hx hy hb => by
    rw [C34_plane_partial (a := a) (b := b) (c := -d) hr2 hw hh e3 (fun x y hx hy => ?_) hx hy (by rw [eb2]; exact hb) ?_, hab, Real.sqrt_one]
    · rcases hax with ⟨h1, -⟩ | ⟨-, h1⟩
      · left; rw [h1]; norm_num
      · right; left; rw [h1]; norm_num
    · unfold field
      rw [es2]
      exact (E x y hx hy).trans (by ring)
  have hedge : ∀ x y, x ≤ w → y ≤ h → (L3.OnDomainEdge (nodeNo w x y) ↔ onEdge w h x y) := fun x y hx hy => C31_edge hr3 hx hy
  have hmove : ∀ φ, MotionOf L3 dt φ → MovedLine w h (vals φ) a b (d + V * dt) ∧ ∀ x y, x ≤ w → y ≤ h → ¬ onEdge w h x y → |a * (x : ℝ) + b * y - d| < L.bandWidth →
      vals φ (nodeNo w x y) = a * x + b * y - (d + V * dt) := by
    intro φ M
    have inside : ∀ x y, x ≤ w → y ≤ h → |a * (x : ℝ) + b * y - d| < L.bandWidth →
        (onEdge w h x y ∧ vals φ (nodeNo w x y) = 0) ∨ vals φ (nodeNo w x y) = a * x + b * y - (d + V * dt) := by
      intro x y hx hy hb
      have hbm := (hstrip x y hx hy).2 hb
      have e : FP.sub (vals L3.signedDistance (nodeNo w x y)) (FP.mul (FP.mul dt (vals L3.gradient (nodeNo w x y))) (vals L3.velocity (nodeNo w x y))) =
          a * x + b * y - (d + V * dt) := by
        rw [es3, hgr x y hx hy hbm, hvl _ hbm, show vals L.signedDistance (nodeNo w x y) = a * x + b * y - d from E x y hx hy]
        simp only [FP.sub_real, FP.mul_real]
        ring
      by_cases hc : L3.OnDomainEdge (nodeNo w x y) ∧ FP.lt (FP.nat 0) (FP.sub (vals L3.signedDistance (nodeNo w x y))
          (FP.mul (FP.mul dt (vals L3.gradient (nodeNo w x y))) (vals L3.velocity (nodeNo w x y)))) = true
      · left
        refine ⟨(hedge x y hx hy).1 hc.1, ?_⟩
        rw [M.capped _ (by rw [eb3]; exact hbm) hc.1 hc.2]; simp
      · right
        rw [M.moved _ (by rw [eb3]; exact hbm) hc, e]
    have beyond : ∀ x y, x ≤ w → y ≤ h → ¬ |a * (x : ℝ) + b * y - d| < L.bandWidth →
        SameSide (vals φ (nodeNo w x y)) (a * x + b * y - (d + V * dt)) ∧ 1 ≤ |a * (x : ℝ) + b * y - (d + V * dt)| := by
      intro x y hx hy hb
      have hbm : nodeNo w x y ∉ L3.band := by rw [eb3, hstrip x y hx hy]; exact hb
      rw [M.outside _ hbm, es3, show vals L.signedDistance (nodeNo w x y) = a * x + b * y - d from E x y hx hy]
      have hb := not_lt.1 hb
      have h1 := abs_le.1 (le_refl |V * dt|)
      rcases le_abs.1 hb with h2 | h2
      · have : 1 ≤ a * (x : ℝ) + b * y - (d + V * dt) := by linarith
        exact ⟨.inl ⟨by linarith, by linarith⟩, le_abs.2 (.inl this)⟩
      · have : 1 ≤ -(a * (x : ℝ) + b * y - (d + V * dt)) := by linarith
        exact ⟨.inr (.inl ⟨by linarith, by linarith⟩), le_abs.2 (.inr this)⟩
    have self : ∀ t : ℝ, SameSide t t := fun t => by
      rcases lt_trichotomy t 0 with h | h | h
      · exact .inr (.inl ⟨h, h⟩)
      · exact .inr (.inr ⟨h, h⟩)
      · exact .inl ⟨h, h⟩
    refine ⟨⟨fun x y hx hy he => ?_, fun x y hx hy => ?_, fun x y hx hy h0 hn => ?_⟩, fun x y hx hy he hb => ?_⟩
    · by_cases hb : |a * (x : ℝ) + b * y - d| < L.bandWidth
      · rcases inside x y hx hy hb with h | h
        · exact absurd h.1 he
        · rw [h]; exact self _
      · exact (beyond x y hx hy hb).1
    · by_cases hb : |a * (x : ℝ) + b * y - d| < L.bandWidth
      · rcases inside x y hx hy hb with h | h
        · exact .inl h.2
        · right; rw [h]; exact self _
      · exact .inr (beyond x y hx hy hb).1
    · by_cases hb : |a * (x : ℝ) + b * y - d| < L.bandWidth
      · rcases inside x y hx hy hb with h | h
        · exact absurd h.2 h0
        · exact h
      · exact absurd hn (not_lt.2 (beyond x y hx hy hb).2)
    · rcases inside x y hx hy hb with h | h
      · exact absurd h.1 he
      · exact h
  refine ⟨L2, L3, e2, e3, fun hex => ?_, fun r L4 e4 => ?_⟩
  · rcases C29_update_safe hr3 dt with h | ⟨-, φ, M, hno⟩
    · exact h
    · exfalso
      obtain ⟨p, hg, hq, hc⟩ := hex
      have hcut := (((hmove φ M).1.contains hax).cut p hg hq hc).1
      have fin : ∀ i j, Adj w h i j → vals φ i * vals φ j < 0 → False := fun i j ha ho =>
        hno ⟨i, (FMM.adj_lt ha).1, .inr ⟨j, ha, by unfold Opposite; simpa using ho⟩⟩
      cases p with
      | node x y => exact absurd hc id
      | hor x y =>
        have h1 := hg (x, y) (by simp [Place.ends])
        have h2 := hg (x + 1, y) (by simp [Place.ends])
        exact fin _ _ (.inl ⟨x, x + 1, y, h1.1, h2.1, h1.2, rfl, rfl, .inl rfl⟩) hcut
      | ver x y =>
        have h1 := hg (x, y) (by simp [Place.ends])
        have h2 := hg (x, y + 1) (by simp [Place.ends])
        exact fin _ _ (.inr ⟨x, y, y + 1, h1.1, h1.2, h2.2, rfl, rfl, .inl rfl⟩) hcut
  · obtain ⟨φ, M, -, hf, ht, -⟩ := C29_update_effect hr3 e4
    obtain ⟨m1, m2⟩ := hmove φ M
    cases r with
    | false =>
      have ef : Boundary.level w L4 false = fun x y => vals φ (nodeNo w x y) := by
        funext x y
        show vals L4.signedDistance _ = _
        rw [(hf rfl).1]
      rw [ef]
      exact ⟨m1.contains hax, fun _ x y hx hy he => ⟨m1.side x y hx hy he, m2 x y hx hy he⟩⟩
    | true =>
      obtain ⟨-, m, F, G, -, hF, hsd⟩ := ht rfl
      have ef : Boundary.level w L4 false = fun x y => vals F.sd (nodeNo w x y) := by
        funext x y
        show vals L4.signedDistance _ = _
        rw [hsd]
      rw [ef]
      refine ⟨m1.march_contains hax G ?_ rfl hF, fun h => by cases h⟩
      rw [M.length, G.nNodes, hr3.core.grid.nNodes]

/-- A level set as required: the vertical line `x = 16/3` in a domain of 12 × 6 cells, the structure on the left, band width three. -/
theorem example_line : ∃ L : LevelSet ℝ, Reachable 12 6 L ∧ BandOk L ∧ L.isFixedDomain = false ∧ (∀ i, ¬ L.Masked i) ∧ L.bandWidth = 3 ∧
    ExactDistance 12 6 (Boundary.level 12 L false) (-1) 0 (-(16 / 3)) := by
  obtain ⟨L, hL⟩ := (C22_accepts_iff (D := ℝ) (w := 12) (h := 6) (by norm_num) (by norm_num) (by norm_num)
    (.holes []) (by simp) (1 / 2) 3 (by norm_num) false).2.2
    ⟨by norm_num, by norm_num, by norm_num, fun h => by cases h⟩
  have hr : Reachable 12 6 L := .new (by norm_num) (by norm_num) (by norm_num) (by norm_num) hL
  have B := built (by norm_num) (by norm_num) (by norm_num) (by norm_num) hL
  have C := hr.core
  have hN : L.mesh.nNodes = 91 := C.grid.nNodes
  let L1 : LevelSet ℝ := { L with signedDistance := (List.range 91).map fun i => 16 / 3 - ((i % 13 : ℕ) : ℝ), target := [] }
  have hr1 : Reachable 12 6 L1 := .call hr (.assign _ L.velocity L.gradient [] (by simp [hN]) C.velocity C.gradient)
  have E1 : ExactDistance 12 6 (Boundary.level 12 L1 false) (-1) 0 (-(16 / 3)) := by
    intro x y hx hy
    have hlt : nodeNo 12 x y < 91 := nodeNo_lt (w := 12) (h := 6) hx hy
    show vals (List.map _ _) _ = _
    rw [vals_map_range _ hlt, show nodeNo 12 x y % 13 = x by unfold nodeNo; omega]
    ring
  have hax : (|(-1 : ℝ)| = 1 ∧ (0 : ℝ) = 0) ∨ ((-1 : ℝ) = 0 ∧ |(0 : ℝ)| = 1) := .inl ⟨by norm_num, rfl⟩
  obtain ⟨L2, e2, E2⟩ := C88_exact hr1 (exact_straight E1 hax ⟨16 / 3, 0, by norm_num, by norm_num, by norm_num, by norm_num, by norm_num⟩)
  obtain ⟨-, B2, F, -, -, hB⟩ := wp_of_ok (reinitialise_spec hr1.core.toWF hr1.core.small) e2
  refine ⟨L2, .call hr1 (.reinitialise e2), B2, hB.params.2.2.trans B.params.2.2, fun i hm => ?_, hB.params.2.1.trans B.params.2.1, E2⟩
  exact B.unmasked i ((hB.masked i).1 hm)

/-- The hypotheses of C89 are met. -/
example : ∃ L : LevelSet ℝ, Reachable 12 6 L ∧ StraightBoundary 12 6 (Boundary.level 12 L false) (-1) 0 (-(16 / 3)) ∧ StripBand 12 6 L.band (-1) 0 (-(16 / 3)) 3 ∧
    nodeNo 12 3 2 ∈ L.band ∧ nodeNo 12 1 2 ∉ L.band ∧ FirstOnNormal (-1) 0 (-(16 / 3)) 3 2 5 2 := by
  obtain ⟨L, hr, hB, hf, hm, hb, E⟩ := example_line
  have S := strip_of_exact hr hB hf hm E
  rw [hb] at S
  refine ⟨L, hr, exact_straight E (.inl ⟨by norm_num, rfl⟩) ⟨16 / 3, 0, by norm_num, by norm_num, by norm_num, by norm_num, by norm_num⟩, by exact_mod_cast S,
    (S 3 2 (by norm_num) (by norm_num)).2 ?_, fun h => ?_, by norm_num, ?_, by norm_num⟩
  · norm_num [abs_lt]
  · have := (S 1 2 (by norm_num) (by norm_num)).1 h
    norm_num [abs_lt] at this
  · norm_num [abs_lt]

/-- The hypotheses of `C89_bounds` are met by the points of the discretisation. -/
example : ∃ (L : LevelSet ℝ) (points : List (BoundaryPoint ℝ)), Reachable 12 6 L ∧ StraightBoundary 12 6 (Boundary.level 12 L false) (-1) 0 (-(16 / 3)) ∧
    StripBand 12 6 L.band (-1) 0 (-(16 / 3)) 3 ∧ (∀ p ∈ points, InDomain 12 6 p.coord) ∧
    ∀ x y : Nat, x ≤ 12 → y ≤ 6 → |-1 * (x : ℝ) + 0 * y - -(16 / 3)| < 1 → ∃ p ∈ points, Feeds 12 6 L.mesh p x y := by
  obtain ⟨L, hr, hB, hf, hm, hb, E⟩ := example_line
  have S := strip_of_exact hr hB hf hm E
  rw [hb] at S
  have hme : ∃ X Y : ℝ, 0 ≤ X ∧ X ≤ (12 : ℕ) ∧ 0 ≤ Y ∧ Y ≤ (6 : ℕ) ∧ -1 * X + 0 * Y = -(16 / 3) := ⟨16 / 3, 0, by norm_num, by norm_num, by norm_num, by norm_num, by norm_num⟩
  obtain ⟨bd, L1, -, hr1, hL1, -, hp, hfe⟩ := line_discretised hr hB hf E (.inl ⟨by norm_num, rfl⟩) hme ⟨0, 0, by norm_num, by norm_num, by norm_num⟩
  have es : L1.signedDistance = L.signedDistance := by rw [hL1]
  have eb : L1.band = L.band := by rw [hL1]; rfl
  refine ⟨L1, bd.points, hr1, exact_straight (fun x y hx hy => ?_) (.inl ⟨by norm_num, rfl⟩) hme, by rw [eb]; exact_mod_cast S, fun p h => (hp p h).1, hfe⟩
  show vals L1.signedDistance _ = _
  rw [es]; exact E x y hx hy

/-- The hypotheses of C90 are met, by the line `x = 16/3` moving to the right by one half (velocity -1 for a structure on the left: the level set rises), and the update
succeeds. -/
example : ∃ (L : LevelSet ℝ) (bd : Boundary ℝ) (L1 L2 L3 L4 : LevelSet ℝ) (r : Bool), Reachable 12 6 L ∧ Boundary.discretise L false = .ok (bd, L1) ∧
    computeVelocities (bd.points.map fun p => { p with velocity := -1 }) L1 = .ok L2 ∧ computeGradients L2 = .ok L3 ∧ update (1 / 2) L3 = .ok (r, L4) ∧
    ContainsLine 12 6 (Boundary.level 12 L4 false) (-1) 0 (-(16 / 3) + -1 * (1 / 2)) := by
  obtain ⟨L, hr, hB, hf, hm, hb, E⟩ := example_line
  obtain ⟨bd, L1, e1, h1⟩ := C90_translates (V := -1) (dt := 1 / 2) hr hB hf hm (by norm_num) (by norm_num) E (.inl ⟨by norm_num, rfl⟩)
    ⟨16 / 3, 0, by norm_num, by norm_num, by norm_num, by norm_num, by norm_num⟩ ⟨0, 0, by norm_num, by norm_num, by norm_num⟩ (by rw [hb]; norm_num)
  obtain ⟨L2, L3, e2, e3, h2, h3⟩ := h1 (bd.points.map fun p => { p with velocity := -1 }) (by simp) (by
    intro p hp
    obtain ⟨q, -, rfl⟩ := List.mem_map.1 hp
    rfl)
  have hg : (Place.hor 5 2).inGrid 12 6 := by
    intro q hq
    simp only [Place.ends, List.mem_cons, List.not_mem_nil, or_false] at hq
    rcases hq with rfl | rfl <;> norm_num
  have hi : ∀ q ∈ (Place.hor 5 2).ends, ¬ onEdge 12 6 q.1 q.2 := by
    intro q hq
    simp only [Place.ends, List.mem_cons, List.not_mem_nil, or_false] at hq
    rcases hq with rfl | rfl <;> norm_num [onEdge]
  obtain ⟨r, L4, e4⟩ := h2 ⟨.hor 5 2, hg, hi, by norm_num [Place.cut]⟩
  exact ⟨L, bd, L1, L2, L3, L4, r, hr, e1, e2, e3, e4, (h3 r L4 e4).1⟩

end Slsm.LevelSet
