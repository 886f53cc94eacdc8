import Verif.Proof.RoundVel
import Verif.Props.RoundMove

/-! # Property C106: velocities of interface nodes in rounded arithmetic -/

namespace Slsm

open FP Rounding LevelSet

section
variable {R : Rounding} {w h : Nat} {L L' : LevelSet R.Num} {points : List (BoundaryPoint R.Num)}

theorem InDomainR.within {p : BoundaryPoint R.Num} (H : InDomainR w h p.coord) : Within w h p := ⟨⟨H.1, H.2.1⟩, H.2.2⟩

/-- The velocity of an interface node is the one given by the boundary points. -/
theorem interface_initial (hr : Reachable w h L) (hp : ∀ p ∈ points, InDomainR w h p.coord) (e : computeVelocities points L = .ok L')
    {x y : Nat} (hx : x ≤ w) (hy : y ≤ h) (ho : OnInterface w h (vals L.signedDistance) (nodeNo w x y)) :
    vals L'.velocity (nodeNo w x y) = initialVel w h L points (nodeNo w x y) := by
  have C := hr.core
  have hpo := pointsOk_rnd C.grid (fit_rnd hr) hp
  obtain ⟨h1, h2, L1, F', h3, h4, h5⟩ := wp_of_ok (computeVelocities_spec C hpo) e
  obtain ⟨-, hl, hv⟩ := wp_of_ok (initialiseVelocities_spec C hpo) h3
  have hlt : nodeNo w x y < L.mesh.nNodes := by rw [C.grid.nNodes]; exact nodeNo_lt hx hy
  rw [h5, (C18_no_side_effects C.grid C.sd hl h4).2 _ hlt (.inl ho), hv _ hlt]

/-- Weighted sums. -/
theorem weighted_le {α : Type} {l : List α} {v s : α → ℝ} {V : ℝ} (hs : ∀ a ∈ l, 0 ≤ s a) (hv : ∀ a ∈ l, v a ≤ V) :
    (l.map fun a => v a / s a).sum ≤ V * (l.map fun a => 1 / s a).sum := by
  induction l with
  | nil => simp
  | cons a t ih =>
    simp only [List.map_cons, List.sum_cons, mul_add]
    refine add_le_add ?_ (ih (fun b hb => hs b (by simp [hb])) fun b hb => hv b (by simp [hb]))
    rw [mul_one_div]
    exact div_le_div_of_nonneg_right (hv a (by simp)) (hs a (by simp))

theorem weighted_ge {α : Type} {l : List α} {v s : α → ℝ} {V : ℝ} (hs : ∀ a ∈ l, 0 ≤ s a) (hv : ∀ a ∈ l, V ≤ v a) :
    V * (l.map fun a => 1 / s a).sum ≤ (l.map fun a => v a / s a).sum := by
  induction l with
  | nil => simp
  | cons a t ih =>
    simp only [List.map_cons, List.sum_cons, mul_add]
    refine add_le_add ?_ (ih (fun b hb => hs b (by simp [hb])) fun b hb => hv b (by simp [hb]))
    rw [mul_one_div]
    exact div_le_div_of_nonneg_right (hv a (by simp)) (hs a (by simp))

/-- **C106** (average): in every rounding of real arithmetic, an interface node in the narrow band on which no boundary point lies, and near which
there is one, gets the average of the velocities of the points within distance one with weights one over the squared distance, up to
`30 k 2⁻⁵²` of the largest of them in size, where `k` is the number of those points. -/
theorem C106_average (hr : Reachable w h L) (hp : ∀ p ∈ points, InDomainR w h p.coord) (e : computeVelocities points L = .ok L')
    (hn : points.length ≤ 2 ^ 20) {x y : Nat} (hx : x ≤ w) (hy : y ≤ h) (ho : OnInterface w h (vals L.signedDistance) (nodeNo w x y))
    (hb : nodeNo w x y ∈ L.band)
    (off : ∀ p ∈ points, FeedsWithin w h L.mesh (1 + 1 / 2 ^ 48) p x y → 1 / 10 ^ 6 + 1 / 10 ^ 12 ≤ sqFromR p x y) :
    ∃ near, Neighbours w h L.mesh points near x y ∧ (near ≠ [] → ∀ V, (∀ p ∈ near, |p.velocity.val| ≤ V) →
      |(vals L'.velocity (nodeNo w x y)).val - averageR near x y| ≤ 30 * near.length / 2 ^ 52 * V + 1 / 2 ^ 140) := by
  have C := hr.core
  have hpo := pointsOk_rnd C.grid (fit_rnd hr) hp
  have hN := touching_neighbours C.grid (fit_rnd hr) hx hy (fun p h => (hp p h).within) hpo
  refine ⟨_, hN, fun hne V hV => ?_⟩
  obtain ⟨-, h2, h3, -⟩ := nodeSum_near C.grid (fit_rnd hr) hx hy (fun p h => (hp p h).within) hpo off hn
  have hlen : (touching w h L.mesh points (nodeNo w x y)).length ≤ 2 ^ 20 := by
    have : (touching w h L.mesh points (nodeNo w x y)).length ≤ points.length := List.length_filter_le _ _
    omega
  have hmem : ∀ p ∈ touching w h L.mesh points (nodeNo w x y), p ∈ points := fun p hp => (List.mem_filter.1 hp).1
  rw [interface_initial hr hp e hx hy ho]
  unfold initialVel averageR
  dsimp only
  generalize touching w h L.mesh points (nodeNo w x y) = near at *
  generalize nodeSum w h L.mesh points (nodeNo w x y) = s at *
  have hs : ∀ p ∈ near, 0 ≤ sqFromR p x y := fun p hp => by unfold sqFromR; positivity
  have hs' : ∀ p ∈ near, 0 < sqFromR p x y := fun p hp => lt_of_lt_of_le (by positivity) (off p (hmem p hp) (hN.only p hp))
  have hA : (near.map fun p => |p.velocity.val| / sqFromR p x y).sum ≤ V * (near.map fun p => 1 / sqFromR p x y).sum :=
    weighted_le hs hV
  have hk : 1 ≤ near.length := List.length_pos_iff.2 hne
  have hV0 : 0 ≤ V := by
    obtain ⟨p, hp⟩ := List.exists_mem_of_ne_nil _ hne
    exact (abs_nonneg _).trans (hV p hp)
  have hW : 1 / 2 ^ 70 ≤ (near.map fun p => 1 / sqFromR p x y).sum := by
    cases near with
    | nil => exact absurd rfl hne
    | cons p t =>
      simp only [List.map_cons, List.sum_cons]
      have h1 := (sqFromR_bounds C.grid (fit_rnd hr) hx hy (hp p (hmem p (by simp))).within).2.1
      have h2 : 1 / 2 ^ 70 ≤ 1 / sqFromR p x y := one_div_le_one_div_of_le (hs' p (by simp)) (h1.trans (by norm_num))
      have h3 : 0 ≤ (t.map fun p => 1 / sqFromR p x y).sum := by
        refine List.sum_nonneg fun z hz => ?_
        obtain ⟨q, hq, rfl⟩ := List.mem_map.1 hz
        have := hs q (by simp [hq])
        positivity
      linarith
  have hT : |(near.map fun p => p.velocity.val / sqFromR p x y).sum| ≤ V * (near.map fun p => 1 / sqFromR p x y).sum := by
    rw [abs_le]
    constructor
    · rw [← neg_mul]
      exact weighted_ge hs fun p hp => (abs_le.1 (hV p hp)).1
    · exact weighted_le hs fun p hp => (abs_le.1 (hV p hp)).2
  have h3' : |s.2.2.val - (near.map fun p => p.velocity.val / sqFromR p x y).sum| ≤
      12 * near.length / 2 ^ 52 * (V * (near.map fun p => 1 / sqFromR p x y).sum) + 2 * near.length / 2 ^ 240 := by
    refine h3.trans ?_
    gcongr
  have hm := mean_near (R := R) hk hlen hW hV0 hT h3' h2
  by_cases hz : FP.eq s.2.2 (FP.nat 0) = true
  · rw [if_neg fun h => h.2 hz]
    rw [eq_iff] at hz
    have h0 : R.rnd 0 = 0 := by
      have := (FP.nat 0 : R.Num).fix
      rwa [val_zero] at this
    rw [hz, val_zero, zero_div, h0] at hm
    rw [hz, val_zero]
    exact hm
  · rw [if_pos ⟨hb, hz⟩, val_div]
    exact hm

/-- **C106** (bounds): the velocity of such a node lies between the velocities of those points, up to the same error. -/
theorem C106_bounds (hr : Reachable w h L) (hp : ∀ p ∈ points, InDomainR w h p.coord) (e : computeVelocities points L = .ok L')
    (hn : points.length ≤ 2 ^ 20) {x y : Nat} (hx : x ≤ w) (hy : y ≤ h) (ho : OnInterface w h (vals L.signedDistance) (nodeNo w x y))
    (hb : nodeNo w x y ∈ L.band)
    (off : ∀ p ∈ points, FeedsWithin w h L.mesh (1 + 1 / 2 ^ 48) p x y → 1 / 10 ^ 6 + 1 / 10 ^ 12 ≤ sqFromR p x y)
    (hf : ∃ p ∈ points, FeedsWithin w h L.mesh (1 - 1 / 2 ^ 48) p x y) {lo hi : ℝ}
    (hv : ∀ p ∈ points, FeedsWithin w h L.mesh (1 + 1 / 2 ^ 48) p x y → lo ≤ p.velocity.val ∧ p.velocity.val ≤ hi) :
    lo - (30 * points.length / 2 ^ 52 * Max.max |lo| |hi| + 1 / 2 ^ 140) ≤ (vals L'.velocity (nodeNo w x y)).val ∧
    (vals L'.velocity (nodeNo w x y)).val ≤ hi + (30 * points.length / 2 ^ 52 * Max.max |lo| |hi| + 1 / 2 ^ 140) := by
  obtain ⟨near, N, hk⟩ := C106_average hr hp e hn hx hy ho hb off
  obtain ⟨p, hpm, hpf⟩ := hf
  have hpn := N.all p hpm hpf
  have hne : near ≠ [] := List.ne_nil_of_mem hpn
  obtain ⟨f, hnear⟩ := N.some
  have hmem : ∀ q ∈ near, q ∈ points := fun q hq => by rw [hnear] at hq; exact (List.mem_filter.1 hq).1
  have hlen : near.length ≤ points.length := by rw [hnear]; exact List.length_filter_le _ _
  have hv' : ∀ q ∈ near, lo ≤ q.velocity.val ∧ q.velocity.val ≤ hi := fun q hq => hv q (hmem q hq) (N.only q hq)
  have hs' : ∀ p ∈ near, 0 < sqFromR p x y := fun p hp => lt_of_lt_of_le (by positivity) (off p (hmem p hp) (N.only p hp))
  have hs : ∀ p ∈ near, 0 ≤ sqFromR p x y := fun p hp => (hs' p hp).le
  have key := hk hne (Max.max |lo| |hi|) fun q hq => by
    rw [abs_le]
    have := hv' q hq
    have b1 := neg_abs_le lo
    have b2 := le_abs_self hi
    have b3 := le_max_left |lo| |hi|
    have b4 := le_max_right |lo| |hi|
    constructor <;> linarith
  have hW : 0 < (near.map fun p => 1 / sqFromR p x y).sum := by
    refine List.sum_pos _ (fun z hz => ?_) (by simpa using hne)
    obtain ⟨q, hq, rfl⟩ := List.mem_map.1 hz
    have := hs' q hq
    positivity
  have a1 : averageR near x y ≤ hi := by
    unfold averageR
    rw [div_le_iff₀ hW]
    exact weighted_le hs fun q hq => (hv' q hq).2
  have a2 : lo ≤ averageR near x y := by
    unfold averageR
    rw [le_div_iff₀ hW]
    exact weighted_ge hs fun q hq => (hv' q hq).1
  have hle : 30 * (near.length : ℝ) / 2 ^ 52 * Max.max |lo| |hi| ≤ 30 * points.length / 2 ^ 52 * Max.max |lo| |hi| := by
    have : (near.length : ℝ) ≤ points.length := by exact_mod_cast hlen
    gcongr
  rw [abs_le] at key
  constructor <;> linarith [key.1, key.2]

/-- **C106** (no point near): an interface node that no point is near has velocity zero. -/
theorem C106_far (hr : Reachable w h L) (hp : ∀ p ∈ points, InDomainR w h p.coord) (e : computeVelocities points L = .ok L')
    (hn : points.length ≤ 2 ^ 20) {x y : Nat} (hx : x ≤ w) (hy : y ≤ h) (ho : OnInterface w h (vals L.signedDistance) (nodeNo w x y))
    (hf : ∀ p ∈ points, ¬ FeedsWithin w h L.mesh (1 + 1 / 2 ^ 48) p x y) : (vals L'.velocity (nodeNo w x y)).val = 0 := by
  have C := hr.core
  have hpo := pointsOk_rnd C.grid (fit_rnd hr) hp
  obtain ⟨-, -, -, h4⟩ := nodeSum_near C.grid (fit_rnd hr) hx hy (fun p h => (hp p h).within) hpo (fun p hp hq => absurd hq (hf p hp)) hn
  have N := touching_neighbours C.grid (fit_rnd hr) hx hy (fun p h => (hp p h).within) hpo
  have hmem : ∀ p ∈ touching w h L.mesh points (nodeNo w x y), p ∈ points := fun p hp => (List.mem_filter.1 hp).1
  have hz := h4 (by
    by_contra hne
    obtain ⟨p, hpm⟩ := List.exists_mem_of_ne_nil _ hne
    exact hf p (hmem p hpm) (N.only p hpm))
  rw [interface_initial hr hp e hx hy ho]
  unfold initialVel
  dsimp only
  rw [if_neg fun hc => hc.2 (by rw [eq_iff]; rw [hz, val_zero])]
  exact hz

/-- **C106** (a point on the node): an interface node on which a boundary point lies has exactly the velocity of that point, or of the last one if
there are several. -/
theorem C106_on (hr : Reachable w h L) (hp : ∀ p ∈ points, InDomainR w h p.coord) (e : computeVelocities points L = .ok L')
    {x y : Nat} (hx : x ≤ w) (hy : y ≤ h) (ho : OnInterface w h (vals L.signedDistance) (nodeNo w x y))
    {pre post : List (BoundaryPoint R.Num)} {p : BoundaryPoint R.Num} (hs : points = pre ++ p :: post)
    (hon : FeedsWithin w h L.mesh 1 p x y ∧ sqFromR p x y ≤ 1 / 10 ^ 6 - 1 / 10 ^ 12)
    (hlast : ∀ q ∈ post, FeedsWithin w h L.mesh (1 + 1 / 2 ^ 48) q x y → 1 / 10 ^ 6 + 1 / 10 ^ 12 ≤ sqFromR q x y) :
    vals L'.velocity (nodeNo w x y) = p.velocity := by
  have C := hr.core
  have hpo := pointsOk_rnd C.grid (fit_rnd hr) hp
  rw [interface_initial hr hp e hx hy ho]
  have hsum : nodeSum w h L.mesh points (nodeNo w x y) = (true, FP.nat 1, p.velocity) := by
    rw [hs]
    rw [hs] at hp hpo
    clear hs ho
    induction post using List.reverseRecOn with
    | nil =>
      obtain ⟨c, hc, hcl⟩ := hpo p (by simp)
      unfold nodeSum
      rw [List.foldl_append, List.foldl_cons, List.foldl_nil, closest_eq hc]
      obtain ⟨b1, b2, b3⟩ := sqFromR_bounds C.grid (fit_rnd hr) hx hy (hp p (by simp)).within
      have hlt : FP.lt (LevelSet.sqDist (nodeOf L.mesh (nodeNo w x y)).coord p.coord) (FP.lit 1 1000000) = true := by
        rw [lt_iff, val_lit_tol]
        have t1 := (abs_le.1 (tol_near (R := R))).1
        have t2 := (abs_le.1 b3).2
        have t3 : (1 + 6 / 2 ^ 52 : ℝ) * (1 / 10 ^ 6 - 1 / 10 ^ 12) + 1 / 2 ^ 190 < 1 / 10 ^ 6 - 1 / 2 ^ 70 := by norm_num
        have t4 : (1 + 6 / 2 ^ 52 : ℝ) * sqFromR p x y ≤ (1 + 6 / 2 ^ 52) * (1 / 10 ^ 6 - 1 / 10 ^ 12) := mul_le_mul_of_nonneg_left hon.2 (by norm_num)
        linarith
      have ht : Touch w h L.mesh p c (nodeNo w x y) := by
        obtain ⟨⟨c', hc', h1⟩, -⟩ := hon
        rw [hc] at hc'
        cases hc'
        rcases h1 with h1 | h1
        · exact .inl h1
        · exact .inr ⟨h1.1, .inl hlt⟩
      unfold touchStep
      rw [if_pos ht]
      unfold upd
      rw [if_pos hlt]
    | append_singleton t q ih =>
      have ih := ih (fun z hz => hp z (by simp at hz ⊢; tauto)) (fun z hz => hlast z (by simp [hz])) (fun z hz => hpo z (by simp at hz ⊢; tauto))
      obtain ⟨c, hc, hcl⟩ := hpo q (by simp)
      unfold nodeSum at ih ⊢
      rw [show pre ++ p :: (t ++ [q]) = (pre ++ p :: t) ++ [q] by simp, List.foldl_append, ih, List.foldl_cons, List.foldl_nil, closest_eq hc]
      unfold touchStep
      split
      · rename_i ht
        have hfar := hlast q (by simp) (within_of_touch C.grid (fit_rnd hr) hx hy (hp q (by simp)).within hc ht)
        unfold upd
        rw [if_neg (clear_of C.grid (fit_rnd hr) hx hy (hp q (by simp)).within hfar)]
        simp
      · rfl
  unfold initialVel
  rw [hsum]
  dsimp only
  split
  · exact num_ext (by rw [val_div, val_one, div_one, p.velocity.fix])
  · rfl

end

/-- A boundary point at `(1, 1/2)`. -/
noncomputable def sidePoint (v : binary64.Num) : BoundaryPoint binary64.Num :=
  { midPoint v with coord := ⟨FP.nat 1, Boundary.halfNum 1 (by norm_num)⟩ }

/-- The hypotheses of C106 can be met, in binary64: two points of speeds `-1` and `0` at `(1, 1/2)` give the interface node at `(1, 0)` the speed
`-1/2`, up to rounding. -/
example : ∃ L L' : LevelSet binary64.Num, Reachable 5 5 L ∧ computeVelocities [sidePoint (FP.neg (FP.nat 1)), sidePoint (FP.nat 0)] L = .ok L' ∧
    |(vals L'.velocity 1).val - -1 / 2| ≤ 1 / 2 ^ 44 := by
  obtain ⟨L, hr, hv, hb, he⟩ := board_level
  have hc : ∀ v, (sidePoint v).coord.x.val = 1 ∧ (sidePoint v).coord.y.val = 1 / 2 := by
    intro v
    refine ⟨val_one, ?_⟩
    simp [sidePoint, Boundary.halfNum]
  have hd : ∀ v, InDomainR 5 5 (sidePoint v).coord := by
    intro v
    obtain ⟨h1, h2⟩ := hc v
    unfold InDomainR
    rw [h1, h2]
    norm_num
  have hq : ∀ v, sqFromR (sidePoint v) 1 0 = 1 / 4 := by
    intro v
    obtain ⟨h1, h2⟩ := hc v
    unfold sqFromR
    rw [h1, h2]
    norm_num
  have hp : ∀ p ∈ [sidePoint (FP.neg (FP.nat 1)), sidePoint (FP.nat 0)], InDomainR 5 5 p.coord := by
    intro p hp
    simp only [List.mem_cons, List.not_mem_nil, or_false] at hp
    rcases hp with rfl | rfl <;> exact hd _
  have hsq : ∀ p ∈ [sidePoint (FP.neg (FP.nat 1)), sidePoint (FP.nat 0)], sqFromR p 1 0 = 1 / 4 := by
    intro p hp
    simp only [List.mem_cons, List.not_mem_nil, or_false] at hp
    rcases hp with rfl | rfl <;> exact hq _
  obtain ⟨L', e⟩ := board_velocities hr hv hp
  refine ⟨L, L', hr, e, ?_⟩
  have hn1 : nodeNo 5 1 0 = 1 := rfl
  have C := hr.core
  -- the node is the closest one, or next to it
  have hf : ∀ v, FeedsWithin 5 5 L.mesh (1 - 1 / 2 ^ 48) (sidePoint v) 1 0 := by
    intro v
    obtain ⟨h1, h2⟩ := hc v
    obtain ⟨d1, d2, d3, d4⟩ := hd v
    obtain ⟨nx, ny, a, b, c, d⟩ := getClosestNode_rnd C.grid (fit_rnd hr) d1 d2 d3 d4
    refine ⟨_, c, ?_⟩
    have := d 1 0
    rw [h1, h2] at this
    have hx : nx = 1 := by
      by_contra hne
      have : (1 : ℝ) ≤ (1 - (nx : ℝ)) ^ 2 := by
        rcases Nat.lt_or_gt_of_ne hne with hlt | hgt
        · have : nx = 0 := by omega
          rw [this]; norm_num
        · have : (2 : ℝ) ≤ nx := by exact_mod_cast hgt
          nlinarith
      have := sq_nonneg ((1 : ℝ) / 2 - ny)
      push_cast at *
      nlinarith
    have hy : ny = 0 ∨ ny = 1 := by
      by_contra hne
      have h2 : 2 ≤ ny := by omega
      have : (2 : ℝ) ≤ ny := by exact_mod_cast h2
      have := sq_nonneg ((1 : ℝ) - nx)
      push_cast at *
      nlinarith
    rcases hy with rfl | rfl
    · left; rw [hx]
    · right
      refine ⟨?_, by rw [hq]; norm_num⟩
      rw [hx]
      exact .inr ⟨1, 1, 0, by norm_num, by norm_num, by norm_num, rfl, rfl, .inr rfl⟩
  obtain ⟨near, N, key⟩ := C106_average hr hp e (by simp) (x := 1) (y := 0) (by norm_num) (by norm_num)
    (by rw [hn1]; exact board_interface hr hv 1 (by norm_num)) (by rw [hn1]; exact hb) (fun p hpm _ => by rw [hsq p hpm]; norm_num)
  have hall : near = [sidePoint (FP.neg (FP.nat 1)), sidePoint (FP.nat 0)] := by
    obtain ⟨f, hf'⟩ := N.some
    rw [hf', List.filter_eq_self]
    intro p hpm
    have : p ∈ near := N.all p hpm (by
      simp only [List.mem_cons, List.not_mem_nil, or_false] at hpm
      rcases hpm with rfl | rfl <;> exact hf _)
    rw [hf', List.mem_filter] at this
    exact this.2
  have hneg : (FP.neg (FP.nat 1) : binary64.Num).val = -1 := by rw [val_neg, val_one]
  have key := key (by rw [hall]; simp) 1 (by
    rw [hall]
    intro p hpm
    simp only [List.mem_cons, List.not_mem_nil, or_false] at hpm
    rcases hpm with rfl | rfl
    · show |(FP.neg (FP.nat 1) : binary64.Num).val| ≤ 1
      rw [hneg]; norm_num
    · show |(FP.nat 0 : binary64.Num).val| ≤ 1
      rw [val_zero]; norm_num)
  have hav : averageR near 1 0 = -1 / 2 := by
    rw [hall]
    unfold averageR
    simp only [List.map_cons, List.map_nil, List.sum_cons, List.sum_nil, hq]
    rw [show (sidePoint (FP.neg (FP.nat 1))).velocity.val = -1 from hneg, show (sidePoint (FP.nat 0)).velocity.val = 0 from val_zero]
    norm_num
  rw [hav, hall, hn1] at key
  refine key.trans ?_
  norm_num

/-- A boundary point at `(1, 0)`. -/
noncomputable def nodePoint (v : binary64.Num) : BoundaryPoint binary64.Num := { midPoint v with coord := ⟨FP.nat 1, FP.nat 0⟩ }

/-- The hypotheses of `C106_on` and `C106_far` can be met, in binary64: a point at `(1, 0)` gives its speed to the node there, and the node at
`(4, 4)` has speed zero. -/
example (v : binary64.Num) : ∃ L L' : LevelSet binary64.Num, Reachable 5 5 L ∧ computeVelocities [nodePoint v] L = .ok L' ∧
    vals L'.velocity 1 = v ∧ (vals L'.velocity 28).val = 0 := by
  obtain ⟨L, hr, hv, hb, he⟩ := board_level
  have h1 : (nodePoint v).coord.x.val = 1 := val_one
  have h2 : (nodePoint v).coord.y.val = 0 := val_zero
  have hd : InDomainR 5 5 (nodePoint v).coord := by
    unfold InDomainR
    rw [h1, h2]
    norm_num
  have hp : ∀ p ∈ [nodePoint v], InDomainR 5 5 p.coord := by
    intro p hp
    rw [List.mem_singleton.1 hp]
    exact hd
  obtain ⟨L', e⟩ := board_velocities hr hv hp
  obtain ⟨nx, ny, a, b, c, d⟩ := getClosestNode_rnd hr.core.grid (fit_rnd hr) hd.1 hd.2.1 hd.2.2.1 hd.2.2.2
  have hxy : nx = 1 ∧ ny = 0 := by
    have := d 1 0
    rw [h1, h2] at this
    have q1 := sq_nonneg ((1 : ℝ) - nx)
    have q2 := sq_nonneg ((0 : ℝ) - ny)
    push_cast at this
    have z1 : ((1 : ℝ) - nx) ^ 2 = 0 := by linarith
    have z2 : ((0 : ℝ) - ny) ^ 2 = 0 := by linarith
    rw [sq_eq_zero_iff, sub_eq_zero] at z1 z2
    exact ⟨by exact_mod_cast z1.symm, by exact_mod_cast z2.symm⟩
  rw [hxy.1, hxy.2] at c
  refine ⟨L, L', hr, e, ?_, ?_⟩
  · refine C106_on (w := 5) (h := 5) (x := 1) (y := 0) (pre := []) (post := []) hr hp e (by norm_num) (by norm_num)
      (board_interface hr hv 1 (by norm_num)) rfl ⟨⟨_, c, .inl rfl⟩, ?_⟩ (by simp)
    unfold sqFromR
    rw [h1, h2]
    norm_num
  · refine C106_far (w := 5) (h := 5) (x := 4) (y := 4) hr hp e (by simp) (by norm_num) (by norm_num)
      (board_interface hr hv 28 (by norm_num)) ?_
    intro p hpm
    rw [List.mem_singleton.1 hpm]
    rintro ⟨c', hc', h3⟩
    rw [c] at hc'
    cases hc'
    rcases h3 with h3 | ⟨h3, -⟩
    · simp [nodeNo] at h3
    · rcases h3 with ⟨x, x', y, _, _, _, e1, e2, e3⟩ | ⟨x, y, y', _, _, _, e1, e2, e3⟩ <;> simp only [nodeNo] at e1 e2 <;> omega

end Slsm
