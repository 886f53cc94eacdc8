import Verif.Proof.LSSmall
import Verif.Props.LevelSet

/-! # Properties C32–C35: nodal velocities, thermal noise, gradients -/

namespace Slsm

open LevelSet

set_option linter.unusedSectionVars false

section
variable {w h : Nat} {L L' L1 : LevelSet ℝ} {points : List (BoundaryPoint ℝ)}

/-! ### C32 -/

theorem fit_of_reachable (hr : Reachable w h L) : (w + 1) * (h + 1) < 4294967296 := by
  have := hr.core.small
  rw [hr.core.grid.nNodes] at this
  omega

/-- **C32** (safety): for boundary points in the domain the computation of velocities returns or exits. -/
theorem C32_safe (hr : Reachable w h L) (hp : ∀ p ∈ points, InDomain w h p.coord) :
    (∃ L', computeVelocities points L = .ok L') ∨ computeVelocities points L = .error .exit := by
  have := computeVelocities_spec hr.core (pointsOk_real hr.core.grid (fit_of_reachable hr) hp)
  cases he : computeVelocities points L with
  | ok L' => exact .inl ⟨L', rfl⟩
  | error e => rw [he, wp_error] at this; exact .inr (by rw [this])

/-- The velocity mapped to a node before the extension. -/
structure NodeVelocity (w h : Nat) (L : LevelSet ℝ) (points : List (BoundaryPoint ℝ)) (x y : Nat) (v : ℝ) : Prop where
  far : (∀ p ∈ points, ¬ Feeds w h L.mesh p x y) → v = 0
  on : ∀ pre p post, points = pre ++ p :: post → SitsOn w h L.mesh p x y → (∀ q ∈ post, ¬ SitsOn w h L.mesh q x y) → v = p.velocity
  near : (∀ p ∈ points, ¬ SitsOn w h L.mesh p x y) → nodeNo w x y ∈ L.band →
    v = inverseSquareAverage (feeders w h L.mesh points x y) x y
  offBand : (∀ p ∈ points, ¬ SitsOn w h L.mesh p x y) → nodeNo w x y ∉ L.band →
    v = ((feeders w h L.mesh points x y).map fun p => p.velocity / sqFrom p x y).sum

theorem nodeVelocity_initial (hr : Reachable w h L) (hp : ∀ p ∈ points, InDomain w h p.coord) {x y : Nat} (hx : x ≤ w) (hy : y ≤ h) :
    NodeVelocity w h L points x y (initialVel w h L points (nodeNo w x y)) := by
  have C := hr.core
  have hpo := pointsOk_real C.grid (fit_of_reachable hr) hp
  have S := nodeSum_real C.grid hx hy hpo
  unfold initialVel
  dsimp only
  generalize nodeSum w h L.mesh points (nodeNo w x y) = s at S
  have nofeed : (∀ p ∈ points, ¬ Feeds w h L.mesh p x y) → feeders w h L.mesh points x y = [] := by
    intro hno
    unfold feeders
    rw [List.filter_eq_nil_iff]
    intro p hp'
    simpa using hno p hp'
  cases S with
  | free hn =>
    dsimp only
    refine ⟨fun hno => ?_, fun pre p post he hs _ => ?_, fun _ hb => ?_, fun _ hb => ?_⟩
    · rw [nofeed hno]; simp
    · exact absurd hs (hn p (by rw [he]; simp))
    · unfold inverseSquareAverage
      by_cases hz : ((feeders w h L.mesh points x y).map fun p => p.velocity / sqFrom p x y).sum = 0
      · rw [if_neg (by simp [hz]), hz, zero_div]
      · rw [if_pos ⟨hb, by simpa using hz⟩]; rfl
    · rw [if_neg fun hc => hb hc.1]
  | @set pre post p he hs hl =>
    dsimp only
    have hval : (if nodeNo w x y ∈ L.band ∧ ¬ FP.eq p.velocity (FP.nat 0) = true then FP.div p.velocity 1 else p.velocity) = p.velocity := by
      split <;> simp
    rw [hval]
    refine ⟨fun hno => absurd hs.1 (hno p (by rw [he]; simp)), ?_, fun hno _ => absurd hs (hno p (by rw [he]; simp)),
      fun hno _ => absurd hs (hno p (by rw [he]; simp))⟩
    intro pre' p' post' he' hs' hl'
    rw [he] at he'
    -- the last point sitting on the node is unique
    have key : ∀ (pre pre' post post' : List (BoundaryPoint ℝ)), pre ++ p :: post = pre' ++ p' :: post' →
        (∀ q ∈ post, ¬ SitsOn w h L.mesh q x y) → (∀ q ∈ post', ¬ SitsOn w h L.mesh q x y) → p = p' := by
      intro pre
      induction pre with
      | nil =>
        intro pre' post post' e h1 h2
        cases pre' with
        | nil => simp at e; exact e.1
        | cons a t =>
          simp at e
          exact absurd hs' (h1 p' (by rw [e.2]; simp))
      | cons a t ih =>
        intro pre' post post' e h1 h2
        cases pre' with
        | nil =>
          simp at e
          exact absurd hs (h2 p (by rw [← e.2]; simp))
        | cons b t' =>
          simp at e
          exact ih t' post post' e.2 h1 h2
    rw [key _ _ _ _ he' hl hl']

/-- **C32** (interface nodes): after `computeVelocities` every node on the interface has: velocity zero if no boundary point
contributes; the velocity of the (last) boundary point lying on it, if any; otherwise, for a node in the narrow band, the
average of the contributing points with weights one over the squared distance, and for a node outside the narrow band (masked or
fixed) the *unnormalised* sum. -/
theorem C32_interface_velocity (hr : Reachable w h L) (hp : ∀ p ∈ points, InDomain w h p.coord)
    (e : computeVelocities points L = .ok L') {x y : Nat} (hx : x ≤ w) (hy : y ≤ h)
    (hi : OnInterface w h (vals L.signedDistance) (nodeNo w x y)) :
    NodeVelocity w h L points x y (vals L'.velocity (nodeNo w x y)) := by
  have C := hr.core
  have hpo := pointsOk_real C.grid (fit_of_reachable hr) hp
  obtain ⟨h1, h2, L1, F', h3, h4, h5⟩ := wp_of_ok (computeVelocities_spec C hpo) e
  obtain ⟨-, hl, hv⟩ := wp_of_ok (initialiseVelocities_spec C hpo) h3
  have hlt : nodeNo w x y < L.mesh.nNodes := by rw [C.grid.nNodes]; exact nodeNo_lt hx hy
  rw [h5, (C18_no_side_effects C.grid C.sd hl h4).2 _ hlt (.inl hi), hv _ hlt]
  exact nodeVelocity_initial hr hp hx hy

/-- **C32** (other nodes): nothing but the velocities changes. -/
theorem C32_frame (hr : Reachable w h L) (hp : ∀ p ∈ points, InDomain w h p.coord) (e : computeVelocities points L = .ok L') :
    L' = { L with velocity := L'.velocity } ∧ L'.velocity.length = L.velocity.length := by
  obtain ⟨h1, h2, -⟩ := wp_of_ok (computeVelocities_spec hr.core (pointsOk_real hr.core.grid (fit_of_reachable hr) hp)) e
  exact ⟨h1, by rw [h2, hr.core.velocity]⟩

theorem sq_pos_of_not_on {p : BoundaryPoint ℝ} {x y : Nat} (hf : Feeds w h L.mesh p x y) (hn : ¬ SitsOn w h L.mesh p x y) :
    0 < sqFrom p x y := by
  have : ¬ sqFrom p x y < 1 / 10 ^ 6 := fun h => hn ⟨hf, h⟩
  have h1 : (0 : ℝ) < 1 / 10 ^ 6 := by norm_num
  linarith

theorem nodeVelocity_bounds {x y : Nat} {v lo hi : ℝ} (N : NodeVelocity w h L points x y v)
    (hb : nodeNo w x y ∈ L.band ∨ (∃ p ∈ points, SitsOn w h L.mesh p x y) ∨ ∀ p ∈ points, Feeds w h L.mesh p x y → p.velocity = 0)
    (h0 : lo ≤ 0 ∧ 0 ≤ hi) (hv : ∀ p ∈ points, lo ≤ p.velocity ∧ p.velocity ≤ hi) : lo ≤ v ∧ v ≤ hi := by
  by_cases hs : ∃ p ∈ points, SitsOn w h L.mesh p x y
  · -- take the last one
    have : ∃ pre p post, points = pre ++ p :: post ∧ SitsOn w h L.mesh p x y ∧ ∀ q ∈ post, ¬ SitsOn w h L.mesh q x y := by
      clear N hv hb
      induction points with
      | nil => obtain ⟨p, hp, -⟩ := hs; cases hp
      | cons a t ih =>
        by_cases ht : ∃ p ∈ t, SitsOn w h L.mesh p x y
        · obtain ⟨pre, p, post, h1, h2, h3⟩ := ih ht
          exact ⟨a :: pre, p, post, by rw [h1]; rfl, h2, h3⟩
        · obtain ⟨p, hp, hq⟩ := hs
          rcases List.mem_cons.1 hp with rfl | hp
          · exact ⟨[], p, t, rfl, hq, fun q hq' hs' => ht ⟨q, hq', hs'⟩⟩
          · exact absurd ⟨p, hp, hq⟩ ht
    obtain ⟨pre, p, post, h1, h2, h3⟩ := this
    rw [N.on pre p post h1 h2 h3]
    exact hv p (by rw [h1]; simp)
  · have hs' : ∀ p ∈ points, ¬ SitsOn w h L.mesh p x y := fun p hp hq => hs ⟨p, hp, hq⟩
    have hmem : ∀ p ∈ feeders w h L.mesh points x y, p ∈ points ∧ Feeds w h L.mesh p x y := by
      intro p hp; unfold feeders at hp; simpa using hp
    by_cases hin : nodeNo w x y ∉ L.band
    · rw [N.offBand hs' hin, List.sum_eq_zero]
      · exact h0
      · intro u hu
        obtain ⟨p, hp, rfl⟩ := List.mem_map.1 hu
        have h3 : p.velocity = 0 := by
          rcases hb with hb | hb | hb
          · exact absurd hb hin
          · exact absurd hb hs
          · exact hb p (hmem p hp).1 (hmem p hp).2
        rw [h3, zero_div]
    rw [not_not] at hin
    by_cases hf : ∃ p ∈ points, Feeds w h L.mesh p x y
    · rw [N.near hs' hin]
      refine average_bounds ?_ (fun p hp => ?_) fun p hp => hv p (hmem p hp).1
      · obtain ⟨p, hp, hq⟩ := hf
        have : p ∈ feeders w h L.mesh points x y := by unfold feeders; simpa using ⟨hp, hq⟩
        exact List.ne_nil_of_mem this
      · exact sq_pos_of_not_on (hmem p hp).2 (hs' p (hmem p hp).1)
    · rw [N.far fun p hp hq => hf ⟨p, hp, hq⟩]; exact h0

/-- **C32** (bounds): if every interface node is in the narrow band, or has a boundary point lying on it, or takes its velocity from points at
rest only, then the velocities of all nodes that are reached by the extension, and of all nodes in the narrow band, lie between zero and
the velocities of the boundary points. -/
theorem C32_bounds (hr : Reachable w h L) (hp : ∀ p ∈ points, InDomain w h p.coord) (e : computeVelocities points L = .ok L')
    (hband : ∀ x y, x ≤ w → y ≤ h → OnInterface w h (vals L.signedDistance) (nodeNo w x y) → nodeNo w x y ∈ L.band ∨
      (∃ p ∈ points, SitsOn w h L.mesh p x y) ∨ ∀ p ∈ points, Feeds w h L.mesh p x y → p.velocity = 0) {lo hi : ℝ} (h0 : lo ≤ 0 ∧ 0 ≤ hi)
    (hv : ∀ p ∈ points, lo ≤ p.velocity ∧ p.velocity ≤ hi) {i : Nat} (hi' : i < L.mesh.nNodes)
    (hf : Fed w h (OnInterface w h (vals L.signedDistance)) (Active L.mesh) i ∨ i ∈ L.band) :
    lo ≤ vals L'.velocity i ∧ vals L'.velocity i ≤ hi := by
  have C := hr.core
  have hpo := pointsOk_real C.grid (fit_of_reachable hr) hp
  obtain ⟨h1, h2, L1, F', h3, h4, h5⟩ := wp_of_ok (computeVelocities_spec C hpo) e
  obtain ⟨-, hl, hvv⟩ := wp_of_ok (initialiseVelocities_spec C hpo) h3
  rw [h5]
  have key := C19_maximum_principle C.grid C.sd hl h4 (lo := lo) (hi := hi) (fun k hk ho => ?_) i hi'
  · by_cases hfed : Fed w h (OnInterface w h (vals L.signedDistance)) (Active L.mesh) i
    · exact key.1 hfed
    · rw [key.2 hfed, hvv _ hi']
      obtain ⟨x, y, hx, hy, rfl⟩ := C.grid.node_index hi'
      exact nodeVelocity_bounds (nodeVelocity_initial hr hp hx hy) (.inl (hf.resolve_left hfed)) h0 hv
  · obtain ⟨x, y, hx, hy, rfl⟩ := C.grid.node_index hk
    rw [hvv _ hk]
    exact nodeVelocity_bounds (nodeVelocity_initial hr hp hx hy) (hband x y hx hy ho) h0 hv

end

/-- A level set without holes whose domain edge (value zero) does not move. -/
theorem example_fixed {w h : Nat} (hw : 1 ≤ w) (hh : 1 ≤ h) (hs : (w + 1) * (h + 1) < 2 ^ 31) :
    ∃ L, Reachable w h L ∧ L.isFixedDomain = true ∧ ∀ x y, x ≤ w → y ≤ h → vals L.signedDistance (nodeNo w x y) = (edgeDist w h x y : ℝ) := by
  obtain ⟨L, hL⟩ := (C22_accepts_iff (D := ℝ) (w := w) (h := h) hw hh hs
    (.holes []) (by simp) (1 / 2) 3 (by norm_num) true).2.2
    ⟨by norm_num, by norm_num, by norm_num, fun h => by cases h⟩
  refine ⟨L, .new hw hh hs (by norm_num) hL, (built hw hh hs (by norm_num) hL).params.2.2, fun x y hx hy => ?_⟩
  rcases (C23_holes_exact hw hh hs (by norm_num) hL hx hy).1 with h | ⟨hole, hm, -⟩
  · exact h
  · cases hm

/-- One boundary point with velocity one, a quarter of a cell from the corner of the domain. -/
noncomputable def onePoint : BoundaryPoint ℝ :=
  { coord := ⟨1 / 4, 0⟩, normal := ⟨0, 0⟩, length := 1, velocity := 1, negativeLimit := 0, positiveLimit := 0, isDomain := false,
    isFixed := false, nSegments := 0, segments := [], nNeighbours := 0, neighbours := [], sensitivities := [] }

theorem onePoint_value {w h : Nat} (hw : 1 ≤ w) {L L' : LevelSet ℝ} (hr : Reachable w h L) (hfix : L.isFixedDomain = true)
    (v0 : vals L.signedDistance (nodeNo w 0 0) = 0) (e : computeVelocities [onePoint] L = .ok L') :
    vals L'.velocity (nodeNo w 0 0) = 16 := by
  have C := hr.core
  have hw' : (1 : ℝ) ≤ w := by exact_mod_cast hw
  have hd : InDomain w h onePoint.coord := by
    unfold InDomain onePoint
    refine ⟨by norm_num, by norm_num; linarith, by norm_num, by simp⟩
  have hp : ∀ p ∈ [onePoint], InDomain w h p.coord := by
    intro p hp; rw [List.mem_singleton] at hp; rw [hp]; exact hd
  have hz : OnInterface w h (vals L.signedDistance) (nodeNo w 0 0) := .inl (by rw [v0]; simp)
  have N := C32_interface_velocity hr hp e (x := 0) (y := 0) (by omega) (by omega) hz
  have hsq : sqFrom onePoint 0 0 = 1 / 16 := by unfold sqFrom onePoint; norm_num
  have hnot : ∀ p ∈ [onePoint], ¬ SitsOn w h L.mesh p 0 0 := by
    intro p hp hs
    rw [List.mem_singleton] at hp
    subst hp
    have := hs.2
    rw [hsq] at this
    norm_num at this
  have hoff : nodeNo w 0 0 ∉ L.band := by
    intro hb
    exact (C.band_free _ hb).2.2 hfix ((C31_edge hr (by omega) (by omega)).2 (.inl rfl))
  rw [N.offBand hnot hoff]
  have hfeed : Feeds w h L.mesh onePoint 0 0 := by
    obtain ⟨nx, ny, hnx, hny, hc, hmin⟩ := getClosestNode_real C.grid (fit_of_reachable hr) (p := onePoint.coord)
      hd.1 hd.2.1 hd.2.2.1 hd.2.2.2
    refine ⟨_, hc, .inl ?_⟩
    have h1 := hmin 0 0
    unfold onePoint at h1
    norm_num at h1
    have hy : ((ny : ℝ)) ^ 2 ≤ 1 / 16 := by nlinarith [sq_nonneg ((1 / 4 : ℝ) - nx)]
    have hx : ((1 / 4 : ℝ) - nx) ^ 2 ≤ 1 / 16 := by nlinarith [sq_nonneg (ny : ℝ)]
    have hny0 : ny = 0 := by
      have a : (ny : ℝ) < 1 := by nlinarith
      have a' : ny < 1 := by exact_mod_cast a
      omega
    have hnx0 : nx = 0 := by
      have a : (nx : ℝ) < 1 := by nlinarith
      have a' : nx < 1 := by exact_mod_cast a
      omega
    rw [hny0, hnx0]
  have hfs : feeders w h L.mesh [onePoint] 0 0 = [onePoint] := by
    unfold feeders
    simp [hfeed]
  rw [hfs]
  simp only [List.map_cons, List.map_nil, List.sum_cons, List.sum_nil, add_zero, hsq]
  norm_num [onePoint]

/-- **C32** (what fails): without the hypothesis of `C32_bounds` the velocities are not bounded by those of the boundary points: with a
fixed domain edge, on every domain, a single boundary point of velocity `1` gives an interface node the velocity `16`.  On the 1 × 1
domain the computation succeeds for certain (nothing is to be extended). -/
theorem C32_unnormalised :
    (∀ w h, 1 ≤ w → 1 ≤ h → (w + 1) * (h + 1) < 2 ^ 31 → ∃ L : LevelSet ℝ, Reachable w h L ∧ InDomain w h onePoint.coord ∧
      ∀ L', computeVelocities [onePoint] L = .ok L' → vals L'.velocity (nodeNo w 0 0) = 16) ∧
    ∃ L L' : LevelSet ℝ, Reachable 1 1 L ∧ computeVelocities [onePoint] L = .ok L' ∧ vals L'.velocity (nodeNo 1 0 0) = 16 := by
  have dom : ∀ w h : Nat, 1 ≤ w → InDomain w h onePoint.coord := by
    intro w h hw
    have hw' : (1 : ℝ) ≤ w := by exact_mod_cast hw
    unfold InDomain onePoint
    exact ⟨by norm_num, by norm_num; linarith, by norm_num, by simp⟩
  constructor
  · intro w h hw hh hs
    obtain ⟨L, hr, hfix, hv⟩ := example_fixed hw hh hs
    refine ⟨L, hr, dom w h hw, fun L' e => onePoint_value hw hr hfix ?_ e⟩
    rw [hv 0 0 (by omega) (by omega)]
    simp [edgeDist]
  · obtain ⟨L, hr, hfix, hv⟩ := example_fixed (w := 1) (h := 1) (by norm_num) (by norm_num) (by norm_num)
    have C := hr.core
    have hv0 : vals L.signedDistance (nodeNo 1 0 0) = 0 := by
      rw [hv 0 0 (by omega) (by omega)]; simp [edgeDist]
    have hp : ∀ p ∈ [onePoint], InDomain 1 1 p.coord := by
      intro p hp; rw [List.mem_singleton] at hp; rw [hp]; exact dom 1 1 (by norm_num)
    have hpo := pointsOk_real C.grid (fit_of_reachable hr) hp
    have hall : ∀ i, i < L.mesh.nNodes → OnInterface 1 1 (vals L.signedDistance) i := by
      intro i hi
      obtain ⟨x, y, hx, hy, rfl⟩ := C.grid.node_index hi
      refine .inl ?_
      rw [hv x y hx hy]
      have : edgeDist 1 1 x y = 0 := by
        unfold edgeDist
        have h1 : Nat.min x (1 - x) = 0 := by
          rcases Nat.lt_or_ge x 1 with h | h
          · exact Nat.le_zero.1 ((Nat.min_le_left _ _).trans (by omega))
          · exact Nat.le_zero.1 ((Nat.min_le_right _ _).trans (by omega))
        exact Nat.le_zero.1 ((Nat.min_le_left _ _).trans h1.le)
      rw [this]; simp
    have hok : ∃ L', computeVelocities [onePoint] L = .ok L' := by
      unfold computeVelocities
      cases hi : initialiseVelocities [onePoint] L with
      | error x =>
        have := initialiseVelocities_spec C hpo
        rw [hi, wp_error] at this
        exact absurd this (by simp [noErr])
      | ok L1 =>
        obtain ⟨hL1, hl, -⟩ := wp_of_ok (initialiseVelocities_spec C hpo) hi
        have hm : L1.mesh = L.mesh := by rw [hL1]
        have hsd : L1.signedDistance = L.signedDistance := by rw [hL1]
        obtain ⟨F', hF⟩ := C18_nothing_to_extend (sd := L.signedDistance) (vel := L1.velocity) false C.grid C.sd hl
          ⟨0, by norm_num, hall 0 (by rw [C.grid.nNodes]; norm_num)⟩ fun i hi _ => hall i hi
        simp only [bind, Except.bind]
        rw [hm, hsd, hF]
        exact ⟨_, rfl⟩
    obtain ⟨L', hL'⟩ := hok
    exact ⟨L, L', hr, hL', onePoint_value (by norm_num) hr hfix hv0 hL'⟩

/-! ### C33 -/

/-- **C33** (time step): the time step returned is small enough for the noise, is the given one divided by the scale factor returned, and is
the given one if that was small enough. -/
theorem C33_time_step {moveLimit dt T : ℝ} (hm : 0 < moveLimit) (hdt : 0 < dt) (hT : 0 ≤ T) {dt' scale : ℝ}
    (e : thermalStep moveLimit dt T = (dt', scale)) :
    0 < dt' ∧ Real.sqrt (2 * T * dt') ≤ moveLimit / 2 ∧ dt' * scale = dt ∧ 1 ≤ scale ∧
      (Real.sqrt (2 * T * dt) ≤ moveLimit / 2 → dt' = dt ∧ scale = 1) ∧
      (moveLimit / 2 < Real.sqrt (2 * T * dt) → Real.sqrt (2 * T * dt') = moveLimit / 2) := by
  have hmul : Real.sqrt (2 * T) * Real.sqrt dt = Real.sqrt (2 * T * dt) := (Real.sqrt_mul (by positivity) dt).symm
  unfold thermalStep at e
  simp only [FP.lt_real, FP.mul_real, FP.lit_real, FP.sqrt_real, FP.nat_real, FP.div_real] at e
  push_cast at e
  rw [hmul] at e
  by_cases hc : 1 / 2 * moveLimit < Real.sqrt (2 * T * dt)
  · rw [if_pos hc] at e
    simp only [Prod.mk.injEq] at e
    obtain ⟨rfl, rfl⟩ := e
    have hsq : (moveLimit / 2) ^ 2 < 2 * T * dt := by
      have h1 : (moveLimit / 2) < Real.sqrt (2 * T * dt) := by linarith
      have := (Real.lt_sqrt (by positivity)).1 h1
      exact this
    have hTpos : 0 < T := by
      rcases hT.lt_or_eq with h | h
      · exact h
      · rw [← h] at hsq; nlinarith
    have hs : 1 < 8 * dt * T / (moveLimit * moveLimit) := by
      rw [one_lt_div (by positivity)]; nlinarith
    have hval : 2 * T * (dt / (8 * dt * T / (moveLimit * moveLimit))) = (moveLimit / 2) ^ 2 := by
      field_simp; norm_num
    have hroot : Real.sqrt (2 * T * (dt / (8 * dt * T / (moveLimit * moveLimit)))) = moveLimit / 2 := by
      rw [hval]; exact Real.sqrt_sq (by positivity)
    refine ⟨by positivity, hroot.le, ?_, hs.le, fun hle => ?_, fun _ => hroot⟩
    · field_simp
    · exact absurd hle (by push Not; linarith)
  · rw [if_neg hc] at e
    simp only [Prod.mk.injEq] at e
    obtain ⟨rfl, rfl⟩ := e
    refine ⟨hdt, by push Not at hc; linarith, by simp, by simp, fun _ => ⟨rfl, by simp⟩, fun h => absurd h (by push Not at hc ⊢; linarith)⟩

/-- The generator: the numbers drawn, in order. -/
abbrev drawn {ρ : Type} (normal : ρ → ℝ × ρ) (n : Nat) (g : ρ) : List ℝ := draws normal n g

/-- **C33** (noise): the noisy velocities are those of the boundary points plus `√(2T/dt') / √length` times the successive numbers drawn, one
per point; nothing else of the points changes; the level set is then the one for the noisy points. -/
theorem C33_noise {ρ : Type} {normal : ρ → ℝ × ρ} {points points' : List (BoundaryPoint ℝ)} {dt dt' T scale : ℝ} {g g' : ρ}
    {L L' : LevelSet ℝ} (e : computeVelocitiesNoise normal points dt T g L = .ok (points', dt', scale, g', L')) :
    thermalStep L.moveLimit dt T = (dt', scale) ∧ computeVelocities points' L = .ok L' ∧
    points' = List.zipWith (fun p z => { p with velocity := p.velocity + Real.sqrt (2 * T) / Real.sqrt dt' / Real.sqrt p.length * z })
      points (drawn normal points.length g) ∧ points'.length = points.length := by
  have hlen : ∀ (n : Nat) (g : ρ), (draws normal n g).length = n := by
    intro n
    induction n with
    | zero => intro g; rfl
    | succ n ih => intro g; simp [draws, ih]
  unfold computeVelocitiesNoise at e
  generalize ht : thermalStep L.moveLimit dt T = r at e
  obtain ⟨r1, r2⟩ := r
  dsimp only at e
  rw [addNoise_eq] at e
  dsimp only at e
  cases hv : computeVelocities (List.zipWith (fun p z => { p with velocity := FP.add p.velocity (FP.mul (FP.div (FP.div (FP.sqrt
    (FP.mul (FP.nat 2) T)) (FP.sqrt r1)) (FP.sqrt p.length)) z) }) points (draws normal points.length g)) L with
  | error x => rw [hv] at e; cases e
  | ok L2 =>
    rw [hv] at e
    simp only [bind, Except.bind, pure, Except.pure, Except.ok.injEq, Prod.mk.injEq] at e
    obtain ⟨e1, rfl, rfl, -, rfl⟩ := e
    refine ⟨rfl, by rw [← e1]; exact hv, ?_, ?_⟩
    · rw [← e1]; rfl
    · rw [← e1, List.length_zipWith, hlen]; simp

/-- Numbers for which the time step is reduced. -/
example : (1 / 2 : ℝ) / 2 < Real.sqrt (2 * 1 * 2) := by
  rw [show (2 * 1 * 2 : ℝ) = 2 ^ 2 by norm_num, Real.sqrt_sq (by norm_num)]; norm_num

/-! ### C34 -/

section
variable {w h : Nat} {L L' : LevelSet ℝ}

/-- The level set as a function of the position. -/
noncomputable def field (w : Nat) (L : LevelSet ℝ) (x y : Nat) : ℝ := vals L.signedDistance (nodeNo w x y)

/-- **C34** (safety): on domains of at least 4 × 4 cells the gradients are computed without undefined behaviour or exit, in every
reachable state; only the gradients change. -/
theorem C34_safe (hr : Reachable w h L) (hw : 4 ≤ w) (hh : 4 ≤ h) : ∃ L', computeGradients L = .ok L' ∧
    L' = { L with gradient := L'.gradient } ∧ L'.gradient.length = L.gradient.length := by
  obtain ⟨L', h1, h2, h3, -⟩ := wp_noErr_iff.1 (computeGradients_spec hr.core hw hh)
  exact ⟨L', h1, h2, by rw [h3, hr.core.gradient]⟩

/-- **C34** (value): the gradient is zero outside the narrow band; in the band it is the upwind norm of the WENO derivatives for the sign of the
velocity (`upwindGradient`, `Verif/Spec/Gradient.lean`), except at flat corners of the domain, where it is `√2` times the difference
with the diagonal neighbour. -/
theorem C34_value (hr : Reachable w h L) (hw : 4 ≤ w) (hh : 4 ≤ h) (e : computeGradients L = .ok L') {x y : Nat} (hx : x ≤ w) (hy : y ≤ h) :
    (nodeNo w x y ∉ L.band → vals L'.gradient (nodeNo w x y) = 0) ∧
    (nodeNo w x y ∈ L.band → ¬ FlatCorner w h (field w L) x y → vals L'.gradient (nodeNo w x y) =
      upwindGradient w h (field w L) (if vals L.velocity (nodeNo w x y) < 0 then -1 else 1) x y) ∧
    (nodeNo w x y ∈ L.band → FlatCorner w h (field w L) x y → vals L'.gradient (nodeNo w x y) =
      |field w L x y - field w L (inward w x) (inward h y)| * Real.sqrt 2) := by
  obtain ⟨-, -, hv⟩ := wp_of_ok (computeGradients_spec hr.core hw hh) e
  rw [hv x y hx hy]
  refine ⟨fun hb => by rw [if_neg hb]; simp, fun hb hf => by rw [if_pos hb]; exact gradVal_real hf,
    fun hb hf => by rw [if_pos hb]; exact gradVal_flat hf⟩

/-- **C34** (sign): gradients are never negative. -/
theorem C34_nonneg (hr : Reachable w h L) (hw : 4 ≤ w) (hh : 4 ≤ h) (e : computeGradients L = .ok L') {i : Nat} (hi : i < L.mesh.nNodes) :
    0 ≤ vals L'.gradient i := by
  obtain ⟨-, -, hv⟩ := wp_of_ok (computeGradients_spec hr.core hw hh) e
  obtain ⟨x, y, hx, hy, rfl⟩ := hr.core.grid.node_index hi
  rw [hv x y hx hy]
  split
  · exact gradVal_nonneg
  · simp

/-- **C34** (partial: planes): where the level set is a plane `a*x + b*y + c`, the gradient at every band node, edges included, is
`√(a² + b²)`, whatever the velocity.  Missing: corners of the domain at which both slopes are below `10⁻⁶`, for which the statement
is false (`C34_flat_corner`). -/
theorem C34_plane_partial (hr : Reachable w h L) (hw : 4 ≤ w) (hh : 4 ≤ h) (e : computeGradients L = .ok L') {a b c : ℝ}
    (hφ : ∀ x y, x ≤ w → y ≤ h → field w L x y = a * x + b * y + c) {x y : Nat} (hx : x ≤ w) (hy : y ≤ h)
    (hb : nodeNo w x y ∈ L.band)
    (hnc : 1 / 10 ^ 6 ≤ |a| ∨ 1 / 10 ^ 6 ≤ |b| ∨ (x ≠ 0 ∧ x ≠ w) ∨ (y ≠ 0 ∧ y ≠ h)) :
    vals L'.gradient (nodeNo w x y) = Real.sqrt (a ^ 2 + b ^ 2) := by
  have hf : ¬ FlatCorner w h (field w L) x y := by
    rintro ⟨h1, h2, h3, h4⟩
    have hix : inward w x ≤ w ∧ |((inward w x : ℕ) : ℝ) - x| = 1 := by
      unfold inward
      rcases h1 with rfl | rfl
      · simp; omega
      · rw [if_neg (by omega)]
        refine ⟨by omega, ?_⟩
        rw [Nat.cast_sub (by omega)]; norm_num
    have hiy : inward h y ≤ h ∧ |((inward h y : ℕ) : ℝ) - y| = 1 := by
      unfold inward
      rcases h2 with rfl | rfl
      · simp; omega
      · rw [if_neg (by omega)]
        refine ⟨by omega, ?_⟩
        rw [Nat.cast_sub (by omega)]; norm_num
    rw [hφ _ _ hix.1 hy, hφ _ _ hx hy, show a * ((inward w x : ℕ) : ℝ) + b * y + c - (a * x + b * y + c) =
      a * (((inward w x : ℕ) : ℝ) - x) by ring, abs_mul, hix.2, mul_one] at h3
    rw [hφ _ _ hx hiy.1, hφ _ _ hx hy, show a * (x : ℝ) + b * ((inward h y : ℕ) : ℝ) + c - (a * x + b * y + c) =
      b * (((inward h y : ℕ) : ℝ) - y) by ring, abs_mul, hiy.2, mul_one] at h4
    rcases hnc with h | h | h | h
    · linarith
    · linarith
    · exact h1.elim h.1 h.2
    · exact h2.elim h.1 h.2
  rw [(C34_value hr hw hh e hx hy).2.1 hb hf]
  exact upwind_plane (by omega) (by omega) hφ (by split <;> simp) hx hy

/-- **C34** (what happens at flat corners): on a plane with slopes below `10⁻⁶` the corner `(0, 0)` gets `√2 |a + b|`. -/
theorem C34_flat_corner (hr : Reachable w h L) (hw : 4 ≤ w) (hh : 4 ≤ h) (e : computeGradients L = .ok L') {a b c : ℝ}
    (hφ : ∀ x y, x ≤ w → y ≤ h → field w L x y = a * x + b * y + c) (hb : nodeNo w 0 0 ∈ L.band)
    (ha : |a| < 1 / 10 ^ 6) (hb' : |b| < 1 / 10 ^ 6) :
    vals L'.gradient (nodeNo w 0 0) = |a + b| * Real.sqrt 2 := by
  have i1 : ∀ n, inward n 0 = 1 := fun n => by unfold inward; simp
  have hf : FlatCorner w h (field w L) 0 0 := by
    refine ⟨.inl rfl, .inl rfl, ?_, ?_⟩
    · rw [i1, hφ _ _ (by omega) (by omega), hφ _ _ (by omega) (by omega)]; simpa using ha
    · rw [i1, hφ _ _ (by omega) (by omega), hφ _ _ (by omega) (by omega)]; simpa using hb'
  rw [(C34_value hr hw hh e (by omega) (by omega)).2.2 hb hf, i1, i1, hφ _ _ (by omega) (by omega), hφ _ _ (by omega) (by omega)]
  congr 1
  rw [show a * ((0 : ℕ) : ℝ) + b * ((0 : ℕ) : ℝ) + c - (a * ((1 : ℕ) : ℝ) + b * ((1 : ℕ) : ℝ) + c) = -(a + b) by push_cast; ring, abs_neg]

end

/-- A reachable level set that is a plane: user code assigns the values `x/2 + y/4 - 2` on a 5 × 5 domain and rebuilds the band by
hand-made values; here only the values matter, the band is that of the constructor (all nodes). -/
theorem example_plane (a b c : ℝ) : ∃ L : LevelSet ℝ, Reachable 5 5 L ∧ (∀ x y, x ≤ 5 → y ≤ 5 → field 5 L x y = a * x + b * y + c) ∧
    ∀ x y, x ≤ 5 → y ≤ 5 → nodeNo 5 x y ∈ L.band := by
  obtain ⟨L, hL⟩ := (C22_accepts_iff (D := ℝ) (w := 5) (h := 5) (by norm_num) (by norm_num) (by norm_num)
    (.holes []) (by simp) (1 / 2) 3 (by norm_num) false).2.2
    ⟨by norm_num, by norm_num, by norm_num, fun h => by cases h⟩
  have hr : Reachable 5 5 L := .new (by norm_num) (by norm_num) (by norm_num) (by norm_num) hL
  have B := built (by norm_num) (by norm_num) (by norm_num) (by norm_num) hL
  have C := hr.core
  have hN : L.mesh.nNodes = 36 := C.grid.nNodes
  refine ⟨_, .call hr (.assign ((List.range 36).map fun i => a * ((i % 6 : ℕ) : ℝ) + b * ((i / 6 : ℕ) : ℝ) + c) L.velocity L.gradient L.target
    (by simp [hN]) C.velocity C.gradient), ?_, ?_⟩
  · intro x y hx hy
    unfold field
    have hlt : nodeNo 5 x y < 36 := nodeNo_lt (w := 5) (h := 5) hx hy
    rw [vals_map_range _ hlt]
    have e1 : nodeNo 5 x y % 6 = x := by unfold nodeNo; omega
    have e2 : nodeNo 5 x y / 6 = y := by unfold nodeNo; omega
    rw [e1, e2]
  · intro x y hx hy
    show nodeNo 5 x y ∈ L.band
    rw [B.band.band_mem]
    refine ⟨⟨by rw [hN]; exact nodeNo_lt (w := 5) (h := 5) hx hy, B.unmasked _, by rw [B.params.2.2]; simp⟩, ?_⟩
    have hv := C23_holes_exact (by norm_num) (by norm_num) (by norm_num) (by norm_num) hL hx hy
    have : vals L.signedDistance (nodeNo 5 x y) = (edgeDist 5 5 x y : ℝ) := by
      rcases hv.1 with h | ⟨hole, hm, -⟩
      · exact h
      · cases hm
    rw [this, B.params.2.1]
    have h2 : edgeDist 5 5 x y ≤ 2 := by
      unfold edgeDist
      have h3 : Nat.min x (5 - x) ≤ 2 := by
        rcases Nat.lt_or_ge x 3 with h | h
        · exact (Nat.min_le_left _ _).trans (by omega)
        · exact (Nat.min_le_right _ _).trans (by omega)
      exact (Nat.min_le_left _ _).trans h3
    have h2' : (edgeDist 5 5 x y : ℝ) ≤ 2 := by exact_mod_cast h2
    simp only [FP.abs_real, FP.nat_real, FP.lt_real]
    rw [abs_of_nonneg (Nat.cast_nonneg _)]
    push_cast
    linarith

/-- **C34** (counterexample to exactness on all planes): a level set with slope `10⁻⁷` in one direction; the gradient at the corner is
`√2` times too large. -/
theorem C34_plane_fails : ∃ (L L' : LevelSet ℝ) (a b c : ℝ), Reachable 5 5 L ∧ computeGradients L = .ok L' ∧
    (∀ x y, x ≤ 5 → y ≤ 5 → field 5 L x y = a * x + b * y + c) ∧ nodeNo 5 0 0 ∈ L.band ∧
    vals L'.gradient (nodeNo 5 0 0) ≠ Real.sqrt (a ^ 2 + b ^ 2) := by
  obtain ⟨L, hr, hφ, hb⟩ := example_plane (1 / 10 ^ 7) 0 0
  obtain ⟨L', e, -⟩ := C34_safe hr (by norm_num) (by norm_num)
  refine ⟨L, L', 1 / 10 ^ 7, 0, 0, hr, e, hφ, hb 0 0 (by norm_num) (by norm_num), ?_⟩
  rw [C34_flat_corner hr (by norm_num) (by norm_num) e hφ (hb 0 0 (by norm_num) (by norm_num))
    (by rw [abs_of_pos] <;> norm_num) (by norm_num)]
  rw [show ((1 / 10 ^ 7 : ℝ) ^ 2 + 0 ^ 2) = (1 / 10 ^ 7) ^ 2 by ring, Real.sqrt_sq (by norm_num), add_zero,
    abs_of_pos (by norm_num)]
  intro hc
  have h1 : Real.sqrt 2 = 1 := by
    have : (1 / 10 ^ 7 : ℝ) ≠ 0 := by norm_num
    field_simp at hc
    linarith
  have := Real.sq_sqrt (show (0 : ℝ) ≤ 2 by norm_num)
  rw [h1] at this
  norm_num at this

/-- The plane theorem applies: slopes 1/2 and 1/4. -/
example : ∃ (L L' : LevelSet ℝ), computeGradients L = .ok L' ∧ vals L'.gradient (nodeNo 5 0 3) = Real.sqrt ((1 / 2) ^ 2 + (1 / 4) ^ 2) := by
  obtain ⟨L, hr, hφ, hb⟩ := example_plane (1 / 2) (1 / 4) (-2)
  obtain ⟨L', e, -⟩ := C34_safe hr (by norm_num) (by norm_num)
  exact ⟨L, L', e, C34_plane_partial hr (by norm_num) (by norm_num) e hφ (by norm_num) (by norm_num) (hb 0 3 (by norm_num) (by norm_num))
    (.inl (by rw [abs_of_pos] <;> norm_num))⟩

/-- **C34** (why 4 × 4): on every 3 × h domain a band node in the second column makes the computation read out of range. -/
theorem C34_narrow_domain_undefined {h : Nat} {L : LevelSet ℝ} (hr : Reachable 3 h L) {y : Nat} (hy : y ≤ h) (hb : nodeNo 3 1 y ∈ L.band) :
    computeGradients L = .error .ub := gradients_width3 hr.core hy hb

/-- Such a level set exists: 3 × 3 cells without holes. -/
example : ∃ L : LevelSet ℝ, Reachable 3 3 L ∧ nodeNo 3 1 0 ∈ L.band := by
  obtain ⟨L, hL⟩ := (C22_accepts_iff (D := ℝ) (w := 3) (h := 3) (by norm_num) (by norm_num) (by norm_num)
    (.holes []) (by simp) (1 / 2) 3 (by norm_num) false).2.2
    ⟨by norm_num, by norm_num, by norm_num, fun h => by cases h⟩
  have hr : Reachable 3 3 L := .new (by norm_num) (by norm_num) (by norm_num) (by norm_num) hL
  have B := built (by norm_num) (by norm_num) (by norm_num) (by norm_num) hL
  refine ⟨L, hr, ?_⟩
  rw [B.band.band_mem]
  refine ⟨⟨by rw [B.wf.grid.nNodes]; exact nodeNo_lt (by norm_num) (by norm_num), B.unmasked _, by rw [B.params.2.2]; simp⟩, ?_⟩
  have hv := C23_holes_exact (by norm_num) (by norm_num) (by norm_num) (by norm_num) hL (x := 1) (y := 0) (by norm_num) (by norm_num)
  have : vals L.signedDistance (nodeNo 3 1 0) = (edgeDist 3 3 1 0 : ℝ) := by
    rcases hv.1 with h | ⟨hole, hm, -⟩
    · exact h
    · cases hm
  rw [this, B.params.2.1]
  norm_num [edgeDist]

/-! ### C35 -/

/-- **C35** (convexity): the derivative estimate is a convex combination, with strictly positive weights, of the three third order estimates. -/
theorem C35_convex (a b c d e : ℝ) : ∃ w1 w2 w3 : ℝ, 0 < w1 ∧ 0 < w2 ∧ 0 < w3 ∧ w1 + w2 + w3 = 1 ∧
    gradHJWENO a b c d e = w1 * (a / 3 - 7 * b / 6 + 11 * c / 6) + w2 * (-b / 6 + 5 * c / 6 + d / 3) + w3 * (c / 3 + 5 * d / 6 - e / 6) := by
  rw [gradHJWENO_real]
  exact weno_convex a b c d e

/-- When the data are equally smooth on the three stencils (their smoothness indicators agree) the
weights are the ideal ones, so that the estimate is the fifth order upwind difference. -/
theorem C35_optimal_weights {a b c d e S : ℝ}
    (h1 : 13 / 12 * (a - 2 * b + c) ^ 2 + 1 / 4 * (a - 4 * b + 3 * c) ^ 2 = S)
    (h2 : 13 / 12 * (b - 2 * c + d) ^ 2 + 1 / 4 * (b - d) ^ 2 = S)
    (h3 : 13 / 12 * (c - 2 * d + e) ^ 2 + 1 / 4 * (3 * c - 4 * d + e) ^ 2 = S) :
    gradHJWENO a b c d e = (2 * a - 13 * b + 47 * c + 27 * d - 3 * e) / 60 := by
  have hS : 0 ≤ S := by rw [← h2]; positivity
  rw [gradHJWENO_real]
  unfold weno
  rw [h1, h2, h3]
  unfold wenoAlpha estimate1 estimate2 estimate3
  have : (S + 1 / 1000000 : ℝ) ≠ 0 := by positivity
  field_simp
  ring

/-- Data on which the three candidates differ and the smoothness indicators agree. -/
example : gradHJWENO (3 / 4 : ℝ) 1 0 1 (3 / 4) = (2 * (3 / 4) - 13 * 1 + 47 * 0 + 27 * 1 - 3 * (3 / 4)) / 60 :=
  C35_optimal_weights (S := 13 / 3) (by norm_num) (by norm_num) (by norm_num)

/-- **C35** (bounds): the estimate lies between any bounds for the three third order estimates. -/
theorem C35_bounds {a b c d e lo hi : ℝ} (h1 : lo ≤ a / 3 - 7 * b / 6 + 11 * c / 6 ∧ a / 3 - 7 * b / 6 + 11 * c / 6 ≤ hi)
    (h2 : lo ≤ -b / 6 + 5 * c / 6 + d / 3 ∧ -b / 6 + 5 * c / 6 + d / 3 ≤ hi)
    (h3 : lo ≤ c / 3 + 5 * d / 6 - e / 6 ∧ c / 3 + 5 * d / 6 - e / 6 ≤ hi) : lo ≤ gradHJWENO a b c d e ∧ gradHJWENO a b c d e ≤ hi := by
  obtain ⟨w1, w2, w3, p1, p2, p3, hs, he⟩ := C35_convex a b c d e
  rw [he]
  have hlo : lo = w1 * lo + w2 * lo + w3 * lo := by rw [← add_mul, ← add_mul, hs, one_mul]
  have hhi : hi = w1 * hi + w2 * hi + w3 * hi := by rw [← add_mul, ← add_mul, hs, one_mul]
  constructor
  · linarith [mul_le_mul_of_nonneg_left h1.1 p1.le, mul_le_mul_of_nonneg_left h2.1 p2.le, mul_le_mul_of_nonneg_left h3.1 p3.le]
  · linarith [mul_le_mul_of_nonneg_left h1.2 p1.le, mul_le_mul_of_nonneg_left h2.2 p2.le, mul_le_mul_of_nonneg_left h3.2 p3.le]

/-- **C35** (cubics): for differences of consecutive values of a polynomial of degree at most three, centred at `t`, the estimate is the exact
derivative at `t`, for all coefficients and from either side. -/
theorem C35_cubic_exact (c0 c1 c2 c3 t : ℝ) :
    let q : ℝ → ℝ := fun s => c0 + c1 * s + c2 * s ^ 2 + c3 * s ^ 3
    gradHJWENO (q (t - 2) - q (t - 3)) (q (t - 1) - q (t - 2)) (q t - q (t - 1)) (q (t + 1) - q t) (q (t + 2) - q (t + 1)) =
      c1 + 2 * c2 * t + 3 * c3 * t ^ 2 ∧
    gradHJWENO (q (t + 3) - q (t + 2)) (q (t + 2) - q (t + 1)) (q (t + 1) - q t) (q t - q (t - 1)) (q (t - 1) - q (t - 2)) =
      c1 + 2 * c2 * t + 3 * c3 * t ^ 2 := by
  intro q
  rw [gradHJWENO_real, gradHJWENO_real]
  exact ⟨weno_cubic q fun _ => rfl, weno_cubic' q fun _ => rfl⟩

/-- **C35** (through the API): where the level set is the sum of a cubic in `x` and a cubic in `y`, the gradient computed at every band node at least
three cells away from the edge is the exact norm of the gradient. -/
theorem C35_gradient_exact {w h : Nat} {L L' : LevelSet ℝ} (hr : Reachable w h L) (hw : 4 ≤ w) (hh : 4 ≤ h)
    (e : computeGradients L = .ok L') {a0 a1 a2 a3 b1 b2 b3 : ℝ}
    (hφ : ∀ x y, x ≤ w → y ≤ h → field w L x y = a0 + a1 * x + a2 * x ^ 2 + a3 * x ^ 3 + (b1 * y + b2 * y ^ 2 + b3 * y ^ 3))
    {x y : Nat} (hx : 3 ≤ x ∧ x + 3 ≤ w) (hy : 3 ≤ y ∧ y + 3 ≤ h) (hb : nodeNo w x y ∈ L.band) :
    vals L'.gradient (nodeNo w x y) =
      Real.sqrt ((a1 + 2 * a2 * x + 3 * a3 * x ^ 2) ^ 2 + (b1 + 2 * b2 * y + 3 * b3 * y ^ 2) ^ 2) := by
  have hf : ¬ FlatCorner w h (field w L) x y := by
    rintro ⟨h1, -⟩
    rcases h1 with h1 | h1 <;> omega
  rw [(C34_value hr hw hh e (by omega) (by omega)).2.1 hb hf]
  unfold upwindGradient
  have ex : ∀ k : ℕ, k ≤ w → field w L k y = (a0 + (b1 * y + b2 * y ^ 2 + b3 * y ^ 3)) + a1 * k + a2 * k ^ 2 + a3 * k ^ 3 := by
    intro k hk; rw [hφ k y hk (by omega)]; ring
  have ey : ∀ k : ℕ, k ≤ h → field w L x k = (a0 + a1 * x + a2 * x ^ 2 + a3 * x ^ 3) + b1 * k + b2 * k ^ 2 + b3 * k ^ 3 := by
    intro k hk; rw [hφ x k (by omega) hk]; ring
  rw [leftDeriv_cubic (f := fun k => field w L k y) ex hx.1 (by omega), rightDeriv_cubic (f := fun k => field w L k y) ex (by omega) hx.2,
    leftDeriv_cubic (f := fun k => field w L x k) ey hy.1 (by omega), rightDeriv_cubic (f := fun k => field w L x k) ey (by omega) hy.2]
  have key : ∀ s q : ℝ, (s = 1 ∨ s = -1) → (max (s * q) 0) ^ 2 + (min (s * q) 0) ^ 2 = q ^ 2 := by
    intro s q hs
    rcases le_total 0 (s * q) with h | h
    · rw [max_eq_left h, min_eq_right h]; rcases hs with rfl | rfl <;> ring
    · rw [max_eq_right h, min_eq_left h]; rcases hs with rfl | rfl <;> ring
  have hs : ∀ v : ℝ, (if v < 0 then (-1 : ℝ) else 1) = 1 ∨ (if v < 0 then (-1 : ℝ) else 1) = -1 := by intro v; split <;> simp
  congr 1
  rw [add_assoc, key _ _ (hs _), key _ _ (hs _)]

end Slsm
