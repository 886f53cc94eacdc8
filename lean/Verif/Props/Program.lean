import Verif.Proof.ProgramSafe
import Verif.Proof.ProgramMatch
import Verif.Proof.ProgramDemo

/-! # C69–C74: programs that use the library -/

namespace Slsm.Program

open LevelSet

variable {ρ : Type} {P : Problem ρ ℝ} {s s' : State ρ ℝ} {w h : Nat} {nlopt : Optimise ℝ → NLoptRun ℝ} {fuel : Nat} {dt : ℝ}

/-- The four programs use the library as intended, whatever their parameters; two of them are without noise. -/
theorem programs_regular (normal : ρ → ℝ × ρ) (T a : ℝ) : Regular (minimiseArea : Problem ρ ℝ) ∧ Quiet (minimiseArea : Problem ρ ℝ) ∧
    Regular (minimisePerimeter : Problem ρ ℝ) ∧ Quiet (minimisePerimeter : Problem ρ ℝ) ∧
    Regular (minimisePerimeterConstrained normal T a) ∧ Regular (shapeMatch normal T) :=
  ⟨regular_area, quiet_area, regular_perimeter, quiet_perimeter, regular_constrained normal T a, regular_match normal T⟩

/-! ### C69 -/

/-- **C69** (state of the loop): at the top of the loop the boundary is the discretisation of the current level set, except for normal vectors,
and the level set is one of those the other theorems are about.  (Discretising and computing areas change the status of the mesh only.) -/
theorem C69_current (hP : Regular P) (hs : Running w h P s) : Reachable w h s.levelSet ∧ ∃ L L' b, Reachable w h L ∧
    Boundary.discretise L false = .ok (b, L') ∧ L.signedDistance = s.levelSet.signedDistance ∧ L.band = s.levelSet.band ∧
    L.velocity = s.levelSet.velocity ∧ L.gradient = s.levelSet.gradient ∧ L.moveLimit = s.levelSet.moveLimit ∧
    s.boundary = { b with points := s.boundary.points } ∧
    List.Forall₂ (fun p q => q = { p with normal := q.normal }) b.points s.boundary.points := by
  obtain ⟨L, L0, b0, F⟩ := hs.fits hP
  obtain ⟨_, _, -, -, -, -, -, -, -, -, -, -, -, h4⟩ := C36_node_status (ready_of_reachable F.reach) F.disc (Nat.zero_le w) (Nat.zero_le h)
  refine ⟨F.reachable, L, L0, b0, F.reach, F.disc, ?_, ?_, ?_, ?_, ?_, F.eq, F.normals⟩ <;> rw [F.areas.eq, h4]
  rfl

/-- **C69** (motion): in every iteration of every program, with noise or without, the velocities of the boundary points after the iteration are
extended to the nodes, and every value in the narrow band changes by the velocity of its node times the norm of the gradient of the values
before the iteration times the time that has passed; positive values on the edge of the domain become zero.  Other values
stay the same, and the values after the iteration are these or their reinitialisation. -/
theorem C69_motion (hP : Regular P) (hs : Running w h P s) (hw : 4 ≤ w) (hh : 4 ≤ h) (e : advance P nlopt fuel dt s = .ok s') :
    ∃ (φ : List ℝ) (Lv : LevelSet ℝ), computeVelocities s'.boundary.points s.levelSet = .ok Lv ∧ s'.levelSet.velocity = Lv.velocity ∧
      φ.length = (w + 1) * (h + 1) ∧ Settled w h s.levelSet φ s'.levelSet.signedDistance ∧
      ∀ x y, x ≤ w → y ≤ h →
        (nodeNo w x y ∉ s.levelSet.band → vals φ (nodeNo w x y) = field w s.levelSet x y) ∧
        ∀ v, v = field w s.levelSet x y - (s'.runningTime - s.runningTime) * vals Lv.velocity (nodeNo w x y) *
            gradientNorm w h (field w s.levelSet) (vals Lv.velocity (nodeNo w x y)) x y → nodeNo w x y ∈ s.levelSet.band →
          (((x = 0 ∨ x = w ∨ y = 0 ∨ y = h) ∧ 0 < v → vals φ (nodeNo w x y) = 0) ∧
            (¬ ((x = 0 ∨ x = w ∨ y = 0 ∨ y = h) ∧ 0 < v) → vals φ (nodeNo w x y) = v)) := by
  obtain ⟨L, L0, b0, F⟩ := hs.fits hP
  obtain ⟨b, ds, o, o', obj, pts, dt', g, L1, L2, r, L3, A⟩ := advance_ok e
  have hr := F.reachable
  obtain ⟨r1, -, -, -⟩ := A.reachable hP hr
  obtain ⟨v1, v2, φ, S⟩ := A.shift hP F hw hh
  obtain ⟨L2', g1, g2⟩ := S.grads
  rw [v2, ← v1] at g1
  have hpts : s'.boundary.points = pts := by rw [A.boundary]
  have ht : s'.runningTime - s.runningTime = dt' := by rw [A.time, FP.add_real, add_sub_cancel_left]
  refine ⟨φ, L1, by rw [hpts]; exact (hP.extend _ _ _ _ _ _ _ _ A.extend).2, v2, S.length, S.settled, fun x y hx hy => ⟨fun hb => S.outside _ hb, ?_⟩⟩
  intro v hv hb
  have hfield : field w L1 = field w s.levelSet := by unfold field; rw [v1]
  have hgr : vals s'.levelSet.gradient (nodeNo w x y) = gradientNorm w h (field w s.levelSet) (vals L1.velocity (nodeNo w x y)) x y := by
    obtain ⟨-, q1, q2⟩ := C34_value r1 hw hh g1 hx hy
    rw [hfield] at q1 q2
    have hb1 : nodeNo w x y ∈ L1.band := by rw [v1]; exact hb
    rw [g2]
    unfold gradientNorm
    split
    · rename_i hf; exact q2 hb1 hf
    · rename_i hf; exact q1 hb1 hf
  have hval : vals s.levelSet.signedDistance (nodeNo w x y) - dt' * vals s'.levelSet.gradient (nodeNo w x y) * vals s'.levelSet.velocity (nodeNo w x y) = v := by
    rw [hv, hgr, v2, ht]
    show field w s.levelSet x y - _ = _
    ring
  rw [← C31_edge hr hx hy]
  refine ⟨fun hc => S.capped _ hb hc.1 (by rw [hval]; exact hc.2), fun hc => ?_⟩
  rw [S.moved _ hb (by rw [hval]; exact hc), hval]

/-- **C69** (multipliers): in programs without noise the time that passes in an iteration is the absolute value of the first multiplier that the
program keeps for the next iteration, and every boundary point moves in that time by the displacement that belongs to these multipliers and its
sensitivities; fixed points do not move. -/
theorem C69_multipliers (hP : Regular P) (hQ : Quiet P) (hs : Running w h P s) (e : advance P nlopt fuel dt s = .ok s') :
    s'.runningTime - s.runningTime = |s'.lambdas.getD 0 0| ∧
    (s'.runningTime ≠ s.runningTime → ∀ q ∈ s'.boundary.points,
      q.velocity * (s'.runningTime - s.runningTime) = if q.isFixed then 0 else Optimise.capped q (Optimise.proposed s'.lambdas q)) := by
  obtain ⟨L, L0, b0, F⟩ := hs.fits hP
  obtain ⟨b, ds, o, o', obj, pts, dt', g, L1, L2, r, L3, A⟩ := advance_ok e
  obtain ⟨q1, q2⟩ := hQ _ _ _ _ _ _ _ _ A.extend
  subst q1 q2
  have ht : s'.runningTime - s.runningTime = o'.timeStep := by rw [A.time, FP.add_real, add_sub_cancel_left]
  obtain ⟨c1, -, -, c4⟩ := Optimise.C48_consistent (.made A.new) A.solve
  refine ⟨by rw [ht, c1, A.lambdas], fun hne q hq => ?_⟩
  rw [ht, A.lambdas]
  have hpts : s'.boundary.points = o'.points := by rw [A.boundary]
  rw [hpts] at hq
  have hdt : o'.timeStep ≠ 0 := by rw [← ht]; exact sub_ne_zero.2 hne
  obtain ⟨i, hi⟩ := List.mem_iff_getElem?.1 hq
  obtain ⟨p0, ps, p, q', -, -, k3, -, -, -, -, -, -⟩ := A.points hP F hi
  obtain ⟨q'', d1, d2, d3⟩ := c4 i p k3
  rw [hi] at d1
  cases d1
  have hfx : q.isFixed = p.isFixed := by rw [d2]
  have hcap : Optimise.capped q (Optimise.proposed o'.lambdas q) = Optimise.capped p (Optimise.proposed o'.lambdas p) := by rw [d2]; rfl
  rw [hfx, hcap]
  by_cases hf : p.isFixed = true
  · rw [if_pos hf]; exact Optimise.C47_fixed A.new A.solve k3 hi hf hdt
  · rw [if_neg hf]; exact d3 (by simpa using hf) hdt

/-- **C69** (beginning): the loop starts at time zero with multipliers zero and the reinitialised level set. -/
theorem C69_start (hP : Regular P) {L : LevelSet ℝ} {n : Nat} {g : ρ} (hr : Reachable w h L) (e : start P L n g = .ok s) : Running w h P s ∧
    s.runningTime = 0 ∧ s.lambdas = List.replicate n 0 ∧ s.nReinit = 0 ∧ s.rng = g ∧
    ∃ L1, reinitialise L = .ok L1 ∧ s.levelSet.signedDistance = L1.signedDistance ∧ s.levelSet.band = L1.band := by
  obtain ⟨L1, h1, h2⟩ := start_ok e
  have hr1 : Reachable w h L1 := .call hr (.reinitialise h1)
  unfold launch at h2
  obtain ⟨u1, -, -, u4, u5, u6, u7⟩ := refresh_levelSet hP (by exact hr1) h2
  obtain ⟨b0, L0, -, -, u8⟩ := refresh_ok h2
  exact ⟨.start hr e, by rw [u5]; simp, by rw [u6]; simp, u7, by rw [u8], L1, h1, u1, u4⟩

/-- **C69** (CFL condition of the level set): in every iteration of every program without noise, whatever the solver does, the level set moves by
at most the move limit times the norm of its gradient: there are values `φ` that differ from those before the iteration by at most
`moveLimit * |∇φ|` at the nodes of the narrow band, and not at all elsewhere, and the values after the iteration are `φ` or its
reinitialisation.  (Nodes on the edge of the domain with positive value may also be set to zero, see `C31`.) -/
theorem C69_cfl (hP : Regular P) (hQ : Quiet P) (hs : Running w h P s) (hw : 4 ≤ w) (hh : 4 ≤ h) (e : advance P nlopt fuel dt s = .ok s')
    (hm : 1 / 10 ^ 6 ≤ s.levelSet.moveLimit) (ht : s'.runningTime ≠ s.runningTime) (ha : Averaged w h s.levelSet s.boundary.points) :
    ∃ φ : List ℝ, φ.length = (w + 1) * (h + 1) ∧ (∀ i, i ∉ s.levelSet.band → vals φ i = vals s.levelSet.signedDistance i) ∧
      (∀ i ∈ s.levelSet.band, s.levelSet.OnDomainEdge i → vals φ i ≤ 0) ∧
      (∀ i ∈ s.levelSet.band, ¬ s.levelSet.OnDomainEdge i ∨ vals s.levelSet.signedDistance i ≤ 0 →
        |vals φ i - vals s.levelSet.signedDistance i| ≤ s.levelSet.moveLimit * vals s'.levelSet.gradient i) ∧
      Settled w h s.levelSet φ s'.levelSet.signedDistance := by
  obtain ⟨L, L0, b0, F⟩ := hs.fits hP
  obtain ⟨b, ds, o, o', obj, pts, dt', g, L1, L2, r, L3, A⟩ := advance_ok e
  have hr := F.reachable
  obtain ⟨r1, r2, r3, r4⟩ := A.reachable hP hr
  obtain ⟨v1, v2, φ, S⟩ := A.shift hP F hw hh
  obtain ⟨q1, q2⟩ := hQ _ _ _ _ _ _ _ _ A.extend
  subst q1 q2
  obtain ⟨n1, n2, n3⟩ := Optimise.new_val A.new
  have hlim : o.maxDisplacement = s.levelSet.moveLimit := by rw [n3]; rfl
  have hM : 0 < s.levelSet.moveLimit := n1
  have hdt0 : 0 ≤ o'.timeStep := by rw [(Optimise.C48_consistent (.made A.new) A.solve).1]; exact abs_nonneg _
  have hdt : o'.timeStep ≠ 0 := by
    intro h0
    refine ht ?_
    rw [A.time, FP.add_real, h0, add_zero]
  have hdtp : 0 < o'.timeStep := lt_of_le_of_ne hdt0 hdt.symm
  have hin : ∀ p ∈ o'.points, InDomain w h p.coord := by
    intro p hp
    obtain ⟨i, hi⟩ := List.mem_iff_getElem?.1 hp
    obtain ⟨p0, ps, p, q', -, -, -, -, -, -, -, -, h⟩ := A.points hP F hi
    exact h
  have hvel : ∀ q ∈ o'.points, |q.velocity * o'.timeStep| ≤ s.levelSet.moveLimit := by
    intro q hq
    obtain ⟨i, hi⟩ := List.mem_iff_getElem?.1 hq
    obtain ⟨p0, ps, p, q', k1, k2, k3, k4, k5, k6, k7, k8, -⟩ := A.points hP F hi
    by_cases hf : p.isFixed = true
    · rw [Optimise.C47_fixed A.new A.solve k3 hi hf hdt, abs_zero]; exact hM.le
    · rw [← hlim]
      refine Optimise.C46_discretised (ready_of_reachable F.reach) F.disc (.made A.new) A.solve k3 hi (by simpa using hf)
        ⟨p0, List.mem_of_getElem? k1, ?_, ?_⟩ (by rw [hlim]; exact hm) hdt
      · rw [k6.1, k5]
      · rw [k6.1, k5]
  have hv : ∀ i ∈ s.levelSet.band, |o'.timeStep * vals s'.levelSet.velocity i| ≤ s.levelSet.moveLimit := by
    intro i hi
    have := C32_bounds (lo := -(s.levelSet.moveLimit / o'.timeStep)) (hi := s.levelSet.moveLimit / o'.timeStep) hr hin
      (hP.extend _ _ _ _ _ _ _ _ A.extend).2 (fun x y hx hy ho => ?_) ?_ ?_ ((hr.core.band_free i hi).1) (.inr hi)
    · rw [v2, mul_comm, abs_mul, abs_of_pos hdtp, ← le_div_iff₀ hdtp, abs_le]
      exact this
    · rcases ha x y hx hy ho with h | ⟨p, hp, hp'⟩ | h
      · exact .inl h
      · refine .inr (.inl ?_)
        obtain ⟨k, hk⟩ := List.mem_iff_getElem?.1 hp
        have hk' : k < o'.points.length := by
          have l1 := (hP.assign _ _ _ A.assign).2.length_eq
          have l2 := (Optimise.C48_consistent (.made A.new) A.solve).2.2.1
          have l3 : o.points = b.points := by rw [n3]; rfl
          rw [l2, l3, ← l1]
          exact (List.getElem?_eq_some_iff.1 hk).1
        obtain ⟨p0, ps, p1, q', k1, k2, k3, k4, k5, k6, k7, k8, -⟩ := A.points hP F (List.getElem?_eq_getElem hk')
        rw [hk] at k2
        cases k2
        refine ⟨_, List.getElem_mem hk', ?_⟩
        have hc : (o'.points[k]).coord = p.coord := by rw [k8, k7, k6.1]
        unfold SitsOn Feeds sqFrom at hp' ⊢
        rw [hc]
        exact hp'
      · refine .inr (.inr fun q hq hfe => ?_)
        obtain ⟨k, hk⟩ := List.mem_iff_getElem?.1 hq
        obtain ⟨p0, ps, p1, q', k1, k2, k3, k4, k5, k6, k7, k8, -⟩ := A.points hP F hk
        have hc : q.coord = ps.coord := by rw [k8, k7, k6.1]
        have hfx := h ps (List.mem_of_getElem? k2) (by unfold Feeds sqFrom at hfe ⊢; rw [← hc]; exact hfe)
        have := Optimise.C47_fixed A.new A.solve k3 hk (by rw [k6.1]; exact hfx) hdt
        exact (mul_eq_zero.1 this).resolve_right hdt
    · have : 0 ≤ s.levelSet.moveLimit / o'.timeStep := by positivity
      constructor <;> linarith
    · intro p hp
      have := hvel p hp
      rw [abs_mul, abs_of_pos hdtp, ← le_div_iff₀ hdtp, abs_le] at this
      exact this
  have hraw : ∀ i ∈ s.levelSet.band, |o'.timeStep * vals s'.levelSet.gradient i * vals s'.levelSet.velocity i| ≤
      s.levelSet.moveLimit * vals s'.levelSet.gradient i := by
    intro i hi
    have hg := S.nonneg i ((hr.core.band_free i hi).1)
    rw [show o'.timeStep * vals s'.levelSet.gradient i * vals s'.levelSet.velocity i =
      (o'.timeStep * vals s'.levelSet.velocity i) * vals s'.levelSet.gradient i by ring, abs_mul, abs_of_nonneg hg]
    exact mul_le_mul_of_nonneg_right (hv i hi) hg
  refine ⟨φ, S.length, S.outside, fun i hi he => ?_, fun i hi hc => ?_, S.settled⟩
  · by_cases hlt : 0 < vals s.levelSet.signedDistance i - o'.timeStep * vals s'.levelSet.gradient i * vals s'.levelSet.velocity i
    · rw [S.capped i hi he hlt]
    · rw [S.moved i hi fun h => hlt h.2]; exact not_lt.1 hlt
  · have hb := abs_le.1 (hraw i hi)
    by_cases hlt : s.levelSet.OnDomainEdge i ∧
        0 < vals s.levelSet.signedDistance i - o'.timeStep * vals s'.levelSet.gradient i * vals s'.levelSet.velocity i
    · rw [S.capped i hi hlt.1 hlt.2, abs_le]
      rcases hc with hc | hc
      · exact absurd hlt.1 hc
      · have := hlt.2
        constructor <;> linarith [hb.1, hb.2]
    · rw [S.moved i hi hlt, abs_le]
      constructor <;> linarith [hb.1, hb.2]

/-- **C69** (rest of the iteration): discretising the boundary changes neither the values of the level set, nor velocities, gradients or the
narrow band, nor the time, the multipliers and the counter. -/
theorem C69_refresh (hP : Regular P) (hr : Reachable w h s.levelSet) (e : refresh P s = .ok s') :
    s'.levelSet.signedDistance = s.levelSet.signedDistance ∧ s'.levelSet.gradient = s.levelSet.gradient ∧
    s'.levelSet.velocity = s.levelSet.velocity ∧ s'.levelSet.band = s.levelSet.band ∧ s'.runningTime = s.runningTime ∧
    s'.lambdas = s.lambdas ∧ s'.nReinit = s.nReinit := refresh_levelSet hP hr e

/-! ### C70 -/

theorem guarded_area : Guarded w h (minimiseArea : Problem ρ ℝ) := fun _ _ _ _ hr hp => guarded_plain hr hp
theorem guarded_perimeter : Guarded w h (minimisePerimeter : Problem ρ ℝ) := fun _ _ _ _ hr hp => guarded_plain hr hp
theorem guarded_constrained (normal : ρ → ℝ × ρ) (T a : ℝ) : Guarded w h (minimisePerimeterConstrained normal T a) :=
  fun _ _ _ _ hr hp => guarded_noisy hr hp
theorem guarded_match (normal : ρ → ℝ × ρ) (T : ℝ) : Guarded w h (shapeMatch normal T) := fun _ _ _ _ hr hp => guarded_noisy hr hp

/-- **C70** (partial: up to the new level set): an iteration started with valid sensitivities, constraint distances and multipliers, for any
solver that returns a code, either produces the new level set or ends with an error message; it never has undefined behaviour and never
runs forever.  Missing: the discretisation of the new level set at the end of the iteration, see C41, and more than one satisfied
inequality constraint, see C52. -/
theorem C70_defined_partial (hP : Regular P) (hG : Guarded w h P) (hs : Running w h P s) (hw : 4 ≤ w) (hh : 4 ≤ h) {b : Boundary ℝ}
    (ha : P.assign s.levelSet s.boundary = .ok b) {ds : List ℝ} (hds : P.distances s.levelSet = .ok ds)
    (V : Optimise.ValidInput b.points ds s.lambdas s.levelSet.moveLimit [])
    (hc : ∀ t, ∃ c, (nlopt t).result = .code c)
    (hd : ds.length ≤ 1 ∨ ∀ m, m < ds.length → ∃ d, ds[m]? = some d ∧ d < 0) :
    ∃ N, ∀ fuel, N ≤ fuel → Clean (advance P nlopt fuel dt s) := by
  obtain ⟨L, L0, b0, F⟩ := hs.fits hP
  obtain ⟨N, hN⟩ := advance_clean hP hG F hw hh (dt := dt) ha hds V hc hd
  exact ⟨N, fun fuel hf => (hN fuel hf).1⟩

/-- **C70** (area): an iteration of the area minimisation program is defined if some movable boundary point has positive length. -/
theorem C70_area_partial (hs : Running w h minimiseArea s) (hw : 4 ≤ w) (hh : 4 ≤ h) (hl : s.lambdas.length = 1)
    (hex : ∃ p ∈ s.boundary.points, p.isFixed = false ∧ 0 < p.length) (hc : ∀ t, ∃ c, (nlopt t).result = .code c) :
    ∃ N, ∀ fuel, N ≤ fuel → Clean (advance minimiseArea nlopt fuel dt s) := by
  obtain ⟨L, L0, b0, F⟩ := hs.fits regular_area
  obtain ⟨b, hb⟩ := setSensitivity_safe (k := 0) (value := fun _ => pure (FP.nat 1)) (b := s.boundary) fun p hp =>
    ⟨by rw [(F.fresh hp).1]; simp, _, rfl⟩
  refine C70_defined_partial regular_area guarded_area hs hw hh hb rfl
    (valid_single F (setSensitivity_frame hb).2 hl ?_) hc (.inl (Nat.zero_le 1))
  obtain ⟨p, hp, h1, h2⟩ := hex
  obtain ⟨p', hp', v, hv, -, e⟩ := forall₂_mem (setSensitivity_ok hb).2 hp
  cases hv
  refine ⟨p', hp', by rw [e]; exact h1, ?_, by rw [e]; exact h2⟩
  rw [e, (F.fresh hp).1]
  simp

/-- **C70** (perimeter): an iteration of the perimeter minimisation program is defined if the perimeter changes with the position of some
movable boundary point of positive length. -/
theorem C70_perimeter_partial (hs : Running w h minimisePerimeter s) (hw : 4 ≤ w) (hh : 4 ≤ h) (hl : s.lambdas.length = 1)
    (hex : ∃ p ∈ s.boundary.points, p.isFixed = false ∧ 0 < p.length ∧ Sensitivity.curvature (1 / 10000) s.boundary p ≠ 0)
    (hc : ∀ t, ∃ c, (nlopt t).result = .code c) :
    ∃ N, ∀ fuel, N ≤ fuel → Clean (advance minimisePerimeter nlopt fuel dt s) := by
  obtain ⟨L, L0, b0, F⟩ := hs.fits regular_perimeter
  obtain ⟨b, hb⟩ := setSensitivity_safe (k := 0) (value := perimeterSensitivity s.boundary) (b := s.boundary) fun p hp =>
    ⟨by rw [(F.fresh hp).1]; simp, perimeter_defined F hp⟩
  refine C70_defined_partial regular_perimeter guarded_perimeter hs hw hh hb rfl
    (valid_single F (setSensitivity_frame hb).2 hl ?_) hc (.inl (Nat.zero_le 1))
  obtain ⟨p, hp, h1, h2, h3⟩ := hex
  obtain ⟨p', hp', v, hv, -, e⟩ := forall₂_mem (setSensitivity_ok hb).2 hp
  refine ⟨p', hp', by rw [e]; exact h1, ?_, by rw [e]; exact h2⟩
  rw [e, (F.fresh hp).1]
  have : v = Sensitivity.curvature (1 / 10000) s.boundary p := by
    rw [perimeter_value F hp] at hv
    exact (Except.ok.inj hv).symm
  rw [this]
  simpa using h3

/-- The hypotheses of `C69_start` and `C70_perimeter_partial` are met by the first iteration on a domain of 5 × 5 cells. -/
example : ∃ s : State Unit ℝ, Running 5 5 minimisePerimeter s ∧ (∃ L, Reachable 5 5 L ∧ start minimisePerimeter L 1 () = .ok s) ∧
    s.lambdas.length = 1 ∧
    ∃ p ∈ s.boundary.points, p.isFixed = false ∧ 0 < p.length ∧ Sensitivity.curvature (1 / 10000) s.boundary p ≠ 0 := by
  obtain ⟨s, p, h1, h2, h3, h4, h5, h6, h7⟩ := perimeter_demo
  exact ⟨s, h1, h7, h2, p, h3, h4, h5, h6⟩

theorem finishes_area (K : LevelSet ℝ → Prop) : Finishes w h K (minimiseArea : Problem ρ ℝ) := fun _ _ _ _ _ _ _ => ⟨_, rfl⟩
theorem finishes_match (K : LevelSet ℝ → Prop) (normal : ρ → ℝ × ρ) (T : ℝ) : Finishes w h K (shapeMatch normal T) := fun _ _ _ _ _ _ _ => ⟨_, rfl⟩

theorem finishes_perimeter (K : LevelSet ℝ → Prop) : Finishes w h K (minimisePerimeter : Problem ρ ℝ) := by
  intro L b L' hr T _ e
  obtain ⟨b', h1, -⟩ := C44_normals_partial hr T e
  refine ⟨(b', L'), ?_⟩
  show (do let b ← b.computeNormalVectors L'; pure (b, L')) = _
  rw [h1]
  rfl

theorem finishes_constrained (normal : ρ → ℝ × ρ) (T a : ℝ) :
    Finishes w h (fun L => Boundary.NearSeen w h L false) (minimisePerimeterConstrained normal T a) := by
  intro L b L' hr T' hN e
  obtain ⟨L1, h2⟩ := C45_returns T' (.inr hN) e
  obtain ⟨b', h1, -⟩ := C44_normals_partial hr T' e
  have h3 : b.computeNormalVectors L1 = .ok b' := by rw [(C45_frame h2).1]; exact h1
  refine ⟨(b', L1), ?_⟩
  show (do let L ← Area.computeAreaFractions L' b; let b ← b.computeNormalVectors L; pure (b, L)) = _
  rw [h2]
  simp only [bind, Except.bind]
  rw [h3]
  rfl

/-- **C70**, partial (end of the iteration): the boundary is computed anew without error if the values are well behaved.  Missing: all other values, for
some of which the discretisation has undefined behaviour, see `C70_refresh_undefined`. -/
theorem C70_refresh_partial {K : LevelSet ℝ → Prop} (hF : Finishes w h K P) (hr : Reachable w h s.levelSet) (T : Boundary.Tame w h s.levelSet false)
    (hK : K s.levelSet) : ∃ s', refresh P s = .ok s' := by
  obtain ⟨b, L', e⟩ := C41_safe_partial T
  obtain ⟨r, e'⟩ := hF _ _ _ hr T hK e
  unfold refresh
  rw [e]
  simp only [bind, Except.bind]
  rw [e']
  exact ⟨_, rfl⟩

/-- **C70** fails at the end of the iteration: if the values vary by at most one along crossed edges and the nodes near the contour are active or masked,
but a lattice point on the contour has more than two segments or a cell has four corners on the contour, then the iteration accesses memory
out of range, in every program of this form. -/
theorem C70_refresh_undefined (hr : Reachable w h s.levelSet) (G : Gentle w h (Boundary.level w s.levelSet false))
    (hN : Boundary.NearSeen w h s.levelSet false) (hT : ¬ Tidy w h (Boundary.level w s.levelSet false)) : refresh P s = .error .ub := by
  unfold refresh
  rw [(C41_exact_condition_partial (ready_of_reachable hr) G (.inr hN)).2 hT]
  rfl

/-- A level set to which `C70_refresh_undefined` applies: a hole that ends half a cell from the edge of the domain. -/
example : ∃ L : LevelSet ℝ, Reachable 10 10 L ∧ Gentle 10 10 (Boundary.level 10 L false) ∧ Boundary.NearSeen 10 10 L false ∧
    ¬ Tidy 10 10 (Boundary.level 10 L false) := by
  obtain ⟨L, hL, hu⟩ := C41_hole_at_edge_undefined
  have hr : Reachable 10 10 L := .new (by norm_num) (by norm_num) (by norm_num) (by norm_num) hL
  have B := built (by norm_num) (by norm_num) (by norm_num) (by norm_num) hL
  refine ⟨L, hr, holes_gentle (by norm_num) (by norm_num) (by norm_num) (by norm_num) hL, Boundary.near_of_band hr B.band B.params.2.2, fun hT => ?_⟩
  obtain ⟨-, b, L', e⟩ := (C41_holes_partial (by norm_num) (by norm_num) (by norm_num) (by norm_num) hL).1 hT
  rw [hu] at e
  cases e

/-- **C70**, partial (whole iteration): under the conditions of `C70_defined_partial` the whole iteration returns or ends with an error message if the
level set it arrives at is well behaved. -/
theorem C70_step_partial {K : LevelSet ℝ → Prop} (hP : Regular P) (hG : Guarded w h P) (hF : Finishes w h K P) (hs : Running w h P s) (hw : 4 ≤ w)
    (hh : 4 ≤ h) {b : Boundary ℝ} (ha : P.assign s.levelSet s.boundary = .ok b) {ds : List ℝ} (hds : P.distances s.levelSet = .ok ds)
    (V : Optimise.ValidInput b.points ds s.lambdas s.levelSet.moveLimit [])
    (hc : ∀ t, ∃ c, (nlopt t).result = .code c)
    (hd : ds.length ≤ 1 ∨ ∀ m, m < ds.length → ∃ d, ds[m]? = some d ∧ d < 0) :
    ∃ N, ∀ fuel, N ≤ fuel → (∀ t, advance P nlopt fuel dt s = .ok t → Boundary.Tame w h t.levelSet false ∧ K t.levelSet) →
      Clean (step P nlopt fuel dt s) := by
  obtain ⟨N, hN⟩ := C70_defined_partial hP hG hs hw hh (dt := dt) ha hds V hc hd
  refine ⟨N, fun fuel hf hT => ?_⟩
  unfold step
  rcases hN fuel hf with ⟨t, e⟩ | e
  · rw [e]
    obtain ⟨T, hK⟩ := hT t e
    obtain ⟨L, L0, b0, F⟩ := hs.fits hP
    obtain ⟨b, ds, o, o', obj, pts, dt', g, L1, L2, r, L3, A⟩ := advance_ok e
    obtain ⟨s', e'⟩ := C70_refresh_partial hF (A.reachable hP F.reachable).2.2.2 T hK
    exact .inl ⟨s', e'⟩
  · rw [e]
    exact .inr rfl

/-! ### C71 -/

/-- **C71** (time): time never runs backwards, in programs without noise and in programs with noise of any temperature. -/
theorem C71_time (hP : Regular P) (hs : Running w h P s) (e : step P nlopt fuel dt s = .ok s')
    (hk : Quiet P ∨ ∃ normal T, 0 ≤ T ∧ P.extend = noisy normal T) : s.runningTime ≤ s'.runningTime := by
  obtain ⟨L, L0, b0, F⟩ := hs.fits hP
  obtain ⟨t, h1, h2⟩ := step_ok e
  obtain ⟨b, ds, o, o', obj, pts, dt', g, L1, L2, r, L3, A⟩ := advance_ok h1
  obtain ⟨r1, r2, r3, r4⟩ := A.reachable hP F.reachable
  obtain ⟨-, -, -, -, u5, -⟩ := refresh_levelSet hP r4 h2
  have hdt : 0 ≤ o'.timeStep := by rw [(Optimise.C48_consistent (.made A.new) A.solve).1]; exact abs_nonneg _
  rw [u5, A.time, FP.add_real]
  suffices 0 ≤ dt' by linarith
  rcases hk with hQ | ⟨normal, T, hT, hX⟩
  · rw [(hQ _ _ _ _ _ _ _ _ A.extend).2]; exact hdt
  · have hx := A.extend
    rw [hX] at hx
    exact noisy_time (real_limit F.reachable).1 hdt hT hx

/-- **C71** (reinitialisation): the counter never exceeds twenty, and between any state of the loop and the next reinitialisation there are
at most twenty iterations, less the value of the counter: some iteration among the next `21 - nReinit` gives a level set that has just been
reinitialised, with a narrow band and mines that belong to it. -/
theorem C71_reinitialised (hP : Regular P) (σ : Nat → State ρ ℝ) (h0 : Running w h P (σ 0))
    (hst : ∀ k, k ≤ 20 → ∃ nlopt fuel dt, step P nlopt fuel dt (σ k) = .ok (σ (k + 1))) : (σ 0).nReinit ≤ 20 ∧
    ∃ k nlopt fuel dt t, k + (σ 0).nReinit ≤ 20 ∧ advance P nlopt fuel dt (σ k) = .ok t ∧ refresh P t = .ok (σ (k + 1)) ∧
      BandOk t.levelSet ∧ ∃ (m : Mesh ℝ) (φ : List ℝ) (F : FMM ℝ), IsGrid w h m ∧ FMM.marchDistance m φ (FMM.new m false) = .ok F ∧
        t.levelSet.signedDistance = F.sd := by
  have hcount := h0.counter hP
  refine ⟨hcount, ?_⟩
  by_contra hno
  have key : ∀ k, k + (σ 0).nReinit ≤ 21 → Running w h P (σ k) ∧ (σ k).nReinit = (σ 0).nReinit + k := by
    intro k
    induction k with
    | zero => exact fun _ => ⟨h0, rfl⟩
    | succ k ih =>
      intro hk
      obtain ⟨hs, hn⟩ := ih (by omega)
      obtain ⟨nlopt, fuel, dt, e⟩ := hst k (by omega)
      refine ⟨.step hs e, ?_⟩
      obtain ⟨t, h1, h2⟩ := step_ok e
      obtain ⟨L, L0, b0, F⟩ := hs.fits hP
      obtain ⟨b, ds, o, o', obj, pts, dt', g, L1, L2, r, L3, A⟩ := advance_ok h1
      obtain ⟨r1, r2, r3, r4⟩ := A.reachable hP F.reachable
      obtain ⟨-, -, -, -, -, -, u7⟩ := refresh_levelSet hP r4 h2
      rcases settled_fresh r2 A.update A.periodic with hf | ⟨hf, -⟩
      · exact absurd ⟨k, nlopt, fuel, dt, t, by omega, h1, h2, hf⟩ hno
      · rw [u7, hf, hn]; omega
  obtain ⟨hs, hn⟩ := key (20 - (σ 0).nReinit) (by omega)
  obtain ⟨nlopt, fuel, dt, e⟩ := hst (20 - (σ 0).nReinit) (by omega)
  obtain ⟨t, h1, h2⟩ := step_ok e
  obtain ⟨L, L0, b0, F⟩ := hs.fits hP
  obtain ⟨b, ds, o, o', obj, pts, dt', g, L1, L2, r, L3, A⟩ := advance_ok h1
  obtain ⟨r1, r2, r3, r4⟩ := A.reachable hP F.reachable
  rcases settled_fresh r2 A.update A.periodic with hf | ⟨-, hf⟩
  · exact hno ⟨_, nlopt, fuel, dt, t, by omega, h1, h2, hf⟩
  · omega

/-! ### C72 -/

theorem negative_limit {L L' : LevelSet ℝ} {b : Boundary ℝ} {isTarget : Bool} (hr : Reachable w h L) (e : Boundary.discretise L isTarget = .ok (b, L'))
    (R : Boundary.Ready w h L isTarget) {p : BoundaryPoint ℝ} (hp : p ∈ b.points) : p.negativeLimit ≤ 0 := by
  obtain ⟨nx, ny, nd, -, -, -, -, -, -, -, k⟩ := C43_limits R e hp
  obtain ⟨-, i1, i2, i3, i4, -⟩ := C37_points_on_contour R e hp
  have hge : 0 ≤ Boundary.distToEdge w h p.coord := le_min (le_min i1 (by linarith)) (le_min i3 (by linarith))
  have hm := (real_limit hr).1.le
  have hd : 0 ≤ Boundary.distance ⟨(nx : ℝ), (ny : ℝ)⟩ p.coord := Real.sqrt_nonneg _
  rw [k]
  split
  · exact neg_nonpos.2 (le_min (le_min hm hge) hd)
  · exact neg_nonpos.2 (le_min hm hge)

/-- Displacements of the points in an iteration of the area minimisation program. -/
theorem area_points {L L0 : LevelSet ℝ} {b0 : Boundary ℝ} (F : Fits w h s L L0 b0) {b : Boundary ℝ} {o o' : Optimise ℝ} {obj : ℝ}
    {pts : List (BoundaryPoint ℝ)} {dt' : ℝ} {g : ρ} {L1 L2 : LevelSet ℝ} {r : Bool} {L3 : LevelSet ℝ}
    (A : Advanced (minimiseArea : Problem ρ ℝ) nlopt fuel dt s s' b ds o o' obj pts dt' g L1 L2 r L3) :
    s'.lambdas.length = 1 ∧ dt' = |s'.lambdas.getD 0 0| ∧ ∀ q ∈ pts, dt' ≠ 0 → (q.isFixed = true → q.velocity * dt' = 0) ∧
      (q.isFixed = false → q.velocity * dt' = Optimise.capped q (s'.lambdas.getD 0 0)) ∧ q.negativeLimit ≤ 0 ∧
      (q.isFixed = false → q.isDomain = false → |s'.lambdas.getD 0 0| ≤ s.levelSet.moveLimit) := by
  obtain ⟨q1, q2⟩ := quiet_area _ _ _ _ _ _ _ _ A.extend
  subst q1 q2
  obtain ⟨n1, n2, n3⟩ := Optimise.new_val A.new
  obtain ⟨c1, c2, c3, c4⟩ := Optimise.C48_consistent (.made A.new) A.solve
  cases A.dists
  have hlen : s'.lambdas.length = 1 := by rw [A.lambdas, c2, n3]; rfl
  refine ⟨hlen, by rw [A.lambdas]; exact c1, fun q hq hdt => ?_⟩
  obtain ⟨i, hi⟩ := List.mem_iff_getElem?.1 hq
  obtain ⟨p0, ps, p, q', k1, k2, k3, k4, k5, k6, k7, k8, -⟩ := A.points regular_area F hi
  rw [hi] at k4
  cases k4
  have hb : o.points = b.points := by rw [n3]; rfl
  have hsens : p.sensitivities = [1, 0] := by
    obtain ⟨pa, e1, v, hv, -, e⟩ := forall₂_get' (setSensitivity_ok A.assign).2 (by rw [← hb]; exact k3)
    rw [k2] at e1
    cases e1
    cases hv
    rw [e, (F.fresh (List.mem_of_getElem? k2)).1]
    simp
  obtain ⟨l0, hl0⟩ : ∃ l0, s'.lambdas = [l0] := List.length_eq_one_iff.1 hlen
  have hprop : Optimise.proposed o'.lambdas p = l0 := by
    rw [← A.lambdas, hl0]
    unfold Optimise.proposed
    rw [hsens]
    simp
  have hfx : q.isFixed = p.isFixed := by rw [k7]
  have hcap : ∀ d, Optimise.capped q d = Optimise.capped p d := by intro d; rw [k7]; rfl
  have hmove : p.isFixed = false → q.velocity * o'.timeStep = Optimise.capped p l0 := by
    intro hf
    obtain ⟨q'', d1, -, d3⟩ := c4 i p k3
    rw [hi] at d1
    cases d1
    rw [d3 hf hdt, hprop]
  have hneg : q.negativeLimit ≤ 0 := by
    have : q.negativeLimit = p0.negativeLimit := by rw [k7, k6.1, k5]
    rw [this]
    exact negative_limit F.reach F.disc (ready_of_reachable F.reach) (List.mem_of_getElem? k1)
  refine ⟨fun hf => Optimise.C47_fixed A.new A.solve k3 hi (by rw [← hfx]; exact hf) hdt, fun hf => ?_, hneg, fun hf hd => ?_⟩
  · rw [hcap, hl0]; exact hmove (by rw [← hfx]; exact hf)
  · have hpd : p.isDomain = false := by rw [← hd, k7]
    have hm := hmove (by rw [← hfx]; exact hf)
    have := Optimise.C46_cfl_partial (.made A.new) A.solve k3 hi (by rw [← hfx]; exact hf) (fun h => by rw [hpd] at h; cases h) hdt
    rw [hm] at this
    unfold Optimise.capped at this
    rw [if_neg (by simp [hpd]), n3] at this
    rw [hl0]
    exact this

/-- **C72** (uniform motion): in the area minimisation program all movable points away from the edge of the domain have the same velocity, 1 or
-1, points at the edge do not move out of the domain, fixed points stay; the time goes on by the common displacement, which is at most the
move limit. -/
theorem C72_uniform (hs : Running w h minimiseArea s) (e : advance minimiseArea nlopt fuel dt s = .ok s') :
    s'.lambdas.length = 1 ∧ s'.runningTime = s.runningTime + |s'.lambdas.getD 0 0| ∧
    (s'.lambdas.getD 0 0 ≠ 0 → ∀ q ∈ s'.boundary.points, (q.isFixed = true → q.velocity = 0) ∧
      (q.isFixed = false → q.isDomain = false → q.velocity = if s'.lambdas.getD 0 0 < 0 then -1 else 1) ∧
      (q.isFixed = false → q.isDomain = true → if s'.lambdas.getD 0 0 < 0 then -1 ≤ q.velocity ∧ q.velocity ≤ 0 else q.velocity = 1)) ∧
    ((∃ q ∈ s'.boundary.points, q.isFixed = false ∧ q.isDomain = false) → |s'.lambdas.getD 0 0| ≤ s.levelSet.moveLimit) := by
  obtain ⟨L, L0, b0, F⟩ := hs.fits regular_area
  obtain ⟨b, ds, o, o', obj, pts, dt', g, L1, L2, r, L3, A⟩ := advance_ok e
  obtain ⟨a1, a2, a3⟩ := area_points F A
  have hpts : s'.boundary.points = pts := by rw [A.boundary]
  rw [hpts]
  refine ⟨a1, by rw [A.time, FP.add_real, a2], fun hl q hq => ?_, fun ⟨q, hq, h1, h2⟩ => ?_⟩
  · have hdt : dt' ≠ 0 := by rw [a2]; exact abs_ne_zero.2 hl
    obtain ⟨f1, f2, f3, -⟩ := a3 q hq hdt
    have hpos : 0 < |s'.lambdas.getD 0 0| := abs_pos.2 hl
    rw [a2] at f1 f2
    refine ⟨fun hf => (mul_eq_zero.1 (f1 hf)).resolve_right hpos.ne', fun hf hd => ?_, fun hf hd => ?_⟩
    · have := f2 hf
      unfold Optimise.capped at this
      rw [if_neg (by simp [hd])] at this
      split
      · rename_i hlt
        rw [abs_of_neg hlt] at this
        have h0 : (q.velocity + 1) * s'.lambdas.getD 0 0 = 0 := by linarith
        linarith [(mul_eq_zero.1 h0).resolve_right hl]
      · rename_i hge
        rw [abs_of_nonneg (not_lt.1 hge)] at this
        have h0 : (q.velocity - 1) * s'.lambdas.getD 0 0 = 0 := by linarith
        linarith [(mul_eq_zero.1 h0).resolve_right hl]
    · have := f2 hf
      unfold Optimise.capped at this
      rw [if_pos hd] at this
      split
      · rename_i hlt
        rw [abs_of_neg hlt] at this hpos
        have m1 := le_max_left (s'.lambdas.getD 0 0) q.negativeLimit
        have m2 : max (s'.lambdas.getD 0 0) q.negativeLimit ≤ 0 := max_le hlt.le f3
        rw [← this] at m1 m2
        constructor
        · by_contra hc
          nlinarith
        · by_contra hc
          nlinarith
      · rename_i hge
        have hg := lt_of_le_of_ne (not_lt.1 hge) hl.symm
        rw [abs_of_pos hg, max_eq_left (by linarith)] at this
        have h0 : (q.velocity - 1) * s'.lambdas.getD 0 0 = 0 := by linarith
        linarith [(mul_eq_zero.1 h0).resolve_right hl]
  · by_cases hl : s'.lambdas.getD 0 0 = 0
    · rw [hl, abs_zero]; exact (real_limit F.reachable).1.le
    · exact (a3 q hq (by rw [a2]; exact abs_ne_zero.2 hl)).2.2.2 h1 h2

/-- **C72** (monotonicity): whenever the multiplier chosen is negative, no value of the level set decreases (holes only shrink), except that
positive values at the edge of the domain may be set to zero; whenever it is positive, no value increases.  Reinitialisation apart. -/
theorem C72_monotone (hs : Running w h minimiseArea s) (hw : 4 ≤ w) (hh : 4 ≤ h) (e : advance minimiseArea nlopt fuel dt s = .ok s')
    (hl : s'.lambdas.getD 0 0 ≠ 0) (ha : Averaged w h s.levelSet s.boundary.points) :
    ∃ φ : List ℝ, φ.length = (w + 1) * (h + 1) ∧ Settled w h s.levelSet φ s'.levelSet.signedDistance ∧
      (s'.lambdas.getD 0 0 < 0 → ∀ i, i < (w + 1) * (h + 1) → ¬ s.levelSet.OnDomainEdge i ∨ vals s.levelSet.signedDistance i ≤ 0 →
        vals s.levelSet.signedDistance i ≤ vals φ i) ∧
      (0 < s'.lambdas.getD 0 0 → ∀ i, i < (w + 1) * (h + 1) → vals φ i ≤ vals s.levelSet.signedDistance i) := by
  obtain ⟨L, L0, b0, F⟩ := hs.fits regular_area
  obtain ⟨b, ds, o, o', obj, pts, dt', g, L1, L2, r, L3, A⟩ := advance_ok e
  obtain ⟨a1, a2, a3⟩ := area_points F A
  obtain ⟨-, -, u, -⟩ := C72_uniform hs e
  have u := u hl
  have hpts : s'.boundary.points = pts := by rw [A.boundary]
  rw [hpts] at u
  obtain ⟨v1, v2, φ, S⟩ := A.shift regular_area F hw hh
  have hr := F.reachable
  have hdt : dt' ≠ 0 := by rw [a2]; exact abs_ne_zero.2 hl
  have hdtp : 0 < dt' := by rw [a2]; exact abs_pos.2 hl
  have hin : ∀ p ∈ pts, InDomain w h p.coord := by
    intro p hp
    obtain ⟨i, hi⟩ := List.mem_iff_getElem?.1 hp
    obtain ⟨p0, ps, p, q', -, -, -, -, -, -, -, -, h⟩ := A.points regular_area F hi
    exact h
  have hband := averaged_extend regular_area F A ha fun q hq hf => (u q hq).1 hf
  have hvel : ∀ q ∈ pts, (s'.lambdas.getD 0 0 < 0 → -1 ≤ q.velocity ∧ q.velocity ≤ 0) ∧
      (0 < s'.lambdas.getD 0 0 → 0 ≤ q.velocity ∧ q.velocity ≤ 1) := by
    intro q hq
    obtain ⟨u1, u2, u3⟩ := u q hq
    by_cases hf : q.isFixed = true
    · rw [u1 hf]; norm_num
    · have hf' : q.isFixed = false := by simpa using hf
      by_cases hd : q.isDomain = true
      · have := u3 hf' hd
        constructor <;> intro hc
        · rw [if_pos hc] at this; exact this
        · rw [if_neg (by linarith)] at this; rw [this]; norm_num
      · have := u2 hf' (by simpa using hd)
        rw [this]
        constructor <;> intro hc
        · rw [if_pos hc]; norm_num
        · rw [if_neg (by linarith)]; norm_num
  refine ⟨φ, S.length, S.settled, fun hneg i hi hc => ?_, fun hposv i hi => ?_⟩
  · by_cases hb : i ∈ s.levelSet.band
    · have := (C32_bounds (lo := -1) (hi := 0) hr hin (regular_area.extend _ _ _ _ _ _ _ _ A.extend).2 hband (by norm_num)
        (fun p hp => (hvel p hp).1 hneg) (hr.core.band_free i hb).1 (.inr hb)).2
      rw [← v2] at this
      have hg := S.nonneg i (hr.core.band_free i hb).1
      have hm : dt' * vals s'.levelSet.gradient i * vals s'.levelSet.velocity i ≤ 0 :=
        mul_nonpos_of_nonneg_of_nonpos (mul_nonneg hdtp.le hg) this
      by_cases hlt : s.levelSet.OnDomainEdge i ∧
          0 < vals s.levelSet.signedDistance i - dt' * vals s'.levelSet.gradient i * vals s'.levelSet.velocity i
      · rw [S.capped i hb hlt.1 hlt.2]
        exact hc.resolve_left fun h => h hlt.1
      · rw [S.moved i hb hlt]; linarith
    · rw [S.outside i hb]
  · by_cases hb : i ∈ s.levelSet.band
    · have := (C32_bounds (lo := 0) (hi := 1) hr hin (regular_area.extend _ _ _ _ _ _ _ _ A.extend).2 hband (by norm_num)
        (fun p hp => (hvel p hp).2 hposv) (hr.core.band_free i hb).1 (.inr hb)).1
      rw [← v2] at this
      have hg := S.nonneg i (hr.core.band_free i hb).1
      have hm : 0 ≤ dt' * vals s'.levelSet.gradient i * vals s'.levelSet.velocity i := mul_nonneg (mul_nonneg hdtp.le hg) this
      by_cases hlt : s.levelSet.OnDomainEdge i ∧
          0 < vals s.levelSet.signedDistance i - dt' * vals s'.levelSet.gradient i * vals s'.levelSet.velocity i
      · rw [S.capped i hb hlt.1 hlt.2]; linarith [hlt.2]
      · rw [S.moved i hb hlt]; linarith
    · rw [S.outside i hb]

/-- The hypotheses of `C69_motion`, `C69_multipliers`, `C69_cfl`, `C70_area_partial`, `C72_uniform` and `C72_monotone` are met, with a negative multiplier, by the first iteration
on a domain of 5 × 5 cells divided into stripes. -/
example : ∃ (s s' : State Unit ℝ) (fuel : Nat), Running 5 5 minimiseArea s ∧
    advance minimiseArea (Optimise.cornerSolver false) fuel 0 s = .ok s' ∧ s'.lambdas.getD 0 0 < 0 ∧ 1 / 10 ^ 6 ≤ s.levelSet.moveLimit ∧
    s'.runningTime ≠ s.runningTime ∧ Averaged 5 5 s.levelSet s.boundary.points ∧ s.lambdas.length = 1 ∧
    (∃ p ∈ s.boundary.points, p.isFixed = false ∧ 0 < p.length) ∧ ∃ p ∈ s'.boundary.points, p.isFixed = false ∧ p.isDomain = false := by
  obtain ⟨s, s', fuel, h1, h2, h3, h4, h5, h6, -, h7, h8⟩ := area_demo
  refine ⟨s, s', fuel, h1, h2, h3, by rw [h4]; norm_num, ?_, h5, h6, h7, h8⟩
  rw [(C72_uniform h1 h2).2.1]
  have := abs_pos.2 h3.ne
  intro hc
  linarith

/-! ### C73 -/

section
variable {L : LevelSet ℝ} {c : Coord ℝ}

/-- **C73** (value): the sensitivity that the shape matching program gives to a point of the domain whose closest node is `(x, y)`.  If the point
lies (within 10⁻³) on the node, the difference between target and level set there; otherwise, if the node is not on the edge of the
domain, the average of the differences at the node and its neighbours with weights one over the squared distance; limited to the interval
from -1 to 1.  In the remaining case memory is accessed out of range. -/
theorem C73_value (hr : Reachable w h L) (ht : L.target.length = (w + 1) * (h + 1)) (hin : InDomain w h c) {x y : Nat} (hx : x ≤ w) (hy : y ≤ h)
    (hc : L.mesh.getClosestNode c = .ok (nodeNo w x y)) :
    (sqDist c x y < 1 / 10 ^ 6 → mismatchSensitivity L c = .ok (limited (gap w L x y))) ∧
    (1 / 10 ^ 6 ≤ sqDist c x y → ¬ onEdge w h x y → mismatchSensitivity L c = .ok (limited (starAverage w L c x y))) ∧
    (1 / 10 ^ 6 ≤ sqDist c x y → onEdge w h x y → mismatchSensitivity L c = .error .ub) := by
  have G := hr.core.grid
  have ht' : L.target.length = L.mesh.nNodes := by rw [ht, G.nNodes]
  have far : 1 / 10 ^ 6 ≤ sqDist c x y → ∀ kx ky, kx ≤ w → ky ≤ h → 1 / 10 ^ 6 ≤ sqDist c kx ky := by
    intro hfar kx ky _ _
    obtain ⟨nx, ny, n1, n2, n3, n4⟩ := getClosestNode_real G (fit_of_reachable hr) hin.1 hin.2.1 hin.2.2.1 hin.2.2.2
    rw [hc] at n3
    obtain ⟨rfl, rfl⟩ := (nodeNo_inj hx n1).1 (Except.ok.inj n3)
    have := n4 kx ky
    unfold sqDist at hfar ⊢
    nlinarith
  refine ⟨fun hn => match_node G ht' hr.core.sd hx hy hc hn, fun hf he => (match_loop G ht' hr.core.sd hx hy hc (far hf)).1 he,
    fun hf he => (match_loop G ht' hr.core.sd hx hy hc (far hf)).2 he⟩

/-- **C73** (range): the sensitivity is between -1 and 1, and between any bounds (limited to that interval) of the differences between target
and level set: where the level set matches the target it is zero, where it is everywhere above (below) the target the sensitivity is negative
(positive). -/
theorem C73_range (hr : Reachable w h L) (ht : L.target.length = (w + 1) * (h + 1)) (hin : InDomain w h c) {v : ℝ}
    (e : mismatchSensitivity L c = .ok v) : |v| ≤ 1 ∧
    ∀ lo hi, (∀ x y, x ≤ w → y ≤ h → lo ≤ gap w L x y ∧ gap w L x y ≤ hi) → limited lo ≤ v ∧ v ≤ limited hi := by
  have G := hr.core.grid
  obtain ⟨x, y, hx, hy, hc, n4⟩ := getClosestNode_real G (fit_of_reachable hr) hin.1 hin.2.1 hin.2.2.1 hin.2.2.2
  obtain ⟨v1, v2, v3⟩ := C73_value hr ht hin hx hy hc
  have hlim : ∀ m : ℝ, |limited m| ≤ 1 := by
    intro m
    unfold limited
    exact abs_le.2 ⟨le_max_left _ _, max_le (by norm_num) (min_le_left _ _)⟩
  have hmono : ∀ a b : ℝ, a ≤ b → limited a ≤ limited b := fun a b hab => max_le_max le_rfl (min_le_min le_rfl hab)
  rcases lt_or_ge (sqDist c x y) (1 / 10 ^ 6) with hn | hf
  · rw [v1 hn] at e
    cases e
    exact ⟨hlim _, fun lo hi hb => ⟨hmono _ _ (hb x y hx hy).1, hmono _ _ (hb x y hx hy).2⟩⟩
  · by_cases he : onEdge w h x y
    · rw [v3 hf he] at e; cases e
    · rw [v2 hf he] at e
      cases e
      refine ⟨hlim _, fun lo hi hb => ?_⟩
      have hm : ∀ q ∈ star x y, q.1 ≤ w ∧ q.2 ≤ h := by
        intro q hq
        unfold onEdge at he
        simp only [star, List.mem_cons, List.not_mem_nil, or_false] at hq
        rcases hq with rfl | rfl | rfl | rfl | rfl <;> dsimp only <;> omega
      have := average_bounds (lo := lo) (hi := hi) ((star x y).map fun q => (gap w L q.1 q.2, sqDist c q.1 q.2)) (by simp [star])
        (fun q hq => by
          obtain ⟨k, hk, rfl⟩ := List.mem_map.1 hq
          have h1 := n4 k.1 k.2
          have h0 : (0 : ℝ) < 1 / 10 ^ 6 := by norm_num
          unfold sqDist at hf
          dsimp only
          unfold sqDist
          nlinarith)
        (fun q hq => by
          obtain ⟨k, hk, rfl⟩ := List.mem_map.1 hq
          exact hb k.1 k.2 (hm k hk).1 (hm k hk).2)
      rw [List.map_map, List.map_map] at this
      exact ⟨hmono _ _ this.1, hmono _ _ this.2⟩

/-- All three cases of `C73_value` occur: stripes with values 1/2 and -1/2, for the target 0. -/
example : ∃ L : LevelSet ℝ, Reachable 5 5 L ∧ L.target.length = 36 ∧ (∃ i : Nat, L.target[i]? ≠ L.signedDistance[i]?) ∧
    (∃ c, InDomain 5 5 c ∧ L.mesh.getClosestNode c = .ok (nodeNo 5 2 2) ∧ sqDist c 2 2 < 1 / 10 ^ 6) ∧
    (∃ c, InDomain 5 5 c ∧ L.mesh.getClosestNode c = .ok (nodeNo 5 2 2) ∧ 1 / 10 ^ 6 ≤ sqDist c 2 2 ∧ ¬ onEdge 5 5 2 2) ∧
    ∃ c, InDomain 5 5 c ∧ L.mesh.getClosestNode c = .ok (nodeNo 5 2 0) ∧ 1 / 10 ^ 6 ≤ sqDist c 2 0 ∧ onEdge 5 5 2 0 := by
  obtain ⟨L, hr, hs, -, -, -, ht⟩ := striped_level (1 / 2) (List.replicate 36 0)
  have near : ∀ (c : Coord ℝ) (x y : Nat), InDomain 5 5 c → x ≤ 5 → y ≤ 5 → (c.x - x) ^ 2 + (c.y - y) ^ 2 < 1 / 4 →
      L.mesh.getClosestNode c = .ok (nodeNo 5 x y) := by
    intro c x y hin hx hy hd
    obtain ⟨nx, ny, -, -, n3, n4⟩ := getClosestNode_real hr.core.grid (fit_of_reachable hr) hin.1 hin.2.1 hin.2.2.1 hin.2.2.2
    have h1 := n4 x y
    have unit : ∀ (t : ℝ) (m n : Nat), (t - m) ^ 2 < 1 / 4 → (t - n) ^ 2 < 1 / 4 → m = n := by
      intro t m n hm hn
      have a1 := abs_lt_of_sq_lt_sq (show (t - m) ^ 2 < (1 / 2) ^ 2 by linarith) (by norm_num)
      have a2 := abs_lt_of_sq_lt_sq (show (t - n) ^ 2 < (1 / 2) ^ 2 by linarith) (by norm_num)
      rw [abs_lt] at a1 a2
      have b1 : (m : ℝ) < n + 1 := by linarith
      have b2 : (n : ℝ) < m + 1 := by linarith
      have : m < n + 1 := by exact_mod_cast b1
      have : n < m + 1 := by exact_mod_cast b2
      omega
    have g1 := sq_nonneg (c.x - x)
    have g2 := sq_nonneg (c.y - y)
    have g3 := sq_nonneg (c.x - nx)
    have g4 := sq_nonneg (c.y - ny)
    rw [n3, unit c.x nx x (by linarith) (by linarith), unit c.y ny y (by linarith) (by linarith)]
  refine ⟨L, hr, by rw [ht]; rfl, ⟨nodeNo 5 0 0, ?_⟩, ⟨⟨2, 2⟩, ?_, near _ _ _ ?_ ?_ ?_ ?_, ?_⟩, ⟨⟨23 / 10, 2⟩, ?_, near _ _ _ ?_ ?_ ?_ ?_, ?_⟩,
    ⟨⟨23 / 10, 0⟩, ?_, near _ _ _ ?_ ?_ ?_ ?_, ?_⟩⟩
  · have := hs 0 0 (by norm_num) (by norm_num)
    rw [ht]
    intro hc
    unfold vals at this
    rw [List.getD_eq_getElem?_getD, ← hc] at this
    norm_num [nodeNo, stripe] at this
  all_goals norm_num [InDomain, sqDist, onEdge]

end

/-! ### C74 -/

/-- **C74** (partial: it fails for the shape matching program, see `C74_match_uncorrected`): in the constrained perimeter program the
objective sensitivity of every boundary point is the derivative `κ` of the perimeter with the Ito correction `-T κ / (2 length)`; the sensitivity of
the constraint is -1. -/
theorem C74_constrained_partial {normal : ρ → ℝ × ρ} {T a : ℝ} (hs : Running w h (minimisePerimeterConstrained normal T a) s) :
    ∃ b, (minimisePerimeterConstrained normal T a).assign s.levelSet s.boundary = .ok b ∧
      ∀ (k : Nat) (p : BoundaryPoint ℝ), s.boundary.points[k]? = some p → 0 < p.length → b.points[k]? = some { p with sensitivities :=
        [Sensitivity.curvature (1 / 10000) s.boundary p - T * Sensitivity.curvature (1 / 10000) s.boundary p / (2 * p.length), -1] } := by
  obtain ⟨L, L0, b0, F⟩ := hs.fits (regular_constrained normal T a)
  obtain ⟨b1, h1⟩ := setSensitivity_safe (k := 0) (value := perimeterSensitivity s.boundary) (b := s.boundary) fun p hp =>
    ⟨by rw [(F.fresh hp).1]; simp, perimeter_defined F hp⟩
  have f1 := (setSensitivity_frame h1).2
  obtain ⟨b2, h2⟩ := setSensitivity_safe (k := 1) (value := fun _ => pure (FP.neg (FP.nat 1 : ℝ))) (b := b1) fun p hp =>
    ⟨by
      obtain ⟨q, hq, e⟩ := forall₂_mem' f1 hp
      rw [e.2, (F.fresh hq).1]; simp, _, rfl⟩
  have f2 := (setSensitivity_frame h2).2
  obtain ⟨b, h3, h4⟩ := ito_ok (delta := FP.lit 1 10000) (T := T) (linked_sens (linked_sens F.linked f1) f2)
  refine ⟨b, ?_, fun k p hk _ => ?_⟩
  · change (setSensitivity 0 (perimeterSensitivity s.boundary) s.boundary >>= fun b' => setSensitivity 1 (fun _ => pure (FP.neg (FP.nat 1))) b' >>=
      fun b' => Sensitivity.itoCorrection (FP.lit 1 10000) b' T) = _
    rw [h1]
    simp only [bind, Except.bind]
    rw [h2]
    exact h3
  · have hp := List.mem_of_getElem? hk
    obtain ⟨p1, e1, v, hv, -, g1⟩ := forall₂_get (setSensitivity_ok h1).2 hk
    rw [perimeter_value F hp] at hv
    cases hv
    obtain ⟨p2, e2, v2, hv2, -, g2⟩ := forall₂_get (setSensitivity_ok h2).2 e1
    cases hv2
    obtain ⟨s0, e3, e4⟩ := h4 k p2 e2
    have s1 : SensOnly p p1 := by rw [g1]; exact ⟨rfl, List.length_set⟩
    have s2 : SensOnly p1 p2 := by rw [g2]; exact ⟨rfl, List.length_set⟩
    rw [e4, curvature_sens f2 s2, curvature_sens f1 s1]
    rw [g2, g1, (F.fresh hp).1] at e3 ⊢
    simp at e3 ⊢
    rw [← e3]

/-- The theorem is about a program that exists and a correction that is not zero. -/
example (normal : Unit → ℝ × Unit) (a : ℝ) : ∃ (s : State Unit ℝ) (k : Nat) (p : BoundaryPoint ℝ),
    Running 5 5 (minimisePerimeterConstrained normal 1 a) s ∧ s.boundary.points[k]? = some p ∧ 0 < p.length ∧
    1 * Sensitivity.curvature (1 / 10000) s.boundary p / (2 * p.length) ≠ 0 := by
  obtain ⟨s, k, p, h1, h2, h3, h4⟩ := constrained_demo normal 1 a
  exact ⟨s, k, p, h1, h2, h3, div_ne_zero (mul_ne_zero one_ne_zero h4) (by positivity)⟩

/-- In the shape matching program the points at the top of the loop have no normal vectors. -/
theorem Running.bare {normal : ρ → ℝ × ρ} {T : ℝ} (hs : Running w h (shapeMatch normal T) s) {k : Nat} {p : BoundaryPoint ℝ}
    (hk : s.boundary.points[k]? = some p) : p.normal = ⟨0, 0⟩ := by
  have key : ∀ t s : State ρ ℝ, Reachable w h t.levelSet → refresh (shapeMatch normal T) t = .ok s → s.boundary.points[k]? = some p → p.normal = ⟨0, 0⟩ := by
    intro t s ht e hk
    unfold refresh at e
    rcases hd : Boundary.discretise t.levelSet false with x | ⟨b, L⟩
    · rw [hd] at e; cases e
    · rw [hd] at e
      cases e
      exact (fresh_point (ready_of_reachable ht) hd (List.mem_of_getElem? hk)).2.1
  induction hs with
  | launch hr e => exact key _ _ hr e hk
  | reset _ hr e => exact key _ _ hr e hk
  | annotate _ _ ih => exact ih hk
  | step hs e =>
    obtain ⟨L, L0, b0, F⟩ := hs.fits (regular_match normal T)
    obtain ⟨t, h1, h2⟩ := step_ok e
    obtain ⟨b, ds, o, o', obj, pts, dt', g, L1, L2, r, L3, A⟩ := advance_ok h1
    exact key _ _ (A.reachable (regular_match normal T) F.reachable).2.2.2 h2 hk

/-- **C74** (negation): in the shape matching program the Ito correction has no effect, whatever the temperature: the normal vectors it is
computed along have never been computed and are zero. -/
theorem C74_match_uncorrected {normal : ρ → ℝ × ρ} {T : ℝ} (hs : Running w h (shapeMatch normal T) s) {b : Boundary ℝ}
    (e : (shapeMatch normal T).assign s.levelSet s.boundary = .ok b) {k : Nat} {p : BoundaryPoint ℝ} (hk : s.boundary.points[k]? = some p)
    (hl : 0 < p.length) : p.normal = ⟨0, 0⟩ ∧ ∃ v, mismatchSensitivity s.levelSet p.coord = .ok v ∧
      b.points[k]? = some { p with sensitivities := [v, 0] } := by
  obtain ⟨L, L0, b0, F⟩ := hs.fits (regular_match normal T)
  have hn := hs.bare hk
  refine ⟨hn, ?_⟩
  change (setSensitivity 0 (fun p => mismatchSensitivity s.levelSet p.coord) s.boundary >>= fun b' =>
    Sensitivity.itoCorrection (FP.lit 1 10000) b' T) = _ at e
  rcases h1 : setSensitivity 0 (fun p => mismatchSensitivity s.levelSet p.coord) s.boundary with x | b1
  · rw [h1] at e; cases e
  rw [h1] at e
  have f1 := (setSensitivity_frame h1).2
  obtain ⟨b', h3, h4⟩ := ito_ok (delta := FP.lit 1 10000) (T := T) (linked_sens F.linked f1)
  have : b' = b := Except.ok.inj (h3.symm.trans e)
  subst this
  obtain ⟨p1, e1, v, hv, -, g1⟩ := forall₂_get (setSensitivity_ok h1).2 hk
  refine ⟨v, hv, ?_⟩
  obtain ⟨s0, e3, e4⟩ := h4 k p1 e1
  rw [e4, curvature_zero (by rw [g1]; exact hn), mul_zero, zero_div, sub_zero]
  rw [g1, (F.fresh (List.mem_of_getElem? hk)).1] at e3 ⊢
  simp at e3 ⊢
  rw [← e3]

/-- The hypotheses of `C74_match_uncorrected` are met. -/
example (normal : Unit → ℝ × Unit) : ∃ (s : State Unit ℝ) (b : Boundary ℝ) (k : Nat) (p : BoundaryPoint ℝ), Running 5 5 (shapeMatch normal 1) s ∧
    (shapeMatch normal 1).assign s.levelSet s.boundary = .ok b ∧ s.boundary.points[k]? = some p ∧ 0 < p.length := match_demo normal 1

/-! ### Hypotheses of `C41_reinitialised_partial` -/

/-- Stripes are reinitialised without a change of sides, and are tidy. -/
example : ∃ L L' : LevelSet ℝ, Reachable 5 5 L ∧ L.isFixedDomain = false ∧ reinitialise L = .ok L' ∧
    (∀ i, i < L.mesh.nNodes → SameSide (vals L.signedDistance i) (vals L'.signedDistance i)) ∧
    ∃ b L2, Boundary.discretise L' false = .ok (b, L2) ∧ b.points ≠ [] := by
  have ha : Mid (1 / 4) := ⟨by norm_num, by norm_num⟩
  obtain ⟨L, hr, hf, hml, hfix, hm, -⟩ := striped_level (1 / 4) []
  obtain ⟨L1, e1, hf1, hB, hfix1, hml1, hm1, -⟩ := striped_reinitialise ha hr hf hfix hm
  have hr1 : Reachable 5 5 L1 := .call hr (.reinitialise e1)
  have T := striped_tame ha hr1 hf1 hB hfix1
  obtain ⟨b, L2, e2⟩ := C41_safe_partial T
  obtain ⟨-, ⟨p, hp, -⟩, -⟩ := striped_boundary ha T hf1 hm1 (hml1.trans hml) e2
  refine ⟨L, L1, hr, hfix, e1, fun i hi => ?_, b, L2, e2, List.ne_nil_of_mem hp⟩
  obtain ⟨x, y, hx, hy, rfl⟩ := hr.core.grid.node_index hi
  rw [hf x y hx hy, hf1 x y hx hy]
  unfold SameSide stripe
  split <;> norm_num

end Slsm.Program
