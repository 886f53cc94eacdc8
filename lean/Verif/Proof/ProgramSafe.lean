import Verif.Proof.Program

/-! # Programs: no undefined behaviour -/

namespace Slsm.Program

open LevelSet

variable {ρ : Type} {P : Problem ρ ℝ} {s s' : State ρ ℝ} {w h : Nat}

theorem Clean.bind {α β : Type} {r : Res α} {f : α → Res β} (h : Clean r) (hf : ∀ a, r = .ok a → Clean (f a)) : Clean (r >>= f) := by
  rcases h with ⟨a, h⟩ | h
  · rw [h]; exact hf a h
  · rw [h]; exact .inr rfl

theorem clean_periodic {r : Bool} {n : Nat} {L : LevelSet ℝ} (hr : Reachable w h L) : Clean (periodic r n L) := by
  unfold periodic
  split
  · exact .inl ⟨_, rfl⟩
  · split
    · refine Clean.bind ?_ fun a _ => .inl ⟨_, rfl⟩
      rcases C27_reinitialise hr with ⟨L', F, e, -⟩ | ⟨e, -⟩
      · exact .inl ⟨_, e⟩
      · exact .inr e
    · exact .inl ⟨_, rfl⟩

theorem guarded_plain {points : List (BoundaryPoint ℝ)} {dt : ℝ} {g : ρ} {L : LevelSet ℝ} (hr : Reachable w h L)
    (hp : ∀ p ∈ points, InDomain w h p.coord) : Clean (plain points dt g L) :=
  Clean.bind (C32_safe hr hp) fun _ _ => .inl ⟨_, rfl⟩

theorem guarded_noisy {normal : ρ → ℝ × ρ} {T : ℝ} {points : List (BoundaryPoint ℝ)} {dt : ℝ} {g : ρ} {L : LevelSet ℝ} (hr : Reachable w h L)
    (hp : ∀ p ∈ points, InDomain w h p.coord) : Clean (noisy normal T points dt g L) := by
  refine Clean.bind ?_ fun _ _ => .inl ⟨_, rfl⟩
  unfold computeVelocitiesNoise
  refine Clean.bind (C32_safe hr ?_) fun _ _ => .inl ⟨_, rfl⟩
  intro p hp'
  obtain ⟨q, hq, e⟩ := forall₂_mem' (addNoise_frame normal _ points g) hp'
  rw [e]
  exact hp q hq

theorem fresh_point {L L' : LevelSet ℝ} {isTarget : Bool} {b : Boundary ℝ} (R : Boundary.Ready w h L isTarget)
    (e : Boundary.discretise L isTarget = .ok (b, L')) {p : BoundaryPoint ℝ} (hp : p ∈ b.points) :
    p.sensitivities = [0, 0] ∧ p.normal = ⟨0, 0⟩ ∧ p.velocity = 0 ∧ p.positiveLimit = L.moveLimit := by
  obtain ⟨k, hk⟩ := List.mem_iff_getElem?.1 hp
  obtain ⟨q, -, -, p0, h0, hl⟩ := (Boundary.made R e).point hk
  have : p0.sensitivities = [0, 0] ∧ p0.normal = ⟨0, 0⟩ ∧ p0.velocity = 0 ∧ p0.positiveLimit = L.moveLimit := by
    unfold Boundary.initialisePoint at h0
    cases h2 : L.mesh.getClosestNode (q.coord (onGrid w (Boundary.values L isTarget))) with
    | error x => rw [h2] at h0; cases h0
    | ok node =>
      rw [h2] at h0
      simp only [bind, Except.bind] at h0
      cases h3 : rd L.mesh.nodes node with
      | error x => rw [h3] at h0; cases h0
      | ok nd =>
        rw [h3] at h0
        cases h0
        simp [Boundary.emptyPoint]
  rw [hl.eq]
  exact this

section
variable {L L0 : LevelSet ℝ} {b0 : Boundary ℝ}

theorem Fits.fresh (F : Fits w h s L L0 b0) {p : BoundaryPoint ℝ} (hp : p ∈ s.boundary.points) :
    p.sensitivities = [0, 0] ∧ p.velocity = 0 ∧ 0 ≤ p.length ∧ InDomain w h p.coord := by
  obtain ⟨q, hq, e⟩ := forall₂_mem' F.normals hp
  have R := ready_of_reachable F.reach
  obtain ⟨h1, -, h2, -⟩ := fresh_point R F.disc hq
  have h3 := ((C40_point_lengths R F.disc).2 q hq).2
  obtain ⟨-, i1, i2, i3, i4, -⟩ := C37_points_on_contour R F.disc hq
  rw [e]
  exact ⟨h1, h2, h3, i1, i2, i3, i4⟩

theorem Fits.linked (F : Fits w h s L L0 b0) : Sensitivity.Linked s.boundary := by
  have H := Sensitivity.linked_of_discretise (ready_of_reachable F.reach) F.disc
  have hl := F.normals.length_eq
  refine ⟨fun p hp => ?_, fun p hp j hj => ?_, fun p hp => ?_⟩
  all_goals obtain ⟨q, hq, e⟩ := forall₂_mem' F.normals hp
  · rw [e]; exact H.size q hq
  · rw [← hl]; rw [e] at hj; exact H.inside q hq j hj
  · rw [e]; exact H.sens q hq

/-- The iteration, if the optimiser accepts its arguments. -/
theorem advance_clean (hP : Regular P) (hG : Guarded w h P) (F : Fits w h s L L0 b0) (hw : 4 ≤ w) (hh : 4 ≤ h)
    {nlopt : Optimise ℝ → NLoptRun ℝ} {dt : ℝ} {b : Boundary ℝ} (ha : P.assign s.levelSet s.boundary = .ok b)
    {ds : List ℝ} (hds : P.distances s.levelSet = .ok ds)
    (V : Optimise.ValidInput b.points ds s.lambdas s.levelSet.moveLimit [])
    (hc : ∀ t, ∃ c, (nlopt t).result = .code c)
    (hd : ds.length ≤ 1 ∨ ∀ m, m < ds.length → ∃ d, ds[m]? = some d ∧ d < 0) :
    ∃ N, ∀ fuel, N ≤ fuel → Clean (advance P nlopt fuel dt s) ∧ ∃ o r, Optimise.new b.points ds s.lambdas dt
      s.levelSet.moveLimit false [] = .ok o ∧ o.solve nlopt fuel = .ok r := by
  have hl := V.lambdas
  have hfew := V.few
  obtain ⟨o, ho⟩ := (Optimise.new_iff (pts := b.points) (distances := ds) (lambdas := s.lambdas) (limit := s.levelSet.moveLimit)
    (dt := dt) (isMax := false) (equality := []) (by omega) (by omega)).2 ⟨V.limit.1, V.limit.2, V.points, V.lambdas⟩
  obtain ⟨N, hN⟩ := Optimise.C52_safe_partial V ho hc (hd.imp id fun h m hm => .inr (h m hm))
  refine ⟨N, fun fuel hf => ?_⟩
  obtain ⟨x, hx⟩ := hN fuel hf
  refine ⟨?_, o, x, ho, hx⟩
  unfold advance
  rw [ha]
  simp only [bind, Except.bind]
  rw [hds]
  dsimp only
  rw [ho]
  dsimp only
  rw [hx]
  obtain ⟨o', obj⟩ := x
  dsimp only
  have hr := F.reachable
  have hin : ∀ p ∈ o'.points, InDomain w h p.coord := by
    intro q hq
    obtain ⟨i, hi⟩ := List.mem_iff_getElem?.1 hq
    obtain ⟨-, -, c3, c4⟩ := Optimise.C48_consistent (.made ho) hx
    have hi' : i < o.points.length := by rw [← c3]; exact (List.getElem?_eq_some_iff.1 hi).1
    obtain ⟨q'', d1, d2, -⟩ := c4 i o.points[i] (List.getElem?_eq_getElem hi')
    rw [hi] at d1
    cases d1
    have hob : o.points = b.points := by
      obtain ⟨-, -, h⟩ := Optimise.new_val ho
      rw [h]; rfl
    have hm : o.points[i] ∈ b.points := by rw [← hob]; exact List.getElem_mem hi'
    obtain ⟨ps, e1, e2⟩ := forall₂_mem' (hP.assign _ _ _ ha).2 hm
    rw [d2, e2.1]
    exact (F.fresh e1).2.2.2
  refine Clean.bind (hG _ _ _ _ hr hin) fun x hx' => ?_
  obtain ⟨pts, dt', g, L1⟩ := x
  have r1 : Reachable w h L1 := .call hr (.velocities _ (hP.extend _ _ _ _ _ _ _ _ hx').2)
  refine Clean.bind (r := L1.computeGradients) ?_ fun L2 h2 => ?_
  · obtain ⟨L2, g1, -⟩ := C34_safe r1 hw hh
    exact .inl ⟨_, g1⟩
  have r2 : Reachable w h L2 := .call r1 (.gradients h2)
  refine Clean.bind (r := L2.update dt') ?_ fun x h3 => ?_
  · rcases C29_update_safe r2 dt' with ⟨b, L', e⟩ | ⟨e, -⟩
    · exact .inl ⟨_, e⟩
    · exact .inr e
  obtain ⟨r, L3⟩ := x
  exact Clean.bind (clean_periodic (.call r2 (.update _ _ h3))) fun _ _ => .inl ⟨_, rfl⟩

theorem perimeter_defined (F : Fits w h s L L0 b0) {p : BoundaryPoint ℝ} (hp : p ∈ s.boundary.points) :
    ∃ c, perimeterSensitivity s.boundary p = .ok c := by
  have H := F.linked
  have := (Sensitivity.C54_restores (FP.lit 1 10000) p s.boundary.computePerimeter).1 _ _ (Sensitivity.perimeter_real H hp _)
    (Sensitivity.perimeter_real H hp _)
  unfold perimeterSensitivity
  rw [this]
  exact ⟨_, rfl⟩

theorem perimeter_value (F : Fits w h s L L0 b0) {p : BoundaryPoint ℝ} (hp : p ∈ s.boundary.points) :
    perimeterSensitivity s.boundary p = .ok (Sensitivity.curvature (1 / 10000) s.boundary p) := by
  have H := F.linked
  have := (Sensitivity.C54_restores (FP.lit 1 10000) p s.boundary.computePerimeter).1 _ _ (Sensitivity.perimeter_real H hp _)
    (Sensitivity.perimeter_real H hp _)
  unfold perimeterSensitivity
  rw [this]
  refine congrArg Except.ok ?_
  unfold Sensitivity.curvature Sensitivity.displaced
  simp only [FP.sub_real, FP.add_real, FP.mul_real, FP.div_real, FP.nat_real, FP.lit_real, Nat.cast_ofNat, Nat.cast_one, neg_mul, ← sub_eq_add_neg]

theorem noisy_time {normal : ρ → ℝ × ρ} {T : ℝ} {points points' : List (BoundaryPoint ℝ)} {dt dt' : ℝ} {g g' : ρ} {L L' : LevelSet ℝ}
    (hm : 0 < L.moveLimit) (hdt : 0 ≤ dt) (hT : 0 ≤ T) (e : noisy normal T points dt g L = .ok (points', dt', g', L')) : 0 ≤ dt' := by
  unfold noisy at e
  rcases h : computeVelocitiesNoise normal points dt T g L with x | ⟨p1, d1, sc, g1, L1⟩
  · rw [h] at e; cases e
  rw [h] at e
  cases e
  have hst := (C33_noise h).1
  rcases hdt.eq_or_lt with h0 | h0
  · subst h0
    unfold thermalStep at hst
    simp only [FP.lt_real, FP.mul_real, FP.lit_real, FP.sqrt_real, FP.nat_real, FP.div_real, Real.sqrt_zero, mul_zero] at hst
    rw [if_neg (by simp; positivity)] at hst
    cases hst
    exact le_rfl
  · exact (C33_time_step hm h0 hT hst).1.le

theorem Running.counter (hP : Regular P) (hs : Running w h P s) : s.nReinit ≤ 20 := by
  induction hs with
  | launch hr e =>
    obtain ⟨-, -, -, -, -, -, u7⟩ := refresh_levelSet hP (by exact hr) e
    rw [u7]
    exact Nat.zero_le _
  | reset _ hr e =>
    obtain ⟨-, -, -, -, -, -, u7⟩ := refresh_levelSet hP (by exact hr) e
    rw [u7]
    exact Nat.zero_le _
  | annotate _ _ ih => exact ih
  | step hs e ih =>
    obtain ⟨L, L0, b0, F⟩ := hs.fits hP
    obtain ⟨t, h1, h2⟩ := step_ok e
    obtain ⟨b, ds, o, o', obj, pts, dt', g, L1, L2, r, L3, A⟩ := advance_ok h1
    obtain ⟨-, -, -, -, -, -, u7⟩ := refresh_levelSet hP (A.reachable hP F.reachable).2.2.2 h2
    rw [u7]
    rcases periodic_ok A.periodic with ⟨-, -, h⟩ | ⟨-, -, -, h⟩ | ⟨-, hn, -, h⟩ <;> omega

/-- Either the level set has just been reinitialised or the counter goes up. -/
theorem settled_fresh {L2 L3 L4 : LevelSet ℝ} {dt : ℝ} {r : Bool} {n n' : Nat} (hr : Reachable w h L2) (e : L2.update dt = .ok (r, L3))
    (e' : periodic r n L3 = .ok (L4, n')) : (BandOk L4 ∧ ∃ (m : Mesh ℝ) (φ : List ℝ) (F : FMM ℝ), IsGrid w h m ∧
      FMM.marchDistance m φ (FMM.new m false) = .ok F ∧ L4.signedDistance = F.sd) ∨ (n' = n + 1 ∧ n ≠ 20) := by
  have hr3 : Reachable w h L3 := .call hr (.update _ _ e)
  rcases periodic_ok e' with ⟨h0, h1, -⟩ | ⟨-, -, h1, -⟩ | ⟨-, hn, -, h1⟩
  · subst h0 h1
    obtain ⟨φ, -, -, -, hf, -⟩ := C29_update_effect hr e
    obtain ⟨B, m, F, g1, -, g2, g3⟩ := hf rfl
    exact .inl ⟨B, m, φ, F, g1, g2, g3⟩
  · obtain ⟨W, B, F, hF, -, hB⟩ := wp_of_ok (reinitialise_spec hr3.core.toWF hr3.core.small) h1
    exact .inl ⟨B, L3.mesh, L3.signedDistance, F, hr3.core.grid, hF, by rw [hB.frame]⟩
  · exact .inr ⟨h1, hn⟩

theorem real_limit {L : LevelSet ℝ} (hr : Reachable w h L) : 0 < L.moveLimit ∧ L.moveLimit < 1 := by
  obtain ⟨-, h1, h2⟩ := reachable_params hr
  simpa using And.intro h1 h2

/-- Arguments of the optimiser in a program without constraints. -/
theorem valid_single {b : Boundary ℝ} (F : Fits w h s L L0 b0) (hb : List.Forall₂ SensOnly s.boundary.points b.points)
    (hl : s.lambdas.length = 1) (hex : ∃ p ∈ b.points, p.isFixed = false ∧ p.sensitivities.getD 0 0 ≠ 0 ∧ 0 < p.length) :
    Optimise.ValidInput b.points [] s.lambdas s.levelSet.moveLimit [] := by
  refine ⟨real_limit F.reachable, ?_, by simpa using hl, .inl rfl, by simp, fun p hp _ => ?_, fun k hk => ⟨fun p hp => ?_, ?_⟩⟩
  · obtain ⟨p, hp, -⟩ := hex; exact List.ne_nil_of_mem hp
  · obtain ⟨q, hq, e⟩ := forall₂_mem' hb hp
    rw [e.2, (F.fresh hq).1]; simp
  · obtain ⟨q, hq, e⟩ := forall₂_mem' hb hp
    rw [e.1]; exact (F.fresh hq).2.2.1
  · have : k = 0 := by simpa using hk
    subst this
    exact hex

/-- The condition of `C32_bounds` for the points that the velocities are taken from. -/
theorem averaged_extend (hP : Regular P) (F : Fits w h s L L0 b0) {nlopt : Optimise ℝ → NLoptRun ℝ} {fuel : Nat} {dt : ℝ} {b : Boundary ℝ}
    {o o' : Optimise ℝ} {obj : ℝ} {pts : List (BoundaryPoint ℝ)} {dt' : ℝ} {g : ρ} {L1 L2 : LevelSet ℝ} {r : Bool} {L3 : LevelSet ℝ}
    (A : Advanced P nlopt fuel dt s s' b ds o o' obj pts dt' g L1 L2 r L3) (ha : Averaged w h s.levelSet s.boundary.points)
    (hfix : ∀ q ∈ pts, q.isFixed = true → q.velocity = 0) :
    ∀ x y, x ≤ w → y ≤ h → OnInterface w h (vals s.levelSet.signedDistance) (nodeNo w x y) → nodeNo w x y ∈ s.levelSet.band ∨
      (∃ p ∈ pts, SitsOn w h s.levelSet.mesh p x y) ∨ ∀ p ∈ pts, Feeds w h s.levelSet.mesh p x y → p.velocity = 0 := by
  intro x y hx hy ho
  rcases ha x y hx hy ho with h | ⟨p, hp, hp'⟩ | h
  · exact .inl h
  · refine .inr (.inl ?_)
    obtain ⟨k, hk⟩ := List.mem_iff_getElem?.1 hp
    have hk' : k < pts.length := by
      have l1 := (hP.assign _ _ _ A.assign).2.length_eq
      have l2 := (Optimise.C48_consistent (.made A.new) A.solve).2.2.1
      have l3 : o.points = b.points := by
        obtain ⟨-, -, h⟩ := Optimise.new_val A.new
        rw [h]; rfl
      have l4 := (hP.extend _ _ _ _ _ _ _ _ A.extend).1.length_eq
      rw [← l4, l2, l3, ← l1]
      exact (List.getElem?_eq_some_iff.1 hk).1
    obtain ⟨p0, ps, p1, q', k1, k2, k3, k4, k5, k6, k7, k8, -⟩ := A.points hP F (List.getElem?_eq_getElem hk')
    rw [hk] at k2
    cases k2
    refine ⟨_, List.getElem_mem hk', ?_⟩
    have hc : (pts[k]).coord = p.coord := by rw [k8, k7, k6.1]
    unfold SitsOn Feeds sqFrom at hp' ⊢
    rw [hc]
    exact hp'
  · refine .inr (.inr fun q hq hfe => ?_)
    obtain ⟨k, hk⟩ := List.mem_iff_getElem?.1 hq
    obtain ⟨p0, ps, p1, q', k1, k2, k3, k4, k5, k6, k7, k8, -⟩ := A.points hP F hk
    have hc : q.coord = ps.coord := by rw [k8, k7, k6.1]
    have hfx := h ps (List.mem_of_getElem? k2) (by unfold Feeds sqFrom at hfe ⊢; rw [← hc]; exact hfe)
    exact hfix q hq (by rw [k8, k7, k6.1]; exact hfx)

theorem linked_sens {b b' : Boundary ℝ} (H : Sensitivity.Linked b) (hs : List.Forall₂ SensOnly b.points b'.points) : Sensitivity.Linked b' := by
  have hl := hs.length_eq
  refine ⟨fun p hp => ?_, fun p hp j hj => ?_, fun p hp => ?_⟩
  all_goals obtain ⟨q, hq, e⟩ := forall₂_mem' hs hp
  · rw [e.1]; exact H.size q hq
  · rw [← hl]; rw [e.1] at hj; exact H.inside q hq j hj
  · have := H.sens q hq
    have he := e.2
    intro h0
    rw [h0] at he
    exact this (List.length_eq_zero_iff.1 he.symm)

theorem curvature_sens {b b' : Boundary ℝ} {delta : ℝ} {p p' : BoundaryPoint ℝ} (hs : List.Forall₂ SensOnly b.points b'.points)
    (hp : SensOnly p p') : Sensitivity.curvature delta b' p' = Sensitivity.curvature delta b p := by
  have per : ∀ nbrs c, Sensitivity.perimeterAt b' nbrs c = Sensitivity.perimeterAt b nbrs c := by
    intro nbrs c
    unfold Sensitivity.perimeterAt
    congr 1
    refine List.map_congr_left fun j _ => ?_
    cases hj : b'.points[j]? with
    | none =>
      have : b.points[j]? = none := by
        rw [List.getElem?_eq_none_iff] at hj ⊢
        rw [hs.length_eq]; exact hj
      rw [this]
    | some q =>
      obtain ⟨q', e1, e2⟩ := forall₂_get' hs hj
      rw [e1, e2.1]
      rfl
  unfold Sensitivity.curvature
  simp only [per]
  rw [hp.1]
  rfl

/-- The Ito correction, for any temperature. -/
theorem ito_ok {b : Boundary ℝ} {delta T : ℝ} (H : Sensitivity.Linked b) : ∃ b', Sensitivity.itoCorrection delta b T = .ok b' ∧
    ∀ (k : Nat) (p : BoundaryPoint ℝ), b.points[k]? = some p → ∃ s0, p.sensitivities[0]? = some s0 ∧
      b'.points[k]? = some { p with sensitivities := p.sensitivities.set 0 (s0 - T * Sensitivity.curvature delta b p / (2 * p.length)) } := by
  by_cases hT : T = 0
  · refine ⟨b, (by unfold Sensitivity.itoCorrection; rw [if_pos (by simp [hT])]; rfl), fun k p hk => ?_⟩
    have h0 : 0 < p.sensitivities.length := List.length_pos_of_ne_nil (H.sens p (List.mem_of_getElem? hk))
    refine ⟨p.sensitivities[0], List.getElem?_eq_getElem h0, ?_⟩
    rw [hT, zero_mul, zero_div, sub_zero, List.set_getElem_self]
    exact hk
  · obtain ⟨b', h1, -, -, h2⟩ := Sensitivity.C55_formula (delta := delta) H hT
    exact ⟨b', h1, h2⟩

theorem curvature_zero {b : Boundary ℝ} {delta : ℝ} {p : BoundaryPoint ℝ} (hp : p.normal = ⟨0, 0⟩) : Sensitivity.curvature delta b p = 0 :=
  Sensitivity.C55_flat fun j _ q _ => by rw [hp]; simp

end

end Slsm.Program
