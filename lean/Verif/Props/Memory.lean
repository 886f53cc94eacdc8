import Verif.Proof.Memory
import Verif.Proof.Scaling
import Verif.Props.Motion

/-! # Property C86: only the boundary counts -/

namespace Slsm

open LevelSet

section
variable {w h : Nat} {L : LevelSet ℝ} {φ : List ℝ}

/-- **C86** (reinitialisation, partial): if the values away from the boundary are replaced by others on the same side, reinitialisation gives the same level set, narrow band and
mines, or the same error, except when a node comes up whose discrete Eikonal equation has not two solutions.  Missing: those nodes, which keep part of their old value
(`C86_old_value_kept`), and values inside not above the machine epsilon (`C17_side_can_change`). -/
theorem C86_reinitialise_partial (hr : Reachable w h L) (hφ : φ.length = L.mesh.nNodes) (B : SameBoundary w h (vals L.signedDistance) (vals φ)) :
    reinitialise { L with signedDistance := φ } = reinitialise L ∨ Unsolvable w h L.mesh (vals L.signedDistance) false fun _ => True := by
  by_cases hu : Unsolvable w h L.mesh (vals L.signedDistance) false fun _ => True
  · exact .inr hu
  left
  have G := hr.core.grid
  rw [← adm_false (m := L.mesh)] at hu
  have hb := FMM.sm_marchDistance G hr.core.sd hφ B false hu
  unfold reinitialise
  dsimp only
  cases e1 : FMM.marchDistance L.mesh L.signedDistance (FMM.new L.mesh false) with
  | error x =>
    cases e2 : FMM.marchDistance L.mesh φ (FMM.new L.mesh false) with
    | error y => rw [e1, e2] at hb; cases (show x = y from hb); rfl
    | ok F' => rw [e1, e2] at hb; exact hb.elim
  | ok F =>
    cases e2 : FMM.marchDistance L.mesh φ (FMM.new L.mesh false) with
    | error y => rw [e1, e2] at hb; exact hb.elim
    | ok F' =>
      rw [e1, e2] at hb
      have S : FMM.Sm F F' := hb
      have M := marched G hr.core.sd e1
      have hsd : F'.sd = F.sd := by
        refine FMM.list_eq_of_getD S.ld (FP.nat 0) fun i hi => S.sd i ?_
        rw [M.L.d] at hi
        obtain ⟨_, _, _, _, _, hall⟩ := C15_every_node_once G hr.core.sd e1
        have := (hall i hi).2.2.1
        rw [status_get M.L hi] at this
        rw [Option.some.inj this]
        simp
      change initialiseNarrowBand { L with signedDistance := F'.sd } = initialiseNarrowBand { L with signedDistance := F.sd }
      rw [hsd]

/-- **C86** (velocities, partial): likewise for the velocities of the nodes.  Missing: as above. -/
theorem C86_velocities_partial (hr : Reachable w h L) (hφ : φ.length = L.mesh.nNodes) (B : SameBoundary w h (vals L.signedDistance) (vals φ))
    (points : List (BoundaryPoint ℝ)) :
    computeVelocities points { L with signedDistance := φ } = (computeVelocities points L).map (fun L' => { L' with signedDistance := φ }) ∨
      Unsolvable w h L.mesh (vals L.signedDistance) true (Active L.mesh) := by
  by_cases hu : Unsolvable w h L.mesh (vals L.signedDistance) true (Active L.mesh)
  · exact .inr hu
  left
  have G := hr.core.grid
  rw [← adm_true (m := L.mesh)] at hu
  have h1 : initialiseVelocities points { L with signedDistance := φ } = (initialiseVelocities points L).map fun L' => { L' with signedDistance := φ } := by
    unfold initialiseVelocities
    simp only [map_bind']
    rfl
  unfold computeVelocities
  rw [h1, bind_map', map_bind']
  cases e : initialiseVelocities points L with
  | error x => rfl
  | ok L1 =>
    have hL : L1.mesh = L.mesh ∧ L1.signedDistance = L.signedDistance ∧ L1.velocity.length = L.mesh.nNodes := by
      obtain ⟨h2, h3⟩ := wp_of_ok (initialiseVelocities_len points L) e
      exact ⟨by rw [h2], by rw [h2], h3.trans hr.core.velocity⟩
    rw [← hL.2.1, ← hL.1] at hu
    rw [← hL.2.1] at B
    rw [← hL.1] at hφ
    have hb := FMM.sm_marchVelocity (by rw [hL.1]; exact G) (by rw [hL.2.1, hL.1]; exact hr.core.sd) hφ (by rw [hL.2.2, hL.1]) B false hu
    change (FMM.marchVelocity L1.mesh φ L1.velocity (FMM.new L1.mesh false) >>= _) = (FMM.marchVelocity L1.mesh L1.signedDistance L1.velocity (FMM.new L1.mesh false) >>= _).map _
    cases e1 : FMM.marchVelocity L1.mesh L1.signedDistance L1.velocity (FMM.new L1.mesh false) with
    | error x =>
      cases e2 : FMM.marchVelocity L1.mesh φ L1.velocity (FMM.new L1.mesh false) with
      | error y => rw [e1, e2] at hb; cases (show x = y from hb); rfl
      | ok F' => rw [e1, e2] at hb; exact hb.elim
    | ok F =>
      cases e2 : FMM.marchVelocity L1.mesh φ L1.velocity (FMM.new L1.mesh false) with
      | error y => rw [e1, e2] at hb; exact hb.elim
      | ok F' =>
        rw [e1, e2] at hb
        have S : F'.vel = F.vel := hb
        have h2 := (C18_no_side_effects (by rw [hL.1]; exact G) hφ (by rw [hL.2.2, hL.1]) e2).1
        refine congrArg Except.ok ?_
        change ({ L1 with signedDistance := F'.sd, velocity := F'.vel } : LevelSet ℝ) = { L1 with signedDistance := φ, velocity := F.vel }
        rw [h2, S]

/-- **C86** (boundary): on and next to the boundary the result never depends on the values away from it: it is the distance along the axes. -/
theorem C86_boundary_partial (hr : Reachable w h L) (hφ : φ.length = L.mesh.nNodes) (B : SameBoundary w h (vals L.signedDistance) (vals φ)) :
    (reinitialise L = .error .exit ∧ reinitialise { L with signedDistance := φ } = .error .exit) ∨
    ∃ L1 L2, reinitialise L = .ok L1 ∧ reinitialise { L with signedDistance := φ } = .ok L2 ∧
      ∀ i, i < (w + 1) * (h + 1) → OnInterface w h (vals L.signedDistance) i →
        vals L1.signedDistance i = boundaryDistance w h (vals L.signedDistance) i ∧ vals L2.signedDistance i = vals L1.signedDistance i := by
  have G := hr.core.grid
  have hr' : Reachable w h { L with signedDistance := φ } :=
    .call hr (.assign φ L.velocity L.gradient L.target hφ hr.core.velocity hr.core.gradient)
  have hint : HasInterface w h (vals φ) ↔ HasInterface w h (vals L.signedDistance) := exists_congr fun i => and_congr_right fun hi => B.mem hi
  have s1 := reinitialise_spec hr.core.toWF hr.core.small
  have s2 := reinitialise_spec hr'.core.toWF hr'.core.small
  have x1 := C14_exit_iff G _ hr.core.sd false (.inl rfl)
  have x2 := C14_exit_iff G _ hφ false (.inl rfl)
  cases e1 : reinitialise L with
  | error x =>
    rw [e1, wp_error] at s1
    rw [s1.1]
    cases e2 : reinitialise { L with signedDistance := φ } with
    | error y =>
      rw [e2, wp_error] at s2
      rw [s2.1]
      exact .inl ⟨rfl, rfl⟩
    | ok L2 =>
      rw [e2, wp_ok] at s2
      obtain ⟨-, -, F, hF, -⟩ := s2
      have := x2.2 (mt hint.1 (x1.1 s1.2))
      change FMM.marchDistance L.mesh φ _ = _ at hF
      rw [hF] at this
      cases this
  | ok L1 =>
    rw [e1, wp_ok] at s1
    obtain ⟨-, -, F, hF, -, hB⟩ := s1
    cases e2 : reinitialise { L with signedDistance := φ } with
    | error y =>
      rw [e2, wp_error] at s2
      have h3 : FMM.marchDistance L.mesh φ _ = _ := s2.2
      have := x1.2 (mt hint.2 (x2.1 h3))
      rw [hF] at this
      cases this
    | ok L2 =>
      rw [e2, wp_ok] at s2
      obtain ⟨-, -, F2, hF2, -, hB2⟩ := s2
      refine .inr ⟨L1, L2, rfl, rfl, fun i hi ho => ?_⟩
      have hi' : i < L.mesh.nNodes := by rw [G.nNodes]; exact hi
      have v1 : vals L1.signedDistance i = boundaryDistance w h (vals L.signedDistance) i := by
        rw [hB.frame]
        exact (interface_value G hr.core.sd hF hi' ho).trans (FMM.initSd_boundary G _ hi' ho)
      refine ⟨v1, ?_⟩
      rw [v1, hB2.frame, ← B.distance hi ho]
      exact (interface_value G hφ hF2 hi' ((B.mem hi).2 ho)).trans (FMM.initSd_boundary G _ hi' ((B.mem hi).2 ho))

theorem stuck_adj : (∀ n, HAdj 2 1 3 n ↔ n = 4) ∧ (∀ n, HAdj 2 1 4 n ↔ n = 3 ∨ n = 5) ∧ (∀ n, Adj 2 1 5 n ↔ n = 4 ∨ n = 2) ∧
    (∀ n, VAdj 2 1 3 n ↔ n = 0) ∧ ∀ n, VAdj 2 1 4 n ↔ n = 1 := by
  unfold Adj HAdj VAdj nodeNo
  refine ⟨fun n => ⟨?_, ?_⟩, fun n => ⟨?_, ?_⟩, fun n => ⟨?_, ?_⟩, fun n => ⟨?_, ?_⟩, fun n => ⟨?_, ?_⟩⟩
  · rintro ⟨x, x', y, h1, h2, h3, h4, h5, h6⟩; omega
  · rintro rfl; exact ⟨0, 1, 1, by omega⟩
  · rintro ⟨x, x', y, h1, h2, h3, h4, h5, h6⟩; omega
  · rintro (rfl | rfl)
    · exact ⟨1, 0, 1, by omega⟩
    · exact ⟨1, 2, 1, by omega⟩
  · rintro (⟨x, x', y, h1, h2, h3, h4, h5, h6⟩ | ⟨x, x', y, h1, h2, h3, h4, h5, h6⟩) <;> omega
  · rintro (rfl | rfl)
    · exact .inl ⟨2, 1, 1, by omega⟩
    · exact .inr ⟨2, 1, 0, by omega⟩
  · rintro ⟨x, x', y, h1, h2, h3, h4, h5, h6⟩; omega
  · rintro rfl; exact ⟨0, 1, 0, by omega⟩
  · rintro ⟨x, x', y, h1, h2, h3, h4, h5, h6⟩; omega
  · rintro rfl; exact ⟨1, 1, 0, by omega⟩

/-- The 2 × 1 mesh with boundary values such that the equation of the last node has no solution: whatever positive value it has, it keeps. -/
theorem stuck_corner {m : Mesh ℝ} (G : IsGrid 2 1 m) {v : ℝ} (hv : 0 < v) :
    ∃ F : FMM ℝ, FMM.marchDistance m [0, 0, 0, -1, 19, v] (FMM.new m false) = .ok F ∧ vals F.sd 5 = v := by
  have hN : m.nNodes = 6 := G.nNodes
  have hl : ([0, 0, 0, -1, 19, v] : List ℝ).length = m.nNodes := by rw [hN]; rfl
  have hI : HasInterface 2 1 (vals ([0, 0, 0, -1, 19, v] : List ℝ)) := ⟨0, by norm_num, .inl (by simp [vals])⟩
  rcases C13_distance_safe G _ hl false with ⟨F', h1, -⟩ | h1
  swap
  · exact absurd hI ((C14_exit_iff G _ hl false (.inl rfl)).1 h1)
  refine ⟨F', h1, ?_⟩
  obtain ⟨s0, s', C, l, r, hall⟩ := C15_every_node_once G hl h1
  have hA3 : ∀ n, HAdj 2 1 3 n ↔ n = 4 := stuck_adj.1
  have hA4 : ∀ n, HAdj 2 1 4 n ↔ n = 3 ∨ n = 5 := stuck_adj.2.1
  have hA5 : ∀ n, Adj 2 1 5 n ↔ n = 4 ∨ n = 2 := stuck_adj.2.2.1
  have hV3 : ∀ n, VAdj 2 1 3 n ↔ n = 0 := stuck_adj.2.2.2.1
  have hV4 : ∀ n, VAdj 2 1 4 n ↔ n = 1 := stuck_adj.2.2.2.2
  have v3 : vals F'.sd 3 = -(1 / 20) := by
    rw [C16_value G hl h1 (n := 4) (.inl ((hA3 4).2 rfl)) (by norm_num [vals])]
    have c1 : crossings (HAdj 2 1) (vals ([0, 0, 0, -1, 19, v] : List ℝ)) 3 = {1 / 20} := by
      ext d; simp only [crossings, Set.mem_setOf_eq, hA3]; norm_num [vals]
    have c2 : crossings (VAdj 2 1) (vals ([0, 0, 0, -1, 19, v] : List ℝ)) 3 = ∅ := by
      ext d; simp only [crossings, Set.mem_setOf_eq, hV3]; norm_num [vals]
    rw [c1, c2]
    unfold invSq
    rw [if_pos (Set.singleton_nonempty _), csInf_singleton, if_neg Set.not_nonempty_empty]
    have : Real.sqrt (1 / (1 / 20) ^ 2 + 0) = 20 := by
      rw [show (1 / (1 / 20) ^ 2 + 0 : ℝ) = 20 ^ 2 by norm_num, Real.sqrt_sq (by norm_num)]
    rw [this]
    norm_num [vals]
  have v4 : vals F'.sd 4 = 19 / 20 := by
    rw [C16_value G hl h1 (n := 3) (.inl ((hA4 3).2 (.inl rfl))) (by norm_num [vals])]
    have c1 : crossings (HAdj 2 1) (vals ([0, 0, 0, -1, 19, v] : List ℝ)) 4 = {19 / 20} := by
      ext d; simp only [crossings, Set.mem_setOf_eq, hA4]
      constructor
      · rintro ⟨n, rfl | rfl, h3, rfl⟩
        · norm_num [vals]
        · norm_num [vals] at h3; linarith
      · rintro rfl
        exact ⟨3, .inl rfl, by norm_num [vals], by norm_num [vals]⟩
    have c2 : crossings (VAdj 2 1) (vals ([0, 0, 0, -1, 19, v] : List ℝ)) 4 = ∅ := by
      ext d; simp only [crossings, Set.mem_setOf_eq, hV4]; norm_num [vals]
    rw [c1, c2]
    unfold invSq
    rw [if_pos (Set.singleton_nonempty _), csInf_singleton, if_neg Set.not_nonempty_empty]
    have : Real.sqrt (1 / (19 / 20) ^ 2 + 0) = 20 / 19 := by
      rw [show (1 / (19 / 20) ^ 2 + 0 : ℝ) = (20 / 19) ^ 2 by norm_num, Real.sqrt_sq (by norm_num)]
    rw [this]
    norm_num [vals]
  have v2 : vals F'.sd 2 = 0 := C16_zero G hl h1 (by omega) (by simp [vals])
  have hno : ¬ OnInterface 2 1 (vals ([0, 0, 0, -1, 19, v] : List ℝ)) 5 := by
    rintro (h0 | ⟨n, ha, hn⟩)
    · have : v = 0 := by simpa [vals] using h0
      exact hv.ne' this
    · unfold Opposite at hn
      rcases (hA5 n).1 ha with rfl | rfl <;> norm_num [vals] at hn
      linarith
  obtain ⟨-, hv5, -, -, -, h5⟩ := hall 5 (by omega)
  have hfr : ∀ i, 2 ≤ i → i < 5 → s0.st i = .frozen ∧ s0.sd i = vals F'.sd i := by
    intro i hi hi'
    obtain ⟨-, h2, -, -, h3, -⟩ := hall i (by omega)
    have ho : OnInterface 2 1 (vals ([0, 0, 0, -1, 19, v] : List ℝ)) i := by
      have : i = 2 ∨ i = 3 ∨ i = 4 := by omega
      rcases this with rfl | rfl | rfl
      · exact .inl (by simp [vals])
      · exact .inr ⟨4, .inl ((hA3 4).2 rfl), by unfold Opposite; norm_num [vals]⟩
      · exact .inr ⟨3, .inl ((hA4 3).2 (.inl rfl)), by unfold Opposite; norm_num [vals]⟩
    have hf := (h3 ho).1
    exact ⟨hf, by rw [h2]; exact (r.frozen hf).2.1.symm⟩
  rw [hv5]
  refine (r.kept fun l1 s1 r1 _ => FMM.not_rooted fun T => ?_).trans ((h5 hno).2.1.trans (by simp [vals]))
  have hs : ∀ i, 2 ≤ i → i < 5 → s1.st i = .frozen ∧ s1.sd i = vals F'.sd i := fun i h2 h3 => by
    obtain ⟨a, b⟩ := hfr i h2 h3
    exact ⟨(r1.frozen a).1, (r1.frozen a).2.1.trans b⟩
  have n5 : ∀ j, nb m 5 j = (neighbourhood 2 1 2 1).getD j 0 := fun j => FMM.nb_value G (x := 2) (y := 1) (by norm_num) (by norm_num)
  have n4 : ∀ j, nb m 4 j = (neighbourhood 2 1 1 1).getD j 0 := fun j => FMM.nb_value G (x := 1) (y := 1) (by norm_num) (by norm_num)
  have n2 : ∀ j, nb m 2 j = (neighbourhood 2 1 2 0).getD j 0 := fun j => FMM.nb_value G (x := 2) (y := 0) (by norm_num) (by norm_num)
  obtain ⟨f2, e2⟩ := hs 2 (by omega) (by omega)
  obtain ⟨f3, e3⟩ := hs 3 (by omega) (by omega)
  obtain ⟨f4, e4⟩ := hs 4 (by omega) (by omega)
  rw [v2] at e2; rw [v3] at e3; rw [v4] at e4
  have hmax : (1 : ℝ) < FP.maxVal := by
    change (1 : ℝ) < (2 - 1 / 2 ^ 52) * 2 ^ 1023
    have : (1 : ℝ) ≤ 2 ^ 1023 := one_le_pow₀ (by norm_num)
    have h2 : (1 : ℝ) < 2 - 1 / 2 ^ 52 := by norm_num
    exact lt_of_lt_of_le h2 (le_mul_of_one_le_right (by linarith) this)
  have k2 : finalValue m s1 2 = some 0 := by
    unfold finalValue; rw [if_pos ⟨by omega, f2, by rw [e2, abs_zero]; linarith⟩, e2]
  have k3 : finalValue m s1 3 = some (-(1 / 20)) := by
    unfold finalValue; rw [if_pos ⟨by omega, f3, by rw [e3, abs_neg, abs_of_pos (by norm_num)]; linarith⟩, e3]
  have k4 : finalValue m s1 4 = some (19 / 20) := by
    unfold finalValue; rw [if_pos ⟨by omega, f4, by rw [e4, abs_of_pos (by norm_num)]; linarith⟩, e4]
  have k6 : finalValue m s1 6 = none := by
    unfold finalValue; rw [if_neg (by rw [hN]; simp)]
  have a0 : axisCode m s1 5 0 = some (19 / 20, some (-(1 / 20))) := by
    simp [axisCode, upwindCode, sideOf, Side.only, n5, n4, neighbourhood, nodeNoOr, nodeNo, k3, k4, k6, Side.usable]
    norm_num [abs_of_pos]
  have a1 : axisCode m s1 5 1 = some (0, none) := by
    simp [axisCode, upwindCode, sideOf, Side.only, n5, n2, neighbourhood, nodeNoOr, nodeNo, k2, k6, Side.usable]
  unfold eik
  rw [a0, a1]
  simp only [diffSq]
  nlinarith [sq_nonneg (T - 8 / 9)]

/-- **C86** (negation): an old value away from the boundary can survive reinitialisation.  On a 2 × 1 mesh with boundary values `0, 0, 0, −1, 19` the last node keeps its value,
be it 1 or 1000: the results of reinitialising two level sets with the same boundary differ, and one says that the boundary is 1000 away. -/
theorem C86_old_value_kept : ∃ (L : LevelSet ℝ) (φ : List ℝ), Reachable 2 1 L ∧ φ.length = L.mesh.nNodes ∧ SameBoundary 2 1 (vals L.signedDistance) (vals φ) ∧
    ∃ L1 L2, reinitialise L = .ok L1 ∧ reinitialise { L with signedDistance := φ } = .ok L2 ∧ vals L1.signedDistance 5 = 1 ∧ vals L2.signedDistance 5 = 1000 := by
  obtain ⟨L0, hr0, -, -⟩ := example_fixed (w := 2) (h := 1) (by norm_num) (by norm_num) (by norm_num)
  have hN : L0.mesh.nNodes = 6 := hr0.core.grid.nNodes
  have hr : ∀ v : ℝ, Reachable 2 1 { L0 with signedDistance := [0, 0, 0, -1, 19, v] } := fun v =>
    .call hr0 (.assign _ L0.velocity L0.gradient L0.target (by rw [hN]; rfl) hr0.core.velocity hr0.core.gradient)
  have key : ∀ v : ℝ, 0 < v → ∃ L1, reinitialise { L0 with signedDistance := [0, 0, 0, -1, 19, v] } = .ok L1 ∧ vals L1.signedDistance 5 = v := by
    intro v hv
    obtain ⟨F, hF, hF5⟩ := stuck_corner hr0.core.grid hv
    have s1 := reinitialise_spec (hr v).core.toWF (hr v).core.small
    cases e : reinitialise { L0 with signedDistance := [0, 0, 0, -1, 19, v] } with
    | error x =>
      rw [e, wp_error] at s1
      have := s1.2.symm.trans hF
      cases this
    | ok L1 =>
      rw [e, wp_ok] at s1
      obtain ⟨-, -, F2, hF2, -, hB⟩ := s1
      cases Except.ok.inj (hF2.symm.trans hF)
      exact ⟨L1, rfl, by rw [hB.frame]; exact hF5⟩
  obtain ⟨L1, h1, h1'⟩ := key 1 (by norm_num)
  obtain ⟨L2, h2, h2'⟩ := key 1000 (by norm_num)
  refine ⟨_, [0, 0, 0, -1, 19, 1000], hr 1, by change _ = L0.mesh.nNodes; rw [hN]; rfl, fun i hi => ?_, L1, L2, h1, h2, h1', h2'⟩
  have hi : i = 0 ∨ i = 1 ∨ i = 2 ∨ i = 3 ∨ i = 4 ∨ i = 5 := by omega
  rcases hi with rfl | rfl | rfl | rfl | rfl | rfl
  · exact ⟨fun _ => by simp [vals], fun hn => (hn (.inl (by simp [vals]))).elim⟩
  · exact ⟨fun _ => by simp [vals], fun hn => (hn (.inl (by simp [vals]))).elim⟩
  · exact ⟨fun _ => by simp [vals], fun hn => (hn (.inl (by simp [vals]))).elim⟩
  · exact ⟨fun _ => by simp [vals], fun hn => (hn (.inr ⟨4, .inl ((stuck_adj.1 4).2 rfl), by unfold Opposite; norm_num [vals]⟩)).elim⟩
  · exact ⟨fun _ => by simp [vals], fun hn => (hn (.inr ⟨3, .inl ((stuck_adj.2.1 3).2 (.inl rfl)), by unfold Opposite; norm_num [vals]⟩)).elim⟩
  · refine ⟨fun ho => ?_, fun _ => .inl ⟨by norm_num [vals], by norm_num [vals]⟩⟩
    rcases ho with h0 | ⟨n, ha, hn⟩
    · norm_num [vals] at h0
    · unfold Opposite at hn
      rcases (stuck_adj.2.2.1 n).1 ha with rfl | rfl <;> norm_num [vals] at hn

/-- In the corner of the 1 × 1 mesh whose other nodes are on the boundary the equation always has two solutions. -/
theorem corner_solvable {m : Mesh ℝ} (G : IsGrid 1 1 m) (v : ℝ) (iv : Bool) (ad : Nat → Prop) : ¬ Unsolvable 1 1 m (vals ([0, 0, 0, v] : List ℝ)) iv ad := by
  rintro ⟨s0, s1, C, l, n, k, hb, -, r, hn, ha, -, hno⟩
  have hN : m.nNodes = 4 := G.nNodes
  have hz : ∀ i, i < 3 → s1.st i = .frozen ∧ s1.sd i = 0 := by
    intro i hi
    have hv0 : vals ([0, 0, 0, v] : List ℝ) i = 0 := by
      have : i = 0 ∨ i = 1 ∨ i = 2 := by omega
      rcases this with rfl | rfl | rfl <;> simp [vals]
    obtain ⟨hf, h2⟩ := (hb i (by omega)).1 (.inl (by simpa using hv0))
    have h3 := r.frozen hf
    refine ⟨h3.1, h3.2.1.trans (h2.trans ?_)⟩
    unfold boundaryDistance
    rw [if_pos hv0]
  have hn4 : n < 4 := by
    have := (FMM.adj_lt ha).1
    omega
  have hn3 : n = 3 := by
    by_contra h
    exact hn (hz n (by omega)).1
  subst hn3
  have n3 : ∀ j, nb m 3 j = (neighbourhood 1 1 1 1).getD j 0 := fun j => FMM.nb_value G (x := 1) (y := 1) (by norm_num) (by norm_num)
  have n2 : ∀ j, nb m 2 j = (neighbourhood 1 1 0 1).getD j 0 := fun j => FMM.nb_value G (x := 0) (y := 1) (by norm_num) (by norm_num)
  have n1 : ∀ j, nb m 1 j = (neighbourhood 1 1 1 0).getD j 0 := fun j => FMM.nb_value G (x := 1) (y := 0) (by norm_num) (by norm_num)
  have hmax := FMM.maxVal_pos
  have a0 : axisCode m s1 3 0 = some (0, none) := by
    simp [axisCode, upwindCode, sideOf, Side.only, finalValue, n3, n2, neighbourhood, nodeNoOr, nodeNo, hN, hz, hmax, Side.usable]
  have a1 : axisCode m s1 3 1 = some (0, none) := by
    simp [axisCode, upwindCode, sideOf, Side.only, finalValue, n3, n1, neighbourhood, nodeNoOr, nodeNo, hN, hz, hmax, Side.usable]
  have he : ∀ T, eik m s1 3 T = T ^ 2 + T ^ 2 := by
    intro T; unfold eik; rw [a0, a1]; simp [diffSq]
  have hsq : Real.sqrt (1 / 2) ^ 2 = 1 / 2 := Real.sq_sqrt (by norm_num)
  have hpos : 0 < Real.sqrt (1 / 2) := Real.sqrt_pos.2 (by norm_num)
  refine hno ⟨Real.sqrt (1 / 2), -Real.sqrt (1 / 2), by intro h; linarith, by rw [he, hsq]; norm_num, by rw [he, neg_sq, hsq]; norm_num⟩

/-- The hypotheses are met and the second alternative excluded for a level set on the 1 × 1 mesh with three nodes on the boundary: the value of the fourth does not matter. -/
example : ∃ L : LevelSet ℝ, Reachable 1 1 L ∧ L.signedDistance = [0, 0, 0, 1] ∧
    reinitialise { L with signedDistance := [0, 0, 0, 7] } = reinitialise L ∧
    ∀ points, computeVelocities points { L with signedDistance := [0, 0, 0, 7] } = (computeVelocities points L).map fun L' => { L' with signedDistance := [0, 0, 0, 7] } := by
  obtain ⟨L0, hr0, -, -⟩ := example_fixed (w := 1) (h := 1) (by norm_num) (by norm_num) (by norm_num)
  have hN : L0.mesh.nNodes = 4 := hr0.core.grid.nNodes
  have hr : Reachable 1 1 { L0 with signedDistance := [0, 0, 0, 1] } :=
    .call hr0 (.assign _ L0.velocity L0.gradient L0.target (by rw [hN]; rfl) hr0.core.velocity hr0.core.gradient)
  have B : SameBoundary 1 1 (vals ([0, 0, 0, 1] : List ℝ)) (vals ([0, 0, 0, 7] : List ℝ)) := by
    intro i hi
    have hi : i = 0 ∨ i = 1 ∨ i = 2 ∨ i = 3 := by omega
    rcases hi with rfl | rfl | rfl | rfl
    · exact ⟨fun _ => by simp [vals], fun hn => (hn (.inl (by simp [vals]))).elim⟩
    · exact ⟨fun _ => by simp [vals], fun hn => (hn (.inl (by simp [vals]))).elim⟩
    · exact ⟨fun _ => by simp [vals], fun hn => (hn (.inl (by simp [vals]))).elim⟩
    · refine ⟨fun ho => ?_, fun _ => .inl ⟨by norm_num [vals], by norm_num [vals]⟩⟩
      rcases ho with h0 | ⟨n, ha, hn⟩
      · norm_num [vals] at h0
      · unfold Opposite at hn
        have := (FMM.adj_lt ha).2
        have hi : n = 0 ∨ n = 1 ∨ n = 2 ∨ n = 3 := by omega
        rcases hi with rfl | rfl | rfl | rfl <;> norm_num [vals] at hn
  exact ⟨_, hr, rfl, (C86_reinitialise_partial hr (by change _ = L0.mesh.nNodes; rw [hN]; rfl) B).resolve_right (corner_solvable hr0.core.grid _ _ _),
    fun points => (C86_velocities_partial hr (by change _ = L0.mesh.nNodes; rw [hN]; rfl) B points).resolve_right (corner_solvable hr0.core.grid _ _ _)⟩

end

end Slsm
