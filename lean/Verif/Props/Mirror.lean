import Verif.Proof.MirrorLS
import Verif.Props.Motion

/-! # Property C85: inside and outside are treated alike -/

namespace Slsm

open LevelSet

section
variable {w h : Nat} {L : LevelSet ℝ} {points : List (BoundaryPoint ℝ)}

/-- **C85** (reinitialisation, partial): reinitialising the complement gives the complement of the reinitialised level set, with the same narrow band and
mines, or the same error.  Missing: the claim for values that are not zero but not above the machine epsilon, where it is false (`C85_tiny_fails`). -/
theorem C85_reinitialise_partial (hr : Reachable w h L) (hc : Clear L.signedDistance) :
    reinitialise (complement L) = (reinitialise L).map complement := by
  have hk : ∀ L', reinitialise L = .ok L' → twin L.velocity L.gradient L' = complement L' := by
    intro L' e
    obtain ⟨-, -, F, -, -, hB⟩ := wp_of_ok (reinitialise_spec hr.core.toWF hr.core.small) e
    rw [hB.frame]
    rfl
  have := twin_reinitialise L.velocity L.gradient hr.core.sd hc
  change reinitialise (complement L) = _ at this
  rw [this]
  cases e : reinitialise L with
  | error x => rfl
  | ok L' => exact congrArg Except.ok (hk L' e)

/-- **C85** (velocities, partial): the velocities of the nodes are the same for the complement.  Missing: as in `C85_reinitialise_partial`. -/
theorem C85_velocities_partial (hr : Reachable w h L) (hc : Clear L.signedDistance) (points : List (BoundaryPoint ℝ)) :
    computeVelocities points (complement L) = (computeVelocities points L).map complement :=
  complement_computeVelocities points hr.core.sd hc

/-- **C85** (motion, partial): moving the boundary of the complement with opposite speeds gives the complement of the moved shape, with the same narrow band,
the same answer whether the level set was reinitialised, and opposite velocities; or the same error.  Missing: values that are not zero but not above the
machine epsilon before or after the motion (`C85_tiny_fails`), and band nodes on the edge of the domain, which may lose material but not gain it
(`C31_free_edge`). -/
theorem C85_motion_partial (hr : Reachable w h L) (hp : ∀ p ∈ points, InDomain w h p.coord) (dt : ℝ) (hc : Clear L.signedDistance)
    (hedge : ∀ i ∈ L.band, ¬ L.OnDomainEdge i)
    (hm : ∀ L1 L2 φ, computeVelocities points L = .ok L1 → computeGradients L1 = .ok L2 → MotionOf L2 dt φ → Clear φ) :
    let move (points : List (BoundaryPoint ℝ)) (L : LevelSet ℝ) : Res (Bool × LevelSet ℝ) := do
      let L1 ← computeVelocities points L
      let L2 ← computeGradients L1
      update dt L2
    (∃ e, move points L = .error e ∧ move (opposite points) (complement L) = .error e) ∨
    ∃ b L' g, move points L = .ok (b, L') ∧
      move (opposite points) (complement L) = .ok (b, { complement L' with velocity := L'.velocity.map fun v => -v, gradient := g }) := by
  intro move
  have hcv : computeVelocities (opposite points) (complement L) = (computeVelocities points L).map fun L1 => twin (L1.velocity.map (- ·)) L1.gradient L1 := by
    rw [complement_computeVelocities _ hr.core.sd hc, computeVelocities_scale hr.core.velocity (-1) (points := points) (by simp [opposite]) (by simp [opposite])]
    cases computeVelocities points L with
    | error e => rfl
    | ok L1 =>
      refine congrArg Except.ok ?_
      unfold complement speedUp twin
      simp
  change (∃ e, (computeVelocities points L >>= fun L1 => computeGradients L1 >>= fun L2 => update dt L2) = .error e ∧
      (computeVelocities (opposite points) (complement L) >>= fun L1 => computeGradients L1 >>= fun L2 => update dt L2) = .error e) ∨ ∃ b L' g,
      (computeVelocities points L >>= fun L1 => computeGradients L1 >>= fun L2 => update dt L2) = .ok (b, L') ∧
      (computeVelocities (opposite points) (complement L) >>= fun L1 => computeGradients L1 >>= fun L2 => update dt L2) = _
  rw [hcv]
  cases e1 : computeVelocities points L with
  | error e => exact .inl ⟨e, rfl, rfl⟩
  | ok L1 =>
    have hr1 : Reachable w h L1 := .call hr (.velocities points e1)
    have hb := twin_computeGradients L1.gradient (L := L1) rfl
    change (∃ e, (computeGradients L1 >>= fun L2 => update dt L2) = .error e ∧
      (computeGradients (twin (L1.velocity.map (- ·)) L1.gradient L1) >>= fun L2 => update dt L2) = .error e) ∨ ∃ b L' g,
      (computeGradients L1 >>= fun L2 => update dt L2) = .ok (b, L') ∧
      (computeGradients (twin (L1.velocity.map (- ·)) L1.gradient L1) >>= fun L2 => update dt L2) = _
    cases e2 : computeGradients L1 with
    | error e =>
      cases e3 : computeGradients (twin (L1.velocity.map (- ·)) L1.gradient L1) with
      | error e' =>
        rw [e2, e3] at hb
        cases (show e = e' from hb)
        exact .inl ⟨e, rfl, rfl⟩
      | ok L3 => rw [e2, e3] at hb; exact hb.elim
    | ok L2 =>
      cases e3 : computeGradients (twin (L1.velocity.map (- ·)) L1.gradient L1) with
      | error e' => rw [e2, e3] at hb; exact hb.elim
      | ok L3 =>
        rw [e2, e3] at hb
        obtain ⟨hA, hB, hG⟩ := hb
        have hr2 : Reachable w h L2 := .call hr1 (.gradients e2)
        have hfr : L2.band = L.band ∧ ∀ i, L2.OnDomainEdge i → L.OnDomainEdge i := by
          have hf := (C32_frame hr hp e1).1
          rw [hA, hf]
          exact ⟨rfl, fun _ h => h⟩
        have hu := twin_update hr2.core dt (g := L3.gradient) (by rw [hG.1]; exact hr2.core.gradient) hG (by
          intro i hi he
          rw [hfr.1] at hi
          exact hedge i hi (hfr.2 i he)) fun φ hφ => hm L1 L2 φ e1 e2 hφ
        have hB' : L3 = twin (L2.velocity.map (- ·)) L3.gradient L2 := hB
        change (∃ e, update dt L2 = .error e ∧ update dt L3 = .error e) ∨ ∃ b L' g, update dt L2 = .ok (b, L') ∧ update dt L3 = _
        have hu' : update dt L3 = (update dt L2).map fun r => (r.1, twin (L2.velocity.map (- ·)) L3.gradient r.2) := by
          rw [← hu, ← hB']
        rw [hu']
        cases e4 : update dt L2 with
        | error e => exact .inl ⟨e, rfl, rfl⟩
        | ok r =>
          obtain ⟨b, L'⟩ := r
          refine .inr ⟨b, L', L3.gradient, rfl, ?_⟩
          obtain ⟨φ, -, -, -, -, hv, -⟩ := C29_update_effect hr2 e4
          refine congrArg Except.ok ?_
          rw [hv]
          rfl

end

/-- Values of a checkerboard on the 4 × 4 domain. -/
noncomputable def checkerboard : List ℝ := (List.range 25).map fun i => if i % 2 = 0 then 1 else -1

/-- Case that meets the hypotheses of the theorems above: a checkerboard (all nodes are next to the boundary) with one moving boundary point; all calls succeed. -/
example : ∃ (L : LevelSet ℝ) (dt : ℝ), Reachable 4 4 L ∧ Clear L.signedDistance ∧ (∀ p ∈ [onePoint], InDomain 4 4 p.coord) ∧
    (∀ i ∈ L.band, ¬ L.OnDomainEdge i) ∧ 0 < dt ∧
    (∀ L1 L2 φ, computeVelocities [onePoint] L = .ok L1 → computeGradients L1 = .ok L2 → MotionOf L2 dt φ → Clear φ) ∧
    (∃ L', reinitialise L = .ok L') ∧ ∃ L1 L2, computeVelocities [onePoint] L = .ok L1 ∧ computeGradients L1 = .ok L2 := by
  obtain ⟨L0, hr0, hfix, -⟩ := example_fixed (w := 4) (h := 4) (by norm_num) (by norm_num) (by norm_num)
  have hN : L0.mesh.nNodes = 25 := hr0.core.grid.nNodes
  have hlen : checkerboard.length = L0.mesh.nNodes := by rw [hN]; simp [checkerboard]
  have hr : Reachable 4 4 { L0 with signedDistance := checkerboard } :=
    .call hr0 (.assign checkerboard L0.velocity L0.gradient L0.target hlen hr0.core.velocity hr0.core.gradient)
  generalize hL : { L0 with signedDistance := checkerboard } = L at hr
  have hsd : L.signedDistance = checkerboard := by rw [← hL]
  have hNL : L.mesh.nNodes = 25 := by rw [← hL]; exact hN
  have C := hr.core
  have hval : ∀ i, i < 25 → vals checkerboard i = 1 ∧ i % 2 = 0 ∨ vals checkerboard i = -1 ∧ i % 2 = 1 := by
    intro i hi
    unfold vals checkerboard
    rw [List.getD_eq_getElem?_getD, List.getElem?_map, List.getElem?_range hi]
    rcases Nat.mod_two_eq_zero_or_one i with h | h
    · left; simp [h]
    · right; simp [h]
  have hclear : Clear checkerboard := by
    intro v hv
    right
    unfold checkerboard at hv
    obtain ⟨i, -, rfl⟩ := List.mem_map.1 hv
    split_ifs <;> norm_num
  have hp : ∀ p ∈ [onePoint], InDomain 4 4 p.coord := by
    intro p hp
    rw [List.mem_singleton] at hp
    rw [hp]
    unfold InDomain onePoint
    norm_num
  have hfx : L.isFixedDomain = true := by rw [← hL]; exact hfix
  have hall : ∀ i, i < L.mesh.nNodes → OnInterface 4 4 (vals L.signedDistance) i := by
    intro i hi
    obtain ⟨x, y, hx, hy, rfl⟩ := C.grid.node_index hi
    rw [hsd]
    have key : ∀ a b, a < 25 → b < 25 → a % 2 ≠ b % 2 → Opposite (vals checkerboard) a b := by
      intro a b ha hb hab
      unfold Opposite
      rw [FP.lt_real, FP.mul_real, FP.nat_real]
      rcases hval a ha with ⟨h1, h2⟩ | ⟨h1, h2⟩ <;> rcases hval b hb with ⟨h3, h4⟩ | ⟨h3, h4⟩ <;> rw [h1, h3] <;> norm_num <;> omega
    by_cases h4 : x < 4
    · refine .inr ⟨nodeNo 4 (x + 1) y, .inl ⟨x, x + 1, y, by omega, by omega, hy, rfl, rfl, by omega⟩, key _ _ ?_ ?_ ?_⟩ <;> unfold nodeNo <;> omega
    · refine .inr ⟨nodeNo 4 (x - 1) y, .inl ⟨x, x - 1, y, by omega, by omega, hy, rfl, rfl, by omega⟩, key _ _ ?_ ?_ ?_⟩ <;> unfold nodeNo <;> omega
  have hI : HasInterface 4 4 (vals L.signedDistance) := ⟨0, by norm_num, hall 0 (by omega)⟩
  have hpo := pointsOk_real C.grid (fit_of_reachable hr) hp
  obtain ⟨L1, e1⟩ : ∃ L', computeVelocities [onePoint] L = .ok L' := by
    unfold computeVelocities
    cases hi : initialiseVelocities [onePoint] L with
    | error x =>
      have := initialiseVelocities_spec C hpo
      rw [hi, wp_error] at this
      exact absurd this (by simp [noErr])
    | ok L1 =>
      obtain ⟨hL1, hl, -⟩ := wp_of_ok (initialiseVelocities_spec C hpo) hi
      have hm : L1.mesh = L.mesh := by rw [hL1]
      have hsd : L1.signedDistance = L.signedDistance := by rw [hL1]
      obtain ⟨F', hF⟩ := C18_nothing_to_extend (sd := L.signedDistance) (vel := L1.velocity) false C.grid C.sd hl hI fun i hi _ => hall i hi
      simp only [bind, Except.bind]
      rw [hm, hsd, hF]
      exact ⟨_, rfl⟩
  have hr1 : Reachable 4 4 L1 := .call hr (.velocities _ e1)
  obtain ⟨L2, e2, hf2, -⟩ := C34_safe hr1 (by norm_num) (by norm_num)
  have hf1 := (C32_frame hr hp e1).1
  have hsd2 : L2.signedDistance = checkerboard := by rw [hf2, hf1]; exact hsd
  have hN2 : L2.mesh.nNodes = 25 := by rw [hf2, hf1]; exact hNL
  have hedge : ∀ i ∈ L.band, ¬ L.OnDomainEdge i := fun i hi => (C.band_free i hi).2.2 hfx
  have hedge2 : ∀ i ∈ L2.band, ¬ L2.OnDomainEdge i := by
    have : L2.isFixedDomain = true := by rw [hf2, hf1]; exact hfx
    exact fun i hi => ((Reachable.call hr1 (.gradients e2)).core.band_free i hi).2.2 this
  let S : ℝ := ∑ i ∈ Finset.range 25, |vals L2.gradient i * vals L2.velocity i|
  have hS : 0 ≤ S := Finset.sum_nonneg fun i _ => abs_nonneg _
  refine ⟨L, 1 / (2 * (1 + S)), hr, by rw [hsd]; exact hclear, hp, hedge, by positivity, ?_, ?_, L1, L2, e1, e2⟩
  · intro A1 A2 φ h1 h2 M
    rw [e1] at h1
    cases h1
    rw [e2] at h2
    cases h2
    intro v hv
    obtain ⟨i, hi, rfl⟩ := List.mem_iff_getElem.1 hv
    have hi25 : i < 25 := by rw [← hN2, ← M.length]; exact hi
    have hvi : φ[i] = vals φ i := by unfold vals; rw [List.getD_eq_getElem?_getD, List.getElem?_eq_getElem hi]; rfl
    rw [hvi]
    right
    have hs : |vals checkerboard i| = 1 := by rcases hval i hi25 with ⟨h, -⟩ | ⟨h, -⟩ <;> rw [h] <;> norm_num
    by_cases hb : i ∈ L2.band
    · rw [M.moved i hb fun h => hedge2 i hb h.1, hsd2]
      change 1 / 2 ^ 52 < |vals checkerboard i - 1 / (2 * (1 + S)) * vals L2.gradient i * vals L2.velocity i|
      have hle : |vals L2.gradient i * vals L2.velocity i| ≤ S :=
        Finset.single_le_sum (f := fun i => |vals L2.gradient i * vals L2.velocity i|) (fun _ _ => abs_nonneg _) (Finset.mem_range.2 hi25)
      have h3 : |1 / (2 * (1 + S)) * vals L2.gradient i * vals L2.velocity i| ≤ 1 / 2 := by
        rw [mul_assoc, abs_mul, abs_of_pos (by positivity), div_mul_eq_mul_div, one_mul, div_le_div_iff₀ (by positivity) (by norm_num)]
        linarith
      have h4 := abs_sub_abs_le_abs_sub (vals checkerboard i) (1 / (2 * (1 + S)) * vals L2.gradient i * vals L2.velocity i)
      rw [hs] at h4
      have : (1 : ℝ) / 2 ^ 52 < 1 / 2 := by norm_num
      linarith
    · rw [M.outside i hb, hsd2, hs]
      norm_num
  · have := reinitialise_spec C.toWF C.small
    cases e : reinitialise L with
    | ok L' => exact ⟨L', rfl⟩
    | error x =>
      rw [e, wp_error] at this
      exact absurd hI ((C14_exit_iff C.grid _ C.sd false (.inl rfl)).1 this.2)

/-- **C85** (negation): for values that are not zero but not above the machine epsilon inside and outside are not treated alike: on a 1 × 1 mesh with three nodes on the
boundary the last node ends up outside whether its value is `2⁻⁶⁰` or `-2⁻⁶⁰`. -/
theorem C85_tiny_fails : ∃ (m : Mesh ℝ) (F1 F2 : FMM ℝ), IsGrid 1 1 m ∧
    FMM.marchDistance m [0, 0, 0, 1 / 2 ^ 60] (FMM.new m false) = .ok F1 ∧ FMM.marchDistance m [0, 0, 0, -(1 / 2 ^ 60)] (FMM.new m false) = .ok F2 ∧
    vals F1.sd 3 < 0 ∧ vals F2.sd 3 < 0 := by
  obtain ⟨m, hm⟩ := C01_new_succeeds (D := ℝ) (w := 1) (h := 1) ⟨by norm_num, by norm_num, by norm_num⟩
  have G := new_grid ⟨by norm_num, by norm_num, by norm_num⟩ hm
  obtain ⟨F1, h1, h2⟩ := corner_negative G (v := 1 / 2 ^ 60) (by norm_num) (by norm_num)
  obtain ⟨F2, h3, h4⟩ := corner_negative G (v := -(1 / 2 ^ 60)) (by norm_num) (by norm_num)
  exact ⟨m, F1, F2, G, h1, h3, h2, h4⟩

end Slsm
