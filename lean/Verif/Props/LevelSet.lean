import Verif.Proof.LSFlags
import Verif.Props.FMM
import Verif.Props.Shape

/-! # Properties C27–C31: narrow band, update and masks

`Reachable w h L` (`Verif/Spec/History.lean`): `L` was made by a constructor for a `w × h` domain and any number of calls.
`BandOk`, `InBand`, `AtRim`, `Masked`, … are defined in `Verif/Spec/LevelSet.lean`. -/

namespace Slsm

open LevelSet

set_option linter.unusedSectionVars false

section
variable {D : Type} [FP D] {w h : Nat} {L L' : LevelSet D}

/-! ### C27 -/

/-- **C27** (construction): see also `C22_result`, which says the same for the constructors without target. -/
theorem C27_constructed (hw : 1 ≤ w) (hh : 1 ≤ h) (hN : (w + 1) * (h + 1) < 2 ^ 31) {s t : Shape D} {moveLimit : D}
    {bandWidth : Nat} (hb : bandWidth < 2 ^ 32) {f : Bool} {L : LevelSet D}
    (e : new w h s moveLimit bandWidth f = .ok L ∨ newTarget w h s t moveLimit bandWidth f = .ok L) : BandOk L := by
  rcases e with e | e
  · exact (built hw hh hN hb e).band
  · norm_num at hN hb
    have hs : ∀ l, s = .points l → l ≠ [] := by
      rintro l rfl rfl; exact newTarget_points_nil (.inl rfl) e
    have ht : ∀ l, t = .points l → l ≠ [] := by
      rintro l rfl rfl; exact newTarget_points_nil (.inr rfl) e
    exact (wp_of_ok (newTarget_spec hw hh hN hb f hs ht) e).2.2.2.band

/-- **C27** (rebuilding): in every reachable state building the narrow band succeeds (no list overflows) and lists exactly the right
nodes, whatever the values, masks and flags were; nothing but the lists and the flags "active" and "mine" changes. -/
theorem C27_narrow_band (hr : Reachable w h L) : ∃ L', initialiseNarrowBand L = .ok L' ∧ BandOk L' ∧
    L'.signedDistance = L.signedDistance ∧ L'.velocity = L.velocity ∧ L'.gradient = L.gradient ∧ L'.target = L.target ∧
    (∀ i : Nat, ∀ nd, L.mesh.nodes[i]? = some nd → ∃ nd', L'.mesh.nodes[i]? = some nd' ∧ SameNode nd nd') ∧
    L'.mesh.elements = L.mesh.elements := by
  obtain ⟨L', h1, W, B, hB⟩ := wp_noErr_iff.1 (initialiseNarrowBand_spec hr.core.toWF hr.core.small)
  refine ⟨L', h1, B, ?_, ?_, ?_, ?_, ?_, ?_⟩
  · rw [hB.frame]
  · rw [hB.frame]
  · rw [hB.frame]
  · rw [hB.frame]
  · intro i nd hnd
    exact ⟨reflag L i nd, by rw [hB.nodes, hnd]; rfl, rfl, rfl, rfl, rfl, rfl, rfl, rfl, rfl, rfl⟩
  · rw [hB.frame]

/-- **C27** (all rebuilding calls): after `reinitialise`, after `mask` and after an `update` that reinitialises the lists are exact. -/
theorem C27_after_calls (hr : Reachable w h L) :
    (reinitialise L = .ok L' → BandOk L') ∧ (∀ holes, maskHoles holes L = .ok L' → BandOk L') ∧
    (∀ points, maskPoints points L = .ok L' → BandOk L') ∧ (∀ dt, update dt L = .ok (true, L') → BandOk L') := by
  have C := hr.core
  refine ⟨fun e => ?_, fun holes e => ?_, fun points e => ?_, fun dt e => ?_⟩
  · exact (wp_of_ok (reinitialise_spec C.toWF C.small) e).2.1
  · exact (wp_of_ok (maskHoles_spec C.toWF C.small holes) e).band
  · exact (wp_of_ok (maskPoints_spec C.toWF C.small (maskPoints_ne C e)) e).band
  · cases wp_of_ok (update_spec C dt) e with
    | yes F M hn hF hB W B => exact B

/-- **C27** (reinitialise): the values become those of the fast marching method started from the current values; it exits exactly if
there is no interface, and never has undefined behaviour. -/
theorem C27_reinitialise (hr : Reachable w h L) :
    (∃ L' F, reinitialise L = .ok L' ∧ FMM.marchDistance L.mesh L.signedDistance (FMM.new L.mesh false) = .ok F ∧
      L'.signedDistance = F.sd ∧ HasInterface w h (vals L.signedDistance)) ∨
    reinitialise L = .error .exit ∧ ¬ HasInterface w h (vals L.signedDistance) := by
  have C := hr.core
  have hx := C14_exit_iff C.grid L.signedDistance C.sd false (.inl rfl)
  have := reinitialise_spec C.toWF C.small
  cases hre : reinitialise L with
  | ok L' =>
    rw [hre, wp_ok] at this
    obtain ⟨W, B, F, hF, hlen, hB⟩ := this
    refine .inl ⟨L', F, rfl, hF, by rw [hB.frame], ?_⟩
    by_contra hc
    rw [hx.2 hc] at hF; cases hF
  | error e =>
    rw [hre, wp_error] at this
    exact .inr ⟨by rw [this.1], hx.1 this.2⟩

/-! ### C28 -/

/-- **C28** (one direction, all histories): in every reachable state the nodes in the mine list are flagged as mines. -/
theorem C28_listed_are_flagged_partial (hr : Reachable w h L) : ∀ i ∈ L.mineList, L.FlagMine i := hr.flagged

/-- **C28** (partial): right after construction (without target) the flagged nodes are exactly the listed ones.  Missing: later
states, see `C28_flags_accumulate` and `C28_stale_flag`. -/
theorem C28_constructed_partial (hw : 1 ≤ w) (hh : 1 ≤ h) (hN : (w + 1) * (h + 1) < 2 ^ 31) {s : Shape D} {moveLimit : D}
    {bandWidth : Nat} (hb : bandWidth < 2 ^ 32) {f : Bool} (e : new w h s moveLimit bandWidth f = .ok L) (i : Nat) :
    L.FlagMine i ↔ i ∈ L.mineList := (built hw hh hN hb e).mine i

/-- **C28** (what happens instead): reinitialisation and masking never clear a flag; they add those of the new list. -/
theorem C28_flags_accumulate (hr : Reachable w h L)
    (e : reinitialise L = .ok L' ∨ ∃ holes, maskHoles holes L = .ok L') (i : Nat) :
    L'.FlagMine i ↔ L.FlagMine i ∨ i ∈ L'.mineList := by
  have C := hr.core
  rcases e with e | ⟨holes, e⟩
  · obtain ⟨W, B, F, hF, hlen, hB⟩ := wp_of_ok (reinitialise_spec C.toWF C.small) e
    have W2 : WF w h { L with signedDistance := F.sd } := { C.toWF with sd := hlen }
    exact hB.flagMine W2 i
  · exact (wp_of_ok (maskHoles_spec C.toWF C.small holes) e).flagMine C.toWF i

end

/-- The level set used as an example: a hole of radius 2.5 in the middle of a 10 × 10 domain, band width 3. -/
theorem example_hole : ∃ L, new 10 10 (.holes [⟨⟨5, 5⟩, 5 / 2⟩]) (1 / 2 : ℝ) 3 false = .ok L ∧
    vals L.signedDistance (nodeNo 10 5 5) = -(5 / 2) ∧ vals L.signedDistance (nodeNo 10 3 5) = -(1 / 2) ∧
    vals L.signedDistance (nodeNo 10 2 5) = 1 / 2 := by
  obtain ⟨L, hL⟩ := (C22_accepts_iff (D := ℝ) (w := 10) (h := 10) (by norm_num) (by norm_num) (by norm_num)
    (.holes [⟨⟨5, 5⟩, 5 / 2⟩]) (by simp) (1 / 2) 3 (by norm_num) false).2.2
    ⟨by norm_num, by norm_num, by norm_num, fun h => by cases h⟩
  have key : ∀ (x : Nat) (d e : ℝ), x ≤ 10 → (edgeDist 10 10 x 5 : ℝ) = e → |(5 : ℝ) - x| = d → d - 5 / 2 ≤ e →
      vals L.signedDistance (nodeNo 10 x 5) = d - 5 / 2 := by
    intro x d e hx he hd hle
    have := C23_holes_exact (by norm_num) (by norm_num) (by norm_num) (by norm_num) hL (x := x) (y := 5) hx (by norm_num)
    have hdist : distance ⟨5, 5⟩ (lattice x 5) = d := by
      unfold distance lattice
      simp only [Nat.cast_ofNat, sub_self, ne_eq, OfNat.ofNat_ne_zero, not_false_eq_true, zero_pow, add_zero]
      rw [Real.sqrt_sq_eq_abs, hd]
    refine this.unique ⟨.inr ⟨_, List.mem_singleton.2 rfl, by rw [hdist]⟩, ?_⟩
    rintro q (hq | ⟨hole, hm, hq⟩)
    · rw [Set.mem_singleton_iff] at hq; rw [hq, he]; exact hle
    · rw [List.mem_singleton] at hm; rw [hq, hm, hdist]
  refine ⟨L, hL, ?_, ?_, ?_⟩
  · rw [key 5 0 5 (by norm_num) (by norm_num [edgeDist]) (by norm_num) (by norm_num)]; norm_num
  · rw [key 3 2 3 (by norm_num) (by norm_num [edgeDist]) (by norm_num) (by norm_num)]; norm_num
  · rw [key 2 3 2 (by norm_num) (by norm_num [edgeDist]) (by norm_num) (by norm_num)]; norm_num

/-- The theorems above apply to a level set with an interface and a mine. -/
example : ∃ L : LevelSet ℝ, Reachable 10 10 L ∧ nodeNo 10 5 5 ∈ L.mineList ∧ nodeNo 10 3 5 ∈ L.band := by
  obtain ⟨L, hL, v1, v2, -⟩ := example_hole
  have B := built (by norm_num) (by norm_num) (by norm_num) (by norm_num) hL
  refine ⟨L, .new (by norm_num) (by norm_num) (by norm_num) (by norm_num) hL, ?_, ?_⟩
  · rw [B.band.mine_mem]
    refine ⟨⟨⟨by rw [B.wf.grid.nNodes]; exact nodeNo_lt (by norm_num) (by norm_num), B.unmasked _, ?_⟩, ?_⟩, ?_⟩
    · rw [B.params.2.2]; simp
    · rw [v1, B.params.2.1]; norm_num [abs_of_neg]
    · rw [v1, B.params.2.1]; norm_num [abs_of_neg]
  · rw [B.band.band_mem]
    refine ⟨⟨by rw [B.wf.grid.nNodes]; exact nodeNo_lt (by norm_num) (by norm_num), B.unmasked _, ?_⟩, ?_⟩
    · rw [B.params.2.2]; simp
    · rw [v2, B.params.2.1]; norm_num [abs_of_neg]

/-- **C28** (counterexample to the full statement): in this level set the centre of the hole is a mine; after masking it, it is still
flagged as a mine but not listed. -/
theorem C28_stale_flag : ∃ (L L' : LevelSet ℝ), Reachable 10 10 L ∧ maskHoles [⟨⟨5, 5⟩, 1⟩] L = .ok L' ∧
    L'.FlagMine (nodeNo 10 5 5) ∧ nodeNo 10 5 5 ∉ L'.mineList := by
  obtain ⟨L, hL, v1, v2, v3⟩ := example_hole
  have hr : Reachable 10 10 L := .new (by norm_num) (by norm_num) (by norm_num) (by norm_num) hL
  have C := hr.core
  have B := built (by norm_num) (by norm_num) (by norm_num) (by norm_num) hL
  have hmine : nodeNo 10 5 5 ∈ L.mineList := by
    rw [B.band.mine_mem]
    refine ⟨⟨⟨by rw [B.wf.grid.nNodes]; exact nodeNo_lt (by norm_num) (by norm_num), B.unmasked _, ?_⟩, ?_⟩, ?_⟩
    · rw [B.params.2.2]; simp
    · rw [v1, B.params.2.1]; norm_num [abs_of_neg]
    · rw [v1, B.params.2.1]; norm_num [abs_of_neg]
  have hin : ∀ x, x ≤ 10 → (InHoles L [⟨⟨5, 5⟩, 1⟩] (nodeNo 10 x 5) ↔ |(5 : ℝ) - x| < 1) := by
    intro x hx
    unfold InHoles
    rw [node_coord C.grid hx (by norm_num)]
    have hl : nodeNo 10 x 5 < L.mesh.nNodes := by rw [C.grid.nNodes]; exact nodeNo_lt hx (by norm_num)
    simp only [hl, true_and, List.mem_singleton, exists_eq_left, FP.lt_real]
    rw [centreDist_real]
    unfold distance lattice
    simp only [Nat.cast_ofNat, sub_self, ne_eq, OfNat.ofNat_ne_zero, not_false_eq_true, zero_pow, add_zero]
    rw [Real.sqrt_sq_eq_abs]
  have hspec := maskHoles_spec C.toWF C.small [⟨⟨5, 5⟩, 1⟩]
  cases he : maskHoles [⟨⟨5, 5⟩, 1⟩] L with
  | error e =>
    exfalso
    rw [he, wp_error] at hspec
    obtain ⟨-, L1, M, hx⟩ := hspec
    have W1 := M.wf C.toWF
    refine (C14_exit_iff W1.grid L1.signedDistance W1.sd false (.inl rfl)).1 hx ?_
    refine ⟨nodeNo 10 3 5, nodeNo_lt (by norm_num) (by norm_num), .inr ⟨nodeNo 10 2 5, .inl ⟨3, 2, 5, by norm_num, by norm_num,
      by norm_num, rfl, rfl, .inr rfl⟩, ?_⟩⟩
    unfold Opposite
    rw [(M.no _ (by rw [hin 3 (by norm_num)]; norm_num)).1, (M.no _ (by rw [hin 2 (by norm_num)]; norm_num)).1, v2, v3]
    norm_num
  | ok L' =>
    rw [he, wp_ok] at hspec
    refine ⟨L, L', hr, he, (hspec.flagMine C.toWF _).2 (.inl (hr.flagged _ hmine)), ?_⟩
    intro hc
    have hb := (hspec.band.mine_mem _).1 hc
    refine hb.1.1.2.1 ((hspec.masked _ ?_).2 (.inr ((hin 5 (by norm_num)).2 (by norm_num))))
    rw [C.grid.nNodes]; exact nodeNo_lt (by norm_num) (by norm_num)

section
variable {D : Type} [FP D] {w h : Nat} {L L' : LevelSet D}

/-! ### C29 -/

/-- Values after the motion: `s - dt*gradient*velocity` at band nodes, capped at zero on the domain edge; unchanged elsewhere. -/
structure MotionOf (L : LevelSet D) (dt : D) (φ : List D) : Prop where
  length : φ.length = L.mesh.nNodes
  outside : ∀ i, i ∉ L.band → vals φ i = vals L.signedDistance i
  capped : ∀ i ∈ L.band, L.OnDomainEdge i → FP.lt (FP.nat 0)
    (FP.sub (vals L.signedDistance i) (FP.mul (FP.mul dt (vals L.gradient i)) (vals L.velocity i))) = true → vals φ i = FP.nat 0
  moved : ∀ i ∈ L.band, ¬ (L.OnDomainEdge i ∧ FP.lt (FP.nat 0)
    (FP.sub (vals L.signedDistance i) (FP.mul (FP.mul dt (vals L.gradient i)) (vals L.velocity i))) = true) →
    vals φ i = FP.sub (vals L.signedDistance i) (FP.mul (FP.mul dt (vals L.gradient i)) (vals L.velocity i))

theorem motion_of_moved {dt : D} {L1 : LevelSet D} (C : Core w h L) (M : Moved L dt (· ∈ L.band) L1) : MotionOf L dt L1.signedDistance := by
  have hedge : ∀ i, i < L.mesh.nNodes → (L.OnDomainEdge i ↔ (nodeOf L.mesh i).isDomain = true) := by
    intro i hi
    unfold OnDomainEdge
    rw [get_node (by rw [C.nodes_len]; exact hi)]
    simp
  refine ⟨by rw [M.sdLen, C.sd], fun i hi => (M.no i hi).1, fun i hi he hp => ?_, fun i hi hn => ?_⟩
  · rw [(M.yes i hi).1]
    unfold movedVal
    dsimp only
    rw [if_pos]
    rw [(hedge i (C.band_free i hi).1).1 he, hp]; rfl
  · rw [(M.yes i hi).1]
    unfold movedVal
    dsimp only
    rw [if_neg]
    intro hc
    rw [Bool.and_eq_true] at hc
    exact hn ⟨(hedge i (C.band_free i hi).1).2 hc.1, hc.2⟩

/-- **C29** (no undefined behaviour): in every reachable state `update` returns, or exits because the moved values have no interface. -/
theorem C29_update_safe (hr : Reachable w h L) (dt : D) :
    (∃ b L', update dt L = .ok (b, L')) ∨
    update dt L = .error .exit ∧ ∃ φ, MotionOf L dt φ ∧ ¬ HasInterface w h (vals φ) := by
  have C := hr.core
  have := update_spec C dt
  cases hu : update dt L with
  | ok r => exact .inl ⟨r.1, r.2, rfl⟩
  | error e =>
    rw [hu, wp_error] at this
    obtain ⟨rfl, L1, M, -, hx⟩ := this
    have W1 := M.wf C.toWF
    exact .inr ⟨rfl, L1.signedDistance, motion_of_moved C M,
      (C14_exit_iff W1.grid L1.signedDistance W1.sd false (.inl rfl)).1 hx⟩

/-- **C29** (effect): `update` moves the band, reports whether a mine ended within one grid unit of the interface, and in that case
(and no other) reinitialises. -/
theorem C29_update_effect (hr : Reachable w h L) {dt : D} {b : Bool} (e : update dt L = .ok (b, L')) :
    ∃ φ, MotionOf L dt φ ∧
      (b = true ↔ ∃ i ∈ L.mineList, FP.lt (FP.abs (vals φ i)) (FP.nat 1) = true) ∧
      (b = false → L'.signedDistance = φ ∧ L'.band = L.band ∧ L'.mineList = L.mineList) ∧
      (b = true → BandOk L' ∧ ∃ m F, IsGrid w h m ∧ (∀ i, flags m i = flags L.mesh i) ∧
        FMM.marchDistance m φ (FMM.new m false) = .ok F ∧ L'.signedDistance = F.sd) ∧
      L'.velocity = L.velocity ∧ L'.gradient = L.gradient ∧ L'.target = L.target ∧
      (∀ i, L'.Masked i ↔ L.Masked i) := by
  have C := hr.core
  generalize hr' : (b, L') = r at e
  have U := wp_of_ok (update_spec C dt) e
  cases U with
  | @no L1 M hn =>
    cases hr'
    have e1 : L'.mineList = L.mineList := by unfold mineList; rw [M.frame]
    refine ⟨_, motion_of_moved C M, ?_, fun _ => ⟨rfl, by unfold band; rw [M.frame], e1⟩, fun hb => (by cases hb), ?_, ?_, ?_, M.masked⟩
    · unfold MineHit at hn
      rw [e1] at hn
      exact ⟨fun hb => (by cases hb), fun hb => absurd hb hn⟩
    · rw [M.frame]
    · rw [M.frame]
    · rw [M.frame]
  | @yes L1 L2 F M hn hF hB W B =>
    cases hr'
    have e1 : L1.mineList = L.mineList := by unfold mineList; rw [M.frame]
    unfold MineHit at hn
    rw [e1] at hn
    refine ⟨_, motion_of_moved C M, ⟨fun _ => hn, fun _ => rfl⟩, fun hb => (by cases hb),
      fun _ => ⟨B, L1.mesh, F, (M.wf C.toWF).grid, fun i => M.node i, hF, by rw [hB.frame]⟩, ?_, ?_, ?_, fun i =>
        (hB.masked i).trans (M.masked i)⟩
    · rw [hB.frame]; show L1.velocity = _; rw [M.frame]
    · rw [hB.frame]; show L1.gradient = _; rw [M.frame]
    · rw [hB.frame]; show L1.target = _; rw [M.frame]

/-! ### C30 -/

/-- **C30** (permanence): a masked node stays masked under every later history of calls, and is never in the narrow band. -/
theorem C30_mask_permanent (hr : Reachable w h L) {i : Nat} (hm : L.Masked i) (hc : Calls w h L L') :
    L'.Masked i ∧ i ∉ L'.band := by
  have E := hc.evolves hr.core
  exact ⟨E.masked i hm, fun hb => (E.core.band_free i hb).2.1 (E.masked i hm)⟩

/-- **C30** (value): an update never moves a masked node: its value is unchanged, or (if the update reinitialises) it is recomputed by
the fast marching method from values in which it is unchanged. -/
theorem C30_masked_value (hr : Reachable w h L) {i : Nat} (hm : L.Masked i) {dt : D} {b : Bool} (e : update dt L = .ok (b, L')) :
    (b = false → vals L'.signedDistance i = vals L.signedDistance i) ∧
    ∃ φ, MotionOf L dt φ ∧ vals φ i = vals L.signedDistance i := by
  have hnb : i ∉ L.band := fun hb => (hr.core.band_free i hb).2.1 hm
  obtain ⟨φ, M, -, h1, -⟩ := C29_update_effect hr e
  refine ⟨fun hb => ?_, φ, M, M.outside i hnb⟩
  rw [(h1 hb).1, M.outside i hnb]

/-- **C30** (safety): masking returns or exits; it exits only if no interface is left, i.e. if after setting the nodes of the region
to `-10⁻⁶` the values have no interface. -/
theorem C30_mask_safe (hr : Reachable w h L) (holes : List (Hole D)) :
    (∃ L', maskHoles holes L = .ok L') ∨ maskHoles holes L = .error .exit ∧
      ∃ φ : List D, φ.length = L.mesh.nNodes ∧ ¬ HasInterface w h (vals φ) ∧
        ∀ i, (InHoles L holes i → vals φ i = FP.neg (FP.lit 1 1000000)) ∧ (¬ InHoles L holes i → vals φ i = vals L.signedDistance i) := by
  have C := hr.core
  have := maskHoles_spec C.toWF C.small holes
  cases hu : maskHoles holes L with
  | ok r => exact .inl ⟨r, rfl⟩
  | error e =>
    rw [hu, wp_error] at this
    obtain ⟨rfl, L1, M, hx⟩ := this
    have W1 := M.wf C.toWF
    exact .inr ⟨rfl, L1.signedDistance, by rw [M.sdLen, C.sd], (C14_exit_iff W1.grid L1.signedDistance W1.sd false (.inl rfl)).1 hx,
      fun i => ⟨fun h => (M.yes i h).1, fun h => (M.no i h).1⟩⟩

theorem mask_value_of {P : Nat → Prop} (C : Core w h L) (R : MaskResult w h L P L') :
    ∃ (m : Mesh D) (φ : List D) (F : FMM D), IsGrid w h m ∧ φ.length = m.nNodes ∧
      (∀ i, (P i → vals φ i = FP.neg (FP.lit 1 1000000)) ∧ (¬ P i → vals φ i = vals L.signedDistance i)) ∧
      FMM.marchDistance m φ (FMM.new m false) = .ok F ∧ L'.signedDistance = F.sd := by
  obtain ⟨L1, F, M, hF, hs, -⟩ := R.mid
  have W1 := M.wf C.toWF
  exact ⟨L1.mesh, L1.signedDistance, F, W1.grid, W1.sd, fun i => ⟨fun h => (M.yes i h).1, fun h => (M.no i h).1⟩, hF, hs⟩

end

/-- **C30** (exactly the region, discs): after masking with holes, the masked nodes are those masked before and those strictly inside
one of the discs; the values are those of the fast marching method started from `-10⁻⁶` inside the discs and the old values
elsewhere. -/
theorem C30_mask_discs {w h : Nat} {L L' : LevelSet ℝ} (hr : Reachable w h L) {holes : List (Hole ℝ)} (e : maskHoles holes L = .ok L') :
    (∀ x y, x ≤ w → y ≤ h → (L'.Masked (nodeNo w x y) ↔ L.Masked (nodeNo w x y) ∨ ∃ hole ∈ holes, distance hole.coord (lattice x y) < hole.r)) ∧
    ∃ (m : Mesh ℝ) (φ : List ℝ) (F : FMM ℝ), IsGrid w h m ∧ φ.length = m.nNodes ∧
      (∀ x y, x ≤ w → y ≤ h → ((∃ hole ∈ holes, distance hole.coord (lattice x y) < hole.r) → vals φ (nodeNo w x y) = -(1 / 10 ^ 6)) ∧
        ((¬ ∃ hole ∈ holes, distance hole.coord (lattice x y) < hole.r) → vals φ (nodeNo w x y) = vals L.signedDistance (nodeNo w x y))) ∧
      FMM.marchDistance m φ (FMM.new m false) = .ok F ∧ L'.signedDistance = F.sd := by
  have C := hr.core
  have R := wp_of_ok (maskHoles_spec C.toWF C.small holes) e
  have hlt : ∀ x y, x ≤ w → y ≤ h → nodeNo w x y < L.mesh.nNodes := fun x y hx hy => by rw [C.grid.nNodes]; exact nodeNo_lt hx hy
  have hin : ∀ x y, x ≤ w → y ≤ h → (InHoles L holes (nodeNo w x y) ↔ ∃ hole ∈ holes, distance hole.coord (lattice x y) < hole.r) := by
    intro x y hx hy
    unfold InHoles
    rw [node_coord C.grid hx hy]
    simp only [hlt x y hx hy, true_and, FP.lt_real, centreDist_real]
  refine ⟨fun x y hx hy => ?_, ?_⟩
  · rw [R.masked _ (hlt x y hx hy), hin x y hx hy]
  · obtain ⟨m, φ, F, h1, h2, h3, h4, h5⟩ := mask_value_of C R
    refine ⟨m, φ, F, h1, h2, fun x y hx hy => ?_, h4, h5⟩
    rw [← hin x y hx hy]
    have := h3 (nodeNo w x y)
    refine ⟨fun hh => ?_, this.2⟩
    rw [this.1 hh]; norm_num

/-- **C30** (exactly the region, points): two points give the open rectangle between them; any other number of points gives the polygon
of the inside test of C26. -/
theorem C30_mask_points {w h : Nat} {L L' : LevelSet ℝ} (hr : Reachable w h L) {points : List (Coord ℝ)}
    (e : maskPoints points L = .ok L') {x y : Nat} (hx : x ≤ w) (hy : y ≤ h) :
    (∀ a b, points = [a, b] → (L'.Masked (nodeNo w x y) ↔ L.Masked (nodeNo w x y) ∨ a.x < x ∧ x < b.x ∧ a.y < y ∧ y < b.y)) ∧
    (points.length ≠ 2 → (L'.Masked (nodeNo w x y) ↔ L.Masked (nodeNo w x y) ∨ isInsidePolygon (lattice x y) points = .ok true)) := by
  have C := hr.core
  have R := wp_of_ok (maskPoints_spec C.toWF C.small (maskPoints_ne C e)) e
  have hlt : nodeNo w x y < L.mesh.nNodes := by rw [C.grid.nNodes]; exact nodeNo_lt hx hy
  rw [R.masked _ hlt]
  unfold InPoints
  rw [node_coord C.grid hx hy]
  refine ⟨?_, fun hl => ?_⟩
  · rintro a b rfl
    simp only [hlt, true_and, inRegion, inRectangle, lattice, pure, Except.pure, Except.ok.injEq, Bool.and_eq_true, FP.lt_real]
    tauto
  · have : inRegion points (lattice x y) = isInsidePolygon (lattice x y) points := by
      unfold inRegion
      split
      · simp at hl
      · rfl
    rw [this]
    simp only [hlt, true_and]

/-- A history to which the permanence theorem applies: the masked state of `C28_stale_flag` exists, and its node `(5, 5)` is masked. -/
example : ∃ (L' : LevelSet ℝ), Reachable 10 10 L' ∧ L'.Masked (nodeNo 10 5 5) := by
  obtain ⟨L, L', hr, e, -, -⟩ := C28_stale_flag
  refine ⟨L', .call hr (.maskHoles _ e), ((C30_mask_discs hr e).1 5 5 (by norm_num) (by norm_num)).2 (.inr ⟨_, List.mem_singleton.2 rfl, ?_⟩)⟩
  simp [distance, lattice]

/-! ### C31 -/

section
variable {D : Type} [FP D] {w h : Nat} {L L' : LevelSet D}

/-- The domain edge in terms of positions, in every reachable state. -/
theorem C31_edge (hr : Reachable w h L) {x y : Nat} (hx : x ≤ w) (hy : y ≤ h) :
    L.OnDomainEdge (nodeNo w x y) ↔ x = 0 ∨ x = w ∨ y = 0 ∨ y = h := by
  have C := hr.core
  obtain ⟨nd, hnd⟩ : ∃ nd, L.mesh.nodes[nodeNo w x y]? = some nd :=
    ⟨_, get_node (by rw [C.grid.nodes_length]; exact nodeNo_lt hx hy)⟩
  unfold OnDomainEdge
  rw [hnd]
  simpa [onEdge] using C.grid.isDomain x y nd hx hy hnd

/-- **C31** (fixed domain): an update never moves a node of the domain edge, in any reachable state: it is not in the band, and its
value is unchanged, or recomputed by the fast marching method from values in which it is unchanged. -/
theorem C31_fixed_edge (hr : Reachable w h L) (hf : L.isFixedDomain = true) {i : Nat} (hi : L.OnDomainEdge i) {dt : D} {b : Bool}
    (e : update dt L = .ok (b, L')) :
    i ∉ L.band ∧ (b = false → vals L'.signedDistance i = vals L.signedDistance i) ∧
    ∃ φ, MotionOf L dt φ ∧ vals φ i = vals L.signedDistance i := by
  have hnb : i ∉ L.band := fun hb => (hr.core.band_free i hb).2.2 hf hi
  obtain ⟨φ, M, -, h1, -⟩ := C29_update_effect hr e
  refine ⟨hnb, fun hb => ?_, φ, M, M.outside i hnb⟩
  rw [(h1 hb).1, M.outside i hnb]

/-- **C31** (the switch never changes): histories keep the choice made at construction. -/
theorem C31_switch_kept (hr : Reachable w h L) (hc : Calls w h L L') :
    L'.isFixedDomain = L.isFixedDomain ∧ L'.bandWidth = L.bandWidth ∧ L'.moveLimit = L.moveLimit := by
  have E := hc.evolves hr.core
  exact ⟨E.params.2.2, E.params.2.1, E.params.1⟩

end

/-- **C31** (free domain): after an update that does not reinitialise, no band node on the domain edge is positive. -/
theorem C31_free_edge {w h : Nat} {L L' : LevelSet ℝ} (hr : Reachable w h L) {i : Nat} (hi : L.OnDomainEdge i) (hb : i ∈ L.band) {dt : ℝ}
    (e : update dt L = .ok (false, L')) : vals L'.signedDistance i ≤ 0 := by
  obtain ⟨φ, M, -, h1, -⟩ := C29_update_effect hr e
  rw [(h1 rfl).1]
  by_cases hp : FP.lt (FP.nat 0) (FP.sub (vals L.signedDistance i) (FP.mul (FP.mul dt (vals L.gradient i)) (vals L.velocity i))) = true
  · rw [M.capped i hb hi hp]; simp
  · rw [M.moved i hb (fun h => hp h.2)]
    simpa using hp

/-- The hypotheses of `C31_free_edge` are met: in the example level set the corner `(0, 0)` is on the edge and in the band. -/
example : ∃ L : LevelSet ℝ, Reachable 10 10 L ∧ L.OnDomainEdge (nodeNo 10 0 0) ∧ nodeNo 10 0 0 ∈ L.band := by
  obtain ⟨L, hL, -⟩ := example_hole
  have hr : Reachable 10 10 L := .new (by norm_num) (by norm_num) (by norm_num) (by norm_num) hL
  have B := built (by norm_num) (by norm_num) (by norm_num) (by norm_num) hL
  refine ⟨L, hr, (C31_edge hr (by norm_num) (by norm_num)).2 (.inl rfl), ?_⟩
  have hv := C23_holes_exact (by norm_num) (by norm_num) (by norm_num) (by norm_num) hL (x := 0) (y := 0) (by norm_num) (by norm_num)
  have h0 : vals L.signedDistance (nodeNo 10 0 0) = 0 := by
    have hge : (5 / 2 : ℝ) ≤ distance ⟨5, 5⟩ (lattice 0 0) := by
      unfold distance lattice
      apply Real.le_sqrt_of_sq_le
      norm_num
    refine hv.unique ⟨.inl (by norm_num [edgeDist]), ?_⟩
    rintro q (hq | ⟨hole, hm, hq⟩)
    · rw [Set.mem_singleton_iff] at hq; rw [hq]; exact Nat.cast_nonneg _
    · rw [List.mem_singleton] at hm; rw [hq, hm]; simpa using hge
  rw [B.band.band_mem]
  refine ⟨⟨by rw [B.wf.grid.nNodes]; exact nodeNo_lt (by norm_num) (by norm_num), B.unmasked _, ?_⟩, ?_⟩
  · rw [B.params.2.2]; simp
  · rw [h0, B.params.2.1]; norm_num

end Slsm
