import Verif.Proof.LSShape

/-! Operations on level sets: reinitialisation, masking, update. -/

namespace Slsm

set_option linter.unusedSectionVars false

variable {D : Type} [FP D] {w h : Nat}

theorem vals_set {l : List D} {n i : Nat} {v : D} (hn : n < l.length) : vals (l.set n v) i = if i = n then v else vals l i := by
  unfold vals
  rw [List.getD_eq_getElem?_getD, List.getD_eq_getElem?_getD, List.getElem?_set]
  by_cases e : n = i
  · subst e; simp [hn]
  · rw [if_neg e, if_neg (fun h => e h.symm)]

theorem rd_vals {l : List D} {n : Nat} (hn : n < l.length) : rd l n = .ok (vals l n) := by
  rw [rd_eq hn]; unfold vals; simp [hn]

theorem getElem?_modify_self {α : Type} (l : List α) (i : Nat) (f : α → α) : (l.modify i f)[i]? = (l[i]?).map f := by
  simp [List.getElem?_modify]

theorem getElem?_modify_other {α : Type} (l : List α) {i j : Nat} (f : α → α) (e : j ≠ i) : (l.modify i f)[j]? = l[j]? := by
  rw [List.getElem?_modify]
  have : ¬ i = j := fun h => e h.symm
  simp [this]

namespace LevelSet

variable {L L0 L' : LevelSet D}

/-- Facts that hold for a level set between calls of the public functions. -/
structure Core (w h : Nat) (L : LevelSet D) : Prop extends WF w h L where
  small : L.mesh.nNodes < 2147483648
  band_count : L.nNarrowBand ≤ L.narrowBand.length
  band_sorted : L.band.Pairwise (· < ·)
  band_free : ∀ i ∈ L.band, L.Free i
  mine_count : L.nMines ≤ L.mines.length
  mine_sub : ∀ i ∈ L.mineList, i ∈ L.band
  active : ∀ i, L.FlagActive i ↔ i ∈ L.band

theorem BandOk.core (W : WF w h L) (B : BandOk L) (hN : L.mesh.nNodes < 2147483648) : Core w h L := by
  refine { W with small := hN, band_count := ?_, band_sorted := B.band_sorted, band_free := ?_, mine_count := ?_,
                  mine_sub := ?_, active := ?_ }
  · have := B.band_count; unfold band at this; simp at this; omega
  · intro i hi; exact ((B.band_mem i).1 hi).1
  · have := B.mine_count; unfold mineList at this; simp at this; omega
  · intro i hi; exact (B.band_mem i).2 ((B.mine_mem i).1 hi).1
  · intro i; rw [B.active, B.band_mem]

/-! ### reinitialise -/

theorem reinitialise_spec (W : WF w h L) (hN : L.mesh.nNodes < 2147483648) :
    wp (reinitialise L) (fun L' => WF w h L' ∧ BandOk L' ∧ ∃ F, FMM.marchDistance L.mesh L.signedDistance (FMM.new L.mesh false) = .ok F ∧
      F.sd.length = L.mesh.nNodes ∧ Banded { L with signedDistance := F.sd } L')
      (fun e => e = .exit ∧ FMM.marchDistance L.mesh L.signedDistance (FMM.new L.mesh false) = .error .exit) := by
  unfold reinitialise
  have hm := FMM.marchDistance_spec W.grid L.signedDistance W.sd false
  rw [wp_bind]
  cases hr : FMM.marchDistance L.mesh L.signedDistance (FMM.new L.mesh false) with
  | error e =>
    rw [hr] at hm
    rw [wp_error] at hm ⊢
    rcases hm with h1 | ⟨_, -, _, -, h1⟩ <;> exact ⟨h1.1, by rw [h1.1]⟩
  | ok F =>
    rw [hr, wp_ok] at hm
    rw [wp_ok]
    have W1 : WF w h { L with signedDistance := F.sd } := { W with sd := hm.L.d }
    refine wp_mono (initialiseNarrowBand_spec W1 hN) ?_ (by intro e h; cases h)
    rintro L' ⟨a, b, c⟩
    exact ⟨a, b, F, rfl, hm.L.d, c⟩

theorem Banded.nNodes (B : Banded L L') : L'.mesh.nNodes = L.mesh.nNodes := by rw [B.frame]

theorem Banded.masked (B : Banded L L') (i : Nat) : L'.Masked i ↔ L.Masked i := by
  unfold Masked
  rw [B.nodes]
  constructor
  · rintro ⟨nd, h1, h2⟩
    obtain ⟨nd0, h0, rfl⟩ := Option.map_eq_some_iff.1 h1
    exact ⟨nd0, h0, h2⟩
  · rintro ⟨nd, h1, h2⟩
    exact ⟨reflag L i nd, by rw [h1]; rfl, h2⟩

/-! ### masking -/

/-- Result of `maskNode`. -/
def masked1 (i : Nat) (L : LevelSet D) : LevelSet D :=
  { L with signedDistance := L.signedDistance.set i (FP.neg (FP.lit 1 1000000)),
           mesh := { L.mesh with nodes := L.mesh.nodes.modify i fun nd => { nd with isMasked := true } } }

theorem maskNode_eq {i : Nat} (hi : i < L.mesh.nodes.length) (hs : i < L.signedDistance.length) :
    maskNode i L = .ok (masked1 i L) := by
  unfold maskNode masked1
  rw [wr_eq _ hs]
  simp only [bind, Except.bind]
  rw [modAt_modify _ hi]
  rfl

/-- State of a level set in which the nodes satisfying `P` have been masked. -/
structure MaskedBy (L : LevelSet D) (P : Nat → Prop) (L' : LevelSet D) : Prop where
  frame : L' = { L with signedDistance := L'.signedDistance, mesh := { L.mesh with nodes := L'.mesh.nodes } }
  sdLen : L'.signedDistance.length = L.signedDistance.length
  nodesLen : L'.mesh.nodes.length = L.mesh.nodes.length
  yes : ∀ i, P i → vals L'.signedDistance i = FP.neg (FP.lit 1 1000000) ∧
    ∀ nd, L.mesh.nodes[i]? = some nd → L'.mesh.nodes[i]? = some { nd with isMasked := true }
  no : ∀ i, ¬ P i → vals L'.signedDistance i = vals L.signedDistance i ∧ L'.mesh.nodes[i]? = L.mesh.nodes[i]?

theorem MaskedBy.step {P : Nat → Prop} (M : MaskedBy L P L') {i : Nat} (hi : i < L.mesh.nodes.length)
    (hs : i < L.signedDistance.length) : MaskedBy L (fun j => P j ∨ j = i) (masked1 i L') := by
  have hi' : i < L'.mesh.nodes.length := by rw [M.nodesLen]; exact hi
  have hs' : i < L'.signedDistance.length := by rw [M.sdLen]; exact hs
  refine ⟨?_, ?_, ?_, ?_, ?_⟩
  · unfold masked1; rw [M.frame]
  · unfold masked1; simp [M.sdLen]
  · unfold masked1; simp [M.nodesLen]
  · intro j hj
    unfold masked1
    dsimp only
    rw [vals_set hs']
    by_cases e : j = i
    · subst e
      refine ⟨if_pos rfl, fun nd hnd => ?_⟩
      rw [getElem?_modify_self]
      by_cases hp : P j
      · rw [(M.yes j hp).2 nd hnd]; rfl
      · rw [(M.no j hp).2, hnd]; rfl
    · have hp : P j := hj.resolve_right e
      rw [if_neg e]
      refine ⟨(M.yes j hp).1, fun nd hnd => ?_⟩
      rw [getElem?_modify_other _ _ e, (M.yes j hp).2 nd hnd]
  · intro j hj
    have e : j ≠ i := fun h => hj (.inr h)
    have hp : ¬ P j := fun h => hj (.inl h)
    unfold masked1
    dsimp only
    rw [vals_set hs', if_neg e, getElem?_modify_other _ _ e]
    refine ⟨(M.no j hp).1, ?_⟩
    exact (M.no j hp).2

theorem MaskedBy.congr {P Q : Nat → Prop} (M : MaskedBy L P L') (h : ∀ i, P i ↔ Q i) : MaskedBy L Q L' := by
  have : P = Q := funext fun i => propext (h i)
  rw [← this]; exact M

theorem MaskedBy.refl (L : LevelSet D) : MaskedBy L (fun _ => False) L :=
  ⟨rfl, rfl, rfl, fun _ h => h.elim, fun _ _ => ⟨rfl, rfl⟩⟩

theorem MaskedBy.coord {P : Nat → Prop} (M : MaskedBy L P L') {i : Nat} (hi : i < L.mesh.nodes.length) :
    ∃ nd, rd L'.mesh.nodes i = .ok nd ∧ nd.coord = (nodeOf L.mesh i).coord := by
  by_cases hp : P i
  · exact ⟨_, rd_of_getElem? ((M.yes i hp).2 _ (get_node hi)), rfl⟩
  · exact ⟨nodeOf L.mesh i, rd_of_getElem? (by rw [(M.no i hp).2]; exact get_node hi), rfl⟩

theorem MaskedBy.wf {P : Nat → Prop} (W : WF w h L) (M : MaskedBy L P L') : WF w h L' := by
  have hm : L'.mesh = { L.mesh with nodes := L'.mesh.nodes } := by rw [M.frame]
  have hN : L'.mesh.nNodes = L.mesh.nNodes := by rw [M.frame]
  refine ⟨?_, ?_, ?_, ?_, ?_, ?_, ?_⟩
  · rw [hm]
    refine W.grid.congr_nodes M.nodesLen fun i nd hnd => ?_
    by_cases hp : P i
    · have hi : i < L.mesh.nodes.length := by
        rw [← M.nodesLen]; by_contra hc
        rw [List.getElem?_eq_none (by omega)] at hnd; cases hnd
      have := (M.yes i hp).2 _ (get_node hi)
      rw [this] at hnd
      cases hnd
      exact ⟨_, get_node hi, rfl, rfl, rfl, rfl, rfl, rfl⟩
    · rw [(M.no i hp).2] at hnd
      exact ⟨nd, hnd, rfl, rfl, rfl, rfl, rfl, rfl⟩
  · rw [hN, M.sdLen, W.sd]
  · rw [hN, ← W.velocity, M.frame]
  · rw [hN, ← W.gradient, M.frame]
  · rw [hN, ← W.narrowBand, M.frame]
  · rw [M.frame]; exact W.mines
  · rw [M.frame]; exact W.bandWidth

/-- Node `i` lies in one of the holes. -/
def InHoles (L : LevelSet D) (holes : List (Hole D)) (i : Nat) : Prop :=
  i < L.mesh.nNodes ∧ ∃ hole ∈ holes, FP.lt (centreDist hole.coord (nodeOf L.mesh i).coord) hole.r = true

theorem maskHoles_loop (W : WF w h L) (holes : List (Hole D)) :
    wp (forN L.mesh.nNodes L fun i L =>
      forN holes.length L fun j L => do
        let hole ← rd holes j
        let nd ← rd L.mesh.nodes i
        if FP.lt (centreDist hole.coord nd.coord) hole.r then maskNode i L else pure L)
      (MaskedBy L (InHoles L holes)) noErr := by
  have hn := W.nodes_len
  refine wp_imp (wp_forN (fun k => MaskedBy L fun i => i < k ∧ InHoles L holes i) ?_ ?_) fun L' M => ?_
  · exact (MaskedBy.refl L).congr (by simp)
  · intro k hk t M
    have : wp (forN holes.length t fun j L => do
        let hole ← rd holes j
        let nd ← rd L.mesh.nodes k
        if FP.lt (centreDist hole.coord nd.coord) hole.r then maskNode k L else pure L)
        (MaskedBy L fun i => i < k ∧ InHoles L holes i ∨ i = k ∧ InHoles L (holes.take holes.length) k) noErr := by
      refine wp_forN (fun j => MaskedBy L fun i => i < k ∧ InHoles L holes i ∨ i = k ∧ InHoles L (holes.take j) k) ?_ ?_
      · refine M.congr fun i => ?_
        simp [InHoles]
      · intro j hj u M'
        obtain ⟨nd, h1, h2⟩ := M'.coord (i := k) (by omega)
        rw [rd_eq hj, h1]
        simp only [bind, Except.bind]
        rw [h2]
        have htake : ∀ i, InHoles L (holes.take (j + 1)) i ↔ InHoles L (holes.take j) i ∨
            (i < L.mesh.nNodes ∧ FP.lt (centreDist holes[j].coord (nodeOf L.mesh i).coord) holes[j].r = true) := by
          intro i
          unfold InHoles
          rw [List.take_succ_eq_append_getElem hj]
          simp only [List.mem_append, List.mem_singleton]
          constructor
          · rintro ⟨hi, hole, hm | rfl, hl⟩
            · exact .inl ⟨hi, hole, hm, hl⟩
            · exact .inr ⟨hi, hl⟩
          · rintro (⟨hi, hole, hm, hl⟩ | ⟨hi, hl⟩)
            · exact ⟨hi, hole, .inl hm, hl⟩
            · exact ⟨hi, _, .inr rfl, hl⟩
        by_cases hc : FP.lt (centreDist holes[j].coord (nodeOf L.mesh k).coord) holes[j].r = true
        · rw [if_pos hc, maskNode_eq (by rw [M'.nodesLen]; omega) (by rw [M'.sdLen, W.sd]; omega), wp_ok]
          refine (M'.step (by omega) (by rw [W.sd]; omega)).congr fun i => ?_
          rw [htake]
          constructor
          · rintro ((h | h) | h)
            · exact .inl h
            · exact .inr ⟨h.1, .inl h.2⟩
            · exact .inr ⟨h, .inr ⟨by omega, hc⟩⟩
          · rintro (h | h)
            · exact .inl (.inl h)
            · exact .inr h.1
        · rw [if_neg hc, wp_pure]
          refine M'.congr fun i => ?_
          rw [htake]
          constructor
          · rintro (h | h)
            · exact .inl h
            · exact .inr ⟨h.1, .inl h.2⟩
          · rintro (h | ⟨h1, h | h⟩)
            · exact .inl h
            · exact .inr ⟨h1, h⟩
            · exact absurd h.2 hc
    refine wp_imp this fun L' M' => M'.congr fun i => ?_
    rw [List.take_of_length_le (Nat.le_refl _)]
    constructor
    · rintro (h | ⟨rfl, h⟩)
      · exact ⟨by omega, h.2⟩
      · exact ⟨by omega, h⟩
    · rintro ⟨h1, h2⟩
      by_cases e : i = k
      · subst e; exact .inr ⟨rfl, h2⟩
      · exact .inl ⟨by omega, h2⟩
  · exact M.congr fun i => ⟨fun h => h.2, fun h => ⟨h.1, h⟩⟩

/-- Node `i` lies in the region given by `points`. -/
def InPoints (L : LevelSet D) (points : List (Coord D)) (i : Nat) : Prop :=
  i < L.mesh.nNodes ∧ inRegion points (nodeOf L.mesh i).coord = .ok true

theorem inRegion_ok {points : List (Coord D)} (h0 : points ≠ []) (p : Coord D) : ∃ b, inRegion points p = .ok b := by
  unfold inRegion
  split
  · exact ⟨_, rfl⟩
  · exact ⟨_, isInsidePolygon_eq p h0⟩

theorem maskPoints_loop (W : WF w h L) {points : List (Coord D)} (h0 : points ≠ []) :
    wp (forN L.mesh.nNodes L fun i L => do
        let nd ← rd L.mesh.nodes i
        let inside ← inRegion points nd.coord
        if inside then maskNode i L else pure L)
      (MaskedBy L (InPoints L points)) noErr := by
  have hn := W.nodes_len
  refine wp_imp (wp_forN (fun k => MaskedBy L fun i => i < k ∧ InPoints L points i) ?_ ?_) fun L' M => ?_
  · exact (MaskedBy.refl L).congr (by simp)
  · intro k hk u M'
    obtain ⟨nd, h1, h2⟩ := M'.coord (i := k) (by omega)
    obtain ⟨b, hb⟩ := inRegion_ok h0 (nodeOf L.mesh k).coord
    rw [h1]
    simp only [bind, Except.bind]
    rw [h2, hb]
    cases b <;> dsimp only
    · rw [if_neg (by simp), wp_pure]
      refine M'.congr fun i => ⟨fun h => ⟨by omega, h.2⟩, fun h => ⟨?_, h.2⟩⟩
      by_contra hc
      have : i = k := by omega
      subst this
      have := h.2.2
      rw [hb] at this; cases this
    · rw [if_pos rfl, maskNode_eq (by rw [M'.nodesLen]; omega) (by rw [M'.sdLen, W.sd]; omega), wp_ok]
      refine (M'.step (by omega) (by rw [W.sd]; omega)).congr fun i => ?_
      constructor
      · rintro (h | rfl)
        · exact ⟨by omega, h.2⟩
        · exact ⟨by omega, hk, hb⟩
      · rintro ⟨h1, h2⟩
        by_cases e : i = k
        · exact .inr e
        · exact .inl ⟨by omega, h2⟩
  · exact M.congr fun i => ⟨fun h => h.2, fun h => ⟨h.1, h⟩⟩

/-- Result of a masking operation. -/
structure MaskResult (w h : Nat) (L : LevelSet D) (P : Nat → Prop) (L' : LevelSet D) : Prop where
  wf : WF w h L'
  band : BandOk L'
  masked : ∀ i, i < L.mesh.nNodes → (L'.Masked i ↔ L.Masked i ∨ P i)
  mid : ∃ L1 F, MaskedBy L P L1 ∧ FMM.marchDistance L1.mesh L1.signedDistance (FMM.new L1.mesh false) = .ok F ∧
    L'.signedDistance = F.sd ∧ Banded { L1 with signedDistance := F.sd } L'

theorem mask_finish {P : Nat → Prop} (W : WF w h L) (hN : L.mesh.nNodes < 2147483648) {L1 : LevelSet D} (M : MaskedBy L P L1) :
    wp (reinitialise L1) (MaskResult w h L P) (fun e => e = .exit ∧
      FMM.marchDistance L1.mesh L1.signedDistance (FMM.new L1.mesh false) = .error .exit) := by
  have hN1 : L1.mesh.nNodes = L.mesh.nNodes := by rw [M.frame]
  refine wp_imp (reinitialise_spec (M.wf W) (by rw [hN1]; exact hN)) ?_
  rintro L' ⟨W', B', F, hF, hFl, hB⟩
  refine ⟨W', B', fun i hi => ?_, L1, F, M, hF, by rw [hB.frame], hB⟩
  rw [hB.masked]
  have hget := get_node (m := L.mesh) (i := i) (by rw [W.nodes_len]; exact hi)
  show L1.Masked i ↔ _
  unfold Masked
  rw [hget]
  by_cases hp : P i
  · rw [(M.yes i hp).2 _ hget]
    simp [hp]
  · rw [(M.no i hp).2, hget]
    simp [hp]

theorem maskHoles_spec (W : WF w h L) (hN : L.mesh.nNodes < 2147483648) (holes : List (Hole D)) :
    wp (maskHoles holes L) (MaskResult w h L (InHoles L holes)) (fun e => e = .exit ∧ ∃ L1, MaskedBy L (InHoles L holes) L1 ∧
      FMM.marchDistance L1.mesh L1.signedDistance (FMM.new L1.mesh false) = .error .exit) := by
  unfold maskHoles
  rw [wp_bind]
  refine wp_mono (maskHoles_loop W holes) (fun L1 M => ?_) (fun _ h => h.elim)
  exact wp_mono (mask_finish W hN M) (fun _ h => h) fun _ h => ⟨h.1, L1, M, h.2⟩

theorem maskPoints_spec (W : WF w h L) (hN : L.mesh.nNodes < 2147483648) {points : List (Coord D)} (h0 : points ≠ []) :
    wp (maskPoints points L) (MaskResult w h L (InPoints L points)) (fun e => e = .exit ∧ ∃ L1, MaskedBy L (InPoints L points) L1 ∧
      FMM.marchDistance L1.mesh L1.signedDistance (FMM.new L1.mesh false) = .error .exit) := by
  unfold maskPoints
  rw [wp_bind]
  refine wp_mono (maskPoints_loop W h0) (fun L1 M => ?_) (fun _ h => h.elim)
  exact wp_mono (mask_finish W hN M) (fun _ h => h) fun _ h => ⟨h.1, L1, M, h.2⟩

/-! ### update -/

/-- Value of a band node after the motion. -/
def movedVal (L : LevelSet D) (dt : D) (i : Nat) : D :=
  let s := FP.sub (vals L.signedDistance i) (FP.mul (FP.mul dt (vals L.gradient i)) (vals L.velocity i))
  if (nodeOf L.mesh i).isDomain && FP.lt (FP.nat 0) s then FP.nat 0 else s

/-- State in which the nodes satisfying `P` have been moved. -/
structure Moved (L : LevelSet D) (dt : D) (P : Nat → Prop) (L' : LevelSet D) : Prop where
  frame : L' = { L with signedDistance := L'.signedDistance, mesh := { L.mesh with nodes := L'.mesh.nodes } }
  sdLen : L'.signedDistance.length = L.signedDistance.length
  nodesLen : L'.mesh.nodes.length = L.mesh.nodes.length
  yes : ∀ i, P i → vals L'.signedDistance i = movedVal L dt i ∧
    ∀ nd, L.mesh.nodes[i]? = some nd → L'.mesh.nodes[i]? = some { nd with nBoundaryPoints := 0 }
  no : ∀ i, ¬ P i → vals L'.signedDistance i = vals L.signedDistance i ∧ L'.mesh.nodes[i]? = L.mesh.nodes[i]?

theorem Moved.congr {dt : D} {P Q : Nat → Prop} (M : Moved L dt P L') (h : ∀ i, P i ↔ Q i) : Moved L dt Q L' := by
  have : P = Q := funext fun i => propext (h i)
  rw [← this]; exact M

theorem band_getElem (C : Core w h L) {k : Nat} (hk : k < L.nNarrowBand) :
    ∃ n, rd L.narrowBand k = .ok n ∧ L.band[k]? = some n ∧ n < L.mesh.nNodes := by
  have hk' : k < L.narrowBand.length := Nat.lt_of_lt_of_le hk C.band_count
  refine ⟨L.narrowBand[k], rd_eq hk', ?_, ?_⟩
  · unfold band; rw [List.getElem?_take, if_pos hk]; simp
  · refine (C.band_free _ ?_).1
    unfold band
    exact List.mem_of_getElem? (i := k) (by rw [List.getElem?_take, if_pos hk]; simp)

theorem band_take_succ {k n : Nat} (hk : L.band[k]? = some n) (i : Nat) : i ∈ L.band.take (k + 1) ↔ i ∈ L.band.take k ∨ i = n := by
  have hlt : k < L.band.length := by
    by_contra hc
    rw [List.getElem?_eq_none (by omega)] at hk; cases hk
  rw [List.take_succ_eq_append_getElem hlt]
  rw [List.getElem?_eq_getElem hlt] at hk
  cases hk
  rw [List.mem_append, List.mem_singleton]

theorem band_not_mem_take (C : Core w h L) {k n : Nat} (hk : L.band[k]? = some n) : n ∉ L.band.take k := by
  intro hm
  obtain ⟨j, hj, e⟩ := List.mem_take_iff_getElem.1 hm
  have hlt : k < L.band.length := by
    by_contra hc
    rw [List.getElem?_eq_none (by omega)] at hk; cases hk
  rw [List.getElem?_eq_getElem hlt] at hk
  have hs := List.pairwise_iff_getElem.1 C.band_sorted j k (by omega) hlt (by omega)
  rw [e] at hs
  cases hk
  omega

theorem update_loop (C : Core w h L) (dt : D) :
    wp (forN L.nNarrowBand L (updateBandNode dt)) (Moved L dt (· ∈ L.band)) noErr := by
  have hn := C.nodes_len
  have hlen : L.band.length = L.nNarrowBand := by unfold band; simp [C.band_count]
  refine wp_imp (wp_forN (fun k => Moved L dt (· ∈ L.band.take k)) ?_ ?_) fun L' M => ?_
  · exact ⟨rfl, rfl, rfl, fun i h => by simp at h, fun i _ => ⟨rfl, rfl⟩⟩
  · intro k hk t M
    obtain ⟨n, h1, h2, h3⟩ := band_getElem C hk
    have hnot := band_not_mem_take C h2
    unfold updateBandNode
    have e1 : t.narrowBand = L.narrowBand := by rw [M.frame]
    have e2 : t.gradient = L.gradient := by rw [M.frame]
    have e3 : t.velocity = L.velocity := by rw [M.frame]
    have hs : n < t.signedDistance.length := by rw [M.sdLen, C.sd]; exact h3
    have hnd : n < t.mesh.nodes.length := by rw [M.nodesLen, hn]; exact h3
    have hnode : rd t.mesh.nodes n = .ok (nodeOf L.mesh n) := by
      apply rd_of_getElem?
      rw [(M.no n hnot).2]
      exact get_node (by omega)
    rw [e1, e2, e3, h1]
    simp only [bind, Except.bind]
    rw [rd_vals hs, rd_vals (show n < L.gradient.length by rw [C.gradient]; exact h3),
      rd_vals (show n < L.velocity.length by rw [C.velocity]; exact h3), hnode]
    dsimp only
    rw [wr_eq _ hs, modAt_modify _ hnd]
    dsimp only
    rw [wp_pure, (M.no n hnot).1]
    refine ⟨?_, ?_, ?_, ?_, ?_⟩
    · dsimp only; rw [M.frame]
    · dsimp only; simp [M.sdLen]
    · dsimp only; simp [M.nodesLen]
    · intro i hi
      dsimp only
      rw [vals_set hs]
      by_cases e : i = n
      · subst e
        refine ⟨by rw [if_pos rfl]; rfl, fun nd hd => ?_⟩
        rw [getElem?_modify_self, (M.no i hnot).2, hd]; rfl
      · have hp := ((band_take_succ h2 i).1 hi).resolve_right e
        rw [if_neg e]
        refine ⟨(M.yes i hp).1, fun nd hd => ?_⟩
        rw [getElem?_modify_other _ _ e, (M.yes i hp).2 nd hd]
    · intro i hi
      rw [band_take_succ h2] at hi
      have e : i ≠ n := fun h => hi (.inr h)
      have hp : i ∉ L.band.take k := fun h => hi (.inl h)
      dsimp only
      rw [vals_set hs, if_neg e, getElem?_modify_other _ _ e]
      exact ⟨(M.no i hp).1, (M.no i hp).2⟩
  · rw [← hlen, List.take_length] at M
    exact M

/-- A mine is within one grid unit of the interface. -/
def MineHit (L : LevelSet D) : Prop := ∃ i ∈ L.mineList, FP.lt (FP.abs (vals L.signedDistance i)) (FP.nat 1) = true

theorem mineHit_eq (hc : L.nMines ≤ L.mines.length) (hm : ∀ i ∈ L.mineList, i < L.signedDistance.length) :
    wp (mineHit L) (fun b => b = true ↔ L.MineHit) noErr := by
  unfold mineHit
  have hl : L.mineList.length = L.nMines := by unfold mineList; simp [hc]
  refine wp_imp (wp_forN (fun k b => b = true ↔ ∃ i ∈ L.mineList.take k,
    FP.lt (FP.abs (vals L.signedDistance i)) (FP.nat 1) = true) (by simp) ?_) fun b hb => ?_
  · intro k hk b hb
    have hkl : k < L.mineList.length := by omega
    have hk2 : k < L.mines.length := by omega
    have hget : L.mineList[k] = L.mines[k] := List.getElem_take ..
    rw [List.take_succ_eq_append_getElem hkl]
    cases b
    · rw [if_neg (by simp), rd_eq hk2]
      simp only [bind, Except.bind]
      rw [rd_vals (hm _ (by rw [← hget]; exact List.getElem_mem hkl)), hget]
      dsimp only
      rw [wp_pure]
      have hb' : ¬ ∃ i ∈ L.mineList.take k, FP.lt (FP.abs (vals L.signedDistance i)) (FP.nat 1) = true :=
        fun h => by have := hb.2 h; cases this
      constructor
      · intro h; exact ⟨_, by simp, h⟩
      · rintro ⟨i, hi, h⟩
        rcases List.mem_append.1 hi with hi | hi
        · exact absurd ⟨i, hi, h⟩ hb'
        · rw [List.mem_singleton] at hi; rw [← hi]; exact h
    · rw [if_pos rfl, wp_pure]
      obtain ⟨i, hi, h⟩ := hb.1 rfl
      exact ⟨fun _ => ⟨i, List.mem_append_left _ hi, h⟩, fun _ => rfl⟩
  · rw [← hl, List.take_length] at hb
    exact hb

theorem Moved.wf {dt : D} {P : Nat → Prop} (W : WF w h L) (M : Moved L dt P L') : WF w h L' := by
  have hm : L'.mesh = { L.mesh with nodes := L'.mesh.nodes } := by rw [M.frame]
  have hN : L'.mesh.nNodes = L.mesh.nNodes := by rw [M.frame]
  refine ⟨?_, ?_, ?_, ?_, ?_, ?_, ?_⟩
  · rw [hm]
    refine W.grid.congr_nodes M.nodesLen fun i nd hnd => ?_
    by_cases hp : P i
    · have hi : i < L.mesh.nodes.length := by
        rw [← M.nodesLen]; by_contra hc
        rw [List.getElem?_eq_none (by omega)] at hnd; cases hnd
      have := (M.yes i hp).2 _ (get_node hi)
      rw [this] at hnd
      cases hnd
      exact ⟨_, get_node hi, rfl, rfl, rfl, rfl, rfl, rfl⟩
    · rw [(M.no i hp).2] at hnd
      exact ⟨nd, hnd, rfl, rfl, rfl, rfl, rfl, rfl⟩
  · rw [hN, M.sdLen, W.sd]
  · rw [hN, ← W.velocity, M.frame]
  · rw [hN, ← W.gradient, M.frame]
  · rw [hN, ← W.narrowBand, M.frame]
  · rw [M.frame]; exact W.mines
  · rw [M.frame]; exact W.bandWidth

/-- The flags of a node are not changed by the motion. -/
theorem Moved.node {dt : D} {P : Nat → Prop} (M : Moved L dt P L') (i : Nat) :
    (L'.mesh.nodes[i]?).map (fun nd => (nd.isMasked, nd.isDomain, nd.isActive, nd.isMine)) =
      (L.mesh.nodes[i]?).map (fun nd => (nd.isMasked, nd.isDomain, nd.isActive, nd.isMine)) := by
  by_cases hp : P i
  · cases h0 : L.mesh.nodes[i]? with
    | none =>
      have h1 : L.mesh.nodes.length ≤ i := by simpa using h0
      rw [List.getElem?_eq_none (by rw [M.nodesLen]; exact h1)]
    | some nd => rw [(M.yes i hp).2 nd h0]; rfl
  · rw [(M.no i hp).2]

theorem flag_iff {L L' : LevelSet D} {i : Nat} {β : Type} (f : Node D → β) (g : β → Prop)
    (h : (L'.mesh.nodes[i]?).map f = (L.mesh.nodes[i]?).map f) :
    (∃ nd, L'.mesh.nodes[i]? = some nd ∧ g (f nd)) ↔ ∃ nd, L.mesh.nodes[i]? = some nd ∧ g (f nd) := by
  cases h1 : L'.mesh.nodes[i]? <;> cases h2 : L.mesh.nodes[i]? <;> rw [h1, h2] at h <;> simp at h ⊢
  rw [h]

theorem Moved.core {dt : D} {P : Nat → Prop} (C : Core w h L) (M : Moved L dt P L') : Core w h L' := by
  have hN : L'.mesh.nNodes = L.mesh.nNodes := by rw [M.frame]
  have hb : L'.band = L.band := by unfold band; rw [M.frame]
  have hm : L'.mineList = L.mineList := by unfold mineList; rw [M.frame]
  refine { M.wf C.toWF with small := by rw [hN]; exact C.small, band_count := by rw [M.frame]; exact C.band_count,
                            band_sorted := by rw [hb]; exact C.band_sorted, band_free := ?_,
                            mine_count := by rw [M.frame]; exact C.mine_count,
                            mine_sub := by rw [hb, hm]; exact C.mine_sub, active := ?_ }
  · intro i hi
    rw [hb] at hi
    obtain ⟨a, b, c⟩ := C.band_free i hi
    refine ⟨by rw [hN]; exact a, fun hk => b ?_, fun hf hk => c (by rw [M.frame] at hf; exact hf) ?_⟩
    · exact (flag_iff (fun nd => (nd.isMasked, nd.isDomain, nd.isActive, nd.isMine)) (fun t => t.1 = true) (M.node i)).1 hk
    · exact (flag_iff (fun nd => (nd.isMasked, nd.isDomain, nd.isActive, nd.isMine)) (fun t => t.2.1 = true) (M.node i)).1 hk
  · intro i
    rw [hb, ← C.active i]
    exact flag_iff (fun nd => (nd.isMasked, nd.isDomain, nd.isActive, nd.isMine)) (fun t => t.2.2.1 = true) (M.node i)

/-- Result of `update`. -/
inductive Updated (w h : Nat) (L : LevelSet D) (dt : D) : Bool × LevelSet D → Prop
  | no {L1 : LevelSet D} (M : Moved L dt (· ∈ L.band) L1) (hn : ¬ L1.MineHit) : Updated w h L dt (false, L1)
  | yes {L1 L2 : LevelSet D} (F : FMM D) (M : Moved L dt (· ∈ L.band) L1) (hn : L1.MineHit)
      (hF : FMM.marchDistance L1.mesh L1.signedDistance (FMM.new L1.mesh false) = .ok F)
      (hB : Banded { L1 with signedDistance := F.sd } L2) (W : WF w h L2) (B : BandOk L2) : Updated w h L dt (true, L2)

theorem update_spec (C : Core w h L) (dt : D) :
    wp (update dt L) (Updated w h L dt) (fun e => e = .exit ∧ ∃ L1, Moved L dt (· ∈ L.band) L1 ∧ L1.MineHit ∧
      FMM.marchDistance L1.mesh L1.signedDistance (FMM.new L1.mesh false) = .error .exit) := by
  unfold update
  rw [wp_bind]
  refine wp_mono (update_loop C dt) (fun L1 M => ?_) (fun _ h => h.elim)
  have C1 := M.core C
  have hmem : ∀ i ∈ L1.mineList, i < L1.signedDistance.length := by
    intro i hi
    rw [C1.sd]
    exact (C1.band_free i (C1.mine_sub i hi)).1
  rw [wp_bind]
  refine wp_mono (mineHit_eq C1.mine_count hmem) (fun b hb => ?_) (fun _ h => h.elim)
  cases b
  · rw [if_neg (by simp), wp_pure]
    exact .no M fun h => by have := hb.2 h; cases this
  · rw [if_pos rfl, wp_bind]
    refine wp_mono (reinitialise_spec C1.toWF C1.small) ?_ ?_
    · rintro L2 ⟨W2, B2, F, hF, -, hB⟩
      rw [wp_pure]
      exact .yes F M (hb.1 rfl) hF hB W2 B2
    · rintro e ⟨rfl, he⟩
      exact ⟨rfl, L1, M, hb.1 rfl, he⟩

end LevelSet

end Slsm
