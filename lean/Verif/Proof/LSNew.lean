import Verif.Proof.LSVel
import Verif.Proof.LSGrad
import Verif.Proof.LSShapeReal
import Verif.Props.Mesh

/-! Construction of level sets. -/

namespace Slsm

set_option linter.unusedSectionVars false

variable {D : Type} [FP D] {w h : Nat}

namespace LevelSet

variable {L L' : LevelSet D}

/-- The parameters accepted by the constructors. -/
def GoodParams (moveLimit : D) (bandWidth : Nat) : Prop :=
  2 < bandWidth ∧ FP.lt (FP.nat 0) moveLimit = true ∧ FP.lt moveLimit (FP.nat 1) = true

theorem base_spec (S : MeshSize w h) {moveLimit : D} {bandWidth : Nat} (hb : bandWidth < 4294967296) (f t : Bool) :
    wp (base w h moveLimit bandWidth f t) (fun L => GoodParams moveLimit bandWidth ∧ WF w h L ∧ Mesh.new w h = .ok L.mesh ∧
      L.moveLimit = moveLimit ∧ L.bandWidth = bandWidth ∧ L.isFixedDomain = f ∧
      (∀ (i : Nat) nd, L.mesh.nodes[i]? = some nd → nd.isMasked = false ∧ nd.isMine = false))
      (fun e => e = .exit ∧ ¬ GoodParams moveLimit bandWidth) := by
  obtain ⟨m, hm, G, hfl⟩ := new_isGrid (D := D) S.w_pos S.h_pos (by have := S.fits; norm_num at this; omega)
  unfold base
  rw [hm]
  simp only [bind, Except.bind]
  by_cases h1 : 2 < bandWidth
  · rw [decide_eq_true h1, check_true]
    dsimp only
    by_cases h2 : FP.lt (FP.nat 0) moveLimit = true ∧ FP.lt moveLimit (FP.nat 1) = true
    · rw [show ((FP.lt (FP.nat 0) moveLimit && FP.lt moveLimit (FP.nat 1)) = true) from by simp [h2.1, h2.2], check_true]
      dsimp only
      rw [wp_pure]
      refine ⟨⟨h1, h2.1, h2.2⟩, ?_, rfl, rfl, rfl, rfl, ?_⟩
      · refine ⟨G, by simp, by simp, by simp, by simp, ?_, h1, hb⟩
        simp only [List.length_replicate]
        exact Nat.lt_of_lt_of_le (by norm_num) (Nat.le_max_left _ _)
      · intro i nd hnd
        exact ⟨(hfl.1 i nd hnd).2.1, (hfl.1 i nd hnd).2.2.1⟩
    · have : (FP.lt (FP.nat 0) moveLimit && FP.lt moveLimit (FP.nat 1)) = false := by
        rw [← Bool.not_eq_true, Bool.and_eq_true]; exact h2
      rw [this, check_false]
      exact ⟨rfl, fun h => h2 ⟨h.2.1, h.2.2⟩⟩
  · rw [decide_eq_false h1, check_false]
    exact ⟨rfl, fun h => h1 h.1⟩

/-- The Swiss cheese pattern needs three holes in each direction. -/
def ShapeOk (D : Type) [FP D] (w h : Nat) : Shape D → Prop
  | .cheese => 2 < nCheese (D := D) w ∧ 2 < nCheese (D := D) h
  | .holes _ => True
  | .points l => l ≠ []

/-- value at a node after `initialise` -/
def shapeVal (s : Shape D) (m : Mesh D) (i : Nat) : D :=
  match s with
  | .cheese => holesVal (nodeOf m i).coord
      (cheeseHoles m.width m.height (nCheese (D := D) m.width) (nCheese (D := D) m.height)) (edgeVal m (nodeOf m i))
  | .holes l => holesVal (nodeOf m i).coord l (edgeVal m (nodeOf m i))
  | .points l => pointsVal (nodeOf m i).coord l (edgeVal m (nodeOf m i))

theorem initialise_eq (W : WF w h L) {s : Shape D} (hs : ShapeOk D w h s) :
    initialise s L = .ok { L with signedDistance := ((List.range L.mesh.nNodes).map (shapeVal s L.mesh)) } := by
  cases s with
  | cheese =>
    unfold initialise initialiseCheese
    have hs' : 2 < nCheese (D := D) L.mesh.width ∧ 2 < nCheese (D := D) L.mesh.height := by
      rw [W.grid.width, W.grid.height]; exact hs
    dsimp only
    rw [decide_eq_true hs'.1, decide_eq_true hs'.2]
    exact initialiseHoles_eq W.nodes_len W.sd _
  | holes l => exact initialiseHoles_eq W.nodes_len W.sd l
  | points l => exact initialisePoints_eq W.nodes_len W.sd hs

theorem initialise_cheese_exit (W : WF w h L) (hs : ¬ ShapeOk D w h .cheese) : initialise .cheese L = .error .exit := by
  unfold initialise initialiseCheese
  have hs' : ¬ (2 < nCheese (D := D) L.mesh.width ∧ 2 < nCheese (D := D) L.mesh.height) := by
    rw [W.grid.width, W.grid.height]; exact hs
  dsimp only
  have : (decide (2 < nCheese (D := D) L.mesh.width) && decide (2 < nCheese (D := D) L.mesh.height)) = false := by
    rw [← Bool.not_eq_true, Bool.and_eq_true, decide_eq_true_iff, decide_eq_true_iff]; exact hs'
  rw [this]; rfl

theorem vals_map_range {N i : Nat} (f : Nat → D) (hi : i < N) : vals ((List.range N).map f) i = f i := by
  unfold vals
  rw [List.getD_eq_getElem?_getD, List.getElem?_map, List.getElem?_range hi]; rfl

/-- Result of construction. -/
structure Built (w h : Nat) (s : Shape D) (moveLimit : D) (bandWidth : Nat) (f : Bool) (L : LevelSet D) : Prop where
  wf : WF w h L
  band : BandOk L
  params : L.moveLimit = moveLimit ∧ L.bandWidth = bandWidth ∧ L.isFixedDomain = f
  value : ∃ m, Mesh.new w h = .ok m ∧ L.signedDistance = (List.range m.nNodes).map (shapeVal s m)
  unmasked : ∀ i, ¬ L.Masked i
  mine : ∀ i, L.FlagMine i ↔ i ∈ L.mineList

theorem Banded.flagMine (W : WF w h L) (hB : Banded L L') (i : Nat) : L'.FlagMine i ↔ L.FlagMine i ∨ i ∈ L'.mineList := by
  have hn := W.nodes_len
  unfold FlagMine
  rw [hB.nodes, hB.mines, List.mem_filter, List.mem_range]
  cases h0 : L.mesh.nodes[i]? with
  | none =>
    have : ¬ i < L.mesh.nNodes := by rw [← hn]; simpa using h0
    simp [this]
  | some nd =>
    have hi : i < L.mesh.nNodes := by
      rw [← hn]; by_contra hc
      rw [List.getElem?_eq_none (by omega)] at h0; cases h0
    simp [hi, reflag]

theorem new_spec (S : MeshSize w h) (hN : (w + 1) * (h + 1) < 2147483648) {s : Shape D} {moveLimit : D} {bandWidth : Nat}
    (hb : bandWidth < 4294967296) (f : Bool) (hs : ∀ l, s = .points l → l ≠ []) :
    wp (new w h s moveLimit bandWidth f)
      (fun L => GoodParams moveLimit bandWidth ∧ ShapeOk D w h s ∧ Built w h s moveLimit bandWidth f L)
      (fun e => e = .exit ∧ ¬ (GoodParams moveLimit bandWidth ∧ ShapeOk D w h s)) := by
  unfold new
  rw [wp_bind]
  refine wp_mono (base_spec S hb f false) ?_ fun e he => ⟨he.1, fun h => he.2 h.1⟩
  rintro L ⟨hg, W, hm, p1, p2, p3, hfl⟩
  by_cases hok : ShapeOk D w h s
  · rw [initialise_eq W hok]
    simp only [bind, Except.bind]
    have W1 : WF w h { L with signedDistance := ((List.range L.mesh.nNodes).map (shapeVal s L.mesh)) } :=
      { W with sd := by simp }
    refine wp_mono (initialiseNarrowBand_spec W1 (by rw [W1.grid.nNodes]; exact hN)) ?_ fun e he => he.elim
    rintro L' ⟨W', B', hB⟩
    refine ⟨hg, hok, W', B', ?_, ⟨L.mesh, hm, by rw [hB.frame]⟩, ?_, ?_⟩
    · rw [hB.frame]; exact ⟨p1, p2, p3⟩
    · intro i hi
      rw [hB.masked] at hi
      obtain ⟨nd, h1, h2⟩ := hi
      rw [(hfl i nd h1).1] at h2; cases h2
    · intro i
      rw [hB.flagMine W1]
      constructor
      · rintro (⟨nd, h1, h2⟩ | h)
        · rw [(hfl i nd h1).2] at h2; cases h2
        · exact h
      · exact .inr
  · cases s with
    | cheese =>
      rw [initialise_cheese_exit W hok]
      exact ⟨rfl, fun h => hok h.2⟩
    | holes l => exact absurd trivial hok
    | points l => exact absurd (hs l rfl) hok

end LevelSet

end Slsm
