import Verif.Proof.FMMHeap
import Verif.Proof.MeshGeom
import Verif.Spec.FMM

/-! `updateNode` and `finaliseVelocity` have the values used by the abstract machine of `Verif/Spec/FMM.lean`. -/

namespace Slsm

set_option linter.unusedSectionVars false

variable {D : Type} [FP D]

theorem nodeNoOr_le {w h : Nat} (x y : Int) : nodeNoOr w h x y ≤ (w + 1) * (h + 1) := by
  unfold nodeNoOr
  split_ifs with hc
  · exact (nodeNo_lt (by omega) (by omega)).le
  · exact Nat.le_refl _

section
variable {w h : Nat} {m : Mesh D}

theorem IsGrid.nbr_eq (G : IsGrid w h m) {i j : Nat} (hi : i < m.nNodes) (hj : j < 4) : nbr m i j = .ok (nb m i j) := by
  obtain ⟨x, y, hx, hy, rfl⟩ := G.node_index hi
  obtain ⟨nd, hnd⟩ := G.node_exists hx hy
  have hn := G.neighbours _ _ _ hx hy hnd
  have hl : nd.neighbours.length = 4 := by rw [hn]; rfl
  unfold nbr nb
  simp only [rd_of_getElem? hnd, bind, Except.bind, hnd]
  rw [rd_eq (by omega), List.getD_eq_getElem?_getD, List.getElem?_eq_getElem (by omega)]
  rfl

theorem IsGrid.nb_le (G : IsGrid w h m) {i j : Nat} (hi : i < m.nNodes) (hj : j < 4) : nb m i j ≤ m.nNodes := by
  obtain ⟨x, y, hx, hy, rfl⟩ := G.node_index hi
  obtain ⟨nd, hnd⟩ := G.node_exists hx hy
  have hn := G.neighbours _ _ _ hx hy hnd
  unfold nb
  simp only [hnd, hn, G.nNodes, neighbourhood]
  have : j = 0 ∨ j = 1 ∨ j = 2 ∨ j = 3 := by omega
  obtain rfl | rfl | rfl | rfl := this <;> simp [nodeNoOr_le]

theorem IsGrid.nb_lt (G : IsGrid w h m) {i j : Nat} (hi : i < m.nNodes) (hj : j < 4) (hne : nb m i j ≠ m.nNodes) :
    nb m i j < m.nNodes := lt_of_le_of_ne (G.nb_le hi hj) hne

end

namespace FMM

/-- status of node `i` -/
def st (F : FMM D) (i : Nat) : FMMStatus := F.status.getD i .none
/-- handle of node `i` -/
def hpt (F : FMM D) (i : Nat) : Nat := F.heapPtr.getD i 0
/-- signed distance of node `i` -/
def dv (F : FMM D) (i : Nat) : D := F.sd.getD i (FP.nat 0)
/-- velocity of node `i` -/
def vl (F : FMM D) (i : Nat) : D := F.vel.getD i (FP.nat 0)
/-- copied signed distance of node `i` -/
def cp (F : FMM D) (i : Nat) : D := F.copy.getD i (FP.nat 0)
/-- the abstract state -/
def abs (F : FMM D) : AS D := ⟨F.st, F.dv, F.vl⟩

/-- vector sizes -/
structure Lens (m : Mesh D) (F : FMM D) : Prop where
  s : F.status.length = m.nNodes
  p : F.heapPtr.length = m.nNodes
  c : F.copy.length = m.nNodes
  d : F.sd.length = m.nNodes
  v : F.isVelocity = true → F.vel.length = m.nNodes

section
variable {w h : Nat} {m : Mesh D} {F : FMM D}

theorem rd_st (L : Lens m F) {i : Nat} (h : i < m.nNodes) : rd F.status i = .ok (F.st i) := rd_getD _ (by rw [L.s]; exact h)
theorem rd_hpt (L : Lens m F) {i : Nat} (h : i < m.nNodes) : rd F.heapPtr i = .ok (F.hpt i) := rd_getD _ (by rw [L.p]; exact h)
theorem rd_dv (L : Lens m F) {i : Nat} (h : i < m.nNodes) : rd F.sd i = .ok (F.dv i) := rd_getD _ (by rw [L.d]; exact h)
theorem rd_cp (L : Lens m F) {i : Nat} (h : i < m.nNodes) : rd F.copy i = .ok (F.cp i) := rd_getD _ (by rw [L.c]; exact h)
theorem rd_vl (L : Lens m F) (hv : F.isVelocity = true) {i : Nat} (h : i < m.nNodes) : rd F.vel i = .ok (F.vl i) :=
  rd_getD _ (by rw [L.v hv]; exact h)

theorem stencilDir_eq (G : IsGrid w h m) (L : Lens m F) {n i j : Nat} (hn : n < m.nNodes) (hi : i < 2) (hj : j < 2)
    (d : D × D) : stencilDir m F n i j d = .ok (stencilV m F.abs n i j d) := by
  have hk : 2 * i + j < 4 := by omega
  unfold stencilDir stencilV
  simp only [bind, Except.bind, G.nbr_eq hn hk]
  by_cases h1 : nb m n (2 * i + j) = m.nNodes
  · rw [if_neg (by simpa using h1), if_neg (by tauto)]; rfl
  · have hlt := G.nb_lt hn hk h1
    rw [if_pos h1, rd_st L hlt]
    simp only
    by_cases h2 : F.st (nb m n (2 * i + j)) = .frozen
    · rw [if_pos h2, rd_dv L hlt]
      simp only
      by_cases h3 : FP.lt (FP.abs (F.dv (nb m n (2 * i + j)))) (FP.abs d.1) = true
      · rw [if_pos h3, if_pos ⟨h1, h2, h3⟩, G.nbr_eq hlt hk]
        simp only
        by_cases h4 : nb m (nb m n (2 * i + j)) (2 * i + j) = m.nNodes
        · rw [if_neg (by simpa using h4), if_neg (by tauto)]; rfl
        · have hlt2 := G.nb_lt hlt hk h4
          rw [if_pos h4, rd_st L hlt2]
          simp only
          by_cases h5 : F.st (nb m (nb m n (2 * i + j)) (2 * i + j)) = .frozen
          · rw [if_pos h5, rd_dv L hlt2]
            simp only
            by_cases h6 : FP.le (FP.abs (F.dv (nb m (nb m n (2 * i + j)) (2 * i + j))))
                (FP.abs (F.dv (nb m n (2 * i + j)))) = true
            · rw [if_pos h6, if_pos ⟨h4, h5, h6⟩]; rfl
            · rw [if_neg h6, if_neg fun h => h6 h.2.2]; rfl
          · rw [if_neg h5, if_neg fun h => h5 h.2.1]; rfl
      · rw [if_neg h3, if_neg fun h => h3 h.2.2]; rfl
    · rw [if_neg h2, if_neg fun h => h2 h.2.1]; rfl

theorem updateNode_eq (G : IsGrid w h m) (L : Lens m F) {n : Nat} (hn : n < m.nNodes) :
    updateNode m F n = .ok (updateV m F.cp F.abs n) := by
  have hd : ∀ i, i < 2 → forN 2 (FP.maxVal, FP.maxVal) (stencilDir m F n i) = .ok (dists m F.abs n i) := by
    intro i hi
    simp only [forN, bind, Except.bind, stencilDir_eq G L hn hi (show 0 < 2 by omega),
      stencilDir_eq G L hn hi (show 1 < 2 by omega)]
    rfl
  unfold updateNode
  have h2 : forN 2 ((FP.nat 0 : D), (FP.nat 0 : D), (FP.nat 0 : D)) (fun i s => do
      let (dist1, dist2) ← forN 2 (FP.maxVal, FP.maxVal) (stencilDir m F n i)
      pure (accum dist1 dist2 s)) = .ok (coeffs m F.abs n) := by
    rw [forN_succ, forN_succ, forN_zero]
    simp only [bind, Except.bind, hd 0 (by omega), hd 1 (by omega), pure, Except.pure]
    rfl
  simp only [bind, Except.bind] at h2 ⊢
  rw [h2]
  simp only [solveQuadratic, bind, Except.bind, rd_cp L hn, rd_dv L hn]
  unfold updateV rootV
  simp only [pure, Except.pure]
  split_ifs <;> rfl

theorem frontNbr_eq (G : IsGrid w h m) (L : Lens m F) (hv : F.isVelocity = true) {n i : Nat} (hn : n < m.nNodes)
    (hi : i < 4) (t : (Bool × D × D × D) × (Bool × D × D × D)) :
    frontNbr m F n i t = .ok (if i < 2 then (frontV m F.abs n i t.1, t.2) else (t.1, frontV m F.abs n i t.2)) := by
  unfold frontNbr frontV
  simp only [bind, Except.bind, G.nbr_eq hn hi]
  by_cases h1 : nb m n i = m.nNodes
  · rw [if_neg (by simpa using h1)]
    simp [h1]; rfl
  · have hlt := G.nb_lt hn hi h1
    rw [if_pos h1, rd_st L hlt]
    simp only
    by_cases h2 : F.st (nb m n i) = .frozen
    · rw [if_pos h2, rd_dv L hlt]
      simp only [rd_dv L hn, rd_vl L hv hlt]
      have e1 : F.abs.st = F.st := rfl
      have e2 : F.abs.sd = F.dv := rfl
      have e3 : F.abs.vel = F.vl := rfl
      by_cases hi2 : i < 2
      · simp only [hi2, if_true, e1, e2, e3, h1, h2, ne_eq, not_false_eq_true, true_and]
        by_cases hc : (!t.1.1 || FP.lt (FP.abs (F.dv (nb m n i))) t.1.2.1) = true
        · rw [if_pos hc, if_pos hc]; rfl
        · rw [if_neg hc, if_neg hc]; rfl
      · simp only [hi2, if_false, e1, e2, e3, h1, h2, ne_eq, not_false_eq_true, true_and]
        by_cases hc : (!t.2.1 || FP.lt (FP.abs (F.dv (nb m n i))) t.2.2.1) = true
        · rw [if_pos hc, if_pos hc]; rfl
        · rw [if_neg hc, if_neg hc]; rfl
    · have h2' : F.abs.st (nb m n i) ≠ .frozen := h2
      rw [if_neg h2]
      simp [h2']; rfl

theorem fronts_eq (G : IsGrid w h m) (L : Lens m F) (hv : F.isVelocity = true) {n : Nat} (hn : n < m.nNodes) :
    forN 4 ((false, (FP.nat 0 : D), (FP.nat 0 : D), (FP.nat 0 : D)), (false, (FP.nat 0 : D), (FP.nat 0 : D), (FP.nat 0 : D)))
      (frontNbr m F n) = .ok (fronts m F.abs n 0, fronts m F.abs n 1) := by
  rw [forN_succ, forN_succ, forN_succ, forN_succ, forN_zero]
  simp only [bind, Except.bind]
  rw [frontNbr_eq G L hv hn (by omega)]
  simp only
  rw [frontNbr_eq G L hv hn (by omega)]
  simp only
  rw [frontNbr_eq G L hv hn (by omega)]
  simp only
  rw [frontNbr_eq G L hv hn (by omega)]
  rfl

theorem finaliseVelocity_eq (G : IsGrid w h m) (L : Lens m F) (hv : F.isVelocity = true) {n : Nat} (hn : n < m.nNodes) :
    finaliseVelocity m n F =
      if FP.eq (velDen m F.abs n) (FP.nat 0) then .error .exit
      else .ok { F with vel := F.vel.set n (velV m F.abs n) } := by
  unfold finaliseVelocity
  have h1 := fronts_eq G L hv hn
  simp only [bind, Except.bind] at h1 ⊢
  rw [h1]
  simp only
  rw [wr_eq _ (by rw [L.v hv]; exact hn)]
  by_cases hc : FP.eq (velDen m F.abs n) (FP.nat 0) = true
  · rw [if_pos hc]
    unfold velDen at hc
    rw [hc]; rfl
  · rw [if_neg hc]
    rw [Bool.not_eq_true] at hc
    unfold velDen at hc
    rw [hc]; rfl

end

end FMM

end Slsm
