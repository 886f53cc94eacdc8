import Verif.Proof.LSHist

/-! Mine flags along histories. -/

namespace Slsm

set_option linter.unusedSectionVars false

variable {D : Type} [FP D] {w h : Nat}

namespace LevelSet

variable {L L' : LevelSet D}

/-- Listed mines are flagged. -/
def MinesFlagged (L : LevelSet D) : Prop := ∀ i ∈ L.mineList, L.FlagMine i

theorem Moved.flagMine {dt : D} {P : Nat → Prop} (M : Moved L dt P L') (i : Nat) : L'.FlagMine i ↔ L.FlagMine i :=
  flag_iff (fun nd => (nd.isMasked, nd.isDomain, nd.isActive, nd.isMine)) (fun t => t.2.2.2 = true) (M.node i)

theorem Moved.edge {dt : D} {P : Nat → Prop} (M : Moved L dt P L') (i : Nat) : L'.OnDomainEdge i ↔ L.OnDomainEdge i :=
  flag_iff (fun nd => (nd.isMasked, nd.isDomain, nd.isActive, nd.isMine)) (fun t => t.2.1 = true) (M.node i)

theorem MaskedBy.flagMine {P : Nat → Prop} (M : MaskedBy L P L') (i : Nat) : L'.FlagMine i ↔ L.FlagMine i := by
  unfold FlagMine
  by_cases hp : P i
  · cases h0 : L.mesh.nodes[i]? with
    | none =>
      have h1 : L.mesh.nodes.length ≤ i := by simpa using h0
      rw [List.getElem?_eq_none (by rw [M.nodesLen]; exact h1)]
    | some nd => rw [(M.yes i hp).2 nd h0]; simp
  · rw [(M.no i hp).2]

theorem MaskResult.flagMine {P : Nat → Prop} (W : WF w h L) (M : MaskResult w h L P L') (i : Nat) :
    L'.FlagMine i ↔ L.FlagMine i ∨ i ∈ L'.mineList := by
  obtain ⟨L1, F, M1, hF, hs, hB⟩ := M.mid
  have W1 := M1.wf W
  have hlen : F.sd.length = L1.mesh.nNodes := by
    have := FMM.marchDistance_spec W1.grid L1.signedDistance W1.sd false
    rw [hF, wp_ok] at this
    exact this.L.d
  have W2 : WF w h { L1 with signedDistance := F.sd } := { W1 with sd := hlen }
  rw [hB.flagMine W2]
  exact or_congr_left (M1.flagMine i)

theorem MaskResult.flagged {P : Nat → Prop} (W : WF w h L) (M : MaskResult w h L P L') : MinesFlagged L' := fun i hi =>
  (M.flagMine W i).2 (.inr hi)

theorem Call.flagged (C : Core w h L) (hc : Call w h L L') (hm : MinesFlagged L) : MinesFlagged L' := by
  cases hc with
  | maskHoles holes e => exact (wp_of_ok (maskHoles_spec C.toWF C.small holes) e).flagged C.toWF
  | maskPoints points e =>
    have h0 : points ≠ [] := maskPoints_ne C e
    exact (wp_of_ok (maskPoints_spec C.toWF C.small h0) e).flagged C.toWF
  | reinitialise e =>
    obtain ⟨W, B, F, hF, hlen, hB⟩ := wp_of_ok (reinitialise_spec C.toWF C.small) e
    have W2 : WF w h { L with signedDistance := F.sd } := { C.toWF with sd := hlen }
    exact fun i hi => (hB.flagMine W2 i).2 (.inr hi)
  | update dt b e =>
    generalize hr : (b, L') = r at e
    have U := wp_of_ok (update_spec C dt) e
    cases U with
    | @no L1 M hn =>
      cases hr
      intro i hi
      exact (M.flagMine i).2 (hm i (by unfold mineList at hi ⊢; rw [M.frame] at hi; exact hi))
    | @yes L1 L2 F M hn hF hB W B =>
      cases hr
      have C1 := M.core C
      have hlen : F.sd.length = L1.mesh.nNodes := by
        have := FMM.marchDistance_spec C1.grid L1.signedDistance C1.sd false
        rw [hF, wp_ok] at this
        exact this.L.d
      have W2 : WF w h { L1 with signedDistance := F.sd } := { C1.toWF with sd := hlen }
      exact fun i hi => (hB.flagMine W2 i).2 (.inr hi)
  | velocities points e =>
    have := wp_of_ok (computeVelocities_len C points) e
    intro i hi
    rw [this.1] at hi ⊢
    exact hm i hi
  | @noisyVelocities ρ _ _ normal points points' dt dt' T s g g' e =>
    obtain ⟨q, hq⟩ := noise_calls e
    have := wp_of_ok (computeVelocities_len C q) hq
    intro i hi
    rw [this.1] at hi ⊢
    exact hm i hi
  | gradients e =>
    have := wp_of_ok (computeGradients_len L) e
    intro i hi
    rw [this.1] at hi ⊢
    exact hm i hi
  | assign sd vel grad target h1 h2 h3 => exact hm
  | annotate m area hg hf => exact fun i hi => (flags_iff hf i (fun t => t.2.2.2 = true)).2 (hm i hi)

theorem Reachable.flagged (hr : Reachable w h L) : MinesFlagged L := by
  induction hr with
  | @new L s moveLimit bandWidth f hw hh hN hb e =>
    norm_num at hN hb
    have hs : ∀ l, s = .points l → l ≠ [] := by
      rintro l rfl rfl; exact new_points_nil e
    obtain ⟨-, -, B⟩ := wp_of_ok (new_spec ⟨hw, hh, by norm_num; omega⟩ hN hb f hs) e
    exact fun i hi => (B.mine i).2 hi
  | @newTarget L s t moveLimit bandWidth f hw hh hN hb e =>
    norm_num at hN hb
    have hs : ∀ l, s = .points l → l ≠ [] := by
      rintro l rfl rfl; exact newTarget_points_nil (.inl rfl) e
    have ht : ∀ l, t = .points l → l ≠ [] := by
      rintro l rfl rfl; exact newTarget_points_nil (.inr rfl) e
    obtain ⟨-, -, -, B⟩ := wp_of_ok (newTarget_spec hw hh hN hb f hs ht) e
    exact B.mine
  | call hr hc ih => exact hc.flagged hr.core ih

end LevelSet

end Slsm
