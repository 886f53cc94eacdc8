import Verif.Proof.HeapOrder

/-! Heap operations as used by fast marching: structure always, order when the comparisons are total. -/

namespace Slsm

set_option linter.unusedSectionVars false

variable {D : Type} [FP D]

namespace Heap

variable {L : Nat → Prop} {H : Heap D}

/-- the self test can only fire if it is enabled and the comparisons are not total (NaN) -/
def heapErr (H : Heap D) (e : Err) : Prop := e = .exit ∧ H.isTest = true ∧ ¬ TotalCmp D

theorem push_both (I : SInv L H) (O : TotalCmp D → Ordered H) (hc : H.listLength < H.maxLength) (a : Nat) (v : D) :
    wp (push a v H) (fun r => r.1 = H.listLength ∧ SInv (fun j => L j ∨ j = H.listLength) r.2 ∧ Pushed a v H r.2 ∧
      (TotalCmp D → Ordered r.2)) (heapErr H) := by
  by_cases hT : TotalCmp D
  · exact wp_mono (push_order I (O hT) hc a v) (fun r h => ⟨h.1, h.2.1, h.2.2.1, fun _ => h.2.2.2⟩) fun e he => he.elim
  · exact wp_mono (push_struct I hc a v) (fun r h => ⟨h.1, h.2.1, h.2.2, fun h => absurd h hT⟩)
      fun e he => ⟨he.1, he.2, hT⟩

theorem pop_both (I : SInv L H) (O : TotalCmp D → Ordered H) (h0 : 0 < H.heapLength) :
    wp (pop H) (fun r => r.1 = H.ad (H.hp 0) ∧ r.2.1 = H.ds (H.hp 0) ∧ SInv (fun j => L j ∧ j ≠ H.hp 0) r.2.2 ∧
      Popped H r.2.2 ∧ (TotalCmp D → Ordered r.2.2)) (heapErr H) := by
  by_cases hT : TotalCmp D
  · exact wp_mono (pop_order I (O hT) h0) (fun r h => ⟨h.1, h.2.1, h.2.2.1, h.2.2.2.1, fun _ => h.2.2.2.2⟩)
      fun e he => he.elim
  · exact wp_mono (pop_struct I h0) (fun r h => ⟨h.1, h.2.1, h.2.2.1, h.2.2.2, fun h => absurd h hT⟩)
      fun e he => ⟨he.1, he.2, hT⟩

theorem set_both (I : SInv L H) (O : TotalCmp D → Ordered H) {k : Nat} (hk : k < H.listLength) (v : D) :
    wp (set k v H) (fun H' => SInv L H' ∧ SetTo k v H H' ∧ (TotalCmp D → Ordered H')) (heapErr H) := by
  by_cases hT : TotalCmp D
  · exact wp_mono (set_order I (O hT) hk v) (fun r h => ⟨h.1, h.2.1, fun _ => h.2.2⟩) fun e he => he.elim
  · exact wp_mono (set_struct I hk v) (fun r h => ⟨h.1, h.2, fun h => absurd h hT⟩) fun e he => ⟨he.1, he.2, hT⟩

end Heap

end Slsm
