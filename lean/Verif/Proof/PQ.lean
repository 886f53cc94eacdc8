import Verif.Spec.PQ

/-! Facts about the abstract queue. -/

namespace Slsm

variable {D : Type} [FP D]

/-- the handle in an output -/
def HeapOut.handle? : HeapOut D → Option Nat
  | .handle k => some k
  | _ => none

theorem PQ.Steps.issued_le {q q' : PQ D} {ops : List (HeapOp D)} {outs : List (HeapOut D)} (h : PQ.Steps q ops outs q') :
    q.issued ≤ q'.issued := by
  induction h with
  | nil q => exact Nat.le_refl _
  | cons hs _ ih =>
    cases hs with
    | push a v => exact Nat.le_trans (Nat.le_succ _) ih
    | set k v => exact ih
    | pop k a v h1 h2 => exact ih

theorem PQ.Steps.handles {q q' : PQ D} {ops : List (HeapOp D)} {outs : List (HeapOut D)} (h : PQ.Steps q ops outs q') :
    outs.filterMap HeapOut.handle? = List.range' q.issued (q'.issued - q.issued) := by
  induction h with
  | nil q => simp
  | @cons q q1 q2 op out ops outs hs hss ih =>
    have hle := hss.issued_le
    cases hs with
    | push a v =>
      rw [List.filterMap_cons, ih]
      have hle : q.issued + 1 ≤ q2.issued := hle
      obtain ⟨n, hn⟩ : ∃ n, q2.issued = q.issued + 1 + n := ⟨_, (Nat.add_sub_cancel' hle).symm⟩
      simp only [HeapOut.handle?]
      rw [hn, show q.issued + 1 + n - q.issued = n + 1 by omega, List.range'_succ,
        show q.issued + 1 + n - (q.issued + 1) = n by omega]
    | set k v => exact ih
    | pop k a v h1 h2 => exact ih

theorem PQ.Steps.append {q q' q'' : PQ D} {ops ops' : List (HeapOp D)} {outs outs' : List (HeapOut D)}
    (h : PQ.Steps q ops outs q') (h' : PQ.Steps q' ops' outs' q'') : PQ.Steps q (ops ++ ops') (outs ++ outs') q'' := by
  induction h with
  | nil q => exact h'
  | cons hs _ ih => exact .cons hs (ih h')

theorem PQ.Steps.stable {q q' : PQ D} {ops : List (HeapOp D)} {outs : List (HeapOut D)} (h : PQ.Steps q ops outs q')
    {k : Nat} (hk : k < q.issued) {a : Nat} {v : D} (hl : q'.live k = some (a, v)) :
    ∃ w, q.live k = some (a, w) ∧ ((∀ u, HeapOp.set k u ∉ ops) → w = v) := by
  induction h with
  | nil q => exact ⟨v, hl, fun _ => rfl⟩
  | @cons q q1 q2 op out ops outs hs hss ih =>
    cases hs with
    | push b u =>
      obtain ⟨w, h1, h2⟩ := ih (Nat.lt_succ_of_lt hk) hl
      simp only at h1
      rw [Function.update_of_ne (by omega)] at h1
      exact ⟨w, h1, fun hn => h2 fun u hu => hn u (List.mem_cons_of_mem _ hu)⟩
    | set j u =>
      obtain ⟨w, h1, h2⟩ := ih hk hl
      simp only at h1
      by_cases hj : k = j
      · subst hj
        rw [Function.update_self, Option.map_eq_some_iff] at h1
        obtain ⟨e, he, h3⟩ := h1
        obtain ⟨rfl, rfl⟩ := Prod.mk.inj h3
        exact ⟨e.2, he, fun hn => absurd (List.mem_cons_self ..) (hn _)⟩
      · rw [Function.update_of_ne hj] at h1
        exact ⟨w, h1, fun hn => h2 fun u hu => hn u (List.mem_cons_of_mem _ hu)⟩
    | pop j b u h3 h4 =>
      obtain ⟨w, h1, h2⟩ := ih hk hl
      simp only at h1
      by_cases hj : k = j
      · subst hj; rw [Function.update_self] at h1; cases h1
      · rw [Function.update_of_ne hj] at h1
        exact ⟨w, h1, fun hn => h2 fun u hu => hn u (List.mem_cons_of_mem _ hu)⟩

end Slsm
