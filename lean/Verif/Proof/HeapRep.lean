import Verif.Proof.HeapOrder
import Verif.Spec.PQ

/-! The heap represents the abstract queue. -/

namespace Slsm

set_option linter.unusedSectionVars false

variable {D : Type} [FP D]

namespace Heap

/-- `H` represents `q` -/
structure Rep (q : PQ D) (H : Heap D) : Prop where
  inv : SInv (fun k => (q.live k).isSome = true) H
  ord : Ordered H
  iss : q.issued = H.listLength
  val : ∀ k e, q.live k = some e → e = (H.ad k, H.ds k)

theorem SInv.congr {L L' : Nat → Prop} {H : Heap D} (I : SInv L H) (h : ∀ k, L k ↔ L' k) : SInv L' H := by
  have : L = L' := funext fun k => propext (h k)
  exact this ▸ I

theorem Rep.live_of {q : PQ D} {H : Heap D} (R : Rep q H) {k : Nat} (h : (q.live k).isSome = true) :
    q.live k = some (H.ad k, H.ds k) := by
  obtain ⟨e, he⟩ := Option.isSome_iff_exists.1 h
  rw [he, R.val k e he]

theorem Rep.init [TotalCmp D] (n : Nat) (t : Bool) : Rep (PQ.init : PQ D) (Heap.new n t) :=
  ⟨(new_sinv n t).congr (by simp [PQ.init]), new_ordered n t, rfl, by intro k e h; simp [PQ.init] at h⟩

/-- the live handles, in heap order, are a permutation of the live handles in order of issue -/
theorem Rep.perm {q : PQ D} {H : Heap D} (R : Rep q H) :
    ((List.range H.heapLength).map H.hp).Perm ((List.range q.issued).filter fun k => (q.live k).isSome) := by
  rw [List.perm_ext_iff_of_nodup]
  · intro k
    simp only [List.mem_map, List.mem_range, List.mem_filter]
    constructor
    · rintro ⟨p, hp, rfl⟩
      have h := (R.inv.entry p hp).1
      exact ⟨by rw [R.iss]; exact (R.inv.live _ h).1, h⟩
    · rintro ⟨_, h⟩
      obtain ⟨_, h2, h3⟩ := R.inv.live k h
      exact ⟨_, h2, h3⟩
  · refine List.Nodup.map_on ?_ List.nodup_range
    intro x hx y hy he
    rw [← (R.inv.entry x (List.mem_range.1 hx)).2, he, (R.inv.entry y (List.mem_range.1 hy)).2]
  · exact List.nodup_range.filter _

theorem filterMap_eq_map_filter {α β : Type} (f : α → Option β) (g : α → β) (l : List α)
    (h : ∀ a ∈ l, (f a).isSome = true → f a = some (g a)) :
    l.filterMap f = (l.filter fun a => (f a).isSome).map g := by
  induction l with
  | nil => rfl
  | cons a l ih =>
    have ih := ih fun b hb => h b (List.mem_cons_of_mem _ hb)
    cases hf : f a with
    | none => simp [hf, ih]
    | some b =>
      have := h a (List.mem_cons_self ..) (by simp [hf])
      rw [hf] at this
      simp [hf, ih, Option.some.inj this]

theorem Rep.entries_perm {q : PQ D} {H : Heap D} (R : Rep q H) :
    ((List.range H.heapLength).map fun p => (H.ad (H.hp p), H.ds (H.hp p))).Perm q.entries := by
  unfold PQ.entries
  rw [filterMap_eq_map_filter q.live (fun k => (H.ad k, H.ds k)) _ fun k _ h => R.live_of h]
  have := R.perm.map fun k => (H.ad k, H.ds k)
  rwa [List.map_map] at this

theorem Rep.size {q : PQ D} {H : Heap D} (R : Rep q H) : H.heapLength = q.entries.length := by
  simpa using R.entries_perm.length_eq

theorem Rep.mono_dead {q : PQ D} {H : Heap D} (R : Rep q H) {k : Nat} (h : q.issued ≤ k) : q.live k = none := by
  by_contra hc
  have h1 := (R.inv.live k (Option.isSome_iff_ne_none.2 hc)).1
  have h2 := R.iss
  omega

section
variable [TotalCmp D] {q : PQ D} {H : Heap D}

theorem Rep.isMin (R : Rep q H) (h : 0 < H.heapLength) : q.IsMin (H.ds (H.hp 0)) := by
  refine ⟨⟨_, _, R.live_of (R.inv.entry 0 h).1⟩, ?_⟩
  intro k a w hk
  have hs : (q.live k).isSome = true := by simp [hk]
  have he := R.live_of hs
  rw [hk] at he
  obtain ⟨_, h2, h3⟩ := R.inv.live k hs
  have hw : w = H.ds k := by injection he with he; exact (Prod.mk.inj he).2
  have := R.ord.min h2
  rw [h3] at this
  rwa [hw]

theorem Rep.push (R : Rep q H) (hc : q.issued < H.maxLength) (a : Nat) (v : D) :
    wp (H.push a v) (fun r => r.1 = q.issued ∧ r.2.maxLength = H.maxLength ∧
      r.2.heapLength = H.heapLength + 1 ∧ r.2.listLength = H.listLength + 1 ∧ r.2.isTest = H.isTest ∧
      Rep ⟨q.issued + 1, Function.update q.live q.issued (some (a, v))⟩ r.2) noErr := by
  rw [R.iss] at hc ⊢
  refine wp_imp (push_order R.inv R.ord hc a v) ?_
  rintro ⟨k, H'⟩ ⟨h1, I', P, O'⟩
  refine ⟨h1, P.ml, P.hl, P.ll, P.t, I'.congr ?_, O', P.ll.symm, ?_⟩
  · intro k
    by_cases hk : k = H.listLength
    · subst hk; simp
    · simp [hk]
  · intro k e he
    simp only at he
    rw [P.ds, P.ad]
    by_cases hk : k = H.listLength
    · subst hk; simp at he; simp [he]
    · rw [Function.update_of_ne hk] at he
      rw [if_neg hk, if_neg hk]; exact R.val k e he

theorem Rep.set (R : Rep q H) {k : Nat} (hk : k < q.issued) (v : D) :
    wp (H.set k v) (fun H' => H'.maxLength = H.maxLength ∧ H'.heapLength = H.heapLength ∧
      H'.listLength = H.listLength ∧ H'.isTest = H.isTest ∧
      Rep ⟨q.issued, Function.update q.live k ((q.live k).map fun e => (e.1, v))⟩ H') noErr := by
  rw [R.iss] at hk
  refine wp_imp (set_order R.inv R.ord hk v) ?_
  rintro H' ⟨I', S, O'⟩
  refine ⟨S.ml, S.hl, S.ll, S.t, I'.congr ?_, O', by rw [S.ll, ← R.iss], ?_⟩
  · intro j
    by_cases hj : j = k
    · subst hj; simp
    · simp [Function.update_of_ne hj]
  · intro j e he
    simp only at he
    rw [S.ds, Heap.ad, S.a]
    by_cases hj : j = k
    · subst hj
      rw [Function.update_self, Option.map_eq_some_iff] at he
      obtain ⟨e', h1, rfl⟩ := he
      have := R.val j e' h1
      rw [if_pos rfl, this]; rfl
    · rw [Function.update_of_ne hj] at he
      rw [if_neg hj]; exact R.val j e he

theorem Rep.pop (R : Rep q H) (h0 : 0 < H.heapLength) :
    wp H.pop (fun r => r.2.2.maxLength = H.maxLength ∧ r.2.2.heapLength = H.heapLength - 1 ∧
      r.2.2.listLength = H.listLength ∧ r.2.2.isTest = H.isTest ∧
      r.1 = H.ad (H.hp 0) ∧ r.2.1 = H.ds (H.hp 0) ∧
      Rep ⟨q.issued, Function.update q.live (H.hp 0) none⟩ r.2.2) noErr := by
  refine wp_imp (pop_order R.inv R.ord h0) ?_
  rintro ⟨a, v, H'⟩ ⟨h1, h2, I', P, O'⟩
  refine ⟨P.ml, P.hl, P.ll, P.t, h1, h2, I'.congr ?_, O', by rw [P.ll, ← R.iss], ?_⟩
  · intro j
    by_cases hj : j = H.hp 0
    · subst hj; simp
    · simp [hj]
  · intro j e he
    simp only at he
    have e1 : H'.ad j = H.ad j := by rw [Heap.ad, P.a]; rfl
    have e2 : H'.ds j = H.ds j := by rw [Heap.ds, P.d]; rfl
    by_cases hj : j = H.hp 0
    · subst hj; simp at he
    · rw [Function.update_of_ne hj] at he
      rw [e1, e2]; exact R.val j e he

theorem Rep.run (R : Rep q H) (ops rest : List (HeapOp D))
    (hl : LegalOps H.maxLength q.issued H.heapLength (ops ++ rest)) :
    ∃ outs H' q', H.run ops = .ok (outs, H') ∧ PQ.Steps q ops outs q' ∧ Rep q' H' ∧ H'.maxLength = H.maxLength ∧
      H'.isTest = H.isTest ∧ LegalOps H'.maxLength q'.issued H'.heapLength rest := by
  induction ops generalizing q H with
  | nil => exact ⟨[], H, q, rfl, .nil q, R, rfl, rfl, hl⟩
  | cons op ops ih =>
    cases op with
    | push a v =>
      obtain ⟨hc, hl⟩ := hl
      obtain ⟨⟨k, H1⟩, h1, hk, h2, h3, h4, ht, R1⟩ := wp_noErr_iff.1 (R.push hc a v)
      simp only at hk h2 h3 h4 R1 ht
      obtain ⟨outs, H', q', e1, e2, e3, e4, e5, e6⟩ := ih R1 (by rw [h2, h3]; exact hl)
      refine ⟨.handle k :: outs, H', q', ?_, .cons ?_ e2, e3, e4.trans h2, e5.trans ht, e6⟩
      · simp only [Heap.run, exec, h1, bind, Except.bind, pure, Except.pure, e1]
      · rw [hk]; exact .push q a v
    | set k v =>
      obtain ⟨hc, hl⟩ := hl
      obtain ⟨H1, h1, h2, h3, h4, ht, R1⟩ := wp_noErr_iff.1 (R.set hc v)
      obtain ⟨outs, H', q', e1, e2, e3, e4, e5, e6⟩ := ih R1 (by rw [h2, h3]; exact hl)
      refine ⟨.done :: outs, H', q', ?_, .cons (.set q k v) e2, e3, e4.trans h2, e5.trans ht, e6⟩
      simp only [Heap.run, exec, h1, bind, Except.bind, pure, Except.pure, e1]
    | pop =>
      obtain ⟨h0, hl⟩ := hl
      obtain ⟨⟨a, v, H1⟩, h1, h2, h3, h4, ht, ha, hv, R1⟩ := wp_noErr_iff.1 (R.pop h0)
      simp only at h2 h3 h4 ha hv R1 ht
      obtain ⟨outs, H', q', e1, e2, e3, e4, e5, e6⟩ := ih R1 (by rw [h2, h3]; exact hl)
      refine ⟨.popped a v :: outs, H', q', ?_, .cons ?_ e2, e3, e4.trans h2, e5.trans ht, e6⟩
      · simp only [Heap.run, exec, h1, bind, Except.bind, pure, Except.pure, e1]
      · rw [ha, hv]; exact .pop q _ _ _ (R.live_of (R.inv.entry 0 h0).1) (R.isMin h0)

theorem Rep.peek (R : Rep q H) (h0 : 0 < H.heapLength) : H.peek = .ok (H.ds (H.hp 0)) := by
  obtain ⟨b1, b2, b3, b4⟩ := R.inv.entry_bounds h0
  unfold Heap.peek
  have : (H.heapLength != 0) = true := by simp; omega
  simp only [this, check_true, bind, Except.bind, rd_hp b1, rd_ds b3]

/-- Draining. -/
theorem Rep.drain (R : Rep q H) (n : Nat) (hn : H.heapLength ≤ n) :
    ∃ l, H.drain n = .ok l ∧ l.Perm q.entries ∧ l.Pairwise (fun x y => FP.lt y.2 x.2 = false) := by
  induction n generalizing q H with
  | zero =>
    have h0 : H.heapLength = 0 := by omega
    refine ⟨[], by simp [Heap.drain, Heap.empty, h0]; rfl, ?_, List.Pairwise.nil⟩
    have := R.size
    rw [h0] at this
    rw [List.length_eq_zero_iff.1 this.symm]
  | succ n ih =>
    by_cases h0 : H.heapLength = 0
    · refine ⟨[], by simp [Heap.drain, Heap.empty, h0]; rfl, ?_, List.Pairwise.nil⟩
      have := R.size
      rw [h0] at this
      rw [List.length_eq_zero_iff.1 this.symm]
    · have hpos : 0 < H.heapLength := by omega
      obtain ⟨⟨a, v, H1⟩, h1, h2, h3, h4, ht, ha, hv, R1⟩ := wp_noErr_iff.1 (R.pop hpos)
      simp only at h2 h3 h4 ha hv R1
      obtain ⟨l, e1, e2, e3⟩ := ih R1 (by omega)
      refine ⟨(a, v) :: l, ?_, ?_, List.Pairwise.cons ?_ e3⟩
      · rw [Heap.drain]
        simp [Heap.empty, h0, h1, bind, Except.bind, e1]; rfl
      · -- entries of q = popped entry + rest
        have hlive := R.live_of (R.inv.entry 0 hpos).1
        have hlt : H.hp 0 < q.issued := by rw [R.iss]; exact (R.inv.live _ (R.inv.entry 0 hpos).1).1
        refine (e2.cons (a, v)).trans ?_
        unfold PQ.entries
        simp only
        have hsplit : ∀ (l : List Nat), l.Nodup → H.hp 0 ∈ l →
            ((a, v) :: l.filterMap (Function.update q.live (H.hp 0) none)).Perm (l.filterMap q.live) := by
          intro l hnd hm
          induction l with
          | nil => simp at hm
          | cons x l ih2 =>
            rw [List.nodup_cons] at hnd
            by_cases hx : x = H.hp 0
            · subst hx
              have : l.filterMap (Function.update q.live (H.hp 0) none) = l.filterMap q.live := by
                apply List.filterMap_congr
                intro y hy
                rw [Function.update_of_ne]
                rintro rfl; exact hnd.1 hy
              rw [List.filterMap_cons, Function.update_self, List.filterMap_cons, hlive, this, ha, hv]
            · have hm' : H.hp 0 ∈ l := by
                rcases List.mem_cons.1 hm with h | h
                · exact absurd h.symm hx
                · exact h
              rw [List.filterMap_cons, Function.update_of_ne hx, List.filterMap_cons]
              cases hq : q.live x with
              | none => exact ih2 hnd.2 hm'
              | some e =>
                simp only
                exact (List.Perm.swap _ _ _).trans ((ih2 hnd.2 hm').cons e)
        exact hsplit _ List.nodup_range (List.mem_range.2 hlt)
      · intro y hy
        have hm := R.isMin hpos
        have hy2 := e2.subset hy
        unfold PQ.entries at hy2
        rw [List.mem_filterMap] at hy2
        obtain ⟨k, -, hk⟩ := hy2
        simp only at hk
        rw [hv]
        by_cases hkk : k = H.hp 0
        · rw [hkk, Function.update_self] at hk; cases hk
        · rw [Function.update_of_ne hkk] at hk
          exact hm.2 k y.1 y.2 hk

end

/-! ### law-free safety -/

theorem run_safe {L : Nat → Prop} {H : Heap D} (I : SInv L H) (ops : List (HeapOp D))
    (hs : SafeOps H.maxLength H.listLength ops) : wp (H.run ops) (fun _ => True) onlyExit := by
  induction ops generalizing H L with
  | nil => trivial
  | cons op ops ih =>
    unfold Heap.run
    cases op with
    | push a v =>
      obtain ⟨hc, hl⟩ := hs
      simp only [exec, wp_bind]
      refine wp_mono (push_struct I hc a v) ?_ fun e he => he.1
      rintro ⟨k, H'⟩ ⟨h1, I', P⟩
      simp only [wp_pure]
      exact wp_imp (ih I' (by rw [P.ml, P.ll]; exact hl)) fun r _ => trivial
    | set k v =>
      obtain ⟨hc, hl⟩ := hs
      simp only [exec, wp_bind]
      refine wp_mono (set_struct I hc v) ?_ fun e he => he.1
      rintro H' ⟨I', P⟩
      simp only [wp_pure]
      exact wp_imp (ih I' (by rw [P.ml, P.ll]; exact hl)) fun r _ => trivial
    | pop =>
      simp only [exec, wp_bind]
      by_cases h0 : H.heapLength = 0
      · rw [pop_empty h0, wp_error]
      · refine wp_mono (pop_struct I (by omega)) ?_ fun e he => he.1
        rintro ⟨a, v, H'⟩ ⟨h1, h2, I', P⟩
        simp only [wp_pure]
        exact wp_imp (ih I' (by rw [P.ml, P.ll]; exact hs)) fun r _ => trivial

/-! ### the self-test flag is not read by anything but the self test -/

/-- switch the self test on or off -/
abbrev flag (b : Bool) (H : Heap D) : Heap D := { H with isTest := b }

theorem siftDownLoop_flag (b : Bool) (s item pos : Nat) (H : Heap D) :
    siftDownLoop s item pos (flag b H) = (siftDownLoop s item pos H).map fun r => (r.1, flag b r.2) := by
  induction pos using Nat.strongRecOn generalizing H with
  | _ pos ih =>
    rw [siftDownLoop, siftDownLoop]
    by_cases hs : s < pos
    · rw [if_pos hs, if_pos hs]
      simp only [bind, Except.bind]
      cases rd H.heap ((pos - 1) / 2) with
      | error e => rfl
      | ok x =>
        simp only
        cases rd H.distance item with
        | error e => rfl
        | ok y =>
          simp only
          cases rd H.distance x with
          | error e => rfl
          | ok z =>
            simp only
            by_cases hlt : FP.lt y z = true
            · rw [if_pos hlt, if_pos hlt]
              cases wr H.heap pos x with
              | error e => rfl
              | ok h' =>
                simp only
                cases wr H.backPointer x pos with
                | error e => rfl
                | ok b' => exact ih _ (par_lt hs) { H with heap := h', backPointer := b' }
            · rw [if_neg hlt, if_neg hlt]; rfl
    · rw [if_neg hs, if_neg hs]; rfl

theorem siftDown_flag (b : Bool) (s pos : Nat) (H : Heap D) :
    siftDown s pos (flag b H) = (siftDown s pos H).map (flag b) := by
  unfold siftDown
  simp only [bind, Except.bind]
  cases rd H.heap pos with
  | error e => rfl
  | ok x =>
    simp only [siftDownLoop_flag]
    cases siftDownLoop s x pos H with
    | error e => rfl
    | ok r =>
      simp only [Except.map]
      cases wr r.2.heap r.1 x with
      | error e => rfl
      | ok h' =>
        simp only
        cases wr r.2.backPointer x r.1 <;> rfl

theorem minChild_flag (b : Bool) (c : Nat) (H : Heap D) : minChild c (flag b H) = minChild c H := rfl

theorem siftUpLoop_flag (b : Bool) (fuel pos : Nat) (H : Heap D) :
    siftUpLoop fuel pos (flag b H) = (siftUpLoop fuel pos H).map fun r => (r.1, flag b r.2) := by
  induction fuel generalizing pos H with
  | zero =>
    rw [siftUpLoop.eq_def, siftUpLoop.eq_def]
    simp only
    by_cases hc : 2 * pos + 1 < H.heapLength
    · rw [if_pos hc, if_pos hc]; rfl
    · rw [if_neg hc, if_neg hc]; rfl
  | succ fuel ih =>
    rw [siftUpLoop.eq_def, siftUpLoop.eq_def]
    simp only
    by_cases hc : 2 * pos + 1 < H.heapLength
    · rw [if_pos hc, if_pos hc]
      simp only [bind, Except.bind, minChild_flag]
      cases minChild (2 * pos + 1) H with
      | error e => rfl
      | ok c =>
        simp only
        cases rd H.heap c with
        | error e => rfl
        | ok hc =>
          simp only
          cases wr H.heap pos hc with
          | error e => rfl
          | ok h' =>
            simp only
            cases wr H.backPointer hc pos with
            | error e => rfl
            | ok b' => exact ih _ { H with heap := h', backPointer := b' }
    · rw [if_neg hc, if_neg hc]; rfl

theorem siftUp_flag (b : Bool) (pos : Nat) (H : Heap D) : siftUp pos (flag b H) = (siftUp pos H).map (flag b) := by
  unfold siftUp
  simp only [bind, Except.bind]
  cases rd H.heap pos with
  | error e => rfl
  | ok x =>
    simp only [siftUpLoop_flag]
    cases siftUpLoop H.heapLength pos H with
    | error e => rfl
    | ok r =>
      simp only [Except.map]
      cases wr r.2.heap r.1 x with
      | error e => rfl
      | ok h' => exact siftDown_flag b pos r.1 { r.2 with heap := h' }

/-- the part of `set` after the conditional `siftUp` -/
theorem setRest_flag (b : Bool) (pos : Nat) (v : D) (r : Heap D) {o o' : HeapOut D} {H1 H2 : Heap D}
    (h1 : ((rd r.heap pos >>= fun x => rd r.distance x >>= fun y => if (!FP.eq y v) = true then
      r.maybeTest >>= fun _ => pure r else siftDown 0 pos r >>= fun r => r.maybeTest >>= fun _ => pure r) >>=
      fun H => (pure (HeapOut.done, H) : Res (HeapOut D × Heap D))) = .ok (o, H1))
    (h2 : ((rd (flag b r).heap pos >>= fun x => rd (flag b r).distance x >>= fun y => if (!FP.eq y v) = true then
      (flag b r).maybeTest >>= fun _ => pure (flag b r) else
      siftDown 0 pos (flag b r) >>= fun r => r.maybeTest >>= fun _ => pure r) >>=
      fun H => (pure (HeapOut.done, H) : Res (HeapOut D × Heap D))) = .ok (o', H2)) : o' = o ∧ H2 = flag b H1 := by
  simp only [bind, Except.bind] at h1 h2
  cases hk : rd r.heap pos with
  | error e => rw [hk] at h1; cases h1
  | ok x =>
    rw [hk] at h1 h2; simp only at h1 h2
    cases hk : rd r.distance x with
    | error e => rw [hk] at h1; cases h1
    | ok y =>
      rw [hk] at h1 h2; simp only at h1 h2
      by_cases hc : (!FP.eq y v) = true
      · rw [if_pos hc] at h1 h2
        cases hk : r.maybeTest with
        | error e => rw [hk] at h1; cases h1
        | ok u =>
          rw [hk] at h1
          cases hk : (flag b r).maybeTest with
          | error e => rw [hk] at h2; cases h2
          | ok u => rw [hk] at h2; cases h1; cases h2; exact ⟨rfl, rfl⟩
      · rw [if_neg hc] at h1 h2
        rw [siftDown_flag] at h2
        cases hk : siftDown 0 pos r with
        | error e => rw [hk] at h1; cases h1
        | ok r =>
          rw [hk] at h1 h2; simp only [Except.map] at h1 h2
          cases hk : r.maybeTest with
          | error e => rw [hk] at h1; cases h1
          | ok u =>
            rw [hk] at h1
            cases hk : (flag b r).maybeTest with
            | error e => rw [hk] at h2; cases h2
            | ok u => rw [hk] at h2; cases h1; cases h2; exact ⟨rfl, rfl⟩

/-- the fields other than `isTest` of the results of the three operations do not depend on `isTest` as long as the self
test does not fire -/
theorem exec_flag (op : HeapOp D) (H : Heap D) {out : HeapOut D} {H1 H2 : Heap D} {out' : HeapOut D} (b : Bool)
    (h1 : H.exec op = .ok (out, H1)) (h2 : (flag b H).exec op = .ok (out', H2)) : out' = out ∧ H2 = flag b H1 := by
  cases op with
  | push a v =>
    simp only [exec, push, bind, Except.bind] at h1 h2
    cases hk : check (decide (H.heapLength < H.maxLength)) with
    | error e => rw [hk] at h1; cases h1
    | ok u =>
      rw [hk] at h1 h2; simp only at h1 h2
      cases hk : wr H.heap H.heapLength H.listLength with
      | error e => rw [hk] at h1; cases h1
      | ok x1 =>
        rw [hk] at h1 h2; simp only at h1 h2
        cases hk : wr H.address H.listLength a with
        | error e => rw [hk] at h1; cases h1
        | ok x2 =>
          rw [hk] at h1 h2; simp only at h1 h2
          cases hk : wr H.distance H.listLength v with
          | error e => rw [hk] at h1; cases h1
          | ok x3 =>
            rw [hk] at h1 h2; simp only at h1 h2
            cases hk : wr H.backPointer H.listLength H.heapLength with
            | error e => rw [hk] at h1; cases h1
            | ok x4 =>
              rw [hk] at h1 h2; simp only at h1 h2
              have hf := siftDown_flag b 0 H.heapLength { H with heap := x1, address := x2, distance := x3, backPointer := x4, heapLength := H.heapLength + 1, listLength := H.listLength + 1 }
              simp only [Nat.add_sub_cancel] at h1 h2
              rw [hf] at h2
              cases hk : siftDown 0 H.heapLength { H with heap := x1, address := x2, distance := x3, backPointer := x4, heapLength := H.heapLength + 1, listLength := H.listLength + 1 } with
              | error e => rw [hk] at h1; cases h1
              | ok r =>
                rw [hk] at h1 h2; simp only [Except.map] at h1 h2
                cases hk : r.maybeTest with
                | error e => rw [hk] at h1; cases h1
                | ok u =>
                  rw [hk] at h1
                  cases hk : (flag b r).maybeTest with
                  | error e => rw [hk] at h2; cases h2
                  | ok u =>
                    rw [hk] at h2; cases h1; cases h2; exact ⟨rfl, rfl⟩
  | set k v =>
    simp only [exec, set, bind, Except.bind] at h1 h2
    cases hk : rd H.distance k with
    | error e => rw [hk] at h1; cases h1
    | ok old =>
      rw [hk] at h1 h2; simp only at h1 h2
      cases hk : wr H.distance k v with
      | error e => rw [hk] at h1; cases h1
      | ok dd =>
        rw [hk] at h1 h2; simp only at h1 h2
        cases hk : rd H.backPointer k with
        | error e => rw [hk] at h1; cases h1
        | ok pos =>
          rw [hk] at h1 h2; simp only at h1 h2
          by_cases hlt : FP.lt old v = true
          · rw [if_pos hlt] at h1 h2
            rw [siftUp_flag b pos { H with distance := dd }] at h2
            cases hk : siftUp pos { H with distance := dd } with
            | error e => rw [hk] at h1; cases h1
            | ok r =>
              rw [hk] at h1 h2; simp only [Except.map] at h1 h2
              exact setRest_flag b pos v r h1 h2
          · rw [if_neg hlt] at h1 h2
            exact setRest_flag b pos v { H with distance := dd } h1 h2
  | pop =>
    simp only [exec, pop, bind, Except.bind] at h1 h2
    cases hk : check (H.heapLength != 0) with
    | error e => rw [hk] at h1; cases h1
    | ok u =>
      rw [hk] at h1 h2; simp only at h1 h2
      cases hk : rd H.heap 0 with
      | error e => rw [hk] at h1; cases h1
      | ok x0 =>
        rw [hk] at h1 h2; simp only at h1 h2
        cases hk : rd H.address x0 with
        | error e => rw [hk] at h1; cases h1
        | ok x1 =>
          rw [hk] at h1 h2; simp only at h1 h2
          cases hk : rd H.distance x0 with
          | error e => rw [hk] at h1; cases h1
          | ok x2 =>
            rw [hk] at h1 h2; simp only at h1 h2
            cases hk : rd H.heap (H.heapLength - 1) with
            | error e => rw [hk] at h1; cases h1
            | ok x3 =>
              rw [hk] at h1 h2; simp only at h1 h2
              cases hk : wr H.heap 0 x3 with
              | error e => rw [hk] at h1; cases h1
              | ok x4 =>
                rw [hk] at h1 h2; simp only at h1 h2
                cases hk : wr H.backPointer x3 0 with
                | error e => rw [hk] at h1; cases h1
                | ok x5 =>
                  rw [hk] at h1 h2; simp only at h1 h2
                  have hf := siftUp_flag b 0 { H with heap := x4, backPointer := x5, heapLength := H.heapLength - 1 }
                  rw [hf] at h2
                  cases hk : siftUp 0 { H with heap := x4, backPointer := x5, heapLength := H.heapLength - 1 } with
                  | error e => rw [hk] at h1; cases h1
                  | ok r =>
                    rw [hk] at h1 h2; simp only [Except.map] at h1 h2
                    cases hk : r.maybeTest with
                    | error e => rw [hk] at h1; cases h1
                    | ok u =>
                      rw [hk] at h1
                      cases hk : (flag b r).maybeTest with
                      | error e => rw [hk] at h2; cases h2
                      | ok u => rw [hk] at h2; cases h1; cases h2; exact ⟨rfl, rfl⟩

theorem run_flag (b : Bool) (ops : List (HeapOp D)) (H : Heap D) {outs outs' : List (HeapOut D)} {H1 H2 : Heap D}
    (h1 : H.run ops = .ok (outs, H1)) (h2 : (flag b H).run ops = .ok (outs', H2)) : outs' = outs ∧ H2 = flag b H1 := by
  induction ops generalizing H outs outs' H1 H2 with
  | nil => cases h1; cases h2; exact ⟨rfl, rfl⟩
  | cons op ops ih =>
    simp only [Heap.run, bind, Except.bind] at h1 h2
    cases e1 : H.exec op with
    | error e => rw [e1] at h1; cases h1
    | ok r =>
      rw [e1] at h1
      cases e2 : (flag b H).exec op with
      | error e => rw [e2] at h2; cases h2
      | ok r' =>
        rw [e2] at h2
        obtain ⟨o, K⟩ := r
        obtain ⟨o', K'⟩ := r'
        obtain ⟨rfl, rfl⟩ := exec_flag op H b e1 e2
        simp only at h1 h2
        cases e3 : K.run ops with
        | error e => rw [e3] at h1; cases h1
        | ok r =>
          rw [e3] at h1
          cases e4 : (flag b K).run ops with
          | error e => rw [e4] at h2; cases h2
          | ok r' =>
            rw [e4] at h2
            obtain ⟨os, K1⟩ := r
            obtain ⟨os', K1'⟩ := r'
            obtain ⟨rfl, rfl⟩ := ih K e3 e4
            cases h1; cases h2; exact ⟨rfl, rfl⟩

end Heap

end Slsm
