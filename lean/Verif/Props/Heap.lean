import Verif.Proof.HeapRep
import Verif.Proof.PQ
import Mathlib.Data.List.Sort

/-! # Properties C06–C12: the heap

`TotalCmp D` states the order laws of `<`, `<=`, `==` that hold for doubles other than NaN; C08 and C09 (exits) do not
use them. -/

namespace Slsm

open Heap

variable {D : Type} [FP D]

/-- C06.  Any history within the contract runs without error and the heap behaves as the abstract queue `PQ`: every
handle returned by `push` is fresh, every `pop` returns and removes an entry with smallest value together with its
address, `size`/`empty` count the live entries and `peek` returns a smallest value. -/
theorem C06_priority_queue [TotalCmp D] (cap : Nat) (t : Bool) (ops : List (HeapOp D)) (h : LegalOps cap 0 0 ops) :
    ∃ outs H q, (Heap.new cap t).run ops = .ok (outs, H) ∧ PQ.Steps PQ.init ops outs q ∧
      H.size = q.entries.length ∧ (H.empty = true ↔ q.entries = []) ∧
      (q.entries ≠ [] → ∃ v, H.peek = .ok v ∧ q.IsMin v) := by
  obtain ⟨outs, H, q, h1, h2, R, -⟩ := (Rep.init (D := D) cap t).run ops [] (by rw [List.append_nil]; exact h)
  refine ⟨outs, H, q, h1, h2, R.size, ?_, ?_⟩
  · rw [← List.length_eq_zero_iff, ← R.size, Heap.empty, beq_iff_eq]
  · intro hne
    have hpos : 0 < H.heapLength := by
      rw [R.size]; exact List.length_pos_iff.2 hne
    exact ⟨_, R.peek hpos, R.isMin hpos⟩

/-- A history with pushes, sets of live and of popped handles, and pops: legal. -/
example : LegalOps (D := ℝ) 3 0 0
    [.push 7 2, .push 8 1, .set 0 (1 / 2), .pop, .push 9 5, .set 0 4, .set 2 0, .pop, .pop] := by
  simp [LegalOps]

/-- C07.  Handles are stable.  In every history the handles handed out are `0, 1, 2, …`, so never reused; an entry that
is live at the end and whose handle already existed at some earlier point was live then, with the same address, and with
the same value unless `set` was called on that very handle in between. -/
theorem C07_handles_stable [TotalCmp D] (cap : Nat) (t : Bool) (ops ops' : List (HeapOp D))
    (h : LegalOps cap 0 0 (ops ++ ops')) :
    ∃ outs outs' H H' q q', (Heap.new cap t).run ops = .ok (outs, H) ∧ H.run ops' = .ok (outs', H') ∧
      PQ.Steps PQ.init ops outs q ∧ PQ.Steps q ops' outs' q' ∧
      (outs ++ outs').filterMap HeapOut.handle? = List.range q'.issued ∧
      ∀ k, k < q.issued → ∀ a v, q'.live k = some (a, v) →
        ∃ w, q.live k = some (a, w) ∧ ((∀ u, HeapOp.set k u ∉ ops') → w = v) := by
  obtain ⟨outs, H, q, h1, h2, R, -, -, hl⟩ := (Rep.init (D := D) cap t).run ops ops' h
  obtain ⟨outs', H', q', h1', h2', R', -⟩ := R.run ops' [] (by simpa using hl)
  refine ⟨outs, outs', H, H', q, q', h1, h1', h2, h2', ?_, fun k hk a v hv => h2'.stable hk hv⟩
  rw [(h2.append h2').handles, List.range_eq_range']
  rfl

/-- C07.  `set` on a live handle, at any point of any history: it succeeds, and what comes out afterwards is what would
come out of a queue in which exactly that entry has the new value. -/
theorem C07_set [TotalCmp D] (cap : Nat) (t : Bool) (ops : List (HeapOp D)) (k : Nat) (v : D)
    (h : LegalOps cap 0 0 (ops ++ [.set k v])) :
    ∃ outs H q H', (Heap.new cap t).run ops = .ok (outs, H) ∧ PQ.Steps PQ.init ops outs q ∧ H.set k v = .ok H' ∧
      ∃ l, H'.drain H'.size = .ok l ∧ l.Pairwise (fun x y => FP.lt y.2 x.2 = false) ∧
        l.Perm ((List.range q.issued).filterMap fun j =>
          if j = k then (q.live j).map fun e => (e.1, v) else q.live j) := by
  obtain ⟨outs, H, q, h1, h2, R, -, -, hl⟩ := (Rep.init (D := D) cap t).run ops [.set k v] h
  obtain ⟨H', e1, -, -, -, -, R'⟩ := wp_noErr_iff.1 (R.set hl.1 v)
  obtain ⟨l, l1, l2, l3⟩ := R'.drain _ (Nat.le_refl _)
  refine ⟨outs, H, q, H', h1, h2, e1, l, l1, l3, ?_⟩
  refine l2.trans ?_
  unfold PQ.entries
  rw [List.filterMap_congr]
  intro j _
  by_cases hj : j = k
  · subst hj; simp
  · simp [hj]

example : LegalOps (D := ℝ) 2 0 0 ([.push 7 2, .push 8 1, .pop] ++ [.set 0 5]) := by simp [LegalOps]

/-- C08 (the part that holds).  Whatever the values are and however they compare (NaN included), a history with at most
`cap` pushes in total that only sets issued handles never accesses an array out of range and never loops: the only
failure is the deliberate process exit. -/
theorem C08_memory_safe_partial (cap : Nat) (t : Bool) (ops : List (HeapOp D)) (h : SafeOps cap 0 ops) :
    wp ((Heap.new cap t : Heap D).run ops) (fun _ => True) onlyExit :=
  run_safe (new_sinv cap t) ops h

example : SafeOps (D := ℝ) 2 0 [.pop, .push 7 2, .push 8 1, .set 1 5, .pop, .pop, .set 0 3, .pop] := by simp [SafeOps]

/-- C08, negation of the full claim.  The check made by `push` is not sufficient: with capacity 1 the history
push, pop, push passes the "heap is full" check (the heap is empty) and then writes out of range. -/
theorem C08_push_after_pop_out_of_range (a b : Nat) (v w : D) :
    ∃ H : Heap D, (Heap.new 1 false : Heap D).run [.push a v, .pop] = .ok ([.handle 0, .popped a v], H) ∧
      H.size = 0 ∧ H.maxLength = 1 ∧ H.push b w = .error .ub := by
  refine ⟨⟨[v], [0], [a], [0], 0, 1, 1, false⟩, ?_, rfl, rfl, rfl⟩
  simp [Heap.run, exec, Heap.push, Heap.pop, Heap.new, check, wr, rd, siftDown, siftDownLoop, siftUp, siftUpLoop,
    maybeTest, bind, Except.bind, pure, Except.pure]

/-- C09.  The error exits, for every heap whatsoever. -/
theorem C09_exits (H : Heap D) (a : Nat) (v : D) :
    (H.size = 0 → H.pop = .error .exit ∧ H.peek = .error .exit) ∧
      (H.maxLength ≤ H.size → H.push a v = .error .exit) := by
  refine ⟨fun h => ?_, fun h => ?_⟩
  · have h : H.heapLength = 0 := h
    refine ⟨pop_empty h, ?_⟩
    unfold peek; rw [h]; rfl
  · have h : H.maxLength ≤ H.heapLength := h
    unfold push
    rw [decide_eq_false (by omega)]; rfl

/-- C09.  In all other cases within the contract the operations return normally. -/
theorem C09_no_other_exit [TotalCmp D] (cap : Nat) (t : Bool) (ops : List (HeapOp D)) (h : LegalOps cap 0 0 ops) :
    ∃ outs H q, (Heap.new cap t).run ops = .ok (outs, H) ∧ PQ.Steps PQ.init ops outs q ∧
      (H.size ≠ 0 → (∃ r, H.pop = .ok r) ∧ ∃ v, H.peek = .ok v) ∧
      (q.issued < cap → ∀ a v, ∃ r, H.push a v = .ok r) ∧ (∀ k v, k < q.issued → ∃ r, H.set k v = .ok r) := by
  obtain ⟨outs, H, q, h1, h2, R, hm, -⟩ := (Rep.init (D := D) cap t).run ops [] (by rw [List.append_nil]; exact h)
  refine ⟨outs, H, q, h1, h2, fun hs => ?_, fun hc a v => ?_, fun k v hk => ?_⟩
  · have hpos : 0 < H.heapLength := Nat.pos_of_ne_zero hs
    obtain ⟨r, hr, -⟩ := wp_noErr_iff.1 (R.pop hpos)
    exact ⟨⟨r, hr⟩, _, R.peek hpos⟩
  · obtain ⟨r, hr, -⟩ := wp_noErr_iff.1 (R.push (by rw [hm]; exact hc) a v)
    exact ⟨r, hr⟩
  · obtain ⟨r, hr, -⟩ := wp_noErr_iff.1 (R.set hk v)
    exact ⟨r, hr⟩

/-- C10.  Draining after any history yields exactly the live entries, in ascending order of value. -/
theorem C10_drain_sorts [TotalCmp D] (cap : Nat) (t : Bool) (ops : List (HeapOp D)) (h : LegalOps cap 0 0 ops) :
    ∃ outs H q l, (Heap.new cap t).run ops = .ok (outs, H) ∧ PQ.Steps PQ.init ops outs q ∧
      H.drain H.size = .ok l ∧ l.Perm q.entries ∧ l.Pairwise (fun x y => FP.lt y.2 x.2 = false) := by
  obtain ⟨outs, H, q, h1, h2, R, -⟩ := (Rep.init (D := D) cap t).run ops [] (by rw [List.append_nil]; exact h)
  obtain ⟨l, l1, l2, l3⟩ := R.drain _ (Nat.le_refl _)
  exact ⟨outs, H, q, l, h1, h2, l1, l2, l3⟩

/-- C11.  `set` on a handle whose entry has been popped: it succeeds, `size` is unchanged, the heap still holds exactly
the same entries, and any further legal calls behave as on the same queue `q` as without it (the only freedom is the order
among equal values). -/
theorem C11_stale_set [TotalCmp D] (cap : Nat) (t : Bool) (ops : List (HeapOp D)) (h : LegalOps cap 0 0 ops) :
    ∃ outs H q, (Heap.new cap t).run ops = .ok (outs, H) ∧ PQ.Steps PQ.init ops outs q ∧
      ∀ k v, k < q.issued → q.live k = none → ∃ H' l, H.set k v = .ok H' ∧ H'.size = H.size ∧
        (H'.drain H'.size = .ok l ∧ l.Perm q.entries ∧ l.Pairwise (fun x y => FP.lt y.2 x.2 = false)) ∧
        ∀ ops', LegalOps cap q.issued H.size ops' →
          ∃ outs' H'' q'', H'.run ops' = .ok (outs', H'') ∧ PQ.Steps q ops' outs' q'' := by
  obtain ⟨outs, H, q, h1, h2, R, hm, -⟩ := (Rep.init (D := D) cap t).run ops [] (by rw [List.append_nil]; exact h)
  refine ⟨outs, H, q, h1, h2, fun k v hk hd => ?_⟩
  obtain ⟨H', e1, e2, e3, e4, -, R'⟩ := wp_noErr_iff.1 (R.set hk v)
  have hq : (⟨q.issued, Function.update q.live k ((q.live k).map fun e => (e.1, v))⟩ : PQ D) = q := by
    rw [hd, Option.map_none, ← hd, Function.update_eq_self]
  rw [hq] at R'
  obtain ⟨l, l1, l2, l3⟩ := R'.drain _ (Nat.le_refl _)
  refine ⟨H', l, e1, e3, ⟨l1, l2, l3⟩, fun ops' hl' => ?_⟩
  obtain ⟨outs', H'', q'', r1, r2, -⟩ := R'.run ops' [] (by
    rw [e2, hm, e3, List.append_nil]; exact hl')
  exact ⟨outs', H'', q'', r1, r2⟩

/-- C11, with real values: the sequence of values that comes out is not changed by a `set` on a popped handle. -/
theorem C11_stale_set_values (cap : Nat) (t : Bool) (ops : List (HeapOp ℝ)) (h : LegalOps cap 0 0 ops) :
    ∃ outs H q, (Heap.new cap t).run ops = .ok (outs, H) ∧ PQ.Steps PQ.init ops outs q ∧
      ∀ k v, k < q.issued → q.live k = none → ∃ H' l l', H.set k v = .ok H' ∧ H.drain H.size = .ok l ∧
        H'.drain H'.size = .ok l' ∧ l'.map Prod.snd = l.map Prod.snd := by
  obtain ⟨outs, H, q, h1, h2, R, hm, -⟩ := (Rep.init (D := ℝ) cap t).run ops [] (by rw [List.append_nil]; exact h)
  obtain ⟨l, l1, l2, l3⟩ := R.drain _ (Nat.le_refl _)
  refine ⟨outs, H, q, h1, h2, fun k v hk hd => ?_⟩
  obtain ⟨H', e1, e2, e3, e4, -, R'⟩ := wp_noErr_iff.1 (R.set hk v)
  have hq : (⟨q.issued, Function.update q.live k ((q.live k).map fun e => (e.1, v))⟩ : PQ ℝ) = q := by
    rw [hd, Option.map_none, ← hd, Function.update_eq_self]
  rw [hq] at R'
  obtain ⟨l', l1', l2', l3'⟩ := R'.drain _ (Nat.le_refl _)
  refine ⟨H', l, l', e1, l1, l1', ?_⟩
  have hs : ∀ l : List (Nat × ℝ), l.Pairwise (fun x y => FP.lt y.2 x.2 = false) →
      (l.map Prod.snd).Pairwise (· ≤ ·) := by
    intro l hl
    rw [List.pairwise_map]
    exact hl.imp fun {a b} hab => by simpa using hab
  exact ((l2'.trans l2.symm).map Prod.snd).eq_of_pairwise (fun _ _ _ _ h1 h2 => le_antisymm h1 h2) (hs _ l3') (hs _ l3)

/-- A popped handle after a legal history. -/
example : LegalOps (D := ℝ) 2 0 0 [.push 7 2, .push 8 1, .pop] := by simp [LegalOps]

/-- C12.  With the self test enabled every legal history gives the same results, and the same heap, as with the self test
disabled: it never fires. -/
theorem C12_self_test [TotalCmp D] (cap : Nat) (ops : List (HeapOp D)) (h : LegalOps cap 0 0 ops) :
    ∃ outs H, (Heap.new cap false).run ops = .ok (outs, H) ∧
      (Heap.new cap true).run ops = .ok (outs, { H with isTest := true }) := by
  obtain ⟨outs, H, q, h1, h2, R, -⟩ := (Rep.init (D := D) cap false).run ops [] (by rw [List.append_nil]; exact h)
  obtain ⟨outs', H', q', h1', h2', R', -⟩ := (Rep.init (D := D) cap true).run ops [] (by rw [List.append_nil]; exact h)
  obtain ⟨rfl, rfl⟩ := run_flag true ops (Heap.new cap false) h1 h1'
  exact ⟨outs', H, h1, h1'⟩

/-- C12, a limit of the self test: it accepts a heap of two entries whose top is not the smallest. -/
theorem C12_self_test_misses_last :
    ∃ H : Heap ℝ, H.size = 2 ∧ H.test = .ok () ∧ H.peek = .ok 1 ∧ H.distance = [1, 0] := by
  refine ⟨⟨[1, 0], [0, 1], [0, 0], [0, 1], 2, 2, 2, true⟩, rfl, rfl, rfl, rfl⟩

end Slsm
