import Verif.Model.Heap
import Mathlib.Logic.Function.Basic

/-! # Specification of the heap: an abstract priority queue with handles

Nothing here refers to the arrays of the heap: only to the operations a client can call and to their results. -/

namespace Slsm

variable {D : Type} [FP D]

/-- The state a client has in mind: how many handles have been issued, and which of them are live, with the address and
the value they carry. -/
structure PQ (D : Type) where
  issued : Nat
  live : Nat → Option (Nat × D)

/-- A call a client can make. -/
inductive HeapOp (D : Type) where
  /-- `push(address, value)` -/
  | push (a : Nat) (v : D)
  /-- `set(handle, value)` -/
  | set (k : Nat) (v : D)
  /-- `pop(address&, value&)` -/
  | pop

/-- What the call gives back. -/
inductive HeapOut (D : Type) where
  | handle (k : Nat)
  | done
  | popped (a : Nat) (v : D)

namespace PQ

/-- No entries, no handles issued. -/
def init : PQ D := ⟨0, fun _ => none⟩

/-- The live entries. -/
def entries (q : PQ D) : List (Nat × D) := (List.range q.issued).filterMap q.live

/-- `v` is a smallest value among the live entries. -/
def IsMin (q : PQ D) (v : D) : Prop :=
  (∃ k a, q.live k = some (a, v)) ∧ ∀ k a w, q.live k = some (a, w) → FP.lt w v = false

/-- One call and its meaning. -/
inductive Step : PQ D → HeapOp D → HeapOut D → PQ D → Prop
  /-- a fresh handle, never used before -/
  | push (q : PQ D) (a : Nat) (v : D) :
      Step q (.push a v) (.handle q.issued) ⟨q.issued + 1, Function.update q.live q.issued (some (a, v))⟩
  /-- the value of exactly that entry; nothing if the entry has already been popped -/
  | set (q : PQ D) (k : Nat) (v : D) :
      Step q (.set k v) .done ⟨q.issued, Function.update q.live k ((q.live k).map fun e => (e.1, v))⟩
  /-- an entry with smallest value is returned and removed, and no other -/
  | pop (q : PQ D) (k a : Nat) (v : D) (h : q.live k = some (a, v)) (hmin : q.IsMin v) :
      Step q .pop (.popped a v) ⟨q.issued, Function.update q.live k none⟩

/-- A history of calls. -/
inductive Steps : PQ D → List (HeapOp D) → List (HeapOut D) → PQ D → Prop
  | nil (q : PQ D) : Steps q [] [] q
  | cons {q q' q'' : PQ D} {op out ops outs} : Step q op out q' → Steps q' ops outs q'' →
      Steps q (op :: ops) (out :: outs) q''

end PQ

/-- A history the heap's contract allows, starting with `issued` handles and `size` live entries: at most `cap` pushes in
total, only issued handles are set, and pop is not called on an empty heap. -/
def LegalOps (cap : Nat) : Nat → Nat → List (HeapOp D) → Prop
  | _, _, [] => True
  | issued, size, .push _ _ :: ops => issued < cap ∧ LegalOps cap (issued + 1) (size + 1) ops
  | issued, size, .set k _ :: ops => k < issued ∧ LegalOps cap issued size ops
  | issued, size, .pop :: ops => 0 < size ∧ LegalOps cap issued (size - 1) ops

/-- The weaker contract sufficient for memory safety: popping an empty heap is allowed. -/
def SafeOps (cap : Nat) : Nat → List (HeapOp D) → Prop
  | _, [] => True
  | issued, .push _ _ :: ops => issued < cap ∧ SafeOps cap (issued + 1) ops
  | issued, .set k _ :: ops => k < issued ∧ SafeOps cap issued ops
  | issued, .pop :: ops => SafeOps cap issued ops

namespace Heap

/-- One call on the modelled heap. -/
def exec (op : HeapOp D) (H : Heap D) : Res (HeapOut D × Heap D) :=
  match op with
  | .push a v => do let (k, H) ← H.push a v; pure (.handle k, H)
  | .set k v => do let H ← H.set k v; pure (.done, H)
  | .pop => do let (a, v, H) ← H.pop; pure (.popped a v, H)

/-- A history of calls on the modelled heap. -/
def run : List (HeapOp D) → Heap D → Res (List (HeapOut D) × Heap D)
  | [], H => pure ([], H)
  | op :: ops, H => do
    let (out, H) ← H.exec op
    let (outs, H) ← run ops H
    pure (out :: outs, H)

/-- The client loop `while (!heap.empty()) heap.pop(a, v);` collecting what comes out; `n` bounds the iterations. -/
def drain : Nat → Heap D → Res (List (Nat × D))
  | n, H => if H.empty then pure [] else
    match n with
    | 0 => .error .fuel
    | n + 1 => do
      let (a, v, H) ← H.pop
      let l ← drain n H
      pure ((a, v) :: l)

end Heap

end Slsm
