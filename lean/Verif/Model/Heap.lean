import Verif.Model.Num
import Verif.Model.Res

/-! # Heap (`/repo/src/Heap.h`, `/repo/src/Heap.cpp`) -/

namespace Slsm

open FP

/-- `class Heap` (`/repo/src/Heap.h`).  `unsigned int` positions are `Nat`: positions stay below `maxLength`, and
`2*pos+1` cannot wrap for `maxLength < 2^31`. -/
structure Heap (D : Type) where
  distance : List D
  heap : List Nat
  address : List Nat
  backPointer : List Nat
  heapLength : Nat
  listLength : Nat
  maxLength : Nat
  isTest : Bool

variable {D : Type} [FP D]

namespace Heap

/-- `Heap::Heap` (`/repo/src/Heap.cpp:30-43`). -/
def new (maxLength : Nat) (isTest : Bool) : Heap D :=
  { distance := List.replicate maxLength (nat 0), heap := List.replicate maxLength 0,
    address := List.replicate maxLength 0, backPointer := List.replicate maxLength 0,
    heapLength := 0, listLength := 0, maxLength := maxLength, isTest := isTest }

/-- The `while` loop of `Heap::siftDown` (`/repo/src/Heap.cpp:113-128`); returns the final position. -/
def siftDownLoop (startPos newItem pos : Nat) (H : Heap D) : Res (Nat × Heap D) :=
  if startPos < pos then do
    let parentPos := (pos - 1) / 2
    let parent ← rd H.heap parentPos
    let dn ← rd H.distance newItem
    let dp ← rd H.distance parent
    if dn <. dp then do
      let hp ← wr H.heap pos parent
      let bp ← wr H.backPointer parent pos
      siftDownLoop startPos newItem parentPos { H with heap := hp, backPointer := bp }
    else pure (pos, H)
  else pure (pos, H)
termination_by pos
decreasing_by omega

/-- `Heap::siftDown` (`/repo/src/Heap.cpp:102-133`). -/
def siftDown (startPos pos : Nat) (H : Heap D) : Res (Heap D) := do
  let newItem ← rd H.heap pos
  let (pos, H) ← siftDownLoop startPos newItem pos H
  let hp ← wr H.heap pos newItem
  let bp ← wr H.backPointer newItem pos
  pure { H with heap := hp, backPointer := bp }

/-- Choice of the smaller child in `Heap::siftUp` (`/repo/src/Heap.cpp:152-159`). -/
def minChild (childPos : Nat) (H : Heap D) : Res Nat :=
  let rightPos := childPos + 1
  if rightPos < H.heapLength then do
    let hr ← rd H.heap rightPos
    let dr ← rd H.distance hr
    let hc ← rd H.heap childPos
    let dc ← rd H.distance hc
    if dr <. dc then pure rightPos else pure childPos
  else pure childPos

/-- The `while` loop of `Heap::siftUp` (`/repo/src/Heap.cpp:150-168`).  The number of iterations is bounded by the
fuel argument, `heapLength` at the call; exhaustion is reported (and proved impossible). -/
def siftUpLoop : Nat → Nat → Heap D → Res (Nat × Heap D)
  | fuel, pos, H =>
    let childPos := 2 * pos + 1
    if childPos < H.heapLength then
      match fuel with
      | 0 => .error .fuel
      | fuel + 1 => do
        let c ← minChild childPos H
        let hc ← rd H.heap c
        let hp ← wr H.heap pos hc
        let bp ← wr H.backPointer hc pos
        siftUpLoop fuel c { H with heap := hp, backPointer := bp }
    else pure (pos, H)

/-- `Heap::siftUp` (`/repo/src/Heap.cpp:135-175`). -/
def siftUp (pos : Nat) (H : Heap D) : Res (Heap D) := do
  let newItem ← rd H.heap pos
  let (p, H) ← siftUpLoop H.heapLength pos H
  let hp ← wr H.heap p newItem
  siftDown pos p { H with heap := hp }

/-- `Heap::test` (`/repo/src/Heap.cpp:226-259`): exits on a violation. -/
def test (H : Heap D) : Res Unit := do
  forN H.heapLength () fun i _ =>
    forN 2 () fun j _ =>
      let child := 2 * i + 1 + j
      if child < H.heapLength - 1 then do
        let hi ← rd H.heap i
        let dp ← rd H.distance hi
        let hc ← rd H.heap child
        let dc ← rd H.distance hc
        check (dp ≤. dc)
      else pure ()
  forN H.heapLength () fun i _ => do
    let hi ← rd H.heap i
    let b ← rd H.backPointer hi
    check (b == i)

/-- `if (isTest) test();` -/
def maybeTest (H : Heap D) : Res Unit := if H.isTest then H.test else pure ()

/-- `Heap::push` (`/repo/src/Heap.cpp:45-73`): returns the handle and the new heap. -/
def push (a : Nat) (v : D) (H : Heap D) : Res (Nat × Heap D) := do
  check (decide (H.heapLength < H.maxLength))
  let hp ← wr H.heap H.heapLength H.listLength
  let ad ← wr H.address H.listLength a
  let ds ← wr H.distance H.listLength v
  let bp ← wr H.backPointer H.listLength H.heapLength
  let H := { H with heap := hp, address := ad, distance := ds, backPointer := bp,
                    heapLength := H.heapLength + 1, listLength := H.listLength + 1 }
  let H ← siftDown 0 (H.heapLength - 1) H
  H.maybeTest
  pure (H.listLength - 1, H)

/-- `Heap::pop` (`/repo/src/Heap.cpp:75-100`): returns address, value and the new heap. -/
def pop (H : Heap D) : Res (Nat × D × Heap D) := do
  check (H.heapLength != 0)
  let h0 ← rd H.heap 0
  let a ← rd H.address h0
  let v ← rd H.distance h0
  let last ← rd H.heap (H.heapLength - 1)
  let hp ← wr H.heap 0 last
  let bp ← wr H.backPointer last 0
  let H := { H with heap := hp, backPointer := bp, heapLength := H.heapLength - 1 }
  let H ← siftUp 0 H
  H.maybeTest
  pure (a, v, H)

/-- `Heap::set` (`/repo/src/Heap.cpp:177-202`). -/
def set (index : Nat) (newDistance : D) (H : Heap D) : Res (Heap D) := do
  let oldDistance ← rd H.distance index
  let ds ← wr H.distance index newDistance
  let pos ← rd H.backPointer index
  let H := { H with distance := ds }
  let H ← if oldDistance <. newDistance then siftUp pos H else pure H
  let hpos ← rd H.heap pos
  let d ← rd H.distance hpos
  if !(d =. newDistance) then do
    H.maybeTest
    pure H
  else do
    let H ← siftDown 0 pos H
    H.maybeTest
    pure H

/-- `Heap::empty` (`/repo/src/Heap.cpp:204-207`). -/
def empty (H : Heap D) : Bool := H.heapLength == 0

/-- `Heap::peek` (`/repo/src/Heap.cpp:209-219`). -/
def peek (H : Heap D) : Res D := do
  check (H.heapLength != 0)
  let h0 ← rd H.heap 0
  rd H.distance h0

/-- `Heap::size` (`/repo/src/Heap.cpp:221-224`). -/
def size (H : Heap D) : Nat := H.heapLength

end Heap

end Slsm
