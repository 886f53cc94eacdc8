import Verif.Model.Mesh
import Verif.Model.Heap

/-! # Fast marching (`/repo/src/FastMarchingMethod.h`, `/repo/src/FastMarchingMethod.cpp`) -/

namespace Slsm

open FP

/-- `enum FMM_NodeStatus` (`/repo/src/FastMarchingMethod.h:45-51`).  The values are one-hot bits and only single bits are
ever stored, so `s & FROZEN` is `s == FROZEN` and `s & TRIAL` is `s == TRIAL`. -/
inductive FMMStatus where
  | none | frozen | trial | masked
  deriving DecidableEq, Repr

/-- `class FastMarchingMethod` (`/repo/src/FastMarchingMethod.h:68-176`).  The mesh reference is passed to every function
separately; the pointers `signedDistance` and `velocity` are replaced by the vectors they point to (`sd`, `vel`), which
are returned by `march`; `heap` (a pointer, initially null) starts as an empty heap of capacity 0. -/
structure FMM (D : Type) where
  isTest : Bool
  isVelocity : Bool
  heapPtr : List Nat
  status : List FMMStatus
  copy : List D
  sd : List D
  vel : List D
  heap : Heap D

variable {D : Type} [FP D]

/-- `mesh.nodes[i].neighbours[j]`. -/
def nbr (m : Mesh D) (i j : Nat) : Res Nat := do
  let nd ← rd m.nodes i
  rd nd.neighbours j

namespace FMM

/-- `FastMarchingMethod::FastMarchingMethod` (`/repo/src/FastMarchingMethod.cpp:34-45`).  `outOfBounds` is `mesh.nNodes`
throughout. -/
def new (m : Mesh D) (isTest : Bool) : FMM D :=
  { isTest := isTest, isVelocity := false, heapPtr := List.replicate m.nNodes 0,
    status := List.replicate m.nNodes .none, copy := List.replicate m.nNodes (nat 0), sd := [], vel := [],
    heap := Heap.new 0 isTest }

/-- Body of the first loop of `initialiseFrozen` (`/repo/src/FastMarchingMethod.cpp:105-123`). -/
def frozenZero (i : Nat) (s : FMM D × Nat) : Res (FMM D × Nat) := do
  let (F, nFrozen) := s
  let v ← rd F.sd i
  let copy ← wr F.copy i v
  let F := { F with copy := copy }
  let st ← rd F.status i
  if st ≠ .masked then do
    let c ← rd F.copy i
    if c =. nat 0 then do
      let status ← wr F.status i .frozen
      pure ({ F with status := status }, nFrozen + 1)
    else pure (F, nFrozen)
  else pure (F, nFrozen)

/-- Body of the loop over neighbours (`/repo/src/FastMarchingMethod.cpp:139-165`): state is `(isBorder, dist[0], dist[1])`. -/
def crossing (m : Mesh D) (F : FMM D) (i j : Nat) (s : Bool × D × D) : Res (Bool × D × D) := do
  let (isBorder, d0, d1) := s
  let neighbour ← nbr m i j
  if neighbour ≠ m.nNodes then do
    let ci ← rd F.copy i
    let cn ← rd F.copy neighbour
    if (ci *. cn) <. nat 0 then do
      let d := ci /. (ci -. cn)
      if j < 2 then
        pure (true, (if (d0 =. nat 0) || (d <. d0) then d else d0), d1)
      else
        pure (true, d0, (if (d1 =. nat 0) || (d <. d1) then d else d1))
    else pure (isBorder, d0, d1)
  else pure (isBorder, d0, d1)

/-- `distSum` (`/repo/src/FastMarchingMethod.cpp:170-178`). -/
def distSum (d0 d1 : D) : D :=
  let s : D := nat 0
  let s := if nat 0 <. d0 then s +. (nat 1 /. (d0 *. d0)) else s
  if nat 0 <. d1 then s +. (nat 1 /. (d1 *. d1)) else s

/-- Body of the second loop of `initialiseFrozen` (`/repo/src/FastMarchingMethod.cpp:127-191`). -/
def frozenBorder (m : Mesh D) (i : Nat) (s : FMM D × Nat) : Res (FMM D × Nat) := do
  let (F, nFrozen) := s
  let st ← rd F.status i
  if st = .none then do
    let (isBorder, d0, d1) ← forN 4 (false, nat 0, nat 0) (crossing m F i)
    if isBorder then do
      let c ← rd F.copy i
      let r := sqrt (nat 1 /. distSum d0 d1)
      let sd ← wr F.sd i (if c <. nat 0 then neg r else r)
      let status ← wr F.status i .frozen
      pure ({ F with sd := sd, status := status }, nFrozen + 1)
    else pure (F, nFrozen)
  else pure (F, nFrozen)

/-- `FastMarchingMethod::initialiseFrozen` (`/repo/src/FastMarchingMethod.cpp:99-200`). -/
def initialiseFrozen (m : Mesh D) (F : FMM D) : Res (FMM D) := do
  let s ← forN m.nNodes (F, 0) frozenZero
  let (F, nFrozen) ← forN m.nNodes s (frozenBorder m)
  check (decide (0 < nFrozen))
  pure F

/-- `FastMarchingMethod::initialiseHeap` (`/repo/src/FastMarchingMethod.cpp:202-216`).  The previous heap is leaked. -/
def initialiseHeap (m : Mesh D) (F : FMM D) : Res (FMM D) := do
  let maxHeapSize ← forN m.nNodes 0 fun i n => do
    let st ← rd F.status i
    pure (if st = .none then n + 1 else n)
  pure { F with heap := Heap.new maxHeapSize F.isTest }

/-- Loop over the two directions of one dimension in `updateNode` (`/repo/src/FastMarchingMethod.cpp:449-489`): state is
`(dist1, dist2)`. -/
def stencilDir (m : Mesh D) (F : FMM D) (node i j : Nat) (s : D × D) : Res (D × D) := do
  let (dist1, dist2) := s
  let index := 2 * i + j
  let n1 ← nbr m node index
  if n1 ≠ m.nNodes then do
    let st1 ← rd F.status n1
    if st1 = .frozen then do
      let v1 ← rd F.sd n1
      if abs v1 <. abs dist1 then do
        let dist1 := v1
        let n2 ← nbr m n1 index
        if n2 ≠ m.nNodes then do
          let st2 ← rd F.status n2
          if st2 = .frozen then do
            let v2 ← rd F.sd n2
            pure (dist1, if abs v2 ≤. abs dist1 then v2 else dist2)
          else pure (dist1, dist2)
        else pure (dist1, dist2)
      else pure (dist1, dist2)
    else pure (dist1, dist2)
  else pure (dist1, dist2)

/-- Accumulation of the quadratic coefficients for one dimension (`/repo/src/FastMarchingMethod.cpp:491-506`). -/
def accum (dist1 dist2 : D) (s : D × D × D) : D × D × D :=
  let (a, b, c) := s
  let aa : D := lit 9 4
  if dist2 <. maxVal then
    let tp := lit 1 3 *. (nat 4 *. dist1 -. dist2)
    (a +. aa, b -. nat 2 *. aa *. tp, c +. aa *. tp *. tp)
  else if dist1 <. maxVal then
    (a +. nat 1, b -. nat 2 *. dist1, c +. dist1 *. dist1)
  else (a, b, c)

/-- `std::numeric_limits<double>::epsilon()` (`/repo/src/FastMarchingMethod.h`). -/
def doubleEpsilon : D := lit 1 4503599627370496

/-- `FastMarchingMethod::solveQuadratic` (`/repo/src/FastMarchingMethod.cpp:593-612`). -/
def solveQuadratic (F : FMM D) (node : Nat) (a b c : D) : Res D := do
  let discrim := b *. b -. nat 4 *. a *. c
  if nat 0 <. discrim then do
    let r0 := (neg b +. sqrt discrim) /. (nat 2 *. a)
    let r1 := (neg b -. sqrt discrim) /. (nat 2 *. a)
    let cp ← rd F.copy node
    pure (if doubleEpsilon <. cp then r0 else r1)
  else rd F.sd node

/-- `FastMarchingMethod::updateNode` (`/repo/src/FastMarchingMethod.cpp:427-513`). -/
def updateNode (m : Mesh D) (F : FMM D) (node : Nat) : Res D := do
  let (a, b, c) ← forN 2 (nat 0, nat 0, nat 0) fun i s => do
    let (dist1, dist2) ← forN 2 (maxVal, maxVal) (stencilDir m F node i)
    pure (accum dist1 dist2 s)
  solveQuadratic F node a b (c -. nat 1)

/-- Mark as trial and push (`/repo/src/FastMarchingMethod.cpp:383-387` and `393-396`). -/
def makeTrial (i : Nat) (d : D) (F : FMM D) : Res (FMM D) := do
  let status ← wr F.status i .trial
  let (k, heap) ← F.heap.push i (abs d)
  let hp ← wr F.heapPtr i k
  pure { F with status := status, heap := heap, heapPtr := hp }

/-- Mark as trial, estimate and push (`/repo/src/FastMarchingMethod.cpp:247-254` and `259-266`). -/
def newTrial (m : Mesh D) (i : Nat) (F : FMM D) : Res (FMM D) := do
  let status ← wr F.status i .trial
  let F := { F with status := status }
  let d ← updateNode m F i
  let sd ← wr F.sd i d
  let F := { F with sd := sd }
  let v ← rd F.sd i
  let (k, heap) ← F.heap.push i (abs v)
  let hp ← wr F.heapPtr i k
  pure { F with heap := heap, heapPtr := hp }

/-- Whether a node may enter the trial band (`/repo/src/FastMarchingMethod.cpp:242-245` and `378-381`). -/
def admissible (m : Mesh D) (F : FMM D) (i : Nat) : Res Bool :=
  if F.isVelocity then do
    let nd ← rd m.nodes i
    pure nd.isActive
  else pure true

/-- Body of the inner loop of `initialiseTrial` (`/repo/src/FastMarchingMethod.cpp:229-271`). -/
def trialNbr (m : Mesh D) (i j : Nat) (F : FMM D) : Res (FMM D) := do
  let neighbour ← nbr m i j
  if neighbour ≠ m.nNodes then do
    let sn ← rd F.status neighbour
    if sn = .frozen then do
      let si ← rd F.status i
      if si = .none then do
        let ok ← admissible m F i
        if ok then newTrial m i F else pure F
      else pure F
    else pure F
  else pure F

/-- `FastMarchingMethod::initialiseTrial` (`/repo/src/FastMarchingMethod.cpp:218-274`). -/
def initialiseTrial (m : Mesh D) (F : FMM D) : Res (FMM D) :=
  forN m.nNodes F fun i F => do
    let si ← rd F.status i
    if si = .none then forN 4 F (trialNbr m i) else pure F

/-- Body of the loop over neighbours in `finaliseVelocity` (`/repo/src/FastMarchingMethod.cpp:536-571`): the state is
`(isSet, frontDist, dist, vel)` for each of the two dimensions. -/
def frontNbr (m : Mesh D) (F : FMM D) (node i : Nat) (s : (Bool × D × D × D) × (Bool × D × D × D)) :
    Res ((Bool × D × D × D) × (Bool × D × D × D)) := do
  let neighbour ← nbr m node i
  if neighbour ≠ m.nNodes then do
    let st ← rd F.status neighbour
    if st = .frozen then do
      let vn ← rd F.sd neighbour
      let d := abs vn
      let (isSet, front, _, _) := if i < 2 then s.1 else s.2
      if !isSet || (d <. front) then do
        let vi ← rd F.sd node
        let v ← rd F.vel neighbour
        let t := (true, d, abs (vi -. vn), v)
        pure (if i < 2 then (t, s.2) else (s.1, t))
      else pure s
    else pure s
  else pure s

/-- `FastMarchingMethod::finaliseVelocity` (`/repo/src/FastMarchingMethod.cpp:515-591`). -/
def finaliseVelocity (m : Mesh D) (node : Nat) (F : FMM D) : Res (FMM D) := do
  let z : Bool × D × D × D := (false, nat 0, nat 0, nat 0)
  let ((_, _, d0, v0), (_, _, d1, v1)) ← forN 4 (z, z) (frontNbr m F node)
  let numerator := (nat 0 +. d0 *. v0) +. d1 *. v1
  let denominator := (nat 0 +. d0) +. d1
  check (!(denominator =. nat 0))
  let vel ← wr F.vel node (numerator /. denominator)
  pure { F with vel := vel }

/-- Velocity of a node just frozen (`/repo/src/FastMarchingMethod.cpp:314-315` and `336-337`). -/
def finalise (m : Mesh D) (addr : Nat) (F : FMM D) : Res (FMM D) :=
  if F.isVelocity then finaliseVelocity m addr F else pure F

/-- Pop the top of the heap and freeze it (`/repo/src/FastMarchingMethod.cpp:308-319` and `331-342`): returns the value
popped, the new state, and the list and number of nodes to freeze. -/
def popFreeze (m : Mesh D) (s : FMM D × List Nat × Nat) : Res (D × FMM D × List Nat × Nat) := do
  let (F, toFreeze, nFrozen) := s
  let (addr, value, heap) ← F.heap.pop
  let status ← wr F.status addr .frozen
  let F := { F with heap := heap, status := status }
  let F ← finalise m addr F
  let toFreeze ← wr toFreeze nFrozen addr
  pure (value, F, toFreeze, nFrozen + 1)

/-- `!heap->empty() && value == heap->peek()` (`/repo/src/FastMarchingMethod.cpp:326`). -/
def peekEqual (value : D) (F : FMM D) : Res Bool :=
  if !F.heap.empty then do
    let p ← F.heap.peek
    pure (value =. p)
  else pure false

/-- The `while (!isDone)` loop (`/repo/src/FastMarchingMethod.cpp:324-345`).  Bound: the heap length plus one. -/
def popEqual (m : Mesh D) (value : D) (s : FMM D × List Nat × Nat) : Res (FMM D × List Nat × Nat) := do
  let (s, _) ← whileN (s.1.heap.size + 1) (fun s => !s.2) (fun s => do
    let more ← peekEqual value s.1.1
    if more then do
      let (_, s') ← popFreeze m s.1
      pure (s', false)
    else pure (s.1, true)) (s, false)
  pure s

/-- Re-estimate a trial node (`/repo/src/FastMarchingMethod.cpp:413-417`). -/
def refresh (m : Mesh D) (n : Nat) (F : FMM D) : Res (FMM D) := do
  let d ← updateNode m F n
  let sd ← wr F.sd n d
  let k ← rd F.heapPtr n
  let heap ← F.heap.set k (abs d)
  pure { F with sd := sd, heap := heap }

/-- Put a neighbour with new estimate `d` in the heap, or update it there
(`/repo/src/FastMarchingMethod.cpp:368-398`).  `st` is its status. -/
def visit (m : Mesh D) (naddr : Nat) (st : FMMStatus) (d : D) (F : FMM D) : Res (FMM D) :=
  if st = .trial then do
    let k ← rd F.heapPtr naddr
    let heap ← F.heap.set k (abs d)
    pure { F with heap := heap }
  else if st = .none then do
    let ok ← admissible m F naddr
    if ok then makeTrial naddr d F else pure F
  else pure F

/-- Body of the loop over the neighbours of a frozen node in `solve` (`/repo/src/FastMarchingMethod.cpp:354-422`). -/
def spreadNbr (m : Mesh D) (addr j : Nat) (F : FMM D) : Res (FMM D) := do
  let naddr ← nbr m addr j
  if naddr ≠ m.nNodes then do
    let st ← rd F.status naddr
    if st ≠ .frozen then do
      let d ← updateNode m F naddr
      let sd ← wr F.sd naddr d
      let F := { F with sd := sd }
      let F ← visit m naddr st d F
      let naddr ← nbr m naddr j
      if naddr ≠ m.nNodes then do
        let st ← rd F.status naddr
        if st = .trial then refresh m naddr F else pure F
      else pure F
    else pure F
  else pure F

/-- Body of the main loop of `solve` (`/repo/src/FastMarchingMethod.cpp:300-424`).  `toFreeze` is one vector reused by all
iterations. -/
def solveStep (m : Mesh D) (s : FMM D × List Nat) : Res (FMM D × List Nat) := do
  let (value, s1) ← popFreeze m (s.1, s.2, 0)
  let (F, toFreeze, nFrozen) ← popEqual m value s1
  let F ← forN nFrozen F fun i F => do
    let addr ← rd toFreeze i
    forN 4 F (spreadNbr m addr)
  pure (F, toFreeze)

/-- `FastMarchingMethod::solve` (`/repo/src/FastMarchingMethod.cpp:276-425`).  Bound on the iterations: the capacity of
the heap. -/
def solve (m : Mesh D) (F : FMM D) : Res (FMM D) := do
  let (F, _) ← whileN F.heap.maxLength (fun s => !s.1.heap.empty) (solveStep m) (F, List.replicate m.nNodes 0)
  pure F

/-- `FastMarchingMethod::march(signedDistance)` (`/repo/src/FastMarchingMethod.cpp:52-68`).  Returns the object; its field
`sd` is the vector passed by reference. -/
def marchDistance (m : Mesh D) (sd : List D) (F : FMM D) : Res (FMM D) := do
  let F := { F with sd := sd, isVelocity := false }
  let F ← initialiseFrozen m F
  let F ← initialiseHeap m F
  let F ← initialiseTrial m F
  solve m F

/-- `FastMarchingMethod::march(signedDistance, velocity)` (`/repo/src/FastMarchingMethod.cpp:70-97`).  The fields `sd` and
`vel` of the result are the vectors passed by reference. -/
def marchVelocity (m : Mesh D) (sd vel : List D) (F : FMM D) : Res (FMM D) := do
  let F := { F with sd := sd, vel := vel, isVelocity := true }
  let F ← initialiseFrozen m F
  let F ← initialiseHeap m F
  let F ← initialiseTrial m F
  let F ← solve m F
  pure { F with sd := F.copy }

end FMM

end Slsm
