import Verif.Model.LevelSet

/-! # Optimisation of the boundary velocities (`/repo/src/Optimise.h`, `/repo/src/Optimise.cpp`)

The nonlinear solver NLopt is a parameter of the model (`NLopt` below): nothing is assumed about what it returns. -/

namespace Slsm

open FP

/-- `class Optimise` (`/repo/src/Optimise.h:80-263`): all data members except `algorithm`, which is only passed to NLopt.  `points`,
`lambdas` and `timeStep` are references to objects of the caller.  `returnCode` has no initial value: `none`. -/
structure Optimise (D : Type) where
  nPoints : Nat
  nConstraints : Nat
  nConstraintsInitial : Nat
  points : List (BoundaryPoint D)
  constraintDistances : List D
  lambdas : List D
  timeStep : D
  maxDisplacement : D
  isMax : Bool
  isEquality : List Bool
  indexMap : List Nat
  displacements : List D
  negativeLambdaLimits : List D
  positiveLambdaLimits : List D
  scaleFactors : List D
  constraintDistancesScaled : List D
  gradients : List (List D)
  returnCode : Option Int

/-- How a call of `nlopt::opt::optimize` ends: a success code, `nlopt::roundoff_limited`, `std::invalid_argument`, or another exception. -/
inductive NLoptEnd where
  | code (c : Nat)
  | roundoff
  | invalid
  | other

/-- One call of `nlopt::opt::optimize`: the calls of the callback it makes (point, whether a gradient is wanted, number of the function),
the point and the objective value it stores, and how it ends. -/
structure NLoptRun (D : Type) where
  queries : List ((Nat → D) × Bool × Nat)
  lambdas : Nat → D
  objective : D
  result : NLoptEnd

namespace Optimise

/-- `std::vector::resize(n)` (new entries are value-initialised). -/
def resize {α : Type} (v : List α) (n : Nat) (a : α) : List α := v.take n ++ List.replicate (n - v.length) a

variable {D : Type} [FP D]

/-- The constructor (`/repo/src/Optimise.cpp:38-83`).  `lambdas.size() - 1` is stored in an `unsigned int`. -/
def new (points : List (BoundaryPoint D)) (constraintDistances lambdas : List D) (timeStep maxDisplacement : D) (isMax : Bool)
    (isEquality : List Bool) : Res (Optimise D) := do
  check ((nat 0 <. maxDisplacement) && (maxDisplacement <. nat 1))
  check (0 < points.length)
  let n := LevelSet.sub32 lambdas.length 1
  check (!(decide (0 < n) && constraintDistances.isEmpty))
  check (n = constraintDistances.length)
  pure {
    nPoints := 0, nConstraints := n, nConstraintsInitial := n, points := points, constraintDistances := constraintDistances,
    lambdas := lambdas, timeStep := timeStep, maxDisplacement := maxDisplacement, isMax := isMax,
    isEquality := if isEquality.length = 0 then List.replicate n false else isEquality,
    indexMap := [], displacements := [], negativeLambdaLimits := List.replicate (n + 1) (nat 0),
    positiveLambdaLimits := List.replicate (n + 1) (nat 0), scaleFactors := List.replicate (n + 1) (nat 0),
    constraintDistancesScaled := constraintDistances, gradients := [], returnCode := none }

/-! ## Displacements, functions, gradients -/

/-- Displacement of a movable point (`/repo/src/Optimise.cpp:637-655`). -/
def displacement (s : Optimise D) (lambda : List D) (p : BoundaryPoint D) : Res D := do
  let f ← rd s.scaleFactors 0
  let l ← rd lambda 0
  let c ← rd p.sensitivities 0
  let d ← forN s.nConstraints (f *. l *. c) fun j d => do
    let k ← rd s.indexMap (j + 1)
    let f ← rd s.scaleFactors (j + 1)
    let l ← rd lambda (j + 1)
    let c ← rd p.sensitivities k
    pure (d +. f *. l *. c)
  pure (if p.isDomain && (d <. p.negativeLimit) then p.negativeLimit else d)

/-- `Optimise::computeDisplacements` (`/repo/src/Optimise.cpp:628-658`); the result is the new value of `displacements`. -/
def computeDisplacements (s : Optimise D) (lambda : List D) : Res (List D) :=
  forN s.nPoints s.displacements fun i ds => do
    let p ← rd s.points i
    if p.isFixed then pure ds
    else do
      let d ← displacement s lambda p
      wr ds i d

/-- `Optimise::computeFunction` (`/repo/src/Optimise.cpp:660-680`). -/
def computeFunction (s : Optimise D) (index : Nat) : Res D := do
  let j ← rd s.indexMap index
  let func ← forN s.nPoints (nat 0) fun i func => do
    let p ← rd s.points i
    if p.isFixed then pure func
    else do
      let f ← rd s.scaleFactors index
      let d ← rd s.displacements i
      let c ← rd p.sensitivities j
      pure (func +. f *. d *. c *. p.length)
  if index = 0 then pure func
  else do
    let f ← rd s.scaleFactors index
    let t ← rd s.constraintDistancesScaled (index - 1)
    pure (func -. f *. t)

/-- `Optimise::computeGradients` (`/repo/src/Optimise.cpp:682-721`); the result is the new value of the argument `gradient`. -/
def computeGradients (s : Optimise D) (gradient : List D) (index : Nat) : Res (List D) := do
  let gradient ← wr gradient 0 (nat 0)
  let gradient ← forN s.nConstraints gradient fun i g => wr g (i + 1) (nat 0)
  forN s.nPoints gradient fun i g => do
    let p ← rd s.points i
    if p.isFixed then pure g
    else
      forN (s.nConstraints + 1) g fun j g => do
        let k ← rd s.indexMap j
        let fi ← rd s.scaleFactors index
        let fj ← rd s.scaleFactors j
        let m ← rd s.indexMap index
        let a ← rd p.sensitivities m
        let c ← rd p.sensitivities k
        modAt g k fun x => pure (x +. a *. c *. p.length *. (fi *. fj))

/-- `Optimise::callback` (`/repo/src/Optimise.cpp:133-144`): new state, gradient (if wanted) and value. -/
def callback (s : Optimise D) (lambda : List D) (wanted : Bool) (index : Nat) : Res (Optimise D × Option (List D) × D) := do
  let d ← computeDisplacements s lambda
  let s := { s with displacements := d }
  let v ← computeFunction s index
  if wanted then do
    let g ← rd s.gradients index
    pure (s, some g, v)
  else pure (s, none, v)

/-! ## Scale factors and limits -/

/-- Largest absolute sensitivity to function `k` of the first `n` points that can move, starting from `m0`
(`/repo/src/Optimise.cpp:334-347`, `591-605`). -/
def maxSensitivity (points : List (BoundaryPoint D)) (n k : Nat) (m0 : D) : Res D :=
  forN n m0 fun j m => do
    let p ← rd points j
    if p.isFixed then pure m
    else do
      let c ← rd p.sensitivities k
      pure (if m <. abs c then abs c else m)

/-- `Optimise::computeScaleFactors` (`/repo/src/Optimise.cpp:300-369`); the result is the new value of `scaleFactors`.  The local vector
`lambda` is never used. -/
def computeScaleFactors (s : Optimise D) : Res (List D) := do
  let f ← forN (s.nConstraints + 1) s.scaleFactors fun i f => do
    let m ← maxSensitivity s.points s.nPoints i (nat 0)
    wr f i (nat 1 /. m)
  let (f, _) ← forN (s.nConstraints + 1) (f, List.replicate (s.nConstraints + 1) (nat 0)) fun i (f, g) => do
    let g ← computeGradients { s with scaleFactors := f } g i
    let a ← rd g i
    let f ← modAt f i fun x => pure (x *. (nat 1 /. abs a))
    pure (f, g)
  pure f

/-- One loop `while (cond) lambda *= 0.9` (`/repo/src/Optimise.cpp:623-624`), with an iteration bound. -/
def shrink (fuel : Nat) (cond : D → Bool) (l : D) : Res D := whileN fuel cond (fun x => pure (x *. lit 9 10)) l

/-- `Optimise::computeLambdaLimits` (`/repo/src/Optimise.cpp:570-626`).  `std::numeric_limits<double>::min()` is `2⁻¹⁰²²`. -/
def computeLambdaLimits (fuel : Nat) (s : Optimise D) : Res (Optimise D) :=
  forN (s.nConstraints + 1) s fun i s => do
    let k ← rd s.indexMap i
    let m ← maxSensitivity s.points s.points.length k (lit 1 (2 ^ 1022))
    let f ← rd s.scaleFactors i
    let lo := neg s.maxDisplacement /. m /. f
    let hi := s.maxDisplacement /. m /. f
    let neg ← wr s.negativeLambdaLimits i lo
    let pos ← wr s.positiveLambdaLimits i hi
    let l ← rd s.lambdas i
    let l ← shrink fuel (fun x => x <. lo) l
    let l ← shrink fuel (fun x => hi <. x) l
    let ls ← wr s.lambdas i l
    pure { s with negativeLambdaLimits := neg, positiveLambdaLimits := pos, lambdas := ls }

/-! ## Constraint distances -/

/-- Corner `j` of the search box: coordinate `k` is at its upper limit iff bit `k` of `j` is set (`/repo/src/Optimise.cpp:411-424`,
`447-455`). -/
def corner (s : Optimise D) (nDim j : Nat) : Res (List D) :=
  forN nDim [] fun k l => do
    let x ← rd (if j.testBit k then s.positiveLambdaLimits else s.negativeLambdaLimits) k
    pure (l ++ [x])

/-- Change of the function with original number `k` for given displacements (`/repo/src/Optimise.cpp:460-472`). -/
def change (s : Optimise D) (k : Nat) : Res D :=
  forN s.nPoints (nat 0) fun i c => do
    let p ← rd s.points i
    if p.isFixed then pure c
    else do
      let d ← rd s.displacements i
      let a ← rd p.sensitivities k
      pure (c +. d *. a *. p.length)

/-- The changes of constraint `i` at the corners of the search box (`/repo/src/Optimise.cpp:440-476`). -/
def cornerChanges (s : Optimise D) (nDim i : Nat) : Res (Optimise D × List D) :=
  forN (2 ^ nDim) (s, []) fun j (s, cs) => do
    let lambda ← corner s nDim j
    let d ← computeDisplacements s lambda
    let s := { s with displacements := d }
    let k ← rd s.indexMap (i + 1)
    let c ← change s k
    pure (s, cs ++ [c])

/-- Treatment of constraint `i` (`/repo/src/Optimise.cpp:433-517`): the state and whether the constraint stays active.  `std::sort` is
modelled by a stable merge sort; without NaN all sorting algorithms have the same least and greatest element. -/
def assess (nDim i : Nat) (s : Optimise D) : Res (Optimise D × Bool) := do
  let (s, cs) ← cornerChanges s nDim i
  let sorted := cs.mergeSort fun a b => !(b <. a)
  let min ← rd sorted 0
  let max ← rd sorted (sorted.length - 1)
  let min := min *. lit 99 100
  let max := max *. lit 99 100
  let d ← rd s.constraintDistances i
  if d <. nat 0 then
    if d <. min then do
      let t ← wr s.constraintDistancesScaled i min
      pure ({ s with constraintDistancesScaled := t }, true)
    else pure (s, true)
  else if max <. d then do
    let eq ← rd s.isEquality i
    if eq then do
      let t ← wr s.constraintDistancesScaled i max
      pure ({ s with constraintDistancesScaled := t }, true)
    else pure (s, false)
  else pure (s, true)

/-- Move the data of constraint `i` to position `n` (`/repo/src/Optimise.cpp:532-545`). -/
def moveDown (n i : Nat) (s : Optimise D) : Res (Optimise D) := do
  let l ← rd s.lambdas (i + 1) >>= wr s.lambdas (n + 1)
  let f ← rd s.scaleFactors (i + 1) >>= wr s.scaleFactors (n + 1)
  let lo ← rd s.negativeLambdaLimits (i + 1) >>= wr s.negativeLambdaLimits (n + 1)
  let hi ← rd s.positiveLambdaLimits (i + 1) >>= wr s.positiveLambdaLimits (n + 1)
  let m ← rd s.indexMap (i + 1) >>= wr s.indexMap (n + 1)
  let d ← rd s.constraintDistances i >>= wr s.constraintDistances n
  let t ← rd s.constraintDistancesScaled i >>= wr s.constraintDistancesScaled n
  let e ← rd s.isEquality i >>= wr s.isEquality n
  pure { s with lambdas := l, scaleFactors := f, negativeLambdaLimits := lo, positiveLambdaLimits := hi, indexMap := m,
                constraintDistances := d, constraintDistancesScaled := t, isEquality := e }

/-- Resize after constraints have been removed (`/repo/src/Optimise.cpp:548-562`). -/
def truncate (n : Nat) (s : Optimise D) : Optimise D :=
  { s with
    lambdas := resize s.lambdas (n + 1) (nat 0)
    scaleFactors := resize s.scaleFactors (n + 1) (nat 0)
    negativeLambdaLimits := resize s.negativeLambdaLimits (n + 1) (nat 0)
    positiveLambdaLimits := resize s.positiveLambdaLimits (n + 1) (nat 0)
    indexMap := resize s.indexMap (n + 1) 0
    constraintDistances := resize s.constraintDistances n (nat 0)
    constraintDistancesScaled := resize s.constraintDistancesScaled n (nat 0)
    isEquality := resize s.isEquality n false
    nConstraints := n }

/-- One pass of `computeConstraintDistances` without the recursive call (`/repo/src/Optimise.cpp:392-562`): the state and the number of
active constraints.  `unsigned int nVertices = std::pow(2, nDim)` is undefined for `nDim ≥ 32`. -/
def pass (n : Nat) (s : Optimise D) : Res (Optimise D × Nat) := do
  if 32 ≤ n + 1 then .error .ub
  else do
    let (s, act) ← forN n (s, []) fun i (s, act) => do
      let (s, a) ← assess (n + 1) i s
      pure (s, act ++ [a])
    let (s, k) ← forN n (s, 0) fun i (s, k) => do
      let a ← rd act i
      if a then do
        let s ← moveDown k i s
        pure (s, k + 1)
      else pure (s, k)
    pure (if k < s.nConstraints then truncate k s else s, k)

/-- `Optimise::computeConstraintDistances` (`/repo/src/Optimise.cpp:371-568`).  The recursion bound `n + 1` is always enough (theorem
`C50_terminates`). -/
def computeConstraintDistances : Nat → Nat → Optimise D → Res (Optimise D)
  | 0, _, _ => .error .fuel
  | fuel + 1, n, s => do
    let (s, k) ← pass n s
    if decide (0 < k) && decide (k < n) then computeConstraintDistances fuel s.nConstraints s else pure s

/-! ## Solving -/

/-- `Optimise::rescaleDisplacements` (`/repo/src/Optimise.cpp:723-772`): new state and scale.  `if (maxDisp)` tests for a non-zero value. -/
def rescaleDisplacements (s : Optimise D) : Res (Optimise D × D) := do
  let m ← forN s.nPoints (nat 0) fun i m => do
    let p ← rd s.points i
    if p.isFixed then pure m
    else do
      let d ← rd s.displacements i
      pure (if (s.maxDisplacement <. abs d) && (m <. abs d) then abs d else m)
  if m =. nat 0 then pure (s, nat 1)
  else do
    let scale := s.maxDisplacement /. m
    let l ← forN (s.nConstraints + 1) s.lambdas fun i l => modAt l i fun x => pure (x *. scale)
    let s := { s with lambdas := l }
    let d ← computeDisplacements s s.lambdas
    pure ({ s with displacements := d }, scale)

/-- One attempt (`/repo/src/Optimise.cpp:230-253`).  `optimize` throws `std::invalid_argument` if the vector does not have the dimension of
the problem.  NLopt calls the callback only for the functions it was given, with vectors of that dimension, and stores a vector of that
dimension.  Other exceptions end the program. -/
def attempt (nlopt : Optimise D → NLoptRun D) (s : Optimise D) (objective : Option D) : Res (Optimise D × Option D) :=
  if s.lambdas.length = s.nConstraints + 1 then do
    let run := nlopt s
    let s ← (run.queries.filter fun q => q.2.2 ≤ s.nConstraints).foldlM (init := s) fun s q => do
      let (s, _, _) ← callback s ((List.range (s.nConstraints + 1)).map q.1) q.2.1 q.2.2
      pure s
    let s := { s with lambdas := (List.range (s.nConstraints + 1)).map run.lambdas }
    match run.result with
    | .code c => pure ({ s with returnCode := some c }, some run.objective)
    | .roundoff => do
      let t ← forN s.nConstraints s.constraintDistancesScaled fun i t => modAt t i fun x => pure (x *. lit 7 10)
      pure ({ s with constraintDistancesScaled := t }, some run.objective)
    | .invalid => pure (s, some run.objective)
    | .other => .error .exit
  else pure (s, objective)

/-- The loop over attempts (`/repo/src/Optimise.cpp:224-254`), with an iteration bound.  Its condition reads `returnCode`. -/
def attempts (nlopt : Optimise D → NLoptRun D) : Nat → Optimise D → Option D → Res (Optimise D × Option D)
  | 0, _, _ => .error .fuel
  | fuel + 1, s, objective => do
    let (s, objective) ← attempt nlopt s objective
    match s.returnCode with
    | none => .error .ub
    | some c => if c < 0 then attempts nlopt fuel s objective else pure (s, objective)

/-- The first part of `solve`: scale factors, limits and removal of inactive constraints (`/repo/src/Optimise.cpp:148-171`). -/
def reduce (fuel : Nat) (s : Optimise D) : Res (Optimise D) := do
  let s := { s with
    nPoints := s.points.length
    displacements := resize s.displacements s.points.length (nat 0)
    indexMap := List.range (s.nConstraints + 1) }
  let f ← computeScaleFactors s
  let s := { s with scaleFactors := f }
  let l ← forN (s.nConstraints + 1) s.lambdas fun i l => do
    let f ← rd s.scaleFactors i
    modAt l i fun x => pure (x /. f)
  let s := { s with lambdas := l }
  let s ← computeLambdaLimits fuel s
  if 0 < s.nConstraints then computeConstraintDistances (s.nConstraints + 1) s.nConstraints s else pure s

/-- The second part of `solve`: gradients (`/repo/src/Optimise.cpp:173-186`). -/
def prepare (fuel : Nat) (s : Optimise D) : Res (Optimise D) := do
  let s ← reduce fuel s
  let s := { s with gradients := resize s.gradients (s.nConstraints + 1) [] }
  let g ← forN (s.nConstraints + 1) s.gradients fun i gs => do
    let g ← computeGradients s (List.replicate (s.nConstraints + 1) (nat 0)) i
    wr gs i g
  pure { s with gradients := g }

/-- The last part of `solve` (`/repo/src/Optimise.cpp:256-297`); using the objective value before it is set is undefined. -/
def finish (s : Optimise D) (objective : Option D) : Res (Optimise D × D) := do
  let d ← computeDisplacements s s.lambdas
  let s := { s with displacements := d }
  let (s, scale) ← rescaleDisplacements s
  let obj ← (match objective with | none => .error .ub | some x => pure (x *. scale))
  let l ← forN (s.nConstraints + 1) s.lambdas fun i l => do
    let f ← rd s.scaleFactors i
    modAt l i fun x => pure (x *. f)
  let l0 ← rd l 0
  let s := { s with lambdas := l, timeStep := abs l0 }
  let pts ← forN s.nPoints s.points fun i pts => do
    let d ← rd s.displacements i
    modAt pts i fun p => pure { p with velocity := d /. s.timeStep }
  let s := { s with points := pts }
  let s ← (if s.nConstraints < s.nConstraintsInitial then do
      let s := { s with lambdas := resize s.lambdas (1 + s.nConstraintsInitial) (nat 0) }
      if 0 < s.nConstraints then do
        let l ← forN (s.nConstraints + 1) s.lambdas fun i l => do
          let i := s.nConstraints + 1 - i
          let k ← rd s.indexMap i
          let x ← rd l i
          wr l k x
        pure { s with lambdas := l }
      else pure s
    else pure s)
  let f ← rd s.scaleFactors 0
  pure (s, obj /. f)

/-- `Optimise::solve` (`/repo/src/Optimise.cpp:146-298`).  `fuel` bounds the shrinking loops and the number of attempts; NLopt is a
parameter.  Of the set-up of the NLopt problem (`/repo/src/Optimise.cpp:189-222`), which only passes data on, the model keeps the reads of
`isEquality`. -/
def solve (nlopt : Optimise D → NLoptRun D) (fuel : Nat) (s : Optimise D) : Res (Optimise D × D) := do
  let s ← prepare fuel s
  let _ ← forN s.nConstraints () fun i _ => do
    let _ ← rd s.isEquality i
    pure ()
  let (s, objective) ← attempts nlopt fuel s none
  finish s objective

end Optimise

end Slsm
