import Verif.Spec.Round
import Verif.Model.Boundary
import Verif.Model.Optimise
import Verif.Lib.Real

/-! # Numbers beyond the reals

The theorems over the real numbers use that `x / 0` and the root of a negative number are some real number, which in the program are infinities or NaN.
`Extends g` describes a number system that contains the reals and in which these operations may have any result whatsoever.  A function of the program that
gives the same result in every such system never divides by zero and never takes the root of a negative number in a way that matters. -/

namespace Slsm

/-- The numbers `E` extend the reals along `g`: all operations of the program agree on real numbers, except that nothing is said about division by zero and
roots of negative numbers. -/
structure Extends {E : Type} [FP E] (g : ℝ → E) : Prop where
  add : ∀ a b, FP.add (g a) (g b) = g (a + b)
  sub : ∀ a b, FP.sub (g a) (g b) = g (a - b)
  mul : ∀ a b, FP.mul (g a) (g b) = g (a * b)
  neg : ∀ a, FP.neg (g a) = g (-a)
  abs : ∀ a, FP.abs (g a) = g |a|
  nat : ∀ n : Nat, FP.nat n = g n
  maxVal : FP.maxVal = g FP.maxVal
  div : ∀ a b, b ≠ 0 → FP.div (g a) (g b) = g (a / b)
  sqrt : ∀ a, 0 ≤ a → FP.sqrt (g a) = g (Real.sqrt a)
  lt : ∀ a b, FP.lt (g a) (g b) = true ↔ a < b
  le : ∀ a b, FP.le (g a) (g b) = true ↔ a ≤ b
  eq : ∀ a b, FP.eq (g a) (g b) = true ↔ a = b
  floor : ∀ a : ℝ, FP.floor (g a) = ⌊a⌋₊
  trunc : ∀ a : ℝ, FP.trunc (g a) = if 0 ≤ a then ⌊a⌋ else ⌈a⌉

section
variable {D E : Type} (g : D → E)

/-- The same point with other numbers. -/
def Coord.map (c : Coord D) : Coord E := ⟨g c.x, g c.y⟩

/-- The same element with other numbers (as in `Mesh.map`). -/
def Element.map (e : Element D) : Element E :=
  { coord := e.coord.map g, area := g e.area, nodes := e.nodes, boundarySegments := e.boundarySegments,
    nBoundarySegments := e.nBoundarySegments, status := e.status }

/-- The same node with other numbers (as in `Mesh.map`). -/
def Node.map (n : Node D) : Node E :=
  { coord := n.coord.map g, neighbours := n.neighbours, elements := n.elements, nElements := n.nElements,
    boundaryPoints := n.boundaryPoints, nBoundaryPoints := n.nBoundaryPoints, isActive := n.isActive, isDomain := n.isDomain,
    isMasked := n.isMasked, isMine := n.isMine, status := n.status }

/-- The same hole with other numbers. -/
def Hole.map (h : Hole D) : Hole E := ⟨h.coord.map g, g h.r⟩

/-- The same shape with other numbers. -/
def LevelSet.Shape.map : LevelSet.Shape D → LevelSet.Shape E
  | .cheese => .cheese
  | .holes l => .holes (l.map (Hole.map g))
  | .points l => .points (l.map (Coord.map g))

/-- The same boundary point with other numbers. -/
def BoundaryPoint.map (p : BoundaryPoint D) : BoundaryPoint E :=
  { coord := p.coord.map g, normal := p.normal.map g, length := g p.length, velocity := g p.velocity, negativeLimit := g p.negativeLimit,
    positiveLimit := g p.positiveLimit, isDomain := p.isDomain, isFixed := p.isFixed, nSegments := p.nSegments, segments := p.segments,
    nNeighbours := p.nNeighbours, neighbours := p.neighbours, sensitivities := p.sensitivities.map g }

/-- The same segment with other numbers. -/
def BoundarySegment.map (s : BoundarySegment D) : BoundarySegment E :=
  { start := s.start, stop := s.stop, element := s.element, length := g s.length, weight := g s.weight }

/-- The same boundary with other numbers. -/
def Boundary.map (b : Boundary D) : Boundary E :=
  { points := b.points.map (BoundaryPoint.map g), segments := b.segments.map (BoundarySegment.map g), nPoints := b.nPoints,
    nSegments := b.nSegments, length := g b.length }

/-- The same heap with other numbers. -/
def Heap.map (H : Heap D) : Heap E :=
  { distance := H.distance.map g, heap := H.heap, address := H.address, backPointer := H.backPointer, heapLength := H.heapLength,
    listLength := H.listLength, maxLength := H.maxLength, isTest := H.isTest }

/-- The same march with other numbers. -/
def FMM.map (F : FMM D) : FMM E :=
  { isTest := F.isTest, isVelocity := F.isVelocity, heapPtr := F.heapPtr, status := F.status, copy := F.copy.map g, sd := F.sd.map g,
    vel := F.vel.map g, heap := F.heap.map g }

/-- The same optimiser with other numbers. -/
def Optimise.map (s : Optimise D) : Optimise E :=
  { nPoints := s.nPoints, nConstraints := s.nConstraints, nConstraintsInitial := s.nConstraintsInitial, points := s.points.map (BoundaryPoint.map g),
    constraintDistances := s.constraintDistances.map g, lambdas := s.lambdas.map g, timeStep := g s.timeStep, maxDisplacement := g s.maxDisplacement,
    isMax := s.isMax, isEquality := s.isEquality, indexMap := s.indexMap, displacements := s.displacements.map g,
    negativeLambdaLimits := s.negativeLambdaLimits.map g, positiveLambdaLimits := s.positiveLambdaLimits.map g, scaleFactors := s.scaleFactors.map g,
    constraintDistancesScaled := s.constraintDistancesScaled.map g, gradients := s.gradients.map (List.map g), returnCode := s.returnCode }

/-- The same answer of the solver with other numbers. -/
def NLoptRun.map (r : NLoptRun D) : NLoptRun E :=
  { queries := r.queries.map fun q => (fun i => g (q.1 i), q.2), lambdas := fun i => g (r.lambdas i), objective := g r.objective, result := r.result }

end

/-- Real numbers and one more value, "undefined": the result of division by zero, of roots of negative numbers, and of everything calculated from it.
Comparisons with it are false, as for NaN. -/
noncomputable instance checkedReal : FP (Option ℝ) where
  add a b := a.bind fun x => b.map fun y => x + y
  sub a b := a.bind fun x => b.map fun y => x - y
  mul a b := a.bind fun x => b.map fun y => x * y
  div a b := a.bind fun x => b.bind fun y => open Classical in if y = 0 then none else some (x / y)
  neg a := a.map fun x => -x
  lt a b := ((a.bind fun x => b.map fun y => FP.lt x y).getD false)
  le a b := ((a.bind fun x => b.map fun y => FP.le x y).getD false)
  eq a b := ((a.bind fun x => b.map fun y => FP.eq x y).getD false)
  nat n := some n
  sqrt a := a.bind fun x => open Classical in if x < 0 then none else some (Real.sqrt x)
  abs a := a.map fun x => |x|
  floor a := (a.map fun x => FP.floor x).getD 0
  trunc a := (a.map fun x => FP.trunc x).getD 0
  maxVal := some FP.maxVal

end Slsm
