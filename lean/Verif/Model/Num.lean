/-!
# Number interface

The C++ code computes with `double` and `unsigned int`.  The model is written against the *law-free*
interface `FP D` below: no algebraic law is assumed, so whatever is proved for every `FP D` holds in particular
for IEEE doubles (with rounding, NaN and infinities).  Analytic theorems use the instance `FP ℝ` of
`Verif/Lib/Real.lean` (exact arithmetic); the instance `FP Float` below makes the model executable.
-/

namespace Slsm

/-- Operations on `double` used by `/repo/src/*.cpp` (no laws).  Comparisons are Boolean, as in C++.
`floor` models the conversion `unsigned int n = std::floor(x)` (`/repo/src/Mesh.cpp:143`), `trunc` the conversion
of a `double` return value to `int` (`/repo/src/LevelSet.cpp:1335-1339`), `maxVal` models
`std::numeric_limits<double>::max()`. -/
class FP (D : Type) where
  add : D → D → D
  sub : D → D → D
  mul : D → D → D
  div : D → D → D
  neg : D → D
  lt : D → D → Bool
  le : D → D → Bool
  eq : D → D → Bool
  nat : Nat → D
  sqrt : D → D
  abs : D → D
  floor : D → Nat
  trunc : D → Int
  maxVal : D

scoped infixl:65 " +. " => FP.add
scoped infixl:65 " -. " => FP.sub
scoped infixl:70 " *. " => FP.mul
scoped infixl:70 " /. " => FP.div
scoped infix:50 " <. " => FP.lt
scoped infix:50 " ≤. " => FP.le
scoped infix:50 " =. " => FP.eq

/-- Decimal literal `n/d` (every literal of the code is the correctly rounded quotient of two small integers). -/
def FP.lit {D : Type} [FP D] (n d : Nat) : D := FP.nat n /. FP.nat d

/-- `std::min(a, b)`: returns `a` unless `b < a`. -/
def FP.min {D : Type} [FP D] (a b : D) : D := if b <. a then b else a

/-- `std::max(a, b)`: returns `a` unless `a < b`. -/
def FP.max {D : Type} [FP D] (a b : D) : D := if a <. b then b else a

/-- The execution instance. -/
instance : FP Float where
  add := (· + ·)
  sub := (· - ·)
  mul := (· * ·)
  div := (· / ·)
  neg := fun x => -x
  lt a b := decide (a < b)
  le a b := decide (a ≤ b)
  eq a b := a == b
  nat := Float.ofNat
  sqrt := Float.sqrt
  abs := Float.abs
  floor x := x.floor.toUInt64.toNat
  trunc x := x.toInt64.toInt
  maxVal := 1.7976931348623157e308

end Slsm
