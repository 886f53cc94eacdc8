import Verif.Spec.Round
import Verif.Spec.Interface
import Verif.Spec.Eikonal

/-! # Level sets in rounded arithmetic: ordinary values

A value is ordinary if it is zero or neither extremely small nor extremely large.  Products and quotients of ordinary numbers keep clear of the
range in which numbers lose their relative accuracy. -/

namespace Slsm

namespace Rounding

variable {R : Rounding}

/-- Zero, or between `2⁻³⁰⁰` and `2¹⁰⁰` in size. -/
def Ordinary (v : R.Num) : Prop := v.val = 0 ∨ (1 / 2 ^ 300 ≤ |v.val| ∧ |v.val| ≤ 2 ^ 100)

/-- The node and its lattice neighbours have ordinary values. -/
def Plain (w h : Nat) (f : Nat → R.Num) (i : Nat) : Prop := Ordinary (f i) ∧ ∀ n, Adj w h i n → Ordinary (f n)

/-- The values as real numbers. -/
def num (f : Nat → R.Num) (i : Nat) : ℝ := (f i).val

end Rounding

end Slsm
