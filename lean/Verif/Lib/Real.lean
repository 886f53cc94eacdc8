import Verif.Model.Num
import Mathlib.Analysis.SpecialFunctions.Pow.Real
import Mathlib.Algebra.Order.Floor.Semiring

/-! The exact-arithmetic instance `FP ℝ`. -/

namespace Slsm

open Classical in
/-- Exact real arithmetic.  `maxVal` is the largest finite double. -/
noncomputable instance : FP ℝ where
  add := (· + ·)
  sub := (· - ·)
  mul := (· * ·)
  div := (· / ·)
  neg := fun x => -x
  lt a b := decide (a < b)
  le a b := decide (a ≤ b)
  eq a b := decide (a = b)
  nat n := (n : ℝ)
  sqrt := Real.sqrt
  abs := fun x => |x|
  floor x := ⌊x⌋₊
  trunc x := if 0 ≤ x then ⌊x⌋ else ⌈x⌉
  maxVal := (2 - 1 / 2 ^ 52) * 2 ^ 1023

section
variable (a b : ℝ) (n d : ℕ)

@[simp] theorem FP.add_real : FP.add a b = a + b := rfl
@[simp] theorem FP.sub_real : FP.sub a b = a - b := rfl
@[simp] theorem FP.mul_real : FP.mul a b = a * b := rfl
@[simp] theorem FP.div_real : FP.div a b = a / b := rfl
@[simp] theorem FP.neg_real : FP.neg a = -a := rfl
@[simp] theorem FP.lt_real : FP.lt a b = true ↔ a < b := by simp [FP.lt]
@[simp] theorem FP.le_real : FP.le a b = true ↔ a ≤ b := by simp [FP.le]
@[simp] theorem FP.eq_real : FP.eq a b = true ↔ a = b := by simp [FP.eq]
@[simp] theorem FP.lt_real_false : FP.lt a b = false ↔ b ≤ a := by simp [FP.lt]
@[simp] theorem FP.le_real_false : FP.le a b = false ↔ b < a := by simp [FP.le]
@[simp] theorem FP.eq_real_false : FP.eq a b = false ↔ a ≠ b := by simp [FP.eq]
@[simp] theorem FP.nat_real : (FP.nat n : ℝ) = n := rfl
@[simp] theorem FP.sqrt_real : FP.sqrt a = Real.sqrt a := rfl
@[simp] theorem FP.abs_real : FP.abs a = |a| := rfl
@[simp] theorem FP.floor_real : FP.floor a = ⌊a⌋₊ := rfl
theorem FP.trunc_real : FP.trunc a = if 0 ≤ a then ⌊a⌋ else ⌈a⌉ := rfl
@[simp] theorem FP.lit_real : (FP.lit n d : ℝ) = n / d := rfl
@[simp] theorem FP.min_real : FP.min a b = Min.min a b := by
  unfold FP.min; by_cases h : b < a
  · rw [if_pos (by simpa using h), min_eq_right h.le]
  · rw [if_neg (by simpa using h), min_eq_left (not_lt.1 h)]
@[simp] theorem FP.max_real : FP.max a b = Max.max a b := by
  unfold FP.max; by_cases h : a < b
  · rw [if_pos (by simpa using h), max_eq_right h.le]
  · rw [if_neg (by simpa using h), max_eq_left (not_lt.1 h)]
end

end Slsm
