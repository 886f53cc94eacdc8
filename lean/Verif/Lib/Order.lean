import Verif.Model.Num
import Verif.Lib.Real

/-! Laws of the comparisons that hold for doubles in the absence of NaN. -/

namespace Slsm

/-- The comparisons of `D` form a strict weak order with matching `==` and `<=`: true of the reals, and of IEEE
doubles other than NaN (where `-0.0 == 0.0` is the only non-trivial equivalence). -/
class TotalCmp (D : Type) [FP D] : Prop where
  irrefl : ∀ a : D, (FP.lt a a) = false
  trans : ∀ a b c : D, FP.lt a b = true → FP.lt b c = true → FP.lt a c = true
  negTrans : ∀ a b c : D, FP.lt a b = false → FP.lt b c = false → FP.lt a c = false
  eq_iff : ∀ a b : D, FP.eq a b = true ↔ FP.lt a b = false ∧ FP.lt b a = false
  le_iff : ∀ a b : D, FP.le a b = true ↔ FP.lt b a = false

instance : TotalCmp ℝ where
  irrefl := by simp
  trans a b c := by simpa using lt_trans
  negTrans a b c := by simpa using fun h1 h2 => le_trans h2 h1
  eq_iff a b := by
    rw [FP.eq_real, FP.lt_real_false, FP.lt_real_false, le_antisymm_iff, and_comm]
  le_iff a b := by simp

section
variable {D : Type} [FP D] [TotalCmp D] {a b c : D}

theorem TotalCmp.asymm (h : FP.lt a b = true) : FP.lt b a = false := by
  by_contra hc
  have := TotalCmp.trans a b a h (by simpa using hc)
  rw [TotalCmp.irrefl] at this; cases this

/-- `a < b ≤ c` -/
theorem TotalCmp.lt_of_lt_of_nlt (h : FP.lt a b = true) (h2 : FP.lt c b = false) : FP.lt a c = true := by
  by_contra hc
  have := TotalCmp.negTrans a c b (by simpa using hc) h2
  rw [h] at this; cases this

end

end Slsm
