import Mathlib.Tactic.Ring
import Mathlib.Tactic.Linarith
import Mathlib.Tactic.NormNum

/-! Row-major index arithmetic. -/

namespace Slsm

theorem idx_mod {W x y : Nat} (hx : x < W) : (x + y * W) % W = x := by
  rw [Nat.add_mul_mod_self_right, Nat.mod_eq_of_lt hx]

theorem idx_div {W x y : Nat} (hx : x < W) : (x + y * W) / W = y := by
  rw [Nat.add_mul_div_right _ _ (by omega), Nat.div_eq_of_lt hx, Nat.zero_add]

theorem idx_eq (W i : Nat) : i % W + i / W * W = i := by
  rw [Nat.mul_comm]; exact Nat.mod_add_div i W

theorem idx_lt {W H x y : Nat} (hx : x < W) (hy : y < H) : x + y * W < W * H := by
  calc x + y * W < W + y * W := by omega
    _ = W * (y + 1) := by ring
    _ ≤ W * H := Nat.mul_le_mul_left _ hy

theorem idx_div_lt {W H i : Nat} (h : i < W * H) : i / W < H := Nat.div_lt_of_lt_mul h

theorem idx_mod_lt {W H i : Nat} (h : i < W * H) : i % W < W :=
  Nat.mod_lt _ (Nat.pos_of_ne_zero (by rintro rfl; simp at h))

theorem idx_inj {W x y x' y' : Nat} (hx : x < W) (hx' : x' < W) (h : x + y * W = x' + y' * W) : x = x' ∧ y = y' := by
  refine ⟨?_, ?_⟩
  · rw [← idx_mod (y := y) hx, h, idx_mod hx']
  · rw [← idx_div (y := y) hx, h, idx_div hx']

end Slsm
