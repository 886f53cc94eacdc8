import Verif.Spec.Shape

/-! # Reference finite differences (real numbers) -/

namespace Slsm

/-- Difference of consecutive values of `f` on the grid line `0 … n`, between `k` and `k+1`; beyond the ends of the line the
nearest difference inside is used. -/
def slope (f : Nat → ℝ) (n : Nat) (k : ℤ) : ℝ :=
  let j := (max 0 (min k (n - 1))).toNat
  f (j + 1) - f j

/-- The three third order estimates of the derivative from five consecutive differences. -/
noncomputable def estimate1 (a b c : ℝ) : ℝ := a / 3 - 7 * b / 6 + 11 * c / 6
noncomputable def estimate2 (b c d : ℝ) : ℝ := -b / 6 + 5 * c / 6 + d / 3
noncomputable def estimate3 (c d e : ℝ) : ℝ := c / 3 + 5 * d / 6 - e / 6

/-- Unnormalised weight `g / (S + 10⁻⁶)²` of an estimate with smoothness `S`. -/
noncomputable def wenoAlpha (g S : ℝ) : ℝ := g / (S + 1 / 10 ^ 6) ^ 2

/-- Fifth order Hamilton–Jacobi WENO derivative (Osher & Fedkiw, pages 34-35). -/
noncomputable def weno (a b c d e : ℝ) : ℝ :=
  let α1 := wenoAlpha (1 / 10) (13 / 12 * (a - 2 * b + c) ^ 2 + 1 / 4 * (a - 4 * b + 3 * c) ^ 2)
  let α2 := wenoAlpha (6 / 10) (13 / 12 * (b - 2 * c + d) ^ 2 + 1 / 4 * (b - d) ^ 2)
  let α3 := wenoAlpha (3 / 10) (13 / 12 * (c - 2 * d + e) ^ 2 + 1 / 4 * (3 * c - 4 * d + e) ^ 2)
  (α1 * estimate1 a b c + α2 * estimate2 b c d + α3 * estimate3 c d e) / (α1 + α2 + α3)

/-- Left derivative at position `x` of the grid line. -/
noncomputable def leftDeriv (f : Nat → ℝ) (n x : Nat) : ℝ :=
  weno (slope f n (x - 3)) (slope f n (x - 2)) (slope f n (x - 1)) (slope f n x) (slope f n (x + 1))

/-- Right derivative at position `x` of the grid line. -/
noncomputable def rightDeriv (f : Nat → ℝ) (n x : Nat) : ℝ :=
  weno (slope f n (x + 2)) (slope f n (x + 1)) (slope f n x) (slope f n (x - 1)) (slope f n (x - 2))

/-- Upwind norm of the gradient of `φ` at `(x, y)` on the `w × h` grid for motion with velocity of sign `s` (`1` or `-1`). -/
noncomputable def upwindGradient (w h : Nat) (φ : Nat → Nat → ℝ) (s : ℝ) (x y : Nat) : ℝ :=
  Real.sqrt ((max (s * leftDeriv (fun k => φ k y) w x) 0) ^ 2 + (min (s * rightDeriv (fun k => φ k y) w x) 0) ^ 2 +
    (max (s * leftDeriv (fun k => φ x k) h y) 0) ^ 2 + (min (s * rightDeriv (fun k => φ x k) h y) 0) ^ 2)

/-- The neighbour of coordinate `x` towards the inside of `0 … n`, for an end point. -/
def inward (n x : Nat) : Nat := if x = 0 then 1 else n - 1

/-- `(x, y)` is a corner of the domain whose two neighbours have (to 10⁻⁶) the same value. -/
def FlatCorner (w h : Nat) (φ : Nat → Nat → ℝ) (x y : Nat) : Prop :=
  (x = 0 ∨ x = w) ∧ (y = 0 ∨ y = h) ∧ |φ (inward w x) y - φ x y| < 1 / 10 ^ 6 ∧ |φ x (inward h y) - φ x y| < 1 / 10 ^ 6

end Slsm
