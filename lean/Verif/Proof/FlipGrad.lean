import Verif.Proof.LSGrad
import Verif.Spec.Flip

/-! # Gradients of mirror images -/

namespace Slsm

open Flip

theorem weno_neg (a b c d e : ℝ) : weno (-a) (-b) (-c) (-d) (-e) = -weno a b c d e := by
  unfold weno estimate1 estimate2 estimate3
  dsimp only
  rw [show (-a - 2 * -b + -c) = -(a - 2 * b + c) by ring, show (-a - 4 * -b + 3 * -c) = -(a - 4 * b + 3 * c) by ring,
    show (-b - 2 * -c + -d) = -(b - 2 * c + d) by ring, show (-b - -d) = -(b - d) by ring, show (-c - 2 * -d + -e) = -(c - 2 * d + e) by ring,
    show (3 * -c - 4 * -d + -e) = -(3 * c - 4 * d + e) by ring]
  simp only [neg_sq]
  rw [← neg_div]
  congr 1
  ring

theorem slope_flip {f g : Nat → ℝ} {n : Nat} (hn : 1 ≤ n) (hf : ∀ k, k ≤ n → g (n - k) = f k) {k k' : ℤ} (hk : k + k' = n - 1) : slope g n k' = -slope f n k := by
  unfold slope
  dsimp only
  have h1 : (max 0 (min k' (n - 1 : ℤ))).toNat = n - (max 0 (min k (n - 1 : ℤ))).toNat - 1 := by omega
  have h2 : (max 0 (min k (n - 1 : ℤ))).toNat ≤ n - 1 := by omega
  generalize (max 0 (min k (n - 1 : ℤ))).toNat = j at h1 h2
  rw [h1, ← hf j (by omega), ← hf (j + 1) (by omega), show n - j - 1 + 1 = n - j by omega, show n - (j + 1) = n - j - 1 by omega]
  ring

theorem slope_congr {f g : Nat → ℝ} {n : Nat} (hn : 1 ≤ n) (hf : ∀ k, k ≤ n → g k = f k) (k : ℤ) : slope g n k = slope f n k := by
  unfold slope
  dsimp only
  rw [hf _ (by omega), hf _ (by omega)]

theorem left_flip {f g : Nat → ℝ} {n x : Nat} (hn : 1 ≤ n) (hx : x ≤ n) (hf : ∀ k, k ≤ n → g (n - k) = f k) :
    leftDeriv g n (n - x) = -rightDeriv f n x ∧ rightDeriv g n (n - x) = -leftDeriv f n x := by
  unfold leftDeriv rightDeriv
  push_cast [hx]
  constructor
  · rw [← weno_neg, slope_flip hn hf (k := x + 2) (by ring), slope_flip hn hf (k := x + 1) (by ring), slope_flip hn hf (k := x) (by ring),
      slope_flip hn hf (k := x - 1) (by ring), slope_flip hn hf (k := x - 2) (by ring)]
  · rw [← weno_neg, slope_flip hn hf (k := x - 3) (by ring), slope_flip hn hf (k := x - 2) (by ring), slope_flip hn hf (k := x - 1) (by ring),
      slope_flip hn hf (k := x) (by ring), slope_flip hn hf (k := x + 1) (by ring)]

theorem deriv_congr {f g : Nat → ℝ} {n : Nat} (hn : 1 ≤ n) (hf : ∀ k, k ≤ n → g k = f k) (x : Nat) : leftDeriv g n x = leftDeriv f n x ∧ rightDeriv g n x = rightDeriv f n x := by
  unfold leftDeriv rightDeriv
  simp only [slope_congr hn hf, and_self]

theorem max_min_neg (a : ℝ) : (max (-a) 0) ^ 2 = (min a 0) ^ 2 ∧ (min (-a) 0) ^ 2 = (max a 0) ^ 2 := by
  constructor
  · rw [show max (-a) 0 = -min a 0 by rw [← neg_zero, max_neg_neg, neg_zero], neg_sq]
  · rw [show min (-a) 0 = -max a 0 by rw [← neg_zero, min_neg_neg, neg_zero], neg_sq]

section
variable {σ : Flip} {w h : Nat} {f g : Nat → Nat → ℝ} {x y : Nat}

theorem upwind_flip (hw : 1 ≤ w) (hh : 1 ≤ h) (I : σ.Image w h f g) (s : ℝ) (hx : x ≤ w) (hy : y ≤ h) :
    upwindGradient (σ.width w h) (σ.height w h) g s (σ.node w h x y).1 (σ.node w h x y).2 = upwindGradient w h f s x y := by
  cases σ with
  | leftRight =>
    have hr := left_flip (f := fun k => f k y) (g := fun k => g k y) hw hx fun k hk => I k y hk hy
    have hc := deriv_congr (f := fun k => f x k) (g := fun k => g (w - x) k) hh (fun k hk => I x k hx hk) y
    unfold upwindGradient
    dsimp only [width, height, node]
    rw [hr.1, hr.2, hc.1, hc.2, mul_neg, mul_neg, (max_min_neg _).1, (max_min_neg _).2]
    congr 1
    ring
  | upDown =>
    have hr := left_flip (f := fun k => f x k) (g := fun k => g x k) hh hy fun k hk => I x k hx hk
    have hc := deriv_congr (f := fun k => f k y) (g := fun k => g k (h - y)) hw (fun k hk => I k y hk hy) x
    unfold upwindGradient
    dsimp only [width, height, node]
    rw [hr.1, hr.2, hc.1, hc.2, mul_neg, mul_neg, (max_min_neg _).1, (max_min_neg _).2]
    congr 1
    ring
  | diagonal =>
    have h1 := deriv_congr (f := fun k => f k y) (g := fun k => g y k) hw (fun k hk => I k y hk hy) x
    have h2 := deriv_congr (f := fun k => f x k) (g := fun k => g k x) hh (fun k hk => I x k hx hk) y
    unfold upwindGradient
    dsimp only [width, height, node]
    rw [h1.1, h1.2, h2.1, h2.2]
    congr 1
    ring

theorem inward_flip {n : Nat} (hn : 1 ≤ n) (hx : x = 0 ∨ x = n) : inward n (n - x) = n - inward n x := by
  unfold inward
  rcases hx with rfl | rfl
  · rw [Nat.sub_zero, if_neg (by omega), if_pos rfl]
  · rw [Nat.sub_self, if_pos rfl, if_neg (by omega)]; omega

theorem inward_le {n : Nat} (hn : 1 ≤ n) : inward n x ≤ n := by
  unfold inward; split <;> omega

theorem flat_flip (hw : 1 ≤ w) (hh : 1 ≤ h) (I : σ.Image w h f g) (hx : x ≤ w) (hy : y ≤ h) :
    FlatCorner (σ.width w h) (σ.height w h) g (σ.node w h x y).1 (σ.node w h x y).2 ↔ FlatCorner w h f x y := by
  have e := I x y hx hy
  have e1 := I (inward w x) y (inward_le hw) hy
  have e2 := I x (inward h y) hx (inward_le hh)
  unfold FlatCorner
  cases σ with
  | leftRight =>
    dsimp only [width, height, node] at *
    have c : (w - x = 0 ∨ w - x = w) ↔ (x = 0 ∨ x = w) := by omega
    rw [c]
    refine and_congr_right fun h1 => ?_
    rw [inward_flip hw h1, e, e1, e2]
  | upDown =>
    dsimp only [width, height, node] at *
    have c : (h - y = 0 ∨ h - y = h) ↔ (y = 0 ∨ y = h) := by omega
    rw [c]
    refine and_congr_right fun _ => and_congr_right fun h1 => ?_
    rw [inward_flip hh h1, e, e1, e2]
  | diagonal =>
    dsimp only [width, height, node] at *
    rw [e, e1, e2]
    tauto

theorem flat_value (hw : 1 ≤ w) (hh : 1 ≤ h) (I : σ.Image w h f g) (hx : x ≤ w) (hy : y ≤ h) (hf : FlatCorner w h f x y) :
    |g (σ.node w h x y).1 (σ.node w h x y).2 - g (inward (σ.width w h) (σ.node w h x y).1) (inward (σ.height w h) (σ.node w h x y).2)| =
      |f x y - f (inward w x) (inward h y)| := by
  have e := I x y hx hy
  have e1 := I (inward w x) (inward h y) (inward_le hw) (inward_le hh)
  cases σ with
  | leftRight =>
    dsimp only [width, height, node] at *
    rw [inward_flip hw hf.1, e, e1]
  | upDown =>
    dsimp only [width, height, node] at *
    rw [inward_flip hh hf.2.1, e, e1]
  | diagonal =>
    dsimp only [width, height, node] at *
    rw [e, e1]

theorem node_le (σ : Flip) (hx : x ≤ w) (hy : y ≤ h) : (σ.node w h x y).1 ≤ σ.width w h ∧ (σ.node w h x y).2 ≤ σ.height w h := by
  cases σ <;> dsimp only [width, height, node] <;> omega

theorem node_onEdge (σ : Flip) (hx : x ≤ w) (hy : y ≤ h) : onEdge (σ.width w h) (σ.height w h) (σ.node w h x y).1 (σ.node w h x y).2 ↔ onEdge w h x y := by
  cases σ <;> dsimp only [width, height, node, onEdge] <;> omega

end

end Slsm
