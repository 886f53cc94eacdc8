import Verif.Spec.RoundVel
import Verif.Proof.LSVel
import Verif.Proof.RoundMesh
import Verif.Proof.RoundOpt

/-! # Velocities mapped to the nodes in rounded arithmetic -/

namespace Slsm

open FP LevelSet

namespace Rounding

variable {R : Rounding}

/-- Division of a number near `t` by a positive number. -/
theorem quot_near {y t e d : ℝ} (hd : 0 < d) (h : |y - t| ≤ e) : |R.rnd (y / d) - t / d| ≤ e / d + ((|t| + e) / d / 2 ^ 52 + 1 / 2 ^ 1074) := by
  have h1 : |y / d - t / d| ≤ e / d := by
    rw [← sub_div, abs_div, abs_of_pos hd]
    gcongr
  have h2 : |y / d| ≤ (|t| + e) / d := by
    rw [abs_div, abs_of_pos hd]
    have := abs_add_le (y - t) t
    rw [sub_add_cancel] at this
    gcongr
    linarith
  have h3 := R.err (y / d)
  have h4 : |y / d| / 2 ^ 52 ≤ (|t| + e) / d / 2 ^ 52 := by gcongr
  have := abs_add_le (R.rnd (y / d) - y / d) (y / d - t / d)
  rw [sub_add_sub_cancel] at this
  linarith

/-- A square of a difference. -/
theorem square_near {e : ℝ} (he : |e| ≤ 2 ^ 32) : |R.rnd (R.rnd e * R.rnd e) - e ^ 2| ≤ 4 / 2 ^ 52 * e ^ 2 + 1 / 2 ^ 200 := by
  have e1 := R.err e
  have t := tiny_le' (b := 250) (by norm_num)
  have h0 : |R.rnd e - e| ≤ |e| / 2 ^ 52 + 1 / 2 ^ 250 := by linarith
  have hs : |R.rnd e * R.rnd e - e ^ 2| ≤ (|e| / 2 ^ 52 + 1 / 2 ^ 250) * (2 * |e| + (|e| / 2 ^ 52 + 1 / 2 ^ 250)) := by
    rw [show R.rnd e * R.rnd e - e ^ 2 = (R.rnd e - e) * (2 * e + (R.rnd e - e)) by ring, abs_mul]
    have h1 : |2 * e + (R.rnd e - e)| ≤ 2 * |e| + (|e| / 2 ^ 52 + 1 / 2 ^ 250) := by
      refine (abs_add_le _ _).trans ?_
      rw [abs_mul, abs_two]
      linarith
    exact mul_le_mul h0 h1 (abs_nonneg _) (by positivity)
  have hb : (|e| / 2 ^ 52 + 1 / 2 ^ 250) * (2 * |e| + (|e| / 2 ^ 52 + 1 / 2 ^ 250)) ≤ (2 + 1 / 2 ^ 50) / 2 ^ 52 * e ^ 2 + 1 / 2 ^ 210 := by
    rw [← sq_abs e]
    have := abs_nonneg e
    nlinarith
  have e2 := R.err (R.rnd e * R.rnd e)
  have hm : |R.rnd e * R.rnd e| ≤ e ^ 2 + ((2 + 1 / 2 ^ 50) / 2 ^ 52 * e ^ 2 + 1 / 2 ^ 210) := by
    have := abs_add_le (R.rnd e * R.rnd e - e ^ 2) (e ^ 2)
    rw [sub_add_cancel, abs_of_nonneg (sq_nonneg e)] at this
    linarith
  have hm' : |R.rnd e * R.rnd e| / 2 ^ 52 ≤ (e ^ 2 + ((2 + 1 / 2 ^ 50) / 2 ^ 52 * e ^ 2 + 1 / 2 ^ 210)) / 2 ^ 52 := by gcongr
  have := abs_add_le (R.rnd (R.rnd e * R.rnd e) - R.rnd e * R.rnd e) (R.rnd e * R.rnd e - e ^ 2)
  rw [sub_add_sub_cancel] at this
  have hq := sq_nonneg e
  generalize e ^ 2 = q at *
  generalize (1 : ℝ) / 2 ^ 1074 = κ at *
  linarith

/-- A squared distance. -/
theorem dist_near {a b : Coord R.Num} (h1 : |a.x.val - b.x.val| ≤ 2 ^ 32) (h2 : |a.y.val - b.y.val| ≤ 2 ^ 32) :
    |(sqDist a b).val - ((a.x.val - b.x.val) ^ 2 + (a.y.val - b.y.val) ^ 2)| ≤
      6 / 2 ^ 52 * ((a.x.val - b.x.val) ^ 2 + (a.y.val - b.y.val) ^ 2) + 1 / 2 ^ 190 := by
  unfold sqDist
  simp only [val_add, val_mul, val_sub]
  have s1 := square_near (R := R) h1
  have s2 := square_near (R := R) h2
  generalize R.rnd (R.rnd (a.x.val - b.x.val) * R.rnd (a.x.val - b.x.val)) = p at *
  generalize R.rnd (R.rnd (a.y.val - b.y.val) * R.rnd (a.y.val - b.y.val)) = q at *
  have q1 := sq_nonneg (a.x.val - b.x.val)
  have q2 := sq_nonneg (a.y.val - b.y.val)
  generalize (a.x.val - b.x.val) ^ 2 = u at *
  generalize (a.y.val - b.y.val) ^ 2 = v at *
  have e := R.err (p + q)
  have t := tiny_le' (b := 250) (by norm_num)
  have hs : |p + q - (u + v)| ≤ 4 / 2 ^ 52 * (u + v) + 2 / 2 ^ 200 := by
    have := abs_add_le (p - u) (q - v)
    rw [show p - u + (q - v) = p + q - (u + v) by ring] at this
    linarith
  have hm : |p + q| ≤ (u + v) + (4 / 2 ^ 52 * (u + v) + 2 / 2 ^ 200) := by
    have := abs_add_le (p + q - (u + v)) (u + v)
    rw [sub_add_cancel, abs_of_nonneg (by linarith : 0 ≤ u + v)] at this
    linarith
  have hm' : |p + q| / 2 ^ 52 ≤ ((u + v) + (4 / 2 ^ 52 * (u + v) + 2 / 2 ^ 200)) / 2 ^ 52 := by gcongr
  have := abs_add_le (R.rnd (p + q) - (p + q)) (p + q - (u + v))
  rw [sub_add_sub_cancel] at this
  generalize (1 : ℝ) / 2 ^ 1074 = κ at *
  linarith

/-- A contribution. -/
theorem share_near {v r s : ℝ} (hs : 1 / 2 ^ 30 ≤ s) (hr : |r - s| ≤ 7 / 2 ^ 52 * s) :
    |R.rnd (v / r) - v / s| ≤ 10 / 2 ^ 52 * (|v| / s) + 1 / 2 ^ 240 := by
  have hs0 : 0 < s := lt_of_lt_of_le (by positivity) hs
  have hr' := abs_le.1 hr
  have hr1 : (1 - 7 / 2 ^ 52) * s ≤ r := by linarith
  have hr0 : 0 < r := by linarith
  have h1 : |v / r - v / s| ≤ 8 / 2 ^ 52 * (|v| / s) := by
    rw [div_sub_div _ _ hr0.ne' hs0.ne', show v * s - r * v = v * -(r - s) by ring, abs_div, abs_mul, abs_neg, abs_of_pos (mul_pos hr0 hs0),
      div_le_iff₀ (mul_pos hr0 hs0), show 8 / 2 ^ 52 * (|v| / s) * (r * s) = |v| * (8 / 2 ^ 52 * r) * (s / s) by ring, div_self hs0.ne', mul_one]
    gcongr
    linarith
  have e := R.err (v / r)
  have t := tiny_le' (b := 250) (by norm_num)
  have hv : |v / s| = |v| / s := by rw [abs_div, abs_of_pos hs0]
  have h2 : |v / r| ≤ |v| / s + 8 / 2 ^ 52 * (|v| / s) := by
    have := abs_add_le (v / r - v / s) (v / s)
    rw [sub_add_cancel, hv] at this
    linarith
  have h3 : |v / r| / 2 ^ 52 ≤ (|v| / s + 8 / 2 ^ 52 * (|v| / s)) / 2 ^ 52 := by gcongr
  have := abs_add_le (R.rnd (v / r) - v / r) (v / r - v / s)
  rw [sub_add_sub_cancel] at this
  have hq : 0 ≤ |v| / s := by positivity
  generalize |v| / s = q at *
  generalize (1 : ℝ) / 2 ^ 1074 = κ at *
  linarith

/-- One more contribution. -/
theorem tally_near {d T A τ t : ℝ} {k : ℕ} (hk : k ≤ 2 ^ 20) (hA : |T| ≤ A)
    (hd : |d - T| ≤ 12 * k / 2 ^ 52 * A + 2 * k / 2 ^ 240) (hτ : |τ - t| ≤ 10 / 2 ^ 52 * |t| + 1 / 2 ^ 240) :
    |R.rnd (d + τ) - (T + t)| ≤ 12 * (k + 1 : ℕ) / 2 ^ 52 * (A + |t|) + 2 * (k + 1 : ℕ) / 2 ^ 240 := by
  have e := R.err (d + τ)
  have g1 := near_add hd hτ
  have g2 : |d + τ| ≤ A + |t| + (12 * k / 2 ^ 52 * A + 2 * k / 2 ^ 240 + (10 / 2 ^ 52 * |t| + 1 / 2 ^ 240)) := by
    have := abs_add_le (d + τ - (T + t)) (T + t)
    rw [sub_add_cancel] at this
    have := abs_add_le T t
    linarith
  have g3 : |d + τ| / 2 ^ 52 ≤ (A + |t| + (12 * k / 2 ^ 52 * A + 2 * k / 2 ^ 240 + (10 / 2 ^ 52 * |t| + 1 / 2 ^ 240))) / 2 ^ 52 := by gcongr
  have tt := tiny_le' (b := 250) (by norm_num)
  have hk' : (k : ℝ) ≤ 2 ^ 20 := by exact_mod_cast hk
  have hk0 : (0 : ℝ) ≤ k := Nat.cast_nonneg k
  have hA0 : 0 ≤ A := (abs_nonneg _).trans hA
  have ht0 := abs_nonneg t
  have hkA : (k : ℝ) * A ≤ 2 ^ 20 * A := by gcongr
  have hkt : 0 ≤ (k : ℝ) * |t| := by positivity
  have := abs_add_le (R.rnd (d + τ) - (d + τ)) (d + τ - (T + t))
  rw [sub_add_sub_cancel] at this
  push_cast
  generalize (1 : ℝ) / 2 ^ 1074 = κ at *
  have z : 12 * (k + 1 : ℝ) / 2 ^ 52 * (A + |t|) = 12 / 2 ^ 52 * (k * A + A + k * |t| + |t|) := by ring
  rw [z]
  have z2 : 12 * (k : ℝ) / 2 ^ 52 * A = 12 / 2 ^ 52 * (k * A) := by ring
  rw [z2] at g1 g3
  linarith

/-- The quotient of the two sums. -/
theorem mean_near {S W T Wt V : ℝ} {k : ℕ} (hk1 : 1 ≤ k) (hk : k ≤ 2 ^ 20) (hW : 1 / 2 ^ 70 ≤ Wt) (hV : 0 ≤ V) (hT : |T| ≤ V * Wt)
    (h1 : |S - T| ≤ 12 * k / 2 ^ 52 * (V * Wt) + 2 * k / 2 ^ 240) (h2 : |W - Wt| ≤ 12 * k / 2 ^ 52 * Wt + 2 * k / 2 ^ 240) :
    |R.rnd (S / W) - T / Wt| ≤ 30 * k / 2 ^ 52 * V + 1 / 2 ^ 140 := by
  have hW0 : 0 < Wt := lt_of_lt_of_le (by positivity) hW
  have hk' : (k : ℝ) ≤ 2 ^ 20 := by exact_mod_cast hk
  have hk1' : (1 : ℝ) ≤ k := by exact_mod_cast hk1
  have hkW : (k : ℝ) * Wt ≤ 2 ^ 20 * Wt := by gcongr
  have hkW1 : Wt ≤ k * Wt := by nlinarith
  have h2' : |W - Wt| ≤ 13 / 2 ^ 52 * (k * Wt) := by
    have : 2 * (k : ℝ) / 2 ^ 240 ≤ 1 / 2 ^ 52 * (k * Wt) := by
      have : (1 : ℝ) / 2 ^ 70 ≤ k * Wt := hW.trans hkW1
      linarith
    have z : 12 * (k : ℝ) / 2 ^ 52 * Wt = 12 / 2 ^ 52 * (k * Wt) := by ring
    linarith
  have h2'' := abs_le.1 h2'
  have hWl : 63 / 64 * Wt ≤ W := by linarith
  have hWp : 0 < W := by linarith
  set a := T / Wt with ha
  have hTa : T = a * Wt := by rw [ha]; field_simp
  have haV : |a| ≤ V := by rw [ha, abs_div, abs_of_pos hW0, div_le_iff₀ hW0]; exact hT
  have h3 : |S - a * W| ≤ 25 * k / 2 ^ 52 * V * Wt + 2 * k / 2 ^ 240 := by
    have b1 : |a * (W - Wt)| ≤ V * (13 / 2 ^ 52 * (k * Wt)) := by
      rw [abs_mul]
      exact mul_le_mul haV h2' (abs_nonneg _) hV
    have := abs_sub (S - T) (a * (W - Wt))
    rw [show S - T - a * (W - Wt) = S - a * W by rw [hTa]; ring] at this
    have z : 25 * (k : ℝ) / 2 ^ 52 * V * Wt = 12 * k / 2 ^ 52 * (V * Wt) + V * (13 / 2 ^ 52 * (k * Wt)) := by ring
    linarith
  have e := quot_near (R := R) hWp h3
  rw [mul_div_cancel_right₀ _ hWp.ne', abs_mul, abs_of_pos hWp, add_div (|a| * W), mul_div_cancel_right₀ _ hWp.ne'] at e
  have h4 : (25 * k / 2 ^ 52 * V * Wt + 2 * k / 2 ^ 240) / W ≤ 26 * k / 2 ^ 52 * V + 1 / 2 ^ 145 := by
    rw [div_le_iff₀ hWp]
    have c1 : 25 * k / 2 ^ 52 * V * Wt ≤ 26 * k / 2 ^ 52 * V * W := by
      calc 25 * k / 2 ^ 52 * V * Wt ≤ 26 * k / 2 ^ 52 * V * (63 / 64 * Wt) := by
            have : 0 ≤ k / 2 ^ 52 * V * Wt := by positivity
            linarith
        _ ≤ _ := by gcongr
    have c2 : 2 * (k : ℝ) / 2 ^ 240 ≤ 1 / 2 ^ 145 * W := by linarith
    rw [add_mul]
    linarith
  have t := tiny_le' (b := 250) (by norm_num)
  have hkV : V ≤ k * V := by nlinarith
  have hkV' : (k : ℝ) * V ≤ 2 ^ 20 * V := by gcongr
  have h5 := div_le_div_of_nonneg_right (add_le_add haV h4) (by positivity : (0 : ℝ) ≤ 2 ^ 52)
  generalize (25 * k / 2 ^ 52 * V * Wt + 2 * k / 2 ^ 240) / W = X at *
  generalize (1 : ℝ) / 2 ^ 1074 = κ at *
  have z1 : 26 * (k : ℝ) / 2 ^ 52 * V = 26 / 2 ^ 52 * (k * V) := by ring
  have z2 : 30 * (k : ℝ) / 2 ^ 52 * V = 30 / 2 ^ 52 * (k * V) := by ring
  rw [z1] at h4 h5
  rw [z2]
  linarith

end Rounding

section
open Rounding
variable {R : Rounding} {w h : Nat} {m : Mesh R.Num}

/-- The boundary point lies in the domain. -/
def Within (w h : Nat) (p : BoundaryPoint R.Num) : Prop := (0 ≤ p.coord.x.val ∧ p.coord.x.val ≤ w) ∧ 0 ≤ p.coord.y.val ∧ p.coord.y.val ≤ h

theorem tol_near : |R.tol - 1 / 10 ^ 6| ≤ 1 / 2 ^ 70 := by
  have := R.err (1 / 10 ^ 6)
  rw [abs_of_pos (by positivity : (0 : ℝ) < 1 / 10 ^ 6)] at this
  have t := tiny_le' (b := 250) (by norm_num)
  change |R.tol - _| ≤ _ at this
  generalize (1 : ℝ) / 2 ^ 1074 = κ at *
  refine this.trans ?_
  have : (1 : ℝ) / 10 ^ 6 / 2 ^ 52 + 1 / 2 ^ 250 ≤ 1 / 2 ^ 70 := by norm_num
  linarith

theorem sqFromR_bounds (G : IsGrid w h m) (hfit : (w + 1) * (h + 1) < 2 ^ 31) {x y : Nat} (hx : x ≤ w) (hy : y ≤ h) {p : BoundaryPoint R.Num}
    (hp : Within w h p) : 0 ≤ sqFromR p x y ∧ sqFromR p x y ≤ 2 ^ 64 ∧
    |(sqDist (nodeOf m (nodeNo w x y)).coord p.coord).val - sqFromR p x y| ≤ 6 / 2 ^ 52 * sqFromR p x y + 1 / 2 ^ 190 := by
  have hlt : nodeNo w x y < m.nodes.length := by rw [G.nodes_length]; exact nodeNo_lt hx hy
  have hw : w < 2 ^ 31 := by nlinarith
  have hh : h < 2 ^ 31 := by nlinarith
  have hw' : (w : ℝ) ≤ 2 ^ 31 := by exact_mod_cast hw.le
  have hh' : (h : ℝ) ≤ 2 ^ 31 := by exact_mod_cast hh.le
  have hx' : (x : ℝ) ≤ w := by exact_mod_cast hx
  have hy' : (y : ℝ) ≤ h := by exact_mod_cast hy
  have hx0 : (0 : ℝ) ≤ x := Nat.cast_nonneg x
  have hy0 : (0 : ℝ) ≤ y := Nat.cast_nonneg y
  obtain ⟨⟨a, b⟩, c, d⟩ := hp
  have k1 : |p.coord.x.val - x| ≤ 2 ^ 31 := by rw [abs_le]; constructor <;> linarith
  have k2 : |p.coord.y.val - y| ≤ 2 ^ 31 := by rw [abs_le]; constructor <;> linarith
  have q1 : (p.coord.x.val - x) ^ 2 ≤ (2 ^ 31) ^ 2 := by rw [← sq_abs]; gcongr
  have q2 : (p.coord.y.val - y) ^ 2 ≤ (2 ^ 31) ^ 2 := by rw [← sq_abs]; gcongr
  refine ⟨by unfold sqFromR; positivity, by unfold sqFromR; linarith, ?_⟩
  have c1 : (nodeOf m (nodeNo w x y)).coord.x.val = x := by
    rw [G.coord x y _ hx hy (get_node hlt)]
    exact val_nat (by omega)
  have c2 : (nodeOf m (nodeNo w x y)).coord.y.val = y := by
    rw [G.coord x y _ hx hy (get_node hlt)]
    exact val_nat (by omega)
  have := dist_near (R := R) (a := (nodeOf m (nodeNo w x y)).coord) (b := p.coord)
    (by rw [c1, abs_sub_comm]; linarith) (by rw [c2, abs_sub_comm]; linarith)
  rw [c1, c2] at this
  unfold sqFromR
  rw [sub_sq_comm p.coord.x.val, sub_sq_comm p.coord.y.val]
  exact this

/-- A point that is not on the node, by the test of the code. -/
theorem clear_of (G : IsGrid w h m) (hfit : (w + 1) * (h + 1) < 2 ^ 31) {x y : Nat} (hx : x ≤ w) (hy : y ≤ h) {p : BoundaryPoint R.Num}
    (hp : Within w h p) (hoff : 1 / 10 ^ 6 + 1 / 10 ^ 12 ≤ sqFromR p x y) :
    ¬ FP.lt (sqDist (nodeOf m (nodeNo w x y)).coord p.coord) (FP.lit 1 1000000) = true := by
  obtain ⟨b1, b2, b3⟩ := sqFromR_bounds G hfit hx hy hp
  rw [lt_iff, val_lit_tol, not_lt]
  have t1 := (abs_le.1 (tol_near (R := R))).2
  have t2 := (abs_le.1 b3).1
  have t3 : (1 : ℝ) / 10 ^ 6 + 1 / 2 ^ 70 + 1 / 2 ^ 190 ≤ (1 - 6 / 2 ^ 52) * (1 / 10 ^ 6 + 1 / 10 ^ 12) := by norm_num
  have t4 : (1 - 6 / 2 ^ 52 : ℝ) * (1 / 10 ^ 6 + 1 / 10 ^ 12) ≤ (1 - 6 / 2 ^ 52) * sqFromR p x y := by
    apply mul_le_mul_of_nonneg_left hoff
    norm_num
  linarith

/-- The point contributes to the node, by the test of the code. -/
theorem touch_of_within (G : IsGrid w h m) (hfit : (w + 1) * (h + 1) < 2 ^ 31) {x y : Nat} (hx : x ≤ w) (hy : y ≤ h) {p : BoundaryPoint R.Num}
    (hp : Within w h p) (hf : FeedsWithin w h m (1 - 1 / 2 ^ 48) p x y) : Touch w h m p (closest m p) (nodeNo w x y) := by
  obtain ⟨c, hc, hf⟩ := hf
  rw [closest_eq hc]
  rcases hf with hf | ⟨h1, h2⟩
  · exact .inl hf
  · refine .inr ⟨h1, .inr ?_⟩
    obtain ⟨b1, b2, b3⟩ := sqFromR_bounds G hfit hx hy hp
    have := (abs_le.1 b3).2
    rw [le_iff, val_one]
    linarith

theorem within_of_touch (G : IsGrid w h m) (hfit : (w + 1) * (h + 1) < 2 ^ 31) {x y c : Nat} (hx : x ≤ w) (hy : y ≤ h) {p : BoundaryPoint R.Num}
    (hp : Within w h p) (hc : m.getClosestNode p.coord = .ok c) (ht : Touch w h m p c (nodeNo w x y)) : FeedsWithin w h m (1 + 1 / 2 ^ 48) p x y := by
  refine ⟨c, hc, ?_⟩
  rcases ht with ht | ⟨h1, h2⟩
  · exact .inl ht
  · refine .inr ⟨h1, ?_⟩
    obtain ⟨b1, b2, b3⟩ := sqFromR_bounds G hfit hx hy hp
    have b4 := (abs_le.1 b3).1
    have : (sqDist (nodeOf m (nodeNo w x y)).coord p.coord).val ≤ 1 := by
      rcases h2 with h2 | h2
      · rw [lt_iff, val_lit_tol] at h2
        have := R.tol_bounds.2
        have : (1 : ℝ) / 2 ^ 19 ≤ 1 := by norm_num
        linarith
      · rw [le_iff, val_one] at h2
        exact h2
    linarith

open Classical in
/-- The points that contribute. -/
noncomputable def touching (w h : Nat) (m : Mesh R.Num) (points : List (BoundaryPoint R.Num)) (n : Nat) : List (BoundaryPoint R.Num) :=
  points.filter fun p => decide (Touch w h m p (closest m p) n)

theorem touching_neighbours (G : IsGrid w h m) (hfit : (w + 1) * (h + 1) < 2 ^ 31) {x y : Nat} (hx : x ≤ w) (hy : y ≤ h)
    {points : List (BoundaryPoint R.Num)} (hp : ∀ p ∈ points, Within w h p) (hpo : PointsOk m points) :
    Neighbours w h m points (touching w h m points (nodeNo w x y)) x y := by
  classical
  refine ⟨⟨_, rfl⟩, fun p hpm => ?_, fun p hpm hf => ?_⟩
  · unfold touching at hpm
    rw [List.mem_filter, decide_eq_true_iff] at hpm
    obtain ⟨c, hc, -⟩ := hpo p hpm.1
    rw [closest_eq hc] at hpm
    exact within_of_touch G hfit hx hy (hp p hpm.1) hc hpm.2
  · unfold touching
    rw [List.mem_filter, decide_eq_true_iff]
    exact ⟨hpm, touch_of_within G hfit hx hy (hp p hpm) hf⟩

/-- The two sums at a node on which no point lies. -/
theorem nodeSum_near (G : IsGrid w h m) (hfit : (w + 1) * (h + 1) < 2 ^ 31) {x y : Nat} (hx : x ≤ w) (hy : y ≤ h)
    {points : List (BoundaryPoint R.Num)} (hp : ∀ p ∈ points, Within w h p) (hpo : PointsOk m points)
    (off : ∀ p ∈ points, FeedsWithin w h m (1 + 1 / 2 ^ 48) p x y → 1 / 10 ^ 6 + 1 / 10 ^ 12 ≤ sqFromR p x y) (hn : points.length ≤ 2 ^ 20) :
    let near := touching w h m points (nodeNo w x y)
    let s := nodeSum w h m points (nodeNo w x y)
    s.1 = false ∧
    |s.2.1.val - (near.map fun p => 1 / sqFromR p x y).sum| ≤ 12 * near.length / 2 ^ 52 * (near.map fun p => 1 / sqFromR p x y).sum + 2 * near.length / 2 ^ 240 ∧
    |s.2.2.val - (near.map fun p => p.velocity.val / sqFromR p x y).sum| ≤
      12 * near.length / 2 ^ 52 * (near.map fun p => |p.velocity.val| / sqFromR p x y).sum + 2 * near.length / 2 ^ 240 ∧
    (near = [] → s.2.2.val = 0) := by
  classical
  induction points using List.reverseRecOn with
  | nil => simp [nodeSum, touching]
  | append_singleton l p ih =>
    have ih := ih (fun q hq => hp q (by simp [hq])) (fun q hq => hpo q (by simp [hq])) (fun q hq => off q (by simp [hq]))
      (by simp at hn; omega)
    obtain ⟨c, hc, hcl⟩ := hpo p (by simp)
    have hstep : nodeSum w h m (l ++ [p]) (nodeNo w x y) = touchStep w h m p c (nodeNo w x y) (nodeSum w h m l (nodeNo w x y)) := by
      unfold nodeSum
      rw [List.foldl_append, List.foldl_cons, List.foldl_nil, closest_eq hc]
    dsimp only at ih ⊢
    rw [hstep]
    have hlen : (touching w h m l (nodeNo w x y)).length ≤ 2 ^ 20 := by
      have : (touching w h m l (nodeNo w x y)).length ≤ l.length := List.length_filter_le _ _
      simp at hn
      omega
    have hpos : ∀ q ∈ touching w h m l (nodeNo w x y), 0 ≤ sqFromR q x y := by
      intro q _
      unfold sqFromR
      positivity
    generalize nodeSum w h m l (nodeNo w x y) = s at ih
    unfold touchStep
    have hcons : touching w h m (l ++ [p]) (nodeNo w x y) = touching w h m l (nodeNo w x y) ++
        if Touch w h m p c (nodeNo w x y) then [p] else [] := by
      unfold touching
      rw [List.filter_append]
      congr 1
      rw [List.filter_singleton, closest_eq hc]
      by_cases ht : Touch w h m p c (nodeNo w x y) <;> simp [ht]
    rw [hcons]
    generalize touching w h m l (nodeNo w x y) = near at *
    by_cases ht : Touch w h m p c (nodeNo w x y)
    · rw [if_pos ht, if_pos ht]
      obtain ⟨b1, b2, b3⟩ := sqFromR_bounds G hfit hx hy (hp p (by simp))
      have hoff := off p (by simp) (within_of_touch G hfit hx hy (hp p (by simp)) hc ht)
      have hbig : (1 : ℝ) / 2 ^ 30 ≤ sqFromR p x y := by
        refine le_trans ?_ hoff
        norm_num
      have hspos : 0 < sqFromR p x y := lt_of_lt_of_le (by positivity) hbig
      have hr : |(sqDist (nodeOf m (nodeNo w x y)).coord p.coord).val - sqFromR p x y| ≤ 7 / 2 ^ 52 * sqFromR p x y := by linarith
      have hlt := clear_of G hfit hx hy (hp p (by simp)) hoff
      unfold upd
      rw [if_neg hlt, ih.1]
      simp only [Bool.false_eq_true, if_false, val_add, val_div, val_one, List.map_append, List.map_cons, List.map_nil, List.sum_append,
        List.sum_cons, List.sum_nil, add_zero, List.length_append, List.length_cons, List.length_nil, zero_add, true_and]
      have w1 : |R.rnd (1 / (sqDist (nodeOf m (nodeNo w x y)).coord p.coord).val) - 1 / sqFromR p x y| ≤
          10 / 2 ^ 52 * |1 / sqFromR p x y| + 1 / 2 ^ 240 := by
        have := share_near (R := R) (v := 1) hbig hr
        rw [abs_one] at this
        rw [abs_of_pos (by positivity : 0 < 1 / sqFromR p x y)]
        exact this
      have w2 := share_near (R := R) (v := p.velocity.val) hbig hr
      have a1 : |(1 : ℝ) / sqFromR p x y| = 1 / sqFromR p x y := abs_of_pos (by positivity)
      have a2 : |p.velocity.val / sqFromR p x y| = |p.velocity.val| / sqFromR p x y := by rw [abs_div, abs_of_pos hspos]
      rw [← a2] at w2
      have g1 : |(near.map fun p => 1 / sqFromR p x y).sum| ≤ (near.map fun p => 1 / sqFromR p x y).sum := by
        rw [abs_of_nonneg]
        refine List.sum_nonneg ?_
        intro z hz
        obtain ⟨q, hq, rfl⟩ := List.mem_map.1 hz
        have := hpos q hq
        positivity
      have g2 : |(near.map fun p => p.velocity.val / sqFromR p x y).sum| ≤ (near.map fun p => |p.velocity.val| / sqFromR p x y).sum := by
        clear * - hpos
        induction near with
        | nil => simp
        | cons q t ih =>
          simp only [List.map_cons, List.sum_cons]
          refine (abs_add_le _ _).trans (add_le_add ?_ (ih fun z hz => hpos z (by simp [hz])))
          rw [abs_div, abs_of_nonneg (hpos q (by simp))]
      refine ⟨?_, ?_, by simp⟩
      · have := tally_near (R := R) hlen g1 ih.2.1 w1
        rwa [a1] at this
      · have := tally_near (R := R) hlen g2 ih.2.2.1 w2
        rwa [a2] at this
    · rw [if_neg ht, if_neg ht, List.append_nil]
      exact ih

end

end Slsm
