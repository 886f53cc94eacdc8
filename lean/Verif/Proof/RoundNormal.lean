import Verif.Proof.BndNormal
import Verif.Proof.RoundEik
import Verif.Proof.RoundVel
import Verif.Spec.RoundNormal

/-! # Normal vectors in rounded arithmetic -/

namespace Slsm

open FP LevelSet

namespace Rounding

variable {R : Rounding}

/-- rounding of a number of any size that is not tiny -/
theorem Cl.rnd' {k m M x t : ℝ} (h : Cl k m M x t) (hM : 1 / 2 ^ 250 ≤ M) (hk : k ≤ 2 ^ 20) : Cl (k + m + 1) m M (R.rnd x) t := by
  refine ⟨?_, h.2⟩
  have hM0 : 0 < M := lt_of_lt_of_le (by positivity) hM
  have e1 := R.err x
  have t1 : (1 : ℝ) / 2 ^ 1074 ≤ 1 / 2 ^ 320 := by
    rw [one_div_le_one_div (by positivity) (by positivity)]
    exact pow_le_pow_right₀ (by norm_num) (by norm_num)
  have t2 : (1 : ℝ) / 2 ^ 320 = 1 / 2 ^ 250 / 2 ^ 70 := by rw [div_div, ← pow_add]
  have a1 := abs_add_le (R.rnd x - x) (x - t)
  rw [sub_add_sub_cancel] at a1
  have a2 := abs_add_le (x - t) t
  rw [sub_add_cancel] at a2
  have h1 := h.1
  have h2 := h.2
  have h3 : k * (M / 2 ^ 52) ≤ 2 ^ 20 * (M / 2 ^ 52) := mul_le_mul_of_nonneg_right hk (by positivity)
  have e2 : (k + m + 1) * (M / 2 ^ 52) = k * (M / 2 ^ 52) + m * M / 2 ^ 52 + M / 2 ^ 52 := by ring
  rw [e2]
  rw [t2] at t1
  generalize (1 : ℝ) / 2 ^ 1074 = κ at *
  generalize (1 : ℝ) / 2 ^ 250 = κ' at *
  generalize k * (M / 2 ^ 52) = z1 at *
  generalize m * M = z2 at *
  norm_num at *
  linarith

/-- Division by the length of a vector. -/
theorem unit_near {X Y : R.Num} {a b : ℝ} (hG : 1 / 2 ^ 100 ≤ Real.sqrt (a ^ 2 + b ^ 2))
    (hx : |X.val - a| ≤ 4 * (Real.sqrt (a ^ 2 + b ^ 2) / 2 ^ 52)) (hy : |Y.val - b| ≤ 4 * (Real.sqrt (a ^ 2 + b ^ 2) / 2 ^ 52)) :
    |(X /. sqrt (X *. X +. Y *. Y)).val - a / Real.sqrt (a ^ 2 + b ^ 2)| ≤ 1 / 2 ^ 45 ∧
      |(Y /. sqrt (X *. X +. Y *. Y)).val - b / Real.sqrt (a ^ 2 + b ^ 2)| ≤ 1 / 2 ^ 45 := by
  have hs : Real.sqrt (a ^ 2 + b ^ 2) * Real.sqrt (a ^ 2 + b ^ 2) = a * a + b * b := by
    rw [Real.mul_self_sqrt (by positivity)]; ring
  have ha : |a| ≤ Real.sqrt (a ^ 2 + b ^ 2) := Real.abs_le_sqrt (by nlinarith [sq_nonneg b])
  have hb : |b| ≤ Real.sqrt (a ^ 2 + b ^ 2) := Real.abs_le_sqrt (by nlinarith [sq_nonneg a])
  generalize Real.sqrt (a ^ 2 + b ^ 2) = G at *
  have hG0 : 0 < G := lt_of_lt_of_le (by positivity) hG
  have cx : Cl 4 1 G X.val a := ⟨hx, by rwa [one_mul]⟩
  have cy : Cl 4 1 G Y.val b := ⟨hy, by rwa [one_mul]⟩
  have hGG : 1 / 2 ^ 250 ≤ G * G := by
    have : (1 : ℝ) / 2 ^ 100 * (1 / 2 ^ 100) ≤ G * G := mul_le_mul hG hG (by positivity) hG0.le
    refine le_trans ?_ this
    norm_num
  have xx := (cx.mul cx hG0.le hG0.le (by norm_num) (by norm_num) (by norm_num) (by norm_num) (by norm_num)).rnd' (R := R) hGG (by norm_num)
  have yy := (cy.mul cy hG0.le hG0.le (by norm_num) (by norm_num) (by norm_num) (by norm_num) (by norm_num)).rnd' (R := R) hGG (by norm_num)
  have pp := (xx.add yy).rnd' (R := R) hGG (by norm_num)
  rw [← val_mul, ← val_mul, ← val_add] at pp
  have p0 : 0 ≤ (X *. X +. Y *. Y).val := by
    rw [val_add, val_mul, val_mul]
    exact rnd_nonneg (add_nonneg (rnd_nonneg (mul_self_nonneg _)) (rnd_nonneg (mul_self_nonneg _)))
  have p1 := pp.1
  rw [← hs] at p1
  have q := FMM.sqrt_near hG0 p1 p0
  have c1 : Cl 25 1 G (Real.sqrt (X *. X +. Y *. Y).val) G := by
    refine ⟨q.trans (le_of_eq ?_), by rw [abs_of_pos hG0, one_mul]⟩
    field_simp
    norm_num
  have c2 := (c1.rnd' (R := R) (by refine le_trans ?_ hG; norm_num) (by norm_num)).1
  rw [← val_sqrt] at c2
  have c2' : |(sqrt (X *. X +. Y *. Y) : R.Num).val - G| ≤ 27 * (G / 2 ^ 52) := c2.trans (le_of_eq (by norm_num))
  clear c2 c1 q p1 p0 pp xx yy
  generalize (sqrt (X *. X +. Y *. Y) : R.Num) = m at *
  have m1 : G / 2 ≤ m.val := by
    have := (abs_le.1 c2').1
    norm_num at this
    linarith
  have m0 : 0 < m.val := by linarith
  have key : ∀ {Z : R.Num} {c : ℝ}, |Z.val - c| ≤ 4 * (G / 2 ^ 52) → |c| ≤ G → |(Z /. m).val - c / G| ≤ 1 / 2 ^ 45 := by
    intro Z c hz hc
    rw [val_div]
    have e : Z.val / m.val - c / G = ((Z.val - c) * G - c * (m.val - G)) / (m.val * G) := by
      field_simp
      ring
    have h1 : |Z.val / m.val - c / G| ≤ 62 / 2 ^ 52 := by
      rw [e, abs_div, abs_of_pos (mul_pos m0 hG0), div_le_iff₀ (mul_pos m0 hG0)]
      have a1 := abs_sub ((Z.val - c) * G) (c * (m.val - G))
      rw [abs_mul, abs_mul, abs_of_pos hG0] at a1
      have b1 : |Z.val - c| * G ≤ 4 * (G / 2 ^ 52) * G := mul_le_mul_of_nonneg_right hz hG0.le
      have b2 : |c| * |m.val - G| ≤ G * (27 * (G / 2 ^ 52)) := mul_le_mul hc c2' (abs_nonneg _) hG0.le
      have b3 : (G / 2) * G ≤ m.val * G := mul_le_mul_of_nonneg_right m1 hG0.le
      have e1 : 4 * (G / 2 ^ 52) * G = 4 * (G * G / 2 ^ 52) := by ring
      have e2 : G * (27 * (G / 2 ^ 52)) = 27 * (G * G / 2 ^ 52) := by ring
      have e3 : (G / 2) * G = G * G / 2 := by ring
      rw [e1] at b1
      rw [e2] at b2
      rw [e3] at b3
      generalize G * G = g at *
      generalize m.val * G = g' at *
      norm_num at *
      linarith
    have h2 : |c / G| ≤ 1 := by
      rw [abs_div, abs_of_pos hG0, div_le_one hG0]; exact hc
    have := rnd_near (R := R) h1 h2
    refine this.trans ?_
    norm_num
  exact ⟨key hx ha, key hy hb⟩

/-- One component of the sum of directions, with the sum of weights. -/
theorem mix_near {n W v u u0 r e : ℝ} (hW : 0 ≤ W) (he : 0 ≤ e) (he1 : e ≤ 1) (hv : |v| ≤ 1) (hn : |n - W * v| ≤ e * W) (hu : |u - u0| ≤ 1 / 2 ^ 45)
    (hu0 : |u0| ≤ 1) (hr : 1 / 2 ^ 20 ≤ r) (hr1 : r ≤ 2 ^ 70) :
    |R.rnd (n + R.rnd (u / r)) - R.rnd (W + R.rnd (1 / r)) * ((W * v + 1 / r * u0) / (W + 1 / r))| ≤ (e + 1 / 2 ^ 44) * R.rnd (W + R.rnd (1 / r)) := by
  have r0 : 0 < r := lt_of_lt_of_le (by positivity) hr
  have t := tiny_le' (b := 250) (by norm_num)
  obtain ⟨q, hq⟩ : ∃ q, q = 1 / r := ⟨_, rfl⟩
  have q0 : 1 / 2 ^ 70 ≤ q := by rw [hq]; exact one_div_le_one_div_of_le r0 hr1
  have qp : 0 < q := lt_of_lt_of_le (by positivity) q0
  have ht := quot_near (R := R) r0 hu
  have hw := R.err (1 / r)
  have hqe : ∀ z : ℝ, z / r = z * q := fun z => by rw [hq, mul_one_div]
  rw [hqe, hqe, hqe, hqe] at ht
  rw [hqe u, ← hq]
  rw [← hq, abs_of_pos qp] at hw
  have ht' : |R.rnd (u * q) - u0 * q| ≤ 132 / 2 ^ 52 * q := by
    refine ht.trans ?_
    have : (|u0| + 1 / 2 ^ 45) * q ≤ 2 * q := by
      apply mul_le_mul_of_nonneg_right _ qp.le
      norm_num at *
      linarith
    generalize (|u0| + 1 / 2 ^ 45) * q = z at *
    generalize (1 : ℝ) / 2 ^ 1074 = κ at *
    norm_num at *
    linarith
  have hw' : |R.rnd q - q| ≤ 2 / 2 ^ 52 * q := by
    refine hw.trans ?_
    generalize (1 : ℝ) / 2 ^ 1074 = κ at *
    norm_num at *
    linarith
  clear ht hw
  generalize R.rnd (u * q) = s at *
  generalize R.rnd q = q' at *
  obtain ⟨S, hS⟩ : ∃ S, S = W + q := ⟨_, rfl⟩
  have S0 : 0 < S := by linarith
  have S1 : 1 / 2 ^ 70 ≤ S := by linarith
  have hq' := abs_le.1 hw'
  have w1 : |R.rnd (W + q') - S| ≤ 5 / 2 ^ 52 * S := by
    have e1 := R.err (W + q')
    have p0 : 0 ≤ W + q' := by norm_num at hq'; linarith
    rw [abs_of_nonneg p0] at e1
    have a := abs_add_le (R.rnd (W + q') - (W + q')) (q' - q)
    rw [show R.rnd (W + q') - (W + q') + (q' - q) = R.rnd (W + q') - S by rw [hS]; ring] at a
    generalize R.rnd (W + q') = z at *
    generalize (1 : ℝ) / 2 ^ 1074 = κ at *
    norm_num at *
    linarith
  have hSv : S * ((W * v + q * u0) / S) = W * v + q * u0 := by field_simp
  rw [← hS]
  have hv' : |(W * v + q * u0) / S| ≤ 1 := by
    rw [abs_div, abs_of_pos S0, div_le_one S0]
    have a := abs_add_le (W * v) (q * u0)
    rw [abs_mul, abs_mul, abs_of_nonneg hW, abs_of_pos qp] at a
    have b1 := mul_le_mul_of_nonneg_left hv hW
    have b2 := mul_le_mul_of_nonneg_left hu0 qp.le
    linarith
  have n1 : |n + s - (W * v + q * u0)| ≤ e * W + 132 / 2 ^ 52 * q := by
    have a := abs_add_le (n - W * v) (s - u0 * q)
    rw [show n - W * v + (s - u0 * q) = n + s - (W * v + q * u0) by ring] at a
    linarith
  have n2 : |W * v + q * u0| ≤ S := by
    rw [← hSv, abs_mul, abs_of_pos S0]
    have := mul_le_mul_of_nonneg_left hv' S0.le
    linarith
  have eW : e * W ≤ W := by have := mul_le_mul_of_nonneg_right he1 hW; linarith
  have n3 : |R.rnd (n + s) - (W * v + q * u0)| ≤ e * W + 136 / 2 ^ 52 * S := by
    have e1 := R.err (n + s)
    have a := abs_add_le (R.rnd (n + s) - (n + s)) (n + s - (W * v + q * u0))
    rw [sub_add_sub_cancel] at a
    have a2 := abs_add_le (n + s - (W * v + q * u0)) (W * v + q * u0)
    rw [sub_add_cancel] at a2
    generalize R.rnd (n + s) = z at *
    generalize (1 : ℝ) / 2 ^ 1074 = κ at *
    generalize e * W = y at *
    norm_num at *
    linarith
  rw [← hSv] at n3
  generalize (W * v + q * u0) / S = V at *
  generalize R.rnd (n + s) = z at *
  generalize R.rnd (W + q') = W' at *
  have a := abs_sub (z - S * V) ((W' - S) * V)
  rw [show z - S * V - (W' - S) * V = z - W' * V by ring, abs_mul] at a
  have b1 : |W' - S| * |V| ≤ 5 / 2 ^ 52 * S * 1 := mul_le_mul w1 hv' (abs_nonneg _) (by positivity)
  have b2 : S ≤ W' + 8 / 2 ^ 52 * W' := by
    have := (abs_le.1 w1).1
    norm_num at *
    linarith
  have b3 : e * W ≤ e * (W' + 8 / 2 ^ 52 * W') := mul_le_mul_of_nonneg_left (by linarith) he
  have b4 : e * W' ≤ W' := by
    have : 0 ≤ W' := by norm_num at b2; linarith
    have := mul_le_mul_of_nonneg_right he1 this
    linarith
  rw [mul_add, mul_left_comm] at b3
  rw [add_mul]
  generalize e * W' = y at *
  generalize e * W = y' at *
  norm_num at *
  linarith

/-- The weighted average of two vectors of length at most one that lie in the half plane `c ≤ V · d`. -/
theorem cone_mix {W q c : ℝ} {d V u : Coord ℝ} (hW : 0 ≤ W) (hq : 0 < q) (hV : c ≤ V.x * d.x + V.y * d.y) (hV1 : V.x ^ 2 + V.y ^ 2 ≤ 1)
    (hu : c ≤ u.x * d.x + u.y * d.y) (hu1 : u.x ^ 2 + u.y ^ 2 ≤ 1) :
    c ≤ (W * V.x + q * u.x) / (W + q) * d.x + (W * V.y + q * u.y) / (W + q) * d.y ∧
      ((W * V.x + q * u.x) / (W + q)) ^ 2 + ((W * V.y + q * u.y) / (W + q)) ^ 2 ≤ 1 := by
  have hS : 0 < W + q := by linarith
  constructor
  · rw [div_mul_eq_mul_div, div_mul_eq_mul_div, ← add_div, le_div_iff₀ hS]
    have h1 := mul_le_mul_of_nonneg_left hV hW
    have h2 := mul_le_mul_of_nonneg_left hu hq.le
    linarith
  · rw [div_pow, div_pow, ← add_div, div_le_one (by positivity)]
    have h1 := mul_le_mul_of_nonneg_left hV1 (mul_nonneg hW hS.le)
    have h2 := mul_le_mul_of_nonneg_left hu1 (mul_nonneg hq.le hS.le)
    have h3 : 0 ≤ W * q * ((V.x - u.x) ^ 2 + (V.y - u.y) ^ 2) := by positivity
    nlinarith

theorem comp_le {V : Coord ℝ} (h : V.x ^ 2 + V.y ^ 2 ≤ 1) : |V.x| ≤ 1 ∧ |V.y| ≤ 1 :=
  ⟨abs_le_one_iff_mul_self_le_one.2 (by nlinarith [sq_nonneg V.y]), abs_le_one_iff_mul_self_le_one.2 (by nlinarith [sq_nonneg V.x])⟩

/-- `N` is near `W V`, for a vector `V` of length at most one in the half plane `c ≤ V · d`; `m` contributions. -/
structure Mix (c : ℝ) (d : Coord ℝ) (m : ℕ) (N : Coord R.Num) (W : R.Num) : Prop where
  nonneg : 0 ≤ W.val
  pos : m ≠ 0 → 1 / 2 ^ 80 ≤ W.val
  mix : ∃ V : Coord ℝ, c ≤ V.x * d.x + V.y * d.y ∧ V.x ^ 2 + V.y ^ 2 ≤ 1 ∧
    |N.x.val - W.val * V.x| ≤ m / 2 ^ 44 * W.val ∧ |N.y.val - W.val * V.y| ≤ m / 2 ^ 44 * W.val

/-- A direction near the unit vector `u0` in the half plane. -/
structure Heads (c : ℝ) (d : Coord ℝ) (ux uy : R.Num) : Prop where
  near : ∃ u : Coord ℝ, c ≤ u.x * d.x + u.y * d.y ∧ u.x ^ 2 + u.y ^ 2 ≤ 1 ∧ |ux.val - u.x| ≤ 1 / 2 ^ 45 ∧ |uy.val - u.y| ≤ 1 / 2 ^ 45

theorem Mix.zero {c : ℝ} {d : Coord ℝ} (hd : d.x ^ 2 + d.y ^ 2 = 1) (hc : c ≤ 1) : Mix c d 0 (⟨FP.nat 0, FP.nat 0⟩ : Coord R.Num) (FP.nat 0) := by
  have z : (FP.nat 0 : R.Num).val = 0 := val_zero
  exact ⟨z.ge, fun h => absurd rfl h, d, by nlinarith, hd.le, by simp [z], by simp [z]⟩

theorem Mix.succ {c : ℝ} {d : Coord ℝ} {m : ℕ} {N : Coord R.Num} {W : R.Num} (h : Mix c d m N W) (hm : m ≠ 0) : Mix c d (m + 1) N W := by
  obtain ⟨V, h1, h2, h3, h4⟩ := h.mix
  have : (m : ℝ) / 2 ^ 44 * W.val ≤ ((m + 1 : ℕ) : ℝ) / 2 ^ 44 * W.val := by
    have := h.nonneg
    gcongr
    simp
  exact ⟨h.nonneg, fun _ => h.pos hm, V, h1, h2, h3.trans this, h4.trans this⟩

theorem Mix.one {c : ℝ} {d : Coord ℝ} {ux uy : R.Num} (h : Heads c d ux uy) (m : ℕ) : Mix c d (m + 1) ⟨ux, uy⟩ (FP.nat 1) := by
  obtain ⟨V, h1, h2, h3, h4⟩ := h.near
  have z : (FP.nat 1 : R.Num).val = 1 := val_one
  have : (1 : ℝ) / 2 ^ 45 ≤ ((m + 1 : ℕ) : ℝ) / 2 ^ 44 := by
    have : (0 : ℝ) ≤ m := Nat.cast_nonneg m
    push_cast
    norm_num
    linarith
  refine ⟨by rw [z]; norm_num, fun _ => by rw [z]; norm_num, V, h1, h2, ?_, ?_⟩
  · rw [z, one_mul, mul_one]; exact h3.trans this
  · rw [z, one_mul, mul_one]; exact h4.trans this

theorem Mix.add {c : ℝ} {d : Coord ℝ} {m : ℕ} {N : Coord R.Num} {W ux uy r : R.Num} (h : Mix c d m N W) (hu : Heads c d ux uy) (hm : m ≤ 2 ^ 20)
    (hr : 1 / 2 ^ 20 ≤ r.val) (hr1 : r.val ≤ 2 ^ 70) : Mix c d (m + 1) ⟨N.x +. ux /. r, N.y +. uy /. r⟩ (W +. FP.nat 1 /. r) := by
  obtain ⟨V, v1, v2, v3, v4⟩ := h.mix
  obtain ⟨u, u1, u2, u3, u4⟩ := hu.near
  have r0 : 0 < r.val := lt_of_lt_of_le (by positivity) hr
  have e0 : (0 : ℝ) ≤ m / 2 ^ 44 := by positivity
  have e1 : (m : ℝ) / 2 ^ 44 ≤ 1 := by
    rw [div_le_one (by positivity)]
    have : (m : ℝ) ≤ 2 ^ 20 := by exact_mod_cast hm
    refine this.trans ?_
    norm_num
  have em : ((m + 1 : ℕ) : ℝ) / 2 ^ 44 = m / 2 ^ 44 + 1 / 2 ^ 44 := by push_cast; ring
  obtain ⟨k1, k2⟩ := cone_mix h.nonneg (one_div_pos.2 r0) v1 v2 u1 u2
  have q0 : 1 / 2 ^ 70 ≤ 1 / r.val := one_div_le_one_div_of_le r0 hr1
  have hW : (W +. FP.nat 1 /. r : R.Num).val = R.rnd (W.val + R.rnd (1 / r.val)) := by rw [val_add, val_div, val_one]
  have w1 := rnd_within (R := R) (x := 1 / r.val) (small_pow (n := 70) (by norm_num) q0)
  have hq2 : 1 / 2 ^ 72 ≤ W.val + R.rnd (1 / r.val) := by
    have := h.nonneg
    norm_num at *
    linarith
  have w2 := rnd_within (R := R) (small_pow (n := 72) (by norm_num) hq2)
  have hp : 1 / 2 ^ 80 ≤ (W +. FP.nat 1 /. r : R.Num).val := by
    rw [hW]
    norm_num at *
    linarith
  refine ⟨le_trans (by positivity) hp, fun _ => hp, ⟨_, _⟩, k1, k2, ?_, ?_⟩
  · rw [hW, em, val_add, val_div]
    exact mix_near h.nonneg e0 e1 (comp_le v2).1 v3 u3 (comp_le u2).1 hr hr1
  · rw [hW, em, val_add, val_div]
    exact mix_near h.nonneg e0 e1 (comp_le v2).2 v4 u4 (comp_le u2).2 hr hr1

/-- The normalised sum is a unit vector in the cone, up to rounding. -/
theorem Mix.unit {c : ℝ} {d : Coord ℝ} {m : ℕ} {W : R.Num} {p : BoundaryPoint R.Num} (h : Mix c d m p.normal W) (hd : d.x ^ 2 + d.y ^ 2 = 1)
    (hc : 1 / 2 ^ 10 ≤ c) (hc1 : c ≤ 1) (hm0 : m ≠ 0) (hm : m ≤ 2 ^ 20) (hp : p.isDomain = false) :
    |(Boundary.unitNormal W p).normal.x.val ^ 2 + (Boundary.unitNormal W p).normal.y.val ^ 2 - 1| ≤ 1 / 2 ^ 42 ∧
      c - (m + 1) / 2 ^ 42 ≤ (Boundary.unitNormal W p).normal.x.val * d.x + (Boundary.unitNormal W p).normal.y.val * d.y := by
  obtain ⟨V, v1, v2, v3, v4⟩ := h.mix
  have W0 : 0 < W.val := lt_of_lt_of_le (by positivity) (h.pos hm0)
  obtain ⟨f, hf⟩ : ∃ f : ℝ, f = m / 2 ^ 44 + 1 / 2 ^ 50 := ⟨_, rfl⟩
  have hm' : (m : ℝ) ≤ 2 ^ 20 := by exact_mod_cast hm
  have m0 : (0 : ℝ) ≤ m := Nat.cast_nonneg m
  have f0 : 0 ≤ f := by rw [hf]; positivity
  have f1 : f ≤ 1 / 2 ^ 23 := by
    have : (m : ℝ) / 2 ^ 44 ≤ 2 ^ 20 / 2 ^ 44 := by gcongr
    rw [hf]
    refine (add_le_add_left this _).trans ?_
    norm_num
  have quot : ∀ {n : R.Num} {v : ℝ}, |v| ≤ 1 → |n.val - W.val * v| ≤ m / 2 ^ 44 * W.val → |(n /. W).val - v| ≤ f := by
    intro n v hv hn
    rw [val_div]
    have h1 : |n.val / W.val - v| ≤ m / 2 ^ 44 := by
      rw [show n.val / W.val - v = (n.val - W.val * v) / W.val by field_simp, abs_div, abs_of_pos W0, div_le_iff₀ W0]
      exact hn
    have := rnd_near (R := R) h1 hv
    refine this.trans ?_
    rw [hf]
    norm_num at *
    linarith
  have qx := quot (comp_le v2).1 v3
  have qy := quot (comp_le v2).2 v4
  unfold Boundary.unitNormal
  rw [if_neg (by simp [hp])]
  dsimp only
  generalize (p.normal.x /. W : R.Num) = X at *
  generalize (p.normal.y /. W : R.Num) = Y at *
  obtain ⟨d1, d2⟩ := comp_le hd.le
  have hdot : ∀ {a b e : ℝ}, |a| ≤ e → |b| ≤ e → |a * d.x + b * d.y| ≤ 2 * e := by
    intro a b e ha hb
    have := abs_add_le (a * d.x) (b * d.y)
    rw [abs_mul, abs_mul] at this
    have b1 := mul_le_mul_of_nonneg_left d1 (abs_nonneg a)
    have b2 := mul_le_mul_of_nonneg_left d2 (abs_nonneg b)
    linarith
  have g1 : c - 2 * f ≤ X.val * d.x + Y.val * d.y := by
    have := (abs_le.1 (hdot qx qy)).1
    linarith
  obtain ⟨G, hG⟩ : ∃ G, G = Real.sqrt (X.val ^ 2 + Y.val ^ 2) := ⟨_, rfl⟩
  have GG : G ^ 2 = X.val ^ 2 + Y.val ^ 2 := by rw [hG, Real.sq_sqrt (by positivity)]
  have G0 : 0 ≤ G := by rw [hG]; exact Real.sqrt_nonneg _
  have g2 : X.val * d.x + Y.val * d.y ≤ G := by
    refine (le_abs_self _).trans (abs_le_of_sq_le_sq ?_ G0)
    nlinarith [sq_nonneg (X.val * d.y - Y.val * d.x)]
  have g3 : G ≤ 1 + 2 * f := by
    have h1 := norm_near qx qy
    have h2 : Real.sqrt (V.x ^ 2 + V.y ^ 2) ≤ 1 := Real.sqrt_le_one.2 v2
    have := (abs_le.1 h1).2
    rw [← hG] at this
    linarith
  have g4 : 1 / 2 ^ 100 ≤ G := by
    refine le_trans ?_ (g1.trans g2)
    norm_num at *
    linarith
  have Gp : 0 < G := lt_of_lt_of_le (by positivity) g4
  obtain ⟨n1, n2⟩ := unit_near (R := R) (X := X) (Y := Y) (a := X.val) (b := Y.val) (by rw [← hG]; exact g4) (by rw [sub_self, abs_zero]; positivity)
    (by rw [sub_self, abs_zero]; positivity)
  rw [← hG] at n1 n2
  have U : (X.val / G) ^ 2 + (Y.val / G) ^ 2 = 1 := by
    rw [div_pow, div_pow, ← add_div, ← GG, div_self (by positivity)]
  have Ud : c - 4 * f ≤ X.val / G * d.x + Y.val / G * d.y := by
    rw [div_mul_eq_mul_div, div_mul_eq_mul_div, ← add_div, le_div_iff₀ Gp]
    have : (c - 4 * f) * G ≤ (c - 4 * f) * (1 + 2 * f) := mul_le_mul_of_nonneg_left g3 (by norm_num at *; linarith)
    have h2 : c * f ≤ 1 * f := mul_le_mul_of_nonneg_right hc1 f0
    nlinarith
  generalize (X /. sqrt (X *. X +. Y *. Y) : R.Num).val = a at *
  generalize (Y /. sqrt (X *. X +. Y *. Y) : R.Num).val = b at *
  generalize X.val / G = A at *
  generalize Y.val / G = B at *
  obtain ⟨A1, B1⟩ := comp_le (V := ⟨A, B⟩) U.le
  dsimp only at A1 B1
  constructor
  · have key : ∀ {a A : ℝ}, |a - A| ≤ 1 / 2 ^ 45 → |A| ≤ 1 → |a ^ 2 - A ^ 2| ≤ 1 / 2 ^ 43 := by
      intro a A h1 h2
      rw [show a ^ 2 - A ^ 2 = (a - A) * (2 * A + (a - A)) by ring, abs_mul]
      have h3 : |2 * A + (a - A)| ≤ 3 := by
        have := abs_add_le (2 * A) (a - A)
        rw [abs_mul, abs_two] at this
        norm_num at *
        linarith
      have := mul_le_mul h1 h3 (abs_nonneg _) (by positivity)
      refine this.trans ?_
      norm_num
    have k1 := key n1 A1
    have k2 := key n2 B1
    have := near_add k1 k2
    rw [U] at this
    refine this.trans ?_
    norm_num
  · have := (abs_le.1 (hdot n1 n2)).1
    have e : ((m : ℝ) + 1) / 2 ^ 42 = 4 * (m / 2 ^ 44) + 4 / 2 ^ 44 := by ring
    rw [e]
    have hf' : 4 * f = 4 * (m / 2 ^ 44) + 4 / 2 ^ 50 := by rw [hf]; ring
    rw [hf'] at Ud
    generalize (m : ℝ) / 2 ^ 44 = y at *
    norm_num at *
    linarith

end Rounding

theorem wp_rd_free {α : Type} {v : List α} {i : Nat} {Q : α → Prop} (h : ∀ a, v[i]? = some a → Q a) : wp (rd v i) Q fun _ => True := by
  unfold rd
  cases e : v[i]? with
  | none => trivial
  | some a => exact h a e

theorem wp_wr_free {α : Type} {v : List α} {i : Nat} {a : α} {Q : List α → Prop} (h : i < v.length → Q (v.set i a)) :
    wp (wr v i a) Q fun _ => True := by
  by_cases hi : i < v.length
  · rw [wr_eq a hi]; exact h hi
  · rw [wr_ub a (by omega)]; trivial

namespace Boundary

open Rounding

variable {R : Rounding} {w h : Nat} {c : ℝ} {d : Coord ℝ}

/-- Difference quotients. -/
theorem lineDiff_near {G : Nat → Res R.Num} {g : Nat → R.Num} {n x : Nat} (hn : 1 ≤ n) (hf : n < 4294967295) (hG : ∀ k, k ≤ n → G k = .ok (g k))
    (hx : x ≤ n) : ∃ X, lineDiff G n x = .ok X ∧ ∀ M, 1 / 2 ^ 100 ≤ M → |lineSlope (fun k => (g k).val) n x| ≤ M →
      |X.val - lineSlope (fun k => (g k).val) n x| ≤ 4 * (M / 2 ^ 52) := by
  have one : ∀ {a b : R.Num} {M : ℝ}, 1 / 2 ^ 100 ≤ M → |a.val - b.val| ≤ M → |(a -. b).val - (a.val - b.val)| ≤ 4 * (M / 2 ^ 52) := by
    intro a b M hM h
    have hM0 : 0 < M := lt_of_lt_of_le (by positivity) hM
    have := ((Cl.exact (m := 1) (M := M) (by rwa [one_mul])).rnd' (R := R) (le_trans (by norm_num) hM) (by norm_num)).1
    rw [val_sub]
    refine this.trans ?_
    exact mul_le_mul_of_nonneg_right (by norm_num) (by positivity)
  unfold lineDiff lineSlope LevelSet.diff
  by_cases h0 : x = 0
  · subst h0
    rw [if_pos rfl, if_pos rfl, show u32 (0 + 1) = 1 by unfold u32; omega, hG 1 hn, hG 0 (by omega)]
    exact ⟨_, rfl, fun M => one⟩
  · rw [if_neg h0, if_neg h0]
    have es : LevelSet.sub32 x 1 = x - 1 := sub32_eq (by omega) (by omega)
    by_cases h1 : x = n
    · subst h1
      rw [if_pos rfl, if_pos rfl, es, hG x hx, hG (x - 1) (by omega)]
      exact ⟨_, rfl, fun M => one⟩
    · rw [if_neg h1, if_neg h1, es, show u32 (x + 1) = x + 1 by unfold u32; omega, hG (x + 1) (by omega), hG (x - 1) (by omega)]
      refine ⟨_, rfl, fun M hM h => ?_⟩
      dsimp only at h ⊢
      have hM0 : 0 < M := lt_of_lt_of_le (by positivity) hM
      have hM' : (1 : ℝ) / 2 ^ 250 ≤ M := le_trans (by norm_num) hM
      rw [abs_div, abs_two, div_le_iff₀ (by norm_num)] at h
      have c1 := (Cl.exact (m := 2) (M := M) (t := (g (x + 1)).val - (g (x - 1)).val) (by linarith)).rnd' (R := R) hM' (by norm_num)
      rw [← val_sub] at c1
      have c2 : Cl (3 / 2) 1 M ((FP.lit 1 2 : R.Num).val * (FP.sub (g (x + 1)) (g (x - 1))).val) (((g (x + 1)).val - (g (x - 1)).val) / 2) := by
        constructor
        · rw [val_lit_half, show 1 / 2 * (FP.sub (g (x + 1)) (g (x - 1))).val - ((g (x + 1)).val - (g (x - 1)).val) / 2 =
            ((FP.sub (g (x + 1)) (g (x - 1))).val - ((g (x + 1)).val - (g (x - 1)).val)) / 2 by ring, abs_div, abs_two]
          have := c1.1
          linarith
        · rw [abs_div, abs_two]; linarith
      have c3 := (c2.rnd' (R := R) hM' (by norm_num)).1
      rw [← val_mul] at c3
      refine c3.trans ?_
      exact mul_le_mul_of_nonneg_right (by norm_num) (by positivity)

/-- The normalised gradient. -/
theorem dir_near {X Y : R.Num} {g : Coord ℝ} (hg : InCone c d g) (hx : ∀ M, 1 / 2 ^ 100 ≤ M → |g.x| ≤ M → |X.val - g.x| ≤ 4 * (M / 2 ^ 52))
    (hy : ∀ M, 1 / 2 ^ 100 ≤ M → |g.y| ≤ M → |Y.val - g.y| ≤ 4 * (M / 2 ^ 52)) :
    Heads c d (X /. sqrt (X *. X +. Y *. Y)) (Y /. sqrt (X *. X +. Y *. Y)) := by
  obtain ⟨h1, h2⟩ := hg
  unfold vnorm at h1 h2
  have a1 : |g.x| ≤ Real.sqrt (g.x ^ 2 + g.y ^ 2) := Real.abs_le_sqrt (by nlinarith [sq_nonneg g.y])
  have a2 : |g.y| ≤ Real.sqrt (g.x ^ 2 + g.y ^ 2) := Real.abs_le_sqrt (by nlinarith [sq_nonneg g.x])
  obtain ⟨u1, u2⟩ := unit_near h1 (hx _ h1 a1) (hy _ h1 a2)
  have G0 : 0 < Real.sqrt (g.x ^ 2 + g.y ^ 2) := lt_of_lt_of_le (by positivity) h1
  refine ⟨⟨g.x / Real.sqrt (g.x ^ 2 + g.y ^ 2), g.y / Real.sqrt (g.x ^ 2 + g.y ^ 2)⟩, ?_, ?_, u1, u2⟩
  · dsimp only
    rw [div_mul_eq_mul_div, div_mul_eq_mul_div, ← add_div, le_div_iff₀ G0]
    exact h2
  · dsimp only
    rw [div_pow, div_pow, ← add_div, Real.sq_sqrt (by positivity)]
    exact div_self_le_one _

/-- State of the loops at point `k`, after `m` contributions. -/
def SumAt (c : ℝ) (d : Coord ℝ) (pt : BoundaryPoint R.Num) (k m : Nat) (s : List (BoundaryPoint R.Num) × List Bool × List R.Num) : Prop :=
  ∃ N f W, s.1[k]? = some { pt with normal := N } ∧ s.2.1[k]? = some f ∧ s.2.2[k]? = some W ∧ (f = true → m ≠ 0) ∧ Mix c d m N W

theorem other_at {pt : BoundaryPoint R.Num} {k k' m : Nat} {nd : Node R.Num} {nx ny : R.Num} {j : Nat} {s : List (BoundaryPoint R.Num) × List Bool × List R.Num}
    (H : SumAt c d pt k m s) (hj : nd.boundaryPoints[j]? = some k') (hne : k' ≠ k) : wp (normalPoint nd nx ny j s) (SumAt c d pt k m) fun _ => True := by
  obtain ⟨P, st, wt⟩ := s
  obtain ⟨N, f, W, h1, h2, h3, h4, h5⟩ := H
  unfold normalPoint
  dsimp only at h1 h2 h3 ⊢
  rw [rd_some hj]
  show wp (Except.bind _ _) _ _
  simp only [Except.bind]
  refine (wp_bind _ _ _ _).2 (wp_rd_free fun p hp => ?_)
  split_ifs
  · refine (wp_bind _ _ _ _).2 (wp_wr_free fun _ => (wp_bind _ _ _ _).2 (wp_wr_free fun _ => (wp_bind _ _ _ _).2 (wp_wr_free fun _ => ?_)))
    refine ⟨N, f, W, ?_, ?_, ?_, h4, h5⟩ <;> dsimp only <;> rw [List.getElem?_set_ne hne] <;> assumption
  · refine (wp_bind _ _ _ _).2 (wp_rd_free fun b hb => ?_)
    split_ifs
    · exact ⟨N, f, W, h1, h2, h3, h4, h5⟩
    · refine (wp_bind _ _ _ _).2 (wp_wr_free fun _ => (wp_bind _ _ _ _).2 (wp_rd_free fun q hq => (wp_bind _ _ _ _).2 (wp_wr_free fun _ => ?_)))
      refine ⟨N, f, W, ?_, h2, ?_, h4, h5⟩ <;> dsimp only <;> rw [List.getElem?_set_ne hne] <;> assumption

theorem same_at {pt : BoundaryPoint R.Num} {k m : Nat} {nd : Node R.Num} {nx ny : R.Num} {j : Nat} {s : List (BoundaryPoint R.Num) × List Bool × List R.Num}
    (H : SumAt c d pt k m s) (hj : nd.boundaryPoints[j]? = some k) (hm : m ≤ 2 ^ 20) (hu : Heads c d nx ny)
    (hx : |nd.coord.x.val - pt.coord.x.val| ≤ 2 ^ 32) (hy : |nd.coord.y.val - pt.coord.y.val| ≤ 2 ^ 32) :
    wp (normalPoint nd nx ny j s) (SumAt c d pt k (m + 1)) fun _ => True := by
  obtain ⟨P, st, wt⟩ := s
  obtain ⟨N, f, W, h1, h2, h3, h4, h5⟩ := H
  unfold normalPoint
  dsimp only at h1 h2 h3 ⊢
  simp only [rd_some hj, rd_some h1, rd_some h2, rd_some h3, bind, Except.bind, wr_some h1, wr_some h2, wr_some h3]
  have hD := dist_near (R := R) hx hy
  unfold LevelSet.sqDist at hD
  dsimp only at hD
  split_ifs with hlt hf
  · refine ⟨⟨nx, ny⟩, true, FP.nat 1, ?_, ?_, ?_, fun _ => by omega, Mix.one hu m⟩
    · dsimp only; rw [set_at h1, if_pos rfl]
    · dsimp only; rw [set_at h2, if_pos rfl]
    · dsimp only; rw [set_at h3, if_pos rfl]
  · exact ⟨N, f, W, h1, h2, h3, fun _ => by omega, h5.succ (h4 hf)⟩
  · rw [lt_iff, val_lit_tol, not_lt] at hlt
    refine ⟨_, f, _, by dsimp only; rw [set_at h1, if_pos rfl], h2, by dsimp only; rw [set_at h3, if_pos rfl], fun _ => by omega,
      h5.add hu hm ((R.tol_bounds.1.le).trans hlt) ?_⟩
    have q1 : (nd.coord.x.val - pt.coord.x.val) ^ 2 ≤ (2 ^ 32) ^ 2 := by rw [← sq_abs]; gcongr
    have q2 : (nd.coord.y.val - pt.coord.y.val) ^ 2 ≤ (2 ^ 32) ^ 2 := by rw [← sq_abs]; gcongr
    have := (abs_le.1 hD).2
    norm_num at *
    linarith

/-- All points of a node. -/
theorem points_at {pt : BoundaryPoint R.Num} {k m : Nat} {nd : Node R.Num} {nx ny : R.Num} {s : List (BoundaryPoint R.Num) × List Bool × List R.Num}
    (H : SumAt c d pt k m s) (hm : m + (nd.boundaryPoints.take nd.nBoundaryPoints).count k ≤ 2 ^ 20)
    (hu : k ∈ nd.boundaryPoints.take nd.nBoundaryPoints → Heads c d nx ny)
    (hx : |nd.coord.x.val - pt.coord.x.val| ≤ 2 ^ 32) (hy : |nd.coord.y.val - pt.coord.y.val| ≤ 2 ^ 32) :
    wp (forN nd.nBoundaryPoints s (normalPoint nd nx ny))
      (SumAt c d pt k (m + (nd.boundaryPoints.take nd.nBoundaryPoints).count k)) fun _ => True := by
  refine wp_forN (n := nd.nBoundaryPoints) (fun i s => SumAt c d pt k (m + (nd.boundaryPoints.take i).count k) s) (by simpa using H) fun i hi s' H' => ?_
  have hle : (nd.boundaryPoints.take i).count k ≤ (nd.boundaryPoints.take nd.nBoundaryPoints).count k :=
    (List.take_sublist_take_left hi.le).count_le k
  cases hj : nd.boundaryPoints[i]? with
  | none =>
    unfold normalPoint
    obtain ⟨P, st, wt⟩ := s'
    rw [wp_bind, rd_ub (List.getElem?_eq_none_iff.1 hj)]
    trivial
  | some k' =>
    have ht : nd.boundaryPoints.take (i + 1) = nd.boundaryPoints.take i ++ [k'] := by
      rw [List.take_add_one, hj]; rfl
    rw [ht, List.count_append]
    by_cases hk : k' = k
    · subst hk
      have hmem : k' ∈ nd.boundaryPoints.take nd.nBoundaryPoints := by
        rw [List.mem_take_iff_getElem]
        obtain ⟨h1, h2⟩ := List.getElem?_eq_some_iff.1 hj
        exact ⟨i, by omega, h2⟩
      simpa [Nat.add_assoc] using same_at H' hj (by omega) (hu hmem) hx hy
    · rw [List.count_eq_zero_of_not_mem (l := [k']) (by simpa using Ne.symm hk)]
      exact other_at H' hj hk

/-- One node of the narrow band. -/
theorem node_at {L : LevelSet R.Num} (C : Core w h L) (hfit : (w + 1) * (h + 1) < 2 ^ 31) {pt : BoundaryPoint R.Num} (hp : Within w h pt) {k m i n : Nat}
    {s : List (BoundaryPoint R.Num) × List Bool × List R.Num} (H : SumAt c d pt k m s) (hi : L.narrowBand[i]? = some n) (hn : n < L.mesh.nNodes)
    (hm : m + (pointsAt L.mesh n).count k ≤ 2 ^ 20)
    (hg : ∀ x y, x ≤ w → y ≤ h → n = nodeNo w x y → k ∈ pointsAt L.mesh n → InCone c d (nodalGradient w h (lay w L.signedDistance) (x, y))) :
    wp (normalNode L i s) (SumAt c d pt k (m + (pointsAt L.mesh n).count k)) fun _ => True := by
  have G := C.grid
  obtain ⟨x, y, hx, hy, rfl⟩ := G.node_index hn
  obtain ⟨nd, hnd⟩ := G.node_exists hx hy
  have hw : w < 2 ^ 31 := by nlinarith
  have hh : h < 2 ^ 31 := by nlinarith
  have hpa : pointsAt L.mesh (nodeNo w x y) = nd.boundaryPoints.take nd.nBoundaryPoints := by unfold pointsAt; rw [hnd]
  rw [hpa] at hm hg ⊢
  have c1 : nd.coord.x.val = x := by
    rw [G.coord x y _ hx hy hnd]
    exact val_nat (by omega)
  have c2 : nd.coord.y.val = y := by
    rw [G.coord x y _ hx hy hnd]
    exact val_nat (by omega)
  unfold normalNode
  rw [wp_bind, rd_some hi, wp_ok, wp_bind, rd_some hnd, wp_ok]
  by_cases h0 : 0 < nd.nBoundaryPoints
  · rw [if_pos h0]
    dsimp only
    have f1 : floor nd.coord.x = x := by
      show ⌊nd.coord.x.val⌋₊ = x
      rw [c1]; exact Nat.floor_natCast x
    have f2 : floor nd.coord.y = y := by
      show ⌊nd.coord.y.val⌋₊ = y
      rw [c2]; exact Nat.floor_natCast y
    rw [f1, f2, G.width, G.height]
    obtain ⟨X, e1, n1⟩ := lineDiff_near (G := fun k => LevelSet.sdAt L k y) (g := fun k => phi w L k y) G.w_pos (by omega)
      (fun k hk => sdAt_eq C.toWF hk hy) hx
    obtain ⟨Y, e2, n2⟩ := lineDiff_near (G := fun k => LevelSet.sdAt L x k) (g := fun k => phi w L x k) G.h_pos (by omega)
      (fun k hk => sdAt_eq C.toWF hx hk) hy
    rw [wp_bind, e1, wp_ok, wp_bind, e2, wp_ok]
    have hw' : (w : ℝ) ≤ 2 ^ 31 := by exact_mod_cast hw.le
    have hh' : (h : ℝ) ≤ 2 ^ 31 := by exact_mod_cast hh.le
    have hx' : (x : ℝ) ≤ w := by exact_mod_cast hx
    have hy' : (y : ℝ) ≤ h := by exact_mod_cast hy
    have hx0 : (0 : ℝ) ≤ x := Nat.cast_nonneg x
    have hy0 : (0 : ℝ) ≤ y := Nat.cast_nonneg y
    obtain ⟨⟨p1, p2⟩, p3, p4⟩ := hp
    refine points_at H hm (fun hk => dir_near (hg x y hx hy rfl hk) n1 n2) ?_ ?_
    · rw [c1, abs_le]; constructor <;> linarith
    · rw [c2, abs_le]; constructor <;> linarith
  · rw [if_neg h0, wp_pure]
    have : nd.nBoundaryPoints = 0 := by omega
    rw [this]
    simpa using H

/-- All nodes of the narrow band. -/
theorem band_at {L : LevelSet R.Num} (C : Core w h L) (hfit : (w + 1) * (h + 1) < 2 ^ 31) {pt : BoundaryPoint R.Num} (hp : Within w h pt) {k : Nat}
    {s : List (BoundaryPoint R.Num) × List Bool × List R.Num} (H : SumAt c d pt k 0 s) (hm : recorded L k ≤ 2 ^ 20)
    (hg : ∀ x y, x ≤ w → y ≤ h → nodeNo w x y ∈ L.band → k ∈ pointsAt L.mesh (nodeNo w x y) →
      InCone c d (nodalGradient w h (lay w L.signedDistance) (x, y))) :
    wp (forN L.nNarrowBand s (normalNode L)) (SumAt c d pt k (recorded L k)) fun _ => True := by
  have hc := C.band_count
  refine wp_forN (n := L.nNarrowBand)
    (fun i s => SumAt c d pt k ((L.narrowBand.take i).map fun n => (pointsAt L.mesh n).count k).sum s) (by simpa using H) fun i hi s' H' => ?_
  have hl : i < L.narrowBand.length := by omega
  have hgi : L.narrowBand[i]? = some L.narrowBand[i] := List.getElem?_eq_getElem hl
  have hmem : L.narrowBand[i] ∈ L.band := by
    unfold LevelSet.band
    refine List.mem_of_getElem? (i := i) ?_
    rw [List.getElem?_take, if_pos hi, hgi]
  have ht : ((L.narrowBand.take (i + 1)).map fun n => (pointsAt L.mesh n).count k).sum =
      ((L.narrowBand.take i).map fun n => (pointsAt L.mesh n).count k).sum + (pointsAt L.mesh L.narrowBand[i]).count k := by
    rw [List.take_add_one, hgi, List.map_append, List.sum_append]
    simp
  have hle : ((L.narrowBand.take (i + 1)).map fun n => (pointsAt L.mesh n).count k).sum ≤ recorded L k :=
    ((List.take_sublist_take_left (l := L.narrowBand) (show i + 1 ≤ L.nNarrowBand by omega)).map _).sum_le_sum fun _ _ => Nat.zero_le _
  rw [ht] at hle ⊢
  exact node_at C hfit hp H' hgi (C.band_free _ hmem).1 (hle.trans hm) fun x y hx hy e hk => hg x y hx hy (e ▸ hmem) (e ▸ hk)

/-- The whole function, at one point. -/
theorem normals_at {L : LevelSet R.Num} {b b' : Boundary R.Num} (C : Core w h L) (hfit : (w + 1) * (h + 1) < 2 ^ 31) (hb : b.nPoints = b.points.length)
    (e : computeNormalVectors b L = .ok b') {k : Nat} {pt : BoundaryPoint R.Num} (hk : b.points[k]? = some pt) (hp : Within w h pt)
    (hd : d.x ^ 2 + d.y ^ 2 = 1) (hc1 : c ≤ 1) (hm : recorded L k ≤ 2 ^ 20)
    (hg : ∀ x y, x ≤ w → y ≤ h → nodeNo w x y ∈ L.band → k ∈ pointsAt L.mesh (nodeNo w x y) →
      InCone c d (nodalGradient w h (lay w L.signedDistance) (x, y))) :
    ∃ N W, Mix c d (recorded L k) N W ∧ b'.points[k]? = some (unitNormal W { pt with normal := N }) := by
  have hkl := (List.getElem?_eq_some_iff.1 hk).1
  obtain ⟨v1, e1, l1, h1⟩ := modAll b.points (fun i l => modAt l i fun p => pure { p with normal := (⟨FP.nat 0, FP.nat 0⟩ : Coord R.Num) })
    (fun _ p => { p with normal := ⟨FP.nat 0, FP.nat 0⟩ }) fun i v a hi hl ha => modAt_ok ha rfl
  have H0 : SumAt c d pt k 0 (v1, List.replicate b.nPoints false, List.replicate b.nPoints (FP.nat 0)) :=
    ⟨_, false, FP.nat 0, h1 k pt hk, by rw [List.getElem?_replicate, if_pos (by omega)], by rw [List.getElem?_replicate, if_pos (by omega)],
      by simp, Mix.zero hd hc1⟩
  have H := band_at C hfit hp H0 hm hg
  unfold computeNormalVectors at e
  rw [hb] at e H
  rw [e1] at e
  simp only [bind, Except.bind] at e
  cases e2 : forN L.nNarrowBand (v1, List.replicate b.points.length false, List.replicate b.points.length (FP.nat 0)) (normalNode L) with
  | error x => rw [e2] at e; cases e
  | ok s =>
    rw [e2] at e H
    obtain ⟨N, f, W, g1, g2, g3, -, g5⟩ := H
    obtain ⟨v2, st, wt⟩ := s
    dsimp only at e g1 g2 g3
    refine ⟨N, W, g5, ?_⟩
    have key := wp_forN (E := fun _ => True) (n := b.points.length) (s := v2) (f := fun i l => do
        let q ← rd wt i
        modAt l i fun p => pure (unitNormal q p))
      (fun i v => v[k]? = some (if k < i then unitNormal W { pt with normal := N } else { pt with normal := N })) (by simpa using g1)
      (fun i hi v hv => ?_)
    · simp only [bind, Except.bind] at key
      split at e
      · cases e
      · rename_i v3 e3
        rw [e3, wp_ok, if_pos hkl] at key
        cases e
        exact key
    · refine (wp_bind _ _ _ _).2 (wp_rd_free fun q hq => ?_)
      unfold modAt
      refine (wp_bind _ _ _ _).2 (wp_rd_free fun a ha => ?_)
      rw [wp_bind, wp_pure]
      refine wp_wr_free fun hiv => ?_
      by_cases hki : k = i
      · subst hki
        rw [if_neg (by omega)] at hv
        rw [hv] at ha
        rw [g3] at hq
        cases ha
        cases hq
        rw [List.getElem?_set_self hiv, if_pos (by omega)]
      · rw [List.getElem?_set_ne (Ne.symm hki), hv]
        congr 1
        exact if_congr (by omega) rfl rfl

end Boundary

end Slsm
