import Verif.Proof.LSGrad
import Verif.Proof.RoundBase

/-! # The derivative estimates in rounded arithmetic -/

namespace Slsm

open FP Rounding

namespace Rounding

variable {R : Rounding}

theorem abs_rnd (x : ℝ) : |R.rnd x| ≤ 2 * |x| + 1 := by
  have h := err_le (R := R) x
  have h1 : |R.rnd x| ≤ |R.rnd x - x| + |x| := by
    have := abs_add_le (R.rnd x - x) x
    rwa [sub_add_cancel] at this
  have : |x| / 2 ^ 52 ≤ |x| := div_le_self (abs_nonneg x) (by norm_num)
  have : (1 : ℝ) / 2 ^ 80 ≤ 1 := by norm_num
  linarith

/-- Rounding a number near `t`. -/
theorem rnd_near {y t e m : ℝ} (h : |y - t| ≤ e) (hm : |t| ≤ m) : |R.rnd y - t| ≤ e + ((m + e) / 2 ^ 52 + 1 / 2 ^ 80) := by
  have h1 := err_le (R := R) y
  have h2 : |y| ≤ m + e := by
    have := abs_add_le (y - t) t
    rw [sub_add_cancel] at this
    linarith
  have h3 : |y| / 2 ^ 52 ≤ (m + e) / 2 ^ 52 := by gcongr
  have := abs_add_le (R.rnd y - y) (y - t)
  rw [sub_add_sub_cancel] at this
  linarith

theorem near_add {a b s t e f : ℝ} (h1 : |a - s| ≤ e) (h2 : |b - t| ≤ f) : |(a + b) - (s + t)| ≤ e + f := by
  have := abs_add_le (a - s) (b - t)
  rw [show a - s + (b - t) = a + b - (s + t) by ring] at this
  linarith

theorem near_sub {a b s t e f : ℝ} (h1 : |a - s| ≤ e) (h2 : |b - t| ≤ f) : |(a - b) - (s - t)| ≤ e + f := by
  have := abs_sub (a - s) (b - t)
  rw [show a - s - (b - t) = a - b - (s - t) by ring] at this
  linarith

/-- Square terms of the smoothness. -/
theorem square_bounds {k A : R.Num} (hk : 0 ≤ k.val ∧ k.val ≤ 2) (hA : |A.val| ≤ 2 ^ 26) :
    0 ≤ (k *. A *. A).val ∧ (k *. A *. A).val ≤ 2 ^ 57 := by
  have hkA : |k.val * A.val| ≤ 2 ^ 27 := by
    rw [abs_mul, abs_of_nonneg hk.1]
    nlinarith [abs_nonneg A.val]
  have h1 := abs_rnd (R := R) (k.val * A.val)
  have h2 : |R.rnd (k.val * A.val)| ≤ 2 ^ 29 := by linarith
  have h0 : 0 ≤ R.rnd (k.val * A.val) * A.val := by
    rcases le_total 0 A.val with h | h
    · exact mul_nonneg (rnd_nonneg (mul_nonneg hk.1 h)) h
    · exact mul_nonneg_of_nonpos_of_nonpos (rnd_nonpos (mul_nonpos_of_nonneg_of_nonpos hk.1 h)) h
  refine ⟨rnd_nonneg h0, ?_⟩
  have h3 := abs_rnd (R := R) (R.rnd (k.val * A.val) * A.val)
  rw [abs_mul] at h3
  have h4 : |R.rnd (k.val * A.val)| * |A.val| ≤ 2 ^ 29 * 2 ^ 26 := by
    apply mul_le_mul h2 hA (abs_nonneg _) (by norm_num)
  have h5 := le_abs_self (R.rnd (R.rnd (k.val * A.val) * A.val))
  show R.rnd (R.rnd (k.val * A.val) * A.val) ≤ _
  linarith

theorem smooth_bounds {k q A B : R.Num} (hk : 0 ≤ k.val ∧ k.val ≤ 2) (hq : 0 ≤ q.val ∧ q.val ≤ 2) (hA : |A.val| ≤ 2 ^ 26) (hB : |B.val| ≤ 2 ^ 26) :
    0 ≤ (k *. A *. A +. q *. B *. B).val ∧ (k *. A *. A +. q *. B *. B).val ≤ 2 ^ 60 := by
  obtain ⟨a, b⟩ := square_bounds hk hA
  obtain ⟨c, d⟩ := square_bounds hq hB
  refine ⟨rnd_nonneg (add_nonneg a c), ?_⟩
  have h3 := abs_rnd (R := R) ((k *. A *. A).val + (q *. B *. B).val)
  rw [abs_of_nonneg (add_nonneg a c)] at h3
  have := le_abs_self (R.rnd ((k *. A *. A).val + (q *. B *. B).val))
  show R.rnd ((k *. A *. A).val + (q *. B *. B).val) ≤ _
  linarith

/-- A rounded positive number, not too small. -/
theorem rnd_pos_bounds {x : ℝ} (h : 1 / 2 ^ 1000 ≤ x) : x * (1 - 1 / 2 ^ 51) ≤ R.rnd x ∧ R.rnd x ≤ x * (1 + 1 / 2 ^ 51) := by
  have h0 : 0 < x := lt_of_lt_of_le (by positivity) h
  have he := R.err x
  rw [abs_of_pos h0] at he
  have h1 : (1 : ℝ) / 2 ^ 1074 ≤ x / 2 ^ 52 := by
    calc (1 : ℝ) / 2 ^ 1074 = (1 / 2 ^ 1000) / 2 ^ 74 := by rw [div_div, ← pow_add]
      _ ≤ x / 2 ^ 74 := by gcongr
      _ ≤ x / 2 ^ 52 := by gcongr <;> norm_num
  rw [abs_le] at he
  constructor <;> linarith [he.1, he.2]

theorem rnd_within {x : ℝ} (h : 1 / 2 ^ 1000 ≤ x) : x / 2 ≤ R.rnd x ∧ R.rnd x ≤ 2 * x := by
  obtain ⟨a, b⟩ := rnd_pos_bounds (R := R) h
  have h0 : 0 < x := lt_of_lt_of_le (by positivity) h
  constructor <;> nlinarith

theorem small_pow {x : ℝ} {n : ℕ} (hn : n ≤ 1000) (h : 1 / 2 ^ n ≤ x) : 1 / 2 ^ 1000 ≤ x :=
  le_trans (one_div_le_one_div_of_le (by positivity) (pow_le_pow_right₀ (by norm_num) hn)) h

/-- The unnormalised weights. -/
theorem alpha_bounds {g s eps : R.Num} (hg : 1 / 2 ^ 5 ≤ g.val ∧ g.val ≤ 1) (hs : 0 ≤ s.val ∧ s.val ≤ 2 ^ 60)
    (he : 1 / 2 ^ 20 ≤ eps.val ∧ eps.val ≤ 1) :
    1 / 2 ^ 140 ≤ (g /. ((s +. eps) *. (s +. eps))).val ∧ (g /. ((s +. eps) *. (s +. eps))).val ≤ 2 ^ 45 := by
  have h1 := rnd_within (R := R) (x := s.val + eps.val) (small_pow (n := 20) (by norm_num) (by linarith [he.1]))
  set p := R.rnd (s.val + eps.val) with hp
  have p1 : 1 / 2 ^ 21 ≤ p := by linarith [h1.1, he.1, hs.1, show (1:ℝ) / 2 ^ 21 = (1 / 2 ^ 20) / 2 by norm_num]
  have p2 : p ≤ 2 ^ 62 := by linarith [h1.2, he.2, hs.2]
  have p0 : 0 < p := lt_of_lt_of_le (by positivity) p1
  have q1 : 1 / 2 ^ 42 ≤ p * p := by
    calc (1:ℝ) / 2 ^ 42 = 1 / 2 ^ 21 * (1 / 2 ^ 21) := by norm_num
      _ ≤ p * p := mul_le_mul p1 p1 (by positivity) p0.le
  have q2 : p * p ≤ 2 ^ 124 := by
    calc p * p ≤ 2 ^ 62 * 2 ^ 62 := mul_le_mul p2 p2 p0.le (by positivity)
      _ = 2 ^ 124 := by norm_num
  have h2 := rnd_within (R := R) (x := p * p) (small_pow (n := 42) (by norm_num) q1)
  set q := R.rnd (p * p) with hq
  have r1 : 1 / 2 ^ 43 ≤ q := by linarith [h2.1, show (1:ℝ) / 2 ^ 43 = (1 / 2 ^ 42) / 2 by norm_num]
  have r2 : q ≤ 2 ^ 125 := by linarith [h2.2]
  have q0 : 0 < q := lt_of_lt_of_le (by positivity) r1
  have t1 : 1 / 2 ^ 130 ≤ g.val / q := by
    calc (1:ℝ) / 2 ^ 130 = (1 / 2 ^ 5) / 2 ^ 125 := by norm_num
      _ ≤ g.val / q := div_le_div₀ (by linarith [hg.1, show (0:ℝ) < 1 / 2 ^ 5 by positivity]) hg.1 q0 r2
  have t2 : g.val / q ≤ 2 ^ 43 := by
    rw [div_le_iff₀ q0]
    calc g.val ≤ 1 := hg.2
      _ = 2 ^ 43 * (1 / 2 ^ 43) := by norm_num
      _ ≤ 2 ^ 43 * q := by gcongr
  have h3 := rnd_within (R := R) (x := g.val / q) (small_pow (n := 130) (by norm_num) t1)
  show 1 / 2 ^ 140 ≤ R.rnd (g.val / q) ∧ R.rnd (g.val / q) ≤ 2 ^ 45
  constructor
  · have : (1:ℝ) / 2 ^ 140 ≤ (1 / 2 ^ 130) / 2 := by norm_num
    linarith [h3.1]
  · linarith [h3.2]

/-- The weights: not negative, not above two, and their sum is one up to rounding. -/
theorem weights {a b c : R.Num} (ha : 1 / 2 ^ 140 ≤ a.val ∧ a.val ≤ 2 ^ 45) (hb : 1 / 2 ^ 140 ≤ b.val ∧ b.val ≤ 2 ^ 45)
    (hc : 1 / 2 ^ 140 ≤ c.val ∧ c.val ≤ 2 ^ 45) :
    0 ≤ (a /. (a +. b +. c)).val ∧ 0 ≤ (b /. (a +. b +. c)).val ∧ 0 ≤ (c /. (a +. b +. c)).val ∧
      |(a /. (a +. b +. c)).val + (b /. (a +. b +. c)).val + (c /. (a +. b +. c)).val - 1| ≤ 1 / 2 ^ 48 := by
  have hz : (0:ℝ) < 1 / 2 ^ 140 := by positivity
  have a0 : 0 < a.val := lt_of_lt_of_le hz ha.1
  have b0 : 0 < b.val := lt_of_lt_of_le hz hb.1
  have c0 : 0 < c.val := lt_of_lt_of_le hz hc.1
  have h1 := rnd_pos_bounds (R := R) (x := a.val + b.val) (small_pow (n := 140) (by norm_num) (by linarith [ha.1]))
  set p := R.rnd (a.val + b.val) with hp
  have p0 : 0 < p := by
    have : 0 < (a.val + b.val) * (1 - 1 / 2 ^ 51) := mul_pos (by linarith) (by norm_num)
    linarith [h1.1]
  have h2 := rnd_pos_bounds (R := R) (x := p + c.val) (small_pow (n := 140) (by norm_num) (by linarith [hc.1]))
  set T := R.rnd (p + c.val) with hT
  have T0 : 0 < T := by
    have : 0 < (p + c.val) * (1 - 1 / 2 ^ 51) := mul_pos (by linarith) (by norm_num)
    linarith [h2.1]
  have T1 : (a.val + b.val + c.val) * (1 - 1 / 2 ^ 50) ≤ T := by
    nlinarith [h1.1, h2.1]
  have T2 : T ≤ (a.val + b.val + c.val) * (1 + 1 / 2 ^ 49) := by
    nlinarith [h1.2, h2.2]
  have T3 : T ≤ 2 ^ 48 := by
    have : (1:ℝ) + 1 / 2 ^ 49 ≤ 2 := by norm_num
    nlinarith [ha.2, hb.2, hc.2]
  have hw : ∀ t : ℝ, 1 / 2 ^ 140 ≤ t → 1 / 2 ^ 1000 ≤ t / T := by
    intro t ht
    refine small_pow (n := 188) (by norm_num) ?_
    calc (1:ℝ) / 2 ^ 188 = 1 / 2 ^ 140 / 2 ^ 48 := by norm_num
      _ ≤ t / T := div_le_div₀ (by linarith) ht T0 T3
  obtain ⟨x1, x2⟩ := rnd_pos_bounds (R := R) (hw _ ha.1)
  obtain ⟨y1, y2⟩ := rnd_pos_bounds (R := R) (hw _ hb.1)
  obtain ⟨z1, z2⟩ := rnd_pos_bounds (R := R) (hw _ hc.1)
  have n : ∀ t : ℝ, 0 < t → 0 ≤ R.rnd (t / T) := fun t ht => rnd_nonneg (div_nonneg ht.le T0.le)
  refine ⟨n _ a0, n _ b0, n _ c0, ?_⟩
  show |R.rnd (a.val / T) + R.rnd (b.val / T) + R.rnd (c.val / T) - 1| ≤ _
  have e : a.val / T + b.val / T + c.val / T = (a.val + b.val + c.val) / T := by ring
  have s1 : (a.val + b.val + c.val) / T ≤ 1 + 1 / 2 ^ 49 := by
    rw [div_le_iff₀ T0]
    have : (a.val + b.val + c.val) ≤ (1 + 1 / 2 ^ 49) * ((a.val + b.val + c.val) * (1 - 1 / 2 ^ 50)) := by nlinarith
    have := mul_le_mul_of_nonneg_left T1 (show (0:ℝ) ≤ 1 + 1 / 2 ^ 49 by norm_num)
    linarith
  have s2 : 1 - 1 / 2 ^ 49 ≤ (a.val + b.val + c.val) / T := by
    rw [le_div_iff₀ T0]
    have := mul_le_mul_of_nonneg_left T2 (show (0:ℝ) ≤ 1 - 1 / 2 ^ 49 by norm_num)
    nlinarith
  rw [abs_le]
  have hu : (a.val / T + b.val / T + c.val / T) * (1 + 1 / 2 ^ 51) ≤ (1 + 1 / 2 ^ 49) * (1 + 1 / 2 ^ 51) := by
    rw [e]; gcongr
  have hl : (1 - 1 / 2 ^ 49) * (1 - 1 / 2 ^ 51) ≤ (a.val / T + b.val / T + c.val / T) * (1 - 1 / 2 ^ 51) := by
    rw [e]
    exact mul_le_mul_of_nonneg_right s2 (by norm_num)
  constructor
  · norm_num at hl x1 y1 z1 ⊢; linarith
  · norm_num at hu x2 y2 z2 ⊢; linarith

/-- A multiple. -/
theorem near_mul {n : ℕ} {v : R.Num} {a η m : ℝ} (hn : n ≤ 11) (hv : |v.val - a| ≤ η) (ha : |a| ≤ m) (hm : 1 ≤ m) (hη : η ≤ m) :
    |(FP.nat n *. v).val - n * a| ≤ n * η + (2 * n + 1) * m / 2 ^ 52 := by
  have e : (FP.nat n : R.Num).val = n := val_nat (by omega)
  show |R.rnd ((FP.nat n : R.Num).val * v.val) - _| ≤ _
  rw [e]
  have h1 : |(n : ℝ) * v.val - n * a| ≤ n * η := by
    rw [← mul_sub, abs_mul, abs_of_nonneg (Nat.cast_nonneg n)]; gcongr
  have h2 : |(n : ℝ) * a| ≤ n * m := by
    rw [abs_mul, abs_of_nonneg (Nat.cast_nonneg n)]; gcongr
  refine (rnd_near (R := R) h1 h2).trans ?_
  have h3 : (n : ℝ) * η ≤ n * m := by gcongr
  have h4 : ((n : ℝ) * m + n * η) / 2 ^ 52 ≤ (n * m + n * m) / 2 ^ 52 := by gcongr
  have h5 : (1 : ℝ) / 2 ^ 80 ≤ m / 2 ^ 52 := by
    calc (1 : ℝ) / 2 ^ 80 ≤ 1 / 2 ^ 52 := by norm_num
      _ ≤ m / 2 ^ 52 := by gcongr
  have h6 : ((2 : ℝ) * n + 1) * m / 2 ^ 52 = (n * m + n * m) / 2 ^ 52 + m / 2 ^ 52 := by ring
  linarith

/-- Sums and differences of numbers of moderate size. -/
theorem near_sum {x y : R.Num} {s t e f m : ℝ} (hx : |x.val - s| ≤ e) (hy : |y.val - t| ≤ f) (hm : 1 ≤ m) (hs : |s + t| ≤ 30 * m) (hef : e + f ≤ 60 * m) :
    |(x +. y).val - (s + t)| ≤ e + f + 91 * m / 2 ^ 52 := by
  refine (rnd_near (R := R) (near_add hx hy) hs).trans ?_
  have h4 : (30 * m + (e + f)) / 2 ^ 52 ≤ (90 * m) / 2 ^ 52 := by gcongr; linarith
  have h5 : (1 : ℝ) / 2 ^ 80 ≤ m / 2 ^ 52 := by
    calc (1 : ℝ) / 2 ^ 80 ≤ 1 / 2 ^ 52 := by norm_num
      _ ≤ m / 2 ^ 52 := by gcongr
  have : 91 * m / 2 ^ 52 = 90 * m / 2 ^ 52 + m / 2 ^ 52 := by ring
  linarith

theorem near_diff {x y : R.Num} {s t e f m : ℝ} (hx : |x.val - s| ≤ e) (hy : |y.val - t| ≤ f) (hm : 1 ≤ m) (hs : |s - t| ≤ 30 * m) (hef : e + f ≤ 60 * m) :
    |(x -. y).val - (s - t)| ≤ e + f + 91 * m / 2 ^ 52 := by
  refine (rnd_near (R := R) (near_sub hx hy) hs).trans ?_
  have h4 : (30 * m + (e + f)) / 2 ^ 52 ≤ (90 * m) / 2 ^ 52 := by gcongr; linarith
  have h5 : (1 : ℝ) / 2 ^ 80 ≤ m / 2 ^ 52 := by
    calc (1 : ℝ) / 2 ^ 80 ≤ 1 / 2 ^ 52 := by norm_num
      _ ≤ m / 2 ^ 52 := by gcongr
  have : 91 * m / 2 ^ 52 = 90 * m / 2 ^ 52 + m / 2 ^ 52 := by ring
  linarith

theorem abs_mult {k a m : ℝ} (ha : |a| ≤ m) : |k * a| ≤ |k| * m := by
  rw [abs_mul]; gcongr

theorem abs_of_near {x t e m k : ℝ} (h : |x - t| ≤ e) (ht : |t| ≤ m) (hk : m + e ≤ k) : |x| ≤ k := by
  have := abs_add_le (x - t) t
  rw [sub_add_cancel] at this
  linarith

/-- Three weighted terms near `t`. -/
theorem near_mix {w1 w2 w3 B1 B2 B3 : R.Num} {t e m : ℝ} (h1 : 0 ≤ w1.val) (h2 : 0 ≤ w2.val) (h3 : 0 ≤ w3.val)
    (hw : |w1.val + w2.val + w3.val - 1| ≤ 1 / 2 ^ 48) (b1 : |B1.val - t| ≤ e) (b2 : |B2.val - t| ≤ e) (b3 : |B3.val - t| ≤ e)
    (ht : |t| ≤ 6 * m) (hm : 1 ≤ m) (he : e ≤ 24 * m) :
    |(w1 *. B1 +. w2 *. B2 +. w3 *. B3).val - t| ≤ e + m / 2 ^ 41 := by
  have hm0 : 0 < m := by linarith
  have he0 : 0 ≤ e := (abs_nonneg _).trans b1
  have ws := abs_le.1 hw
  have ws2 : w1.val + w2.val + w3.val ≤ 1 + 1 / 2 ^ 48 := by linarith [ws.2]
  have c : ∀ w B : R.Num, 0 ≤ w.val → w.val ≤ 2 → |B.val - t| ≤ e → |(w *. B).val - w.val * B.val| ≤ 61 * m / 2 ^ 52 ∧ |w.val * B.val| ≤ 60 * m := by
    intro w B hw0 hw2 hB
    have k1 : |B.val| ≤ 30 * m := abs_of_near hB ht (by linarith)
    have k2 : |w.val * B.val| ≤ 60 * m := by
      rw [abs_mul, abs_of_nonneg hw0]
      calc w.val * |B.val| ≤ 2 * (30 * m) := by gcongr
        _ = 60 * m := by ring
    refine ⟨?_, k2⟩
    refine (err_le (R := R) _).trans ?_
    have h4 : |w.val * B.val| / 2 ^ 52 ≤ (60 * m) / 2 ^ 52 := by gcongr
    have h5 : (1 : ℝ) / 2 ^ 80 ≤ m / 2 ^ 52 := by
      calc (1 : ℝ) / 2 ^ 80 ≤ 1 / 2 ^ 52 := by norm_num
        _ ≤ m / 2 ^ 52 := by gcongr
    have : 61 * m / 2 ^ 52 = 60 * m / 2 ^ 52 + m / 2 ^ 52 := by ring
    linarith
  have two : (1:ℝ) + 1 / 2 ^ 48 ≤ 2 := by norm_num
  obtain ⟨p1, q1⟩ := c w1 B1 h1 (by linarith) b1
  obtain ⟨p2, q2⟩ := c w2 B2 h2 (by linarith) b2
  obtain ⟨p3, q3⟩ := c w3 B3 h3 (by linarith) b3
  have s1 := rnd_near (R := R) (near_add p1 p2) (m := 120 * m) ((abs_add_le _ _).trans (by linarith))
  have s2 := rnd_near (R := R) (near_add s1 p3) (m := 180 * m) ((abs_add_le _ _).trans (by linarith [abs_add_le (w1.val * B1.val) (w2.val * B2.val)]))
  have hmix : |w1.val * B1.val + w2.val * B2.val + w3.val * B3.val - t| ≤ (1 + 1 / 2 ^ 48) * e + 1 / 2 ^ 48 * (6 * m) := by
    have e1 : w1.val * B1.val + w2.val * B2.val + w3.val * B3.val - t =
      (w1.val * (B1.val - t) + w2.val * (B2.val - t) + w3.val * (B3.val - t)) + (w1.val + w2.val + w3.val - 1) * t := by ring
    have k : ∀ w B : R.Num, 0 ≤ w.val → |B.val - t| ≤ e → |w.val * (B.val - t)| ≤ w.val * e := by
      intro w B hw0 hB
      rw [abs_mul, abs_of_nonneg hw0]; gcongr
    have k1 := k w1 B1 h1 b1
    have k2 := k w2 B2 h2 b2
    have k3 := k w3 B3 h3 b3
    have k4 : |(w1.val + w2.val + w3.val - 1) * t| ≤ 1 / 2 ^ 48 * (6 * m) := by
      rw [abs_mul]; exact mul_le_mul hw ht (abs_nonneg _) (by positivity)
    have k5 : w1.val * e + w2.val * e + w3.val * e ≤ (1 + 1 / 2 ^ 48) * e := by nlinarith
    rw [e1]
    refine (abs_add_le _ _).trans ?_
    have := abs_add_le (w1.val * (B1.val - t) + w2.val * (B2.val - t)) (w3.val * (B3.val - t))
    have := abs_add_le (w1.val * (B1.val - t)) (w2.val * (B2.val - t))
    linarith
  show |R.rnd (R.rnd ((w1 *. B1).val + (w2 *. B2).val) + (w3 *. B3).val) - t| ≤ _
  have := abs_add_le (R.rnd (R.rnd ((w1 *. B1).val + (w2 *. B2).val) + (w3 *. B3).val) - (w1.val * B1.val + w2.val * B2.val + w3.val * B3.val))
    (w1.val * B1.val + w2.val * B2.val + w3.val * B3.val - t)
  rw [sub_add_sub_cancel] at this
  norm_num at this s1 s2 hmix ⊢
  linarith

/-- **The derivative estimate in rounded arithmetic**, where the five differences are near `a`. -/
theorem gradHJWENO_near {v1 v2 v3 v4 v5 : R.Num} {a η : ℝ} (ha : |a| ≤ 2 ^ 20) (hη : η ≤ 1) (h1 : |v1.val - a| ≤ η) (h2 : |v2.val - a| ≤ η)
    (h3 : |v3.val - a| ≤ η) (h4 : |v4.val - a| ≤ η) (h5 : |v5.val - a| ≤ η) :
    |(LevelSet.gradHJWENO v1 v2 v3 v4 v5).val - a| ≤ 4 * η + (|a| + 1) / 2 ^ 42 := by
  obtain ⟨m, hm⟩ : ∃ m, m = |a| + 1 := ⟨_, rfl⟩
  have m1 : 1 ≤ m := by rw [hm]; linarith [abs_nonneg a]
  have m2 : m ≤ 2 ^ 21 := by rw [hm]; linarith
  have m0 : 0 < m := by linarith
  have ham : |a| ≤ m := by rw [hm]; linarith
  have hηm : η ≤ m := by linarith
  have η0 : 0 ≤ η := (abs_nonneg _).trans h1
  have u : m / 2 ^ 52 ≤ m := div_le_self m0.le (by norm_num)
  rw [← hm]
  have M : ∀ (n : ℕ) (v : R.Num), n ≤ 11 → |v.val - a| ≤ η → |(FP.nat n *. v).val - n * a| ≤ n * η + (2 * n + 1) * m / 2 ^ 52 :=
    fun n v hn hv => near_mul hn hv ham m1 hηm
  have A : ∀ k : ℝ, |k| ≤ 24 → |k * a| ≤ 30 * m := fun k hk => (abs_mult ham).trans (by nlinarith [abs_nonneg k])
  -- the second differences
  have D1 : ∀ x y z : R.Num, |x.val - a| ≤ η → |y.val - a| ≤ η → |z.val - a| ≤ η → |(x -. FP.nat 2 *. y +. z).val| ≤ 2 ^ 26 := by
    intro x y z hx hy hz
    have k1 := near_diff hx (M 2 y (by norm_num) hy) m1 (by rw [← one_mul a, ← mul_assoc, ← sub_mul]; exact A _ (by norm_num)) (by push_cast; linarith)
    have k2 := near_sum k1 hz m1 (by
      rw [show a - (2:ℕ) * a + a = (0:ℝ) * a by push_cast; ring]; exact A _ (by norm_num)) (by push_cast; linarith)
    refine abs_of_near k2 (m := 30 * m) (by rw [show a - (2:ℕ) * a + a = (0:ℝ) * a by push_cast; ring]; exact A _ (by norm_num)) ?_
    push_cast
    linarith
  have D2 : ∀ x y z : R.Num, |x.val - a| ≤ η → |y.val - a| ≤ η → |z.val - a| ≤ η → |(x -. FP.nat 4 *. y +. FP.nat 3 *. z).val| ≤ 2 ^ 26 := by
    intro x y z hx hy hz
    have k1 := near_diff hx (M 4 y (by norm_num) hy) m1 (by rw [← one_mul a, ← mul_assoc, ← sub_mul]; exact A _ (by norm_num)) (by push_cast; linarith)
    have k2 := near_sum k1 (M 3 z (by norm_num) hz) m1 (by
      rw [show a - (4:ℕ) * a + (3:ℕ) * a = (0:ℝ) * a by push_cast; ring]; exact A _ (by norm_num)) (by push_cast; linarith)
    refine abs_of_near k2 (m := 30 * m) (by rw [show a - (4:ℕ) * a + (3:ℕ) * a = (0:ℝ) * a by push_cast; ring]; exact A _ (by norm_num)) ?_
    push_cast
    linarith
  have D3 : |(v2 -. v4).val| ≤ 2 ^ 26 := by
    have k1 := near_diff h2 h4 m1 (by rw [show a - a = (0:ℝ) * a by ring]; exact A _ (by norm_num)) (by linarith)
    refine abs_of_near k1 (m := 30 * m) (by rw [show a - a = (0:ℝ) * a by ring]; exact A _ (by norm_num)) ?_
    linarith
  have D4 : |(FP.nat 3 *. v3 -. FP.nat 4 *. v4 +. v5).val| ≤ 2 ^ 26 := by
    have k1 := near_diff (M 3 v3 (by norm_num) h3) (M 4 v4 (by norm_num) h4) m1 (by rw [← sub_mul]; exact A _ (by norm_num)) (by push_cast; linarith)
    have k2 := near_sum k1 h5 m1 (by
      rw [show (3:ℕ) * a - (4:ℕ) * a + a = (0:ℝ) * a by push_cast; ring]; exact A _ (by norm_num)) (by push_cast; linarith)
    refine abs_of_near k2 (m := 30 * m) (by rw [show (3:ℕ) * a - (4:ℕ) * a + a = (0:ℝ) * a by push_cast; ring]; exact A _ (by norm_num)) ?_
    push_cast
    linarith
  -- the three candidates
  have E1 : |(FP.nat 2 *. v1 -. FP.nat 7 *. v2 +. FP.nat 11 *. v3).val - 6 * a| ≤ 20 * η + m / 2 ^ 43 := by
    have k1 := near_diff (M 2 v1 (by norm_num) h1) (M 7 v2 (by norm_num) h2) m1 (by rw [← sub_mul]; exact A _ (by norm_num)) (by push_cast; linarith)
    have k2 := near_sum k1 (M 11 v3 (by norm_num) h3) m1 (by
      rw [show (2:ℕ) * a - (7:ℕ) * a + (11:ℕ) * a = (6:ℝ) * a by push_cast; ring]; exact A _ (by norm_num)) (by push_cast; linarith)
    rw [show (2:ℕ) * a - (7:ℕ) * a + (11:ℕ) * a = (6:ℝ) * a by push_cast; ring] at k2
    refine k2.trans ?_
    push_cast
    linarith
  have E2 : |(FP.nat 5 *. v3 -. v2 +. FP.nat 2 *. v4).val - 6 * a| ≤ 20 * η + m / 2 ^ 43 := by
    have k1 := near_diff (M 5 v3 (by norm_num) h3) h2 m1 (by rw [show (5:ℕ) * a - a = (4:ℝ) * a by push_cast; ring]; exact A _ (by norm_num)) (by push_cast; linarith)
    have k2 := near_sum k1 (M 2 v4 (by norm_num) h4) m1 (by
      rw [show (5:ℕ) * a - a + (2:ℕ) * a = (6:ℝ) * a by push_cast; ring]; exact A _ (by norm_num)) (by push_cast; linarith)
    rw [show (5:ℕ) * a - a + (2:ℕ) * a = (6:ℝ) * a by push_cast; ring] at k2
    refine k2.trans ?_
    push_cast
    linarith
  have E3 : |(FP.nat 2 *. v3 +. FP.nat 5 *. v4 -. v5).val - 6 * a| ≤ 20 * η + m / 2 ^ 43 := by
    have k1 := near_sum (M 2 v3 (by norm_num) h3) (M 5 v4 (by norm_num) h4) m1 (by rw [← add_mul]; exact A _ (by norm_num)) (by push_cast; linarith)
    have k2 := near_diff k1 h5 m1 (by
      rw [show (2:ℕ) * a + (5:ℕ) * a - a = (6:ℝ) * a by push_cast; ring]; exact A _ (by norm_num)) (by push_cast; linarith)
    rw [show (2:ℕ) * a + (5:ℕ) * a - a = (6:ℝ) * a by push_cast; ring] at k2
    refine k2.trans ?_
    push_cast
    linarith
  -- constants
  have Q : ∀ p q : ℕ, p ≤ 2 ^ 53 → q ≤ 2 ^ 53 → (FP.nat p /. FP.nat q : R.Num).val = R.rnd (p / q) := by
    intro p q hp hq
    show R.rnd ((FP.nat p : R.Num).val / (FP.nat q : R.Num).val) = _
    rw [val_nat hp, val_nat hq]
  have L : ∀ p q : ℕ, p ≤ 2 ^ 53 → q ≤ 2 ^ 53 → (1:ℝ) / 2 ^ 20 ≤ p / q → ∀ lo : ℝ, lo ≤ (p:ℝ) / q / 2 → ∀ n : ℕ, n ≤ 2 ^ 53 → (p:ℝ) / q ≤ n →
      lo ≤ (FP.nat p /. FP.nat q : R.Num).val ∧ (FP.nat p /. FP.nat q : R.Num).val ≤ n := by
    intro p q hp hq h lo hlo n hn hpq
    rw [Q p q hp hq]
    exact ⟨hlo.trans (rnd_within (small_pow (n := 20) (by norm_num) h)).1, rnd_le_nat hn hpq⟩
  have K := L 13 12 (by norm_num) (by norm_num) (by norm_num) 0 (by norm_num) 2 (by norm_num) (by norm_num)
  have K' := L 1 4 (by norm_num) (by norm_num) (by norm_num) 0 (by norm_num) 2 (by norm_num) (by norm_num)
  have g1 := L 1 10 (by norm_num) (by norm_num) (by norm_num) (1 / 2 ^ 5) (by norm_num) 1 (by norm_num) (by norm_num)
  have g2 := L 6 10 (by norm_num) (by norm_num) (by norm_num) (1 / 2 ^ 5) (by norm_num) 1 (by norm_num) (by norm_num)
  have g3 := L 3 10 (by norm_num) (by norm_num) (by norm_num) (1 / 2 ^ 5) (by norm_num) 1 (by norm_num) (by norm_num)
  rw [Nat.cast_one] at g1 g2 g3
  rw [Nat.cast_ofNat] at K K'
  have tb := R.tol_bounds
  rw [← tolNum_val] at tb
  have S1 := smooth_bounds K K' (D1 _ _ _ h1 h2 h3) (D2 _ _ _ h1 h2 h3)
  have S2 := smooth_bounds K K' (D1 _ _ _ h2 h3 h4) D3
  have S3 := smooth_bounds K K' (D1 _ _ _ h3 h4 h5) D4
  have eps : 1 / 2 ^ 20 ≤ (FP.lit 1 1000000 : R.Num).val ∧ (FP.lit 1 1000000 : R.Num).val ≤ 1 :=
    ⟨tb.1.le, tb.2.le.trans (by norm_num)⟩
  have W := weights (R := R) (alpha_bounds (g := FP.lit 1 10) g1 S1 eps) (alpha_bounds (g := FP.lit 6 10) g2 S2 eps)
    (alpha_bounds (g := FP.lit 3 10) g3 S3 eps)
  have N := near_mix W.1 W.2.1 W.2.2.1 W.2.2.2 E1 E2 E3 (m := m) (by rw [abs_mul]; norm_num; linarith) m1 (by linarith)
  unfold LevelSet.gradHJWENO
  dsimp only
  revert N
  generalize (_ +. _ +. _ : R.Num) = G
  intro N
  have r6 : |(FP.nat 1 /. FP.nat 6 : R.Num).val - 1 / 6| ≤ 1 / 2 ^ 54 := by
    rw [Q 1 6 (by norm_num) (by norm_num)]
    have := err_le (R := R) ((1:ℕ) / (6:ℕ))
    rw [abs_of_nonneg (a := ((1:ℕ):ℝ) / (6:ℕ)) (by positivity)] at this
    push_cast at this ⊢
    linarith
  have hG : |G.val| ≤ 30 * m := abs_of_near N (m := 6 * m) (by rw [abs_mul]; norm_num; linarith) (by linarith)
  have P : |G.val * (FP.nat 1 /. FP.nat 6 : R.Num).val - a| ≤ 1 / 6 * (20 * η + m / 2 ^ 43 + m / 2 ^ 41) + 30 * m * (1 / 2 ^ 54) := by
    have e : G.val * (FP.nat 1 /. FP.nat 6 : R.Num).val - a = 1 / 6 * (G.val - 6 * a) + G.val * ((FP.nat 1 /. FP.nat 6 : R.Num).val - 1 / 6) := by ring
    rw [e]
    refine (abs_add_le _ _).trans ?_
    rw [abs_mul, abs_mul, abs_of_pos (show (0:ℝ) < 1 / 6 by norm_num)]
    have := mul_le_mul hG r6 (abs_nonneg _) (by positivity)
    linarith
  have F := rnd_near (R := R) P ham
  show |R.rnd (G.val * (FP.nat 1 /. FP.nat 6 : R.Num).val) - a| ≤ _
  norm_num at F ⊢
  linarith

/-! ### The upwind norm -/

/-- One square added to a sum of squares. -/
theorem add_square {g t : R.Num} {S ε τ : ℝ} (hS : 0 ≤ S) (h : |g.val - S| ≤ ε * S + τ) (hε : 0 ≤ ε) (hε1 : ε ≤ 1 / 2 ^ 48) (hτ : 0 ≤ τ) :
    |(g +. t *. t).val - (S + t.val ^ 2)| ≤ (ε + 1 / 2 ^ 50) * (S + t.val ^ 2) + (2 * τ + 3 / 2 ^ 1074) := by
  obtain ⟨κ, hκ⟩ : ∃ κ : ℝ, κ = 1 / 2 ^ 1074 := ⟨_, rfl⟩
  have κ0 : 0 ≤ κ := by rw [hκ]; positivity
  have e1 := R.err (t.val * t.val)
  rw [← hκ, abs_of_nonneg (mul_self_nonneg t.val), ← sq] at e1
  have hq : 0 ≤ t.val ^ 2 := sq_nonneg _
  have e2 : |g.val + R.rnd (t.val ^ 2) - (S + t.val ^ 2)| ≤ ε * S + τ + (t.val ^ 2 / 2 ^ 52 + κ) := near_add h e1
  have e3 := R.err (g.val + R.rnd (t.val ^ 2))
  rw [← hκ] at e3
  have e4 : |g.val + R.rnd (t.val ^ 2)| ≤ (S + t.val ^ 2) + (ε * S + τ + (t.val ^ 2 / 2 ^ 52 + κ)) :=
    abs_of_near e2 (m := S + t.val ^ 2) (by rw [abs_of_nonneg (by linarith)]) le_rfl
  have e5 : |g.val + R.rnd (t.val ^ 2)| / 2 ^ 52 ≤ ((S + t.val ^ 2) + (ε * S + τ + (t.val ^ 2 / 2 ^ 52 + κ))) / 2 ^ 52 := by gcongr
  have e6 := abs_add_le (R.rnd (g.val + R.rnd (t.val ^ 2)) - (g.val + R.rnd (t.val ^ 2))) (g.val + R.rnd (t.val ^ 2) - (S + t.val ^ 2))
  rw [sub_add_sub_cancel] at e6
  show |R.rnd (g.val + R.rnd (t.val * t.val)) - (S + t.val ^ 2)| ≤ _
  rw [← sq, show (3 : ℝ) / 2 ^ 1074 = 3 * κ by rw [hκ]; ring]
  have e7 : ε * S ≤ 1 / 2 ^ 48 * S := by gcongr
  have e8 : 0 ≤ ε * t.val ^ 2 := by positivity
  have e9 : 0 ≤ ε * S := by positivity
  have : (ε + 1 / 2 ^ 50) * (S + t.val ^ 2) = ε * S + ε * t.val ^ 2 + 1 / 2 ^ 50 * (S + t.val ^ 2) := by ring
  rw [this]
  norm_num at e2 e3 e4 e5 e6 e7 ⊢
  linarith

theorem sqrt_add_le {x y : ℝ} (hx : 0 ≤ x) (hy : 0 ≤ y) : Real.sqrt (x + y) ≤ Real.sqrt x + Real.sqrt y := by
  rw [Real.sqrt_le_left (by positivity)]
  have := Real.sq_sqrt hx
  have := Real.sq_sqrt hy
  nlinarith [Real.sqrt_nonneg x, Real.sqrt_nonneg y, mul_nonneg (Real.sqrt_nonneg x) (Real.sqrt_nonneg y)]

theorem sqrt_scale {x : ℝ} : Real.sqrt (x * (1 + 1 / 2 ^ 47)) ≤ Real.sqrt x * (1 + 1 / 2 ^ 47) := by
  rw [Real.sqrt_mul' _ (by norm_num)]
  refine mul_le_mul_of_nonneg_left ?_ (Real.sqrt_nonneg _)
  rw [Real.sqrt_le_left (by norm_num)]
  norm_num

/-- The upwind norm, up to rounding. -/
theorem upwindNorm_near (r l u d : R.Num) : |(LevelSet.upwindNorm r l u d).val -
      Real.sqrt ((Max.max l.val 0) ^ 2 + (Min.min r.val 0) ^ 2 + (Max.max d.val 0) ^ 2 + (Min.min u.val 0) ^ 2)| ≤
    Real.sqrt ((Max.max l.val 0) ^ 2 + (Min.min r.val 0) ^ 2 + (Max.max d.val 0) ^ 2 + (Min.min u.val 0) ^ 2) / 2 ^ 45 + 1 / 2 ^ 48 := by
  have pos : ∀ (g t : R.Num) (S ε τ : ℝ), 0 ≤ S → |g.val - S| ≤ ε * S + τ → 0 ≤ ε → ε ≤ 1 / 2 ^ 48 → 0 ≤ τ →
      |(if FP.nat 0 <. t then g +. t *. t else g).val - (S + (Max.max t.val 0) ^ 2)| ≤ (ε + 1 / 2 ^ 50) * (S + (Max.max t.val 0) ^ 2) + (2 * τ + 3 / 2 ^ 1074) := by
    intro g t S ε τ hS h h0 h1 h2
    by_cases ht : 0 < t.val
    · rw [if_pos (by simpa using ht), max_eq_left ht.le]
      exact add_square hS h h0 h1 h2
    · rw [if_neg (by simpa using ht), max_eq_right (not_lt.1 ht), zero_pow two_ne_zero, add_zero]
      have : (ε + 1 / 2 ^ 50) * S = ε * S + 1 / 2 ^ 50 * S := by ring
      have : 0 ≤ 1 / 2 ^ 50 * S := by positivity
      have : (0:ℝ) ≤ 3 / 2 ^ 1074 := by positivity
      linarith
  have neg : ∀ (g t : R.Num) (S ε τ : ℝ), 0 ≤ S → |g.val - S| ≤ ε * S + τ → 0 ≤ ε → ε ≤ 1 / 2 ^ 48 → 0 ≤ τ →
      |(if t <. FP.nat 0 then g +. t *. t else g).val - (S + (Min.min t.val 0) ^ 2)| ≤ (ε + 1 / 2 ^ 50) * (S + (Min.min t.val 0) ^ 2) + (2 * τ + 3 / 2 ^ 1074) := by
    intro g t S ε τ hS h h0 h1 h2
    by_cases ht : t.val < 0
    · rw [if_pos (by simpa using ht), min_eq_left ht.le]
      exact add_square hS h h0 h1 h2
    · rw [if_neg (by simpa using ht), min_eq_right (not_lt.1 ht), zero_pow two_ne_zero, add_zero]
      have : (ε + 1 / 2 ^ 50) * S = ε * S + 1 / 2 ^ 50 * S := by ring
      have : 0 ≤ 1 / 2 ^ 50 * S := by positivity
      have : (0:ℝ) ≤ 3 / 2 ^ 1074 := by positivity
      linarith
  have κ0 : (0:ℝ) ≤ 3 / 2 ^ 1074 := by positivity
  have k1 := pos (FP.nat 0) d 0 0 0 le_rfl (by simp) le_rfl (by positivity) le_rfl
  have k2 := pos _ l _ _ _ (by positivity) k1 (by norm_num) (by norm_num) (by linarith)
  have k3 := neg _ u _ _ _ (by positivity) k2 (by norm_num) (by norm_num) (by linarith)
  have k4 := neg _ r _ _ _ (by positivity) k3 (by norm_num) (by norm_num) (by linarith)
  unfold LevelSet.upwindNorm
  dsimp only
  revert k4
  generalize (if r <. FP.nat 0 then _ else _ : R.Num) = g
  intro k4
  have eS : 0 + (Max.max d.val 0) ^ 2 + (Max.max l.val 0) ^ 2 + (Min.min u.val 0) ^ 2 + (Min.min r.val 0) ^ 2 =
    (Max.max l.val 0) ^ 2 + (Min.min r.val 0) ^ 2 + (Max.max d.val 0) ^ 2 + (Min.min u.val 0) ^ 2 := by ring
  rw [eS] at k4
  have S0 : 0 ≤ (Max.max l.val 0) ^ 2 + (Min.min r.val 0) ^ 2 + (Max.max d.val 0) ^ 2 + (Min.min u.val 0) ^ 2 := by positivity
  generalize (Max.max l.val 0) ^ 2 + (Min.min r.val 0) ^ 2 + (Max.max d.val 0) ^ 2 + (Min.min u.val 0) ^ 2 = S at S0 k4 ⊢
  have tau : (2:ℝ) * (2 * (2 * (2 * 0 + 3 / 2 ^ 1074) + 3 / 2 ^ 1074) + 3 / 2 ^ 1074) + 3 / 2 ^ 1074 ≤ 1 / 2 ^ 110 := by
    calc (2:ℝ) * (2 * (2 * (2 * 0 + 3 / 2 ^ 1074) + 3 / 2 ^ 1074) + 3 / 2 ^ 1074) + 3 / 2 ^ 1074 = 45 * (1 / 2 ^ 1074) := by ring
      _ ≤ 45 * (1 / 2 ^ 120) := by
        gcongr
        · norm_num
        · norm_num
      _ ≤ 1 / 2 ^ 110 := by norm_num
  have k5 : |g.val - S| ≤ 1 / 2 ^ 48 * S + 1 / 2 ^ 110 := by
    have e : (0 + 1 / 2 ^ 50 + 1 / 2 ^ 50 + 1 / 2 ^ 50 + 1 / 2 ^ 50 : ℝ) = 1 / 2 ^ 48 := by norm_num
    rw [e] at k4
    linarith
  rw [abs_le] at k5
  have rt : Real.sqrt (1 / 2 ^ 110) = 1 / 2 ^ 55 := by
    rw [Real.sqrt_eq_iff_mul_self_eq (by positivity) (by positivity)]; norm_num
  have up : Real.sqrt g.val ≤ Real.sqrt S * (1 + 1 / 2 ^ 47) + 1 / 2 ^ 55 := by
    calc Real.sqrt g.val ≤ Real.sqrt (S * (1 + 1 / 2 ^ 47) + 1 / 2 ^ 110) := Real.sqrt_le_sqrt (by norm_num at k5 ⊢; linarith [k5.2])
      _ ≤ Real.sqrt (S * (1 + 1 / 2 ^ 47)) + Real.sqrt (1 / 2 ^ 110) := sqrt_add_le (by positivity) (by positivity)
      _ ≤ _ := by rw [rt]; linarith [sqrt_scale (x := S)]
  have lo : Real.sqrt S ≤ Real.sqrt g.val * (1 + 1 / 2 ^ 47) + 1 / 2 ^ 54 := by
    rcases le_total g.val 0 with hg | hg
    · have hS : S ≤ 1 / 2 ^ 108 := by norm_num at k5 ⊢; linarith [k5.1]
      have := Real.sqrt_le_sqrt hS
      rw [show Real.sqrt (1 / 2 ^ 108) = 1 / 2 ^ 54 by
        rw [Real.sqrt_eq_iff_mul_self_eq (by positivity) (by positivity)]; norm_num] at this
      have := Real.sqrt_nonneg g.val
      linarith
    · have rt' : Real.sqrt (1 / 2 ^ 108) = 1 / 2 ^ 54 := by
        rw [Real.sqrt_eq_iff_mul_self_eq (by positivity) (by positivity)]; norm_num
      calc Real.sqrt S ≤ Real.sqrt (g.val * (1 + 1 / 2 ^ 47) + 1 / 2 ^ 108) := Real.sqrt_le_sqrt (by norm_num at k5 ⊢; linarith [k5.1])
        _ ≤ Real.sqrt (g.val * (1 + 1 / 2 ^ 47)) + Real.sqrt (1 / 2 ^ 108) := sqrt_add_le (by positivity) (by positivity)
        _ ≤ _ := by rw [rt']; linarith [sqrt_scale (x := g.val)]
  have hr := err_le (R := R) (Real.sqrt g.val)
  rw [abs_of_nonneg (Real.sqrt_nonneg _)] at hr
  have s0 := Real.sqrt_nonneg S
  show |R.rnd (Real.sqrt g.val) - Real.sqrt S| ≤ _
  have mid : |Real.sqrt g.val - Real.sqrt S| ≤ Real.sqrt S / 2 ^ 46 + 1 / 2 ^ 50 := by
    rw [abs_le]
    constructor
    · norm_num at up lo ⊢; linarith
    · norm_num at up lo ⊢; linarith
  have := abs_add_le (R.rnd (Real.sqrt g.val) - Real.sqrt g.val) (Real.sqrt g.val - Real.sqrt S)
  rw [sub_add_sub_cancel] at this
  norm_num at this hr mid up ⊢
  linarith

/-- One direction: left and right derivative near `a`. -/
theorem one_direction {s l r a δ : ℝ} (hs : s = 1 ∨ s = -1) (hl : |l - a| ≤ δ) (hr : |r - a| ≤ δ) :
    |Real.sqrt ((Max.max (s * l) 0) ^ 2 + (Min.min (s * r) 0) ^ 2) - (|a|)| ≤ 3 * δ := by
  have key : ∀ l r a : ℝ, |l - a| ≤ δ → |r - a| ≤ δ → |Real.sqrt ((Max.max l 0) ^ 2 + (Min.min r 0) ^ 2) - (|a|)| ≤ 3 * δ := by
    intro l r a hl hr
    have d0 : 0 ≤ δ := (abs_nonneg _).trans hl
    rw [abs_le] at hl hr
    rcases le_total δ a with h | h
    · rw [max_eq_left (by linarith), min_eq_right (by linarith), zero_pow two_ne_zero, add_zero, Real.sqrt_sq (by linarith),
        abs_of_nonneg (a := a) (by linarith), abs_le]
      constructor <;> linarith
    rcases le_total a (-δ) with h' | h'
    · rw [max_eq_right (by linarith), min_eq_left (by linarith), zero_pow two_ne_zero, zero_add, Real.sqrt_sq_eq_abs,
        abs_of_nonpos (a := a) (by linarith), abs_of_nonpos (a := r) (by linarith), abs_le]
      constructor <;> linarith
    · have m1 : 0 ≤ Max.max l 0 ∧ Max.max l 0 ≤ 2 * δ := ⟨le_max_right _ _, max_le (by linarith) (by linarith)⟩
      have m2 : -(2 * δ) ≤ Min.min r 0 ∧ Min.min r 0 ≤ 0 := ⟨le_min (by linarith) (by linarith), min_le_right _ _⟩
      have s1 : Real.sqrt ((Max.max l 0) ^ 2 + (Min.min r 0) ^ 2) ≤ 3 * δ := by
        rw [Real.sqrt_le_left (by linarith)]
        nlinarith
      have s0 := Real.sqrt_nonneg ((Max.max l 0) ^ 2 + (Min.min r 0) ^ 2)
      have a1 : |a| ≤ δ := abs_le.2 ⟨h', h⟩
      have a0 := abs_nonneg a
      rw [abs_le]
      constructor <;> linarith
  rcases hs with rfl | rfl
  · rw [one_mul, one_mul]; exact key l r a hl hr
  · have := key (-l) (-r) (-a) (by rw [← abs_neg]; convert hl using 2; ring) (by rw [← abs_neg]; convert hr using 2; ring)
    rw [abs_neg] at this
    rw [neg_one_mul, neg_one_mul]; exact this

/-- The norm of a vector is Lipschitz. -/
theorem norm_near {X Y A B e f : ℝ} (hx : |X - A| ≤ e) (hy : |Y - B| ≤ f) : |Real.sqrt (X ^ 2 + Y ^ 2) - Real.sqrt (A ^ 2 + B ^ 2)| ≤ e + f := by
  have tri : ∀ X Y A B : ℝ, Real.sqrt (X ^ 2 + Y ^ 2) ≤ Real.sqrt (A ^ 2 + B ^ 2) + (|X - A| + |Y - B|) := by
    intro X Y A B
    rw [Real.sqrt_le_left (by positivity)]
    have q := Real.sq_sqrt (show 0 ≤ A ^ 2 + B ^ 2 by positivity)
    have hA : |A| ≤ Real.sqrt (A ^ 2 + B ^ 2) := Real.abs_le_sqrt (by nlinarith)
    have hB : |B| ≤ Real.sqrt (A ^ 2 + B ^ 2) := Real.abs_le_sqrt (by nlinarith)
    have h1 : A * (X - A) ≤ Real.sqrt (A ^ 2 + B ^ 2) * |X - A| := by
      refine (le_abs_self _).trans ?_
      rw [abs_mul]; gcongr
    have h2 : B * (Y - B) ≤ Real.sqrt (A ^ 2 + B ^ 2) * |Y - B| := by
      refine (le_abs_self _).trans ?_
      rw [abs_mul]; gcongr
    have h3 := sq_abs (X - A)
    have h4 := sq_abs (Y - B)
    have h5 : 0 ≤ |X - A| * |Y - B| := by positivity
    nlinarith
  have t1 := tri X Y A B
  have t2 := tri A B X Y
  rw [abs_sub_comm A X, abs_sub_comm B Y] at t2
  rw [abs_le]
  constructor <;> linarith

end Rounding

namespace LevelSet

variable {R : Rounding} {w h : Nat} {L : LevelSet R.Num}

/-- The differences along a grid line, where the values are near a linear function. -/
theorem cl_near {g : Nat → R.Num} {n x : Nat} (hn : 1 ≤ n) (hx : x ≤ n) {a b η : ℝ}
    (hg : ∀ k, k ≤ n → k ≤ x + 3 → x ≤ k + 3 → |(g k).val - (a * k + b)| ≤ η) (k : Int) (hk : (x : Int) - 3 ≤ k) (hk' : k ≤ x + 2) :
    |(cl g n k).val - a| ≤ 3 * η + (|a| + 1) / 2 ^ 51 := by
  unfold cl
  dsimp only
  have hj : (Max.max 0 (Min.min k ((n : Int) - 1))).toNat + 1 ≤ n ∧ (Max.max 0 (Min.min k ((n : Int) - 1))).toNat ≤ x + 2 ∧
    x ≤ (Max.max 0 (Min.min k ((n : Int) - 1))).toNat + 3 := by omega
  generalize (Max.max 0 (Min.min k ((n : Int) - 1))).toNat = j at hj ⊢
  have h1 := hg (j + 1) hj.1 (by omega) (by omega)
  have h0 := hg j (by omega) (by omega) (by omega)
  have h2 := near_sub h1 h0
  rw [show a * ((j + 1 : ℕ) : ℝ) + b - (a * j + b) = a by push_cast; ring] at h2
  refine (rnd_near (R := R) h2 le_rfl).trans ?_
  have η0 : 0 ≤ η := (abs_nonneg _).trans h0
  have := abs_nonneg a
  norm_num
  linarith

theorem deriv_near {g : Nat → R.Num} {n x : Nat} (hn : 1 ≤ n) (hx : x ≤ n) {a b η : ℝ} (ha : |a| ≤ 2 ^ 20) (hη : η ≤ 1 / 2 ^ 20)
    (hg : ∀ k, k ≤ n → k ≤ x + 3 → x ≤ k + 3 → |(g k).val - (a * k + b)| ≤ η) {k1 k2 k3 k4 k5 : Int} (h1 : (x : Int) - 3 ≤ k1 ∧ k1 ≤ x + 2)
    (h2 : (x : Int) - 3 ≤ k2 ∧ k2 ≤ x + 2) (h3 : (x : Int) - 3 ≤ k3 ∧ k3 ≤ x + 2) (h4 : (x : Int) - 3 ≤ k4 ∧ k4 ≤ x + 2)
    (h5 : (x : Int) - 3 ≤ k5 ∧ k5 ≤ x + 2) :
    |(gradHJWENO (cl g n k1) (cl g n k2) (cl g n k3) (cl g n k4) (cl g n k5)).val - a| ≤ 12 * η + (|a| + 1) / 2 ^ 41 := by
  have η0 : 0 ≤ η := (abs_nonneg _).trans (hg x hx (by omega) (by omega))
  have H := cl_near hn hx hg
  refine (gradHJWENO_near ha ?_ (H k1 h1.1 h1.2) (H k2 h2.1 h2.2) (H k3 h3.1 h3.2) (H k4 h4.1 h4.2) (H k5 h5.1 h5.2)).trans ?_
  · norm_num at ha hη ⊢; linarith
  · have := abs_nonneg a
    norm_num; linarith

theorem sign_mul {s v : R.Num} (hs : s.val = 1 ∨ s.val = -1) : (FP.mul s v).val = s.val * v.val := by
  show R.rnd (s.val * v.val) = _
  rcases hs with e | e <;> rw [e]
  · rw [one_mul, v.fix]
  · rw [neg_one_mul, R.neg _ v.fix]

/-- **The gradient in rounded arithmetic**, where the values are near a plane. -/
theorem gradVal_near (hw : 1 ≤ w) (hh : 1 ≤ h) {a b c η : ℝ} (ha : |a| ≤ 2 ^ 20) (hb : |b| ≤ 2 ^ 20) (hη : η ≤ 1 / 2 ^ 20)
    {x y : Nat} (hx : x ≤ w) (hy : y ≤ h) (hφx : ∀ k, k ≤ w → k ≤ x + 3 → x ≤ k + 3 → |(phi w L k y).val - (a * k + b * y + c)| ≤ η)
    (hφy : ∀ k, k ≤ h → k ≤ y + 3 → y ≤ k + 3 → |(phi w L x k).val - (a * x + b * k + c)| ≤ η)
    (hnc : 1 / 2 ^ 18 ≤ |a| ∨ 1 / 2 ^ 18 ≤ |b| ∨ (x ≠ 0 ∧ x ≠ w) ∨ (y ≠ 0 ∧ y ≠ h)) :
    |(gradVal w h L x y).val - Real.sqrt (a ^ 2 + b ^ 2)| ≤ 80 * η + (|a| + |b| + 1) / 2 ^ 38 := by
  have η0 : 0 ≤ η := (abs_nonneg _).trans (hφx x hx (by omega) (by omega))
  have none : cornerVal w h L x y = none := by
    unfold cornerVal
    refine if_neg ?_
    rintro ⟨h1, h2, h3, h4⟩
    have hi : ∀ n t : Nat, 1 ≤ n → (t = 0 ∨ t = n) → inward n t ≤ n ∧ (inward n t ≤ t + 3 ∧ t ≤ inward n t + 3) ∧ |((inward n t : ℕ) : ℝ) - t| = 1 := by
      intro n t hn ht
      unfold inward
      rcases ht with rfl | rfl
      · simp; omega
      · rw [if_neg (by omega)]
        refine ⟨by omega, by omega, ?_⟩
        rw [Nat.cast_sub (by omega)]; norm_num
    have far : ∀ (p q : R.Num) (P Q d : ℝ), |p.val - P| ≤ η → |q.val - Q| ≤ η → 1 / 2 ^ 18 ≤ |P - Q| → ¬ |R.rnd (p.val - q.val)| < R.tol := by
      intro p q P Q d hp hq hd hlt
      have h5 := close_lt (R := R) hlt
      have h6 := abs_add_le (p.val - q.val) ((P - Q) - (p.val - q.val))
      rw [add_sub_cancel] at h6
      have h7 := near_sub hp hq
      rw [abs_sub_comm] at h7
      have := R.tol_bounds.2
      norm_num at this hd hη
      linarith
    have t3 : |R.rnd ((phi w L (inward w x) y).val - (phi w L x y).val)| < R.tol := by
      have := h3
      rw [lt_iff] at this
      have e := R.tolNum_val
      unfold tolNum at e
      rwa [e] at this
    have t4 : |R.rnd ((phi w L x (inward h y)).val - (phi w L x y).val)| < R.tol := by
      have := h4
      rw [lt_iff] at this
      have e := R.tolNum_val
      unfold tolNum at e
      rwa [e] at this
    obtain ⟨ix, ⟨nx, nx'⟩, jx⟩ := hi w x hw h1
    obtain ⟨iy, ⟨ny, ny'⟩, jy⟩ := hi h y hh h2
    rcases hnc with hc | hc | hc | hc
    · refine far _ _ _ _ 0 (hφx _ ix nx nx') (hφx _ hx (by omega) (by omega)) ?_ t3
      rw [show a * (inward w x : ℕ) + b * y + c - (a * x + b * y + c) = a * ((inward w x : ℕ) - x) by ring, abs_mul, jx, mul_one]
      exact hc
    · refine far _ _ _ _ 0 (hφy _ iy ny ny') (hφy _ hy (by omega) (by omega)) ?_ t4
      rw [show a * x + b * (inward h y : ℕ) + c - (a * x + b * y + c) = b * ((inward h y : ℕ) - y) by ring, abs_mul, jy, mul_one]
      exact hc
    · exact h1.elim hc.1 hc.2
    · exact h2.elim hc.1 hc.2
  unfold gradVal
  rw [none]
  dsimp only
  have Hx : ∀ k, k ≤ w → k ≤ x + 3 → x ≤ k + 3 → |(phi w L k y).val - (a * k + (b * y + c))| ≤ η := by
    intro k hk h1 h2
    rw [← add_assoc]; exact hφx k hk h1 h2
  have Hy : ∀ k, k ≤ h → k ≤ y + 3 → y ≤ k + 3 → |(phi w L x k).val - (b * k + (a * x + c))| ≤ η := by
    intro k hk h1 h2
    rw [show b * (k : ℝ) + (a * x + c) = a * x + b * k + c by ring]; exact hφy k hk h1 h2
  have hs : (if FP.lt (vals L.velocity (nodeNo w x y)) (FP.nat 0) then FP.neg (FP.nat 1) else FP.nat 1 : R.Num).val = 1 ∨
      (if FP.lt (vals L.velocity (nodeNo w x y)) (FP.nat 0) then FP.neg (FP.nat 1) else FP.nat 1 : R.Num).val = -1 := by
    split
    · right
      show -(FP.nat 1 : R.Num).val = -1
      rw [val_one]
    · left; exact val_one
  generalize (if FP.lt (vals L.velocity (nodeNo w x y)) (FP.nat 0) then FP.neg (FP.nat 1) else FP.nat 1 : R.Num) = s at hs ⊢
  have hr := deriv_near hw hx ha hη Hx (k1 := x + 2) (k2 := x + 1) (k3 := x) (k4 := x - 1) (k5 := x - 2) (by omega) (by omega) (by omega) (by omega) (by omega)
  have hl := deriv_near hw hx ha hη Hx (k1 := x - 3) (k2 := x - 2) (k3 := x - 1) (k4 := x) (k5 := x + 1) (by omega) (by omega) (by omega) (by omega) (by omega)
  have hu := deriv_near hh hy hb hη Hy (k1 := y + 2) (k2 := y + 1) (k3 := y) (k4 := y - 1) (k5 := y - 2) (by omega) (by omega) (by omega) (by omega) (by omega)
  have hd := deriv_near hh hy hb hη Hy (k1 := y - 3) (k2 := y - 2) (k3 := y - 1) (k4 := y) (k5 := y + 1) (by omega) (by omega) (by omega) (by omega) (by omega)
  generalize gradHJWENO (cl (fun k => phi w L k y) w (x + 2)) _ _ _ _ = r at hr ⊢
  generalize gradHJWENO (cl (fun k => phi w L k y) w (x - 3)) _ _ _ _ = l at hl ⊢
  generalize gradHJWENO (cl (fun k => phi w L x k) h (y + 2)) _ _ _ _ = u at hu ⊢
  generalize gradHJWENO (cl (fun k => phi w L x k) h (y - 3)) _ _ _ _ = d at hd ⊢
  have N := upwindNorm_near (FP.mul s r) (FP.mul s l) (FP.mul s u) (FP.mul s d)
  rw [sign_mul hs, sign_mul hs, sign_mul hs, sign_mul hs] at N
  have X := one_direction hs hl hr
  have Y := one_direction hs hd hu
  have XY := norm_near X Y
  rw [Real.sq_sqrt (by positivity), Real.sq_sqrt (by positivity), sq_abs, sq_abs, ← add_assoc] at XY
  generalize Real.sqrt ((Max.max (s.val * l.val) 0) ^ 2 + (Min.min (s.val * r.val) 0) ^ 2 + (Max.max (s.val * d.val) 0) ^ 2 +
    (Min.min (s.val * u.val) 0) ^ 2) = S at N XY
  have ab : Real.sqrt (a ^ 2 + b ^ 2) ≤ |a| + |b| := by
    rw [Real.sqrt_le_left (by positivity)]
    nlinarith [sq_abs a, sq_abs b, mul_nonneg (abs_nonneg a) (abs_nonneg b)]
  have a0 := abs_nonneg a
  have b0 := abs_nonneg b
  have XY2 := (abs_le.1 XY).2
  have F := abs_add_le ((upwindNorm (FP.mul s r) (FP.mul s l) (FP.mul s u) (FP.mul s d)).val - S) (S - Real.sqrt (a ^ 2 + b ^ 2))
  rw [sub_add_sub_cancel] at F
  norm_num at N XY XY2 F ⊢
  linarith

/-- One step of a node in rounded arithmetic. -/
theorem step_near {φ g v dt : R.Num} {P G γ η : ℝ} (hφ : |φ.val - P| ≤ η) (hg : |g.val - G| ≤ γ) (hG : 0 ≤ G) (hη : η ≤ 1) (hγ : γ ≤ 1)
    (hv : |v.val| ≤ 2 ^ 20) (hd : |dt.val * v.val| ≤ 1) :
    |(φ -. dt *. g *. v).val - (P - dt.val * v.val * G)| ≤ η + γ + (G + 1) / 2 ^ 48 + |P| / 2 ^ 52 := by
  have η0 : 0 ≤ η := (abs_nonneg _).trans hφ
  have γ0 : 0 ≤ γ := (abs_nonneg _).trans hg
  have g1 : |g.val| ≤ G + 1 := abs_of_near hg (m := G) (by rw [abs_of_nonneg hG]) (by linarith)
  have e1 := err_le (R := R) (dt.val * g.val)
  have e2 : |R.rnd (dt.val * g.val) * v.val - dt.val * v.val * g.val| ≤ (G + 1) / 2 ^ 52 + 1 / 2 ^ 60 := by
    rw [show R.rnd (dt.val * g.val) * v.val - dt.val * v.val * g.val = (R.rnd (dt.val * g.val) - dt.val * g.val) * v.val by ring, abs_mul]
    calc |R.rnd (dt.val * g.val) - dt.val * g.val| * |v.val| ≤ (|dt.val * g.val| / 2 ^ 52 + 1 / 2 ^ 80) * |v.val| := by gcongr
      _ = |dt.val * v.val| * |g.val| / 2 ^ 52 + 1 / 2 ^ 80 * |v.val| := by rw [abs_mul, abs_mul]; ring
      _ ≤ 1 * (G + 1) / 2 ^ 52 + 1 / 2 ^ 80 * 2 ^ 20 := by gcongr
      _ = _ := by norm_num
  have e3 : |dt.val * v.val * g.val - dt.val * v.val * G| ≤ γ := by
    rw [← mul_sub, abs_mul]
    calc |dt.val * v.val| * |g.val - G| ≤ 1 * γ := by gcongr
      _ = γ := one_mul _
  have e4 : |dt.val * v.val * G| ≤ G := by
    rw [abs_mul, abs_of_nonneg hG]
    calc |dt.val * v.val| * G ≤ 1 * G := by gcongr
      _ = G := one_mul _
  have e5 : |R.rnd (dt.val * g.val) * v.val - dt.val * v.val * G| ≤ (G + 1) / 2 ^ 52 + 1 / 2 ^ 60 + γ := by
    have := abs_add_le (R.rnd (dt.val * g.val) * v.val - dt.val * v.val * g.val) (dt.val * v.val * g.val - dt.val * v.val * G)
    rw [sub_add_sub_cancel] at this
    linarith
  have e6 := rnd_near (R := R) e5 e4
  have e7 := near_sub hφ e6
  have e8 : |P - dt.val * v.val * G| ≤ |P| + G := (abs_sub _ _).trans (by linarith)
  refine (rnd_near (R := R) e7 e8).trans ?_
  norm_num
  linarith

end LevelSet

end Slsm

