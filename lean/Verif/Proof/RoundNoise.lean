import Verif.Proof.RoundEik

/-! # Relative errors of products, quotients and roots -/

namespace Slsm

open FP LevelSet

namespace Rounding

variable {R : Rounding}

/-- One minus the unit of the relative error. -/
noncomputable def qu : ℝ := 1 - 1 / 2 ^ 51

theorem qu_pos : 0 < qu := by unfold qu; norm_num

theorem qu_le : qu ≤ 1 := by unfold qu; norm_num

theorem qu_pow (k : ℕ) : 1 - k / 2 ^ 51 ≤ qu ^ k := by
  have := one_add_mul_le_pow (a := -(1 / 2 ^ 51 : ℝ)) (by norm_num) k
  unfold qu
  rw [sub_eq_add_neg 1 (1 / 2 ^ 51 : ℝ)]
  refine le_trans (le_of_eq ?_) this
  ring

theorem qu_pow_pos (k : ℕ) : 0 < qu ^ k := pow_pos qu_pos k

theorem qu_pow_le (k : ℕ) : qu ^ k ≤ 1 := pow_le_one₀ qu_pos.le qu_le

theorem qu_half {k : ℕ} (hk : k ≤ 100) : 1 / 2 ≤ qu ^ k := by
  refine le_trans ?_ (qu_pow k)
  have : (k : ℝ) ≤ 100 := by exact_mod_cast hk
  linarith

/-- `x` and `t` are positive and differ by at most `k` relative errors. -/
def Rl (k : ℕ) (x t : ℝ) : Prop := 0 < t ∧ qu ^ k * t ≤ x ∧ qu ^ k * x ≤ t

theorem Rl.refl {t : ℝ} (h : 0 < t) : Rl 0 t t := ⟨h, by simp, by simp⟩

theorem Rl.pos {k : ℕ} {x t : ℝ} (h : Rl k x t) : 0 < x := lt_of_lt_of_le (mul_pos (qu_pow_pos k) h.1) h.2.1

theorem Rl.mul {k l : ℕ} {x t y s : ℝ} (h : Rl k x t) (g : Rl l y s) : Rl (k + l) (x * y) (t * s) := by
  have hx := h.pos
  have hy := g.pos
  have hq := qu_pow_pos k
  have hq' := qu_pow_pos l
  refine ⟨mul_pos h.1 g.1, ?_, ?_⟩
  · have := mul_le_mul h.2.1 g.2.1 (mul_nonneg hq'.le g.1.le) hx.le
    rw [pow_add]
    linarith
  · have := mul_le_mul h.2.2 g.2.2 (mul_nonneg hq'.le hy.le) h.1.le
    rw [pow_add]
    linarith

theorem Rl.inv {k : ℕ} {x t : ℝ} (h : Rl k x t) : Rl k x⁻¹ t⁻¹ := by
  have hx := h.pos
  have ht := h.1
  refine ⟨inv_pos.2 ht, ?_, ?_⟩
  · rw [← div_eq_mul_inv, div_le_iff₀ ht, ← div_eq_inv_mul, le_div_iff₀ hx]
    exact h.2.2
  · rw [← div_eq_mul_inv, div_le_iff₀ hx, ← div_eq_inv_mul, le_div_iff₀ ht]
    exact h.2.1

theorem Rl.div {k l : ℕ} {x t y s : ℝ} (h : Rl k x t) (g : Rl l y s) : Rl (k + l) (x / y) (t / s) := by
  rw [div_eq_mul_inv, div_eq_mul_inv]
  exact h.mul g.inv

theorem Rl.sqrt {k : ℕ} {x t : ℝ} (h : Rl k x t) : Rl k (Real.sqrt x) (Real.sqrt t) := by
  have hq := (qu_pow_pos k).le
  have hq2 : (qu ^ k) ^ 2 ≤ qu ^ k := by
    rw [pow_two]
    exact mul_le_of_le_one_left hq (qu_pow_le k)
  refine ⟨Real.sqrt_pos.2 h.1, ?_, ?_⟩
  · refine Real.le_sqrt_of_sq_le ?_
    rw [mul_pow, Real.sq_sqrt h.1.le]
    exact (mul_le_mul_of_nonneg_right hq2 h.1.le).trans h.2.1
  · refine Real.le_sqrt_of_sq_le ?_
    rw [mul_pow, Real.sq_sqrt h.pos.le]
    exact (mul_le_mul_of_nonneg_right hq2 h.pos.le).trans h.2.2

theorem Rl.rnd {k n : ℕ} {x t : ℝ} (h : Rl k x t) (hn : n ≤ 900) (ht : 1 / 2 ^ n ≤ t) (hk : k ≤ 100) : Rl (k + 1) (R.rnd x) t := by
  have hx := h.pos
  have hlow : 1 / 2 ^ (n + 1) ≤ x := by
    have h1 : 1 / 2 * (1 / 2 ^ n) ≤ qu ^ k * t := mul_le_mul (qu_half hk) ht (by positivity) (qu_pow_pos k).le
    have h2 : (1 : ℝ) / 2 ^ (n + 1) = 1 / 2 * (1 / 2 ^ n) := by rw [pow_succ]; field_simp
    rw [h2]
    exact h1.trans h.2.1
  obtain ⟨b1, b2⟩ := rnd_pos_bounds (R := R) (small_pow (by omega) hlow)
  have hq := qu_pow_pos k
  refine ⟨h.1, ?_, ?_⟩
  · have : qu * (qu ^ k * t) ≤ qu * x := mul_le_mul_of_nonneg_left h.2.1 qu_pos.le
    rw [pow_succ]
    unfold qu at *
    linarith
  · have h1 : qu * R.rnd x ≤ x := by
      have := mul_le_mul_of_nonneg_left b2 qu_pos.le
      refine this.trans ?_
      unfold qu
      nlinarith
    have := mul_le_mul_of_nonneg_left h1 hq.le
    rw [pow_succ]
    linarith [h.2.2]

theorem Rl.abs {k : ℕ} {x t : ℝ} (h : Rl k x t) (hk : k ≤ 100) : |x - t| ≤ 2 * k / 2 ^ 51 * t := by
  have h1 := qu_pow k
  have hh := qu_half hk
  obtain ⟨t0, h2, h3⟩ := h
  have hx : x ≤ 2 * t := by
    have x0 : 0 ≤ x := le_trans (mul_nonneg (qu_pow_pos k).le t0.le) h2
    have := mul_le_mul_of_nonneg_right hh x0
    linarith
  have x0 : 0 ≤ x := le_trans (mul_nonneg (qu_pow_pos k).le t0.le) h2
  have a1 := mul_le_mul_of_nonneg_right h1 t0.le
  have a2 := mul_le_mul_of_nonneg_right h1 x0
  have a3 : (k : ℝ) / 2 ^ 51 * x ≤ k / 2 ^ 51 * (2 * t) := mul_le_mul_of_nonneg_left hx (by positivity)
  have a4 : 0 ≤ (k : ℝ) / 2 ^ 51 * t := by positivity
  have e : 2 * (k : ℝ) / 2 ^ 51 * t = 2 * (k / 2 ^ 51 * t) := by ring
  rw [abs_le, e]
  constructor <;> nlinarith

theorem low_mul {a b : ℕ} {x y : ℝ} (hx : 1 / 2 ^ a ≤ x) (hy : 1 / 2 ^ b ≤ y) : 1 / 2 ^ (a + b) ≤ x * y := by
  have : (1 : ℝ) / 2 ^ (a + b) = 1 / 2 ^ a * (1 / 2 ^ b) := by rw [pow_add]; field_simp
  rw [this]
  exact mul_le_mul hx hy (by positivity) (le_trans (by positivity) hx)

theorem low_div {a b : ℕ} {x y : ℝ} (hx : 1 / 2 ^ a ≤ x) (hy0 : 0 < y) (hy : y ≤ 2 ^ b) : 1 / 2 ^ (a + b) ≤ x / y := by
  rw [div_eq_mul_inv]
  refine low_mul hx ?_
  rw [one_div]
  exact inv_anti₀ hy0 hy

theorem low_sqrt {a : ℕ} {x : ℝ} (hx : 1 / 2 ^ a ≤ x) : 1 / 2 ^ a ≤ Real.sqrt x := by
  refine Real.le_sqrt_of_sq_le (le_trans ?_ hx)
  have h1 : (1 : ℝ) / 2 ^ a ≤ 1 := by
    rw [div_le_one (by positivity)]
    exact one_le_pow₀ (by norm_num)
  have h0 : (0 : ℝ) ≤ 1 / 2 ^ a := by positivity
  nlinarith

/-- The quantities of the thermal time step. -/
theorem root_rl {T : R.Num} (hT : 1 / 2 ^ 200 ≤ T.val) : Rl 2 (FP.sqrt (FP.nat 2 *. T) : R.Num).val (Real.sqrt (2 * T.val)) := by
  have h0 : 0 < T.val := lt_of_lt_of_le (by positivity) hT
  have h2 : (FP.nat 2 : R.Num).val = 2 := by rw [val_nat (by norm_num)]; norm_num
  have c1 : Rl 1 (FP.nat 2 *. T : R.Num).val (2 * T.val) := by
    rw [val_mul, h2]
    exact (Rl.refl (by positivity)).rnd (n := 200) (by norm_num) (by linarith) (by norm_num)
  rw [val_sqrt]
  exact c1.sqrt.rnd (n := 200) (by norm_num) (low_sqrt (by linarith)) (by norm_num)

theorem sqrt_rl {x : R.Num} {n : ℕ} (hn : n ≤ 900) (hx : 1 / 2 ^ n ≤ x.val) : Rl 1 (FP.sqrt x : R.Num).val (Real.sqrt x.val) := by
  have h0 : 0 < x.val := lt_of_lt_of_le (by positivity) hx
  rw [val_sqrt]
  exact (Rl.refl (Real.sqrt_pos.2 h0)).rnd hn (low_sqrt hx) (by norm_num)

theorem spread_rl {T dt : R.Num} (hT : 1 / 2 ^ 200 ≤ T.val) (hd : 1 / 2 ^ 200 ≤ dt.val) :
    Rl 4 (FP.sqrt (FP.nat 2 *. T) *. FP.sqrt dt : R.Num).val (Real.sqrt (2 * T.val * dt.val)) := by
  have h0 : 0 < T.val := lt_of_lt_of_le (by positivity) hT
  rw [Real.sqrt_mul (by positivity), val_mul]
  exact ((root_rl hT).mul (sqrt_rl (by norm_num) hd)).rnd (n := 400) (by norm_num) (low_mul (a := 200) (b := 200) (low_sqrt (by linarith)) (low_sqrt hd)) (by norm_num)

theorem half_rl {m : R.Num} (hm : 1 / 2 ^ 200 ≤ m.val) : Rl 1 (lit 1 2 *. m : R.Num).val (m.val / 2) := by
  have h0 : 0 < m.val := lt_of_lt_of_le (by positivity) hm
  have h2 : (lit 1 2 : R.Num).val = 1 / 2 := by
    rw [val_lit 1 2 (by norm_num) (by norm_num)]
    have := R.half 1 (by norm_num)
    push_cast at this ⊢
    exact this
  rw [val_mul, h2, show 1 / 2 * m.val = m.val / 2 by ring]
  refine (Rl.refl (by positivity)).rnd (n := 201) (by norm_num) ?_ (by norm_num)
  rw [pow_succ]
  have : (1 : ℝ) / (2 ^ 200 * 2) = 1 / 2 ^ 200 / 2 := by rw [div_div]
  rw [this]
  linarith

theorem scale_rl {m dt T : R.Num} (hm : 1 / 2 ^ 200 ≤ m.val) (hm1 : m.val ≤ 1) (hd : 1 / 2 ^ 200 ≤ dt.val) (hT : 1 / 2 ^ 200 ≤ T.val) :
    Rl 4 ((FP.nat 8 *. dt *. T) /. (m *. m) : R.Num).val (8 * dt.val * T.val / (m.val * m.val)) := by
  have m0 : 0 < m.val := lt_of_lt_of_le (by positivity) hm
  have d0 : 0 < dt.val := lt_of_lt_of_le (by positivity) hd
  have t0 : 0 < T.val := lt_of_lt_of_le (by positivity) hT
  have h8 : (FP.nat 8 : R.Num).val = 8 := by rw [val_nat (by norm_num)]; norm_num
  have l8 : 1 / 2 ^ 200 ≤ 8 * dt.val := by linarith
  have c1 : Rl 1 (FP.nat 8 *. dt : R.Num).val (8 * dt.val) := by
    rw [val_mul, h8]
    exact (Rl.refl (by positivity)).rnd (n := 200) (by norm_num) l8 (by norm_num)
  have c2 : Rl 2 (FP.nat 8 *. dt *. T : R.Num).val (8 * dt.val * T.val) := by
    rw [val_mul]
    exact (c1.mul (Rl.refl t0)).rnd (n := 400) (by norm_num) (low_mul (a := 200) (b := 200) l8 hT) (by norm_num)
  have c3 : Rl 1 (m *. m : R.Num).val (m.val * m.val) := by
    rw [val_mul]
    exact (Rl.refl (by positivity)).rnd (n := 400) (by norm_num) (low_mul (a := 200) (b := 200) hm hm) (by norm_num)
  rw [val_div]
  refine (c2.div c3).rnd (n := 400) (by norm_num) ?_ (by norm_num)
  have := low_div (b := 0) (low_mul (a := 200) (b := 200) l8 hT) (mul_pos m0 m0) (by rw [pow_zero]; nlinarith)
  exact this

end Rounding

end Slsm
