import Verif.Spec.Round

/-! Laws of rounded arithmetic. -/

namespace Slsm

open FP

namespace Rounding

variable {R : Rounding}

@[simp] theorem val_add (a b : R.Num) : (a +. b).val = R.rnd (a.val + b.val) := rfl
@[simp] theorem val_sub (a b : R.Num) : (a -. b).val = R.rnd (a.val - b.val) := rfl
@[simp] theorem val_mul (a b : R.Num) : (a *. b).val = R.rnd (a.val * b.val) := rfl
@[simp] theorem val_div (a b : R.Num) : (a /. b).val = R.rnd (a.val / b.val) := rfl
@[simp] theorem val_neg (a : R.Num) : (FP.neg a).val = -a.val := rfl
@[simp] theorem val_abs (a : R.Num) : (FP.abs a).val = |a.val| := rfl
@[simp] theorem val_sqrt (a : R.Num) : (FP.sqrt a).val = R.rnd (Real.sqrt a.val) := rfl
theorem val_nat_rnd (n : ℕ) : (FP.nat n : R.Num).val = R.rnd n := rfl
@[simp] theorem lt_iff (a b : R.Num) : FP.lt a b = true ↔ a.val < b.val := by simp [FP.lt]
@[simp] theorem le_iff (a b : R.Num) : FP.le a b = true ↔ a.val ≤ b.val := by simp [FP.le]
@[simp] theorem eq_iff (a b : R.Num) : FP.eq a b = true ↔ a.val = b.val := by simp [FP.eq]
@[simp] theorem lt_false (a b : R.Num) : FP.lt a b = false ↔ b.val ≤ a.val := by simp [FP.lt]
@[simp] theorem le_false (a b : R.Num) : FP.le a b = false ↔ b.val < a.val := by simp [FP.le]

theorem val_nat {n : ℕ} (h : n ≤ 2 ^ 53) : (FP.nat n : R.Num).val = n := R.nat n h

@[simp] theorem val_zero : (FP.nat 0 : R.Num).val = 0 := by rw [val_nat (by norm_num)]; norm_num
@[simp] theorem val_one : (FP.nat 1 : R.Num).val = 1 := by rw [val_nat (by norm_num)]; norm_num

theorem val_min (a b : R.Num) : (FP.min a b).val = Min.min a.val b.val := by
  unfold FP.min
  by_cases h : b.val < a.val
  · rw [if_pos (by simpa using h), min_eq_right h.le]
  · rw [if_neg (by simpa using h), min_eq_left (not_lt.1 h)]

theorem val_max (a b : R.Num) : (FP.max a b).val = Max.max a.val b.val := by
  unfold FP.max
  by_cases h : a.val < b.val
  · rw [if_pos (by simpa using h), max_eq_right h.le]
  · rw [if_neg (by simpa using h), max_eq_left (not_lt.1 h)]

theorem num_ext {a b : R.Num} (h : a.val = b.val) : a = b := by
  cases a; cases b; cases h; rfl

/-- Rounding does not pass representable numbers. -/
theorem rnd_le {x : ℝ} (a : R.Num) (h : x ≤ a.val) : R.rnd x ≤ a.val := by
  have := R.mono h
  rwa [a.fix] at this

theorem le_rnd {x : ℝ} (a : R.Num) (h : a.val ≤ x) : a.val ≤ R.rnd x := by
  have := R.mono h
  rwa [a.fix] at this

theorem rnd_le_nat {x : ℝ} {n : ℕ} (hn : n ≤ 2 ^ 53) (h : x ≤ n) : R.rnd x ≤ n := by
  have := R.mono h
  rwa [R.nat n hn] at this

theorem nat_le_rnd {x : ℝ} {n : ℕ} (hn : n ≤ 2 ^ 53) (h : (n : ℝ) ≤ x) : (n : ℝ) ≤ R.rnd x := by
  have := R.mono h
  rwa [R.nat n hn] at this

theorem rnd_nonneg {x : ℝ} (h : 0 ≤ x) : 0 ≤ R.rnd x := by
  have := nat_le_rnd (R := R) (n := 0) (by norm_num) (by simpa using h)
  simpa using this

theorem rnd_nonpos {x : ℝ} (h : x ≤ 0) : R.rnd x ≤ 0 := by
  have := rnd_le_nat (R := R) (n := 0) (by norm_num) (by simpa using h)
  simpa using this

theorem rnd_le_one {x : ℝ} (h : x ≤ 1) : R.rnd x ≤ 1 := by
  have := rnd_le_nat (R := R) (n := 1) (by norm_num) (by simpa using h)
  simpa using this

theorem tiny : (1 : ℝ) / 2 ^ 1074 ≤ 1 / 2 ^ 80 :=
  one_div_le_one_div_of_le (by positivity) (pow_le_pow_right₀ (by norm_num) (by norm_num))

theorem err_le (x : ℝ) : |R.rnd x - x| ≤ |x| / 2 ^ 52 + 1 / 2 ^ 80 := (R.err x).trans (by have := tiny; linarith)

variable (R)

/-- The tolerance as a representable number. -/
noncomputable def tolNum : R.Num := FP.lit 1 1000000

theorem tolNum_val : R.tolNum.val = R.tol := by
  show R.rnd (R.rnd (1 : ℕ) / R.rnd (1000000 : ℕ)) = _
  rw [R.nat 1 (by norm_num), R.nat 1000000 (by norm_num)]
  unfold tol
  norm_num

theorem tol_bounds : 1 / 2 ^ 20 < R.tol ∧ R.tol < 1 / 2 ^ 19 := by
  have := err_le (R := R) (1 / 10 ^ 6)
  change |R.tol - _| ≤ _ at this
  rw [abs_le, abs_of_nonneg (by positivity)] at this
  constructor
  · refine lt_of_lt_of_le ?_ (show (1 : ℝ) / 10 ^ 6 - (1 / 10 ^ 6 / 2 ^ 52 + 1 / 2 ^ 80) ≤ R.tol by linarith)
    norm_num
  · refine lt_of_le_of_lt (show R.tol ≤ (1 : ℝ) / 10 ^ 6 + (1 / 10 ^ 6 / 2 ^ 52 + 1 / 2 ^ 80) by linarith) ?_
    norm_num

variable {R}

theorem tol_pos : 0 < R.tol := lt_trans (by positivity) R.tol_bounds.1

/-- The fraction of an edge at which the code puts a point. -/
theorem fraction {a b : R.Num} (h : (R.tol ≤ a.val ∧ b.val ≤ -R.tol) ∨ (a.val ≤ -R.tol ∧ R.tol ≤ b.val)) :
    0 ≤ (a /. (a -. b)).val ∧ (a /. (a -. b)).val ≤ 1 ∧
      |(a /. (a -. b)).val - a.val / (a.val - b.val)| ≤ 2 / 2 ^ 52 + 1 / 2 ^ 56 := by
  have ht := R.tol_bounds.1
  have hpos : (0 : ℝ) < 1 / 2 ^ 20 := by positivity
  -- the divisor
  obtain ⟨s, hs⟩ : ∃ s, s = R.rnd (a.val - b.val) := ⟨_, rfl⟩
  have hsa : (0 < a.val ∧ a.val ≤ s) ∨ (a.val < 0 ∧ s ≤ a.val) := by
    rcases h with ⟨h1, h2⟩ | ⟨h1, h2⟩
    · exact .inl ⟨by linarith, by rw [hs]; exact le_rnd a (by linarith)⟩
    · exact .inr ⟨by linarith, by rw [hs]; exact rnd_le a (by linarith)⟩
  have hs0 : s ≠ 0 := by rcases hsa with h | h <;> [exact (h.1.trans_le h.2).ne'; exact (h.2.trans_lt h.1).ne]
  have hd0 : a.val - b.val ≠ 0 := by rcases h with h | h <;> [exact (by linarith [h.1, h.2] : 0 < a.val - b.val).ne'; exact (by linarith [h.1, h.2] : a.val - b.val < 0).ne]
  have hd : 1 / 2 ^ 20 ≤ |a.val - b.val| := by
    rw [le_abs]
    rcases h with h | h <;> [left; right] <;> linarith [h.1, h.2]
  have q0 : 0 ≤ a.val / s ∧ a.val / s ≤ 1 := by
    rcases hsa with ⟨h1, h2⟩ | ⟨h1, h2⟩
    · exact ⟨div_nonneg h1.le (h1.le.trans h2), div_le_one_of_le₀ h2 (h1.le.trans h2)⟩
    · refine ⟨div_nonneg_of_nonpos h1.le (h2.trans h1.le), ?_⟩
      rw [div_le_one_of_neg (h2.trans_lt h1)]; exact h2
  have ed : (a /. (a -. b)).val = R.rnd (a.val / s) := by rw [val_div, val_sub, ← hs]
  rw [ed]
  refine ⟨rnd_nonneg q0.1, rnd_le_one q0.2, ?_⟩
  have e1 := err_le (R := R) (a.val / s)
  have e2 := err_le (R := R) (a.val - b.val)
  rw [← hs] at e2
  have e3 : |a.val / s - a.val / (a.val - b.val)| ≤ 1 / 2 ^ 52 + 1 / 2 ^ 60 := by
    have : a.val / s - a.val / (a.val - b.val) = a.val / s * ((a.val - b.val - s) / (a.val - b.val)) := by
      field_simp
    rw [this, abs_mul, abs_of_nonneg q0.1]
    have k : |(a.val - b.val - s) / (a.val - b.val)| ≤ 1 / 2 ^ 52 + 1 / 2 ^ 60 := by
      rw [abs_div, div_le_iff₀ (abs_pos.2 hd0), abs_sub_comm]
      refine e2.trans ?_
      have : (1 : ℝ) / 2 ^ 80 ≤ 1 / 2 ^ 60 * |a.val - b.val| := by
        refine le_trans ?_ (mul_le_mul_of_nonneg_left hd (by positivity))
        norm_num
      rw [add_mul]
      have e : 1 / 2 ^ 52 * |a.val - b.val| = |a.val - b.val| / 2 ^ 52 := by ring
      rw [e]
      linarith
    calc a.val / s * |(a.val - b.val - s) / (a.val - b.val)| ≤ 1 * (1 / 2 ^ 52 + 1 / 2 ^ 60) := by
          refine mul_le_mul q0.2 k (abs_nonneg _) (by norm_num)
      _ = _ := one_mul _
  rw [abs_of_nonneg q0.1] at e1
  have := abs_sub_le (R.rnd (a.val / s)) (a.val / s) (a.val / (a.val - b.val))
  have e4 : a.val / s / 2 ^ 52 ≤ 1 / 2 ^ 52 := div_le_div_of_nonneg_right q0.2 (by positivity)
  have e5 : (1 : ℝ) / 2 ^ 80 + 1 / 2 ^ 60 ≤ 1 / 2 ^ 56 := by norm_num
  have e6 : (2 : ℝ) / 2 ^ 52 = 1 / 2 ^ 52 + 1 / 2 ^ 52 := by ring
  rw [e6]
  linarith

/-- A step forward from a lattice coordinate. -/
theorem step_up {n : ℕ} (hn : n + 1 ≤ 2 ^ 53) {d t : ℝ} (h0 : 0 ≤ d) (h1 : d ≤ 1) (ht : |d - t| ≤ 2 / 2 ^ 52 + 1 / 2 ^ 56) :
    (n : ℝ) ≤ R.rnd (n + d) ∧ R.rnd (n + d) ≤ n + 1 ∧ |R.rnd (n + d) - (n + t)| ≤ (n + 4) / 2 ^ 52 := by
  refine ⟨nat_le_rnd (by omega) (by linarith), ?_, ?_⟩
  · have := rnd_le_nat (R := R) (n := n + 1) hn (x := n + d) (by push_cast; linarith)
    push_cast at this; exact this
  · have e := err_le (R := R) (n + d)
    rw [abs_of_nonneg (show (0 : ℝ) ≤ n + d by positivity)] at e
    have := abs_sub_le (R.rnd (n + d)) (n + d) (n + t)
    have e2 : (n : ℝ) + d - (n + t) = d - t := by ring
    rw [e2] at this
    have e3 : ((n : ℝ) + d) / 2 ^ 52 ≤ (n + 1) / 2 ^ 52 := div_le_div_of_nonneg_right (by linarith) (by positivity)
    have e4 : ((n : ℝ) + 4) / 2 ^ 52 = (n + 1) / 2 ^ 52 + 2 / 2 ^ 52 + 1 / 2 ^ 52 := by ring
    have e5 : (1 : ℝ) / 2 ^ 80 + 1 / 2 ^ 56 ≤ 1 / 2 ^ 52 := by norm_num
    rw [e4]
    linarith

/-- A step back from a lattice coordinate. -/
theorem step_down {n : ℕ} (hn : n + 1 ≤ 2 ^ 53) {d t : ℝ} (h0 : 0 ≤ d) (h1 : d ≤ 1) (ht : |d - t| ≤ 2 / 2 ^ 52 + 1 / 2 ^ 56) :
    (n : ℝ) ≤ R.rnd ((n + 1 : ℕ) - d) ∧ R.rnd ((n + 1 : ℕ) - d) ≤ n + 1 ∧ |R.rnd ((n + 1 : ℕ) - d) - (n + 1 - t)| ≤ (n + 4) / 2 ^ 52 := by
  have := step_up (R := R) (n := n) hn (d := 1 - d) (t := 1 - t) (by linarith) (by linarith)
    (by rw [show 1 - d - (1 - t) = -(d - t) by ring, abs_neg]; exact ht)
  rw [show (n : ℝ) + (1 - d) = (n + 1 : ℕ) - d by push_cast; ring, show (n : ℝ) + (1 - t) = n + 1 - t by ring] at this
  exact this

/-- The test for a point already present is a test of the exact difference. -/
theorem close_lt {a b : R.Num} (h : |R.rnd (a.val - b.val)| < R.tol) : |a.val - b.val| < R.tol := by
  rw [abs_lt] at h ⊢
  have ht := R.tolNum_val
  constructor
  · by_contra hc
    have := rnd_le (R := R) (x := a.val - b.val) (FP.neg R.tolNum) (by rw [val_neg, ht]; linarith)
    rw [val_neg, ht] at this
    linarith
  · by_contra hc
    have := le_rnd (R := R) (x := a.val - b.val) R.tolNum (by rw [ht]; linarith)
    rw [ht] at this
    linarith

end Rounding

end Slsm
