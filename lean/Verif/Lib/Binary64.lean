import Verif.Spec.Round
import Mathlib.Data.Int.Log
import Mathlib.Algebra.Order.Round
import Mathlib.Algebra.Ring.Int.Parity

/-! Rounding to nearest, ties to even, of IEEE binary64 (with gradual underflow, without overflow) is a `Rounding`. -/

namespace Slsm

namespace Binary64

/-- The nearest integer, the even one of two. -/
noncomputable def near (t : ℝ) : ℤ :=
  if Int.fract t < 1 / 2 then ⌊t⌋ else if 1 / 2 < Int.fract t then ⌊t⌋ + 1 else if Even ⌊t⌋ then ⌊t⌋ else ⌊t⌋ + 1

theorem near_cases (t : ℝ) : (near t = ⌊t⌋ ∧ Int.fract t ≤ 1 / 2) ∨ (near t = ⌊t⌋ + 1 ∧ 1 / 2 ≤ Int.fract t) := by
  unfold near
  split_ifs with h1 h2 h3
  · exact .inl ⟨rfl, h1.le⟩
  · exact .inr ⟨rfl, h2.le⟩
  · exact .inl ⟨rfl, not_lt.1 h2⟩
  · exact .inr ⟨rfl, not_lt.1 h1⟩

theorem near_int (n : ℤ) : near n = n := by simp [near]

theorem near_mono : Monotone near := by
  intro s t hst
  have hf : ⌊s⌋ ≤ ⌊t⌋ := Int.floor_le_floor hst
  have es := Int.floor_add_fract s
  have et := Int.floor_add_fract t
  rcases near_cases s with ⟨e1, h1⟩ | ⟨e1, h1⟩ <;> rcases near_cases t with ⟨e2, h2⟩ | ⟨e2, h2⟩
  · rw [e1, e2]; exact hf
  · rw [e1, e2]; omega
  · rcases hf.lt_or_eq with h | h
    · rw [e1, e2]; omega
    · have : Int.fract s ≤ Int.fract t := by rw [h] at es; linarith
      have a1 : Int.fract s = 1 / 2 := by linarith
      have a2 : Int.fract t = 1 / 2 := by linarith
      have : s = t := by rw [← es, ← et, h, a1, a2]
      rw [this]
  · rw [e1, e2]; omega

theorem near_err (t : ℝ) : |(near t : ℝ) - t| ≤ 1 / 2 := by
  have et := Int.floor_add_fract t
  have := Int.fract_lt_one t
  have := Int.fract_nonneg t
  rw [abs_le]
  rcases near_cases t with ⟨e, h⟩ | ⟨e, h⟩ <;> rw [e] <;> push_cast <;> constructor <;> linarith

theorem le_near {n : ℤ} {t : ℝ} (h : (n : ℝ) ≤ t) : n ≤ near t := by
  have := near_mono h
  rwa [near_int] at this

theorem near_le {n : ℤ} {t : ℝ} (h : t ≤ n) : near t ≤ n := by
  have := near_mono h
  rwa [near_int] at this

/-- Exponent of the last binary digit. -/
noncomputable def expo (x : ℝ) : ℤ := max (Int.log 2 |x|) (-1022) - 52

/-- Unit in the last place. -/
noncomputable def ulp (x : ℝ) : ℝ := (2 : ℝ) ^ expo x

/-- The nearest binary64 number. -/
noncomputable def rnd (x : ℝ) : ℝ := near (x / ulp x) * ulp x

theorem ulp_pos (x : ℝ) : 0 < ulp x := zpow_pos (by norm_num) _

theorem abs_lt_ulp (x : ℝ) : |x| < 2 ^ 53 * ulp x := by
  by_cases hx : |x| = 0
  · rw [hx]; have := ulp_pos x; positivity
  · have h0 : 0 < |x| := lt_of_le_of_ne (abs_nonneg x) (Ne.symm hx)
    have h1 := Int.lt_zpow_succ_log_self (b := 2) (by norm_num) |x|
    refine lt_of_lt_of_le h1 ?_
    unfold ulp expo
    rw [show ((2 : ℝ) ^ 53) = (2 : ℝ) ^ (53 : ℤ) from rfl, ← zpow_add₀ (by norm_num)]
    push_cast
    refine zpow_le_zpow_right₀ (by norm_num) ?_
    omega

/-- Multiples of powers of two with few digits are fixed. -/
theorem rnd_fix {k : ℤ} {j : ℤ} (hj : -1074 ≤ j) (hk : |k| ≤ 2 ^ 53) : rnd ((k : ℝ) * (2 : ℝ) ^ j) = k * (2 : ℝ) ^ j := by
  have small : ∀ {k j : ℤ}, -1074 ≤ j → |k| < 2 ^ 53 → rnd ((k : ℝ) * (2 : ℝ) ^ j) = k * (2 : ℝ) ^ j := by
    intro k j hj hk
    set x := (k : ℝ) * (2 : ℝ) ^ j with hx
    have hp : (0 : ℝ) < (2 : ℝ) ^ j := zpow_pos (by norm_num) _
    by_cases hk0 : k = 0
    · rw [hx, hk0]; simp [rnd, near]
    · have hx0 : 0 < |x| := by
        rw [abs_pos, hx]
        exact mul_ne_zero (by exact_mod_cast hk0) hp.ne'
      have hlt : |x| < (2 : ℝ) ^ (j + 53) := by
        rw [hx, abs_mul, abs_of_pos hp, zpow_add₀ (by norm_num), mul_comm]
        refine mul_lt_mul_of_pos_left ?_ hp
        have : ((|k| : ℤ) : ℝ) < ((2 ^ 53 : ℤ) : ℝ) := Int.cast_lt.2 hk
        rw [Int.cast_abs] at this
        rw [show ((2 ^ 53 : ℤ) : ℝ) = (2 : ℝ) ^ (53 : ℤ) by norm_num] at this
        exact this
      have hlog : Int.log 2 |x| < j + 53 := by
        have := (Int.lt_zpow_iff_log_lt (b := 2) (by norm_num) hx0 (x := j + 53)).1 (by exact_mod_cast hlt)
        exact this
      have he : expo x ≤ j := by unfold expo; omega
      obtain ⟨n, hn⟩ := Int.eq_ofNat_of_zero_le (sub_nonneg.2 he)
      have hq : x / ulp x = ((k * 2 ^ n : ℤ) : ℝ) := by
        rw [div_eq_iff (ulp_pos x).ne', hx]
        unfold ulp
        rw [← hx]
        push_cast
        rw [mul_assoc, show ((2 : ℝ) ^ n) = (2 : ℝ) ^ (n : ℤ) from (zpow_natCast _ _).symm, ← zpow_add₀ (by norm_num),
          show (n : ℤ) + expo x = j by omega]
      unfold rnd
      rw [hq, near_int, ← hq, div_mul_cancel₀ _ (ulp_pos x).ne']
  rcases hk.lt_or_eq with h | h
  · exact small hj h
  · obtain ⟨s, hs⟩ : ∃ s : ℤ, k = s * 2 ∧ |s| < 2 ^ 53 := by
      rcases abs_choice k with e | e
      · exact ⟨2 ^ 52, by omega, by norm_num⟩
      · exact ⟨-2 ^ 52, by omega, by norm_num⟩
    have := small (k := s) (j := j + 1) (by omega) hs.2
    rw [zpow_add₀ (by norm_num), zpow_one] at this
    rw [hs.1]
    push_cast
    rw [show (s : ℝ) * 2 * (2 : ℝ) ^ j = s * ((2 : ℝ) ^ j * 2) by ring]
    exact this

theorem rnd_form (x : ℝ) : ∃ k j : ℤ, -1074 ≤ j ∧ |k| ≤ 2 ^ 53 ∧ rnd x = k * (2 : ℝ) ^ j := by
  refine ⟨near (x / ulp x), expo x, by unfold expo; omega, ?_, rfl⟩
  have hlt := abs_lt_ulp x
  have h1 : |x / ulp x| ≤ 2 ^ 53 := by
    rw [abs_div, abs_of_pos (ulp_pos x), div_le_iff₀ (ulp_pos x)]
    exact hlt.le
  rw [abs_le] at h1 ⊢
  exact ⟨le_near (by rw [show ((-2 ^ 53 : ℤ) : ℝ) = -2 ^ 53 by norm_num]; exact h1.1),
    near_le (by rw [show ((2 ^ 53 : ℤ) : ℝ) = 2 ^ 53 by norm_num]; exact h1.2)⟩

theorem rnd_idem (x : ℝ) : rnd (rnd x) = rnd x := by
  obtain ⟨k, j, h1, h2, h3⟩ := rnd_form x
  rw [h3, rnd_fix h1 h2]

theorem rnd_neg (x : ℝ) (h : rnd x = x) : rnd (-x) = -x := by
  obtain ⟨k, j, h1, h2, h3⟩ := rnd_form x
  rw [h] at h3
  have := rnd_fix (k := -k) h1 (by rw [abs_neg]; exact h2)
  rw [h3, ← neg_mul]
  push_cast at this
  exact this

theorem rnd_nat (n : ℕ) (h : n ≤ 2 ^ 53) : rnd n = n := by
  have := rnd_fix (k := n) (j := 0) (by norm_num) (by rw [abs_of_nonneg (by positivity)]; exact_mod_cast h)
  simpa using this

theorem rnd_half (n : ℕ) (h : n ≤ 2 ^ 53) : rnd (n / 2) = n / 2 := by
  have := rnd_fix (k := n) (j := -1) (by norm_num) (by rw [abs_of_nonneg (by positivity)]; exact_mod_cast h)
  simpa [div_eq_mul_inv] using this

/-- Powers of two above the exponent are bounds for the rounded number. -/
theorem rnd_le_pow {x : ℝ} {e : ℤ} (he : expo x ≤ e) (s : ℤ) (hx : x ≤ s * (2 : ℝ) ^ e) : rnd x ≤ s * (2 : ℝ) ^ e := by
  obtain ⟨n, hn⟩ := Int.eq_ofNat_of_zero_le (sub_nonneg.2 he)
  have e1 : (s : ℝ) * (2 : ℝ) ^ e = ((s * 2 ^ n : ℤ) : ℝ) * ulp x := by
    unfold ulp
    push_cast
    rw [mul_assoc, show ((2 : ℝ) ^ n) = (2 : ℝ) ^ (n : ℤ) from (zpow_natCast _ _).symm, ← zpow_add₀ (by norm_num)]
    congr 2
    omega
  rw [e1] at hx ⊢
  refine mul_le_mul_of_nonneg_right ?_ (ulp_pos x).le
  exact_mod_cast near_le (by rwa [div_le_iff₀ (ulp_pos x)])

theorem pow_le_rnd {x : ℝ} {e : ℤ} (he : expo x ≤ e) (s : ℤ) (hx : s * (2 : ℝ) ^ e ≤ x) : s * (2 : ℝ) ^ e ≤ rnd x := by
  obtain ⟨n, hn⟩ := Int.eq_ofNat_of_zero_le (sub_nonneg.2 he)
  have e1 : (s : ℝ) * (2 : ℝ) ^ e = ((s * 2 ^ n : ℤ) : ℝ) * ulp x := by
    unfold ulp
    push_cast
    rw [mul_assoc, show ((2 : ℝ) ^ n) = (2 : ℝ) ^ (n : ℤ) from (zpow_natCast _ _).symm, ← zpow_add₀ (by norm_num)]
    congr 2
    omega
  rw [e1] at hx ⊢
  refine mul_le_mul_of_nonneg_right ?_ (ulp_pos x).le
  exact_mod_cast le_near (by rwa [le_div_iff₀ (ulp_pos x)])

theorem expo_mono {x y : ℝ} (hx : x ≠ 0) (h : |x| ≤ |y|) : expo x ≤ expo y := by
  have := Int.log_mono_right (b := 2) (abs_pos.2 hx) h
  unfold expo
  omega

/-- Between numbers of different size there is a power of two. -/
theorem between {x y : ℝ} (hy : y ≠ 0) (h : expo x < expo y) : ∃ e : ℤ, expo x ≤ e ∧ expo y ≤ e ∧ |x| ≤ (2 : ℝ) ^ e ∧ (2 : ℝ) ^ e ≤ |y| := by
  have hl : Int.log 2 |y| = expo y + 52 := by unfold expo at h ⊢; omega
  refine ⟨expo y + 52, by omega, by omega, ?_, ?_⟩
  · have := Int.lt_zpow_succ_log_self (b := 2) (by norm_num) |x|
    refine (this.le).trans (zpow_le_zpow_right₀ (by norm_num) ?_)
    unfold expo at h hl
    unfold expo
    omega
  · have := Int.zpow_log_le_self (b := 2) (by norm_num) (abs_pos.2 hy)
    rw [hl] at this
    exact_mod_cast this

theorem rnd_nonneg {x : ℝ} (h : 0 ≤ x) : 0 ≤ rnd x := by
  have := pow_le_rnd (x := x) (le_refl (expo x)) 0 (by simpa using h)
  simpa using this

theorem rnd_nonpos {x : ℝ} (h : x ≤ 0) : rnd x ≤ 0 := by
  have := rnd_le_pow (x := x) (le_refl (expo x)) 0 (by simpa using h)
  simpa using this

theorem rnd_mono : Monotone rnd := by
  intro x y hxy
  have same : expo x = expo y → rnd x ≤ rnd y := by
    intro e
    have eu : ulp x = ulp y := by unfold ulp; rw [e]
    unfold rnd
    rw [eu]
    refine mul_le_mul_of_nonneg_right ?_ (ulp_pos y).le
    exact_mod_cast near_mono (div_le_div_of_nonneg_right hxy (ulp_pos y).le)
  rcases le_or_gt 0 x with hx | hx
  · rcases hx.eq_or_lt with rfl | hx
    · exact (rnd_nonpos le_rfl).trans (rnd_nonneg hxy)
    have hy : 0 < y := hx.trans_le hxy
    rcases (expo_mono (y := y) hx.ne' (by rw [abs_of_pos hx, abs_of_pos hy]; exact hxy)).lt_or_eq with h | h
    · obtain ⟨e, h1, h2, h3, h4⟩ := between hy.ne' h
      rw [abs_of_pos hx] at h3
      rw [abs_of_pos hy] at h4
      have a := rnd_le_pow h1 1 (by simpa using h3)
      have b := pow_le_rnd h2 1 (by simpa using h4)
      exact a.trans b
    · exact same h
  · rcases le_or_gt 0 y with hy | hy
    · exact (rnd_nonpos hx.le).trans (rnd_nonneg hy)
    rcases (expo_mono (x := y) (y := x) hy.ne (by rw [abs_of_neg hx, abs_of_neg hy]; linarith)).lt_or_eq with h | h
    · obtain ⟨e, h1, h2, h3, h4⟩ := between hx.ne h
      rw [abs_of_neg hy] at h3
      rw [abs_of_neg hx] at h4
      have a := rnd_le_pow h2 (-1) (by push_cast; linarith)
      have b := pow_le_rnd h1 (-1) (by push_cast; linarith)
      exact a.trans b
    · exact same h.symm

theorem rnd_err (x : ℝ) : |rnd x - x| ≤ |x| / 2 ^ 53 + 1 / 2 ^ 1075 := by
  by_cases hx : x = 0
  · subst hx
    have := rnd_nat 0 (by norm_num)
    push_cast at this
    rw [this, sub_zero, abs_zero]
    positivity
  have hu := ulp_pos x
  have h1 : |rnd x - x| ≤ 1 / 2 * ulp x := by
    have e : rnd x - x = (near (x / ulp x) - x / ulp x) * ulp x := by
      unfold rnd
      rw [sub_mul, div_mul_cancel₀ _ hu.ne']
    rw [e, abs_mul, abs_of_pos hu]
    exact mul_le_mul_of_nonneg_right (near_err _) hu.le
  refine h1.trans ?_
  rcases le_total (Int.log 2 |x|) (-1022) with h | h
  · have : ulp x = 1 / 2 ^ 1074 := by
      unfold ulp expo
      rw [max_eq_right h]
      norm_num [zpow_neg]
    rw [this]
    have : (1 : ℝ) / 2 * (1 / 2 ^ 1074) = 1 / 2 ^ 1075 := by rw [pow_succ (2 : ℝ) 1074, one_div_mul_one_div, mul_comm]
    rw [this]
    have : 0 ≤ |x| / 2 ^ 53 := by positivity
    linarith
  · have hp := Int.zpow_log_le_self (b := 2) (by norm_num) (abs_pos.2 hx)
    have : ulp x ≤ |x| / 2 ^ 52 := by
      unfold ulp expo
      rw [max_eq_left h, zpow_sub₀ (by norm_num)]
      exact div_le_div_of_nonneg_right (by exact_mod_cast hp) (by positivity)
    have e : |x| / 2 ^ 53 = 1 / 2 * (|x| / 2 ^ 52) := by rw [pow_succ]; ring
    have : (0 : ℝ) ≤ 1 / 2 ^ 1075 := by positivity
    rw [e]
    linarith

/-- Numbers that are not small are multiples of `2⁻⁵⁵`. -/
theorem rnd_multiple {x : ℝ} (h : rnd x = x) (hx : 1 / 8 ≤ |x|) : ∃ k : ℤ, x = k / 2 ^ 55 := by
  have h0 : 0 < |x| := by linarith
  have hl : -3 ≤ Int.log 2 |x| := by
    rw [← Int.zpow_le_iff_le_log (b := 2) (by norm_num) h0]
    refine le_trans (le_of_eq ?_) hx
    norm_num [zpow_neg]
  have he : -55 ≤ expo x := by unfold expo; omega
  obtain ⟨n, hn⟩ := Int.eq_ofNat_of_zero_le (by omega : 0 ≤ expo x + 55)
  refine ⟨near (x / ulp x) * 2 ^ n, ?_⟩
  have hu : ulp x = 2 ^ n / 2 ^ 55 := by
    unfold ulp
    rw [show expo x = (n : ℤ) - 55 by omega, zpow_sub₀ (by norm_num), zpow_natCast]
    rfl
  have : x = near (x / ulp x) * ulp x := h.symm
  generalize near (x / ulp x) = k at this
  rw [hu] at this
  rw [this]
  push_cast
  ring

theorem rnd_gap (x y : ℝ) (h1 : rnd x = x) (h2 : rnd y = y) (hx : 1 / 4 ≤ |x|) (hne : x ≠ y) : 1 / 2 ^ 60 ≤ |x - y| := by
  rcases lt_or_ge |y| (1 / 8) with hy | hy
  · have := abs_sub_abs_le_abs_sub x y
    norm_num
    linarith
  · obtain ⟨i, hi⟩ := rnd_multiple h1 (by linarith)
    obtain ⟨j, hj⟩ := rnd_multiple h2 hy
    have hij : i ≠ j := by rintro rfl; exact hne (by rw [hi, hj])
    have : (1 : ℝ) ≤ |(i : ℝ) - j| := by
      have := Int.one_le_abs (sub_ne_zero.2 hij)
      exact_mod_cast this
    rw [hi, hj, ← sub_div, abs_div, abs_of_pos (by positivity : (0 : ℝ) < 2 ^ 55), le_div_iff₀ (by positivity)]
    refine le_trans ?_ this
    norm_num

end Binary64

/-- IEEE binary64 without overflow, rounding to nearest, ties to even. -/
noncomputable def binary64 : Rounding where
  rnd := Binary64.rnd
  mono := Binary64.rnd_mono
  idem := Binary64.rnd_idem
  neg := Binary64.rnd_neg
  nat := Binary64.rnd_nat
  half := Binary64.rnd_half
  err x := by
    refine (Binary64.rnd_err x).trans (add_le_add ?_ ?_)
    · exact div_le_div_of_nonneg_left (abs_nonneg x) (by positivity) (pow_le_pow_right₀ (by norm_num) (by norm_num))
    · exact div_le_div_of_nonneg_left (by norm_num) (by positivity) (pow_le_pow_right₀ (by norm_num) (by norm_num))
  gap := Binary64.rnd_gap

end Slsm
