import Verif.Proof.FMMSide
import Verif.Proof.RoundGrad
import Verif.Spec.RoundEik

/-! # The node update of the fast marching method in rounded arithmetic -/

namespace Slsm

open FP Rounding

namespace Rounding

variable {R : Rounding}

/-- `x` stands for `t`, which is at most `m M` in size, with an error of at most `k M` times the relative error of one operation -/
def Cl (k m M x t : ℝ) : Prop := |x - t| ≤ k * (M / 2 ^ 52) ∧ |t| ≤ m * M

theorem Cl.exact {m M t : ℝ} (h : |t| ≤ m * M) : Cl 0 m M t t := ⟨by simp, h⟩

theorem Cl.mono {k m k' m' M x t : ℝ} (h : Cl k m M x t) (hM : 0 ≤ M) (hk : k ≤ k') (hm : m ≤ m') : Cl k' m' M x t :=
  ⟨h.1.trans (mul_le_mul_of_nonneg_right hk (by positivity)), h.2.trans (mul_le_mul_of_nonneg_right hm hM)⟩

theorem Cl.rnd {k m M x t : ℝ} (h : Cl k m M x t) (hM : 1 ≤ M) (hk : k ≤ 2 ^ 20) : Cl (k + m + 1) m M (R.rnd x) t := by
  refine ⟨?_, h.2⟩
  have h1 := rnd_near (R := R) h.1 h.2
  have h2 : k * (M / 2 ^ 52) ≤ 2 ^ 20 * (M / 2 ^ 52) := mul_le_mul_of_nonneg_right hk (by positivity)
  have h3 : (k * (M / 2 ^ 52)) / 2 ^ 52 ≤ (2 ^ 20 * (M / 2 ^ 52)) / 2 ^ 52 := div_le_div_of_nonneg_right h2 (by positivity)
  rw [add_div] at h1
  generalize k * (M / 2 ^ 52) / 2 ^ 52 = z at *
  have e : (k + m + 1) * (M / 2 ^ 52) = k * (M / 2 ^ 52) + m * M / 2 ^ 52 + M / 2 ^ 52 := by ring
  rw [e]
  generalize k * (M / 2 ^ 52) = z1 at *
  generalize m * M = z2 at *
  norm_num at *
  linarith

theorem Cl.mul {k m M x t l n N y s : ℝ} (h : Cl k m M x t) (g : Cl l n N y s) (hM : 0 ≤ M) (hN : 0 ≤ N) (k0 : 0 ≤ k) (l0 : 0 ≤ l) (m0 : 0 ≤ m)
    (hk : k ≤ 2 ^ 20) (hl : l ≤ 2 ^ 20) : Cl (k * n + m * l + 1) (m * n) (M * N) (x * y) (t * s) := by
  constructor
  · have e : x * y - t * s = (x - t) * s + t * (y - s) + (x - t) * (y - s) := by ring
    rw [e]
    have a1 := abs_add_le ((x - t) * s + t * (y - s)) ((x - t) * (y - s))
    have a2 := abs_add_le ((x - t) * s) (t * (y - s))
    rw [abs_mul, abs_mul] at a2
    rw [abs_mul (x - t) (y - s)] at a1
    have b1 : |x - t| * |s| ≤ k * (M / 2 ^ 52) * (n * N) := mul_le_mul h.1 g.2 (abs_nonneg _) (by positivity)
    have b2 : |t| * |y - s| ≤ m * M * (l * (N / 2 ^ 52)) := mul_le_mul h.2 g.1 (abs_nonneg _) (by positivity)
    have b3 : |x - t| * |y - s| ≤ k * (M / 2 ^ 52) * (l * (N / 2 ^ 52)) := mul_le_mul h.1 g.1 (abs_nonneg _) (by positivity)
    have b4 : k * (M / 2 ^ 52) * (l * (N / 2 ^ 52)) ≤ 2 ^ 20 * (M / 2 ^ 52) * (2 ^ 20 * (N / 2 ^ 52)) := by gcongr
    have e2 : (k * n + m * l + 1) * (M * N / 2 ^ 52) =
        k * (M / 2 ^ 52) * (n * N) + m * M * (l * (N / 2 ^ 52)) + M * N / 2 ^ 52 := by ring
    have e3 : 2 ^ 20 * (M / 2 ^ 52) * (2 ^ 20 * (N / 2 ^ 52)) = (M * N) / 2 ^ 64 := by ring
    rw [e2]
    have : 0 ≤ M * N := mul_nonneg hM hN
    have b5 : (M * N) / 2 ^ 64 ≤ M * N / 2 ^ 52 := by
      generalize M * N = z at *
      norm_num
      linarith
    linarith
  · rw [abs_mul]
    calc |t| * |s| ≤ (m * M) * (n * N) := mul_le_mul h.2 g.2 (abs_nonneg _) (by positivity)
      _ = m * n * (M * N) := by ring

theorem Cl.add {k m M x t l n y s : ℝ} (h : Cl k m M x t) (g : Cl l n M y s) : Cl (k + l) (m + n) M (x + y) (t + s) := by
  constructor
  · have := near_add h.1 g.1
    rwa [← add_mul] at this
  · have := abs_add_le t s
    have a := h.2
    have b := g.2
    linarith

theorem Cl.sub {k m M x t l n y s : ℝ} (h : Cl k m M x t) (g : Cl l n M y s) : Cl (k + l) (m + n) M (x - y) (t - s) := by
  constructor
  · have := near_sub h.1 g.1
    rwa [← add_mul] at this
  · have := abs_sub t s
    have a := h.2
    have b := g.2
    linarith

theorem Cl.neg {k m M x t : ℝ} (h : Cl k m M x t) : Cl k m M (-x) (-t) := by
  constructor
  · have := h.1
    rw [show -x - -t = -(x - t) by ring, abs_neg]
    exact this
  · rw [abs_neg]; exact h.2

/-- a whole number -/
theorem Cl.nat (n : ℕ) (hn : n ≤ 2 ^ 53) : Cl 0 n 1 (FP.nat n : R.Num).val n := by
  rw [val_nat hn]
  exact Cl.exact (by rw [abs_of_nonneg (by positivity)]; simp)

theorem val_lit (p q : ℕ) (hp : p ≤ 2 ^ 53) (hq : q ≤ 2 ^ 53) : (lit p q : R.Num).val = R.rnd (p / q) := by
  unfold FP.lit
  rw [val_div, val_nat hp, val_nat hq]

theorem Cl.lit (p q : ℕ) (hp : p ≤ 2 ^ 53) (hq : q ≤ 2 ^ 53) : Cl (p / q + 1) (p / q) 1 (lit p q : R.Num).val (p / q) := by
  rw [val_lit p q hp hq]
  have := (Cl.exact (m := (p : ℝ) / q) (M := 1) (t := (p : ℝ) / q) (by rw [abs_of_nonneg (by positivity)]; simp)).rnd (R := R) le_rfl (by norm_num)
  rwa [zero_add] at this

end Rounding

namespace FMM

variable {R : Rounding} {S : ℝ}

/-- the third and the quarter of the second-order formula -/
theorem tp_cl (hS : 1 ≤ S) {d1 d2 : R.Num} (h1 : |d1.val| ≤ S) (h2 : |d2.val| ≤ S) :
    Cl 15 (5 / 3) S (lit 1 3 *. (nat 4 *. d1 -. d2) : R.Num).val (1 / 3 * (4 * d1.val - d2.val)) := by
  have c1 : Cl 0 1 S d1.val d1.val := Cl.exact (by simpa using h1)
  have c2 : Cl 0 1 S d2.val d2.val := Cl.exact (by simpa using h2)
  have hS0 : 0 ≤ S := by linarith
  have a := Cl.nat (R := R) 4 (by norm_num)
  have b := (a.mul c1 (by norm_num) hS0 (by norm_num) (by norm_num) (by norm_num) (by norm_num) (by norm_num))
  rw [one_mul] at b
  have b' := (b.rnd (R := R) hS (by norm_num)).sub c2
  have b'' := b'.rnd (R := R) hS (by norm_num)
  have l := Cl.lit (R := R) 1 3 (by norm_num) (by norm_num)
  have e := l.mul b'' (by norm_num) hS0 (by norm_num) (by norm_num) (by norm_num) (by norm_num) (by norm_num)
  rw [one_mul] at e
  have e' := e.rnd (R := R) hS (by norm_num)
  have e'' := e'.mono (k' := 15) (m' := 5 / 3) hS0 (by norm_num) (by norm_num)
  simpa using e''

/-- near coefficients -/
def Cl3 (S ka ma kb mb kc mc : ℝ) (x : R.Num × R.Num × R.Num) (t : ℝ × ℝ × ℝ) : Prop :=
  Cl ka ma 1 x.1.val t.1 ∧ Cl kb mb S x.2.1.val t.2.1 ∧ Cl kc mc (S * S) x.2.2.val t.2.2

theorem acc2_cl (hS : 1 ≤ S) {d1 d2 : R.Num} (h1 : |d1.val| ≤ S) (h2 : |d2.val| ≤ S) {ka ma kb mb kc mc : ℝ}
    {x : R.Num × R.Num × R.Num} {t : ℝ × ℝ × ℝ} (hx : Cl3 S ka ma kb mb kc mc x t) (ka' : ka ≤ 2 ^ 10) (kb' : kb ≤ 2 ^ 10) (kc' : kc ≤ 2 ^ 10) :
    Cl3 S (ka + 4 + (ma + 9 / 4) + 1) (ma + 9 / 4) (kb + 99 + (mb + 15 / 2) + 1) (mb + 15 / 2)
      (kc + 140 + (mc + 25 / 4) + 1) (mc + 25 / 4)
      (x.1 +. lit 9 4, x.2.1 -. nat 2 *. lit 9 4 *. (lit 1 3 *. (nat 4 *. d1 -. d2)),
        x.2.2 +. lit 9 4 *. (lit 1 3 *. (nat 4 *. d1 -. d2)) *. (lit 1 3 *. (nat 4 *. d1 -. d2)))
      (accUp (some (d1.val, some d2.val)) t) := by
  have tp := tp_cl hS h1 h2
  have hS0 : 0 ≤ S := by linarith
  have hSS : 1 ≤ S * S := by nlinarith
  have aa := (Cl.lit (R := R) 9 4 (by norm_num) (by norm_num)).mono (k' := 13 / 4) (m' := 9 / 4) (by norm_num) (by norm_num) (by norm_num)
  generalize (lit 1 3 *. (nat 4 *. d1 -. d2) : R.Num) = T at *
  generalize hA : (lit 9 4 : R.Num) = A at *
  obtain ⟨xa, xb, xc⟩ := hx
  unfold Cl3 accUp
  simp only
  generalize (1 / 3 * (4 * d1.val - d2.val)) = τ at *
  refine ⟨?_, ?_, ?_⟩
  · have := (xa.add aa).rnd (R := R) le_rfl (by norm_num at *; linarith)
    have := this.mono (k' := ka + 4 + (ma + 9 / 4) + 1) (m' := ma + 9 / 4) (by norm_num) (by linarith) le_rfl
    simpa using this
  · have u1 := ((Cl.nat (R := R) 2 (by norm_num)).mul aa (by norm_num) (by norm_num) (by norm_num) (by norm_num) (by norm_num) (by norm_num) (by norm_num)).rnd (R := R)
      (by norm_num) (by norm_num)
    have u2 := (u1.mul tp (by norm_num) hS0 (by norm_num) (by norm_num) (by norm_num) (by norm_num) (by norm_num))
    rw [show (1 * 1 * S : ℝ) = S by ring] at u2
    have u3 := (u2.rnd (R := R) hS (by norm_num)).mono (k' := 99) (m' := 15 / 2) hS0 (by norm_num) (by norm_num)
    have u4 := (xb.sub u3).rnd (R := R) hS (by norm_num at *; linarith)
    simpa using u4
  · have u1 := (aa.mul tp (by norm_num) hS0 (by norm_num) (by norm_num) (by norm_num) (by norm_num) (by norm_num))
    rw [show (1 * S : ℝ) = S by ring] at u1
    have u2 := ((u1.rnd (R := R) hS (by norm_num)).mul tp hS0 hS0 (by norm_num) (by norm_num) (by norm_num) (by norm_num) (by norm_num)).rnd (R := R)
      hSS (by norm_num)
    have u3 := u2.mono (k' := 140) (m' := 25 / 4) (by linarith) (by norm_num) (by norm_num)
    have u4 := (xc.add u3).rnd (R := R) hSS (by norm_num at *; linarith)
    simpa using u4

theorem acc1_cl (hS : 1 ≤ S) {d1 : R.Num} (h1 : |d1.val| ≤ S) {ka ma kb mb kc mc : ℝ}
    {x : R.Num × R.Num × R.Num} {t : ℝ × ℝ × ℝ} (hx : Cl3 S ka ma kb mb kc mc x t) (ka' : ka ≤ 2 ^ 10) (kb' : kb ≤ 2 ^ 10) (kc' : kc ≤ 2 ^ 10) :
    Cl3 S (ka + 4 + (ma + 9 / 4) + 1) (ma + 9 / 4) (kb + 99 + (mb + 15 / 2) + 1) (mb + 15 / 2)
      (kc + 140 + (mc + 25 / 4) + 1) (mc + 25 / 4)
      (x.1 +. nat 1, x.2.1 -. nat 2 *. d1, x.2.2 +. d1 *. d1) (accUp (some (d1.val, none)) t) := by
  have c1 : Cl 0 1 S d1.val d1.val := Cl.exact (by simpa using h1)
  have hS0 : 0 ≤ S := by linarith
  have hSS : 1 ≤ S * S := by nlinarith
  obtain ⟨xa, xb, xc⟩ := hx
  unfold Cl3 accUp
  simp only
  refine ⟨?_, ?_, ?_⟩
  · have := (xa.add (Cl.nat (R := R) 1 (by norm_num))).rnd (R := R) le_rfl (by norm_num at *; linarith)
    have := this.mono (k' := ka + 4 + (ma + 9 / 4) + 1) (m' := ma + 9 / 4) (by norm_num) (by norm_num; linarith) (by norm_num)
    simpa using this
  · have u2 := ((Cl.nat (R := R) 2 (by norm_num)).mul c1 (by norm_num) hS0 (by norm_num) (by norm_num) (by norm_num) (by norm_num) (by norm_num))
    rw [show (1 * S : ℝ) = S by ring] at u2
    have u3 := (u2.rnd (R := R) hS (by norm_num)).mono (k' := 99) (m' := 15 / 2) hS0 (by norm_num) (by norm_num)
    have u4 := (xb.sub u3).rnd (R := R) hS (by norm_num at *; linarith)
    simpa using u4
  · have u2 := (c1.mul c1 hS0 hS0 (by norm_num) (by norm_num) (by norm_num) (by norm_num) (by norm_num)).rnd (R := R)
      hSS (by norm_num)
    have u3 := u2.mono (k' := 140) (m' := 25 / 4) (by linarith) (by norm_num) (by norm_num)
    have u4 := (xc.add u3).rnd (R := R) hSS (by norm_num at *; linarith)
    simpa using u4

/-- sentinels for sentinels, values for values -/
def Same (S : ℝ) (d : R.Num × R.Num) (e : ℝ × ℝ) : Prop :=
  (d = (maxVal, maxVal) ∧ e = (maxVal, maxVal)) ∨
    (d.1.val = e.1 ∧ |e.1| ≤ S ∧ ((d.2 = maxVal ∧ e.2 = maxVal) ∨ (d.2.val = e.2 ∧ |e.2| ≤ S)))

theorem big_le : (2 : ℝ) ^ 53 ≤ (2 - 1 / 2 ^ 52) * 2 ^ 1023 := by
  have h1 : (2 : ℝ) ^ 53 ≤ 2 ^ 1023 := pow_le_pow_right₀ (by norm_num) (by norm_num)
  have h2 : (1 : ℝ) ≤ 2 - 1 / 2 ^ 52 := by norm_num
  generalize (2 : ℝ) ^ 1023 = z at *
  have : (0 : ℝ) ≤ z := le_trans (by positivity) h1
  nlinarith

theorem lt_maxVal (hS : S ≤ 2 ^ 31) {x : ℝ} (h : x ≤ S) : x < (maxVal : ℝ) := by
  have := big_le
  show x < (2 - 1 / 2 ^ 52) * 2 ^ 1023
  have h2 : (2 : ℝ) ^ 31 < 2 ^ 53 := by norm_num
  exact lt_of_le_of_lt (h.trans hS) (lt_of_lt_of_le h2 this)

theorem lt_maxVal' (hS : S ≤ 2 ^ 31) {x : ℝ} (h : x ≤ S) : x < (maxVal : R.Num).val := by
  have h1 := R.mono big_le
  have h3 : R.rnd ((2 : ℝ) ^ 53) = 2 ^ 53 := by
    have := R.nat (2 ^ 53) le_rfl
    rwa [Nat.cast_pow, Nat.cast_ofNat] at this
  rw [h3] at h1
  show x < R.rnd ((2 - 1 / 2 ^ 52) * 2 ^ 1023)
  have h2 : (2 : ℝ) ^ 31 < 2 ^ 53 := by norm_num
  exact lt_of_le_of_lt (h.trans hS) (lt_of_lt_of_le h2 h1)

theorem nb_map {D E : Type} [FP D] [FP E] (g : D → E) (m : Mesh D) (i j : Nat) : nb (m.map g) i j = nb m i j := by
  unfold nb Mesh.map
  simp only [List.getElem?_map]
  cases m.nodes[i]? <;> rfl

theorem nNodes_map {D E : Type} [FP D] [FP E] (g : D → E) (m : Mesh D) : (m.map g).nNodes = m.nNodes := rfl

theorem stencil_same (hS : S ≤ 2 ^ 31) {m : Mesh R.Num} {s : AS R.Num} {n i j : Nat}
    (hb : nb m n (2 * i + j) ≠ m.nNodes → s.st (nb m n (2 * i + j)) = .frozen → |(s.sd (nb m n (2 * i + j))).val| ≤ S)
    {d : R.Num × R.Num} {e : ℝ × ℝ} (h : Same S d e) :
    Same S (stencilV m s n i j d) (stencilV (m.map Num.val) s.exact n i j e) := by
  unfold stencilV
  rw [nb_map, nb_map, nNodes_map]
  generalize nb m n (2 * i + j) = k at *
  generalize nb m k (2 * i + j) = k2 at *
  have hst : s.exact.st = s.st := rfl
  have hsd : ∀ i, s.exact.sd i = (s.sd i).val := fun _ => rfl
  simp only [hst, hsd, FP.abs_real, FP.lt_real, FP.le_real, lt_iff, le_iff, val_abs]
  by_cases h1 : k ≠ m.nNodes ∧ s.st k = .frozen
  · have hv := hb h1.1 h1.2
    have hcmp : (|(s.sd k).val| < |d.1.val| ↔ |(s.sd k).val| < |e.1|) := by
      rcases h with ⟨rfl, rfl⟩ | ⟨h, -, -⟩
      · exact ⟨fun _ => lt_of_lt_of_le (lt_maxVal hS hv) (le_abs_self _), fun _ => lt_of_lt_of_le (lt_maxVal' hS hv) (le_abs_self _)⟩
      · rw [h]
    by_cases h2 : |(s.sd k).val| < |d.1.val|
    · rw [if_pos (show k ≠ m.nNodes ∧ s.st k = .frozen ∧ |(s.sd k).val| < |d.1.val| from ⟨h1.1, h1.2, h2⟩),
        if_pos (show k ≠ m.nNodes ∧ s.st k = .frozen ∧ |(s.sd k).val| < |e.1| from ⟨h1.1, h1.2, hcmp.1 h2⟩)]
      refine .inr ⟨rfl, hv, ?_⟩
      by_cases h3 : k2 ≠ m.nNodes ∧ s.st k2 = .frozen ∧ |(s.sd k2).val| ≤ |(s.sd k).val|
      · rw [if_pos h3, if_pos h3]
        exact .inr ⟨rfl, h3.2.2.trans hv⟩
      · rw [if_neg h3, if_neg h3]
        rcases h with ⟨rfl, rfl⟩ | ⟨-, -, h⟩
        · exact .inl ⟨rfl, rfl⟩
        · exact h
    · rw [if_neg (show ¬ (k ≠ m.nNodes ∧ s.st k = .frozen ∧ |(s.sd k).val| < |d.1.val|) from fun g => h2 g.2.2),
        if_neg (show ¬ (k ≠ m.nNodes ∧ s.st k = .frozen ∧ |(s.sd k).val| < |e.1|) from fun g => h2 (hcmp.2 g.2.2))]
      exact h
  · rw [if_neg (show ¬ (k ≠ m.nNodes ∧ s.st k = .frozen ∧ |(s.sd k).val| < |d.1.val|) from fun g => h1 ⟨g.1, g.2.1⟩),
        if_neg (show ¬ (k ≠ m.nNodes ∧ s.st k = .frozen ∧ |(s.sd k).val| < |e.1|) from fun g => h1 ⟨g.1, g.2.1⟩)]
    exact h

theorem dists_same (hS : S ≤ 2 ^ 31) {m : Mesh R.Num} {s : AS R.Num} {n : Nat} (i : Nat)
    (hb : ∀ j, j < 2 → nb m n (2 * i + j) ≠ m.nNodes → s.st (nb m n (2 * i + j)) = .frozen → |(s.sd (nb m n (2 * i + j))).val| ≤ S) :
    Same S (dists m s n i) (dists (m.map Num.val) s.exact n i) := by
  unfold dists
  exact stencil_same hS (hb 1 (by norm_num)) (stencil_same hS (hb 0 (by norm_num)) (.inl ⟨rfl, rfl⟩))

theorem accum_cl (h1 : 1 ≤ S) (hS : S ≤ 2 ^ 31) {d : R.Num × R.Num} {e : ℝ × ℝ} (h : Same S d e) {ka ma kb mb kc mc : ℝ}
    {x : R.Num × R.Num × R.Num} {t : ℝ × ℝ × ℝ} (hx : Cl3 S ka ma kb mb kc mc x t) (ka' : ka ≤ 2 ^ 10) (kb' : kb ≤ 2 ^ 10) (kc' : kc ≤ 2 ^ 10)
    (ma' : 0 ≤ ma) (mb' : 0 ≤ mb) (mc' : 0 ≤ mc) :
    Cl3 S (ka + 4 + (ma + 9 / 4) + 1) (ma + 9 / 4) (kb + 99 + (mb + 15 / 2) + 1) (mb + 15 / 2)
      (kc + 140 + (mc + 25 / 4) + 1) (mc + 25 / 4) (accum d.1 d.2 x) (accum e.1 e.2 t) := by
  have hS0 : 0 ≤ S := by linarith
  rcases h with ⟨rfl, rfl⟩ | ⟨a, b, ⟨c, f⟩ | ⟨c, f⟩⟩
  · unfold accum
    simp only [lt_iff, FP.lt_real, lt_irrefl, if_false]
    exact ⟨hx.1.mono (by norm_num) (by linarith) (by linarith), hx.2.1.mono hS0 (by linarith) (by linarith),
      hx.2.2.mono (by positivity) (by linarith) (by linarith)⟩
  · have g1 : d.1.val < (maxVal : R.Num).val := lt_maxVal' hS (by rw [a]; exact (le_abs_self _).trans b)
    have g2 : e.1 < (maxVal : ℝ) := lt_maxVal hS ((le_abs_self _).trans b)
    have := acc1_cl h1 (d1 := d.1) (by rwa [a]) hx ka' kb' kc'
    unfold accum
    rw [c, f]
    simp only [lt_iff, FP.lt_real, lt_irrefl, if_false, g1, g2, if_true]
    simpa [accUp, a] using this
  · have g1 : d.2.val < (maxVal : R.Num).val := lt_maxVal' hS (by rw [c]; exact (le_abs_self _).trans f)
    have g2 : e.2 < (maxVal : ℝ) := lt_maxVal hS ((le_abs_self _).trans f)
    have := acc2_cl h1 (d1 := d.1) (d2 := d.2) (by rwa [a]) (by rwa [c]) hx ka' kb' kc'
    unfold accum
    simp only [lt_iff, FP.lt_real, g1, g2, if_true]
    simpa [accUp, a, c] using this

/-- the coefficients -/
theorem coeffs_cl (h1 : 1 ≤ S) (hS : S ≤ 2 ^ 31) {m : Mesh R.Num} {s : AS R.Num} {n : Nat}
    (hb : ∀ j, j < 4 → nb m n j ≠ m.nNodes → s.st (nb m n j) = .frozen → |(s.sd (nb m n j)).val| ≤ S) :
    Cl3 S 17 (9 / 2) 223 15 301 (25 / 2) (coeffs m s n) (coeffs (m.map Num.val) s.exact n) := by
  have d0 := dists_same hS (m := m) (s := s) (n := n) 0 (fun j hj => hb _ (by omega))
  have d1 := dists_same hS (m := m) (s := s) (n := n) 1 (fun j hj => hb _ (by omega))
  have x0 : Cl3 S 0 0 0 0 0 0 ((FP.nat 0, FP.nat 0, FP.nat 0) : R.Num × R.Num × R.Num) ((FP.nat 0, FP.nat 0, FP.nat 0) : ℝ × ℝ × ℝ) := by
    unfold Cl3 Cl; simp
  have x1 := accum_cl h1 hS d0 x0 (by norm_num) (by norm_num) (by norm_num) (by norm_num) (by norm_num) (by norm_num)
  have x2 := accum_cl h1 hS d1 x1 (by norm_num) (by norm_num) (by norm_num) (by norm_num) (by norm_num) (by norm_num)
  unfold coeffs
  exact ⟨x2.1.mono (by norm_num) (by norm_num) (by norm_num), x2.2.1.mono (by linarith) (by norm_num) (by norm_num),
    x2.2.2.mono (by positivity) (by norm_num) (by norm_num)⟩

theorem accUp_ge (u : Upwind) (c : ℝ × ℝ × ℝ) (h : c.1 = 0 ∨ 1 ≤ c.1) :
    (c.1 ≤ (accUp u c).1) ∧ ((accUp u c).1 = 0 ∨ 1 ≤ (accUp u c).1) := by
  match u with
  | none => exact ⟨le_rfl, h⟩
  | some (d1, none) => simp only [accUp]; rcases h with h | h <;> (constructor <;> [linarith; (right; linarith)])
  | some (d1, some d2) => simp only [accUp]; rcases h with h | h <;> (constructor <;> [linarith; (right; linarith)])

theorem coeffs_ge (m : Mesh ℝ) (s : AS ℝ) (n : Nat) : (coeffs m s n).1 = 0 ∨ 1 ≤ (coeffs m s n).1 := by
  rw [coeffs_up]
  exact (accUp_ge _ _ (accUp_ge _ _ (.inl rfl)).2).2

/-- the discriminant -/
theorem det_cl (hS : 1 ≤ S) {a b c : R.Num} {α β γ : ℝ} (ha : Cl 17 (9 / 2) 1 a.val α) (hb : Cl 223 15 S b.val β)
    (hc : Cl 301 (25 / 2) (S * S) c.val γ) :
    Cl 14500 468 (S * S) (b *. b -. nat 4 *. a *. (c -. nat 1)).val (β * β - 4 * α * (γ - 1)) := by
  have hS0 : 0 ≤ S := by linarith
  have hSS : 1 ≤ S * S := by nlinarith
  have one : Cl 0 1 (S * S) (FP.nat 1 : R.Num).val 1 := by
    rw [val_one]; exact Cl.exact (by simpa using hSS)
  have c1 := (hc.sub one).rnd (R := R) hSS (by norm_num)
  have b2 := (hb.mul hb hS0 hS0 (by norm_num) (by norm_num) (by norm_num) (by norm_num) (by norm_num)).rnd (R := R) hSS (by norm_num)
  have a4 := ((Cl.nat (R := R) 4 (by norm_num)).mul ha (by norm_num) (by norm_num) (by norm_num) (by norm_num) (by norm_num) (by norm_num) (by norm_num)).rnd (R := R)
    (by norm_num) (by norm_num)
  have ac := a4.mul c1 (by norm_num) (by linarith) (by norm_num) (by norm_num) (by norm_num) (by norm_num) (by norm_num)
  rw [show 1 * 1 * (S * S) = S * S by ring] at ac
  have ac' := ac.rnd (R := R) hSS (by norm_num)
  have := ((b2.sub ac').rnd (R := R) hSS (by norm_num)).mono (k' := 14500) (m' := 468) (by linarith) (by norm_num) (by norm_num)
  simpa using this

/-- the root -/
theorem root_cl (hS : 1 ≤ S) {a b : R.Num} {α β q s : ℝ} (hα : 1 ≤ α) (ha : Cl 17 (9 / 2) 1 a.val α) (hb : Cl 223 15 S b.val β)
    (hs : Cl 23 (217 / 10) S s q) :
    Cl 580 (37 / 2) S (R.rnd (R.rnd (-b.val + s) / (nat 2 *. a).val)) ((-β + q) / (2 * α)) := by
  have hS0 : 0 ≤ S := by linarith
  have hn := (hb.neg.add hs).rnd (R := R) hS (by norm_num)
  have hd := ((Cl.nat (R := R) 2 (by norm_num)).mul ha (by norm_num) (by norm_num) (by norm_num) (by norm_num) (by norm_num) (by norm_num) (by norm_num)).rnd (R := R)
    (by norm_num) (by norm_num)
  have hn := hn.mono (k' := 284) (m' := 367 / 10) hS0 (by norm_num) (by norm_num)
  have hd := hd.mono (k' := 45) (m' := 9) (by norm_num) (by norm_num) (by norm_num)
  have ed : (nat 2 *. a : R.Num).val = R.rnd ((FP.nat 2 : R.Num).val * a.val) := rfl
  rw [ed]
  have e2 : ((2 : ℕ) : ℝ) * α = 2 * α := by norm_num
  rw [e2, one_mul] at hd
  generalize R.rnd ((FP.nat 2 : R.Num).val * a.val) = y at *
  generalize R.rnd (-b.val + s) = x at *
  generalize hν : -β + q = ν at *
  generalize hz : 2 * α = z at *
  have hz2 : 2 ≤ z := by linarith
  have hy : 1999 / 1000 ≤ y := by
    have := abs_le.1 hd.1
    norm_num at this
    linarith
  have hy0 : 0 < y := by linarith
  have hz0 : 0 < z := by linarith
  have ht : |ν / z| ≤ 367 / 20 * S := by
    rw [abs_div, abs_of_pos hz0, div_le_iff₀ hz0]
    have := hn.2
    nlinarith
  have hq : |x / y - ν / z| ≤ 559 * (S / 2 ^ 52) := by
    have e : x / y - ν / z = ((x - ν) - ν / z * (y - z)) / y := by field_simp; ring
    rw [e, abs_div, abs_of_pos hy0, div_le_iff₀ hy0]
    have g1 := abs_sub (x - ν) (ν / z * (y - z))
    rw [abs_mul] at g1
    have g2 : |ν / z| * |y - z| ≤ 367 / 20 * S * (45 * (1 / 2 ^ 52)) := mul_le_mul ht hd.1 (abs_nonneg _) (by positivity)
    have g3 := hn.1
    have g4 : 559 * (S / 2 ^ 52) * (1999 / 1000) ≤ 559 * (S / 2 ^ 52) * y := by gcongr
    have g5 : 367 / 20 * S * (45 * (1 / 2 ^ 52)) = 367 / 20 * 45 * (S / 2 ^ 52) := by ring
    rw [g5] at g2
    have : 0 ≤ S / 2 ^ 52 := by positivity
    generalize S / 2 ^ 52 = w at *
    linarith
  have c : Cl 559 (367 / 20) S (x / y) (ν / z) := ⟨hq, ht⟩
  exact (c.rnd (R := R) hS (by norm_num)).mono hS0 (by norm_num) (by norm_num)

/-- the square root -/
theorem sqrt_cl (hS : 1 ≤ S) {d δ : ℝ} (hd : Cl 14500 468 (S * S) d δ) (h0 : 0 < d) :
    Cl 23 (217 / 10) S (R.rnd (Real.sqrt d)) (Real.sqrt d) := by
  have hS0 : 0 ≤ S := by linarith
  have h1 : d ≤ 469 * (S * S) := by
    have a := abs_le.1 hd.1
    have b := abs_le.1 hd.2
    have : 0 ≤ S * S := by positivity
    generalize S * S = w at *
    norm_num at a
    linarith
  have h2 : Real.sqrt d ≤ 217 / 10 * S := by
    rw [Real.sqrt_le_left (by positivity)]
    nlinarith
  have c : Cl 0 (217 / 10) S (Real.sqrt d) (Real.sqrt d) := Cl.exact (by rw [abs_of_nonneg (Real.sqrt_nonneg _)]; exact h2)
  exact (c.rnd (R := R) hS (by norm_num)).mono hS0 (by norm_num) le_rfl

theorem residual_le (hS : 1 ≤ S) {α β γ q d T : ℝ} (hα : 1 ≤ α) (hα2 : α ≤ 9 / 2) (hq : q * q = d) (hq2 : |q| ≤ 217 / 10 * S)
    (hd : |d - (β * β - 4 * α * γ)| ≤ 14500 * (S * S / 2 ^ 52)) (hT : |T - (-β + q) / (2 * α)| ≤ 580 * (S / 2 ^ 52)) :
    |α * T ^ 2 + β * T + γ| ≤ S ^ 2 / 2 ^ 38 := by
  have hα0 : (0 : ℝ) < α := by linarith
  have hS0 : 0 ≤ S := by linarith
  generalize ht : (-β + q) / (2 * α) = t at *
  have h1 : 2 * α * t + β = q := by rw [← ht]; field_simp; ring
  have h2 : α * t ^ 2 + β * t + γ = (d - (β * β - 4 * α * γ)) / (4 * α) := by
    rw [← hq, ← h1]; field_simp; ring
  have h3 : |α * t ^ 2 + β * t + γ| ≤ 3625 * (S * S / 2 ^ 52) := by
    rw [h2, abs_div, abs_of_pos (show 0 < 4 * α by linarith), div_le_iff₀ (by linarith)]
    have : 0 ≤ S * S / 2 ^ 52 := by positivity
    generalize S * S / 2 ^ 52 = w at *
    nlinarith
  have h4 : α * T ^ 2 + β * T + γ = (α * t ^ 2 + β * t + γ) + (T - t) * (q + α * (T - t)) := by rw [← h1]; ring
  have h5 : |q + α * (T - t)| ≤ 218 / 10 * S := by
    have := abs_add_le q (α * (T - t))
    rw [abs_mul, abs_of_pos hα0] at this
    have h6 : α * |T - t| ≤ 9 / 2 * (580 * (S / 2 ^ 52)) := mul_le_mul hα2 hT (abs_nonneg _) (by norm_num)
    norm_num at h6
    linarith
  have h6 : |(T - t) * (q + α * (T - t))| ≤ 580 * (S / 2 ^ 52) * (218 / 10 * S) := by
    rw [abs_mul]
    exact mul_le_mul hT h5 (abs_nonneg _) (by positivity)
  rw [h4]
  have := abs_add_le (α * t ^ 2 + β * t + γ) ((T - t) * (q + α * (T - t)))
  have e : 580 * (S / 2 ^ 52) * (218 / 10 * S) = 580 * (218 / 10) * (S * S / 2 ^ 52) := by ring
  have e2 : S ^ 2 / 2 ^ 38 = 2 ^ 14 * (S * S / 2 ^ 52) := by ring
  rw [e] at h6
  rw [e2]
  have : 0 ≤ S * S / 2 ^ 52 := by positivity
  generalize S * S / 2 ^ 52 = w at *
  norm_num
  linarith

/-- two solutions -/
theorem two_roots {α β γ T1 T2 : ℝ} (e1 : α * T1 ^ 2 + β * T1 + γ = 0) (e2 : α * T2 ^ 2 + β * T2 + γ = 0) (hlt : T1 < T2) :
    β = -(α * (T1 + T2)) ∧ β * β - 4 * α * γ = (α * (T2 - T1)) * (α * (T2 - T1)) := by
  have h : (T2 - T1) * (α * (T1 + T2) + β) = 0 := by linear_combination e2 - e1
  have hb : α * (T1 + T2) + β = 0 := (mul_eq_zero.1 h).resolve_left (by linarith)
  have hb' : β = -(α * (T1 + T2)) := by linarith
  refine ⟨hb', ?_⟩
  have hc : γ = -(α * T1 ^ 2 + β * T1) := by linarith
  rw [hc, hb']; ring

theorem sqrt_near {d r E : ℝ} (hr : 0 < r) (h : |d - r * r| ≤ E) (hd : 0 ≤ d) : |Real.sqrt d - r| ≤ E / r := by
  rw [le_div_iff₀ hr]
  have hq := Real.sqrt_nonneg d
  have e : (Real.sqrt d - r) * (Real.sqrt d + r) = d - r * r := by
    have := Real.mul_self_sqrt hd
    linear_combination this
  have : |Real.sqrt d - r| * (Real.sqrt d + r) ≤ E := by
    rw [← abs_of_nonneg (show 0 ≤ Real.sqrt d + r by linarith), ← abs_mul, e]
    exact h
  have : |Real.sqrt d - r| * r ≤ |Real.sqrt d - r| * (Real.sqrt d + r) :=
    mul_le_mul_of_nonneg_left (by linarith) (abs_nonneg _)
  linarith

/-- no final neighbour at all: the code's coefficients are zero -/
theorem coeffs_none (hS : S ≤ 2 ^ 31) {m : Mesh R.Num} {s : AS R.Num} {n : Nat}
    (hb : ∀ j, j < 4 → nb m n j ≠ m.nNodes → s.st (nb m n j) = .frozen → |(s.sd (nb m n j)).val| ≤ S)
    (h0 : axisCode (m.map Num.val) s.exact n 0 = none) (h1 : axisCode (m.map Num.val) s.exact n 1 = none) :
    coeffs m s n = (FP.nat 0, FP.nat 0, FP.nat 0) := by
  have key : ∀ i, i < 2 → axisCode (m.map Num.val) s.exact n i = none → dists m s n i = (maxVal, maxVal) := by
    intro i hi hx
    have d0 := dists_same hS (m := m) (s := s) (n := n) i (fun j hj => hb _ (by omega))
    obtain ⟨-, e⟩ := dists_up (m := m.map Num.val) (s := s.exact) n i
    rw [hx] at e
    rcases d0 with ⟨a, -⟩ | ⟨-, b, -⟩
    · exact a
    · unfold toUp at e
      rw [if_pos (lt_maxVal hS ((le_abs_self _).trans b))] at e
      simp at e
  unfold coeffs
  rw [key 0 (by norm_num) h0, key 1 (by norm_num) h1]
  unfold accum
  simp

/-- The update, on states. -/
theorem updateV_near (h1 : 1 ≤ S) (hS : S ≤ 2 ^ 31) {m : Mesh R.Num} {s : AS R.Num} {n : Nat} (cp : Nat → R.Num)
    (hb : ∀ j, j < 4 → nb m n j ≠ m.nNodes → s.st (nb m n j) = .frozen → |(s.sd (nb m n j)).val| ≤ S) :
    (updateV m cp s n = s.sd n ∨ |eik (m.map Num.val) s.exact n (updateV m cp s n).val - 1| ≤ S ^ 2 / 2 ^ 38) ∧
    Chosen S m s n (cp n) (updateV m cp s n) := by
  unfold Chosen
  have hS0 : 0 ≤ S := by linarith
  have hcl := coeffs_cl h1 hS hb
  have hpoly := fun T => eik_poly (m := m.map Num.val) (s := s.exact) n T
  have heps : (doubleEpsilon : R.Num).val = R.rnd (1 / 2 ^ 52) := by
    unfold doubleEpsilon
    rw [val_lit _ _ (by norm_num) (by norm_num)]
    norm_num
  rcases coeffs_ge (m.map Num.val) s.exact n with hz | hα
  · rcases coeffs_cases (m := m.map Num.val) (s := s.exact) n with hp | ⟨hz0, a0, a1⟩
    · rw [hz] at hp; exact absurd hp (lt_irrefl _)
    · refine ⟨.inl ?_, fun T1 T2 e1 => ?_⟩
      · unfold updateV rootV
        rw [coeffs_none hS hb a0 a1, if_neg]
        have hz : R.rnd 0 = 0 := by simpa using R.nat 0 (by norm_num)
        simp [hz]
      · have := hpoly T1
        rw [hz0, e1] at this
        simp at this
  · obtain ⟨ha, hβ, hγ⟩ := hcl
    unfold updateV
    generalize (coeffs m s n).1 = a at *
    generalize (coeffs m s n).2.1 = b at *
    generalize (coeffs m s n).2.2 = c at *
    generalize (coeffs (m.map Num.val) s.exact n).1 = α at *
    generalize (coeffs (m.map Num.val) s.exact n).2.1 = β at *
    generalize (coeffs (m.map Num.val) s.exact n).2.2 = γ at *
    have hdet := det_cl h1 ha hβ hγ
    have hα2 : α ≤ 9 / 2 := by
      have := (le_abs_self _).trans ha.2
      linarith
    unfold rootV
    have edet : (FP.sub (FP.mul b b) (FP.mul (FP.mul (FP.nat 4) a) (FP.sub c (FP.nat 1))) : R.Num) = b *. b -. nat 4 *. a *. (c -. nat 1) := rfl
    rw [edet]
    generalize (b *. b -. nat 4 *. a *. (c -. nat 1) : R.Num) = d at *
    have hval : ∀ T, |eik (m.map Num.val) s.exact n T - 1| = |α * T ^ 2 + β * T + (γ - 1)| := by
      intro T; rw [← hpoly T]; congr 1; ring
    by_cases hd : (0 : ℝ) < d.val
    · have hsq := sqrt_cl (R := R) h1 hdet hd
      have hqq := Real.mul_self_sqrt hd.le
      have hp := root_cl (R := R) h1 hα ha hβ hsq
      have hm := root_cl (R := R) h1 hα ha hβ hsq.neg
      have r1 := residual_le (T := R.rnd (R.rnd (-b.val + R.rnd (Real.sqrt d.val)) / (nat 2 *. a).val)) h1 hα hα2 hqq hsq.2 hdet.1 hp.1
      have r2 := residual_le (T := R.rnd (R.rnd (-b.val + -R.rnd (Real.sqrt d.val)) / (nat 2 *. a).val)) h1 hα hα2
        (by rw [neg_mul_neg]; exact hqq) (by rw [abs_neg]; exact hsq.2) hdet.1 hm.1
      rw [if_pos (by simpa using hd)]
      have near : ∀ T1 T2, eik (m.map Num.val) s.exact n T1 = 1 → eik (m.map Num.val) s.exact n T2 = 1 → T1 + S / 2 ^ 19 ≤ T2 →
          |(-β + Real.sqrt d.val) / (2 * α) - T2| ≤ 7250 * (S ^ 2 / (T2 - T1) / 2 ^ 52) ∧
          |(-β + -Real.sqrt d.val) / (2 * α) - T1| ≤ 7250 * (S ^ 2 / (T2 - T1) / 2 ^ 52) := by
        intro T1 T2 e1 e2 hlt
        have hgap : 0 < T2 - T1 := by
          have : 0 < S / 2 ^ 19 := by positivity
          linarith
        obtain ⟨eb, ed⟩ := two_roots (α := α) (β := β) (γ := γ - 1) (T1 := T1) (T2 := T2) (by linarith [hpoly T1]) (by linarith [hpoly T2]) (by linarith)
        have hr : 0 < α * (T2 - T1) := mul_pos (by linarith) hgap
        have hdd := hdet.1
        rw [ed] at hdd
        have hsn := sqrt_near hr hdd hd.le
        have hα0 : (0 : ℝ) < α := by linarith
        have hfin : |Real.sqrt d.val - α * (T2 - T1)| / (2 * α) ≤ 7250 * (S ^ 2 / (T2 - T1) / 2 ^ 52) := by
          rw [div_le_iff₀ (by linarith)]
          refine hsn.trans ?_
          rw [div_le_iff₀ hr]
          have e : 7250 * (S ^ 2 / (T2 - T1) / 2 ^ 52) * (2 * α) * (α * (T2 - T1)) = 14500 * (S * S / 2 ^ 52) * (α * α) := by
            field_simp; ring
          rw [e]
          exact le_mul_of_one_le_right (by positivity) (by nlinarith)
        constructor
        · have e : (-β + Real.sqrt d.val) / (2 * α) - T2 = (Real.sqrt d.val - α * (T2 - T1)) / (2 * α) := by
            rw [eb]; field_simp; ring
          rw [e, abs_div, abs_of_pos (show 0 < 2 * α by linarith)]
          exact hfin
        · have e : (-β + -Real.sqrt d.val) / (2 * α) - T1 = -((Real.sqrt d.val - α * (T2 - T1)) / (2 * α)) := by
            rw [eb]; field_simp; ring
          rw [e, abs_neg, abs_div, abs_of_pos (show 0 < 2 * α by linarith)]
          exact hfin
      have comb : ∀ {T t U z : ℝ}, |T - t| ≤ 580 * (S / 2 ^ 52) → |t - U| ≤ 7250 * (z / 2 ^ 52) → 0 ≤ z → |T - U| ≤ (S + z) / 2 ^ 39 := by
        intro T t U z g1 g2 hz
        have := abs_add_le (T - t) (t - U)
        rw [sub_add_sub_cancel] at this
        have e : (S + z) / 2 ^ 39 = 2 ^ 13 * (S / 2 ^ 52) + 2 ^ 13 * (z / 2 ^ 52) := by ring
        rw [e]
        have : 0 ≤ S / 2 ^ 52 := by positivity
        have : 0 ≤ z / 2 ^ 52 := by positivity
        generalize S / 2 ^ 52 = w at *
        generalize z / 2 ^ 52 = v at *
        norm_num
        linarith
      by_cases hc : R.rnd (1 / 2 ^ 52) < (cp n).val
      · rw [if_pos (by rw [lt_iff, heps]; exact hc)]
        have hv : (FP.div (FP.add (FP.neg b) (FP.sqrt d)) (FP.mul (FP.nat 2) a) : R.Num).val =
          R.rnd (R.rnd (-b.val + R.rnd (Real.sqrt d.val)) / (nat 2 *. a).val) := rfl
        rw [hv, hval]
        refine ⟨.inr r1, fun T1 T2 e1 e2 hlt => ⟨r1, fun _ => ?_, fun g => absurd hc g⟩⟩
        have hgap : 0 < T2 - T1 := by
          have : 0 < S / 2 ^ 19 := by positivity
          linarith
        exact comb hp.1 (near T1 T2 e1 e2 hlt).1 (by positivity)
      · rw [if_neg (by rw [lt_iff, heps]; exact hc)]
        have hv : (FP.div (FP.sub (FP.neg b) (FP.sqrt d)) (FP.mul (FP.nat 2) a) : R.Num).val =
            R.rnd (R.rnd (-b.val + -R.rnd (Real.sqrt d.val)) / (nat 2 *. a).val) := by
          rw [← sub_eq_add_neg]; rfl
        rw [hv, hval]
        refine ⟨.inr r2, fun T1 T2 e1 e2 hlt => ⟨r2, fun g => absurd g hc, fun _ => ?_⟩⟩
        have hgap : 0 < T2 - T1 := by
          have : 0 < S / 2 ^ 19 := by positivity
          linarith
        exact comb hm.1 (near T1 T2 e1 e2 hlt).2 (by positivity)
    · rw [if_neg (by simpa using hd)]
      refine ⟨.inl rfl, fun T1 T2 e1 e2 hlt => ?_⟩
      exfalso
      have hgap : S / 2 ^ 19 ≤ T2 - T1 := by linarith
      have hpos : 0 < S / 2 ^ 19 := by positivity
      obtain ⟨eb, ed⟩ := two_roots (α := α) (β := β) (γ := γ - 1) (T1 := T1) (T2 := T2) (by linarith [hpoly T1]) (by linarith [hpoly T2]) (by linarith)
      have hdd := hdet.1
      rw [ed] at hdd
      have hg2 : S / 2 ^ 19 ≤ α * (T2 - T1) := by nlinarith
      have hg3 : (S / 2 ^ 19) * (S / 2 ^ 19) ≤ (α * (T2 - T1)) * (α * (T2 - T1)) := mul_self_le_mul_self hpos.le hg2
      have e : (S / 2 ^ 19) * (S / 2 ^ 19) = 2 ^ 14 * (S * S / 2 ^ 52) := by ring
      rw [e] at hg3
      have := (abs_le.1 hdd).1
      have hw : 0 < S * S / 2 ^ 52 := by positivity
      generalize S * S / 2 ^ 52 = w at *
      norm_num at hg3
      linarith

variable {m : Mesh R.Num} {C : Nat → R.Num} {iv : Bool} {ad : Nat → Prop}

/-- every value is an initial one or was given by an update -/
theorem Run.updated {s0 s' : AS R.Num} {l : List Event} (r : Run m C iv ad s0 l s') (i : Nat) :
    s'.sd i = s0.sd i ∨ ∃ s1, (∃ l1 l2, Run m C iv ad s0 l1 s1 ∧ Run m C iv ad s1 l2 s') ∧ s1.st i ≠ .frozen ∧
      s'.sd i ≠ s1.sd i ∧ s'.sd i = updateV m C s1 i := by
  induction r with
  | nil => exact .inl rfl
  | @snoc s1 s2 l e r h ih =>
    have hold : s2.sd i = s1.sd i → s2.sd i = s0.sd i ∨ ∃ s1, (∃ l1 l2, Run m C iv ad s0 l1 s1 ∧ Run m C iv ad s1 l2 s2) ∧ s1.st i ≠ .frozen ∧
        s2.sd i ≠ s1.sd i ∧ s2.sd i = updateV m C s1 i := by
      intro he
      rw [← he] at ih
      rcases ih with ih | ⟨s3, ⟨l1, l2, r1, r2⟩, h3⟩
      · exact .inl ih
      · exact .inr ⟨s3, ⟨l1, l2 ++ [e], r1, r2.snoc h⟩, h3⟩
    have hnew : s1.st i ≠ .frozen → s2.sd i = updateV m C s1 i → s2.sd i = s0.sd i ∨ ∃ s1, (∃ l1 l2, Run m C iv ad s0 l1 s1 ∧
        Run m C iv ad s1 l2 s2) ∧ s1.st i ≠ .frozen ∧ s2.sd i ≠ s1.sd i ∧ s2.sd i = updateV m C s1 i := by
      intro hf hv
      by_cases he : s2.sd i = s1.sd i
      · exact hold he
      · exact .inr ⟨s1, ⟨l, [e], r, (Run.nil s1).snoc h⟩, hf, he, hv⟩
    cases h with
    | discover n hn hs ha hf =>
      by_cases hin : i = n
      · subst hin; exact hnew (by rw [hs]; simp) (by simp)
      · exact hold (by simp [Function.update_apply, hin])
    | estimate n hn hs =>
      by_cases hin : i = n
      · subst hin; exact hnew hs (by simp)
      · exact hold (by simp [Function.update_apply, hin])
    | freeze n hn hs hmin hden => exact hold rfl

end FMM

end Slsm
