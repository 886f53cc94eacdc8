import Verif.Props.Sensitivity
import Verif.Proof.RoundRun
import Verif.Proof.RoundVel

/-! # Property C105: sensitivities in rounded arithmetic -/

namespace Slsm

open FP Rounding Sensitivity

namespace Rounding

variable {R : Rounding}

/-- A coordinate displaced by `δ n`. -/
theorem moved_near {x δ n : ℝ} (hδ : 1 / 2 ^ 50 ≤ δ) (hn : |n| ≤ 2) :
    |R.rnd (x + R.rnd (δ * n)) - (x + δ * n)| ≤ (|x| + 6 * δ) / 2 ^ 52 := by
  have h0 : 0 < δ := lt_of_lt_of_le (by positivity) hδ
  have hm : |δ * n| ≤ 2 * δ := by
    rw [abs_mul, abs_of_pos h0]
    nlinarith
  have e1 := R.err (δ * n)
  have e2 := R.err (x + R.rnd (δ * n))
  have t := tiny_le' (b := 200) (by norm_num)
  have t' : (1 : ℝ) / 2 ^ 200 ≤ δ / 2 ^ 90 := by
    calc (1 : ℝ) / 2 ^ 200 ≤ (1 / 2 ^ 50) / 2 ^ 90 := by norm_num
      _ ≤ δ / 2 ^ 90 := by gcongr
  have h1 : |R.rnd (δ * n)| ≤ 2 * δ + (2 * δ / 2 ^ 52 + δ / 2 ^ 90) := by
    have := abs_add_le (R.rnd (δ * n) - δ * n) (δ * n)
    rw [sub_add_cancel] at this
    linarith
  have h2 : |x + R.rnd (δ * n)| / 2 ^ 52 ≤ (|x| + (2 * δ + (2 * δ / 2 ^ 52 + δ / 2 ^ 90))) / 2 ^ 52 := by
    have := abs_add_le x (R.rnd (δ * n))
    gcongr
    linarith
  have := abs_add_le (R.rnd (x + R.rnd (δ * n)) - (x + R.rnd (δ * n))) (R.rnd (δ * n) - δ * n)
  rw [show R.rnd (x + R.rnd (δ * n)) - (x + R.rnd (δ * n)) + (R.rnd (δ * n) - δ * n) = R.rnd (x + R.rnd (δ * n)) - (x + δ * n) by ring] at this
  linarith

theorem moved_back_near {x δ n : ℝ} (hδ : 1 / 2 ^ 50 ≤ δ) (hn : |n| ≤ 2) :
    |R.rnd (x - R.rnd (δ * n)) - (x - δ * n)| ≤ (|x| + 6 * δ) / 2 ^ 52 := by
  have h0 : 0 < δ := lt_of_lt_of_le (by positivity) hδ
  have hm : |δ * n| ≤ 2 * δ := by
    rw [abs_mul, abs_of_pos h0]
    nlinarith
  have e1 := R.err (δ * n)
  have e2 := R.err (x - R.rnd (δ * n))
  have t := tiny_le' (b := 200) (by norm_num)
  have t' : (1 : ℝ) / 2 ^ 200 ≤ δ / 2 ^ 90 := by
    calc (1 : ℝ) / 2 ^ 200 ≤ (1 / 2 ^ 50) / 2 ^ 90 := by norm_num
      _ ≤ δ / 2 ^ 90 := by gcongr
  have h1 : |R.rnd (δ * n)| ≤ 2 * δ + (2 * δ / 2 ^ 52 + δ / 2 ^ 90) := by
    have := abs_add_le (R.rnd (δ * n) - δ * n) (δ * n)
    rw [sub_add_cancel] at this
    linarith
  have h2 : |x - R.rnd (δ * n)| / 2 ^ 52 ≤ (|x| + (2 * δ + (2 * δ / 2 ^ 52 + δ / 2 ^ 90))) / 2 ^ 52 := by
    have := abs_sub x (R.rnd (δ * n))
    gcongr
    linarith
  have := abs_sub (R.rnd (x - R.rnd (δ * n)) - (x - R.rnd (δ * n))) (R.rnd (δ * n) - δ * n)
  rw [show R.rnd (x - R.rnd (δ * n)) - (x - R.rnd (δ * n)) - (R.rnd (δ * n) - δ * n) = R.rnd (x - R.rnd (δ * n)) - (x - δ * n) by ring] at this
  linarith

/-- The difference quotient. -/
theorem slope_near {f1 f2 b E : ℝ} {δ l : R.Num} (hδ : 1 / 2 ^ 50 ≤ δ.val) (hl : 1 / 2 ^ 50 ≤ l.val) (hE : 0 ≤ E)
    (h : |(f1 - f2) - 2 * b * δ.val| ≤ 2 * E) :
    |R.rnd (R.rnd (R.rnd (f1 - f2) / (FP.nat 2 *. δ).val) / l.val) - b / l.val| ≤ (2 * E / δ.val + |b| / 2 ^ 48) / l.val + 1 / 2 ^ 140 := by
  have hδ0 : 0 < δ.val := lt_of_lt_of_le (by positivity) hδ
  have hl0 : 0 < l.val := lt_of_lt_of_le (by positivity) hl
  -- the numerator
  have hT : |2 * b * δ.val| = 2 * |b| * δ.val := by rw [abs_mul, abs_mul, abs_of_pos hδ0, abs_two]
  have e0 := R.err (f1 - f2)
  have e1 : |R.rnd (f1 - f2) - 2 * b * δ.val| ≤ 2 * E + ((2 * |b| * δ.val + 2 * E) / 2 ^ 52 + 1 / 2 ^ 1074) := by
    have a1 : |f1 - f2| ≤ 2 * |b| * δ.val + 2 * E := by
      have := abs_add_le (f1 - f2 - 2 * b * δ.val) (2 * b * δ.val)
      rw [sub_add_cancel, hT] at this
      linarith
    have a2 : |f1 - f2| / 2 ^ 52 ≤ (2 * |b| * δ.val + 2 * E) / 2 ^ 52 := by gcongr
    have := abs_add_le (R.rnd (f1 - f2) - (f1 - f2)) (f1 - f2 - 2 * b * δ.val)
    rw [sub_add_sub_cancel] at this
    linarith
  -- the denominator
  have h2 : (FP.nat 2 *. δ).val = R.rnd (2 * δ.val) := by rw [val_mul, val_nat (by norm_num)]; push_cast; rfl
  have t := tiny_le' (b := 250) (by norm_num)
  have t' : (1 : ℝ) / 2 ^ 250 ≤ δ.val / 2 ^ 90 := by
    calc (1 : ℝ) / 2 ^ 250 ≤ (1 / 2 ^ 50) / 2 ^ 90 := by norm_num
      _ ≤ δ.val / 2 ^ 90 := by gcongr
  have e2 : |R.rnd (2 * δ.val) - 2 * δ.val| ≤ δ.val / 2 ^ 50 := by
    have := R.err (2 * δ.val)
    rw [abs_of_pos (by linarith : 0 < 2 * δ.val)] at this
    linarith
  rw [h2]
  generalize hden : R.rnd (2 * δ.val) = d at *
  have e2' := abs_le.1 e2
  have hd : 7 / 4 * δ.val ≤ d := by linarith
  have hd0 : 0 < d := by linarith
  -- their quotient is near b
  have e3 : |R.rnd (f1 - f2) - b * d| ≤ 9 / 4 * E + (3 * |b| * δ.val) / 2 ^ 51 + 1 / 2 ^ 1074 := by
    have a1 : |2 * b * δ.val - b * d| ≤ |b| * (δ.val / 2 ^ 50) := by
      rw [show 2 * b * δ.val - b * d = b * -(d - 2 * δ.val) by ring, abs_mul, abs_neg]
      gcongr
    have := abs_add_le (R.rnd (f1 - f2) - 2 * b * δ.val) (2 * b * δ.val - b * d)
    rw [sub_add_sub_cancel] at this
    linarith
  have e4 := quot_near (R := R) hd0 e3
  rw [mul_div_assoc, div_self hd0.ne', mul_one] at e4
  have e5 : (9 / 4 * E + (3 * |b| * δ.val) / 2 ^ 51 + 1 / 2 ^ 1074) / d ≤ 9 / 7 * (E / δ.val) + 2 * |b| / 2 ^ 51 + 1 / 2 ^ 199 := by
    rw [div_le_iff₀ hd0]
    have b0 : 0 ≤ E / δ.val := by positivity
    have b1 : 9 / 4 * E ≤ 9 / 7 * (E / δ.val) * d := by
      calc 9 / 4 * E = 9 / 7 * (E / δ.val) * (7 / 4 * δ.val) := by field_simp
        _ ≤ _ := by gcongr
    have b2 : (3 * |b| * δ.val) / 2 ^ 51 ≤ 2 * |b| / 2 ^ 51 * d := by
      calc (3 * |b| * δ.val) / 2 ^ 51 ≤ 2 * |b| / 2 ^ 51 * (7 / 4 * δ.val) := by
            have := abs_nonneg b
            have : 0 ≤ |b| * δ.val := by positivity
            linarith
        _ ≤ _ := by gcongr
    have b3 : (1 : ℝ) / 2 ^ 1074 ≤ 1 / 2 ^ 199 * d := by
      calc (1 : ℝ) / 2 ^ 1074 ≤ 1 / 2 ^ 250 := t
        _ ≤ 1 / 2 ^ 199 * (7 / 4 * (1 / 2 ^ 50)) := by norm_num
        _ ≤ 1 / 2 ^ 199 * (7 / 4 * δ.val) := by gcongr
        _ ≤ _ := by gcongr
    linarith
  have hb := abs_nonneg b
  have hEδ : 0 ≤ E / δ.val := by positivity
  have e6 : |R.rnd (R.rnd (f1 - f2) / d) - b| ≤ 3 / 2 * (E / δ.val) + 3 * |b| / 2 ^ 51 + 1 / 2 ^ 198 := by
    have a1 : (|b * d| + (9 / 4 * E + (3 * |b| * δ.val) / 2 ^ 51 + 1 / 2 ^ 1074)) / d ≤
        |b| + (9 / 7 * (E / δ.val) + 2 * |b| / 2 ^ 51 + 1 / 2 ^ 199) := by
      rw [add_div, abs_mul, abs_of_pos hd0, mul_div_assoc, div_self hd0.ne', mul_one]
      linarith
    have a2 := div_le_div_of_nonneg_right a1 (by positivity : (0 : ℝ) ≤ 2 ^ 52)
    have t2 : (1 : ℝ) / 2 ^ 250 ≤ 1 / 2 ^ 200 := by norm_num
    generalize (1 : ℝ) / 2 ^ 1074 = κ at *
    refine e4.trans ?_
    linarith
  have e7 := quot_near (R := R) hl0 e6
  have hq : 0 ≤ |b| + 3 * (E / δ.val) := by positivity
  refine e7.trans ?_
  have a3 : ∀ x : ℝ, x / l.val = x * (1 / l.val) := fun x => by ring
  have hi : 0 < 1 / l.val := by positivity
  have hi' : 1 / l.val ≤ 2 ^ 50 := by
    rw [div_le_iff₀ hl0]
    calc (1 : ℝ) = 2 ^ 50 * (1 / 2 ^ 50) := by norm_num
      _ ≤ _ := by gcongr
  have g1 : (3 / 2 * (E / δ.val) + 3 * |b| / 2 ^ 51 + 1 / 2 ^ 198) + (|b| + (3 / 2 * (E / δ.val) + 3 * |b| / 2 ^ 51 + 1 / 2 ^ 198)) / 2 ^ 52 ≤
      (2 * (E / δ.val) + |b| / 2 ^ 48) + 1 / 2 ^ 197 := by linarith
  have g2 := mul_le_mul_of_nonneg_right g1 hi.le
  have g3 : (1 : ℝ) / 2 ^ 197 * (1 / l.val) ≤ 1 / 2 ^ 147 := by
    calc (1 : ℝ) / 2 ^ 197 * (1 / l.val) ≤ 1 / 2 ^ 197 * 2 ^ 50 := by gcongr
      _ = _ := by norm_num
  have g4 : (1 : ℝ) / 2 ^ 147 + 1 / 2 ^ 250 ≤ 1 / 2 ^ 140 := by norm_num
  rw [mul_div_assoc 2 E, a3 (3 / 2 * (E / δ.val) + 3 * |b| / 2 ^ 51 + 1 / 2 ^ 198), a3 (2 * (E / δ.val) + |b| / 2 ^ 48),
    a3 (|b| + (3 / 2 * (E / δ.val) + 3 * |b| / 2 ^ 51 + 1 / 2 ^ 198))]
  rw [add_mul, add_mul (2 * (E / δ.val) + |b| / 2 ^ 48), div_mul_eq_mul_div] at g2
  generalize (1 : ℝ) / 2 ^ 1074 = κ at *
  linarith

end Rounding

namespace Sensitivity

variable {R : Rounding}

/-- **Specification**: on the square of half-side `3 delta` around the point the callback returns, whatever the point's other fields, the
function `F` of the coordinates up to an error of `ε`; there `F` changes by at most `L` per unit of each coordinate; and at the distances
`± delta` along the normal it differs from a quadratic `a + b t + c t²` by at most `K delta³`. -/
structure Models (delta : R.Num) (p : BoundaryPoint R.Num) (f : BoundaryPoint R.Num → Res R.Num) (F : ℝ → ℝ → ℝ) (ε L K a b c : ℝ) : Prop where
  /-- What the callback returns. -/
  returns : ∀ q : Coord R.Num, |q.x.val - p.coord.x.val| ≤ 3 * delta.val → |q.y.val - p.coord.y.val| ≤ 3 * delta.val →
    ∃ v, f { p with coord := q } = .ok v ∧ |v.val - F q.x.val q.y.val| ≤ ε
  /-- How fast the function changes. -/
  gentle : ∀ x y x' y', |x - p.coord.x.val| ≤ 3 * delta.val → |y - p.coord.y.val| ≤ 3 * delta.val →
    |x' - p.coord.x.val| ≤ 3 * delta.val → |y' - p.coord.y.val| ≤ 3 * delta.val → |F x y - F x' y'| ≤ L * (|x - x'| + |y - y'|)
  /-- The function along the normal. -/
  along : ∀ t, |t| = delta.val → |F (p.coord.x.val + t * p.normal.x.val) (p.coord.y.val + t * p.normal.y.val) - (a + b * t + c * t ^ 2)| ≤
    K * delta.val ^ 3

end Sensitivity

/-- **C105** (accuracy): in every rounding of real arithmetic the sensitivity of a boundary point differs from the derivative per unit
length, `b / length`, by at most twice the sum of three errors divided by `delta` and the length: the error `ε` of the callback, the
departure `K delta³` from a quadratic, and the change of the function over the rounding of the displaced coordinates; plus sixteen times
2⁻⁵² of the derivative. Halving `delta` therefore doubles the first and third errors and quarters the second. -/
theorem C105_accuracy {R : Rounding} {delta : R.Num} {p : BoundaryPoint R.Num} {f : BoundaryPoint R.Num → Res R.Num} {F : ℝ → ℝ → ℝ}
    {ε L K a b c : ℝ} (h : Models delta p f F ε L K a b c) (hL : 0 ≤ L) (hδ : 1 / 2 ^ 50 ≤ delta.val) (hl : 1 / 2 ^ 50 ≤ p.length.val)
    (hnx : |p.normal.x.val| ≤ 2) (hny : |p.normal.y.val| ≤ 2)
    (hx : |p.coord.x.val| ≤ 2 ^ 50 * delta.val) (hy : |p.coord.y.val| ≤ 2 ^ 50 * delta.val) :
    ∃ s, computeSensitivity delta p f = .ok (s, p) ∧ |s.val - b / p.length.val| ≤
      (2 * (ε + K * delta.val ^ 3 + L * ((|p.coord.x.val| + |p.coord.y.val| + 12 * delta.val) / 2 ^ 52)) / delta.val + |b| / 2 ^ 48) /
        p.length.val + 1 / 2 ^ 140 := by
  have h0 : 0 < delta.val := lt_of_lt_of_le (by positivity) hδ
  have close : ∀ {x n : ℝ}, |n| ≤ 2 → |x| ≤ 2 ^ 50 * delta.val → ∀ {z t : ℝ}, |t| = delta.val → |z - (x + t * n)| ≤ (|x| + 6 * delta.val) / 2 ^ 52 →
      |z - x| ≤ 3 * delta.val ∧ |x + t * n - x| ≤ 3 * delta.val := by
    intro x n hn hx z t ht hz
    have h1 : |t * n| ≤ 2 * delta.val := by
      rw [abs_mul, ht]
      nlinarith
    have h2 := abs_add_le (z - (x + t * n)) (t * n)
    rw [show z - (x + t * n) + t * n = z - x by ring] at h2
    refine ⟨by linarith, ?_⟩
    rw [add_sub_cancel_left]
    linarith
  have probe : ∀ (q : Coord R.Num) (t : ℝ), |t| = delta.val →
      |q.x.val - (p.coord.x.val + t * p.normal.x.val)| ≤ (|p.coord.x.val| + 6 * delta.val) / 2 ^ 52 →
      |q.y.val - (p.coord.y.val + t * p.normal.y.val)| ≤ (|p.coord.y.val| + 6 * delta.val) / 2 ^ 52 →
      ∃ v, f { p with coord := q } = .ok v ∧ |v.val - (a + b * t + c * t ^ 2)| ≤
        ε + K * delta.val ^ 3 + L * ((|p.coord.x.val| + |p.coord.y.val| + 12 * delta.val) / 2 ^ 52) := by
    intro q t ht h1 h2
    obtain ⟨c1, c2⟩ := close hnx hx ht h1
    obtain ⟨c3, c4⟩ := close hny hy ht h2
    obtain ⟨v, hv, e1⟩ := h.returns q c1 c3
    refine ⟨v, hv, ?_⟩
    have e2 := h.gentle _ _ _ _ c1 c3 c2 c4
    have e3 := h.along t ht
    have e4 : L * (|q.x.val - (p.coord.x.val + t * p.normal.x.val)| + |q.y.val - (p.coord.y.val + t * p.normal.y.val)|) ≤
        L * ((|p.coord.x.val| + |p.coord.y.val| + 12 * delta.val) / 2 ^ 52) := by
      gcongr
      linarith
    rw [abs_le] at *
    constructor <;> linarith [e1.1, e1.2, e2.1, e2.2, e3.1, e3.2]
  obtain ⟨f1, hf1, b1⟩ := probe ⟨p.coord.x +. delta *. p.normal.x, p.coord.y +. delta *. p.normal.y⟩ delta.val (abs_of_pos h0)
    (by rw [val_add, val_mul]; exact moved_near hδ hnx) (by rw [val_add, val_mul]; exact moved_near hδ hny)
  obtain ⟨f2, hf2, b2⟩ := probe ⟨p.coord.x -. delta *. p.normal.x, p.coord.y -. delta *. p.normal.y⟩ (-delta.val)
    (by rw [abs_neg, abs_of_pos h0])
    (by rw [val_sub, val_mul, neg_mul, ← sub_eq_add_neg]; exact moved_back_near hδ hnx)
    (by rw [val_sub, val_mul, neg_mul, ← sub_eq_add_neg]; exact moved_back_near hδ hny)
  refine ⟨_, (C54_restores delta p f).1 f1 f2 hf1 hf2, ?_⟩
  rw [val_div, val_div, val_sub]
  refine slope_near hδ hl ((abs_nonneg _).trans b1) ?_
  rw [abs_le] at *
  constructor <;> linarith [b1.1, b1.2, b2.1, b2.2]

/-- The hypotheses are met in every rounding: the square of the first coordinate, calculated in the same arithmetic, at the point `(1, 0)`
with normal `(1, 0)` and length 1, has derivative 2 along the normal. -/
example (R : Rounding) : ∃ s, computeSensitivity (RoundRun.hf R) { RoundRun.spot R (FP.nat 0) with coord := ⟨FP.nat 1, FP.nat 0⟩ }
      (fun q => .ok (q.coord.x *. q.coord.x)) = .ok (s, { RoundRun.spot R (FP.nat 0) with coord := ⟨FP.nat 1, FP.nat 0⟩ }) ∧
    |s.val - 2| ≤ 1 / 2 ^ 44 := by
  have h : Models (RoundRun.hf R) { RoundRun.spot R (FP.nat 0) with coord := ⟨FP.nat 1, FP.nat 0⟩ }
      (fun q => .ok (q.coord.x *. q.coord.x)) (fun x _ => x ^ 2) (7 / 2 ^ 52) 5 0 1 2 1 := by
    refine ⟨?_, ?_, ?_⟩
    · intro q h1 _
      rw [RoundRun.hf_val, val_one, abs_le] at h1
      refine ⟨_, rfl, ?_⟩
      rw [val_mul, sq]
      have h2 : |q.x.val * q.x.val| ≤ 25 / 4 := by
        rw [abs_le]
        constructor <;> nlinarith [h1.1, h1.2]
      have h3 := R.err (q.x.val * q.x.val)
      have t := tiny_le' (b := 200) (by norm_num)
      generalize (1 : ℝ) / 2 ^ 1074 = κ at *
      linarith
    · intro x y x' y' h1 _ h3 _
      rw [RoundRun.hf_val, val_one, abs_le] at h1 h3
      have h5 : |x + x'| ≤ 5 := by
        rw [abs_le]
        constructor <;> linarith [h1.1, h1.2, h3.1, h3.2]
      rw [show x ^ 2 - x' ^ 2 = (x + x') * (x - x') by ring, abs_mul]
      have := abs_nonneg (y - y')
      nlinarith [abs_nonneg (x - x')]
    · intro t _
      simp only [RoundRun.spot, val_one, mul_one]
      rw [show (1 + t) ^ 2 - (1 + 2 * t + 1 * t ^ 2) = 0 by ring]
      simp
  obtain ⟨s, h1, h2⟩ := C105_accuracy h (by norm_num) (by rw [RoundRun.hf_val]; norm_num) (by simp [RoundRun.spot]; norm_num)
    (by simp [RoundRun.spot]) (by simp [RoundRun.spot]) (by rw [RoundRun.hf_val]; simp; norm_num) (by rw [RoundRun.hf_val]; simp)
  refine ⟨s, h1, ?_⟩
  simp only [RoundRun.hf_val, RoundRun.spot, val_one, val_zero] at h2
  norm_num at h2 ⊢
  linarith

end Slsm
