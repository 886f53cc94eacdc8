import Verif.Proof.RoundBnd

/-! Accuracy of lengths in rounded arithmetic. -/

namespace Slsm

open FP

namespace Boundary

open Rounding

theorem sqrt_near {S d u q : ℝ} (hd : 0 ≤ d) (hu : 0 ≤ u) (hu1 : u ≤ 1 / 1000) (hq : 0 ≤ q) (h1 : S ≤ d ^ 2 * (1 + 3 * u) + q ^ 2)
    (h2 : d ^ 2 * (1 - 3 * u) - q ^ 2 ≤ S) : |Real.sqrt S - d| ≤ 3 * u * d + q := by
  have hd2 : 0 ≤ d ^ 2 := sq_nonneg d
  have a : Real.sqrt S ≤ d * (1 + 3 * u) + q := by
    refine Real.sqrt_le_iff.2 ⟨by positivity, h1.trans ?_⟩
    nlinarith [mul_nonneg hd2 hu, mul_nonneg (mul_nonneg hd2 hu) hu, mul_nonneg hd hq, mul_nonneg (mul_nonneg hd hq) hu]
  have b : d * (1 - 3 * u) - q ≤ Real.sqrt S := by
    by_cases hc : d * (1 - 3 * u) - q ≤ 0
    · exact hc.trans (Real.sqrt_nonneg _)
    · rw [not_le] at hc
      refine Real.le_sqrt_of_sq_le (le_trans ?_ h2)
      set t := d * (1 - 3 * u) with ht
      have e1 : (t - q) ^ 2 ≤ t ^ 2 - q ^ 2 := by nlinarith
      have e2 : t ^ 2 ≤ d ^ 2 * (1 - 3 * u) := by
        rw [ht, mul_pow]
        refine mul_le_mul_of_nonneg_left ?_ hd2
        nlinarith
      linarith
  rw [abs_le]
  constructor <;> linarith

theorem norm_near {a b a' b' : ℝ} : |Real.sqrt (a' * a' + b' * b') - Real.sqrt (a * a + b * b)| ≤ |a' - a| + |b' - b| := by
  have tri : ∀ a b a' b' : ℝ, Real.sqrt (a' * a' + b' * b') ≤ Real.sqrt (a * a + b * b) + (|a' - a| + |b' - b|) := by
    intro a b a' b'
    have hs := Real.sqrt_nonneg (a * a + b * b)
    have hss := Real.mul_self_sqrt (add_nonneg (mul_self_nonneg a) (mul_self_nonneg b))
    set s := Real.sqrt (a * a + b * b)
    have h1 : |a| ≤ s := abs_le_of_sq_le_sq (by nlinarith) hs
    have h2 : |b| ≤ s := abs_le_of_sq_le_sq (by nlinarith) hs
    have p := abs_nonneg (a' - a)
    have q := abs_nonneg (b' - b)
    have p2 := abs_mul_abs_self (a' - a)
    have q2 := abs_mul_abs_self (b' - b)
    refine Real.sqrt_le_iff.2 ⟨by positivity, ?_⟩
    have c1 : a * (a' - a) ≤ s * |a' - a| := (le_abs_self _).trans (by rw [abs_mul]; exact mul_le_mul_of_nonneg_right h1 p)
    have c2 : b * (b' - b) ≤ s * |b' - b| := (le_abs_self _).trans (by rw [abs_mul]; exact mul_le_mul_of_nonneg_right h2 q)
    nlinarith [mul_nonneg p q]
  rw [abs_le]
  have t1 := tri a b a' b'
  have t2 := tri a' b' a b
  rw [abs_sub_comm a a', abs_sub_comm b b'] at t2
  constructor <;> linarith

theorem sum_near {x y P Q S u η : ℝ} (hx : 0 ≤ x) (hy : 0 ≤ y) (hu : 0 ≤ u) (hu1 : u ≤ 1 / 1000) (hη : 0 ≤ η) (eP : |P - x| ≤ x * u + η)
    (eQ : |Q - y| ≤ y * u + η) (hPQ : 0 ≤ P + Q) (eS : |S - (P + Q)| ≤ (P + Q) * u + η) :
    S ≤ (x + y) * (1 + 3 * u) + 4 * η ∧ (x + y) * (1 - 3 * u) - 4 * η ≤ S := by
  rw [abs_le] at eP eQ eS
  have zu : (x + y) * u * u ≤ (x + y) * u * (1 / 1000) := mul_le_mul_of_nonneg_left hu1 (mul_nonneg (add_nonneg hx hy) hu)
  have ηu : η * u ≤ η * (1 / 1000) := mul_le_mul_of_nonneg_left hu1 hη
  have PQ1 : P + Q ≤ (x + y) * (1 + u) + 2 * η := by linarith
  have PQu := mul_le_mul_of_nonneg_right PQ1 hu
  have zz := mul_nonneg (add_nonneg hx hy) hu
  constructor <;> linarith

theorem last_near {L T D' D u η q : ℝ} (d0 : 0 ≤ D) (d0' : 0 ≤ D') (hu : 0 ≤ u) (hu1 : u ≤ 1 / 1000) (hη : 0 ≤ η) (hq : η ≤ q)
    (eL : |L - T| ≤ T * u + η) (sn : |T - D'| ≤ 3 * u * D' + q) (n1 : |D' - D| ≤ 2 * u * D + 2 * η) : |L - D| ≤ 8 * u * D + 8 * q := by
  rw [abs_le] at eL sn n1
  have uη : u * η ≤ 1 / 1000 * η := mul_le_mul_of_nonneg_right hu1 hη
  have uq : u * q ≤ 1 / 1000 * q := mul_le_mul_of_nonneg_right hu1 (hη.trans hq)
  have uuD : u * (u * D) ≤ 1 / 1000 * (u * D) := mul_le_mul_of_nonneg_right hu1 (mul_nonneg hu d0)
  have uD' : u * D' ≤ u * (D + 2 * u * D + 2 * η) := mul_le_mul_of_nonneg_left (by linarith) hu
  have uuD' : u * (u * D') ≤ 1 / 1000 * (u * D') := mul_le_mul_of_nonneg_right hu1 (mul_nonneg hu d0')
  have uT : u * T ≤ u * (D' + (3 * u * D' + q)) := mul_le_mul_of_nonneg_left (by linarith) hu
  have huD := mul_nonneg hu d0
  rw [abs_le]
  constructor <;> linarith

section
variable {R : Rounding}

/-- The computed length of a segment. -/
theorem chord_err (a b : Coord R.Num) : |(chord a b).val - distance ⟨a.x.val, a.y.val⟩ ⟨b.x.val, b.y.val⟩| ≤
    distance ⟨a.x.val, a.y.val⟩ ⟨b.x.val, b.y.val⟩ / 2 ^ 49 + 1 / 2 ^ 500 := by
  have key : ∀ (u η q : ℝ), 0 ≤ u → u ≤ 1 / 1000 → 0 ≤ η → η ≤ q → q ≤ 1 → 4 * η = q ^ 2 → (∀ x, |R.rnd x - x| ≤ |x| * u + η) →
      |(chord a b).val - distance ⟨a.x.val, a.y.val⟩ ⟨b.x.val, b.y.val⟩| ≤ 8 * u * distance ⟨a.x.val, a.y.val⟩ ⟨b.x.val, b.y.val⟩ + 8 * q := by
    intro u η q hu hu1 hη hηq hq1 h4 herr
    have hq : 0 ≤ q := hη.trans hηq
    unfold chord distance
    simp only [val_sqrt, val_add, val_mul, val_sub]
    generalize a.x.val - b.x.val = X
    generalize a.y.val - b.y.val = Y
    have eX := herr X
    have eY := herr Y
    have eXX := herr (R.rnd X * R.rnd X)
    have eYY := herr (R.rnd Y * R.rnd Y)
    have nX : 0 ≤ R.rnd (R.rnd X * R.rnd X) := rnd_nonneg (mul_self_nonneg _)
    have nY : 0 ≤ R.rnd (R.rnd Y * R.rnd Y) := rnd_nonneg (mul_self_nonneg _)
    have eS := herr (R.rnd (R.rnd X * R.rnd X) + R.rnd (R.rnd Y * R.rnd Y))
    have nr := norm_near (a := X) (b := Y) (a' := R.rnd X) (b' := R.rnd Y)
    have eL := herr (Real.sqrt (R.rnd (R.rnd (R.rnd X * R.rnd X) + R.rnd (R.rnd Y * R.rnd Y))))
    set D := Real.sqrt (X * X + Y * Y) with hD
    set D' := Real.sqrt (R.rnd X * R.rnd X + R.rnd Y * R.rnd Y) with hD'
    have d0 : 0 ≤ D := Real.sqrt_nonneg _
    have d0' : 0 ≤ D' := Real.sqrt_nonneg _
    have hX : |X| ≤ D := abs_le_of_sq_le_sq (by rw [hD, Real.sq_sqrt (add_nonneg (mul_self_nonneg X) (mul_self_nonneg Y))]; nlinarith [mul_self_nonneg X, mul_self_nonneg Y]) d0
    have hY : |Y| ≤ D := abs_le_of_sq_le_sq (by rw [hD, Real.sq_sqrt (add_nonneg (mul_self_nonneg X) (mul_self_nonneg Y))]; nlinarith [mul_self_nonneg X, mul_self_nonneg Y]) d0
    have sD' : D' ^ 2 = R.rnd X * R.rnd X + R.rnd Y * R.rnd Y := Real.sq_sqrt (by nlinarith [mul_self_nonneg (R.rnd X), mul_self_nonneg (R.rnd Y)])
    have n1 : |D' - D| ≤ 2 * u * D + 2 * η := by nlinarith [mul_le_mul_of_nonneg_right hX hu, mul_le_mul_of_nonneg_right hY hu]
    rw [abs_of_nonneg (mul_self_nonneg (R.rnd X))] at eXX
    rw [abs_of_nonneg (mul_self_nonneg (R.rnd Y))] at eYY
    rw [abs_of_nonneg (add_nonneg nX nY)] at eS
    obtain ⟨s1, s2⟩ := sum_near (mul_self_nonneg (R.rnd X)) (mul_self_nonneg (R.rnd Y)) hu hu1 hη eXX eYY (add_nonneg nX nY) eS
    rw [← sD', h4] at s1 s2
    rw [abs_of_nonneg (Real.sqrt_nonneg _)] at eL
    exact last_near d0 d0' hu hu1 hη hηq eL (sqrt_near d0' hu hu1 hq s1 s2) n1
  have hk := key (1 / 2 ^ 52) (1 / 2 ^ 1074) (2 / 2 ^ 537) (by positivity) (by norm_num) (by positivity) ?_ ?_ ?_ ?_
  · refine hk.trans ?_
    have d0 := Real.sqrt_nonneg ((a.x.val - b.x.val) * (a.x.val - b.x.val) + (a.y.val - b.y.val) * (a.y.val - b.y.val))
    have e1 : (8 : ℝ) * (1 / 2 ^ 52) = 1 / 2 ^ 49 := by norm_num
    have e2 : (8 : ℝ) * (2 / 2 ^ 537) ≤ 1 / 2 ^ 500 := by
      rw [show (8 : ℝ) * (2 / 2 ^ 537) = 1 / 2 ^ 533 by rw [show (537 : ℕ) = 533 + 4 by norm_num, pow_add]; field_simp; norm_num]
      exact one_div_le_one_div_of_le (by positivity) (pow_le_pow_right₀ (by norm_num) (by norm_num))
    rw [e1]
    have : (1 : ℝ) / 2 ^ 49 * distance ⟨a.x.val, a.y.val⟩ ⟨b.x.val, b.y.val⟩ = distance ⟨a.x.val, a.y.val⟩ ⟨b.x.val, b.y.val⟩ / 2 ^ 49 := by ring
    linarith
  · rw [show (1074 : ℕ) = 537 + 537 by norm_num, pow_add, one_div, mul_inv, div_eq_mul_inv]
    have : ((2 : ℝ) ^ 537)⁻¹ ≤ 1 := inv_le_one_of_one_le₀ (one_le_pow₀ (by norm_num))
    have h0 : 0 < ((2 : ℝ) ^ 537)⁻¹ := by positivity
    nlinarith
  · rw [div_le_one (by positivity), show (537 : ℕ) = 1 + 536 by norm_num, pow_add, pow_one]
    have : (1 : ℝ) ≤ 2 ^ 536 := one_le_pow₀ (by norm_num)
    generalize (2 : ℝ) ^ 536 = z at this ⊢
    linarith
  · rw [div_pow, ← pow_mul, show (537 * 2 : ℕ) = 1074 by norm_num]
    ring
  · intro x
    have := R.err x
    rwa [show |x| / 2 ^ 52 = |x| * (1 / 2 ^ 52) by ring] at this

/-- The computed sum of nonnegative numbers. -/
theorem fold_err (l : List R.Num) (hl : ∀ v ∈ l, 0 ≤ v.val) (a : R.Num) (ha : 0 ≤ a.val) :
    |(l.foldl (fun s v => s +. v) a).val - (a.val + (l.map Num.val).sum)| ≤
      l.length * ((l.foldl (fun s v => s +. v) a).val / 2 ^ 51 + 1 / 2 ^ 1074) := by
  induction l generalizing a with
  | nil => simp
  | cons b l ih =>
    have hb := hl b List.mem_cons_self
    have h1 : a.val ≤ (a +. b).val := by rw [val_add]; exact le_rnd a (by linarith)
    have h2 : b.val ≤ (a +. b).val := by rw [val_add]; exact le_rnd b (by linarith)
    have h3 := ih (fun v hv => hl v (List.mem_cons_of_mem _ hv)) (a +. b) (ha.trans h1)
    have h4 := (fold_add l (fun v hv => hl v (List.mem_cons_of_mem _ hv)) (a +. b) (ha.trans h1)).1
    have h5 := R.err (a.val + b.val)
    rw [← val_add, abs_of_nonneg (by linarith : 0 ≤ a.val + b.val)] at h5
    rw [List.foldl_cons, List.map_cons, List.sum_cons, List.length_cons]
    push_cast
    set F := (List.foldl (fun s v => s +. v) (a +. b) l).val
    rw [abs_le] at h3 h5 ⊢
    have h6 : (a.val + b.val) / 2 ^ 52 ≤ F / 2 ^ 51 := by
      rw [div_le_div_iff₀ (by positivity) (by positivity)]
      norm_num
      linarith
    constructor <;> nlinarith [h3.1, h3.2, h5.1, h5.2]

end

end Boundary

end Slsm
