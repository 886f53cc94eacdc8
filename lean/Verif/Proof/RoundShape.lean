import Verif.Spec.RoundShape
import Verif.Proof.RoundVel
import Verif.Proof.RoundHole
import Verif.Proof.LSShapeReal

/-! # Distances to polygons in rounded arithmetic -/

namespace Slsm

open FP Rounding LevelSet

variable {R : Rounding}

namespace Rounding

/-- A product of two differences. -/
theorem pair_near {a b : ℝ} (ha : |a| ≤ 2 ^ 33) (hb : |b| ≤ 2 ^ 33) : |R.rnd (R.rnd a * R.rnd b) - a * b| ≤ 4 / 2 ^ 52 * (|a| * |b|) + 1 / 2 ^ 200 := by
  have t := tiny_le' (b := 250) (by norm_num)
  have h1 : |R.rnd a - a| ≤ |a| / 2 ^ 52 + 1 / 2 ^ 250 := (R.err a).trans (by linarith)
  have h2 : |R.rnd b - b| ≤ |b| / 2 ^ 52 + 1 / 2 ^ 250 := (R.err b).trans (by linarith)
  have a0 := abs_nonneg a
  have b0 := abs_nonneg b
  have hs : |R.rnd a * R.rnd b - a * b| ≤ (2 + 1 / 2 ^ 50) / 2 ^ 52 * (|a| * |b|) + 1 / 2 ^ 210 := by
    have e : R.rnd a * R.rnd b - a * b = (R.rnd a - a) * b + a * (R.rnd b - b) + (R.rnd a - a) * (R.rnd b - b) := by ring
    have e1 : |(R.rnd a - a) * b| ≤ (|a| / 2 ^ 52 + 1 / 2 ^ 250) * |b| := by rw [abs_mul]; gcongr
    have e2 : |a * (R.rnd b - b)| ≤ |a| * (|b| / 2 ^ 52 + 1 / 2 ^ 250) := by rw [abs_mul]; gcongr
    have e3 : |(R.rnd a - a) * (R.rnd b - b)| ≤ (|a| / 2 ^ 52 + 1 / 2 ^ 250) * (|b| / 2 ^ 52 + 1 / 2 ^ 250) := by rw [abs_mul]; gcongr
    rw [e]
    have := abs_add_three ((R.rnd a - a) * b) (a * (R.rnd b - b)) ((R.rnd a - a) * (R.rnd b - b))
    have k0 : (0 : ℝ) ≤ 1 / 2 ^ 250 := by positivity
    have k1 : (1 : ℝ) / 2 ^ 250 ≤ 1 / 2 ^ 40 * (1 / 2 ^ 210) := by norm_num
    generalize (1 : ℝ) / 2 ^ 250 = κ at *
    have z : (|a| / 2 ^ 52 + κ) * |b| + |a| * (|b| / 2 ^ 52 + κ) + (|a| / 2 ^ 52 + κ) * (|b| / 2 ^ 52 + κ) =
        (2 / 2 ^ 52 + 1 / 2 ^ 104) * (|a| * |b|) + κ * ((1 + 1 / 2 ^ 52) * (|a| + |b|) + κ) := by ring
    have hab : 0 ≤ |a| * |b| := by positivity
    have h3 : κ * ((1 + 1 / 2 ^ 52) * (|a| + |b|) + κ) ≤ κ * ((1 + 1 / 2 ^ 52) * (2 ^ 33 + 2 ^ 33) + 1) := by
      have : κ ≤ 1 := k1.trans (by norm_num)
      gcongr
    linarith
  have e2 := R.err (R.rnd a * R.rnd b)
  have hab : 0 ≤ |a| * |b| := by positivity
  have hm : |R.rnd a * R.rnd b| ≤ |a| * |b| + ((2 + 1 / 2 ^ 50) / 2 ^ 52 * (|a| * |b|) + 1 / 2 ^ 210) := by
    have := abs_add_le (R.rnd a * R.rnd b - a * b) (a * b)
    rw [sub_add_cancel, abs_mul a b] at this
    linarith
  have hm' : |R.rnd a * R.rnd b| / 2 ^ 52 ≤ (|a| * |b| + ((2 + 1 / 2 ^ 50) / 2 ^ 52 * (|a| * |b|) + 1 / 2 ^ 210)) / 2 ^ 52 := by gcongr
  have := abs_add_le (R.rnd (R.rnd a * R.rnd b) - R.rnd a * R.rnd b) (R.rnd a * R.rnd b - a * b)
  rw [sub_add_sub_cancel] at this
  generalize |a| * |b| = q at *
  generalize (1 : ℝ) / 2 ^ 1074 = κ at *
  linarith

/-- A sum or difference of two such products. -/
theorem dot_near {a b c d : ℝ} (ha : |a| ≤ 2 ^ 33) (hb : |b| ≤ 2 ^ 33) (hc : |c| ≤ 2 ^ 33) (hd : |d| ≤ 2 ^ 33) :
    |R.rnd (R.rnd (R.rnd a * R.rnd b) + R.rnd (R.rnd c * R.rnd d)) - (a * b + c * d)| ≤ 6 / 2 ^ 52 * (|a| * |b| + |c| * |d|) + 1 / 2 ^ 190 ∧
    |R.rnd (R.rnd (R.rnd a * R.rnd b) - R.rnd (R.rnd c * R.rnd d)) - (a * b - c * d)| ≤ 6 / 2 ^ 52 * (|a| * |b| + |c| * |d|) + 1 / 2 ^ 190 := by
  have s1 := pair_near (R := R) ha hb
  have s2 := pair_near (R := R) hc hd
  generalize R.rnd (R.rnd a * R.rnd b) = p at *
  generalize R.rnd (R.rnd c * R.rnd d) = q at *
  have q1 : |a * b| = |a| * |b| := abs_mul _ _
  have q2 : |c * d| = |c| * |d| := abs_mul _ _
  rw [← q1] at s1 ⊢
  rw [← q2] at s2 ⊢
  generalize a * b = u at *
  generalize c * d = v at *
  have t := tiny_le' (b := 250) (by norm_num)
  have u0 := abs_nonneg u
  have v0 := abs_nonneg v
  have fin : ∀ z y : ℝ, |z - y| ≤ 4 / 2 ^ 52 * (|u| + |v|) + 2 / 2 ^ 200 → |y| ≤ |u| + |v| → |R.rnd z - y| ≤ 6 / 2 ^ 52 * (|u| + |v|) + 1 / 2 ^ 190 := by
    intro z y h1 h2
    have e := R.err z
    have hm : |z| ≤ |u| + |v| + (4 / 2 ^ 52 * (|u| + |v|) + 2 / 2 ^ 200) := by
      have := abs_add_le (z - y) y
      rw [sub_add_cancel] at this
      linarith
    have hm' : |z| / 2 ^ 52 ≤ (|u| + |v| + (4 / 2 ^ 52 * (|u| + |v|) + 2 / 2 ^ 200)) / 2 ^ 52 := by gcongr
    have := abs_add_le (R.rnd z - z) (z - y)
    rw [sub_add_sub_cancel] at this
    generalize (1 : ℝ) / 2 ^ 1074 = κ at *
    linarith
  constructor
  · refine fin _ _ ?_ (abs_add_le u v)
    have := abs_add_le (p - u) (q - v)
    rw [show p - u + (q - v) = p + q - (u + v) by ring] at this
    linarith
  · refine fin _ _ ?_ (abs_sub u v)
    have := abs_sub (p - u) (q - v)
    rw [show p - u - (q - v) = p - q - (u - v) by ring] at this
    linarith

/-- A point of the line. -/
theorem foot_near {a d t S : ℝ} (hS : 1 ≤ S) (ha : |a| ≤ S) (hd : |d| ≤ 2 * S) (t0 : 0 ≤ t) (t1 : t ≤ 1) :
    |R.rnd (a + R.rnd (t * R.rnd d)) - (a + t * d)| ≤ 8 / 2 ^ 52 * S := by
  have κ := tiny_le' (b := 250) (by norm_num)
  have e1 := R.err d
  have f1 : |R.rnd d - d| ≤ (2 + 1 / 2 ^ 100) / 2 ^ 52 * S := by
    have : |d| / 2 ^ 52 ≤ 2 * S / 2 ^ 52 := by gcongr
    generalize (1 : ℝ) / 2 ^ 1074 = κ at *
    linarith
  have f2 : |t * R.rnd d - t * d| ≤ (2 + 1 / 2 ^ 100) / 2 ^ 52 * S := by
    rw [← mul_sub, abs_mul, abs_of_nonneg t0]
    have := abs_nonneg (R.rnd d - d)
    nlinarith
  have f3 : |t * d| ≤ 2 * S := by
    rw [abs_mul, abs_of_nonneg t0]
    have := abs_nonneg d
    nlinarith
  have f4 : |t * R.rnd d| ≤ (2 + 1 / 2 ^ 40) * S := by
    have := abs_add_le (t * R.rnd d - t * d) (t * d)
    rw [sub_add_cancel] at this
    linarith
  have e2 := R.err (t * R.rnd d)
  have f5 : |R.rnd (t * R.rnd d) - t * d| ≤ (4 + 1 / 2 ^ 30) / 2 ^ 52 * S := by
    have : |t * R.rnd d| / 2 ^ 52 ≤ (2 + 1 / 2 ^ 40) * S / 2 ^ 52 := by gcongr
    have := abs_add_le (R.rnd (t * R.rnd d) - t * R.rnd d) (t * R.rnd d - t * d)
    rw [sub_add_sub_cancel] at this
    generalize (1 : ℝ) / 2 ^ 1074 = κ at *
    linarith
  have f6 : |a + R.rnd (t * R.rnd d)| ≤ (3 + 1 / 2 ^ 30) * S := by
    have g1 := abs_add_le a (R.rnd (t * R.rnd d))
    have g2 := abs_add_le (R.rnd (t * R.rnd d) - t * d) (t * d)
    rw [sub_add_cancel] at g2
    linarith
  have e3 := R.err (a + R.rnd (t * R.rnd d))
  have : |a + R.rnd (t * R.rnd d)| / 2 ^ 52 ≤ (3 + 1 / 2 ^ 30) * S / 2 ^ 52 := by gcongr
  have := abs_add_le (R.rnd (a + R.rnd (t * R.rnd d)) - (a + R.rnd (t * R.rnd d))) (R.rnd (t * R.rnd d) - t * d)
  rw [show R.rnd (a + R.rnd (t * R.rnd d)) - (a + R.rnd (t * R.rnd d)) + (R.rnd (t * R.rnd d) - t * d) = R.rnd (a + R.rnd (t * R.rnd d)) - (a + t * d) by ring] at this
  generalize (1 : ℝ) / 2 ^ 1074 = κ at *
  linarith

/-- The parameter of the projection. -/
theorem param_near {n n' r r' l S : ℝ} (hS : 1 ≤ S) (hl : 1 / 10 ^ 4 ≤ l) (hl3 : l ≤ 3 * S) (hr : r = l ^ 2) (hr' : |r' - r| ≤ 7 / 2 ^ 52 * r)
    (hn : |n| ≤ 4 * S * l) (hn' : |n' - n| ≤ 25 / 2 ^ 52 * (S * l)) : |R.rnd (n' / r') - n / r| * l ≤ 60 / 2 ^ 52 * S := by
  have l0 : 0 < l := lt_of_lt_of_le (by norm_num) hl
  have r0 : 0 < r := by rw [hr]; positivity
  have hb := abs_le.1 hr'
  have hrl : (1 - 1 / 2 ^ 49) * r ≤ r' := by linarith
  have r0' : 0 < r' := by linarith
  have Sl : 0 ≤ S * l := by positivity
  have h1 : |n' - n / r * r'| ≤ 53 / 2 ^ 52 * (S * l) := by
    have e : n' - n / r * r' = (n' - n) - n / r * (r' - r) := by field_simp; ring
    rw [e]
    have : |n / r * (r' - r)| ≤ 28 / 2 ^ 52 * (S * l) := by
      rw [abs_mul, abs_div, abs_of_pos r0]
      calc |n| / r * |r' - r| ≤ 4 * S * l / r * (7 / 2 ^ 52 * r) := by gcongr
        _ = 28 / 2 ^ 52 * (S * l) * (r / r) := by ring
        _ = _ := by rw [div_self r0.ne', mul_one]
    have := abs_sub (n' - n) (n / r * (r' - r))
    linarith
  have h2 := quot_near (R := R) r0' h1
  rw [mul_div_cancel_right₀ _ r0'.ne'] at h2
  have h3 : 53 / 2 ^ 52 * (S * l) / r' * l ≤ 54 / 2 ^ 52 * S := by
    rw [div_mul_eq_mul_div, div_le_iff₀ r0']
    calc 53 / 2 ^ 52 * (S * l) * l = 53 / 2 ^ 52 * S * r := by rw [hr]; ring
      _ ≤ 54 / 2 ^ 52 * S * ((1 - 1 / 2 ^ 49) * r) := by
        have : 0 ≤ S * r := by positivity
        linarith
      _ ≤ _ := by gcongr
  have h4 : |n / r * r'| / r' * l ≤ 4 * S := by
    rw [abs_mul, abs_of_pos r0', mul_div_cancel_right₀ _ r0'.ne', abs_div, abs_of_pos r0, div_mul_eq_mul_div, div_le_iff₀ r0, hr]
    calc |n| * l ≤ 4 * S * l * l := by gcongr
      _ = _ := by ring
  have t := tiny_le' (b := 250) (by norm_num)
  have h5 : |R.rnd (n' / r') - n / r| * l ≤ (53 / 2 ^ 52 * (S * l) / r' + ((|n / r * r'| + 53 / 2 ^ 52 * (S * l)) / r' / 2 ^ 52 + 1 / 2 ^ 250)) * l := by
    refine mul_le_mul_of_nonneg_right (h2.trans ?_) l0.le
    linarith
  refine h5.trans ?_
  have e : (53 / 2 ^ 52 * (S * l) / r' + ((|n / r * r'| + 53 / 2 ^ 52 * (S * l)) / r' / 2 ^ 52 + 1 / 2 ^ 250)) * l =
      53 / 2 ^ 52 * (S * l) / r' * l + (|n / r * r'| / r' * l + 53 / 2 ^ 52 * (S * l) / r' * l) / 2 ^ 52 + l / 2 ^ 250 := by ring
  rw [e]
  generalize 53 / 2 ^ 52 * (S * l) / r' * l = A at *
  generalize |n / r * r'| / r' * l = B at *
  linarith

end Rounding

namespace LevelSet

theorem dist_le_sum (a b : Coord ℝ) : distance a b ≤ |a.x - b.x| + |a.y - b.y| := by
  unfold distance
  refine Real.sqrt_le_iff.2 ⟨by positivity, ?_⟩
  have h1 := sq_abs (a.x - b.x)
  have h2 := sq_abs (a.y - b.y)
  have := mul_nonneg (abs_nonneg (a.x - b.x)) (abs_nonneg (a.y - b.y))
  nlinarith

theorem clamp_near (s s' : ℝ) : |Max.max 0 (Min.min 1 s) - Max.max 0 (Min.min 1 s')| ≤ |s - s'| := by
  have h1 := le_abs_self (s - s')
  have h2 := neg_abs_le (s - s')
  rw [abs_le]
  rcases le_total s 1 with a | a <;> rcases le_total s' 1 with b | b <;> rcases le_total s 0 with c | c <;> rcases le_total s' 0 with d | d <;>
    simp only [min_eq_left, min_eq_right, a, b] <;>
    simp only [max_eq_left, max_eq_right, c, d, max_eq_right (zero_le_one (α := ℝ))] <;> constructor <;> linarith

/-- The part of a coordinate of the line's direction. -/
theorem along_abs {a b t S : ℝ} (ha : |a| ≤ S) (hb : |b| ≤ S) (t0 : 0 ≤ t) (t1 : t ≤ 1) : |a + t * (b - a)| ≤ S := by
  rw [abs_le] at *
  constructor <;> nlinarith

/-- Cauchy-Schwarz with absolute values. -/
theorem pairs_le {a b c d S l : ℝ} (hS : 0 ≤ S) (ha : |a| ≤ 2 * S) (hc : |c| ≤ 2 * S) (l0 : 0 ≤ l) (hl : l ^ 2 = b ^ 2 + d ^ 2) :
    |a| * |b| + |c| * |d| ≤ 3 * (S * l) := by
  have h1 := sq_abs b
  have h2 := sq_abs d
  rw [← h1, ← h2] at hl
  have b0 := abs_nonneg b
  have d0 := abs_nonneg d
  have hb : |b| + |d| ≤ 3 / 2 * l := by
    have hs : (|b| + |d|) ^ 2 ≤ (3 / 2 * l) ^ 2 := by nlinarith [sq_nonneg (|b| - |d|), sq_nonneg l]
    exact le_of_sq_le_sq hs (by positivity)
  nlinarith

/-- The squared length and the parameter of the projection, from the exact differences. -/
theorem projection_near {dx dy qx qy S : ℝ} (hS : 1 ≤ S) (hS2 : S ≤ 2 ^ 31) (dx2 : |dx| ≤ 2 * S) (dy2 : |dy| ≤ 2 * S) (qx2 : |qx| ≤ 2 * S)
    (qy2 : |qy| ≤ 2 * S) (hlen : 1 / 10 ^ 7 ≤ dx * dx + dy * dy) :
    |R.rnd (R.rnd (R.rnd dx * R.rnd dx) + R.rnd (R.rnd dy * R.rnd dy)) - (dx * dx + dy * dy)| ≤ 7 / 2 ^ 52 * (dx * dx + dy * dy) ∧
    |R.rnd (R.rnd (R.rnd (R.rnd qx * R.rnd dx) + R.rnd (R.rnd qy * R.rnd dy)) / R.rnd (R.rnd (R.rnd dx * R.rnd dx) + R.rnd (R.rnd dy * R.rnd dy))) -
      (qx * dx + qy * dy) / (dx * dx + dy * dy)| * Real.sqrt (dx * dx + dy * dy) ≤ 60 / 2 ^ 52 * S := by
  have S0 : 0 ≤ S := by linarith
  have big : ∀ {u : ℝ}, |u| ≤ 2 * S → |u| ≤ 2 ^ 33 := fun h => h.trans (by norm_num at hS2 ⊢; linarith)
  have hr : |R.rnd (R.rnd (R.rnd dx * R.rnd dx) + R.rnd (R.rnd dy * R.rnd dy)) - (dx * dx + dy * dy)| ≤ 7 / 2 ^ 52 * (dx * dx + dy * dy) := by
    have := (dot_near (R := R) (big dx2) (big dx2) (big dy2) (big dy2)).1
    rw [abs_mul_abs_self, abs_mul_abs_self] at this
    refine this.trans ?_
    norm_num at hlen ⊢
    linarith
  refine ⟨hr, ?_⟩
  have hn := (dot_near (R := R) (big qx2) (big dx2) (big qy2) (big dy2)).1
  have ll : Real.sqrt (dx * dx + dy * dy) ^ 2 = dx ^ 2 + dy ^ 2 := by rw [Real.sq_sqrt (by nlinarith [sq_nonneg dx, sq_nonneg dy])]; ring
  have l0 : 0 ≤ Real.sqrt (dx * dx + dy * dy) := Real.sqrt_nonneg _
  have l1 : 1 / 10 ^ 4 ≤ Real.sqrt (dx * dx + dy * dy) := Real.le_sqrt_of_sq_le (by norm_num at hlen ⊢; linarith)
  have l3 : Real.sqrt (dx * dx + dy * dy) ≤ 3 * S := by
    refine Real.sqrt_le_iff.2 ⟨by positivity, ?_⟩
    rw [← abs_mul_abs_self dx, ← abs_mul_abs_self dy]
    have := abs_nonneg dx
    have := abs_nonneg dy
    nlinarith
  have cs := pairs_le S0 qx2 qy2 l0 ll
  generalize hl : Real.sqrt (dx * dx + dy * dy) = l at *
  have Sl : 1 / 10 ^ 4 ≤ S * l := by nlinarith
  refine param_near (R := R) hS l1 l3 (by rw [ll]; ring) hr ?_ (hn.trans ?_)
  · have := abs_add_le (qx * dx) (qy * dy)
    rw [abs_mul, abs_mul] at this
    linarith
  · clear hn hr ll hlen
    generalize |qx| * |dx| + |qy| * |dy| = c at *
    generalize S * l = m at *
    norm_num at Sl ⊢
    linarith

variable {D : Type} [FP D]

/-- The parameter used for a proper segment. -/
def param (a b p : Coord D) : D :=
  FP.max (FP.nat 0) (FP.min (FP.nat 1) (((p.x -. a.x) *. (b.x -. a.x) +. (p.y -. a.y) *. (b.y -. a.y)) /.
    ((b.x -. a.x) *. (b.x -. a.x) +. (b.y -. a.y) *. (b.y -. a.y))))

theorem far_side (a b p : Coord D) (h : ¬ FP.lt ((b.x -. a.x) *. (b.x -. a.x) +. (b.y -. a.y) *. (b.y -. a.y)) (FP.lit 1 1000000) = true) :
    pointToLineDistance a b p = centreDist ⟨a.x +. param a b p *. (b.x -. a.x), a.y +. param a b p *. (b.y -. a.y)⟩ p := by
  unfold pointToLineDistance
  exact if_neg h

theorem near_side (a b p : Coord D) (h : FP.lt ((b.x -. a.x) *. (b.x -. a.x) +. (b.y -. a.y) *. (b.y -. a.y)) (FP.lit 1 1000000) = true) :
    pointToLineDistance a b p = centreDist p a := by
  unfold pointToLineDistance
  exact if_pos h

variable {a b p : Coord R.Num} {S : ℝ}

theorem centre_near (c p : Coord R.Num) {S : ℝ} (hS : 1 ≤ S) (hc : Bounded ((1 + 1 / 2 ^ 40) * S) (exactly c)) (hp : Bounded S (exactly p)) :
    |(centreDist c p).val - distance (exactly c) (exactly p)| ≤ 36 / 2 ^ 52 * S := by
  have h1 := Boundary.chord_err c p
  rw [distance_forms] at h1
  change |(centreDist c p).val - distance (exactly c) (exactly p)| ≤ distance (exactly c) (exactly p) / 2 ^ 49 + 1 / 2 ^ 500 at h1
  have h2 := dist_le_sum (exactly c) (exactly p)
  have h3 := abs_sub (exactly c).x (exactly p).x
  have h4 := abs_sub (exactly c).y (exactly p).y
  obtain ⟨c1, c2⟩ := hc
  obtain ⟨p1, p2⟩ := hp
  have t : (1 : ℝ) / 2 ^ 500 ≤ 1 / 2 ^ 81 := one_div_le_one_div_of_le (by positivity) (pow_le_pow_right₀ (by norm_num) (by norm_num))
  generalize (1 : ℝ) / 2 ^ 500 = κ at *
  refine h1.trans ?_
  norm_num at *
  linarith

/-- The nearest point of a segment. -/
theorem foot_least {a b p : Coord ℝ} (hr : 0 < (b.x - a.x) * (b.x - a.x) + (b.y - a.y) * (b.y - a.y)) :
    IsLeast (segDistances p a b) (distance (along a b (param a b p)) p) := by
  have hq : param a b p = Max.max 0 (Min.min 1 (((p.x - a.x) * (b.x - a.x) + (p.y - a.y) * (b.y - a.y)) /
      ((b.x - a.x) * (b.x - a.x) + (b.y - a.y) * (b.y - a.y)))) := by
    unfold param
    simp only [FP.sub_real, FP.mul_real, FP.add_real, FP.div_real, FP.max_real, FP.min_real, FP.nat_real, Nat.cast_one, Nat.cast_zero]
  generalize param a b p = q at *
  set r := (b.x - a.x) * (b.x - a.x) + (b.y - a.y) * (b.y - a.y) with hrdef
  set s := ((p.x - a.x) * (b.x - a.x) + (p.y - a.y) * (b.y - a.y)) / r with hs
  have hsr : s * r = (p.x - a.x) * (b.x - a.x) + (p.y - a.y) * (b.y - a.y) := by
    rw [hs]; field_simp
  constructor
  · exact ⟨q, by rw [hq]; exact le_max_left _ _, by rw [hq]; exact max_le (by norm_num) (min_le_left _ _), distance_comm _ _⟩
  · rintro d ⟨t, h0, h1, rfl⟩
    unfold distance along
    apply Real.sqrt_le_sqrt
    simp only
    have key : (q - s) ^ 2 ≤ (t - s) ^ 2 := by
      rcases le_total s 0 with h | h
      · have : q = 0 := by rw [hq, min_eq_right (by linarith), max_eq_left h]
        rw [this]; nlinarith
      · rcases le_total s 1 with h' | h'
        · have : q = s := by rw [hq, min_eq_right h', max_eq_right h]
          rw [this]; nlinarith [sq_nonneg (t - s)]
        · have : q = 1 := by rw [hq, min_eq_left h', max_eq_right (by norm_num)]
          rw [this]; nlinarith
    have e : ∀ u : ℝ, (a.x + u * (b.x - a.x) - p.x) ^ 2 + (a.y + u * (b.y - a.y) - p.y) ^ 2 =
        r * (u - s) ^ 2 + ((a.x - p.x) ^ 2 + (a.y - p.y) ^ 2 - r * s ^ 2) := by
      intro u
      have : r * (u - s) ^ 2 = r * u ^ 2 - 2 * u * (s * r) + r * s ^ 2 := by ring
      rw [this, hsr, hrdef]; ring
    have e2 : (p.x - (a.x + t * (b.x - a.x))) ^ 2 + (p.y - (a.y + t * (b.y - a.y))) ^ 2 =
        r * (t - s) ^ 2 + ((a.x - p.x) ^ 2 + (a.y - p.y) ^ 2 - r * s ^ 2) := by rw [← e]; ring
    rw [e2, e]
    have := mul_le_mul_of_nonneg_left key hr.le
    linarith

theorem twice {S : ℝ} {u v : ℝ} (h1 : |u| ≤ S) (h2 : |v| ≤ S) : |u - v| ≤ 2 * S := (abs_sub u v).trans (by linarith)

/-- Distance from a segment treated as proper in rounded arithmetic. -/
theorem segment_far (hS : 1 ≤ S) (hS2 : S ≤ 2 ^ 31) (ha : Bounded S (exactly a)) (hb : Bounded S (exactly b)) (hp : Bounded S (exactly p))
    (hlen' : 1 / 10 ^ 7 ≤ (b.x.val - a.x.val) * (b.x.val - a.x.val) + (b.y.val - a.y.val) * (b.y.val - a.y.val))
    (far : ¬ FP.lt ((b.x -. a.x) *. (b.x -. a.x) +. (b.y -. a.y) *. (b.y -. a.y)) (FP.lit 1 1000000) = true) :
    |(pointToLineDistance a b p).val - distance (along (exactly a) (exactly b) (param (exactly a) (exactly b) (exactly p))) (exactly p)| ≤ S / 2 ^ 45 := by
  obtain ⟨-, hq⟩ := projection_near (R := R) hS hS2 (twice hb.1 ha.1) (twice hb.2 ha.2) (twice hp.1 ha.1) (twice hp.2 ha.2) hlen'
  rw [far_side a b p far]
  have ht : (param a b p).val = Max.max 0 (Min.min 1 (R.rnd (R.rnd (R.rnd (R.rnd (p.x.val - a.x.val) * R.rnd (b.x.val - a.x.val)) +
      R.rnd (R.rnd (p.y.val - a.y.val) * R.rnd (b.y.val - a.y.val))) / R.rnd (R.rnd (R.rnd (b.x.val - a.x.val) * R.rnd (b.x.val - a.x.val)) +
      R.rnd (R.rnd (b.y.val - a.y.val) * R.rnd (b.y.val - a.y.val)))))) := by
    unfold param
    simp only [val_max, val_min, val_div, val_add, val_mul, val_sub, val_zero, val_one]
  have ht' : param (exactly a) (exactly b) (exactly p) = Max.max 0 (Min.min 1 (((p.x.val - a.x.val) * (b.x.val - a.x.val) +
      (p.y.val - a.y.val) * (b.y.val - a.y.val)) / ((b.x.val - a.x.val) * (b.x.val - a.x.val) + (b.y.val - a.y.val) * (b.y.val - a.y.val)))) := by
    unfold param exactly
    simp only [FP.sub_real, FP.mul_real, FP.add_real, FP.div_real, FP.max_real, FP.min_real, FP.nat_real, Nat.cast_one, Nat.cast_zero]
  have hc := clamp_near (R.rnd (R.rnd (R.rnd (R.rnd (p.x.val - a.x.val) * R.rnd (b.x.val - a.x.val)) +
      R.rnd (R.rnd (p.y.val - a.y.val) * R.rnd (b.y.val - a.y.val))) / R.rnd (R.rnd (R.rnd (b.x.val - a.x.val) * R.rnd (b.x.val - a.x.val)) +
      R.rnd (R.rnd (b.y.val - a.y.val) * R.rnd (b.y.val - a.y.val))))) (((p.x.val - a.x.val) * (b.x.val - a.x.val) +
      (p.y.val - a.y.val) * (b.y.val - a.y.val)) / ((b.x.val - a.x.val) * (b.x.val - a.x.val) + (b.y.val - a.y.val) * (b.y.val - a.y.val)))
  rw [← ht, ← ht'] at hc
  have hm := (mul_le_mul_of_nonneg_right hc (Real.sqrt_nonneg _)).trans hq
  have t0 : 0 ≤ (param a b p).val := by rw [ht]; exact le_max_left _ _
  have t1 : (param a b p).val ≤ 1 := by rw [ht]; exact max_le (by norm_num) (min_le_left _ _)
  clear ht ht' hc hq far
  generalize param a b p = T at *
  generalize param (exactly a) (exactly b) (exactly p) = t at *
  -- the foot in rounded arithmetic
  have f1 := foot_near (R := R) hS ha.1 (twice hb.1 ha.1) t0 t1
  have f2 := foot_near (R := R) hS ha.2 (twice hb.2 ha.2) t0 t1
  have g1 := along_abs ha.1 hb.1 t0 t1
  have g2 := along_abs ha.2 hb.2 t0 t1
  have hX : Bounded ((1 + 1 / 2 ^ 40) * S) (exactly ⟨a.x +. T *. (b.x -. a.x), a.y +. T *. (b.y -. a.y)⟩) := by
    constructor
    · have := abs_add_le (R.rnd (a.x.val + R.rnd (T.val * R.rnd (b.x.val - a.x.val))) - (a.x.val + T.val * (b.x.val - a.x.val))) (a.x.val + T.val * (b.x.val - a.x.val))
      rw [sub_add_cancel] at this
      refine this.trans ((add_le_add f1 g1).trans ?_)
      linarith
    · have := abs_add_le (R.rnd (a.y.val + R.rnd (T.val * R.rnd (b.y.val - a.y.val))) - (a.y.val + T.val * (b.y.val - a.y.val))) (a.y.val + T.val * (b.y.val - a.y.val))
      rw [sub_add_cancel] at this
      refine this.trans ((add_le_add f2 g2).trans ?_)
      linarith
  have h1 := centre_near _ p hS hX hp
  have h2 := dist_le_sum (exactly ⟨a.x +. T *. (b.x -. a.x), a.y +. T *. (b.y -. a.y)⟩) (along (exactly a) (exactly b) T.val)
  replace h2 : distance (exactly ⟨a.x +. T *. (b.x -. a.x), a.y +. T *. (b.y -. a.y)⟩) (along (exactly a) (exactly b) T.val) ≤ 16 / 2 ^ 52 * S := by
    refine h2.trans ((add_le_add f1 f2).trans (by linarith))
  have h3 : distance (along (exactly a) (exactly b) T.val) (along (exactly a) (exactly b) t) ≤ 60 / 2 ^ 52 * S := by
    refine le_trans (le_of_eq ?_) hm
    unfold distance along
    rw [← Real.sqrt_sq_eq_abs, ← Real.sqrt_mul (sq_nonneg _)]
    congr 1
    simp only [exactly]
    ring
  generalize (centreDist _ p).val = v at *
  generalize exactly ⟨a.x +. T *. (b.x -. a.x), a.y +. T *. (b.y -. a.y)⟩ = X at *
  generalize along (exactly a) (exactly b) T.val = Y at *
  generalize along (exactly a) (exactly b) t = Z at *
  generalize exactly p = P at *
  have k1 := distance_triangle X Y P
  have k2 := distance_triangle Y Z P
  have k3 := distance_triangle Y X P
  have k4 := distance_triangle Z Y P
  rw [distance_comm Y X] at k3
  rw [distance_comm Z Y] at k4
  rw [abs_le] at h1 ⊢
  constructor <;> linarith [h1.1, h1.2]

theorem length_near (hS2 : S ≤ 2 ^ 31) (ha : Bounded S (exactly a)) (hb : Bounded S (exactly b)) :
    |((b.x -. a.x) *. (b.x -. a.x) +. (b.y -. a.y) *. (b.y -. a.y) : R.Num).val -
      ((b.x.val - a.x.val) * (b.x.val - a.x.val) + (b.y.val - a.y.val) * (b.y.val - a.y.val))| ≤
      6 / 2 ^ 52 * ((b.x.val - a.x.val) * (b.x.val - a.x.val) + (b.y.val - a.y.val) * (b.y.val - a.y.val)) + 1 / 2 ^ 190 := by
  have big : ∀ {u : ℝ}, |u| ≤ 2 * S → |u| ≤ 2 ^ 33 := fun h => h.trans (by norm_num at hS2 ⊢; linarith)
  have h1 := big (twice hb.1 ha.1)
  have h2 := big (twice hb.2 ha.2)
  have := (dot_near (R := R) h1 h1 h2 h2).1
  rw [abs_mul_abs_self, abs_mul_abs_self] at this
  exact this

/-- Distance from a proper segment in rounded arithmetic. -/
theorem segment_near (hS : 1 ≤ S) (hS2 : S ≤ 2 ^ 31) (ha : Bounded S (exactly a)) (hb : Bounded S (exactly b)) (hp : Bounded S (exactly p))
    (hlen : 1 / 10 ^ 6 + 1 / 10 ^ 12 ≤ ((exactly b).x - (exactly a).x) ^ 2 + ((exactly b).y - (exactly a).y) ^ 2) :
    ∃ d, IsLeast (segDistances (exactly p) (exactly a) (exactly b)) d ∧ |(pointToLineDistance a b p).val - d| ≤ S / 2 ^ 45 := by
  have hlen' : 1 / 10 ^ 6 + 1 / 10 ^ 12 ≤ (b.x.val - a.x.val) * (b.x.val - a.x.val) + (b.y.val - a.y.val) * (b.y.val - a.y.val) := by
    rw [← sq, ← sq]; exact hlen
  have pos : (1 : ℝ) / 10 ^ 7 ≤ 1 / 10 ^ 6 + 1 / 10 ^ 12 := by norm_num
  have l0 := pos.trans hlen'
  refine ⟨_, foot_least (lt_of_lt_of_le (by norm_num) l0), segment_far hS hS2 ha hb hp l0 ?_⟩
  rw [lt_iff, val_lit_tol, not_lt]
  have t1 := (abs_le.1 (tol_near (R := R))).2
  have t2 := (abs_le.1 (length_near hS2 ha hb)).1
  generalize ((b.x -. a.x) *. (b.x -. a.x) +. (b.y -. a.y) *. (b.y -. a.y) : R.Num).val = z at *
  generalize (b.x.val - a.x.val) * (b.x.val - a.x.val) + (b.y.val - a.y.val) * (b.y.val - a.y.val) = r at *
  norm_num at hlen' t1 t2 ⊢
  linarith

/-- Any side: at most a thousandth more. -/
theorem side_near (hS : 1 ≤ S) (hS2 : S ≤ 2 ^ 31) (ha : Bounded S (exactly a)) (hb : Bounded S (exactly b)) (hp : Bounded S (exactly p)) :
    ∃ d, IsLeast (segDistances (exactly p) (exactly a) (exactly b)) d ∧ |(pointToLineDistance a b p).val - d| ≤ 1001 / 10 ^ 6 + S / 2 ^ 45 := by
  have t1 := abs_le.1 (tol_near (R := R))
  have t2 := abs_le.1 (length_near hS2 ha hb)
  by_cases far : FP.lt ((b.x -. a.x) *. (b.x -. a.x) +. (b.y -. a.y) *. (b.y -. a.y)) (FP.lit 1 1000000) = true
  · have hd := near_side a b p far
    rw [lt_iff, val_lit_tol] at far
    have hl : (b.x.val - a.x.val) * (b.x.val - a.x.val) + (b.y.val - a.y.val) * (b.y.val - a.y.val) ≤ (1001 / 10 ^ 6) ^ 2 := by
      generalize ((b.x -. a.x) *. (b.x -. a.x) +. (b.y -. a.y) *. (b.y -. a.y) : R.Num).val = z at *
      generalize (b.x.val - a.x.val) * (b.x.val - a.x.val) + (b.y.val - a.y.val) * (b.y.val - a.y.val) = r at *
      norm_num at t1 t2 ⊢
      linarith
    obtain ⟨d, hD⟩ : ∃ d, IsLeast (segDistances (exactly p) (exactly a) (exactly b)) d := by
      rcases (add_nonneg (mul_self_nonneg ((exactly b).x - (exactly a).x)) (mul_self_nonneg ((exactly b).y - (exactly a).y))).eq_or_lt with h0 | h0
      · refine ⟨distance (exactly p) (exactly a), ⟨0, le_rfl, zero_le_one, by unfold along; simp⟩, ?_⟩
        rintro d ⟨t, -, -, rfl⟩
        have e1 : (exactly b).x - (exactly a).x = 0 := by nlinarith [mul_self_nonneg ((exactly b).x - (exactly a).x), mul_self_nonneg ((exactly b).y - (exactly a).y)]
        have e2 : (exactly b).y - (exactly a).y = 0 := by nlinarith [mul_self_nonneg ((exactly b).x - (exactly a).x), mul_self_nonneg ((exactly b).y - (exactly a).y)]
        unfold along
        rw [e1, e2, mul_zero, add_zero, add_zero]
      · exact ⟨_, foot_least h0⟩
    refine ⟨d, hD, ?_⟩
    obtain ⟨t, h0, h1, rfl⟩ := hD.1
    rw [hd]
    have hc := centre_near p a hS ⟨hp.1.trans (by linarith), hp.2.trans (by linarith)⟩ ha
    have hs : distance (exactly a) (along (exactly a) (exactly b) t) ≤ 1001 / 10 ^ 6 := by
      unfold distance along
      refine Real.sqrt_le_iff.2 ⟨by norm_num, ?_⟩
      dsimp only
      refine le_trans ?_ hl
      have h3 : t ^ 2 ≤ 1 := by nlinarith
      have h4 : 0 ≤ (b.x.val - a.x.val) * (b.x.val - a.x.val) + (b.y.val - a.y.val) * (b.y.val - a.y.val) :=
        add_nonneg (mul_self_nonneg _) (mul_self_nonneg _)
      have h2 : ((exactly a).x - ((exactly a).x + t * ((exactly b).x - (exactly a).x))) ^ 2 + ((exactly a).y - ((exactly a).y + t * ((exactly b).y - (exactly a).y))) ^ 2 =
          t ^ 2 * ((b.x.val - a.x.val) * (b.x.val - a.x.val) + (b.y.val - a.y.val) * (b.y.val - a.y.val)) := by unfold exactly; ring
      rw [h2]
      nlinarith
    have k1 := distance_triangle (exactly p) (along (exactly a) (exactly b) t) (exactly a)
    have k2 := distance_triangle (exactly p) (exactly a) (along (exactly a) (exactly b) t)
    rw [distance_comm (along (exactly a) (exactly b) t) (exactly a)] at k1
    rw [abs_le] at hc ⊢
    constructor <;> linarith [hc.1, hc.2]
  · have l0 : 1 / 10 ^ 7 ≤ (b.x.val - a.x.val) * (b.x.val - a.x.val) + (b.y.val - a.y.val) * (b.y.val - a.y.val) := by
      rw [lt_iff, val_lit_tol, not_lt] at far
      generalize ((b.x -. a.x) *. (b.x -. a.x) +. (b.y -. a.y) *. (b.y -. a.y) : R.Num).val = z at *
      generalize (b.x.val - a.x.val) * (b.x.val - a.x.val) + (b.y.val - a.y.val) * (b.y.val - a.y.val) = r at *
      norm_num at t1 t2 ⊢
      linarith
    exact ⟨_, foot_least (lt_of_lt_of_le (by norm_num) l0), (segment_far hS hS2 ha hb hp l0 far).trans (by norm_num)⟩

/-- Values from the sides of a polygon in rounded arithmetic. -/
theorem polyVal_near (p : Coord R.Num) (vs : List (Coord R.Num)) {E : ℝ}
    (hE : ∀ s ∈ sides vs, ∃ d, IsLeast (segDistances (exactly p) (exactly s.1) (exactly s.2)) d ∧ |(pointToLineDistance s.1 s.2 p).val - d| ≤ E)
    (v : R.Num) (v' : ℝ) (hv : |v.val - v'| ≤ E) :
    ∃ m, IsLeast ({v'} ∪ {d | ∃ s ∈ sides (vs.map exactly), d ∈ segDistances (exactly p) s.1 s.2}) m ∧ |(polyVal p vs v).val - m| ≤ E := by
  match vs with
  | [] => exact ⟨v', by simp [IsLeast, lowerBounds, sides], hv⟩
  | [a] => exact ⟨v', by simp [IsLeast, lowerBounds, sides], hv⟩
  | a :: b :: l =>
    obtain ⟨d, hD, h1⟩ := hE (a, b) List.mem_cons_self
    obtain ⟨m, ⟨hm1, hm2⟩, hm⟩ := polyVal_near p (b :: l) (fun s hs => hE s (List.mem_cons_of_mem _ hs))
      (if FP.lt (pointToLineDistance a b p) v then pointToLineDistance a b p else v) (Min.min d v') (by
        simp only [lt_iff]
        dsimp only at h1
        generalize pointToLineDistance a b p = c at h1 ⊢
        rw [abs_le] at hv h1 ⊢
        rcases min_choice d v' with h | h <;> have := min_le_left d v' <;> have := min_le_right d v' <;>
          split_ifs <;> constructor <;> linarith [hv.1, hv.2, h1.1, h1.2])
    refine ⟨m, ⟨?_, ?_⟩, hm⟩
    · rcases hm1 with h | ⟨s, hs, h⟩
      · rw [Set.mem_singleton_iff] at h
        rcases min_choice d v' with hc | hc
        · exact .inr ⟨(exactly a, exactly b), List.mem_cons_self, by rw [h, hc]; exact hD.1⟩
        · exact .inl (by rw [h, hc]; rfl)
      · exact .inr ⟨s, List.mem_cons_of_mem _ hs, h⟩
    · have h0 := hm2 (.inl rfl)
      rintro e (he | ⟨s, hs, he⟩)
      · rw [Set.mem_singleton_iff] at he
        rw [he]; exact h0.trans (min_le_right _ _)
      · rcases List.mem_cons.1 hs with rfl | hs
        · exact h0.trans ((min_le_left _ _).trans (hD.2 he))
        · exact hm2 (.inr ⟨s, hs, he⟩)

theorem segs_nonneg (v : R.Num) (hv : 0 ≤ v.val) (p : Coord R.Num) (vs : List (Coord R.Num)) : 0 ≤ (polyVal p vs v).val := by
  match vs with
  | [] => exact hv
  | [a] => exact hv
  | a :: b :: l =>
    refine segs_nonneg _ ?_ p (b :: l)
    split_ifs
    · unfold pointToLineDistance
      dsimp only
      split_ifs <;> rw [val_sqrt] <;> exact rnd_nonneg (Real.sqrt_nonneg _)
    · exact hv

/-! ### winding -/

/-- The sign of the truncated cross product is that of the exact one. -/
def SameSign (z : ℤ) (c : ℝ) : Prop := (0 < z ↔ 0 < c) ∧ (z < 0 ↔ c < 0)

theorem meets_up {p a b : Coord ℝ} (h : a.y < b.y) : p.x < a.x + (p.y - a.y) / (b.y - a.y) * (b.x - a.x) ↔ 0 < cross p a b := by
  have hpos : 0 < b.y - a.y := by linarith
  have : a.x + (p.y - a.y) / (b.y - a.y) * (b.x - a.x) - p.x = cross p a b / (b.y - a.y) := by
    unfold cross; field_simp; ring
  rw [← sub_pos, this]
  exact div_pos_iff_of_pos_right hpos

theorem meets_down {p a b : Coord ℝ} (h : b.y < a.y) : p.x < a.x + (p.y - a.y) / (b.y - a.y) * (b.x - a.x) ↔ cross p a b < 0 := by
  have hneg : b.y - a.y < 0 := by linarith
  have hne : b.y - a.y ≠ 0 := hneg.ne
  have : a.x + (p.y - a.y) / (b.y - a.y) * (b.x - a.x) - p.x = cross p a b / (b.y - a.y) := by
    unfold cross; field_simp; ring
  rw [← sub_pos, this]
  constructor
  · intro h
    rcases div_pos_iff.1 h with h | h
    · linarith [h.2]
    · exact h.1
  · intro h; exact div_pos_of_neg_of_neg h hneg

theorem wind_cases {p a b : Coord ℝ} {z : ℤ} (hk : (a.y ≤ p.y ↔ p.y < b.y) → SameSign z (cross p a b)) (n : ℤ) :
    (if a.y ≤ p.y then if p.y < b.y then if 0 < z then n + 1 else n else n else if b.y ≤ p.y then if z < 0 then n - 1 else n else n) =
      n + crossingSign p a b := by
  classical
  unfold crossingSign MeetsRay
  by_cases h1 : a.y ≤ p.y
  · rw [if_pos h1]
    by_cases h2 : p.y < b.y
    · rw [if_pos h2]
      have hs := hk (by simp [h1, h2])
      have hab : a.y < b.y := lt_of_le_of_lt h1 h2
      have hiff := meets_up (p := p) hab
      by_cases h3 : 0 < cross p a b
      · rw [if_pos (hs.1.2 h3), if_pos ⟨.inl ⟨h1, h2⟩, hiff.2 h3⟩, if_pos hab]
      · rw [if_neg (fun h => h3 (hs.1.1 h)), if_neg (fun h => h3 (hiff.1 h.2)), add_zero]
    · rw [if_neg h2, if_neg, add_zero]
      rintro ⟨h | h, -⟩
      · exact h2 h.2
      · exact absurd h.2 (not_lt.2 h1)
  · rw [if_neg h1]
    by_cases h2 : b.y ≤ p.y
    · rw [if_pos h2]
      have hs := hk (by simp only [h1, false_iff, not_lt]; exact h2)
      rw [not_le] at h1
      have hab : b.y < a.y := lt_of_le_of_lt h2 h1
      have hiff := meets_down (p := p) hab
      by_cases h3 : cross p a b < 0
      · rw [if_pos (hs.2.2 h3), if_pos ⟨.inr ⟨h2, h1⟩, hiff.2 h3⟩, if_neg (not_lt.2 hab.le)]; rfl
      · rw [if_neg (fun h => h3 (hs.2.1 h)), if_neg (fun h => h3 (hiff.1 h.2)), add_zero]
    · rw [if_neg h2, if_neg, add_zero]
      rintro ⟨h | h, -⟩
      · exact h1 h.1
      · exact h2 h.1

theorem windStep_rnd (hk : (a.y.val ≤ p.y.val ↔ p.y.val < b.y.val) → SameSign (isLeftOfLine a b p) (cross (exactly p) (exactly a) (exactly b))) (n : ℤ) :
    windStep p a b n = n + crossingSign (exactly p) (exactly a) (exactly b) := by
  unfold windStep
  simp only [le_iff, lt_iff]
  exact wind_cases (p := exactly p) (a := exactly a) (b := exactly b) hk n

theorem winding_rnd {vs : List (Coord R.Num)} (hk : ∀ s ∈ sides vs, (s.1.y.val ≤ p.y.val ↔ p.y.val < s.2.y.val) →
    SameSign (isLeftOfLine s.1 s.2 p) (cross (exactly p) (exactly s.1) (exactly s.2))) (n : ℤ) :
    winding p vs n = n + crossingNumber (exactly p) (vs.map exactly) := by
  match vs with
  | [] => simp [winding, crossingNumber, sides]
  | [a] => simp [winding, crossingNumber, sides]
  | a :: b :: l =>
    rw [winding, windStep_rnd (hk (a, b) List.mem_cons_self), winding_rnd (vs := b :: l) (fun s hs => hk s (List.mem_cons_of_mem _ hs))]
    unfold crossingNumber
    have hside : sides ((a :: b :: l).map exactly) = (exactly a, exactly b) :: sides ((b :: l).map exactly) := rfl
    rw [hside]
    simp only [List.map_cons, List.sum_cons]
    ring

/-- Truncation of a value near one that is zero or at least one. -/
theorem same_sign {v : R.Num} {c e : ℝ} (h : |v.val - c| ≤ e) (he : e < 1) (hc : c = 0 ∨ 1 + e ≤ |c|) : SameSign (FP.trunc v) c := by
  have ht : FP.trunc v = if 0 ≤ v.val then ⌊v.val⌋ else ⌈v.val⌉ := rfl
  rw [ht]
  rw [abs_le] at h
  rcases hc with rfl | hc
  · have : (if 0 ≤ v.val then ⌊v.val⌋ else ⌈v.val⌉) = 0 := by
      split_ifs with h0
      · exact Int.floor_eq_zero_iff.2 ⟨h0, by linarith⟩
      · exact Int.ceil_eq_zero_iff.2 ⟨by linarith, by linarith⟩
    rw [this]
    constructor <;> simp
  · have e0 : 0 ≤ e := by linarith
    rcases le_abs.1 hc with hc | hc
    · rw [if_pos (by linarith)]
      have : 1 ≤ ⌊v.val⌋ := by rw [Int.le_floor]; push_cast; linarith
      constructor <;> constructor <;> intro _ <;> first | omega | linarith
    · rw [if_neg (by linarith)]
      have : ⌈v.val⌉ ≤ -1 := by rw [Int.ceil_le]; push_cast; linarith
      constructor <;> constructor <;> intro _ <;> first | omega | linarith

theorem cross_near (hS : 1 ≤ S) (hS2 : S ≤ 2 ^ 31) (ha : Bounded S (exactly a)) (hb : Bounded S (exactly b)) (hp : Bounded S (exactly p)) :
    |(((b.x -. a.x) *. (p.y -. a.y) -. (p.x -. a.x) *. (b.y -. a.y)) : R.Num).val - cross (exactly p) (exactly a) (exactly b)| ≤ S ^ 2 / 2 ^ 46 := by
  have two : ∀ {u v : ℝ}, |u| ≤ S → |v| ≤ S → |u - v| ≤ 2 * S := fun {u v} h1 h2 => (abs_sub u v).trans (by linarith)
  have big : ∀ {u : ℝ}, |u| ≤ 2 * S → |u| ≤ 2 ^ 33 := fun h => h.trans (by norm_num at hS2 ⊢; linarith)
  have h1 := two hb.1 ha.1
  have h2 := two hp.2 ha.2
  have h3 := two hp.1 ha.1
  have h4 := two hb.2 ha.2
  refine ((dot_near (R := R) (big h1) (big h2) (big h3) (big h4)).2).trans ?_
  have m1 : |(exactly b).x - (exactly a).x| * |(exactly p).y - (exactly a).y| ≤ 2 * S * (2 * S) := by gcongr
  have m2 : |(exactly p).x - (exactly a).x| * |(exactly b).y - (exactly a).y| ≤ 2 * S * (2 * S) := by gcongr
  have s1 : 1 ≤ S ^ 2 := by nlinarith
  rw [show 2 * S * (2 * S) = 4 * S ^ 2 by ring] at m1 m2
  generalize S ^ 2 = q at *
  generalize |(exactly b).x - (exactly a).x| * |(exactly p).y - (exactly a).y| = u at *
  generalize |(exactly p).x - (exactly a).x| * |(exactly b).y - (exactly a).y| = v at *
  clear h1 h2 h3 h4 hS2 big
  norm_num
  linarith

theorem rnd_int {k : ℤ} (hk : |k| ≤ 2 ^ 53) : R.rnd (k : ℝ) = k := by
  rcases le_total 0 k with h | h
  · obtain ⟨n, rfl⟩ := Int.eq_ofNat_of_zero_le h
    rw [abs_of_nonneg h] at hk
    exact R.nat n (by exact_mod_cast hk)
  · obtain ⟨n, hn⟩ := Int.eq_ofNat_of_zero_le (neg_nonneg.2 h)
    rw [abs_of_nonpos h, hn] at hk
    have : k = -(n : ℤ) := by linarith
    subst this
    push_cast
    exact R.neg _ (R.nat n (by exact_mod_cast hk))

theorem whole_sign (ha : Whole (exactly a)) (hb : Whole (exactly b)) (hp : Whole (exactly p)) :
    SameSign (isLeftOfLine a b p) (cross (exactly p) (exactly a) (exactly b)) := by
  obtain ⟨⟨a1, A1, ea⟩, a2, A2, ea'⟩ := ha
  obtain ⟨⟨b1, B1, eb⟩, b2, B2, eb'⟩ := hb
  obtain ⟨⟨p1, P1, ep⟩, p2, P2, ep'⟩ := hp
  simp only [exactly] at ea ea' eb eb' ep ep'
  have two : ∀ {u v : ℤ}, |u| ≤ 2 ^ 25 → |v| ≤ 2 ^ 25 → |u - v| ≤ 2 ^ 26 := fun {u v} h1 h2 => (abs_sub u v).trans (by omega)
  have d : ∀ {u v : ℤ}, |u| ≤ 2 ^ 25 → |v| ≤ 2 ^ 25 → R.rnd ((u : ℝ) - v) = ((u - v : ℤ) : ℝ) := fun {u v} h1 h2 => by
    rw [← Int.cast_sub, rnd_int ((two h1 h2).trans (by norm_num))]
  have m : ∀ {u v : ℤ}, |u| ≤ 2 ^ 26 → |v| ≤ 2 ^ 26 → |u * v| ≤ 2 ^ 52 := fun {u v} h1 h2 => by
    rw [abs_mul]
    calc |u| * |v| ≤ 2 ^ 26 * 2 ^ 26 := by gcongr
      _ = _ := by norm_num
  have hv : (((b.x -. a.x) *. (p.y -. a.y) -. (p.x -. a.x) *. (b.y -. a.y)) : R.Num).val = (((b1 - a1) * (p2 - a2) - (p1 - a1) * (b2 - a2) : ℤ) : ℝ) := by
    simp only [val_sub, val_mul, ea, ea', eb, eb', ep, ep']
    have m1 := m (two B1 A1) (two P2 A2)
    have m2 := m (two P1 A1) (two B2 A2)
    rw [d B1 A1, d P2 A2, d P1 A1, d B2 A2, ← Int.cast_mul, ← Int.cast_mul, rnd_int (m1.trans (by norm_num)), rnd_int (m2.trans (by norm_num)),
      ← Int.cast_sub, rnd_int ((abs_sub _ _).trans (by omega))]
  have hc : cross (exactly p) (exactly a) (exactly b) = (((b1 - a1) * (p2 - a2) - (p1 - a1) * (b2 - a2) : ℤ) : ℝ) := by
    unfold cross exactly
    rw [ea, ea', eb, eb', ep, ep']
    push_cast
    ring
  refine same_sign (e := 0) (by rw [hv, hc, sub_self, abs_zero]) (by norm_num) ?_
  rw [hc, add_zero]
  rcases eq_or_ne ((b1 - a1) * (p2 - a2) - (p1 - a1) * (b2 - a2)) 0 with h | h
  · left; rw [h, Int.cast_zero]
  · right
    rw [← Int.cast_abs]
    exact_mod_cast Int.one_le_abs h

end LevelSet

end Slsm
