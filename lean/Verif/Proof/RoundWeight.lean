import Verif.Spec.RoundWeight
import Verif.Proof.RoundPerim
import Verif.Proof.RoundMesh
import Verif.Proof.Weighted

/-! # The weighted length of the demos in rounded arithmetic -/

namespace Slsm.Rounding

open FP Program

variable {R : Rounding}

theorem err200 (x : ℝ) : |R.rnd x - x| ≤ |x| / 2 ^ 52 + 1 / 2 ^ 240 :=
  (R.err x).trans (add_le_add_right (one_div_le_one_div_of_le (by positivity) (pow_le_pow_right₀ (by norm_num) (by norm_num))) _)

/-- Quotient of two lengths, one inside the other. -/
theorem part_near {X D : ℝ} (h0 : 0 ≤ X) (h1 : X ≤ D) (hD : 1 / 2 ^ 100 ≤ D) :
    0 ≤ R.rnd (R.rnd X / R.rnd D) ∧ R.rnd (R.rnd X / R.rnd D) ≤ 1 ∧ |R.rnd (R.rnd X / R.rnd D) - X / D| ≤ 10 / 2 ^ 52 := by
  have D0 : 0 < D := lt_of_lt_of_le (by positivity) hD
  have e1 := err200 (R := R) X
  have e2 := err200 (R := R) D
  rw [abs_of_nonneg h0] at e1
  rw [abs_of_pos D0] at e2
  have hη : (1 : ℝ) / 2 ^ 240 ≤ D / 2 ^ 100 := by
    calc (1 : ℝ) / 2 ^ 240 ≤ 1 / 2 ^ 100 / 2 ^ 100 := by norm_num
      _ ≤ D / 2 ^ 100 := by gcongr
  have hm : R.rnd X ≤ R.rnd D := R.mono h1
  have hX0 : 0 ≤ R.rnd X := rnd_nonneg h0
  have e2' : |R.rnd D - D| ≤ D / 2 ^ 51 := by linarith
  have e1' : |R.rnd X - X| ≤ D / 2 ^ 51 := by
    have : X / 2 ^ 52 ≤ D / 2 ^ 52 := by gcongr
    linarith
  have hd : D / 2 ≤ R.rnd D := by
    have := (abs_le.1 e2').1
    linarith
  generalize R.rnd D = d at *
  generalize R.rnd X = a at *
  have d0 : 0 < d := by linarith
  have q0 : 0 ≤ a / d := by positivity
  have q1 : a / d ≤ 1 := (div_le_one d0).2 hm
  have key : |a / d - X / D| ≤ 8 / 2 ^ 52 := by
    rw [show a / d - X / D = ((a - X) * D + X * (D - d)) / (d * D) by field_simp; ring, abs_div, abs_of_pos (mul_pos d0 D0),
      div_le_iff₀ (mul_pos d0 D0)]
    have t1 : |(a - X) * D + X * (D - d)| ≤ D / 2 ^ 51 * D + D * (D / 2 ^ 51) := by
      refine (abs_add_le _ _).trans (add_le_add ?_ ?_)
      · rw [abs_mul, abs_of_pos D0]
        gcongr
      · rw [abs_mul, abs_of_nonneg h0, abs_sub_comm]
        gcongr
    refine t1.trans ?_
    have : D / 2 * D ≤ d * D := by gcongr
    linarith
  have e3 := err200 (R := R) (a / d)
  rw [abs_of_nonneg q0] at e3
  refine ⟨rnd_nonneg q0, rnd_le_one q1, ?_⟩
  have q2 : a / d / 2 ^ 52 ≤ 1 / 2 ^ 52 := by gcongr
  have h3 := abs_add_le (R.rnd (a / d) - a / d) (a / d - X / D)
  rw [sub_add_sub_cancel] at h3
  have : (1 : ℝ) / 2 ^ 240 ≤ 1 / 2 ^ 52 := by norm_num
  linarith

theorem heightWeight_mid {u l r y : ℝ} (hlu : l < u) (h1 : l ≤ y) (h2 : y ≤ u) : heightWeight u l r y = 1 - (u - y) / (u - l) * (1 - r) := by
  have hd : 0 < u - l := by linarith
  unfold heightWeight
  rw [min_eq_right (by rw [div_le_one hd]; linarith), max_eq_right (div_nonneg (by linarith) hd.le)]
  field_simp
  ring

theorem heightWeight_bounds {u l r : ℝ} (h0 : 0 ≤ r) (h1 : r ≤ 1) (y : ℝ) : 0 ≤ heightWeight u l r y ∧ heightWeight u l r y ≤ 1 := by
  unfold heightWeight
  have a : 0 ≤ Max.max 0 (Min.min 1 ((y - l) / (u - l))) := le_max_left _ _
  have b : Max.max 0 (Min.min 1 ((y - l) / (u - l))) ≤ 1 := max_le (by norm_num) (min_le_left _ _)
  constructor <;> nlinarith

theorem heightWeight_lip {u l r : ℝ} (hlu : l < u) (h0 : 0 ≤ r) (h1 : r ≤ 1) (y z : ℝ) :
    |heightWeight u l r y - heightWeight u l r z| ≤ |y - z| / (u - l) := by
  have hd : 0 < u - l := by linarith
  unfold heightWeight
  rw [show r + (1 - r) * Max.max 0 (Min.min 1 ((y - l) / (u - l))) - (r + (1 - r) * Max.max 0 (Min.min 1 ((z - l) / (u - l)))) =
    (1 - r) * (Max.max 0 (Min.min 1 ((y - l) / (u - l))) - Max.max 0 (Min.min 1 ((z - l) / (u - l)))) by ring, abs_mul, abs_of_nonneg (by linarith : 0 ≤ 1 - r)]
  have h2 : |Max.max 0 (Min.min 1 ((y - l) / (u - l))) - Max.max 0 (Min.min 1 ((z - l) / (u - l)))| ≤ |y - z| / (u - l) := by
    have e1 := abs_max_sub_max_le_abs (Min.min 1 ((y - l) / (u - l))) (Min.min 1 ((z - l) / (u - l))) 0
    rw [max_comm _ 0, max_comm _ 0] at e1
    have e2 := abs_min_sub_min_le_max 1 ((y - l) / (u - l)) 1 ((z - l) / (u - l))
    rw [sub_self, abs_zero, max_eq_right (abs_nonneg _), ← sub_div, sub_sub_sub_cancel_right, abs_div, abs_of_pos hd] at e2
    exact e1.trans e2
  have h3 := abs_nonneg (Max.max 0 (Min.min 1 ((y - l) / (u - l))) - Max.max 0 (Min.min 1 ((z - l) / (u - l))))
  nlinarith

/-- The computed weight. -/
theorem weight_near {u l r : R.Num} (hlu : 1 / 2 ^ 100 ≤ u.val - l.val) (h0 : 0 ≤ r.val) (h1 : r.val ≤ 1) (y : R.Num) :
    0 ≤ (perimeterWeight (gravity u l r) y).val ∧ (perimeterWeight (gravity u l r) y).val ≤ 1 ∧
    |(perimeterWeight (gravity u l r) y).val - heightWeight u.val l.val r.val y.val| ≤ 1 / 2 ^ 48 := by
  have hd : 0 < u.val - l.val := lt_of_lt_of_le (by positivity) hlu
  unfold perimeterWeight gravity
  dsimp only
  by_cases c1 : u.val < y.val
  · rw [if_pos ((lt_iff _ _).2 c1), val_one]
    have : heightWeight u.val l.val r.val y.val = 1 := by
      unfold heightWeight
      rw [min_eq_left (by rw [one_le_div hd]; linarith), max_eq_right (by norm_num)]
      ring
    rw [this]
    norm_num
  rw [if_neg (fun h => c1 ((lt_iff _ _).1 h))]
  by_cases c2 : y.val < l.val
  · rw [if_pos ((lt_iff _ _).2 c2)]
    have : heightWeight u.val l.val r.val y.val = r.val := by
      unfold heightWeight
      rw [min_eq_right (by rw [div_le_one hd]; linarith), max_eq_left (div_nonpos_of_nonpos_of_nonneg (by linarith) hd.le)]
      ring
    rw [this, sub_self, abs_zero]
    exact ⟨h0, h1, by positivity⟩
  rw [if_neg (fun h => c2 ((lt_iff _ _).1 h)), heightWeight_mid (by linarith) (not_lt.1 c2) (not_lt.1 c1), val_sub, val_mul, val_sub, val_div, val_sub, val_sub, val_one]
  obtain ⟨p1, p2, p3⟩ := part_near (R := R) (X := u.val - y.val) (D := u.val - l.val) (by linarith) (by linarith) hlu
  have hT0 : 0 ≤ (u.val - y.val) / (u.val - l.val) := div_nonneg (by linarith) hd.le
  have hT1 : (u.val - y.val) / (u.val - l.val) ≤ 1 := (div_le_one hd).2 (by linarith)
  generalize R.rnd (R.rnd (u.val - y.val) / R.rnd (u.val - l.val)) = t at *
  generalize (u.val - y.val) / (u.val - l.val) = T at *
  have e1 := err200 (R := R) (1 - r.val)
  rw [abs_of_nonneg (show 0 ≤ 1 - r.val by linarith)] at e1
  have q0 : 0 ≤ R.rnd (1 - r.val) := rnd_nonneg (by linarith)
  have q1 : R.rnd (1 - r.val) ≤ 1 := rnd_le_one (by linarith)
  generalize R.rnd (1 - r.val) = q at *
  have m0 : 0 ≤ t * q := by positivity
  have m1 : t * q ≤ 1 := by nlinarith
  have e2 := err200 (R := R) (t * q)
  rw [abs_of_nonneg m0] at e2
  have n0 : 0 ≤ R.rnd (t * q) := rnd_nonneg m0
  have n1 : R.rnd (t * q) ≤ 1 := rnd_le_one m1
  generalize R.rnd (t * q) = m at *
  have e3 := err200 (R := R) (1 - m)
  rw [abs_of_nonneg (show 0 ≤ 1 - m by linarith)] at e3
  refine ⟨rnd_nonneg (by linarith), rnd_le_one (by linarith), ?_⟩
  have hp : |t * q - T * (1 - r.val)| ≤ 10 / 2 ^ 52 + (1 / 2 ^ 52 + 1 / 2 ^ 240) := by
    rw [show t * q - T * (1 - r.val) = (t - T) * q + T * (q - (1 - r.val)) by ring]
    refine (abs_add_le _ _).trans (add_le_add ?_ ?_)
    · rw [abs_mul, abs_of_nonneg q0]
      nlinarith [abs_nonneg (t - T)]
    · rw [abs_mul, abs_of_nonneg hT0]
      have : |q - (1 - r.val)| ≤ 1 / 2 ^ 52 + 1 / 2 ^ 240 := e1.trans (by linarith)
      nlinarith [abs_nonneg (q - (1 - r.val))]
  have hη : (1 : ℝ) / 2 ^ 240 ≤ 1 / 2 ^ 60 := by norm_num
  generalize (1 : ℝ) / 2 ^ 240 = η at *
  have s3 : |R.rnd (1 - m) - (1 - m)| ≤ 1 / 2 ^ 52 + η := e3.trans (by linarith)
  have s2 : |m - t * q| ≤ 1 / 2 ^ 52 + η := e2.trans (by linarith)
  clear e1 e2 e3 p3
  rw [abs_le] at *
  constructor <;> linarith [s3.1, s3.2, s2.1, s2.2, hp.1, hp.2]

/-- The height of a sample. -/
theorem sample_near {p q : R.Num} {M : ℝ} (hM : 1 ≤ M) (hp : |p.val| ≤ M) (hq : |q.val| ≤ M) {j : Nat} (hj : j < 10) :
    |(p +. (FP.nat j +. lit 1 2) *. (q -. p) /. FP.nat 10 : R.Num).val - (p.val + ((j : ℝ) + 1 / 2) * (q.val - p.val) / 10)| ≤ M / 2 ^ 48 := by
  have hjr : (j : ℝ) + 1 ≤ 10 := by exact_mod_cast hj
  have hj0 : (0 : ℝ) ≤ j := Nat.cast_nonneg j
  have hc : (FP.nat j +. lit 1 2 : R.Num).val = (j : ℝ) + 1 / 2 := by
    rw [val_add, val_nat (by omega), val_lit_half]
    have := R.half (2 * j + 1) (by omega)
    push_cast at this
    rwa [show (2 * (j : ℝ) + 1) / 2 = j + 1 / 2 by ring] at this
  rw [val_add, val_div, val_mul, hc, val_sub, val_nat (n := 10) (by norm_num)]
  push_cast
  have hη : (1 : ℝ) / 2 ^ 240 ≤ M / 2 ^ 100 := by
    calc (1 : ℝ) / 2 ^ 240 ≤ 1 / 2 ^ 100 := by norm_num
      _ ≤ M / 2 ^ 100 := by gcongr
  obtain ⟨c, hcd⟩ : ∃ c, c = (j : ℝ) + 1 / 2 := ⟨_, rfl⟩
  rw [← hcd]
  have c0 : 0 ≤ c := by linarith
  have c1 : c ≤ 10 := by linarith
  clear hcd hc hjr hj0
  have d1 : |q.val - p.val| ≤ 2 * M := by
    rw [abs_le] at *
    constructor <;> linarith [hp.1, hp.2, hq.1, hq.2]
  have e1 := err200 (R := R) (q.val - p.val)
  generalize q.val - p.val = d at *
  have e1' : |R.rnd d - d| ≤ 2 * M / 2 ^ 52 + M / 2 ^ 100 := e1.trans (by linarith)
  generalize R.rnd d = d' at *
  have m1 : |c * d' - c * d| ≤ 10 * (2 * M / 2 ^ 52 + M / 2 ^ 100) := by
    rw [← mul_sub, abs_mul, abs_of_nonneg c0]
    gcongr
  have m2 : |c * d| ≤ 20 * M := by
    rw [abs_mul, abs_of_nonneg c0]
    calc c * |d| ≤ 10 * (2 * M) := by gcongr
      _ = 20 * M := by ring
  have e2 : |R.rnd (c * d') - c * d'| ≤ |c * d'| / 2 ^ 52 + M / 2 ^ 100 := (err200 (R := R) (c * d')).trans (add_le_add le_rfl hη)
  generalize c * d' = m at *
  generalize c * d = m0 at *
  have am : |m| ≤ 21 * M := by
    have := abs_add_le (m - m0) m0
    rw [sub_add_cancel] at this
    linarith
  have e2' : |R.rnd m - m| ≤ 21 * M / 2 ^ 52 + M / 2 ^ 100 := e2.trans (by linarith)
  generalize R.rnd m = m' at *
  have e3 : |R.rnd (m' / 10) - m' / 10| ≤ |m' / 10| / 2 ^ 52 + M / 2 ^ 100 := (err200 (R := R) (m' / 10)).trans (add_le_add le_rfl hη)
  have q1 : |m' / 10 - m0 / 10| ≤ 5 * M / 2 ^ 52 := by
    clear e3 e1 e2 am
    rw [abs_le] at *
    constructor <;> linarith [m1.1, m1.2, e2'.1, e2'.2]
  have q2 : |m0 / 10| ≤ 2 * M := by
    rw [abs_div, abs_of_pos (show (0 : ℝ) < 10 by norm_num)]
    linarith
  generalize m' / 10 = t at *
  generalize m0 / 10 = t0 at *
  have at' : |t| ≤ 3 * M := by
    have := abs_add_le (t - t0) t0
    rw [sub_add_cancel] at this
    linarith
  have e3' : |R.rnd t - t| ≤ 3 * M / 2 ^ 52 + M / 2 ^ 100 := e3.trans (by linarith)
  generalize R.rnd t = t' at *
  have e4 : |R.rnd (p.val + t') - (p.val + t')| ≤ |p.val + t'| / 2 ^ 52 + M / 2 ^ 100 := (err200 (R := R) (p.val + t')).trans (add_le_add le_rfl hη)
  have as : |p.val + t'| ≤ 5 * M := by
    have a1 := abs_add_le p.val t'
    have a2 := abs_add_le (t' - t) t
    rw [sub_add_cancel] at a2
    linarith
  have e4' : |R.rnd (p.val + t') - (p.val + t')| ≤ 5 * M / 2 ^ 52 + M / 2 ^ 100 := e4.trans (by linarith)
  clear e1 e2 e3 e4 e1' e2' m1 m2 am as at' q2 d1
  rw [abs_le] at *
  constructor <;> linarith [e4'.1, e4'.2, e3'.1, e3'.2, q1.1, q1.2]

/-- One tenth of a segment. -/
theorem tenth_near {ch : R.Num} {D : ℝ} (hD : 0 ≤ D) (h0 : 0 ≤ ch.val) (h : |ch.val - D| ≤ D / 2 ^ 49 + 1 / 2 ^ 240) :
    0 ≤ (ch /. FP.nat 10 : R.Num).val ∧ |(ch /. FP.nat 10 : R.Num).val - D / 10| ≤ D / 10 / 2 ^ 48 + 1 / 2 ^ 238 := by
  rw [val_div, val_nat (n := 10) (by norm_num)]
  push_cast
  have e := err200 (R := R) (ch.val / 10)
  rw [abs_of_nonneg (show 0 ≤ ch.val / 10 by positivity)] at e
  refine ⟨rnd_nonneg (by positivity), ?_⟩
  rw [show (1 : ℝ) / 2 ^ 238 = 4 * (1 / 2 ^ 240) by norm_num]
  have : (0 : ℝ) ≤ 1 / 2 ^ 240 := by positivity
  generalize (1 : ℝ) / 2 ^ 240 = η at *
  rw [abs_le] at *
  constructor <;> linarith [e.1, e.2, h.1, h.2]

/-- The contribution of one part. -/
theorem tenth_share {w' len : R.Num} {w ω E : ℝ} (hE : 0 ≤ E) (w0 : 0 ≤ w'.val) (w1 : w'.val ≤ 1) (hw : |w'.val - w| ≤ ω) (l0 : 0 ≤ len.val)
    (hl : |len.val - E| ≤ E / 2 ^ 48 + 1 / 2 ^ 238) :
    0 ≤ (w' *. len).val ∧ |(w' *. len).val - w * E| ≤ E * (ω + 1 / 2 ^ 47) + 1 / 2 ^ 236 := by
  rw [val_mul]
  have e := err200 (R := R) (w'.val * len.val)
  have p0 : 0 ≤ w'.val * len.val := by positivity
  have p1 : w'.val * len.val ≤ len.val := by nlinarith
  rw [abs_of_nonneg p0] at e
  refine ⟨rnd_nonneg p0, ?_⟩
  have t1 : |w'.val * (len.val - E)| ≤ E / 2 ^ 48 + 1 / 2 ^ 238 := by
    rw [abs_mul, abs_of_nonneg w0]
    refine le_trans ?_ hl
    nlinarith [abs_nonneg (len.val - E)]
  have t2 : |(w'.val - w) * E| ≤ ω * E := by
    rw [abs_mul, abs_of_nonneg hE]
    gcongr
  have hs := abs_add_le (R.rnd (w'.val * len.val) - w'.val * len.val) (w'.val * (len.val - E) + (w'.val - w) * E)
  have hs2 := abs_add_le (w'.val * (len.val - E)) ((w'.val - w) * E)
  rw [show R.rnd (w'.val * len.val) - w'.val * len.val + (w'.val * (len.val - E) + (w'.val - w) * E) = R.rnd (w'.val * len.val) - w * E by ring] at hs
  have hl2 : len.val ≤ E + (E / 2 ^ 48 + 1 / 2 ^ 238) := by linarith [(abs_le.1 hl).2]
  rw [show (1 : ℝ) / 2 ^ 238 = 4 * (1 / 2 ^ 240) by norm_num] at *
  rw [show (1 : ℝ) / 2 ^ 236 = 16 * (1 / 2 ^ 240) by norm_num] at *
  have : (0 : ℝ) ≤ 1 / 2 ^ 240 := by positivity
  generalize (1 : ℝ) / 2 ^ 240 = η at *
  linarith

/-- The ten contributions of a segment, as the code computes them. -/
noncomputable def parts (G : Gravity R.Num) (p q : Coord R.Num) : List R.Num :=
  (List.range 10).map fun j => perimeterWeight G (p.y +. (FP.nat j +. lit 1 2) *. (q.y -. p.y) /. FP.nat 10) *. (Boundary.chord q p /. FP.nat 10)

theorem parts_near {u l r : R.Num} (hlu : 1 / 2 ^ 100 ≤ u.val - l.val) (h0 : 0 ≤ r.val) (h1 : r.val ≤ 1) {p q : Coord R.Num} {M : ℝ} (hM : 1 ≤ M)
    (hp : |p.y.val| ≤ M) (hq : |q.y.val| ≤ M) :
    (∀ v ∈ parts (gravity u l r) p q, 0 ≤ v.val) ∧
    |((parts (gravity u l r) p q).map Num.val).sum - tenths (heightWeight u.val l.val r.val) (placeOf p) (placeOf q)| ≤
      Boundary.distance (placeOf p) (placeOf q) * (1 / 2 ^ 46 + M / (2 ^ 48 * (u.val - l.val))) + 1 / 2 ^ 232 := by
  have hd : 0 < u.val - l.val := lt_of_lt_of_le (by positivity) hlu
  obtain ⟨D, hD⟩ : ∃ D, D = Boundary.distance (placeOf p) (placeOf q) := ⟨_, rfl⟩
  have D0 : 0 ≤ D := by rw [hD]; exact Real.sqrt_nonneg _
  have hch : |(Boundary.chord q p).val - D| ≤ D / 2 ^ 49 + 1 / 2 ^ 240 := by
    have := Boundary.chord_err q p
    rw [Boundary.distance_comm] at this
    change |_ - Boundary.distance (placeOf p) (placeOf q)| ≤ Boundary.distance (placeOf p) (placeOf q) / _ + _ at this
    rw [← hD] at this
    refine this.trans (add_le_add le_rfl (one_div_le_one_div_of_le (by positivity) (pow_le_pow_right₀ (by norm_num) (by norm_num))))
  obtain ⟨t0, t1⟩ := tenth_near D0 (Boundary.chord_nonneg q p) hch
  have term : ∀ j, j < 10 → 0 ≤ (perimeterWeight (gravity u l r) (p.y +. (FP.nat j +. lit 1 2) *. (q.y -. p.y) /. FP.nat 10) *. (Boundary.chord q p /. FP.nat 10)).val ∧
      |(perimeterWeight (gravity u l r) (p.y +. (FP.nat j +. lit 1 2) *. (q.y -. p.y) /. FP.nat 10) *. (Boundary.chord q p /. FP.nat 10)).val -
        heightWeight u.val l.val r.val (p.y.val + ((j : ℝ) + 1 / 2) * (q.y.val - p.y.val) / 10) * (D / 10)| ≤
        D / 10 * (1 / 2 ^ 46 + M / (2 ^ 48 * (u.val - l.val))) + 1 / 2 ^ 236 := by
    intro j hj
    have s1 := sample_near hM hp hq hj
    obtain ⟨w0, w1, w2⟩ := weight_near hlu h0 h1 (p.y +. (FP.nat j +. lit 1 2) *. (q.y -. p.y) /. FP.nat 10 : R.Num)
    have s2 := heightWeight_lip (r := r.val) (sub_pos.1 hd) h0 h1 (p.y +. (FP.nat j +. lit 1 2) *. (q.y -. p.y) /. FP.nat 10 : R.Num).val
      (p.y.val + ((j : ℝ) + 1 / 2) * (q.y.val - p.y.val) / 10)
    generalize (p.y +. (FP.nat j +. lit 1 2) *. (q.y -. p.y) /. FP.nat 10 : R.Num) = y' at *
    generalize p.y.val + ((j : ℝ) + 1 / 2) * (q.y.val - p.y.val) / 10 = y at *
    have s3 : |y'.val - y| / (u.val - l.val) ≤ M / (2 ^ 48 * (u.val - l.val)) := by
      rw [← div_div]
      gcongr
    have s4 := abs_add_le ((perimeterWeight (gravity u l r) y').val - heightWeight u.val l.val r.val y'.val)
      (heightWeight u.val l.val r.val y'.val - heightWeight u.val l.val r.val y)
    rw [sub_add_sub_cancel] at s4
    obtain ⟨k1, k2⟩ := tenth_share (E := D / 10) (by positivity) w0 w1 (ω := 1 / 2 ^ 48 + M / (2 ^ 48 * (u.val - l.val))) (s4.trans (add_le_add w2 (s2.trans s3))) t0 t1
    refine ⟨k1, k2.trans (add_le_add (mul_le_mul_of_nonneg_left ?_ (by positivity)) le_rfl)⟩
    have : (1 : ℝ) / 2 ^ 48 + 1 / 2 ^ 47 ≤ 1 / 2 ^ 46 := by norm_num
    linarith
  refine ⟨fun v hv => ?_, ?_⟩
  · obtain ⟨j, hj, rfl⟩ := List.mem_map.1 hv
    exact (term j (List.mem_range.1 hj)).1
  have key : ∀ n, n ≤ 10 → |(((List.range n).map fun j => perimeterWeight (gravity u l r) (p.y +. (FP.nat j +. lit 1 2) *. (q.y -. p.y) /. FP.nat 10) *.
      (Boundary.chord q p /. FP.nat 10)).map Num.val).sum - ∑ j ∈ Finset.range n, heightWeight u.val l.val r.val (p.y.val + ((j : ℝ) + 1 / 2) * (q.y.val - p.y.val) / 10) * (D / 10)| ≤
      n * (D / 10 * (1 / 2 ^ 46 + M / (2 ^ 48 * (u.val - l.val))) + 1 / 2 ^ 236) := by
    intro n
    induction n with
    | zero => intro _; simp
    | succ n ih =>
      intro hn
      have a1 := ih (by omega)
      have a2 := (term n (by omega)).2
      rw [List.range_succ, List.map_append, List.map_append, List.sum_append, Finset.sum_range_succ]
      simp only [List.map_cons, List.map_nil, List.sum_cons, List.sum_nil, add_zero]
      rw [Nat.cast_add, Nat.cast_one, add_sub_add_comm, add_mul (n : ℝ) 1, one_mul]
      exact (abs_add_le _ _).trans (add_le_add a1 a2)
  have k10 := key 10 le_rfl
  unfold parts tenths
  rw [← hD]
  refine k10.trans ?_
  have : (10 : ℝ) * (1 / 2 ^ 236) ≤ 1 / 2 ^ 232 := by norm_num
  generalize (1 : ℝ) / 2 ^ 236 = ζ at *
  generalize (1 : ℝ) / 2 ^ 46 + M / (2 ^ 48 * (u.val - l.val)) = W at *
  rw [show ((10 : Nat) : ℝ) * (D / 10 * W + ζ) = D * W + 10 * ζ by push_cast; ring]
  linarith

/-- All contributions of a point. -/
noncomputable def allParts (G : Gravity R.Num) (b : Boundary R.Num) (nbrs : List Nat) (c : Coord R.Num) : List R.Num :=
  nbrs.flatMap fun j => (b.points[j]?).elim [] fun q => parts G c q.coord

theorem pointLength_fold {b : Boundary R.Num} {p : BoundaryPoint R.Num} (G : Gravity R.Num) (H : Tied b p) :
    pointLength G b.points p = .ok ((allParts G b (p.neighbours.take p.nNeighbours) p.coord).foldl (fun s v => s +. v) (FP.nat 0)) := by
  have hn := H.size
  unfold pointLength
  refine forN_eq (fun i => (allParts G b (p.neighbours.take i) p.coord).foldl (fun s v => s +. v) (FP.nat 0)) (by simp [allParts]) fun i hi => ?_
  have hi' : i < p.neighbours.length := by omega
  have hq : p.neighbours[i] < b.points.length := H.inside _ (List.mem_iff_getElem?.2 ⟨i, by
    rw [List.getElem?_take, if_pos hi, List.getElem?_eq_getElem hi']⟩)
  dsimp only
  rw [rd_eq hi']
  simp only [bind, Except.bind]
  rw [rd_eq hq]
  unfold allParts
  rw [List.take_add_one, List.getElem?_eq_getElem hi', List.flatMap_append, List.foldl_append]
  simp only [Option.toList, List.flatMap_cons, List.flatMap_nil, List.append_nil]
  rw [List.getElem?_eq_getElem hq, Option.elim_some]
  generalize ((p.neighbours.take i).flatMap fun j => (b.points[j]?).elim [] fun q => parts G p.coord q.coord).foldl (fun s v => s +. v) (FP.nat 0) = v
  unfold parts
  refine forN_eq (fun n => ((List.range n).map fun j => perimeterWeight G (p.coord.y +. (FP.nat j +. lit 1 2) *. (b.points[p.neighbours[i]].coord.y -. p.coord.y) /. FP.nat 10) *.
    (Boundary.chord b.points[p.neighbours[i]].coord p.coord /. FP.nat 10)).foldl (fun s v => s +. v) v) (by simp) fun n hn => ?_
  rw [List.range_succ, List.map_append, List.foldl_append]
  rfl

theorem allParts_near {u l r : R.Num} (hlu : 1 / 2 ^ 100 ≤ u.val - l.val) (h0 : 0 ≤ r.val) (h1 : r.val ≤ 1) {b : Boundary R.Num} {c : Coord R.Num} {M : ℝ}
    (hM : 1 ≤ M) (hc : |c.y.val| ≤ M) (hb : ∀ q ∈ b.points, |q.coord.y.val| ≤ M) (nbrs : List Nat) :
    (allParts (gravity u l r) b nbrs c).length ≤ 10 * nbrs.length ∧ (∀ v ∈ allParts (gravity u l r) b nbrs c, 0 ≤ v.val) ∧
    |((allParts (gravity u l r) b nbrs c).map Num.val).sum - sampled (heightWeight u.val l.val r.val) b nbrs (placeOf c)| ≤
      ringAt b nbrs (placeOf c) * (1 / 2 ^ 46 + M / (2 ^ 48 * (u.val - l.val))) + nbrs.length * (1 / 2 ^ 232) := by
  induction nbrs with
  | nil => simp [allParts, sampled, ringAt]
  | cons j t ih =>
    obtain ⟨i1, i2, i3⟩ := ih
    unfold allParts sampled ringAt at *
    rw [List.flatMap_cons, List.map_cons, List.sum_cons, List.map_cons, List.sum_cons, List.length_cons]
    cases hq : b.points[j]? with
    | none =>
      simp only [Option.elim_none, List.nil_append, zero_add]
      refine ⟨by omega, i2, i3.trans ?_⟩
      push_cast
      have : (0 : ℝ) ≤ 1 / 2 ^ 232 := by positivity
      nlinarith
    | some q =>
      simp only [Option.elim_some]
      obtain ⟨k1, k2⟩ := parts_near hlu h0 h1 hM hc (hb q (List.mem_of_getElem? hq))
      refine ⟨?_, ?_, ?_⟩
      · rw [List.length_append]
        have : (parts (gravity u l r) c q.coord).length = 10 := by simp [parts]
        omega
      · intro v hv
        rcases List.mem_append.1 hv with h | h
        · exact k1 v h
        · exact i2 v h
      · rw [List.map_append, List.sum_append, add_sub_add_comm, Nat.cast_add, Nat.cast_one]
        refine (abs_add_le _ _).trans ((add_le_add k2 i3).trans (le_of_eq ?_))
        ring

theorem foldl_nonneg (l : List R.Num) (a : R.Num) (hl : ∀ v ∈ l, 0 ≤ v.val) (ha : 0 ≤ a.val) : 0 ≤ (l.foldl (fun s v => s +. v) a).val := by
  induction l generalizing a with
  | nil => exact ha
  | cons x l ih =>
    refine ih _ (fun v hv => hl v (List.mem_cons_of_mem _ hv)) ?_
    rw [val_add]
    exact rnd_nonneg (add_nonneg ha (hl x List.mem_cons_self))

theorem tenths_le {f : ℝ → ℝ} (hf : ∀ y, f y ≤ 1) (a c : Coord ℝ) : tenths f a c ≤ Boundary.distance a c := by
  have := midSum_le hf a c
  rwa [one_mul] at this

theorem sampled_le {f : ℝ → ℝ} (hf : ∀ y, f y ≤ 1) (b : Boundary R.Num) (nbrs : List Nat) (c : Coord ℝ) : sampled f b nbrs c ≤ ringAt b nbrs c := by
  unfold sampled ringAt
  refine List.sum_le_sum fun j _ => ?_
  cases b.points[j]? with
  | none => exact le_rfl
  | some q => exact tenths_le hf _ _

theorem sampled_nonneg {f : ℝ → ℝ} (hf : ∀ y, 0 ≤ f y) (b : Boundary R.Num) (nbrs : List Nat) (c : Coord ℝ) : 0 ≤ sampled f b nbrs c := by
  unfold sampled
  apply List.sum_nonneg
  intro x hx
  obtain ⟨j, -, rfl⟩ := List.mem_map.1 hx
  cases b.points[j]? with
  | none => exact le_rfl
  | some q =>
    have := le_midSum hf c (placeOf q.coord)
    rwa [zero_mul] at this

/-- The computed weighted length. -/
theorem pointLength_near {u l r : R.Num} (hlu : 1 / 2 ^ 100 ≤ u.val - l.val) (h0 : 0 ≤ r.val) (h1 : r.val ≤ 1) {b : Boundary R.Num} {p : BoundaryPoint R.Num}
    (H : Tied b p) {M : ℝ} (hM : 1 ≤ M) (hc : |p.coord.y.val| ≤ M) (hb : ∀ q ∈ b.points, |q.coord.y.val| ≤ M) :
    ∃ v, pointLength (gravity u l r) b.points p = .ok v ∧ 0 ≤ v.val ∧
      |v.val - sampled (heightWeight u.val l.val r.val) b (p.neighbours.take p.nNeighbours) (placeOf p.coord)| ≤
        ringAt b (p.neighbours.take p.nNeighbours) (placeOf p.coord) * (1 / 2 ^ 44 + M / (2 ^ 47 * (u.val - l.val))) + 1 / 2 ^ 220 := by
  have hd : 0 < u.val - l.val := lt_of_lt_of_le (by positivity) hlu
  obtain ⟨k1, k2, k3⟩ := allParts_near hlu h0 h1 hM hc hb (p.neighbours.take p.nNeighbours)
  have f0 := foldl_nonneg _ (FP.nat 0) k2 (by rw [val_zero])
  have f1 := Boundary.fold_err _ k2 (FP.nat 0) (by rw [val_zero])
  refine ⟨_, pointLength_fold _ H, f0, ?_⟩
  have hS := sampled_le (fun y => (heightWeight_bounds (u := u.val) (l := l.val) h0 h1 y).2) b (p.neighbours.take p.nNeighbours) (placeOf p.coord)
  have hP := ringAt_nonneg (b := b) (p.neighbours.take p.nNeighbours) (placeOf p.coord)
  have hl : (p.neighbours.take p.nNeighbours).length ≤ 4 := by
    rw [List.length_take]
    exact (min_le_left _ _).trans H.few
  rw [val_zero, zero_add] at f1
  have l1 : ((allParts (gravity u l r) b (p.neighbours.take p.nNeighbours) p.coord).length : ℝ) ≤ 40 := by exact_mod_cast k1.trans (by omega)
  have l2 : ((p.neighbours.take p.nNeighbours).length : ℝ) ≤ 4 := by exact_mod_cast hl
  have hω : 0 ≤ M / (2 ^ 48 * (u.val - l.val)) := by positivity
  rw [show M / (2 ^ 47 * (u.val - l.val)) = 2 * (M / (2 ^ 48 * (u.val - l.val))) by field_simp]
  generalize M / (2 ^ 48 * (u.val - l.val)) = ω at *
  generalize (allParts (gravity u l r) b (p.neighbours.take p.nNeighbours) p.coord).foldl (fun s v => s +. v) (FP.nat 0) = v at *
  generalize ((allParts (gravity u l r) b (p.neighbours.take p.nNeighbours) p.coord).map Num.val).sum = T at *
  generalize sampled (heightWeight u.val l.val r.val) b (p.neighbours.take p.nNeighbours) (placeOf p.coord) = S at *
  generalize ringAt b (p.neighbours.take p.nNeighbours) (placeOf p.coord) = P at *
  generalize ((allParts (gravity u l r) b (p.neighbours.take p.nNeighbours) p.coord).length : ℝ) = n at *
  generalize ((p.neighbours.take p.nNeighbours).length : ℝ) = m at *
  have hκ : (1 : ℝ) / 2 ^ 1074 ≤ 1 / 2 ^ 232 := one_div_le_one_div_of_le (by positivity) (pow_le_pow_right₀ (by norm_num) (by norm_num))
  rw [show (1 : ℝ) / 2 ^ 220 = 2 ^ 12 * (1 / 2 ^ 232) by norm_num]
  have k0 : (0 : ℝ) ≤ 1 / 2 ^ 1074 := by positivity
  generalize (1 : ℝ) / 2 ^ 1074 = κ' at *
  generalize (1 : ℝ) / 2 ^ 232 = κ at *
  have a1 : n * (v.val / 2 ^ 51 + κ') ≤ 40 * (v.val / 2 ^ 51 + κ) := by
    have : 0 ≤ v.val / 2 ^ 51 := by positivity
    nlinarith
  have a2 : m * κ ≤ 4 * κ := by nlinarith
  have hPω : 0 ≤ P * ω := by positivity
  have f1' := f1.trans a1
  have k3' : |T - S| ≤ P * (1 / 2 ^ 46) + P * ω + 4 * κ := k3.trans (by linarith)
  clear f1 k3 a1 a2
  rw [mul_add, mul_left_comm]
  generalize P * ω = X at *
  rw [abs_le] at *
  obtain ⟨b1, b2⟩ := f1'
  obtain ⟨b3, b4⟩ := k3'
  constructor <;> linarith

/-- Half of a computed length. -/
theorem halved_near {v : R.Num} {S e : ℝ} (v0 : 0 ≤ v.val) (hv : |v.val - S| ≤ e) :
    0 ≤ (lit 1 2 *. v : R.Num).val ∧ |(lit 1 2 *. v : R.Num).val - S / 2| ≤ e / 2 * (1 + 1 / 2 ^ 52) + S / 2 / 2 ^ 52 + 1 / 2 ^ 240 := by
  rw [val_mul, val_lit_half]
  have e1 := err200 (R := R) (1 / 2 * v.val)
  rw [abs_of_nonneg (show 0 ≤ 1 / 2 * v.val by positivity)] at e1
  refine ⟨rnd_nonneg (by positivity), ?_⟩
  generalize (1 : ℝ) / 2 ^ 240 = η at *
  rw [abs_le] at *
  constructor <;> linarith [e1.1, e1.2, hv.1, hv.2]

/-- A loop over points that adds halves of lengths. -/
theorem halves_loop (f : BoundaryPoint R.Num → Res R.Num) (S e : BoundaryPoint R.Num → ℝ) (pts : List (BoundaryPoint R.Num))
    (H : ∀ p ∈ pts, ∃ v, f p = .ok v ∧ 0 ≤ v.val ∧ |v.val - S p| ≤ e p) :
    ∃ ts : List R.Num, ts.length = pts.length ∧ (∀ t ∈ ts, 0 ≤ t.val) ∧
      (∀ (i : Nat) (hi : i < pts.length), ∃ v t, f pts[i] = .ok v ∧ ts[i]? = some t ∧ t = lit 1 2 *. v) ∧
      |(ts.map Num.val).sum - (pts.map fun p => S p / 2).sum| ≤
        (pts.map fun p => e p / 2).sum * (1 + 1 / 2 ^ 52) + (pts.map fun p => S p / 2).sum / 2 ^ 52 + pts.length * (1 / 2 ^ 240) := by
  induction pts with
  | nil => exact ⟨[], rfl, by simp, by simp, by simp⟩
  | cons p l ih =>
    obtain ⟨ts, h1, h2, h4, h5⟩ := ih fun q hq => H q (List.mem_cons_of_mem _ hq)
    obtain ⟨v, e1, v0, hv⟩ := H p List.mem_cons_self
    obtain ⟨k0, k1⟩ := halved_near v0 hv
    refine ⟨lit 1 2 *. v :: ts, by simp [h1], ?_, ?_, ?_⟩
    · intro t ht
      rcases List.mem_cons.1 ht with rfl | h
      · exact k0
      · exact h2 t h
    · intro i hi
      cases i with
      | zero => exact ⟨v, _, e1, rfl, rfl⟩
      | succ i => exact h4 i (by simpa using hi)
    · simp only [List.map_cons, List.sum_cons, List.length_cons]
      push_cast
      rw [add_sub_add_comm]
      refine (abs_add_le _ _).trans ((add_le_add k1 h5).trans (le_of_eq ?_))
      ring

/-- The computed weighted perimeter. -/
theorem weightedPerimeter_near (G : Gravity R.Num) (pts : List (BoundaryPoint R.Num)) (S e : BoundaryPoint R.Num → ℝ)
    (H : ∀ p ∈ pts, ∃ v, pointLength G pts p = .ok v ∧ 0 ≤ v.val ∧ |v.val - S p| ≤ e p) :
    ∃ v, weightedPerimeter G pts = .ok v ∧ 0 ≤ v.val ∧ |v.val - (pts.map fun p => S p / 2).sum| ≤
      2 * (pts.map fun p => e p / 2).sum + (pts.map fun p => S p / 2).sum / 2 ^ 52 + pts.length * (v.val / 2 ^ 51 + 1 / 2 ^ 230) := by
  obtain ⟨ts, h1, h2, h4, h5⟩ := halves_loop (pointLength G pts) S e pts H
  refine ⟨ts.foldl (fun s v => s +. v) (FP.nat 0), ?_, foldl_nonneg _ _ h2 (by rw [val_zero]), ?_⟩
  · unfold weightedPerimeter
    have := forN_eq (n := pts.length) (s := (FP.nat 0 : R.Num)) (f := fun i length => do
      let p ← rd pts i
      let l ← pointLength G pts p
      pure (length +. lit 1 2 *. l)) (fun i => (ts.take i).foldl (fun s v => s +. v) (FP.nat 0)) rfl fun i hi => by
        obtain ⟨v, t, e1, e2, rfl⟩ := h4 i hi
        rw [rd_eq hi]
        simp only [bind, Except.bind]
        rw [e1, List.take_add_one, e2, List.foldl_append]
        rfl
    rw [this, ← h1, List.take_length]
  · have f0 := foldl_nonneg ts (FP.nat 0) h2 (by rw [val_zero])
    have f1 := Boundary.fold_err ts h2 (FP.nat 0) (by rw [val_zero])
    rw [val_zero, zero_add, h1] at f1
    have e0 : 0 ≤ (pts.map fun p => e p / 2).sum := by
      apply List.sum_nonneg
      intro x hx
      obtain ⟨p, hp, rfl⟩ := List.mem_map.1 hx
      obtain ⟨v, -, -, hv⟩ := H p hp
      have := (abs_nonneg _).trans hv
      positivity
    have n0 : (0 : ℝ) ≤ pts.length := Nat.cast_nonneg _
    have hκ : (1 : ℝ) / 2 ^ 1074 ≤ 1 / 2 ^ 240 := one_div_le_one_div_of_le (by positivity) (pow_le_pow_right₀ (by norm_num) (by norm_num))
    rw [show (1 : ℝ) / 2 ^ 230 = 2 ^ 10 * (1 / 2 ^ 240) by norm_num]
    have k0 : (0 : ℝ) ≤ 1 / 2 ^ 240 := by positivity
    generalize (1 : ℝ) / 2 ^ 1074 = κ' at *
    generalize (1 : ℝ) / 2 ^ 240 = κ at *
    generalize (ts.foldl (fun s v => s +. v) (FP.nat 0)).val = F at *
    generalize (ts.map Num.val).sum = T at *
    generalize (pts.map fun p => S p / 2).sum = A at *
    generalize (pts.map fun p => e p / 2).sum = E at *
    generalize (pts.length : ℝ) = N at *
    have a1 : N * κ' ≤ N * κ := mul_le_mul_of_nonneg_left hκ n0
    have b5 := abs_le.1 h5
    have b1 := abs_le.1 f1
    have Nκ : 0 ≤ N * κ := by positivity
    rw [abs_le]
    constructor <;> linarith [b5.1, b5.2, b1.1, b1.2]

end Slsm.Rounding
