import Verif.Proof.RoundNoise
import Verif.Props.Motion
import Verif.Props.RoundMove

/-! # C110: the thermal time step and the noise in rounded arithmetic -/

namespace Slsm

open FP Rounding LevelSet

section
variable {R : Rounding}

/-- The temperature is zero, or of a size for which nothing underflows. -/
def Warm (T : R.Num) : Prop := T.val = 0 ∨ (1 / 2 ^ 200 ≤ T.val ∧ T.val ≤ 2 ^ 200)

theorem qu_up {k : ℕ} {y z : ℝ} (h : qu ^ k * y ≤ z) (hz : 0 ≤ z) (hk : k ≤ 7) : y ≤ z * (1 + 1 / 2 ^ 48) := by
  have h1 := qu_pow k
  have hk' : (k : ℝ) ≤ 7 := by exact_mod_cast hk
  have h2 : 1 - 7 / 2 ^ 51 ≤ qu ^ k := by
    refine le_trans ?_ h1
    have : (k : ℝ) / 2 ^ 51 ≤ 7 / 2 ^ 51 := div_le_div_of_nonneg_right hk' (by positivity)
    linarith
  by_contra hc
  push Not at hc
  have y0 : 0 ≤ y := le_trans (by positivity) hc.le
  have h3 := mul_le_mul_of_nonneg_right h2 y0
  norm_num at *
  linarith

theorem cold_root {T : R.Num} (h : T.val = 0) : (FP.sqrt (FP.nat 2 *. T) : R.Num).val = 0 := by
  have z : R.rnd 0 = 0 := by have := R.nat 0 (by norm_num); simpa using this
  rw [val_sqrt, val_mul, h, mul_zero, z, Real.sqrt_zero, z]

/-- What the two branches give. -/
theorem thermal_cases {m dt T dt' scale : R.Num} (hm : 1 / 2 ^ 200 ≤ m.val) (hm1 : m.val ≤ 1) (hd : 1 / 2 ^ 200 ≤ dt.val) (hT : Warm T)
    (e : thermalStep m dt T = (dt', scale)) :
    (dt' = dt ∧ scale = FP.nat 1 ∧ Real.sqrt (2 * T.val * dt.val) ≤ m.val / 2 * (1 + 1 / 2 ^ 48)) ∨
    (qu ^ 5 * (m.val / 2) < Real.sqrt (2 * T.val * dt.val) ∧ Rl 4 scale.val (8 * dt.val * T.val / (m.val * m.val)) ∧ 0 < T.val ∧
      Rl 1 dt'.val (dt.val / scale.val) ∧ Rl 5 dt'.val (m.val * m.val / (8 * T.val))) := by
  have m0 : 0 < m.val := lt_of_lt_of_le (by positivity) hm
  have d0 : 0 < dt.val := lt_of_lt_of_le (by positivity) hd
  have hh := half_rl (R := R) hm
  unfold thermalStep at e
  dsimp only at e
  by_cases hc : ((lit 1 2 *. m) <. (FP.sqrt (FP.nat 2 *. T) *. FP.sqrt dt)) = true
  · rw [if_pos hc] at e
    obtain ⟨rfl, rfl⟩ := Prod.mk.inj e
    rw [lt_iff] at hc
    right
    rcases hT with h | ⟨h1, h2⟩
    · exfalso
      have z : R.rnd 0 = 0 := by have := R.nat 0 (by norm_num); simpa using this
      rw [val_mul (FP.sqrt _), cold_root h, zero_mul, z] at hc
      linarith [hh.pos]
    · have t0 : 0 < T.val := lt_of_lt_of_le (by positivity) h1
      have hs := spread_rl h1 hd
      have hsc := scale_rl hm hm1 hd h1
      have hcanc : dt.val / (8 * dt.val * T.val / (m.val * m.val)) = m.val * m.val / (8 * T.val) := by field_simp
      have r4 := (Rl.refl d0).div hsc
      rw [hcanc, zero_add] at r4
      have lo : 1 / 2 ^ 603 ≤ m.val * m.val / (8 * T.val) := by
        refine low_div (a := 400) (b := 203) (low_mul (a := 200) (b := 200) hm hm) (by positivity) ?_
        rw [show (2 : ℝ) ^ 203 = 8 * 2 ^ 200 by rw [show 203 = 3 + 200 by rfl, pow_add]; norm_num]
        linarith
      refine ⟨?_, hsc, t0, ?_, ?_⟩
      · have a1 := hh.2.1
        have a2 := hs.2.2
        have q4 := qu_pow_pos 4
        have a3 : qu ^ 4 * (qu ^ 1 * (m.val / 2)) < qu ^ 4 * (FP.sqrt (FP.nat 2 *. T) *. FP.sqrt dt : R.Num).val :=
          mul_lt_mul_of_pos_left (lt_of_le_of_lt a1 hc) q4
        have : qu ^ 5 * (m.val / 2) = qu ^ 4 * (qu ^ 1 * (m.val / 2)) := by ring
        rw [this]
        linarith
      · rw [val_div dt]
        refine (Rl.refl (div_pos d0 hsc.pos)).rnd (n := 604) (by norm_num) ?_ (by norm_num)
        refine le_trans ?_ r4.2.1
        have h3 := mul_le_mul (qu_half (k := 4) (by norm_num)) lo (by positivity) (qu_pow_pos 4).le
        refine le_trans (le_of_eq ?_) h3
        rw [show 604 = 603 + 1 by rfl, pow_succ]
        field_simp
      · rw [val_div dt]
        exact r4.rnd (n := 603) (by norm_num) lo (by norm_num)
  · rw [if_neg hc] at e
    obtain ⟨rfl, rfl⟩ := Prod.mk.inj e
    left
    refine ⟨rfl, rfl, ?_⟩
    rw [lt_iff, not_lt] at hc
    rcases hT with h | ⟨h1, h2⟩
    · rw [h, mul_zero, zero_mul, Real.sqrt_zero]
      positivity
    · have hs := spread_rl h1 hd
      refine qu_up (k := 5) ?_ (by positivity) (by norm_num)
      have a1 := hh.2.2
      have a2 := hs.2.1
      have a3 : qu * (qu ^ 4 * Real.sqrt (2 * T.val * dt.val)) ≤ qu * (lit 1 2 *. m : R.Num).val := mul_le_mul_of_nonneg_left (a2.trans hc) qu_pos.le
      have : qu ^ 5 * Real.sqrt (2 * T.val * dt.val) = qu * (qu ^ 4 * Real.sqrt (2 * T.val * dt.val)) := by ring
      rw [this]
      rw [pow_one] at a1
      linarith

/-- **C110** (time step): in every rounding of real arithmetic the time step returned by the noisy `computeVelocities` is small enough for the noise, up
to `2⁻⁴⁸`; it is the given one divided by the scale factor returned, up to `2⁻⁵⁰`; the factor is at least one, up to `2⁻⁴⁷`; a time step that
was small enough by more than `2⁻⁴⁸` is kept, and one that was too large by more than this is reduced to the limit. -/
theorem C110_time_step {m dt T dt' scale : R.Num} (hm : 1 / 2 ^ 200 ≤ m.val) (hm1 : m.val ≤ 1) (hd : 1 / 2 ^ 200 ≤ dt.val) (hT : Warm T)
    (e : thermalStep m dt T = (dt', scale)) :
    0 < dt'.val ∧ Real.sqrt (2 * T.val * dt'.val) ≤ m.val / 2 * (1 + 1 / 2 ^ 48) ∧ |dt'.val * scale.val - dt.val| ≤ dt.val / 2 ^ 50 ∧
      1 - 1 / 2 ^ 47 ≤ scale.val ∧
      (Real.sqrt (2 * T.val * dt.val) ≤ m.val / 2 * (1 - 1 / 2 ^ 48) → dt' = dt ∧ scale = FP.nat 1) ∧
      (m.val / 2 * (1 + 1 / 2 ^ 48) < Real.sqrt (2 * T.val * dt.val) → |Real.sqrt (2 * T.val * dt'.val) - m.val / 2| ≤ m.val / 2 / 2 ^ 48) := by
  have m0 : 0 < m.val := lt_of_lt_of_le (by positivity) hm
  have d0 : 0 < dt.val := lt_of_lt_of_le (by positivity) hd
  rcases thermal_cases hm hm1 hd hT e with ⟨rfl, rfl, h⟩ | ⟨h1, h2, h3, h4, h5⟩
  · rw [val_one]
    refine ⟨d0, h, by rw [mul_one, sub_self, abs_zero]; positivity, by norm_num, fun _ => ⟨rfl, rfl⟩, fun h' => absurd h (not_le.2 h')⟩
  · have hq5 : 1 - 5 / 2 ^ 51 ≤ qu ^ 5 := by
      have := qu_pow 5
      push_cast at this
      exact this
    have hr : Rl 5 (Real.sqrt (2 * T.val * dt'.val)) (m.val / 2) := by
      have := ((Rl.refl (t := 2 * T.val) (by positivity)).mul h5).sqrt
      rw [show 2 * T.val * (m.val * m.val / (8 * T.val)) = (m.val / 2) ^ 2 by field_simp; norm_num, Real.sqrt_sq (by positivity), zero_add] at this
      exact this
    have hup : Real.sqrt (2 * T.val * dt'.val) ≤ m.val / 2 * (1 + 1 / 2 ^ 48) := qu_up hr.2.2 (by positivity) (by norm_num)
    have hlo : (1 - 5 / 2 ^ 51) * (m.val / 2) ≤ Real.sqrt (2 * T.val * dt'.val) :=
      (mul_le_mul_of_nonneg_right hq5 (by positivity)).trans hr.2.1
    have s0 := h2.pos
    refine ⟨h5.pos, hup, ?_, ?_, fun h => ?_, fun _ => ?_⟩
    · have := h4.abs (by norm_num)
      have e1 : dt'.val * scale.val - dt.val = (dt'.val - dt.val / scale.val) * scale.val := by field_simp
      rw [e1, abs_mul, abs_of_pos s0]
      refine (mul_le_mul_of_nonneg_right this s0.le).trans (le_of_eq ?_)
      field_simp
      norm_num
    · have hS : (qu ^ 5 * (m.val / 2)) ^ 2 ≤ 2 * T.val * dt.val := by
        have := pow_le_pow_left₀ (mul_nonneg (qu_pow_pos 5).le (by positivity)) h1.le 2
        rwa [Real.sq_sqrt (by positivity)] at this
      have hc : qu ^ 10 ≤ 8 * dt.val * T.val / (m.val * m.val) := by
        rw [le_div_iff₀ (by positivity)]
        have : (qu ^ 5 * (m.val / 2)) ^ 2 = qu ^ 10 * (m.val * m.val) / 4 := by ring
        rw [this] at hS
        linarith
      have h6 : qu ^ 4 * qu ^ 10 ≤ scale.val := (mul_le_mul_of_nonneg_left hc (qu_pow_pos 4).le).trans h2.2.1
      rw [← pow_add] at h6
      have h7 := qu_pow (4 + 10)
      have h8 := h7.trans h6
      push_cast at h8
      norm_num at h8 ⊢
      linarith
    · exfalso
      have : (1 - 5 / 2 ^ 51) * (m.val / 2) ≤ qu ^ 5 * (m.val / 2) := mul_le_mul_of_nonneg_right hq5 (by positivity)
      have h9 := lt_of_lt_of_le (lt_of_le_of_lt this h1) h
      clear * - h9 m0
      norm_num at h9
      linarith
    · clear * - hup hlo m0
      rw [abs_le]
      norm_num at *
      constructor <;> linarith

/-- A product of a factor known up to relative error and a number, added to another number. -/
theorem noise_near {a A z v : ℝ} (h : Rl 6 a A) : |R.rnd (v + R.rnd (a * z)) - (v + A * z)| ≤ (|v| + A * |z|) / 2 ^ 47 + 1 / 2 ^ 1000 := by
  have A0 := h.1
  have h1 := h.abs (by norm_num)
  have e1 := R.err (a * z)
  have e2 := R.err (v + R.rnd (a * z))
  have t : (1 : ℝ) / 2 ^ 1074 * 4 ≤ 1 / 2 ^ 1000 := by
    rw [show (1 : ℝ) / 2 ^ 1074 * 4 = 1 / 2 ^ 1072 by rw [show (2 : ℝ) ^ 1074 = 2 ^ 1072 * 4 by rw [show 1074 = 1072 + 2 by rfl, pow_add]; norm_num]; field_simp]
    rw [one_div_le_one_div (by positivity) (by positivity)]
    exact pow_le_pow_right₀ (by norm_num) (by norm_num)
  have t0 : (0 : ℝ) < 1 / 2 ^ 1074 := by positivity
  generalize (1 : ℝ) / 2 ^ 1074 = κ at *
  generalize (1 : ℝ) / 2 ^ 1000 = κ' at *
  have h2 : |a * z - A * z| ≤ 12 / 2 ^ 51 * (A * |z|) := by
    rw [← sub_mul, abs_mul]
    have := mul_le_mul_of_nonneg_right h1 (abs_nonneg z)
    push_cast at this
    refine this.trans (le_of_eq ?_)
    ring
  have hAz : |A * z| = A * |z| := by rw [abs_mul, abs_of_pos A0]
  have u0 : 0 ≤ A * |z| := by positivity
  have a1 : |a * z| ≤ |a * z - A * z| + |A * z| := by
    have := abs_add_le (a * z - A * z) (A * z)
    rwa [sub_add_cancel] at this
  have a2 : |R.rnd (a * z) - A * z| ≤ |R.rnd (a * z) - a * z| + |a * z - A * z| := abs_sub_le _ _ _
  have a3 : |v + R.rnd (a * z)| ≤ |v| + (|R.rnd (a * z) - A * z| + |A * z|) := by
    have b1 := abs_add_le v (R.rnd (a * z))
    have b2 := abs_add_le (R.rnd (a * z) - A * z) (A * z)
    rw [sub_add_cancel] at b2
    linarith
  have a4 : |R.rnd (v + R.rnd (a * z)) - (v + A * z)| ≤ |R.rnd (v + R.rnd (a * z)) - (v + R.rnd (a * z))| + |R.rnd (a * z) - A * z| := by
    have := abs_sub_le (R.rnd (v + R.rnd (a * z))) (v + R.rnd (a * z)) (v + A * z)
    rwa [show v + R.rnd (a * z) - (v + A * z) = R.rnd (a * z) - A * z by ring] at this
  have v0 := abs_nonneg v
  rw [hAz] at a1 a3
  generalize A * |z| = u at *
  generalize |v| = w at *
  norm_num at *
  linarith

/-- **C110** (noise): the velocities of the points are increased by `√(2T) / √dt' / √length` times the successive numbers drawn, up to relative errors
of `2⁻⁴⁷`, where `dt'` is the time step returned; nothing else of the points changes, and the level set is the one for the noisy points. -/
theorem C110_noise {ρ : Type} {normal : ρ → R.Num × ρ} {points points' : List (BoundaryPoint R.Num)} {dt dt' T scale : R.Num} {g g' : ρ}
    {L L' : LevelSet R.Num} (hm : 1 / 2 ^ 200 ≤ L.moveLimit.val) (hm1 : L.moveLimit.val ≤ 1) (hd : 1 / 2 ^ 200 ≤ dt.val) (hd1 : dt.val ≤ 2 ^ 200) (hT : Warm T)
    (e : computeVelocitiesNoise normal points dt T g L = .ok (points', dt', scale, g', L')) :
    thermalStep L.moveLimit dt T = (dt', scale) ∧ computeVelocities points' L = .ok L' ∧ points'.length = points.length ∧
    ∀ (k : Nat) (p : BoundaryPoint R.Num), points[k]? = some p → 1 / 2 ^ 200 ≤ p.length.val → p.length.val ≤ 2 ^ 200 →
      ∃ z v : R.Num, (draws normal points.length g)[k]? = some z ∧ points'[k]? = some { p with velocity := v } ∧
        |v.val - (p.velocity.val + Real.sqrt (2 * T.val) / Real.sqrt dt'.val / Real.sqrt p.length.val * z.val)| ≤
          (|p.velocity.val| + Real.sqrt (2 * T.val) / Real.sqrt dt'.val / Real.sqrt p.length.val * |z.val|) / 2 ^ 47 + 1 / 2 ^ 1000 := by
  have hlen : ∀ (n : Nat) (g : ρ), (draws normal n g).length = n := by
    intro n
    induction n with
    | zero => intro g; rfl
    | succ n ih => intro g; simp [draws, ih]
  unfold computeVelocitiesNoise at e
  generalize ht : thermalStep L.moveLimit dt T = r at e
  obtain ⟨r1, r2⟩ := r
  dsimp only at e
  rw [addNoise_eq] at e
  dsimp only at e
  cases hv : computeVelocities (List.zipWith (fun p z => { p with velocity := FP.add p.velocity (FP.mul (FP.div (FP.div (FP.sqrt
    (FP.mul (FP.nat 2) T)) (FP.sqrt r1)) (FP.sqrt p.length)) z) }) points (draws normal points.length g)) L with
  | error x => rw [hv] at e; cases e
  | ok L2 =>
    rw [hv] at e
    simp only [bind, Except.bind, pure, Except.pure, Except.ok.injEq, Prod.mk.injEq] at e
    obtain ⟨e1, rfl, rfl, -, rfl⟩ := e
    refine ⟨rfl, by rw [← e1]; exact hv, by rw [← e1, List.length_zipWith, hlen]; simp, fun k p hp hl hl1 => ?_⟩
    have hk : k < (draws normal points.length g).length := by rw [hlen]; exact (List.getElem?_eq_some_iff.1 hp).1
    refine ⟨(draws normal points.length g)[k], _, List.getElem?_eq_getElem hk, by
      rw [← e1, List.getElem?_zipWith, hp, List.getElem?_eq_getElem hk], ?_⟩
    generalize (draws normal points.length g)[k] = z
    have l0 : 0 < p.length.val := lt_of_lt_of_le (by positivity) hl
    rw [val_add, val_mul]
    rcases hT with h | ⟨h1, h2⟩
    · have z0 : R.rnd 0 = 0 := by have := R.nat 0 (by norm_num); simpa using this
      rw [val_div, val_div, cold_root h, zero_div, z0, zero_div, z0, zero_mul, z0, add_zero, p.velocity.fix, h, mul_zero, Real.sqrt_zero, zero_div, zero_div,
        zero_mul, zero_mul, add_zero, sub_self, abs_zero]
      positivity
    · apply noise_near
      have m0 : 0 < L.moveLimit.val := lt_of_lt_of_le (by positivity) hm
      have t0 : 0 < T.val := lt_of_lt_of_le (by positivity) h1
      have hs1 : ∀ {x : ℝ} {n : ℕ}, x ≤ 2 ^ n → Real.sqrt x ≤ 2 ^ n := fun {x n} hx => by
        refine Real.sqrt_le_iff.2 ⟨by positivity, hx.trans ?_⟩
        exact le_self_pow₀ (one_le_pow₀ (by norm_num)) (by norm_num)
      have hr : 1 / 2 ^ 700 ≤ r1.val ∧ r1.val ≤ 2 ^ 201 := by
        rcases thermal_cases hm hm1 hd (.inr ⟨h1, h2⟩) ht with ⟨rfl, -, -⟩ | ⟨-, -, -, -, h5⟩
        · constructor
          · refine le_trans ?_ hd
            rw [one_div_le_one_div (by positivity) (by positivity)]
            exact pow_le_pow_right₀ (by norm_num) (by norm_num)
          · refine hd1.trans (pow_le_pow_right₀ (by norm_num) (by norm_num))
        · have lo : 1 / 2 ^ 603 ≤ L.moveLimit.val * L.moveLimit.val / (8 * T.val) := by
            refine low_div (a := 400) (b := 203) (low_mul (a := 200) (b := 200) hm hm) (by positivity) ?_
            rw [show (2 : ℝ) ^ 203 = 8 * 2 ^ 200 by rw [show 203 = 3 + 200 by rfl, pow_add]; norm_num]
            linarith
          have hi : L.moveLimit.val * L.moveLimit.val / (8 * T.val) ≤ 2 ^ 200 := by
            rw [div_le_iff₀ (by positivity)]
            have : 1 ≤ 2 ^ 200 * T.val := by
              have := mul_le_mul_of_nonneg_left h1 (by positivity : (0 : ℝ) ≤ 2 ^ 200)
              rwa [mul_one_div, div_self (by positivity)] at this
            nlinarith
          have hq := qu_half (k := 5) (by norm_num)
          constructor
          · have h3 := mul_le_mul hq lo (by positivity) (qu_pow_pos 5).le
            refine le_trans ?_ (h3.trans h5.2.1)
            rw [show (1 : ℝ) / 2 * (1 / 2 ^ 603) = 1 / 2 ^ 604 by rw [show 604 = 603 + 1 by rfl, pow_succ]; field_simp]
            rw [one_div_le_one_div (by positivity) (by positivity)]
            exact pow_le_pow_right₀ (by norm_num) (by norm_num)
          · have h3 := mul_le_mul_of_nonneg_right hq h5.pos.le
            have h4 := h5.2.2
            rw [pow_succ]
            linarith
      have r0 : 0 < r1.val := lt_of_lt_of_le (by positivity) hr.1
      have c1 : Rl 4 (FP.sqrt (FP.nat 2 *. T) /. FP.sqrt r1 : R.Num).val (Real.sqrt (2 * T.val) / Real.sqrt r1.val) := by
        rw [val_div]
        exact ((root_rl h1).div (sqrt_rl (by norm_num) hr.1)).rnd (n := 401) (by norm_num)
          (low_div (a := 200) (b := 201) (low_sqrt (by linarith)) (Real.sqrt_pos.2 r0) (hs1 hr.2)) (by norm_num)
      rw [val_div]
      refine (c1.div (sqrt_rl (by norm_num) hl)).rnd (n := 601) (by norm_num) ?_ (by norm_num)
      exact low_div (a := 401) (b := 200) (low_div (a := 200) (b := 201) (low_sqrt (by linarith)) (Real.sqrt_pos.2 r0) (hs1 hr.2))
        (Real.sqrt_pos.2 l0) (hs1 hl1)

end

/-- The hypotheses can be met, in binary64, with a time step that is reduced: limit `1/2`, time step and temperature one. -/
example : ∃ m dt T dt' scale : binary64.Num, m.val = 1 / 2 ∧ dt.val = 1 ∧ Warm T ∧ T.val = 1 ∧ thermalStep m dt T = (dt', scale) ∧
    |Real.sqrt (2 * dt'.val) - 1 / 4| ≤ 1 / 2 ^ 50 ∧ |dt'.val * scale.val - 1| ≤ 1 / 2 ^ 50 := by
  have h2 := binary64.half 1 (by norm_num)
  refine ⟨⟨(1 : ℕ) / 2, h2⟩, FP.nat 1, FP.nat 1, _, _, by norm_num, val_one, ?_, val_one, rfl, ?_⟩
  · right
    rw [val_one]
    norm_num
  · obtain ⟨-, -, h3, -, -, h6⟩ := C110_time_step (R := binary64) (m := ⟨(1 : ℕ) / 2, h2⟩) (dt := FP.nat 1) (T := FP.nat 1) (by norm_num) (by norm_num)
      (by rw [val_one]; norm_num) (.inr (by rw [val_one]; norm_num)) rfl
    rw [val_one] at h3 h6
    refine ⟨?_, h3⟩
    have := h6 (by
      refine Real.lt_sqrt_of_sq_lt ?_
      norm_num)
    rw [mul_one] at this
    refine (le_of_eq ?_).trans (this.trans (le_of_eq ?_)) <;> norm_num

/-- The hypotheses of `C110_noise` can be met, in binary64: a point of speed zero and length one gets the speed `√2 / √dt'` when the number drawn is one. -/
example : ∃ (L L' : LevelSet binary64.Num) (dt' scale v : binary64.Num), Reachable 5 5 L ∧
    computeVelocitiesNoise (fun n : Nat => ((FP.nat 1 : binary64.Num), n + 1)) [midPoint (FP.nat 0)] (FP.nat 1) (FP.nat 1) 0 L =
      .ok ([midPoint v], dt', scale, 1, L') ∧ |v.val - Real.sqrt 2 / Real.sqrt dt'.val| ≤ Real.sqrt 2 / Real.sqrt dt'.val / 2 ^ 46 + 1 / 2 ^ 1000 := by
  obtain ⟨L, hr, hv, -, -, hm⟩ := board_limit
  obtain ⟨⟨dt', scale⟩, ht⟩ : ∃ r, r = thermalStep L.moveLimit (FP.nat 1) (FP.nat 1) := ⟨_, rfl⟩
  obtain ⟨v, hvd⟩ : ∃ v : binary64.Num, v = FP.nat 0 +. ((FP.sqrt (FP.nat 2 *. FP.nat 1) /. FP.sqrt dt') /. FP.sqrt (FP.nat 1)) *. FP.nat 1 := ⟨_, rfl⟩
  obtain ⟨L', e⟩ := board_velocities hr hv (midPoint_inDomain v)
  have key : computeVelocitiesNoise (fun n : Nat => ((FP.nat 1 : binary64.Num), n + 1)) [midPoint (FP.nat 0)] (FP.nat 1) (FP.nat 1) 0 L =
      .ok ([midPoint v], dt', scale, 1, L') := by
    unfold computeVelocitiesNoise
    rw [← ht]
    dsimp only
    rw [addNoise_eq]
    dsimp only
    have : List.zipWith (fun (p : BoundaryPoint binary64.Num) (z : binary64.Num) => { p with velocity := FP.add p.velocity (FP.mul (FP.div (FP.div (FP.sqrt
        (FP.mul (FP.nat 2) (FP.nat 1))) (FP.sqrt dt')) (FP.sqrt p.length)) z) }) [midPoint (FP.nat 0)]
        (draws (fun n : Nat => ((FP.nat 1 : binary64.Num), n + 1)) [midPoint (FP.nat 0)].length 0) = [midPoint v] := by
      rw [hvd]; rfl
    rw [this, e]
    rfl
  obtain ⟨-, -, -, h4⟩ := C110_noise (by rw [hm]; norm_num) (by rw [hm]; norm_num) (by rw [val_one]; norm_num) (by rw [val_one]; norm_num)
    (.inr (by rw [val_one]; norm_num)) key
  obtain ⟨z, v', h5, h6, h7⟩ := h4 0 (midPoint (FP.nat 0)) rfl (by rw [show (midPoint (FP.nat 0)).length = FP.nat 1 from rfl, val_one]; norm_num)
    (by rw [show (midPoint (FP.nat 0)).length = FP.nat 1 from rfl, val_one]; norm_num)
  have hz : z = FP.nat 1 := (Option.some.inj h5).symm
  have hv' : v' = v := (congrArg BoundaryPoint.velocity (Option.some.inj h6)).symm
  refine ⟨L, L', dt', scale, v, hr, key, ?_⟩
  rw [hz, hv', show (midPoint (FP.nat 0)).length = FP.nat 1 from rfl, show (midPoint (FP.nat 0)).velocity = FP.nat 0 from rfl, val_one, val_zero, Real.sqrt_one,
    div_one, mul_one, mul_one, zero_add, abs_zero, zero_add, abs_one, mul_one] at h7
  refine h7.trans (add_le_add_left ?_ _)
  apply div_le_div_of_nonneg_left (by positivity) (by positivity)
  exact pow_le_pow_right₀ (by norm_num) (by norm_num)

end Slsm
