import Verif.Spec.IO
import Mathlib.Tactic.Linarith
import Mathlib.Tactic.Ring
import Mathlib.Tactic.FieldSimp
import Mathlib.Tactic.Positivity

/-! # Real numbers and IEEE doubles meet the assumptions on the text formats -/

namespace Slsm.IO

open Slsm

theorem abs_decimalValue (s : Bool) (m : Nat) (e : Int) : |decimalValue s m e| = m * (10 : ℝ) ^ e := by
  have h : 0 ≤ (m : ℝ) * (10 : ℝ) ^ e := mul_nonneg (Nat.cast_nonneg _) (zpow_nonneg (by norm_num) _)
  unfold decimalValue
  cases s
  · rw [if_neg (by simp), one_mul, abs_of_nonneg h]
  · rw [if_pos rfl, neg_one_mul, abs_neg, abs_of_nonneg h]

theorem faithful_real : Faithful (D := ℝ) some := by
  refine ⟨?_, ?_, ?_, ?_⟩
  · intro x v h
    cases h
    refine ⟨_, rfl, ?_, ?_⟩
    · have h0 : 0 ≤ |x| * 1000000 + 1 / 2 := by positivity
      have h1 := Nat.floor_le h0
      have h2 := Nat.lt_floor_add_one (|x| * 1000000 + 1 / 2)
      rw [abs_le]
      constructor <;> linarith
    · show if decide (x < 0) = true then _ else _
      by_cases hx : x < 0
      · simp [hx, hx.le]
      · simp [hx, not_lt.1 hx]
  · intro x h; cases h
  · intro s m e y h
    refine ⟨y, rfl, fun x v _ => ?_⟩
    have : decimalValue s m e = y := Option.some.inj h
    rw [this, sub_self, abs_zero]
    exact abs_nonneg _
  · intro s m e x v _ _
    exact ⟨_, rfl⟩

namespace Double

theorem magnitude_small {c : Nat} (h : c / 2 ^ 52 = 0) : magnitude c = (c : ℚ) / 2 ^ 1074 := if_pos h

theorem magnitude_big {c : Nat} (h : c / 2 ^ 52 ≠ 0) :
    magnitude c = ((2 ^ 52 + c % 2 ^ 52 : Nat) : ℚ) * 2 ^ (c / 2 ^ 52) / 2 ^ 1075 := if_neg h

/-- The gap between a magnitude and the next one. -/
theorem magnitude_step (c : Nat) : magnitude (c + 1) - magnitude c = 2 ^ (c / 2 ^ 52 - 1) / 2 ^ 1074 := by
  have e74 : (2 : ℚ) ^ 1075 = 2 * 2 ^ 1074 := by rw [pow_succ]; ring
  have hne : (2 : ℚ) ^ 1074 ≠ 0 := by positivity
  generalize hP : (2 : ℚ) ^ 1074 = P at *
  by_cases h0 : c / 2 ^ 52 = 0
  · rw [magnitude_small h0, h0]
    by_cases h1 : (c + 1) / 2 ^ 52 = 0
    · rw [magnitude_small h1, hP]
      push_cast
      field_simp
      norm_num
    · have hc : c = 2 ^ 52 - 1 := by omega
      subst hc
      rw [magnitude_big h1, e74, hP]
      norm_num
      field_simp
      norm_num
  · obtain ⟨k, hk⟩ : ∃ k, c / 2 ^ 52 = k + 1 := ⟨c / 2 ^ 52 - 1, by omega⟩
    rw [magnitude_big h0, hk]
    by_cases h1 : (c + 1) / 2 ^ 52 = k + 1
    · have hm : (c + 1) % 2 ^ 52 = c % 2 ^ 52 + 1 := by omega
      rw [magnitude_big (by omega), h1, hm, e74]
      simp only [Nat.add_sub_cancel]
      push_cast
      rw [pow_succ (2 : ℚ) k]
      field_simp
      ring
    · have h2 : (c + 1) / 2 ^ 52 = k + 2 := by omega
      have hm : (c + 1) % 2 ^ 52 = 0 := by omega
      have hm' : c % 2 ^ 52 = 2 ^ 52 - 1 := by omega
      rw [magnitude_big (by omega), h2, hm, hm', e74]
      simp only [Nat.add_sub_cancel]
      push_cast
      rw [pow_succ (2 : ℚ) (k + 1), pow_succ (2 : ℚ) k]
      field_simp
      norm_num

theorem magnitude_lt (c : Nat) : magnitude c < magnitude (c + 1) := by
  have := magnitude_step c
  have h : (0 : ℚ) < 2 ^ (c / 2 ^ 52 - 1) / 2 ^ 1074 := by positivity
  linarith

theorem magnitude_strictMono : StrictMono magnitude := strictMono_nat_of_lt_succ magnitude_lt

theorem magnitude_zero : magnitude 0 = 0 := by
  rw [magnitude_small (by norm_num)]; simp

theorem magnitude_nonneg (c : Nat) : 0 ≤ magnitude c := by
  rw [← magnitude_zero]; exact magnitude_strictMono.monotone (Nat.zero_le c)

theorem below_le {q : ℚ} (hq : 0 ≤ q) : magnitude (below q) ≤ q :=
  Nat.findGreatest_spec (P := fun c => magnitude c ≤ q) (Nat.zero_le _) (by rw [magnitude_zero]; exact hq)

theorem below_lt (q : ℚ) : below q < top := by
  have := Nat.findGreatest_le (P := fun c => magnitude c ≤ q) (top - 1)
  have h : 0 < top := by norm_num [top]
  unfold below
  omega

theorem below_max {q : ℚ} {c : Nat} (hc : c < top) (h : magnitude c ≤ q) : c ≤ below q :=
  Nat.le_findGreatest (by omega) h

/-- No finite number is nearer to `q` than the one chosen. -/
theorem nearest_best {q : ℚ} (hq : 0 ≤ q) {c : Nat} (hc : c < top) : |magnitude (nearest q) - q| ≤ |magnitude c - q| := by
  have hb := below_le hq
  have key : (c ≤ below q ∧ magnitude c ≤ magnitude (below q)) ∨ (q < magnitude c ∧ magnitude (below q + 1) ≤ magnitude c) := by
    rcases Nat.lt_or_ge (below q) c with h | h
    · right
      refine ⟨?_, magnitude_strictMono.monotone h⟩
      by_contra hn
      have := below_max hc (not_lt.1 hn)
      omega
    · exact .inl ⟨h, magnitude_strictMono.monotone h⟩
  have hA : |magnitude (nearest q) - q| ≤ q - magnitude (below q) ∧
      (q < magnitude (below q + 1) → |magnitude (nearest q) - q| ≤ magnitude (below q + 1) - q) := by
    unfold nearest
    dsimp only
    split_ifs with h1 h2 h3
    · rw [abs_sub_comm, abs_of_nonneg (by linarith)]
      exact ⟨le_rfl, fun _ => h1.le⟩
    · rcases le_total q (magnitude (below q + 1)) with h | h
      · rw [abs_of_nonneg (by linarith)]
        exact ⟨h2.le, fun _ => le_rfl⟩
      · rw [abs_sub_comm, abs_of_nonneg (by linarith)]
        exact ⟨by have := magnitude_lt (below q); linarith, fun _ => by linarith⟩
    · rw [abs_sub_comm, abs_of_nonneg (by linarith)]
      exact ⟨le_rfl, fun _ => by linarith⟩
    · have he : q - magnitude (below q) = magnitude (below q + 1) - q := le_antisymm (not_lt.1 h2) (not_lt.1 h1)
      rw [abs_of_nonneg (by linarith)]
      exact ⟨he.ge, fun _ => le_rfl⟩
  rcases key with ⟨-, h⟩ | ⟨hq', h⟩
  · rw [abs_sub_comm (magnitude c), abs_of_nonneg (by linarith : 0 ≤ q - magnitude c)]
    linarith [hA.1]
  · rw [abs_of_nonneg (by linarith : 0 ≤ magnitude c - q)]
    rcases lt_or_ge q (magnitude (below q + 1)) with h' | h'
    · linarith [hA.2 h']
    · exfalso
      have : below q + 1 < top := by
        by_contra hn
        have h2 : below q + 1 = top := by have := below_lt q; omega
        have h3 : c < below q + 1 := by omega
        have := magnitude_strictMono h3
        linarith
      have := below_max this h'
      omega

theorem nearest_finite {q : ℚ} (hq : 0 ≤ q) {c : Nat} (hc : c < top) (h : q ≤ magnitude c + 1) : nearest q < top := by
  by_cases hb : below q + 1 < top
  · unfold nearest
    dsimp only
    split_ifs <;> omega
  · have hlt := below_lt q
    have hb' : below q = top - 1 := by omega
    have hs := magnitude_step (top - 1)
    have he : (top - 1) / 2 ^ 52 - 1 = 2045 := by norm_num [top]
    rw [he] at hs
    have hbig : (4 : ℚ) ≤ 2 ^ 2045 / 2 ^ 1074 := by
      rw [le_div_iff₀ (by positivity), show (2045 : ℕ) = 971 + 1074 by norm_num, pow_add]
      have h1 : (4 : ℚ) ≤ 2 ^ 971 := by
        calc (4 : ℚ) = 2 ^ 2 := by norm_num
          _ ≤ 2 ^ 971 := pow_le_pow_right₀ (by norm_num) (by norm_num)
      have h2 : (0 : ℚ) < 2 ^ 1074 := by positivity
      exact mul_le_mul_of_nonneg_right h1 h2.le
    have hm : magnitude c ≤ magnitude (top - 1) := magnitude_strictMono.monotone (by omega)
    unfold nearest
    dsimp only
    rw [hb', if_pos]
    · have : 0 < top := by norm_num [top]
      omega
    · have e : top - 1 + 1 = top := by norm_num [top]
      linarith

theorem roundEven_near {q : ℚ} (hq : 0 ≤ q) : |(roundEven q : ℚ) - q| ≤ 1 / 2 := by
  have h1 := Nat.floor_le hq
  have h2 := Nat.lt_floor_add_one q
  unfold roundEven
  dsimp only
  split_ifs with h3 h4 h5
  · rw [abs_le]; constructor <;> linarith
  · push_cast; rw [abs_le]; constructor <;> linarith
  · rw [abs_le]; constructor <;> linarith
  · push_cast; rw [abs_le]; constructor <;> linarith

theorem decimalValue_rat (s : Bool) (m : Nat) (e : Int) :
    decimalValue s m e = (((if s then -((m : ℚ) * 10 ^ e) else (m : ℚ) * 10 ^ e : ℚ)) : ℝ) := by
  unfold decimalValue
  cases s <;> simp

theorem signed {a b q : ℚ} (s t : Bool) (hq : 0 ≤ q) (hn : 0 ≤ b) (B : |a - q| ≤ |b - q|) (B0 : |a - q| ≤ q) :
    |(if s = true then -a else a) - (if s = true then -q else q)| ≤ |(if t = true then -b else b) - (if s = true then -q else q)| := by
  cases s <;> cases t <;> simp only [Bool.false_eq_true, if_false, if_true]
  · exact B
  · rw [show -b - q = -(b + q) by ring, abs_neg, abs_of_nonneg (by linarith : 0 ≤ b + q)]; linarith
  · rw [show -a - -q = -(a - q) by ring, abs_neg, show b - -q = b + q by ring, abs_of_nonneg (by linarith : 0 ≤ b + q)]; linarith
  · rw [show -a - -q = -(a - q) by ring, show -b - -q = -(b - q) by ring, abs_neg, abs_neg]; exact B

theorem same {x y : Double} (h1 : x.negative = y.negative) (h2 : x.code.1 = y.code.1) : x = y := by
  obtain ⟨s, c⟩ := x
  obtain ⟨t, d⟩ := y
  cases h1
  have h3 : c = d := Fin.ext h2
  rw [h3]

theorem faithful : Faithful val := by
  refine ⟨?_, ?_, ?_, ?_⟩
  · intro x v h
    unfold val at h
    split at h
    · rename_i hx
      have hv := (Option.some.inj h).symm
      have hn := magnitude_nonneg x.code.1
      have hnR : (0 : ℝ) ≤ (magnitude x.code.1 : ℝ) := by exact_mod_cast hn
      refine ⟨_, if_pos hx, ?_, ?_⟩
      · have habs : |v| = (magnitude x.code.1 : ℝ) := by
          rw [hv]
          cases x.negative
          · simp only [Bool.false_eq_true, if_false]; exact abs_of_nonneg hnR
          · simp only [if_true]; push_cast; rw [abs_neg]; exact abs_of_nonneg hnR
        rw [habs]
        have := roundEven_near (q := magnitude x.code.1 * 1000000) (by positivity)
        have := (Rat.cast_le (K := ℝ)).2 this
        push_cast at this
        exact this
      · show if x.negative = true then _ else _
        rw [hv]
        cases x.negative
        · simpa using hnR
        · simpa using hnR
    · cases h
  · intro x h
    unfold val at h
    split at h
    · cases h
    · rename_i hx
      refine ⟨if_neg hx, ?_⟩
      show (if x.code.1 = top then _ else _) = _ ∨ (if x.code.1 = top then _ else _) = _
      split <;> simp
  · intro s m e y h
    change decimal s m e = some y at h
    unfold decimal at h
    dsimp only at h
    split at h
    · rename_i hc
      have hy := (Option.some.inj h).symm
      subst hy
      refine ⟨_, if_pos hc, fun x v hx => ?_⟩
      unfold val at hx
      split at hx
      · rename_i hxc
        have hv := (Option.some.inj hx).symm
        have hq : (0 : ℚ) ≤ (m : ℚ) * 10 ^ e := mul_nonneg (Nat.cast_nonneg _) (zpow_nonneg (by norm_num) _)
        have B := nearest_best hq hxc
        have B0 := nearest_best hq (c := 0) (by norm_num [top])
        rw [magnitude_zero, zero_sub, abs_neg, abs_of_nonneg hq] at B0
        have hn := magnitude_nonneg x.code.1
        rw [hv, decimalValue_rat]
        dsimp only
        have := signed s x.negative hq hn B B0
        have := (Rat.cast_le (K := ℝ)).2 this
        rw [Rat.cast_abs, Rat.cast_abs, Rat.cast_sub, Rat.cast_sub] at this
        exact this
      · cases hx
    · cases h
  · intro s m e x v hx h
    unfold val at hx
    split at hx
    · rename_i hxc
      have hv := (Option.some.inj hx).symm
      have habs : |v| = (magnitude x.code.1 : ℝ) := by
        have hnR : (0 : ℝ) ≤ (magnitude x.code.1 : ℝ) := by exact_mod_cast magnitude_nonneg x.code.1
        rw [hv]
        cases x.negative
        · simp only [Bool.false_eq_true, if_false]; exact abs_of_nonneg hnR
        · simp only [if_true]; push_cast; rw [abs_neg]; exact abs_of_nonneg hnR
      rw [abs_decimalValue, habs] at h
      have hq : (m : ℚ) * 10 ^ e ≤ magnitude x.code.1 + 1 := by
        rw [← Rat.cast_le (K := ℝ)]
        push_cast
        exact h
      have hc := nearest_finite (mul_nonneg (Nat.cast_nonneg _) (zpow_nonneg (by norm_num) _)) hxc hq
      exact ⟨_, dif_pos hc⟩
    · cases hx

theorem bits_lt (x : Double) : x.bits < 2 ^ 64 := by
  unfold bits
  have := x.code.2
  split <;> omega

theorem toNat_ofNat {n : Nat} (h : n < 256) : (Char.ofNat n).toNat = n := by
  have hv : n.isValidChar := Or.inl (by omega)
  unfold Char.ofNat
  rw [dif_pos hv]
  rfl

instance : LawfulRaw Double where
  length x := by simp [Raw.bytes]
  back x := by
    have h := x.bits_lt
    have hb : ((List.range 8).map fun i => Char.ofNat (x.bits / 256 ^ i % 256)).foldr (fun c a => c.toNat + 256 * a) 0 = x.bits := by
      simp only [show List.range 8 = [0, 1, 2, 3, 4, 5, 6, 7] from rfl, List.map_cons, List.map_nil, List.foldr_cons, List.foldr_nil]
      rw [toNat_ofNat (Nat.mod_lt _ (by norm_num)), toNat_ofNat (Nat.mod_lt _ (by norm_num)), toNat_ofNat (Nat.mod_lt _ (by norm_num)),
        toNat_ofNat (Nat.mod_lt _ (by norm_num)), toNat_ofNat (Nat.mod_lt _ (by norm_num)), toNat_ofNat (Nat.mod_lt _ (by norm_num)),
        toNat_ofNat (Nat.mod_lt _ (by norm_num)), toNat_ofNat (Nat.mod_lt _ (by norm_num))]
      norm_num at h ⊢
      omega
    have hx : Raw.ofBytes (Raw.bytes x) = (⟨decide (2 ^ 63 ≤ x.bits), ⟨x.bits % 2 ^ 63, Nat.mod_lt _ (by norm_num)⟩⟩ : Double) := by
      unfold Raw.ofBytes Raw.bytes instRaw
      simp only [hb]
    rw [hx]
    have hc := x.code.2
    refine same ?_ ?_
    · show decide (2 ^ 63 ≤ x.bits) = x.negative
      unfold bits
      cases x.negative
      · exact decide_eq_false (by rw [if_neg (by simp)]; omega)
      · exact decide_eq_true (by rw [if_pos rfl]; omega)
    · show x.bits % 2 ^ 63 = x.code.1
      unfold bits
      cases x.negative
      · rw [if_neg (by simp)]; omega
      · rw [if_pos rfl]; omega

end Double

end Slsm.IO
