import Verif.Proof.FMMReal
import Verif.Proof.RoundBase
import Verif.Spec.RoundInit

/-! # Interface nodes of fast marching in rounded arithmetic -/

namespace Slsm

open FP

namespace Rounding

/-! ### relative errors -/

/-- The factor for one rounding. -/
noncomputable def once : ℝ := 1 - 1 / 2 ^ 51

theorem once_pos : 0 < once := by unfold once; norm_num

theorem once_le : once ≤ 1 := by unfold once; norm_num

/-- Two positive numbers agree up to `k` roundings. -/
def Rel (k : ℕ) (x y : ℝ) : Prop := 0 < x ∧ 0 < y ∧ once ^ k * y ≤ x ∧ once ^ k * x ≤ y

theorem once_pow (k : ℕ) : 0 < once ^ k := pow_pos once_pos k

theorem Rel.weaken {k l : ℕ} {x y : ℝ} (h : Rel k x y) (hk : k ≤ l) : Rel l x y := by
  have := pow_le_pow_of_le_one once_pos.le once_le hk
  exact ⟨h.1, h.2.1, (mul_le_mul_of_nonneg_right this h.2.1.le).trans h.2.2.1, (mul_le_mul_of_nonneg_right this h.1.le).trans h.2.2.2⟩

theorem Rel.trans {k l : ℕ} {x y z : ℝ} (h : Rel k x y) (h' : Rel l y z) : Rel (k + l) x z := by
  refine ⟨h.1, h'.2.1, ?_, ?_⟩
  · rw [pow_add, mul_assoc]
    exact (mul_le_mul_of_nonneg_left h'.2.2.1 (once_pow k).le).trans h.2.2.1
  · rw [pow_add, mul_comm (once ^ k), mul_assoc]
    exact (mul_le_mul_of_nonneg_left h.2.2.2 (once_pow l).le).trans h'.2.2.2

theorem Rel.mul {k l : ℕ} {x y u v : ℝ} (h : Rel k x y) (h' : Rel l u v) : Rel (k + l) (x * u) (y * v) := by
  have a := once_pow k
  have b := once_pow l
  refine ⟨mul_pos h.1 h'.1, mul_pos h.2.1 h'.2.1, ?_, ?_⟩
  · rw [pow_add, mul_mul_mul_comm]
    exact mul_le_mul h.2.2.1 h'.2.2.1 (mul_pos b h'.2.1).le h.1.le
  · rw [pow_add, mul_mul_mul_comm]
    exact mul_le_mul h.2.2.2 h'.2.2.2 (mul_pos b h'.1).le h.2.1.le

theorem Rel.add {k : ℕ} {x y u v : ℝ} (h : Rel k x y) (h' : Rel k u v) : Rel k (x + u) (y + v) := by
  refine ⟨add_pos h.1 h'.1, add_pos h.2.1 h'.2.1, ?_, ?_⟩
  · rw [mul_add]; exact add_le_add h.2.2.1 h'.2.2.1
  · rw [mul_add]; exact add_le_add h.2.2.2 h'.2.2.2

theorem Rel.inv {k : ℕ} {x y : ℝ} (h : Rel k x y) : Rel k (1 / x) (1 / y) := by
  obtain ⟨hx, hy, h1, h2⟩ := h
  refine ⟨by positivity, by positivity, ?_, ?_⟩
  · rw [mul_one_div, div_le_div_iff₀ hy hx]; linarith
  · rw [mul_one_div, div_le_div_iff₀ hx hy]; linarith

theorem Rel.sqrt {k : ℕ} {x y : ℝ} (h : Rel (2 * k) x y) : Rel k (Real.sqrt x) (Real.sqrt y) := by
  obtain ⟨hx, hy, h1, h2⟩ := h
  have e : ∀ z, 0 ≤ z → once ^ k * Real.sqrt z = Real.sqrt (once ^ (2 * k) * z) := by
    intro z hz
    rw [Real.sqrt_mul (once_pow _).le, mul_comm 2 k, pow_mul, Real.sqrt_sq (once_pow k).le]
  refine ⟨Real.sqrt_pos.2 hx, Real.sqrt_pos.2 hy, ?_, ?_⟩
  · rw [e y hy.le]; exact Real.sqrt_le_sqrt h1
  · rw [e x hx.le]; exact Real.sqrt_le_sqrt h2

variable {R : Rounding}

theorem rel_of_err {x r : ℝ} (h : 1 / 2 ^ 1000 ≤ x) (h1 : |r - x| ≤ x / 2 ^ 52 + 1 / 2 ^ 1074) : Rel 1 r x := by
  have hx : 0 < x := lt_of_lt_of_le (by positivity) h
  have h2 : (1 : ℝ) / 2 ^ 1074 ≤ x / 2 ^ 74 := by
    rw [show (1074 : ℕ) = 1000 + 74 from rfl, pow_add, ← div_div]
    exact div_le_div_of_nonneg_right h (by positivity)
  generalize (1 : ℝ) / 2 ^ 1074 = η at h1 h2
  clear h
  have h3 := abs_le.1 (h1.trans (add_le_add_right h2 _))
  have e : x / 2 ^ 52 + x / 2 ^ 74 = x * (1 / 2 ^ 52 + 1 / 2 ^ 74) := by ring
  rw [e] at h3
  have h4 : 0 ≤ x * (1 / 2 ^ 51 - (1 / 2 ^ 52 + 1 / 2 ^ 74)) := mul_nonneg hx.le (by norm_num)
  have h5 : 0 ≤ x * (1 - (1 - 1 / 2 ^ 51) * (1 + (1 / 2 ^ 52 + 1 / 2 ^ 74))) := mul_nonneg hx.le (by norm_num)
  have h6 : 0 < x * (1 - (1 / 2 ^ 52 + 1 / 2 ^ 74)) := mul_pos hx (by norm_num)
  refine ⟨by linarith [h3.1], hx, ?_, ?_⟩
  · rw [pow_one]; unfold once; linarith [h3.1]
  · rw [pow_one]; unfold once
    have : r ≤ x * (1 + (1 / 2 ^ 52 + 1 / 2 ^ 74)) := by linarith [h3.2]
    have := mul_le_mul_of_nonneg_left this (show (0 : ℝ) ≤ 1 - 1 / 2 ^ 51 by norm_num)
    linarith

/-- Rounding a number that is not tiny. -/
theorem rel_rnd {x : ℝ} (h : 1 / 2 ^ 1000 ≤ x) : Rel 1 (R.rnd x) x := by
  refine rel_of_err h ?_
  have := R.err x
  rwa [abs_of_pos (lt_of_lt_of_le (by positivity) h)] at this

/-- Rounding a negative number that is not tiny. -/
theorem rel_rnd_neg {x : ℝ} (h : 1 / 2 ^ 1000 ≤ -x) : Rel 1 (-R.rnd x) (-x) := by
  refine rel_of_err h ?_
  have := R.err x
  rw [abs_of_neg (neg_pos.1 (lt_of_lt_of_le (by positivity) h))] at this
  rwa [← abs_neg, show -(-R.rnd x - -x) = R.rnd x - x by ring]

theorem Rel.half {k : ℕ} {x y : ℝ} (h : Rel k x y) (hk : k ≤ 8) : y / 2 ≤ x ∧ x ≤ 2 * y := by
  have h1 := pow_le_pow_of_le_one once_pos.le once_le hk
  have h2 : (1 : ℝ) / 2 ≤ once ^ 8 := by unfold once; norm_num
  have a := mul_le_mul_of_nonneg_right (h2.trans h1) h.2.1.le
  have b := mul_le_mul_of_nonneg_right (h2.trans h1) h.1.le
  exact ⟨by linarith [h.2.2.1], by linarith [h.2.2.2]⟩

/-- Five roundings in terms of a relative error. -/
theorem Rel.five {x y : ℝ} (h : Rel 5 x y) : |x - y| ≤ y / 2 ^ 48 := by
  obtain ⟨hx, hy, h1, h2⟩ := h
  have q1 : (1 : ℝ) - 1 / 2 ^ 48 ≤ once ^ 5 := by unfold once; norm_num
  have q2 : 1 ≤ (1 + 1 / 2 ^ 48 : ℝ) * once ^ 5 := by unfold once; norm_num
  have a := mul_le_mul_of_nonneg_right q1 hy.le
  have b := mul_le_mul_of_nonneg_right q2 hx.le
  have c := mul_le_mul_of_nonneg_left h2 (show (0 : ℝ) ≤ 1 + 1 / 2 ^ 48 by norm_num)
  rw [abs_le]
  constructor <;> linarith

/-- Whether the product of two ordinary numbers is negative is not lost in rounding. -/
theorem mul_neg_rnd {a b : R.Num} (ha : Ordinary a) (hb : Ordinary b) : R.rnd (a.val * b.val) < 0 ↔ a.val * b.val < 0 := by
  constructor
  · intro h
    by_contra hc
    exact absurd (rnd_nonneg (R := R) (not_lt.1 hc)) (not_le.2 h)
  · intro h
    have ha0 : a.val ≠ 0 := fun e => by rw [e, zero_mul] at h; exact lt_irrefl _ h
    have hb0 : b.val ≠ 0 := fun e => by rw [e, mul_zero] at h; exact lt_irrefl _ h
    have h1 := (ha.resolve_left ha0).1
    have h2 := (hb.resolve_left hb0).1
    have h3 : (1 : ℝ) / 2 ^ 1000 ≤ |a.val * b.val| := by
      rw [abs_mul]
      refine le_trans ?_ (mul_le_mul h1 h2 (by positivity) (abs_nonneg _))
      rw [one_div_mul_one_div, ← pow_add]
      exact one_div_le_one_div_of_le (by positivity) (pow_le_pow_right₀ (by norm_num) (by norm_num))
    rw [abs_of_neg h] at h3
    exact neg_pos.1 (rel_rnd_neg (R := R) h3).1

/-- The distance to a crossing. -/
theorem ratio_rel {a b : R.Num} (ha : Ordinary a) (hb : Ordinary b) (h : a.val * b.val < 0) :
    Rel 2 (FP.div a (FP.sub a b)).val (a.val / (a.val - b.val)) ∧ (FP.div a (FP.sub a b)).val ≤ 1 ∧
      1 / 2 ^ 401 ≤ a.val / (a.val - b.val) := by
  have ha0 : a.val ≠ 0 := fun e => by rw [e, zero_mul] at h; exact lt_irrefl _ h
  have hb0 : b.val ≠ 0 := fun e => by rw [e, mul_zero] at h; exact lt_irrefl _ h
  have ha := ha.resolve_left ha0
  have hb := hb.resolve_left hb0
  have key : ∀ x y r : ℝ, 0 < x → y < 0 → 1 / 2 ^ 300 ≤ |x| ∧ |x| ≤ 2 ^ 100 → 1 / 2 ^ 300 ≤ |y| ∧ |y| ≤ 2 ^ 100 → x ≤ r →
      (1 / 2 ^ 1000 ≤ x - y → Rel 1 r (x - y)) → Rel 1 (x / r) (x / (x - y)) ∧ x / r ≤ 1 ∧ 1 / 2 ^ 401 ≤ x / (x - y) := by
    intro x y r hx hy hx' hy' hxr hr
    rw [abs_of_pos hx] at hx'
    rw [abs_of_neg hy] at hy'
    have hs : 1 / 2 ^ 1000 ≤ x - y := by
      have : (1 : ℝ) / 2 ^ 1000 ≤ 1 / 2 ^ 300 :=
        one_div_le_one_div_of_le (by positivity) (pow_le_pow_right₀ (by norm_num) (by norm_num))
      linarith [hx'.1]
    have hs' : x - y ≤ 2 ^ 101 := by
      rw [show (101 : ℕ) = 100 + 1 from rfl, pow_succ]
      linarith [hx'.2, hy'.2]
    have hr := hr hs
    have h0 : Rel 0 x x := ⟨hx, hx, by simp, by simp⟩
    have h1 := h0.mul hr.inv
    rw [mul_one_div, mul_one_div] at h1
    refine ⟨h1, (div_le_one hr.1).2 hxr, ?_⟩
    rw [le_div_iff₀ hr.2.1]
    calc 1 / 2 ^ 401 * (x - y) ≤ 1 / 2 ^ 401 * 2 ^ 101 := mul_le_mul_of_nonneg_left hs' (by positivity)
      _ = 1 / 2 ^ 300 := by rw [show (401 : ℕ) = 300 + 101 from rfl, pow_add, ← div_div, div_mul_cancel₀ _ (by positivity)]
      _ ≤ x := hx'.1
  have fin : Rel 1 (a.val / R.rnd (a.val - b.val)) (a.val / (a.val - b.val)) ∧ a.val / R.rnd (a.val - b.val) ≤ 1 ∧
      1 / 2 ^ 401 ≤ a.val / (a.val - b.val) := by
    rcases mul_neg_iff.1 h with ⟨h1, h2⟩ | ⟨h1, h2⟩
    · exact key _ _ _ h1 h2 ha hb (le_rnd a (by linarith)) rel_rnd
    · have hle : R.rnd (a.val - b.val) ≤ a.val := rnd_le a (by linarith)
      have e1 : -a.val - -b.val = -(a.val - b.val) := by ring
      have := key (-a.val) (-b.val) (-R.rnd (a.val - b.val)) (by linarith) (by linarith) (by rwa [abs_neg]) (by rwa [abs_neg])
        (by linarith) (by rw [e1]; exact rel_rnd_neg)
      rw [e1, neg_div_neg_eq, neg_div_neg_eq] at this
      exact this
  obtain ⟨f1, f2, f3⟩ := fin
  have hl : (1 : ℝ) / 2 ^ 1000 ≤ a.val / R.rnd (a.val - b.val) := by
    have h1 := (f1.half (by norm_num)).1
    have h2 : (1 : ℝ) / 2 ^ 1000 ≤ (1 / 2 ^ 401) / 2 := by
      rw [div_div, ← pow_succ]
      exact one_div_le_one_div_of_le (by positivity) (pow_le_pow_right₀ (by norm_num) (by norm_num))
    linarith
  refine ⟨?_, rnd_le_one f2, f3⟩
  rw [val_div, val_sub]
  exact (rel_rnd hl).trans f1

end Rounding

namespace FMM

open Rounding

/-- `r` stands for the least element of the set `S` up to two roundings, or is `0` if there is none. -/
def LeastR (S : Set ℝ) (r : ℝ) : Prop := (S = ∅ ∧ r = 0) ∨ ∃ ρ, IsLeast S ρ ∧ Rel 2 r ρ ∧ r ≤ 1 ∧ 1 / 2 ^ 401 ≤ ρ

theorem LeastR.add {S : Set ℝ} {r : ℝ} (h : LeastR S r) (c : Prop) [Decidable c] {d d' : ℝ}
    (hd : c → Rel 2 d' d ∧ d' ≤ 1 ∧ 1 / 2 ^ 401 ≤ d) : LeastR (S ∪ {x | c ∧ x = d}) (ax c d' r) := by
  unfold ax
  by_cases hc : c
  · rw [if_pos hc]
    obtain ⟨d1, d2, d3⟩ := hd hc
    rcases h with ⟨rfl, rfl⟩ | ⟨ρ, h1, h2, h3, h4⟩
    · right
      rw [if_pos (.inl rfl)]
      refine ⟨d, ⟨by simp [hc], ?_⟩, d1, d2, d3⟩
      rintro x (hx | ⟨-, rfl⟩)
      · exact hx.elim
      · exact le_refl _
    · right
      have hq := once_pow 2
      have hl : IsLeast (S ∪ {x | c ∧ x = d}) (Min.min ρ d) := by
        constructor
        · rcases min_choice ρ d with e | e <;> rw [e]
          · exact .inl h1.1
          · exact .inr ⟨hc, rfl⟩
        · rintro x (hx | ⟨-, rfl⟩)
          · exact (min_le_left _ _).trans (h1.2 hx)
          · exact min_le_right _ _
      have hm : 0 < Min.min ρ d := lt_min h2.2.1 d1.2.1
      by_cases hlt : d' < r
      · rw [if_pos (.inr hlt)]
        refine ⟨_, hl, ⟨d1.1, hm, ?_, le_min ?_ d1.2.2.2⟩, d2, le_min h4 d3⟩
        · exact (mul_le_mul_of_nonneg_left (min_le_right _ _) hq.le).trans d1.2.2.1
        · exact (mul_le_mul_of_nonneg_left hlt.le hq.le).trans h2.2.2.2
      · rw [if_neg (by push Not; exact ⟨h2.1.ne', not_lt.1 hlt⟩)]
        refine ⟨_, hl, ⟨h2.1, hm, ?_, le_min h2.2.2.2 ?_⟩, h3, le_min h4 d3⟩
        · exact (mul_le_mul_of_nonneg_left (min_le_left _ _) hq.le).trans h2.2.2.1
        · exact (mul_le_mul_of_nonneg_left (not_lt.1 hlt) hq.le).trans d1.2.2.2
  · rw [if_neg hc]
    have : S ∪ {x | c ∧ x = d} = S := by
      ext x; simp [hc]
    rw [this]; exact h

section
variable {R : Rounding} {w h : Nat} {m : Mesh R.Num}

/-- an edge with a sign change -/
def xingR (m : Mesh R.Num) (f : Nat → R.Num) (i j : Nat) : Prop := nb m i j ≠ m.nNodes ∧ num f i * num f (nb m i j) < 0

theorem opposite_rnd {f : Nat → R.Num} {i n : Nat} (hi : Ordinary (f i)) (hn : Ordinary (f n)) :
    Opposite f i n ↔ num f i * num f n < 0 := by
  unfold Opposite
  rw [lt_iff, val_mul, val_zero, mul_neg_rnd hi hn]
  rfl

open Classical in
theorem crossV_rnd (G : IsGrid w h m) (f : Nat → R.Num) {i j : Nat} (hi : i < m.nNodes) (hj : j < 4) (P : Plain w h f i) (s : Bool × R.Num × R.Num) :
    (crossV m f i j s).2.1.val = (if j < 2 then ax (xingR m f i j) (FP.div (f i) (FP.sub (f i) (f (nb m i j)))).val s.2.1.val else s.2.1.val) ∧
    (crossV m f i j s).2.2.val = (if j < 2 then s.2.2.val else ax (xingR m f i j) (FP.div (f i) (FP.sub (f i) (f (nb m i j)))).val s.2.2.val) := by
  have hx : (nb m i j ≠ m.nNodes ∧ FP.lt (FP.mul (f i) (f (nb m i j))) (FP.nat 0) = true) ↔ xingR m f i j := by
    unfold xingR
    refine and_congr_right fun hn => ?_
    exact opposite_rnd P.1 (P.2 _ ((adj_iff G hi).2 ⟨hn, j, hj, rfl⟩))
  unfold crossV ax
  by_cases hc : xingR m f i j
  · rw [if_pos (hx.2 hc)]
    simp only [if_pos hc]
    generalize FP.div (f i) (FP.sub (f i) (f (nb m i j))) = d
    have key : ∀ u : R.Num, (if (FP.eq u (FP.nat 0) || FP.lt d u) = true then d else u).val = if u.val = 0 ∨ d.val < u.val then d.val else u.val := by
      intro u
      have : (FP.eq u (FP.nat 0) || FP.lt d u) = true ↔ u.val = 0 ∨ d.val < u.val := by
        rw [Bool.or_eq_true, eq_iff, lt_iff, val_zero]
      by_cases hu : u.val = 0 ∨ d.val < u.val
      · rw [if_pos (this.2 hu), if_pos hu]
      · rw [if_neg fun h => hu (this.1 h), if_neg hu]
    by_cases hj : j < 2
    · simp only [if_pos hj]
      exact ⟨key _, trivial⟩
    · simp only [if_neg hj]
      exact ⟨trivial, key _⟩
  · rw [if_neg fun h => hc (hx.1 h)]
    simp only [if_neg hc]
    split_ifs <;> exact ⟨rfl, rfl⟩

theorem borderV_rnd (G : IsGrid w h m) (f : Nat → R.Num) {i : Nat} (hi : i < m.nNodes) (P : Plain w h f i) :
    LeastR (crossings (HAdj w h) (num f) i) (borderV m f i).2.1.val ∧ LeastR (crossings (VAdj w h) (num f) i) (borderV m f i).2.2.val := by
  classical
  have hpos : ∀ j, j < 4 → xingR m f i j → Rel 2 (FP.div (f i) (FP.sub (f i) (f (nb m i j)))).val (num f i / (num f i - num f (nb m i j))) ∧
      (FP.div (f i) (FP.sub (f i) (f (nb m i j)))).val ≤ 1 ∧ 1 / 2 ^ 401 ≤ num f i / (num f i - num f (nb m i j)) :=
    fun j hj hx => ratio_rel P.1 (P.2 _ ((adj_iff G hi).2 ⟨hx.1, j, hj, rfl⟩)) hx.2
  have c := fun j hj => crossV_rnd G f (i := i) (j := j) hi hj P
  have e1 : (borderV m f i).2.1.val = ax (xingR m f i 1) (FP.div (f i) (FP.sub (f i) (f (nb m i 1)))).val
      (ax (xingR m f i 0) (FP.div (f i) (FP.sub (f i) (f (nb m i 0)))).val 0) := by
    unfold borderV
    rw [(c 3 (by norm_num) _).1, if_neg (by norm_num), (c 2 (by norm_num) _).1, if_neg (by norm_num), (c 1 (by norm_num) _).1, if_pos (by norm_num),
      (c 0 (by norm_num) _).1, if_pos (by norm_num), val_zero]
  have e2 : (borderV m f i).2.2.val = ax (xingR m f i 3) (FP.div (f i) (FP.sub (f i) (f (nb m i 3)))).val
      (ax (xingR m f i 2) (FP.div (f i) (FP.sub (f i) (f (nb m i 2)))).val 0) := by
    unfold borderV
    rw [(c 3 (by norm_num) _).2, if_neg (by norm_num), (c 2 (by norm_num) _).2, if_neg (by norm_num), (c 1 (by norm_num) _).2, if_pos (by norm_num),
      (c 0 (by norm_num) _).2, if_pos (by norm_num), val_zero]
  have h0 : LeastR ∅ (0 : ℝ) := .inl ⟨rfl, rfl⟩
  constructor
  · rw [e1]
    have := (h0.add (xingR m f i 0) (hpos 0 (by norm_num))).add (xingR m f i 1) (hpos 1 (by norm_num))
    convert this using 1
    ext d
    simp only [crossings, hadj_iff G hi, xingR, Set.mem_setOf_eq, Set.empty_union, Set.mem_union]
    constructor
    · rintro ⟨n, ⟨h1, j, hj, rfl⟩, h3, h4⟩
      have : j = 0 ∨ j = 1 := by omega
      obtain rfl | rfl := this
      · exact .inl ⟨⟨h1, h3⟩, h4⟩
      · exact .inr ⟨⟨h1, h3⟩, h4⟩
    · rintro (⟨⟨h1, h3⟩, h4⟩ | ⟨⟨h1, h3⟩, h4⟩)
      · exact ⟨_, ⟨h1, 0, by omega, rfl⟩, h3, h4⟩
      · exact ⟨_, ⟨h1, 1, by omega, rfl⟩, h3, h4⟩
  · rw [e2]
    have := (h0.add (xingR m f i 2) (hpos 2 (by norm_num))).add (xingR m f i 3) (hpos 3 (by norm_num))
    convert this using 1
    ext d
    simp only [crossings, vadj_iff G hi, xingR, Set.mem_setOf_eq, Set.empty_union, Set.mem_union]
    constructor
    · rintro ⟨n, ⟨h1, j, hj, hj', rfl⟩, h3, h4⟩
      have : j = 2 ∨ j = 3 := by omega
      obtain rfl | rfl := this
      · exact .inl ⟨⟨h1, h3⟩, h4⟩
      · exact .inr ⟨⟨h1, h3⟩, h4⟩
    · rintro (⟨⟨h1, h3⟩, h4⟩ | ⟨⟨h1, h3⟩, h4⟩)
      · exact ⟨_, ⟨h1, 2, by omega, by omega, rfl⟩, h3, h4⟩
      · exact ⟨_, ⟨h1, 3, by omega, by omega, rfl⟩, h3, h4⟩

/-- One term of the sum. -/
theorem term_rnd {S : Set ℝ} {r : R.Num} (h : LeastR S r.val) :
    (r.val = 0 ∧ invSq S = 0) ∨ (0 < r.val ∧ Rel 6 (FP.div (FP.nat 1) (FP.mul r r)).val (invSq S) ∧ 1 ≤ (FP.div (FP.nat 1) (FP.mul r r)).val ∧
      invSq S ≤ 2 ^ 802) := by
  rcases h with ⟨rfl, h0⟩ | ⟨ρ, h1, h2, h3, h4⟩
  · left
    exact ⟨h0, by simp [invSq]⟩
  · right
    have e : invSq S = 1 / (ρ * ρ) := by
      unfold invSq
      rw [if_pos ⟨ρ, h1.1⟩, h1.csInf_eq, sq]
    have hr := h2.1
    have hh := (h2.half (by norm_num)).1
    have hρ2 : (1 : ℝ) / 2 ^ 802 ≤ ρ * ρ := by
      refine le_trans (le_of_eq ?_) (mul_le_mul h4 h4 (by positivity) h2.2.1.le)
      rw [one_div_mul_one_div, ← pow_add]
    have hrr : (1 : ℝ) / 2 ^ 1000 ≤ r.val * r.val := by
      have h5 : ρ * ρ / 4 ≤ r.val * r.val := by nlinarith [mul_le_mul hh hh (by linarith [h2.2.1]) hr.le]
      have h6 : (1 : ℝ) / 2 ^ 1000 ≤ (1 / 2 ^ 802) / 4 := by
        rw [show (4 : ℝ) = 2 ^ 2 by norm_num, div_div, ← pow_add]
        exact one_div_le_one_div_of_le (by positivity) (pow_le_pow_right₀ (by norm_num) (by norm_num))
      linarith
    have hsq := (rel_rnd (R := R) hrr).trans (h2.mul h2)
    have hle : R.rnd (r.val * r.val) ≤ 1 := rnd_le_one (by nlinarith)
    have hge : 1 ≤ 1 / R.rnd (r.val * r.val) := by rw [le_div_iff₀ hsq.1]; linarith
    have htiny : (1 : ℝ) / 2 ^ 1000 ≤ 1 := by
      rw [div_le_one (by positivity)]
      exact one_le_pow₀ (by norm_num)
    rw [val_div, val_one, val_mul, e]
    refine ⟨hr, (rel_rnd (htiny.trans hge)).trans hsq.inv, ?_, ?_⟩
    · simpa using nat_le_rnd (R := R) (n := 1) (by norm_num) (by simpa using hge)
    · rw [one_div_le (mul_pos h2.2.1 h2.2.1) (by positivity)]
      exact hρ2

theorem add_zero_rnd (a : R.Num) : (FP.add (FP.nat 0) a).val = a.val := by
  rw [val_add, val_zero, zero_add, a.fix]

theorem sum_rnd {S T : Set ℝ} {r s : R.Num} (h1 : LeastR S r.val) (h2 : LeastR T s.val) (hne : S.Nonempty ∨ T.Nonempty) :
    Rel 7 (distSum r s).val (invSq S + invSq T) ∧ 1 ≤ (distSum r s).val ∧ invSq S + invSq T ≤ 2 ^ 803 := by
  have hpow : ∀ x y : ℝ, x ≤ 2 ^ 802 → y ≤ 2 ^ 802 → x + y ≤ 2 ^ 803 := by
    intro x y hx hy
    rw [show (803 : ℕ) = 802 + 1 from rfl, pow_succ, mul_two]
    exact add_le_add hx hy
  have hp : (0 : ℝ) ≤ 2 ^ 802 := by positivity
  rcases term_rnd h1 with ⟨a1, a2⟩ | ⟨a1, a2, a3, a4⟩ <;> rcases term_rnd h2 with ⟨b1, b2⟩ | ⟨b1, b2, b3, b4⟩
  · exfalso
    have key : ∀ {U : Set ℝ} {x : ℝ}, LeastR U x → x = 0 → ¬ U.Nonempty := by
      rintro U x (⟨rfl, -⟩ | ⟨ρ, -, h, -⟩) hx
      · exact Set.not_nonempty_empty
      · exact absurd hx h.1.ne'
    exact hne.elim (key h1 a1) (key h2 b1)
  · have e : (distSum r s).val = (FP.div (FP.nat 1) (FP.mul s s)).val := by
      unfold distSum
      dsimp only
      rw [if_pos (by rw [lt_iff, val_zero]; exact b1), if_neg (by rw [lt_iff, val_zero, a1]; exact lt_irrefl _), add_zero_rnd]
    rw [e, a2, zero_add]
    exact ⟨b2.weaken (by norm_num), b3, by simpa using hpow _ _ hp b4⟩
  · have e : (distSum r s).val = (FP.div (FP.nat 1) (FP.mul r r)).val := by
      unfold distSum
      dsimp only
      rw [if_neg (by rw [lt_iff, val_zero, b1]; exact lt_irrefl _), if_pos (by rw [lt_iff, val_zero]; exact a1), add_zero_rnd]
    rw [e, b2, add_zero]
    exact ⟨a2.weaken (by norm_num), a3, by simpa using hpow _ _ a4 hp⟩
  · have e : (distSum r s).val = R.rnd ((FP.div (FP.nat 1) (FP.mul r r)).val + (FP.div (FP.nat 1) (FP.mul s s)).val) := by
      unfold distSum
      dsimp only
      rw [if_pos (by rw [lt_iff, val_zero]; exact b1), if_pos (by rw [lt_iff, val_zero]; exact a1), val_add, add_zero_rnd]
    rw [e]
    have hge : 1 ≤ (FP.div (FP.nat 1) (FP.mul r r)).val + (FP.div (FP.nat 1) (FP.mul s s)).val := by linarith
    have htiny : (1 : ℝ) / 2 ^ 1000 ≤ 1 := by
      rw [div_le_one (by positivity)]
      exact one_le_pow₀ (by norm_num)
    refine ⟨(rel_rnd (htiny.trans hge)).trans (a2.add b2), ?_, hpow _ _ a4 b4⟩
    simpa using nat_le_rnd (R := R) (n := 1) (by norm_num) (by simpa using hge)

/-- The distance given to a node next to a sign change. -/
theorem borderDist_rnd (G : IsGrid w h m) (f : Nat → R.Num) {i n : Nat} (hi : i < m.nNodes) (P : Plain w h f i) (ha : Adj w h i n)
    (hs : num f i * num f n < 0) :
    Rel 5 (borderDist m f i).val (1 / Real.sqrt (invSq (crossings (HAdj w h) (num f) i) + invSq (crossings (VAdj w h) (num f) i))) ∧
      (borderDist m f i).val ≤ 1 := by
  obtain ⟨h1, h2⟩ := borderV_rnd G f hi P
  have hne : (crossings (HAdj w h) (num f) i).Nonempty ∨ (crossings (VAdj w h) (num f) i).Nonempty := by
    rcases ha with ha | ha
    · exact .inl ⟨_, n, ha, hs, rfl⟩
    · exact .inr ⟨_, n, ha, hs, rfl⟩
  obtain ⟨k1, k2, k3⟩ := sum_rnd h1 h2 hne
  unfold borderDist
  rw [val_sqrt, val_div, val_one]
  generalize invSq (crossings (HAdj w h) (num f) i) + invSq (crossings (VAdj w h) (num f) i) = E at *
  generalize (distSum (borderV m f i).2.1 (borderV m f i).2.2).val = S at *
  have hS : 1 / S ≤ 1 := (div_le_one k1.1).2 k2
  have hl : (1 : ℝ) / 2 ^ 804 ≤ 1 / S := by
    refine one_div_le_one_div_of_le k1.1 ((k1.half (by norm_num)).2.trans ?_)
    rw [show (804 : ℕ) = 803 + 1 from rfl, pow_succ]
    linarith
  have ht : (1 : ℝ) / 2 ^ 1000 ≤ 1 / S := le_trans (one_div_le_one_div_of_le (by positivity) (pow_le_pow_right₀ (by norm_num) (by norm_num))) hl
  have hd := (rel_rnd (R := R) ht).trans k1.inv
  have hq := Rel.sqrt (k := 4) hd
  rw [Real.sqrt_div zero_le_one, Real.sqrt_one] at hq
  have hd1 : R.rnd (1 / S) ≤ 1 := rnd_le_one hS
  have hx : R.rnd (1 / S) ≤ Real.sqrt (R.rnd (1 / S)) := by
    refine Real.le_sqrt_of_sq_le ?_
    nlinarith [hd.1]
  have hlow : (1 : ℝ) / 2 ^ 1000 ≤ Real.sqrt (R.rnd (1 / S)) := by
    have h5 := ((rel_rnd (R := R) ht).half (by norm_num)).1
    have h6 : (1 : ℝ) / 2 ^ 1000 ≤ (1 / 2 ^ 804) / 2 := by
      rw [div_div, ← pow_succ]
      exact one_div_le_one_div_of_le (by positivity) (pow_le_pow_right₀ (by norm_num) (by norm_num))
    linarith
  refine ⟨(rel_rnd hlow).trans hq, rnd_le_one ?_⟩
  rw [Real.sqrt_le_left zero_le_one, one_pow]
  exact hd1

end

end FMM

end Slsm
