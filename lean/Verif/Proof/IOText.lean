import Verif.Spec.IO
import Verif.Lib.WP
import Verif.Lib.Arith
import Mathlib.Tactic.Linarith
import Mathlib.Tactic.Ring

/-! # Decimal notation and the reading of numbers -/

namespace Slsm.IO

open Slsm

theorem digit_toNat {d : Nat} (h : d < 10) : (digit d).toNat = 48 + d := by
  have hv : (48 + d).isValidChar := Or.inl (by omega)
  unfold digit Char.ofNat
  rw [dif_pos hv]
  rfl

theorem digit_isDigit {d : Nat} (h : d < 10) : isDigit (digit d) = true := by
  unfold isDigit
  rw [digit_toNat h]
  simp
  omega

theorem dec_small {n : Nat} (h : n < 10) : dec n = [digit n] := by rw [dec, if_pos h]
theorem dec_big {n : Nat} (h : 10 ≤ n) : dec n = dec (n / 10) ++ [digit (n % 10)] := by rw [dec, if_neg (by omega)]

theorem dec_ne_nil (n : Nat) : dec n ≠ [] := by
  rcases Nat.lt_or_ge n 10 with h | h
  · rw [dec_small h]; simp
  · rw [dec_big h]; simp

theorem dec_digits (n : Nat) : ∀ c ∈ dec n, isDigit c = true := by
  induction n using Nat.strongRecOn with
  | ind n ih =>
    rcases Nat.lt_or_ge n 10 with h | h
    · rw [dec_small h]
      intro c hc
      rw [List.mem_singleton] at hc
      rw [hc]; exact digit_isDigit h
    · rw [dec_big h]
      intro c hc
      rcases List.mem_append.1 hc with hc | hc
      · exact ih _ (by omega) c hc
      · rw [List.mem_singleton] at hc
        rw [hc]; exact digit_isDigit (Nat.mod_lt _ (by norm_num))

theorem numeral_snoc (a : Text) {d : Nat} (h : d < 10) : numeral (a ++ [digit d]) = numeral a * 10 + d := by
  unfold numeral
  rw [List.foldl_append]
  simp only [List.foldl_cons, List.foldl_nil]
  rw [digit_toNat h]
  omega

theorem numeral_dec (n : Nat) : numeral (dec n) = n := by
  induction n using Nat.strongRecOn with
  | ind n ih =>
    rcases Nat.lt_or_ge n 10 with h | h
    · rw [dec_small h, ← List.nil_append [digit n], numeral_snoc _ h]
      simp [numeral]
    · rw [dec_big h, numeral_snoc _ (Nat.mod_lt _ (by norm_num)), ih _ (by omega)]
      omega

theorem dec_length_le {n k : Nat} (hk : 0 < k) (h : n < 10 ^ k) : (dec n).length ≤ k := by
  induction k generalizing n with
  | zero => omega
  | succ k ih =>
    rcases Nat.lt_or_ge n 10 with h1 | h1
    · rw [dec_small h1]; simp
    · rw [dec_big h1, List.length_append, List.length_singleton]
      have h0 : 0 < k := by
        rcases Nat.eq_zero_or_pos k with h0 | h0
        · subst h0; simp at h; omega
        · exact h0
      have : n / 10 < 10 ^ k := by
        rw [pow_succ] at h
        omega
      have := ih h0 this
      omega

theorem zero_digit : '0' = digit 0 := rfl

theorem numeral_zeros (k : Nat) (a : Text) : numeral (List.replicate k '0' ++ a) = numeral a := by
  induction k with
  | zero => rfl
  | succ k ih =>
    rw [List.replicate_succ, List.cons_append]
    unfold numeral at *
    rw [List.foldl_cons]
    exact ih

theorem pad_digits (w n : Nat) : ∀ c ∈ pad w n, isDigit c = true := by
  intro c hc
  unfold pad at hc
  rcases List.mem_append.1 hc with hc | hc
  · rw [(List.mem_replicate.1 hc).2]; rfl
  · exact dec_digits n c hc

theorem numeral_pad (w n : Nat) : numeral (pad w n) = n := by unfold pad; rw [numeral_zeros, numeral_dec]

theorem pad_length {w n : Nat} (hw : 0 < w) (h : n < 10 ^ w) : (pad w n).length = w := by
  unfold pad
  have := dec_length_le hw h
  simp
  omega

theorem pad_ne_nil (w n : Nat) : pad w n ≠ [] := by
  unfold pad
  simp [dec_ne_nil]

theorem numeral_from (b : Text) (k : Nat) :
    b.foldl (fun a c => a * 10 + (c.toNat - 48)) k = k * 10 ^ b.length + numeral b := by
  induction b generalizing k with
  | nil => simp [numeral]
  | cons c b ih =>
    unfold numeral
    rw [List.foldl_cons, List.foldl_cons, ih, ih (0 * 10 + (c.toNat - 48)), List.length_cons, pow_succ]
    ring

theorem numeral_append (a b : Text) : numeral (a ++ b) = numeral a * 10 ^ b.length + numeral b := by
  conv_lhs => unfold numeral
  rw [List.foldl_append, numeral_from]
  rfl

theorem numeral_micro (n : Nat) : numeral (dec (n / 1000000) ++ pad 6 (n % 1000000)) = n := by
  rw [numeral_append, numeral_dec, numeral_pad, pad_length (by norm_num) (by norm_num; omega)]
  norm_num
  omega

/-! ## Reading a number -/

theorem takeDigits_append {a : Text} (ha : ∀ c ∈ a, isDigit c = true) {t : Text} (ht : ∀ c, t.head? = some c → isDigit c = false) :
    takeDigits (a ++ t) = (a, t) := by
  have ht' : t.takeWhile isDigit = [] ∧ t.dropWhile isDigit = t := by
    cases t with
    | nil => simp
    | cons c t => simp [ht c rfl]
  unfold takeDigits
  rw [List.takeWhile_append_of_pos ha, List.dropWhile_append_of_pos ha, ht'.1, ht'.2, List.append_nil]

theorem digit_not_sign {c : Char} (h : isDigit c = true) : c ≠ '-' ∧ c ≠ '+' ∧ c ≠ '.' ∧ c ≠ '_' ∧ c ≠ '/' ∧ c ≠ '\n' ∧ isSpace c = false := by
  have h' : 48 ≤ c.toNat ∧ c.toNat ≤ 57 := by simpa [isDigit] using h
  have hs : isSpace c = false := by
    unfold isSpace
    have : (c == ' ') = false := by
      rw [beq_eq_false_iff_ne]
      rintro rfl
      have : (' ' : Char).toNat = 32 := rfl
      omega
    rw [this]
    simp
    omega
  refine ⟨?_, ?_, ?_, ?_, ?_, ?_, hs⟩ <;> (rintro rfl; revert h; decide)

theorem takeSign_digit {a : Text} (ha : ∀ c, a.head? = some c → isDigit c = true) : takeSign a = (false, a) := by
  unfold takeSign
  split
  · have := digit_not_sign (ha _ rfl); simp at this
  · have := digit_not_sign (ha _ rfl); simp at this
  · rfl

variable {D : Type} [Txt D]

/-- The number read back from the text of `x` is `y`. -/
def Reread (x y : D) : Prop := ∃ n, Txt.micro x = some n ∧ Txt.decimal (Txt.sign x) n (-6) = some y

theorem fmt_finite {x : D} {n : Nat} (h : Txt.micro x = some n) :
    fmt x = (if Txt.sign x then ['-'] else []) ++ (dec (n / 1000000) ++ '.' :: pad 6 (n % 1000000)) := by
  unfold fmt; rw [h]

theorem space_not {c : Char} (h : isSpace c = true) : isDigit c = false ∧ c ≠ 'e' ∧ c ≠ 'E' := by
  refine ⟨?_, ?_, ?_⟩
  · by_contra hn
    have := (digit_not_sign (Bool.eq_true_of_not_eq_false hn)).2.2.2.2.2.2
    rw [h] at this
    cases this
  · rintro rfl; revert h; decide
  · rintro rfl; revert h; decide

/-- A number followed by a space is read back, and the space is left. -/
theorem scan_fmt {x y : D} (h : Reread x y) {c : Char} (hc : isSpace c = true) (t : Text) :
    scan (fmt x ++ c :: t) = (y, true, c :: t) := by
  obtain ⟨n, hn, hy⟩ := h
  obtain ⟨hd, he, hE⟩ := space_not hc
  have hh : ∀ z, (dec (n / 1000000) ++ ('.' :: (pad 6 (n % 1000000) ++ c :: t))).head? = some z → isDigit z = true := by
    intro z hz
    rw [List.head?_append_of_ne_nil _ (dec_ne_nil _)] at hz
    exact dec_digits _ _ (List.mem_of_head? hz)
  have hs : takeSign (fmt x ++ c :: t) = (Txt.sign x, dec (n / 1000000) ++ ('.' :: (pad 6 (n % 1000000) ++ c :: t))) := by
    rw [fmt_finite hn]
    cases Txt.sign x
    · simp only [Bool.false_eq_true, if_false, List.nil_append, List.append_assoc, List.cons_append]
      exact takeSign_digit hh
    · simp only [if_true, List.append_assoc, List.cons_append, List.nil_append]
      rfl
  have hi : takeDigits (dec (n / 1000000) ++ ('.' :: (pad 6 (n % 1000000) ++ c :: t))) = (dec (n / 1000000), '.' :: (pad 6 (n % 1000000) ++ c :: t)) :=
    takeDigits_append (dec_digits _) (by rintro z hz; cases hz; decide)
  have hf : takeFraction ('.' :: (pad 6 (n % 1000000) ++ c :: t)) = (pad 6 (n % 1000000), c :: t) :=
    takeDigits_append (pad_digits _ _) (by rintro z hz; cases hz; exact hd)
  have hx : takeExponent (c :: t) = ((false, false, []), c :: t) := by
    show (if c = 'e' ∨ c = 'E' then _ else _) = _
    rw [if_neg (by rintro (h | h); exacts [he h, hE h])]
  unfold scan
  simp only [hs, hi, hf, hx]
  rw [if_neg (by simp [dec_ne_nil]), if_neg (by simp), numeral_micro, pad_length (by norm_num) (by norm_num; omega)]
  have : ((if false = true then -((numeral [] : Nat) : Int) else ((numeral [] : Nat) : Int)) - ((6 : Nat) : Int)) = -6 := by
    simp [numeral]
  rw [this, hy]

theorem fmt_head {x : D} {n : Nat} (h : Txt.micro x = some n) : ∃ c t, fmt x = c :: t ∧ isSpace c = false := by
  rw [fmt_finite h]
  cases Txt.sign x
  · obtain ⟨c, t, e⟩ := List.exists_cons_of_ne_nil (dec_ne_nil (n / 1000000))
    refine ⟨c, t ++ '.' :: pad 6 (n % 1000000), by rw [e]; rfl, ?_⟩
    exact (digit_not_sign (dec_digits (n / 1000000) c (by rw [e]; simp))).2.2.2.2.2.2
  · exact ⟨'-', _, rfl, rfl⟩

theorem fmt_no_newline {x : D} {n : Nat} (h : Txt.micro x = some n) : '\n' ∉ fmt x := by
  rw [fmt_finite h]
  simp only [List.mem_append, List.mem_cons, not_or]
  refine ⟨?_, ?_, by decide, ?_⟩
  · split <;> simp
  · intro hm; exact (digit_not_sign (dec_digits _ _ hm)).2.2.2.2.2.1 rfl
  · intro hm; exact (digit_not_sign (pad_digits _ _ _ hm)).2.2.2.2.2.1 rfl

/-- The text `cs` consists of the numbers that read back as `ys`, with spaces around them and a space at the end. -/
inductive Reads : List D → Text → Prop
  | nil {cs : Text} (h : ∀ c ∈ cs, isSpace c = true) : Reads [] cs
  | cons {x y : D} {ys : List D} {ws : Text} {c : Char} {t : Text} (hw : ∀ c ∈ ws, isSpace c = true) (hx : Reread x y)
      (hc : isSpace c = true) (h : Reads ys (c :: t)) : Reads (y :: ys) (ws ++ (fmt x ++ c :: t))

theorem all_space {cs : Text} (h : ∀ c ∈ cs, isSpace c = true) : cs.dropWhile isSpace = [] := by
  have := List.dropWhile_append_of_pos (p := isSpace) (l₂ := []) h
  simpa using this

theorem extract_nil {cs : Text} (h : Reads (D := D) [] cs) : extract (D := D) ⟨cs, false, false⟩ = (⟨[], true, true⟩, none) := by
  cases h with
  | nil h =>
    unfold extract
    have : cs.dropWhile isSpace = [] := all_space h
    simp [this]

theorem extract_cons {y : D} {ys : List D} {cs : Text} (h : Reads (y :: ys) cs) :
    ∃ t, extract (D := D) ⟨cs, false, false⟩ = (⟨t, false, false⟩, some y) ∧ Reads ys t ∧ t.length < cs.length := by
  cases h with
  | @cons x _ _ ws c t hw hx hc h =>
    obtain ⟨n, hn, -⟩ := id hx
    obtain ⟨a, r, e, ha⟩ := fmt_head hn
    have hd : (ws ++ (fmt x ++ c :: t)).dropWhile isSpace = fmt x ++ c :: t := by
      rw [List.dropWhile_append_of_pos hw, e]
      simp [ha]
    refine ⟨c :: t, ?_, h, by simp [e]; omega⟩
    unfold extract
    simp only [Bool.or_self, Bool.false_eq_true, if_false, hd]
    rw [e, List.cons_append]
    dsimp only
    rw [← List.cons_append, ← e, scan_fmt hx hc t]
    rfl

theorem extract_bad (cs : Text) : extract (D := D) ⟨cs, true, true⟩ = (⟨cs, true, true⟩, none) := rfl

theorem skip_bad (k : Nat) (cs : Text) : skip (D := D) k ⟨cs, true, true⟩ = ⟨cs, true, true⟩ := by
  induction k with
  | zero => rfl
  | succ k ih => unfold skip; rw [extract_bad]; exact ih

theorem skip_ok {ys zs : List D} {cs : Text} (h : Reads (ys ++ zs) cs) :
    ∃ t, skip (D := D) ys.length ⟨cs, false, false⟩ = ⟨t, false, false⟩ ∧ Reads zs t ∧ t.length ≤ cs.length := by
  induction ys generalizing cs with
  | nil => exact ⟨cs, rfl, h, le_rfl⟩
  | cons y ys ih =>
    obtain ⟨t, e, h', hl⟩ := extract_cons h
    obtain ⟨t', e', h'', hl'⟩ := ih h'
    refine ⟨t', ?_, h'', by omega⟩
    rw [List.length_cons]
    unfold skip
    rw [e]; exact e'

theorem skip_short {ys : List D} {cs : Text} (h : Reads ys cs) {k : Nat} (hk : ys.length < k) :
    skip (D := D) k ⟨cs, false, false⟩ = ⟨[], true, true⟩ := by
  induction ys generalizing cs k with
  | nil =>
    obtain ⟨k, rfl⟩ : ∃ j, k = j + 1 := ⟨k - 1, by simp at hk; omega⟩
    unfold skip
    rw [extract_nil h]; exact skip_bad _ _
  | cons y ys ih =>
    obtain ⟨k, rfl⟩ : ∃ j, k = j + 1 := ⟨k - 1, by simp at hk; omega⟩
    obtain ⟨t, e, h', -⟩ := extract_cons h
    unfold skip
    rw [e]; exact ih h' (by simp at hk; omega)

end Slsm.IO
