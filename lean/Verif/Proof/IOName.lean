import Verif.Proof.IOText

/-! # File names -/

namespace Slsm.IO

open Slsm

theorem split_at_last {c : Char} {a b a' b' : Text} (h : a ++ c :: b = a' ++ c :: b') (hb : c ∉ b) (hb' : c ∉ b') : a = a' ∧ b = b' := by
  induction a generalizing a' with
  | nil =>
    cases a' with
    | nil => simp at h; exact ⟨rfl, h⟩
    | cons d a' =>
      rw [List.nil_append, List.cons_append, List.cons.injEq] at h
      exact absurd (by rw [h.2]; simp) hb
  | cons d a ih =>
    cases a' with
    | nil =>
      rw [List.nil_append, List.cons_append, List.cons.injEq] at h
      exact absurd (by rw [← h.2]; simp) hb'
    | cons d' a' =>
      rw [List.cons_append, List.cons_append, List.cons.injEq] at h
      obtain ⟨h1, h2⟩ := ih h.2
      exact ⟨by rw [h.1, h1], h2⟩

theorem split_at_first {c : Char} {a b a' b' : Text} (h : a ++ c :: b = a' ++ c :: b') (ha : c ∉ a) (ha' : c ∉ a') : a = a' ∧ b = b' := by
  have := congrArg List.reverse h
  simp only [List.reverse_append, List.reverse_cons, List.append_assoc, List.singleton_append] at this
  obtain ⟨h1, h2⟩ := split_at_last this (by simpa using ha) (by simpa using ha')
  exact ⟨List.reverse_injective h2, List.reverse_injective h1⟩

theorem Kind.stem_split (k : Kind) : ∃ a, k.stem = a ++ ['_'] := by
  cases k
  · exact ⟨"level-set".toList, rfl⟩
  · exact ⟨"level-set".toList, rfl⟩
  · exact ⟨"level-set".toList, rfl⟩
  · exact ⟨"boundary-points".toList, rfl⟩
  · exact ⟨"boundary-segments".toList, rfl⟩
  · exact ⟨"area".toList, rfl⟩
  · exact ⟨"area".toList, rfl⟩

theorem Kind.extension_split (k : Kind) : ∃ a, k.extension = '.' :: a := by
  cases k
  · exact ⟨"vtk".toList, rfl⟩
  · exact ⟨"txt".toList, rfl⟩
  · exact ⟨"bin".toList, rfl⟩
  · exact ⟨"txt".toList, rfl⟩
  · exact ⟨"txt".toList, rfl⟩
  · exact ⟨"vtk".toList, rfl⟩
  · exact ⟨"txt".toList, rfl⟩

theorem Kind.extension_no (k : Kind) : '_' ∉ k.extension ∧ '/' ∉ k.extension := by cases k <;> decide
theorem Kind.stem_no (k : Kind) : '/' ∉ k.stem := by cases k <;> decide

theorem Kind.ext {k l : Kind} (h1 : k.stem = l.stem) (h2 : k.extension = l.extension) : k = l := by
  revert h1 h2
  cases k <;> cases l <;> decide

/-- The last part of a file name. -/
def base (k : Kind) (n : Nat) : Text := k.stem ++ (pad 4 n ++ k.extension)

theorem base_no_slash (k : Kind) (n : Nat) : '/' ∉ base k n := by
  unfold base
  simp only [List.mem_append, not_or]
  exact ⟨k.stem_no, fun h => (digit_not_sign (pad_digits _ _ _ h)).2.2.2.2.1 rfl, k.extension_no.2⟩

theorem base_inj {k l : Kind} {n m : Nat} (h : base k n = base l m) : k = l ∧ n = m := by
  unfold base at h
  obtain ⟨a, ha⟩ := k.stem_split
  obtain ⟨b, hb⟩ := l.stem_split
  have hu : ∀ (k : Kind) (n : Nat), '_' ∉ pad 4 n ++ k.extension := by
    intro k n
    simp only [List.mem_append, not_or]
    exact ⟨fun h => (digit_not_sign (pad_digits _ _ _ h)).2.2.2.1 rfl, k.extension_no.1⟩
  have hs : k.stem = l.stem ∧ pad 4 n ++ k.extension = pad 4 m ++ l.extension := by
    rw [ha, hb, List.append_assoc, List.append_assoc] at h
    obtain ⟨h1, h2⟩ := split_at_last h (hu k n) (hu l m)
    exact ⟨by rw [ha, hb, h1], h2⟩
  obtain ⟨c, hc⟩ := k.extension_split
  obtain ⟨d, hd⟩ := l.extension_split
  have h2 := hs.2
  rw [hc, hd] at h2
  obtain ⟨h3, h4⟩ := split_at_first h2 (fun h => (digit_not_sign (pad_digits _ _ _ h)).2.2.1 rfl)
    (fun h => (digit_not_sign (pad_digits _ _ _ h)).2.2.1 rfl)
  refine ⟨Kind.ext hs.1 (by rw [hc, hd, h4]), ?_⟩
  rw [← numeral_pad 4 n, ← numeral_pad 4 m, h3]

theorem fileName_inj {k l : Kind} {n m : Nat} {d e : Text} (h : fileName k n d = fileName l m e) : k = l ∧ n = m ∧ d = e := by
  have hn : ∀ (k : Kind) (n : Nat) (d : Text), fileName k n d = (if d = [] then [] else d ++ ['/']) ++ base k n := fun _ _ _ => rfl
  rw [hn, hn] at h
  by_cases hd : d = [] <;> by_cases he : e = []
  · rw [if_pos hd, if_pos he] at h
    obtain ⟨h1, h2⟩ := base_inj h
    exact ⟨h1, h2, by rw [hd, he]⟩
  · rw [if_pos hd, if_neg he, List.nil_append] at h
    exact absurd (by rw [h]; simp) (base_no_slash k n)
  · rw [if_neg hd, if_pos he, List.nil_append] at h
    exact absurd (by rw [← h]; simp) (base_no_slash l m)
  · rw [if_neg hd, if_neg he, List.append_assoc, List.append_assoc] at h
    obtain ⟨h1, h2⟩ := split_at_last h (base_no_slash k n) (base_no_slash l m)
    obtain ⟨h3, h4⟩ := base_inj h2
    exact ⟨h3, h4, h1⟩

theorem pad_four {n : Nat} (h : n < 10000) : pad 4 n = [digit (n / 1000), digit (n / 100 % 10), digit (n / 10 % 10), digit (n % 10)] := by
  unfold pad
  rcases Nat.lt_or_ge n 10 with h1 | h1
  · rw [dec_small h1]
    have e1 : n / 1000 = 0 := by omega
    have e2 : n / 100 % 10 = 0 := by omega
    have e3 : n / 10 % 10 = 0 := by omega
    have e4 : n % 10 = n := by omega
    rw [e1, e2, e3, e4]; rfl
  · rw [dec_big h1]
    rcases Nat.lt_or_ge (n / 10) 10 with h2 | h2
    · rw [dec_small h2]
      have e1 : n / 1000 = 0 := by omega
      have e2 : n / 100 % 10 = 0 := by omega
      have e3 : n / 10 % 10 = n / 10 := by omega
      rw [e1, e2, e3]; rfl
    · rw [dec_big h2]
      rcases Nat.lt_or_ge (n / 10 / 10) 10 with h3 | h3
      · rw [dec_small h3]
        have e1 : n / 1000 = 0 := by omega
        have e2 : n / 100 % 10 = n / 10 / 10 := by omega
        rw [e1, e2]; rfl
      · rw [dec_big h3, dec_small (by omega)]
        have e1 : n / 1000 = n / 10 / 10 / 10 := by omega
        have e2 : n / 100 % 10 = n / 10 / 10 % 10 := by omega
        rw [e1, e2]; rfl

theorem digit_lt {a b : Nat} (h : a < b) (hb : b < 10) : digit a < digit b := by
  rw [Char.lt_def, UInt32.lt_iff_toNat_lt]
  have h1 := digit_toNat (d := a) (by omega)
  have h2 := digit_toNat hb
  unfold Char.toNat at h1 h2
  omega

theorem pad_lt {n m : Nat} (h : n < m) (hm : m < 10000) (t : Text) : pad 4 n ++ t < pad 4 m ++ t := by
  rw [pad_four (by omega), pad_four hm]
  simp only [List.cons_append, List.nil_append, List.cons_lt_cons_iff]
  by_cases h1 : n / 1000 < m / 1000
  · exact .inl (digit_lt h1 (by omega))
  · refine .inr ⟨by rw [show n / 1000 = m / 1000 by omega], ?_⟩
    by_cases h2 : n / 100 % 10 < m / 100 % 10
    · exact .inl (digit_lt h2 (by omega))
    · refine .inr ⟨by rw [show n / 100 % 10 = m / 100 % 10 by omega], ?_⟩
      by_cases h3 : n / 10 % 10 < m / 10 % 10
      · exact .inl (digit_lt h3 (by omega))
      · refine .inr ⟨by rw [show n / 10 % 10 = m / 10 % 10 by omega], ?_⟩
        exact .inl (digit_lt (by omega) (by omega))

theorem append_lt {a b c : Text} (h : b < c) : a ++ b < a ++ c := by
  induction a with
  | nil => exact h
  | cons x a ih =>
    rw [List.cons_append, List.cons_append, List.cons_lt_cons_iff]
    exact .inr ⟨rfl, ih⟩

theorem fileName_lt {k : Kind} {n m : Nat} {d : Text} (h : n < m) (hm : m < 10000) : fileName k n d < fileName k m d := by
  unfold fileName
  exact append_lt (append_lt (pad_lt h hm _))

end Slsm.IO
