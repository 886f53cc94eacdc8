import Verif.Model.Area
import Verif.Lib.Real
import Verif.Spec.Area
import Verif.Proof.BndCell
import Mathlib.Data.List.Rotate
import Mathlib.Data.List.Sort
import Mathlib.Tactic.Linarith
import Mathlib.Tactic.Ring

/-! Area fractions: sorting the vertices around the centre, and the sum over the sides. -/

namespace Slsm

namespace Area

section sorting
variable {α β : Type}

theorem insertAt_map (g : α → β) {less : β → β → Bool} {le : α → α → Bool} {a : α} {l : List α}
    (H : ∀ b ∈ l, less (g a) (g b) = le a b) : insertAt less (g a) (l.map g) = (insertAt le a l).map g := by
  cases l with
  | nil => rfl
  | cons b l =>
    have e1 : ∀ l' : List α, (∀ b ∈ l', less (g a) (g b) = le a b) →
        (l'.map g).dropWhile (less (g a)) = (l'.dropWhile (le a)).map g ∧ (l'.map g).takeWhile (less (g a)) = (l'.takeWhile (le a)).map g := by
      intro l' h'
      induction l' with
      | nil => exact ⟨rfl, rfl⟩
      | cons c l' ih =>
        have hc := h' c List.mem_cons_self
        obtain ⟨i1, i2⟩ := ih fun b hb => h' b (List.mem_cons_of_mem _ hb)
        simp only [List.map_cons, List.dropWhile_cons, List.takeWhile_cons, hc]
        by_cases h : le a c = true <;> simp [h, i1, i2]
    obtain ⟨i1, i2⟩ := e1 (b :: l).reverse fun c hc => H c (List.mem_reverse.1 hc)
    show (if less (g a) (g b) = true then g a :: (b :: l).map g else _) = List.map g (if le a b = true then a :: b :: l else _)
    rw [H b List.mem_cons_self]
    by_cases h : le a b = true
    · rw [if_pos h, if_pos h]; rfl
    · rw [if_neg h, if_neg h]
      change ((((g b :: l.map g).reverse).dropWhile _).reverse ++ _) = _
      rw [← List.map_cons, ← List.map_reverse, i1, i2]
      simp

theorem insertAt_perm (le : α → α → Bool) (a : α) (l : List α) : (insertAt le a l).Perm (a :: l) := by
  cases l with
  | nil => exact .refl _
  | cons b l =>
    unfold insertAt
    dsimp only
    split
    · exact .refl _
    · refine List.perm_middle.trans (.cons _ ?_)
      rw [← List.reverse_append, List.takeWhile_append_dropWhile, List.reverse_reverse]

theorem insertAt_sorted {le : α → α → Bool} {key : α → ℝ} (H : ∀ a b, le a b = true ↔ key a ≤ key b) {a : α} {l : List α}
    (hl : l.Pairwise fun p q => key p ≤ key q) : (insertAt le a l).Pairwise fun p q => key p ≤ key q := by
  cases l with
  | nil => exact List.pairwise_singleton _ _
  | cons b l =>
    unfold insertAt
    dsimp only
    split
    · rename_i h
      refine List.pairwise_cons.2 ⟨fun c hc => ?_, hl⟩
      rw [H] at h
      rcases List.mem_cons.1 hc with rfl | hc
      · exact h
      · exact h.trans ((List.pairwise_cons.1 hl).1 c hc)
    · have hr : ((b :: l).reverse).Pairwise fun p q => key q ≤ key p := List.pairwise_reverse.2 hl
      generalize (b :: l).reverse = r at hr
      rw [← List.pairwise_reverse]
      simp only [List.reverse_append, List.reverse_cons, List.reverse_reverse, List.append_assoc, List.singleton_append]
      induction r with
      | nil => simp
      | cons c r ih =>
        obtain ⟨h1, h2⟩ := List.pairwise_cons.1 hr
        have ih := ih h2
        by_cases hc : le a c = true
        · rw [List.takeWhile_cons_of_pos hc, List.dropWhile_cons_of_pos hc, List.cons_append]
          refine List.pairwise_cons.2 ⟨fun d hd => ?_, ih⟩
          have : d = a ∨ d ∈ r := by
            rcases List.mem_append.1 hd with hd | hd
            · exact .inr ((List.takeWhile_prefix _).subset hd)
            · rcases List.mem_cons.1 hd with hd | hd
              · exact .inl hd
              · exact .inr ((List.dropWhile_suffix _).subset hd)
          rcases this with rfl | hd
          · exact (H _ _).1 hc
          · exact h1 d hd
        · rw [List.takeWhile_cons_of_neg hc, List.dropWhile_cons_of_neg hc, List.nil_append]
          refine List.pairwise_cons.2 ⟨fun d hd => ?_, hr⟩
          rw [H, not_le] at hc
          rcases List.mem_cons.1 hd with rfl | hd
          · exact hc.le
          · exact (h1 d hd).trans hc.le

theorem sort_map (g : α → β) {less : β → β → Bool} {le : α → α → Bool} {l : List α}
    (H : ∀ a ∈ l, ∀ b ∈ l, less (g a) (g b) = le a b) : sort less (l.map g) = (sort le l).map g := by
  unfold sort
  have : ∀ (m s : List α), (∀ a ∈ m, a ∈ l) → (∀ a ∈ s, a ∈ l) →
      (m.map g).foldl (fun s a => insertAt less a s) (s.map g) = (m.foldl (fun s a => insertAt le a s) s).map g := by
    intro m
    induction m with
    | nil => intro s _ _; rfl
    | cons a m ih =>
      intro s hm hs
      rw [List.map_cons, List.foldl_cons, List.foldl_cons, insertAt_map g fun b hb => H a (hm a List.mem_cons_self) b (hs b hb)]
      refine ih _ (fun b hb => hm b (List.mem_cons_of_mem _ hb)) fun b hb => ?_
      rcases List.mem_cons.1 ((insertAt_perm le a s).mem_iff.1 hb) with rfl | hb
      · exact hm _ List.mem_cons_self
      · exact hs b hb
  exact this l [] (fun a h => h) (fun a h => by cases h)

theorem sort_perm (le : α → α → Bool) (l : List α) : (sort le l).Perm l := by
  unfold sort
  have : ∀ (m s : List α), (m.foldl (fun s a => insertAt le a s) s).Perm (s ++ m) := by
    intro m
    induction m with
    | nil => intro s; simp
    | cons a m ih =>
      intro s
      rw [List.foldl_cons]
      refine (ih _).trans ?_
      refine ((insertAt_perm le a s).append_right m).trans ?_
      exact (List.perm_middle (l₁ := s)).symm
  exact this l []

theorem sort_sorted {le : α → α → Bool} {key : α → ℝ} (H : ∀ a b, le a b = true ↔ key a ≤ key b) (l : List α) :
    (sort le l).Pairwise fun p q => key p ≤ key q := by
  unfold sort
  have : ∀ (m s : List α), (s.Pairwise fun p q => key p ≤ key q) → (m.foldl (fun s a => insertAt le a s) s).Pairwise fun p q => key p ≤ key q := by
    intro m
    induction m with
    | nil => intro s h; exact h
    | cons a m ih => intro s h; exact ih _ (insertAt_sorted H h)
  exact this l [] .nil

/-- A list sorted by `key` is a sublist pattern of any enumeration in increasing order. -/
theorem sorted_unique {key : α → ℝ} [DecidableEq α] {o l s : List α} (ho : o.Pairwise fun p q => key p < key q) (hl : ∀ a ∈ l, a ∈ o)
    (hp : s.Perm l) (hs : s.Pairwise fun p q => key p ≤ key q) : s = o.flatMap fun a => List.replicate (l.count a) a := by
  have hn : o.Nodup := ho.imp fun h e => by rw [e] at h; exact lt_irrefl _ h
  have hinj : ∀ a ∈ o, ∀ b ∈ o, key a ≤ key b → key b ≤ key a → a = b := by
    have : o.Pairwise fun p q => key p ≠ key q := ho.imp fun h => ne_of_lt h
    intro a ha b hb h1 h2
    by_contra hne
    obtain ⟨i, hi, rfl⟩ := List.mem_iff_getElem.1 ha
    obtain ⟨j, hj, rfl⟩ := List.mem_iff_getElem.1 hb
    rcases lt_trichotomy i j with h | h | h
    · exact absurd (List.pairwise_iff_getElem.1 ho i j hi hj h) (not_lt.2 h2)
    · subst h; exact hne rfl
    · exact absurd (List.pairwise_iff_getElem.1 ho j i hj hi h) (not_lt.2 h1)
  have hc : ∀ (o : List α) (a : α), o.Nodup → (o.flatMap fun b => List.replicate (l.count b) b).count a = if a ∈ o then l.count a else 0 := by
    intro o a hn
    induction o with
    | nil => simp
    | cons b o ih =>
      obtain ⟨hb, hn⟩ := List.nodup_cons.1 hn
      rw [List.flatMap_cons, List.count_append, ih hn, List.count_replicate]
      by_cases hab : b = a
      · subst hab; simp [hb]
      · have hab' : a ≠ b := fun e => hab e.symm
        simp [hab, hab']
  have hperm : s.Perm (o.flatMap fun a => List.replicate (l.count a) a) := by
    refine hp.trans (List.perm_iff_count.2 fun a => ?_)
    rw [hc o a hn]
    by_cases ha : a ∈ o
    · rw [if_pos ha]
    · rw [if_neg ha, List.count_eq_zero]
      exact fun h => ha (hl a h)
  have hmem : ∀ a ∈ s, a ∈ o := fun a ha => hl a (hp.mem_iff.1 ha)
  refine List.Perm.eq_of_pairwise (le := fun p q => key p ≤ key q) (fun a b ha hb h1 h2 => ?_) hs ?_ hperm
  · exact hinj a (hmem a ha) b (hmem b (hperm.mem_iff.2 hb)) h1 h2
  · rw [List.pairwise_flatMap]
    refine ⟨fun a _ => List.pairwise_replicate.2 (.inr (le_refl _)), ho.imp fun h x hx y hy => ?_⟩
    rw [List.eq_of_mem_replicate hx, List.eq_of_mem_replicate hy]
    exact h.le

end sorting

/-! ### the sum over the sides -/

def cross (p q : Coord ℝ) : ℝ := p.x * q.y - q.x * p.y

theorem cross_self (p : Coord ℝ) : cross p p = 0 := by unfold cross; ring

/-- Twice the area. -/
def ringSum (l : List (Coord ℝ)) : ℝ := (List.zipWith cross l (l.rotate 1)).sum

theorem polyArea_eq (l : List (Coord ℝ)) : polyArea l = ringSum l / 2 := rfl

/-- The sum along a path from `a` through `l`. -/
def pathSum : Coord ℝ → List (Coord ℝ) → ℝ
  | _, [] => 0
  | a, b :: l => cross a b + pathSum b l

theorem ringSum_cons (a : Coord ℝ) (l : List (Coord ℝ)) : ringSum (a :: l) = pathSum a (l ++ [a]) := by
  unfold ringSum
  rw [List.rotate_cons_succ, List.rotate_zero]
  have : ∀ (l : List (Coord ℝ)) (b c : Coord ℝ), (List.zipWith cross (b :: l) (l ++ [c])).sum = pathSum b (l ++ [c]) := by
    intro l
    induction l with
    | nil => intro b c; simp [pathSum]
    | cons d l ih => intro b c; simp only [List.cons_append, List.zipWith_cons_cons, List.sum_cons, pathSum, ih]
  exact this l a a

theorem pathSum_append (a : Coord ℝ) (l l' : List (Coord ℝ)) : pathSum a (l ++ l') = pathSum a l + pathSum (l.getLastD a) l' := by
  induction l generalizing a with
  | nil => simp [pathSum]
  | cons b l ih =>
    simp only [List.cons_append, pathSum, ih, List.getLastD_cons]
    ring

theorem ringSum_rotate (l l' : List (Coord ℝ)) : ringSum (l ++ l') = ringSum (l' ++ l) := by
  have h := List.rotate_append_length_eq l l'
  rw [← h]
  unfold ringSum
  generalize l ++ l' = m
  rw [List.rotate_rotate, Nat.add_comm, ← List.rotate_rotate, ← List.zipWith_rotate_distrib]
  · exact (((List.zipWith cross m (m.rotate 1)).rotate_perm l.length).sum_eq).symm
  · simp

theorem pathSum_rep (a : Coord ℝ) (n : Nat) (l : List (Coord ℝ)) : pathSum a (List.replicate n a ++ l) = pathSum a l := by
  induction n with
  | zero => rfl
  | succ n ih => rw [List.replicate_succ, List.cons_append, pathSum, cross_self, ih, zero_add]

theorem pathSum_flat {α : Type} (g : α → Coord ℝ) (c : α → Nat) (o : List α) (a : Coord ℝ) (t : List (Coord ℝ)) :
    pathSum a ((o.flatMap fun p => List.replicate (c p) (g p)) ++ t) = pathSum a (((o.filter fun p => decide (0 < c p)).map g) ++ t) := by
  induction o generalizing a with
  | nil => rfl
  | cons p o ih =>
    rw [List.flatMap_cons, List.filter_cons]
    rcases hc : c p with _ | n
    · simpa using ih a
    · rw [if_pos (by simp), List.map_cons, List.append_assoc, List.replicate_succ, List.cons_append, List.cons_append, pathSum, pathSum,
        pathSum_rep, ih]

/-- Repeated vertices do not count. -/
theorem ringSum_flat {α : Type} (g : α → Coord ℝ) (c : α → Nat) (o : List α) :
    ringSum (o.flatMap fun p => List.replicate (c p) (g p)) = ringSum ((o.filter fun p => decide (0 < c p)).map g) := by
  induction o with
  | nil => rfl
  | cons p o ih =>
    rw [List.flatMap_cons, List.filter_cons]
    rcases hc : c p with _ | n
    · simpa using ih
    · rw [if_pos (by simp), List.map_cons, List.replicate_succ, List.cons_append, ringSum_cons, ringSum_cons, List.append_assoc, pathSum_rep,
        pathSum_flat]

theorem ringSum_shift (a b : ℝ) (l : List (Coord ℝ)) : ringSum (l.map fun p => ⟨p.x + a, p.y + b⟩) = ringSum l := by
  cases l with
  | nil => rfl
  | cons p l =>
    rw [List.map_cons, ringSum_cons, ringSum_cons]
    have : ∀ (l : List (Coord ℝ)) (q : Coord ℝ), pathSum ⟨q.x + a, q.y + b⟩ (l.map fun p => ⟨p.x + a, p.y + b⟩) =
        pathSum q l + a * ((l.getLastD q).y - q.y) - b * ((l.getLastD q).x - q.x) := by
      intro l
      induction l with
      | nil => intro q; simp [pathSum]
      | cons r l ih =>
        intro q
        rw [List.map_cons, pathSum, pathSum, ih, List.getLastD_cons]
        unfold cross
        dsimp only
        ring
    have h2 := this (l ++ [p]) p
    rw [List.map_append] at h2
    rw [← List.map_singleton (f := fun p : Coord ℝ => (⟨p.x + a, p.y + b⟩ : Coord ℝ)), h2]
    simp

end Area

end Slsm
