import Verif.Proof.AreaSort

/-! Area fractions: the comparison of `polygonArea` orders points on the rim of the cell anticlockwise, starting after the middle of the
upper edge. -/

namespace Slsm

namespace Area

/-- `p` is the point of the rim of the unit cell with centre `c` at distance `k` along the rim from the lower left corner, with `k` between
`-3/2` (middle of the upper edge) and `5/2`. -/
def Rim (c p : Coord ℝ) (k : ℝ) : Prop :=
  (-3/2 < k ∧ k ≤ -1 ∧ p.x - c.x = -k - 3/2 ∧ p.y - c.y = 1/2) ∨
  (-1 ≤ k ∧ k ≤ 0 ∧ p.x - c.x = -1/2 ∧ p.y - c.y = -k - 1/2) ∨
  (0 ≤ k ∧ k ≤ 1 ∧ p.x - c.x = k - 1/2 ∧ p.y - c.y = -1/2) ∨
  (1 ≤ k ∧ k ≤ 2 ∧ p.x - c.x = 1/2 ∧ p.y - c.y = k - 3/2) ∨
  (2 ≤ k ∧ k ≤ 5/2 ∧ p.x - c.x = 5/2 - k ∧ p.y - c.y = 1/2)

variable {c p q : Coord ℝ} {k k' : ℝ}

theorem Rim.left (h : Rim c p k) : p.x - c.x < 0 ↔ k < 1/2 := by
  rcases h with ⟨h1, h2, e, _⟩ | ⟨h1, h2, e, _⟩ | ⟨h1, h2, e, _⟩ | ⟨h1, h2, e, _⟩ | ⟨h1, h2, e, _⟩ <;> rw [e] <;> constructor <;> intro <;> linarith

theorem Rim.middle (h : Rim c p k) : p.x - c.x = 0 ↔ k = 1/2 ∨ k = 5/2 := by
  rcases h with ⟨h1, h2, e, _⟩ | ⟨h1, h2, e, _⟩ | ⟨h1, h2, e, _⟩ | ⟨h1, h2, e, _⟩ | ⟨h1, h2, e, _⟩ <;> rw [e] <;> constructor
  all_goals first
    | (rintro (h | h) <;> linarith)
    | (intro h; first | (exfalso; linarith) | (left; linarith) | (right; linarith))

theorem Rim.height (h : Rim c p k) : (k = 1/2 → p.y - c.y = -1/2) ∧ (k = 5/2 → p.y - c.y = 1/2) := by
  rcases h with ⟨h1, h2, _, e⟩ | ⟨h1, h2, _, e⟩ | ⟨h1, h2, _, e⟩ | ⟨h1, h2, _, e⟩ | ⟨h1, h2, _, e⟩ <;> rw [e] <;> constructor <;> intro <;> linarith

theorem Rim.unique (h : Rim c p k) (h' : Rim c q k) : p.x - c.x = q.x - c.x ∧ p.y - c.y = q.y - c.y := by
  rcases h with ⟨h1, h2, e, e'⟩ | ⟨h1, h2, e, e'⟩ | ⟨h1, h2, e, e'⟩ | ⟨h1, h2, e, e'⟩ | ⟨h1, h2, e, e'⟩ <;>
  rcases h' with ⟨g1, g2, f, f'⟩ | ⟨g1, g2, f, f'⟩ | ⟨g1, g2, f, f'⟩ | ⟨g1, g2, f, f'⟩ | ⟨g1, g2, f, f'⟩ <;>
  rw [e, e', f, f'] <;> constructor <;> linarith

theorem Rim.det (h : Rim c p k) (h' : Rim c q k') (hk : k < k') (hh : k < 1/2 ↔ k' < 1/2) (hm : ¬ (k = 1/2 ∧ k' = 5/2)) :
    0 < (p.x - c.x) * (q.y - c.y) - (q.x - c.x) * (p.y - c.y) := by
  rcases lt_or_ge k (1/2) with hl | hl
  · have hl' := hh.1 hl
    rcases h with ⟨h1, h2, e, e'⟩ | ⟨h1, h2, e, e'⟩ | ⟨h1, h2, e, e'⟩ | ⟨h1, h2, e, e'⟩ | ⟨h1, h2, e, e'⟩ <;>
    rcases h' with ⟨g1, g2, f, f'⟩ | ⟨g1, g2, f, f'⟩ | ⟨g1, g2, f, f'⟩ | ⟨g1, g2, f, f'⟩ | ⟨g1, g2, f, f'⟩ <;>
    rw [e, e', f, f'] <;> first | linarith | nlinarith
  · have hl' : 1/2 ≤ k' := by linarith
    have hm' : k ≠ 1/2 ∨ k' ≠ 5/2 := by tauto
    have h3 : 1/2 < k ∨ k' < 5/2 := by
      rcases hm' with h3 | h3
      · exact .inl (lt_of_le_of_ne hl (Ne.symm h3))
      · right
        rcases h' with ⟨g1, g2, f, f'⟩ | ⟨g1, g2, f, f'⟩ | ⟨g1, g2, f, f'⟩ | ⟨g1, g2, f, f'⟩ | ⟨g1, g2, f, f'⟩ <;>
          first | linarith | exact lt_of_le_of_ne g2 h3
    rcases h with ⟨h1, h2, e, e'⟩ | ⟨h1, h2, e, e'⟩ | ⟨h1, h2, e, e'⟩ | ⟨h1, h2, e, e'⟩ | ⟨h1, h2, e, e'⟩ <;>
    rcases h' with ⟨g1, g2, f, f'⟩ | ⟨g1, g2, f, f'⟩ | ⟨g1, g2, f, f'⟩ | ⟨g1, g2, f, f'⟩ | ⟨g1, g2, f, f'⟩ <;>
    rw [e, e', f, f'] <;> first | linarith | nlinarith | (rcases h3 with h3 | h3 <;> first | linarith | nlinarith)

theorem isClockwise_iff : isClockwise c p q = true ↔ ¬ (0 ≤ p.x - c.x ∧ q.x - c.x < 0) ∧ ((p.x - c.x < 0 ∧ 0 ≤ q.x - c.x) ∨
    (p.x - c.x = 0 ∧ q.x - c.x = 0 ∧ (((0 ≤ p.y - c.y ∨ 0 ≤ q.y - c.y) ∧ p.y ≤ q.y) ∨ (¬ (0 ≤ p.y - c.y ∨ 0 ≤ q.y - c.y) ∧ q.y ≤ p.y))) ∨
    (¬ (p.x - c.x = 0 ∧ q.x - c.x = 0) ∧ 0 ≤ (p.x - c.x) * (q.y - c.y) - (q.x - c.x) * (p.y - c.y))) := by
  unfold isClockwise
  simp only [FP.nat_real, Nat.cast_zero, FP.sub_real, FP.mul_real]
  by_cases h1 : 0 ≤ p.x - c.x ∧ q.x - c.x < 0
  · rw [if_pos (by simpa using h1)]; simp [h1]
  rw [if_neg (by simpa using h1)]
  by_cases h2 : p.x - c.x < 0 ∧ 0 ≤ q.x - c.x
  · rw [if_pos (by simpa using h2)]; exact ⟨fun _ => ⟨h1, .inl h2⟩, fun _ => rfl⟩
  rw [if_neg (by simpa using h2)]
  by_cases h3 : p.x - c.x = 0 ∧ q.x - c.x = 0
  · rw [if_pos (by simpa using h3)]
    by_cases h4 : 0 ≤ p.y - c.y ∨ 0 ≤ q.y - c.y
    · rw [if_pos (by simpa using h4)]
      simp only [Bool.not_eq_true', FP.lt_real_false]
      tauto
    · rw [if_neg (by simpa using h4)]
      simp only [Bool.not_eq_true', FP.lt_real_false]
      tauto
  · rw [if_neg (by simpa using h3)]
    simp only [Bool.not_eq_true', FP.lt_real_false]
    tauto

theorem Rim.order (h : Rim c p k) (h' : Rim c q k') : isClockwise c p q = true ↔ k ≤ k' := by
  rw [isClockwise_iff, h.middle, h'.middle, h.left, h'.left, ← not_lt, ← not_lt, h.left, h'.left]
  have hp := h.height
  have hq := h'.height
  by_cases hl : k < 1/2 <;> by_cases hl' : k' < 1/2
  · have hm : ¬ ((k = 1/2 ∨ k = 5/2) ∧ (k' = 1/2 ∨ k' = 5/2)) := by rintro ⟨h | h, _⟩ <;> linarith
    simp only [hl, hl', hm, not_true, and_true, and_false, false_and, false_or, not_false_eq_true, true_and]
    have hm' : ¬ ((k = 1/2 ∨ k = 5/2) ∧ (k' = 1/2 ∨ k' = 5/2) ∧ ((0 ≤ p.y - c.y ∨ 0 ≤ q.y - c.y) ∧ p.y ≤ q.y ∨
        ¬ (0 ≤ p.y - c.y ∨ 0 ≤ q.y - c.y) ∧ q.y ≤ p.y)) := fun h => hm ⟨h.1, h.2.1⟩
    rcases lt_trichotomy k k' with hk | hk | hk
    · have := h.det h' hk (iff_of_true hl hl') (by rintro ⟨e, _⟩; linarith)
      exact ⟨fun _ => hk.le, fun _ => .inr this.le⟩
    · subst hk
      obtain ⟨e1, e2⟩ := h.unique h'
      refine ⟨fun _ => le_refl _, fun _ => .inr ?_⟩
      rw [e1, e2]; linarith
    · have := h'.det h hk (iff_of_true hl' hl) (by rintro ⟨e, _⟩; linarith)
      refine ⟨?_, fun h => absurd h (not_le.2 hk)⟩
      rintro (h | h)
      · exact absurd h hm'
      · linarith
  · simp only [hl, hl', not_true, not_false_eq_true, and_true, true_and, true_or, false_and]
    exact ⟨fun _ => by linarith, fun _ => trivial⟩
  · simp only [hl, hl', not_true, not_false_eq_true, and_true, true_and, false_and]
    exact ⟨fun h => h.elim, fun h => by linarith⟩
  · simp only [hl, hl', not_true, and_true, and_false, false_and, false_or, not_false_eq_true, true_and]
    rw [not_lt] at hl hl'
    by_cases hm : (k = 1/2 ∨ k = 5/2) ∧ (k' = 1/2 ∨ k' = 5/2)
    · obtain ⟨m1, m2⟩ := hm
      rcases m1 with m1 | m1 <;> rcases m2 with m2 | m2
      · have := hp.1 m1; have := hq.1 m2
        subst m1; simp only [m2, true_or, not_true, and_self, false_and, or_false, true_and, le_refl, iff_true]
        right; constructor
        · rintro (h | h) <;> linarith
        · linarith
      · have := hp.1 m1; have := hq.2 m2
        subst m1; subst m2
        constructor
        · intro _; norm_num
        · intro _; left
          refine ⟨.inl rfl, .inr rfl, .inl ⟨.inr (by linarith), by linarith⟩⟩
      · have := hp.2 m1; have := hq.1 m2
        subst m1; subst m2
        constructor
        · rintro (⟨_, _, ⟨_, h⟩ | ⟨h, _⟩⟩ | ⟨h, _⟩)
          · linarith
          · exact absurd (.inl (by linarith)) h
          · exact absurd ⟨.inr rfl, .inl rfl⟩ h
        · intro h; norm_num at h
      · have := hp.2 m1; have := hq.2 m2
        subst m1; subst m2
        refine ⟨fun _ => le_refl _, fun _ => .inl ⟨.inr rfl, .inr rfl, .inl ⟨.inl (by linarith), by linarith⟩⟩⟩
    · have : ¬ ((k = 1/2 ∨ k = 5/2) ∧ (k' = 1/2 ∨ k' = 5/2) ∧ ((0 ≤ p.y - c.y ∨ 0 ≤ q.y - c.y) ∧ p.y ≤ q.y ∨
          ¬ (0 ≤ p.y - c.y ∨ 0 ≤ q.y - c.y) ∧ q.y ≤ p.y)) := fun h => hm ⟨h.1, h.2.1⟩
      simp only [hm, this, not_false_eq_true, true_and, false_or]
      rcases lt_trichotomy k k' with hk | hk | hk
      · have := h.det h' hk (by constructor <;> intro <;> linarith) (fun e => hm ⟨.inl e.1, .inr e.2⟩)
        exact ⟨fun _ => hk.le, fun _ => this.le⟩
      · subst hk
        obtain ⟨e1, e2⟩ := h.unique h'
        refine ⟨fun _ => le_refl _, fun _ => ?_⟩
        rw [e1, e2]; linarith
      · have := h'.det h hk (by constructor <;> intro <;> linarith) (fun e => hm ⟨.inr e.2, .inl e.1⟩)
        refine ⟨fun h => ?_, fun h => absurd h (not_le.2 hk)⟩
        linarith

end Area

end Slsm
