import Verif.Proof.FMMInit
import Verif.Spec.Interface

/-! Consequences for runs of the abstract machine. -/

namespace Slsm

set_option linter.unusedSectionVars false

variable {D : Type} [FP D]

namespace FMM

section
variable {w h : Nat} {m : Mesh D}

theorem hadj_iff (G : IsGrid w h m) {i n : Nat} (hi : i < m.nNodes) :
    HAdj w h i n ↔ n ≠ m.nNodes ∧ ∃ j, j < 2 ∧ nb m i j = n := by
  obtain ⟨x, y, hx, hy, rfl⟩ := G.node_index hi
  constructor
  · rintro ⟨x1, x2, y1, h1, h2, h3, e1, rfl, h5⟩
    obtain ⟨rfl, rfl⟩ := (nodeNo_inj hx h1).1 e1
    refine ⟨by rw [G.nNodes]; exact (nodeNo_lt h2 h3).ne, ?_⟩
    rcases h5 with rfl | rfl
    · refine ⟨1, by omega, ?_⟩
      rw [nb_value G hx hy]
      simp only [neighbourhood, List.getD_cons_zero, List.getD_cons_succ]
      rw [← nodeNoOr_nat h2 h3]; congr 1 <;> push_cast <;> ring
    · refine ⟨0, by omega, ?_⟩
      rw [nb_value G hx hy]
      simp only [neighbourhood, List.getD_cons_zero, List.getD_cons_succ]
      rw [← nodeNoOr_nat h2 h3]; congr 1; push_cast; ring
  · rintro ⟨hne, j, hj, rfl⟩
    rw [nb_value G hx hy, G.nNodes] at hne
    rw [nb_value G hx hy]
    have : j = 0 ∨ j = 1 := by omega
    obtain rfl | rfl := this <;>
    · simp only [neighbourhood, List.getD_cons_zero, List.getD_cons_succ] at hne ⊢
      obtain ⟨a, b, ea, eb, ha, hb, e⟩ := nodeNoOr_ne hne
      refine ⟨x, a, y, hx, ha, hy, rfl, ?_, by omega⟩
      rw [e]; congr 1; omega

theorem vadj_iff (G : IsGrid w h m) {i n : Nat} (hi : i < m.nNodes) :
    VAdj w h i n ↔ n ≠ m.nNodes ∧ ∃ j, 2 ≤ j ∧ j < 4 ∧ nb m i j = n := by
  obtain ⟨x, y, hx, hy, rfl⟩ := G.node_index hi
  constructor
  · rintro ⟨x1, y1, y2, h1, h2, h3, e1, rfl, h5⟩
    obtain ⟨rfl, rfl⟩ := (nodeNo_inj hx h1).1 e1
    refine ⟨by rw [G.nNodes]; exact (nodeNo_lt h1 h3).ne, ?_⟩
    rcases h5 with rfl | rfl
    · refine ⟨3, by omega, by omega, ?_⟩
      rw [nb_value G hx hy]
      simp only [neighbourhood, List.getD_cons_zero, List.getD_cons_succ]
      rw [← nodeNoOr_nat h1 h3]; congr 1 <;> push_cast <;> ring
    · refine ⟨2, by omega, by omega, ?_⟩
      rw [nb_value G hx hy]
      simp only [neighbourhood, List.getD_cons_zero, List.getD_cons_succ]
      rw [← nodeNoOr_nat h1 h3]; congr 1; push_cast; ring
  · rintro ⟨hne, j, hj2, hj, rfl⟩
    rw [nb_value G hx hy, G.nNodes] at hne
    rw [nb_value G hx hy]
    have : j = 2 ∨ j = 3 := by omega
    obtain rfl | rfl := this <;>
    · simp only [neighbourhood, List.getD_cons_zero, List.getD_cons_succ] at hne ⊢
      obtain ⟨a, b, ea, eb, ha, hb, e⟩ := nodeNoOr_ne hne
      refine ⟨x, y, b, hx, hy, hb, rfl, ?_, by omega⟩
      rw [e]; congr 1; omega

theorem adj_iff (G : IsGrid w h m) {i n : Nat} (hi : i < m.nNodes) :
    Adj w h i n ↔ n ≠ m.nNodes ∧ ∃ j, j < 4 ∧ nb m i j = n := by
  unfold Adj
  rw [hadj_iff G hi, vadj_iff G hi]
  constructor
  · rintro (⟨h1, j, h2, h3⟩ | ⟨h1, j, h2, h3, h4⟩)
    · exact ⟨h1, j, by omega, h3⟩
    · exact ⟨h1, j, by omega, h4⟩
  · rintro ⟨h1, j, h2, h3⟩
    by_cases hj : j < 2
    · exact .inl ⟨h1, j, hj, h3⟩
    · exact .inr ⟨h1, j, by omega, by omega, h3⟩

theorem crossV_fst (f : Nat → D) (i j : Nat) (s : Bool × D × D) :
    (crossV m f i j s).1 = true ↔ s.1 = true ∨ (nb m i j ≠ m.nNodes ∧ Opposite f i (nb m i j)) := by
  unfold crossV Opposite
  split_ifs <;> simp_all

theorem borderV_fst (G : IsGrid w h m) (f : Nat → D) {i : Nat} (hi : i < m.nNodes) :
    (borderV m f i).1 = true ↔ ∃ n, Adj w h i n ∧ Opposite f i n := by
  unfold borderV
  simp only [crossV_fst, adj_iff G hi]
  constructor
  · rintro ((((h | h) | h) | h) | h)
    · cases h
    · exact ⟨_, ⟨h.1, 0, by omega, rfl⟩, h.2⟩
    · exact ⟨_, ⟨h.1, 1, by omega, rfl⟩, h.2⟩
    · exact ⟨_, ⟨h.1, 2, by omega, rfl⟩, h.2⟩
    · exact ⟨_, ⟨h.1, 3, by omega, rfl⟩, h.2⟩
  · rintro ⟨n, ⟨h1, j, hj, rfl⟩, h3⟩
    have : j = 0 ∨ j = 1 ∨ j = 2 ∨ j = 3 := by omega
    obtain rfl | rfl | rfl | rfl := this <;> tauto

theorem initSt_iff (G : IsGrid w h m) (f : Nat → D) {i : Nat} (hi : i < m.nNodes) :
    initSt m f i = .frozen ↔ OnInterface w h f i := by
  unfold initSt OnInterface
  rw [← borderV_fst G f hi]
  split_ifs with hc <;> simp [hc]

theorem hasInterface_iff (G : IsGrid w h m) (f : Nat → D) :
    (∃ i, i < m.nNodes ∧ initSt m f i = .frozen) ↔ HasInterface w h f := by
  unfold HasInterface
  constructor
  · rintro ⟨i, hi, hs⟩
    exact ⟨i, by rw [← G.nNodes]; exact hi, (initSt_iff G f hi).1 hs⟩
  · rintro ⟨i, hi, hs⟩
    have hi : i < m.nNodes := by rw [G.nNodes]; exact hi
    exact ⟨i, hi, (initSt_iff G f hi).2 hs⟩

/-- the grid is connected -/
theorem grid_connected (G : IsGrid w h m) (P : Nat → Prop)
    (hP : ∀ i, i < m.nNodes → P i → ∀ j, j < 4 → nb m i j ≠ m.nNodes → P (nb m i j)) {i0 : Nat} (h0 : i0 < m.nNodes)
    (hi0 : P i0) : ∀ i, i < m.nNodes → P i := by
  have stepAdj : ∀ i n, i < m.nNodes → Adj w h i n → P i → P n := by
    intro i n hi ha hp
    obtain ⟨h1, j, hj, rfl⟩ := (adj_iff G hi).1 ha
    exact hP i hi hp j hj h1
  have lt : ∀ x y, x ≤ w → y ≤ h → nodeNo w x y < m.nNodes := fun x y hx hy => by
    rw [G.nNodes]; exact nodeNo_lt hx hy
  obtain ⟨x0, y0, hx0, hy0, rfl⟩ := G.node_index h0
  -- to the left edge
  have left : ∀ x, ∀ y, x ≤ w → y ≤ h → P (nodeNo w x y) → P (nodeNo w 0 y) := by
    intro x
    induction x with
    | zero => intro y _ _ h; exact h
    | succ x ih =>
      intro y hx hy hp
      exact ih y (by omega) hy (stepAdj _ _ (lt _ _ hx hy)
        (.inl ⟨x + 1, x, y, hx, by omega, hy, rfl, rfl, .inr rfl⟩) hp)
  have right : ∀ x, ∀ y, x ≤ w → y ≤ h → P (nodeNo w 0 y) → P (nodeNo w x y) := by
    intro x
    induction x with
    | zero => intro y _ _ h; exact h
    | succ x ih =>
      intro y hx hy hp
      exact stepAdj _ _ (lt x y (by omega) hy) (.inl ⟨x, x + 1, y, by omega, hx, hy, rfl, rfl, .inl rfl⟩)
        (ih y (by omega) hy hp)
  have down : ∀ y, y ≤ h → P (nodeNo w 0 y) → P (nodeNo w 0 0) := by
    intro y
    induction y with
    | zero => intro _ h; exact h
    | succ y ih =>
      intro hy hp
      exact ih (by omega) (stepAdj _ _ (lt 0 _ (by omega) hy)
        (.inr ⟨0, y + 1, y, by omega, hy, by omega, rfl, rfl, .inr rfl⟩) hp)
  have up : ∀ y, y ≤ h → P (nodeNo w 0 0) → P (nodeNo w 0 y) := by
    intro y
    induction y with
    | zero => intro _ h; exact h
    | succ y ih =>
      intro hy hp
      exact stepAdj _ _ (lt 0 y (by omega) (by omega)) (.inr ⟨0, y, y + 1, by omega, by omega, hy, rfl, rfl, .inl rfl⟩)
        (ih (by omega) hp)
  intro i hi
  obtain ⟨x, y, hx, hy, rfl⟩ := G.node_index hi
  exact right x y hx hy (up y hy (down y0 hy0 (left x0 y0 hx0 hy0 hi0)))

end

section
variable {m : Mesh D} {C : Nat → D} {iv : Bool} {ad : Nat → Prop} {s s' : AS D} {l : List Event}

theorem Micro.frozen {e : Event} (h : Micro m C iv ad s e s') {i : Nat} (hi : s.st i = .frozen) :
    s'.st i = .frozen ∧ s'.sd i = s.sd i ∧ s'.vel i = s.vel i := by
  cases h with
  | discover n hn hs ha hf =>
    have : i ≠ n := fun h => by rw [h, hs] at hi; cases hi
    simp [Function.update_apply, this, hi]
  | estimate n hn hs =>
    have : i ≠ n := fun h => hs (h ▸ hi)
    simp [Function.update_apply, this, hi]
  | freeze n hn hs hmin hden =>
    have : i ≠ n := fun h => by rw [h, hs] at hi; cases hi
    simp only [Function.update_apply, this, if_false, hi, true_and]
    split_ifs
    · simp [Function.update_apply, this]
    · rfl

theorem Run.frozen (r : Run m C iv ad s l s') {i : Nat} (hi : s.st i = .frozen) :
    s'.st i = .frozen ∧ s'.sd i = s.sd i ∧ s'.vel i = s.vel i := by
  induction r with
  | nil => exact ⟨hi, rfl, rfl⟩
  | snoc r h ih =>
    have := h.frozen ih.1
    exact ⟨this.1, this.2.1.trans ih.2.1, this.2.2.trans ih.2.2⟩

theorem Micro.masked {e : Event} (h : Micro m C iv ad s e s') {i : Nat} (hi : s.st i ≠ .masked) : s'.st i ≠ .masked := by
  cases h with
  | discover n hn hs ha hf => simp only [Function.update_apply]; split_ifs <;> simp [hi]
  | estimate n hn hs => exact hi
  | freeze n hn hs hmin hden => simp only [Function.update_apply]; split_ifs <;> simp [hi]

theorem Run.masked (r : Run m C iv ad s l s') {i : Nat} (hi : s.st i ≠ .masked) : s'.st i ≠ .masked := by
  induction r with
  | nil => exact hi
  | snoc r h ih => exact h.masked ih

theorem Run.count_freeze (r : Run m C iv ad s l s') (i : Nat) :
    l.count (.freeze i) = if s.st i ≠ .frozen ∧ s'.st i = .frozen then 1 else 0 := by
  induction r with
  | nil => simp
  | @snoc s1 s2 l e r h ih =>
    rw [List.count_append, ih]
    by_cases h0 : s.st i = .frozen
    · have f1 := (r.frozen h0).1
      have : e ≠ .freeze i := by
        rintro rfl
        cases h with
        | freeze _ hn hs hmin hden => rw [f1] at hs; cases hs
      simp [h0, List.count_singleton, this]
    · by_cases h1 : s1.st i = .frozen
      · have f2 := (h.frozen h1).1
        have : e ≠ .freeze i := by
          rintro rfl
          cases h with
          | freeze _ hn hs hmin hden => rw [h1] at hs; cases hs
        simp [h0, h1, f2, List.count_singleton, this]
      · cases h with
        | discover n hn hs ha hf =>
          simp only [Function.update_apply]
          split_ifs <;> simp_all
        | estimate n hn hs => simp [h0, h1]
        | freeze n hn hs hmin hden =>
          by_cases hin : i = n
          · subst hin; simp [h0, h1]
          · have : ¬ n = i := fun h => hin h.symm
            simp [h0, h1, Function.update_apply, hin, List.count_singleton, this]

theorem Run.count_discover (r : Run m C iv ad s l s') (i : Nat) :
    l.count (.discover i) = if s.st i = .none ∧ s'.st i ≠ .none then 1 else 0 := by
  have key : ∀ {s s' e}, Micro m C iv ad s e s' → s.st i ≠ .none → s'.st i ≠ .none ∧ e ≠ .discover i := by
    intro s s' e h hne
    cases h with
    | discover n hn hs ha hf =>
      have : n ≠ i := fun h => hne (h ▸ hs)
      refine ⟨?_, by simpa using this⟩
      simp [Function.update_apply, Ne.symm this, hne]
    | estimate n hn hs => exact ⟨hne, by simp⟩
    | freeze n hn hs hmin hden =>
      refine ⟨?_, by simp⟩
      simp only [Function.update_apply]; split_ifs <;> simp [hne]
  have key2 : ∀ {s l s'}, Run m C iv ad s l s' → s.st i ≠ .none → s'.st i ≠ .none := by
    intro s l s' r hne
    induction r with
    | nil => exact hne
    | snoc r h ih => exact (key h ih).1
  induction r with
  | nil => simp
  | @snoc s1 s2 l e r h ih =>
    rw [List.count_append, ih]
    by_cases h0 : s.st i = .none
    · by_cases h1 : s1.st i = .none
      · cases h with
        | discover n hn hs ha hf =>
          by_cases hin : i = n
          · subst hin; simp [h0, h1]
          · have : ¬ n = i := fun h => hin h.symm
            simp [h0, h1, Function.update_apply, hin, List.count_singleton, this]
        | estimate n hn hs => simp [h0, h1]
        | freeze n hn hs hmin hden =>
          have : i ≠ n := fun h => by rw [h, hs] at h1; cases h1
          simp [h0, h1, Function.update_apply, this]
      · have := key h h1
        simp [h0, h1, this.1, List.count_singleton, this.2]
    · have := key2 r h0
      have h2 := key h this
      simp [h0, List.count_singleton, h2.2]

/-- where the value of a node comes from -/
theorem Run.value (r : Run m C iv ad s l s') {i : Nat} (h0 : s.st i = .none) (h1 : s'.st i ≠ .none) :
    ∃ l1 l2 s1, l = l1 ++ l2 ∧ Run m C iv ad s l1 s1 ∧ Run m C iv ad s1 l2 s' ∧ s1.st i ≠ .frozen ∧
      s'.sd i = updateV m C s1 i := by
  induction r with
  | nil => exact absurd h0 h1
  | @snoc s1 s2 l e r h ih =>
    -- the event sets the value of `i`, or the value is the old one
    have hnew : s1.st i ≠ .frozen → s2.sd i = updateV m C s1 i → _ := fun hf hv =>
      (⟨l, [e], s1, rfl, r, (Run.nil s1).snoc h, hf, hv⟩ : ∃ l1 l2 s3, l ++ [e] = l1 ++ l2 ∧ Run m C iv ad s l1 s3 ∧
        Run m C iv ad s3 l2 s2 ∧ s3.st i ≠ .frozen ∧ s2.sd i = updateV m C s3 i)
    have hold : s1.st i ≠ .none → s2.sd i = s1.sd i → ∃ l1 l2 s3, l ++ [e] = l1 ++ l2 ∧ Run m C iv ad s l1 s3 ∧
        Run m C iv ad s3 l2 s2 ∧ s3.st i ≠ .frozen ∧ s2.sd i = updateV m C s3 i := by
      intro hf hv
      obtain ⟨l1, l2, s3, e1, r1, r2, hnf, hval⟩ := ih hf
      exact ⟨l1, l2 ++ [e], s3, by rw [e1, List.append_assoc], r1, r2.snoc h, hnf, hv.trans hval⟩
    cases h with
    | discover n hn hs ha hf =>
      by_cases hin : i = n
      · subst hin
        exact hnew (by rw [hs]; simp) (by simp)
      · simp only [Function.update_apply, hin, if_false] at h1 hold ⊢
        exact hold h1 trivial
    | estimate n hn hs =>
      by_cases hin : i = n
      · subst hin
        exact hnew hs (by simp)
      · exact hold h1 (by simp [Function.update_apply, hin])
    | freeze n hn hs hmin hden =>
      by_cases hin : i = n
      · subst hin
        exact hold (by rw [hs]; simp) rfl
      · simp only [Function.update_apply, hin, if_false] at h1
        exact hold h1 rfl

/-- the velocity of a node that is never visited is unchanged -/
theorem Run.vel_none (r : Run m C iv ad s l s') {i : Nat} (h1 : s'.st i = .none) : s'.vel i = s.vel i := by
  induction r with
  | nil => rfl
  | @snoc s1 s2 l e r h ih =>
    cases h with
    | discover n hn hs had hf =>
      simp only [Function.update_apply] at h1
      split_ifs at h1
      exact ih h1
    | estimate n hn hs => exact ih h1
    | freeze n hn hs hmin hden =>
      simp only [Function.update_apply] at h1
      split_ifs at h1 with hin
      have := ih h1
      simp only
      split_ifs
      · simp [Function.update_apply, hin, this]
      · exact this

/-- velocities change only when an admissible node is frozen -/
theorem Run.vel_frame (r : Run m C iv ad s l s') {i : Nat} (h0 : s.st i = .none) (ha : ¬ ad i) :
    s'.st i = .none ∧ s'.vel i = s.vel i := by
  induction r with
  | nil => exact ⟨h0, rfl⟩
  | @snoc s1 s2 l e r h ih =>
    obtain ⟨i1, i2⟩ := ih
    cases h with
    | discover n hn hs had hf =>
      have : i ≠ n := fun h => ha (h ▸ had)
      exact ⟨by simp [Function.update_apply, this, i1], i2⟩
    | estimate n hn hs => exact ⟨i1, i2⟩
    | freeze n hn hs hmin hden =>
      have : i ≠ n := fun h => by rw [h, hs] at i1; cases i1
      refine ⟨by simp [Function.update_apply, this, i1], ?_⟩
      split_ifs
      · simp [Function.update_apply, this, i2]
      · exact i2

end

end FMM

end Slsm
