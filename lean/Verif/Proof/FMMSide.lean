import Verif.Proof.FMMReal

/-! Runs of the fast marching machine over the reals: side of the values, bounds on the velocities. -/

namespace Slsm

set_option linter.unusedSectionVars false

namespace FMM

/-! ### which nodes are reached -/

section
variable {D : Type} [FP D] {w h : Nat} {m : Mesh D} {C : Nat → D} {iv : Bool} {ad onI : Nat → Prop} {s s' : AS D} {l : List Event}

theorem nb_lt (G : IsGrid w h m) {i j : Nat} (hi : i < m.nNodes) (hj : j < 4) (hne : nb m i j ≠ m.nNodes) :
    nb m i j < m.nNodes := lt_of_le_of_ne (G.nb_le hi hj) hne

theorem adj_nb (G : IsGrid w h m) {i j : Nat} (hi : i < m.nNodes) (hj : j < 4) (hne : nb m i j ≠ m.nNodes) :
    Adj w h i (nb m i j) := (adj_iff G hi).2 ⟨hne, j, hj, rfl⟩

theorem hadj_symm {i n : Nat} (h1 : HAdj w h i n) : HAdj w h n i := by
  obtain ⟨x, x', y, a, b, c, d, e, f⟩ := h1
  exact ⟨x', x, y, b, a, c, e, d, f.symm⟩

theorem vadj_symm {i n : Nat} (h1 : VAdj w h i n) : VAdj w h n i := by
  obtain ⟨x, y, y', a, b, c, d, e, f⟩ := h1
  exact ⟨x, y', y, a, c, b, e, d, f.symm⟩

theorem adj_symm {i n : Nat} (h1 : Adj w h i n) : Adj w h n i := h1.imp hadj_symm vadj_symm

theorem adj_lt {i n : Nat} (h1 : Adj w h i n) : i < (w + 1) * (h + 1) ∧ n < (w + 1) * (h + 1) := by
  rcases h1 with ⟨x, x', y, a, b, c, rfl, rfl, -⟩ | ⟨x, y, y', a, b, c, rfl, rfl, -⟩
  · exact ⟨nodeNo_lt a c, nodeNo_lt b c⟩
  · exact ⟨nodeNo_lt a b, nodeNo_lt a c⟩

theorem adj_ne {i n : Nat} (h1 : Adj w h i n) : i ≠ n := by
  rcases h1 with ⟨x, x', y, a, b, c, rfl, rfl, e⟩ | ⟨x, y, y', a, b, c, rfl, rfl, e⟩
  · intro h2
    have := (nodeNo_inj a b).1 h2
    omega
  · intro h2
    have := (nodeNo_inj a a).1 h2
    omega

theorem Run.fed (G : IsGrid w h m) (r : Run m C iv ad s l s')
    (h0 : ∀ i, i < m.nNodes → s.st i = .none ∨ (s.st i = .frozen ∧ onI i)) :
    ∀ i, i < m.nNodes → s'.st i ≠ .none → Fed w h onI ad i := by
  induction r with
  | nil =>
    intro i hi hs
    rcases h0 i hi with h | h
    · exact absurd h hs
    · exact .base h.2
  | @snoc s1 s2 l e r h ih =>
    intro i hi hs
    cases h with
    | discover n hn hs1 ha hf =>
      by_cases hin : i = n
      · subst hin
        obtain ⟨j, hj, hne, hfr⟩ := hf
        have := ih _ (nb_lt G hi hj hne) (by rw [hfr]; simp)
        exact .step this (adj_symm (adj_nb G hi hj hne)) ha
      · simp only [Function.update_apply, hin, if_false] at hs
        exact ih i hi hs
    | estimate n hn hs1 => exact ih i hi hs
    | freeze n hn hs1 hmin hden =>
      by_cases hin : i = n
      · subst hin
        exact ih i hi (by rw [hs1]; simp)
      · simp only [Function.update_apply, hin, if_false] at hs
        exact ih i hi hs

/-- converse: at the end everything that can be reached is final -/
theorem fed_frozen (G : IsGrid w h m) {f : Nat → D} {st : Nat → FMMStatus} (hI : ∀ i, onI i → i < m.nNodes)
    (hc : Closed m iv (fun _ => False) st) (ht : ∀ i, i < m.nNodes → st i ≠ .trial) (hm : ∀ i, i < m.nNodes → st i ≠ .masked)
    (h0 : ∀ i, i < m.nNodes → onI i → st i = .frozen) {i : Nat} (hf : Fed w h onI (adm m iv) i) :
    i < m.nNodes ∧ st i = .frozen := by
  induction hf with
  | base hi => exact ⟨hI _ hi, h0 _ (hI _ hi) hi⟩
  | @step i n hfi ha hn ih =>
    have hnl : n < m.nNodes := by rw [G.nNodes]; exact (adj_lt ha).2
    refine ⟨hnl, ?_⟩
    obtain ⟨hne, j, hj, e⟩ := (adj_iff G hnl).1 (adj_symm ha)
    have h1 := ht n hnl
    have h2 := hm n hnl
    cases hst : st n with
    | none => exact (hc n hnl hst hn j hj (by rw [e]; exact hne) (by rw [e]; exact ih.2)).elim
    | frozen => rfl
    | trial => exact absurd hst h1
    | masked => exact absurd hst h2

end

/-! ### side -/

section
variable {w h : Nat} {m : Mesh ℝ} {C : Nat → ℝ} {iv : Bool} {ad : Nat → Prop} {f : Nat → ℝ}

theorem sideOf_only {s : AS ℝ} {n j : Nat} {a : ℝ × Option ℝ} (ha : (sideOf m s n j).only = some a) :
    nb m n j ≠ m.nNodes ∧ s.st (nb m n j) = .frozen ∧ a.1 = s.sd (nb m n j) ∧ ∀ v, a.2 = some v → |v| ≤ |a.1| := by
  have husable : ∀ (d : Side) (v u : ℝ), d.usable v = some u → |u| ≤ |v| := by
    rintro ⟨fi, se⟩ v u hu
    unfold Side.usable at hu
    cases se with
    | none => simp at hu
    | some x =>
      simp only at hu
      split_ifs at hu with h3
      simp only [Option.some.injEq] at hu
      subst hu; exact h3
  unfold Side.only at ha
  cases hf : (sideOf m s n j).first with
  | none => rw [hf] at ha; simp at ha
  | some x =>
    rw [hf] at ha
    simp only [Option.map_some, Option.some.injEq] at ha
    subst ha
    have hf' : finalValue m s (nb m n j) = some x := hf
    unfold finalValue at hf'
    split_ifs at hf' with h1
    simp only [Option.some.injEq] at hf'
    exact ⟨h1.1, h1.2.1, hf'.symm, fun v hv => husable _ _ _ hv⟩

theorem axis_cases {s : AS ℝ} {n i : Nat} (u : Upwind) (hu : axisCode m s n i = u) :
    u = none ∨ ∃ j d1 o, (j = 2 * i ∨ j = 2 * i + 1) ∧ u = some (d1, o) ∧ nb m n j ≠ m.nNodes ∧ s.st (nb m n j) = .frozen ∧
      d1 = s.sd (nb m n j) ∧ ((∀ v, o = some v → |v| ≤ |d1|) ∨
        ∃ v, o = some v ∧ axisGood m s n i = some (d1, none)) := by
  unfold axisCode upwindCode at hu
  unfold axisGood upwind
  cases hl : (sideOf m s n (2 * i)).only with
  | none =>
    rw [hl] at hu
    cases hr : (sideOf m s n (2 * i + 1)).only with
    | none => left; rw [hr] at hu; exact hu.symm
    | some b =>
      rw [hr] at hu
      obtain ⟨h1, h2, h3, h4⟩ := sideOf_only hr
      exact .inr ⟨_, b.1, b.2, .inr rfl, hu.symm, h1, h2, h3, .inl h4⟩
  | some a =>
    obtain ⟨h1, h2, h3, h4⟩ := sideOf_only hl
    rw [hl] at hu
    cases hr : (sideOf m s n (2 * i + 1)).only with
    | none =>
      rw [hr] at hu
      exact .inr ⟨_, a.1, a.2, .inl rfl, hu.symm, h1, h2, h3, .inl h4⟩
    | some b =>
      obtain ⟨g1, g2, g3, g4⟩ := sideOf_only hr
      rw [hr] at hu
      dsimp only at hu ⊢
      by_cases hlt : |b.1| < |a.1|
      · rw [if_pos hlt] at hu ⊢
        refine .inr ⟨_, b.1, b.2.or a.2, .inr rfl, hu.symm, g1, g2, g3, ?_⟩
        obtain ⟨b1, b2⟩ := b
        cases b2 with
        | some v => left; exact g4
        | none =>
          cases ha2 : a.2 with
          | none => left; intro v hv; simp at hv
          | some v => right; exact ⟨v, rfl, rfl⟩
      · rw [if_neg hlt] at hu ⊢
        exact .inr ⟨_, a.1, a.2, .inl rfl, hu.symm, h1, h2, h3, .inl h4⟩

theorem posUp_of {s : AS ℝ} {n i : Nat} (hns : ¬ StaleAt m s n i)
    (hpos : ∀ j, (j = 2 * i ∨ j = 2 * i + 1) → nb m n j ≠ m.nNodes → s.st (nb m n j) = .frozen → 0 ≤ s.sd (nb m n j)) :
    PosUp (axisCode m s n i) := by
  rcases axis_cases (m := m) (s := s) (n := n) (i := i) _ rfl with h | ⟨j, d1, o, hj, h, h1, h2, h3, h4⟩
  · rw [h]; trivial
  · have hd : 0 ≤ d1 := by rw [h3]; exact hpos j hj h1 h2
    rw [h]
    cases o with
    | none => exact hd
    | some v =>
      show v ≤ 4 * d1
      rcases h4 with h4 | ⟨v', hv', hg⟩
      · have := h4 v rfl
        rw [abs_of_nonneg hd] at this
        have := le_abs_self v
        linarith
      · by_contra hc
        push Not at hc
        refine hns ⟨d1, v, hg, h, ?_⟩
        rw [abs_of_nonneg hd]
        exact lt_of_lt_of_le hc (le_abs_self v)

theorem negUp_of {s : AS ℝ} {n i : Nat} (hns : ¬ StaleAt m s n i)
    (hneg : ∀ j, (j = 2 * i ∨ j = 2 * i + 1) → nb m n j ≠ m.nNodes → s.st (nb m n j) = .frozen → s.sd (nb m n j) ≤ 0) :
    NegUp (axisCode m s n i) := by
  rcases axis_cases (m := m) (s := s) (n := n) (i := i) _ rfl with h | ⟨j, d1, o, hj, h, h1, h2, h3, h4⟩
  · rw [h]; trivial
  · have hd : d1 ≤ 0 := by rw [h3]; exact hneg j hj h1 h2
    rw [h]
    cases o with
    | none => exact hd
    | some v =>
      show 4 * d1 ≤ v
      rcases h4 with h4 | ⟨v', hv', hg⟩
      · have := h4 v rfl
        rw [abs_of_nonpos hd] at this
        have := neg_abs_le v
        linarith
      · by_contra hc
        push Not at hc
        refine hns ⟨d1, v, hg, h, ?_⟩
        rw [abs_of_nonpos hd]
        have := neg_abs_le v
        linarith

theorem doubleEpsilon_pos : (0 : ℝ) < doubleEpsilon := by
  unfold doubleEpsilon; simp

/-- one update keeps the side -/
theorem updateV_side (G : IsGrid w h m) {s : AS ℝ} (hC : ∀ i, i < m.nNodes → C i = f i)
    (hs : ∀ i, i < m.nNodes → SameSide (f i) (s.sd i)) {n : Nat} (hn : n < m.nNodes) (hno : ¬ OnInterface w h f n)
    (heps : 0 < f n → doubleEpsilon < f n) (hns : ∀ i, i < 2 → ¬ StaleAt m s n i) : SameSide (f n) (updateV m C s n) := by
  have hne : f n ≠ 0 := fun h0 => hno (.inl (by simpa using h0))
  have hnb : ∀ j, j < 4 → nb m n j ≠ m.nNodes → 0 ≤ f n * f (nb m n j) := by
    intro j hj h1
    by_contra hc
    push Not at hc
    exact hno (.inr ⟨_, adj_nb G hn hj h1, by unfold Opposite; simpa using hc⟩)
  rcases lt_or_gt_of_ne hne with hneg | hpos
  · right; left
    refine ⟨hneg, ?_⟩
    have hq : ∀ i, i < 2 → ∀ j, (j = 2 * i ∨ j = 2 * i + 1) → nb m n j ≠ m.nNodes → s.st (nb m n j) = .frozen →
        s.sd (nb m n j) ≤ 0 := by
      intro i hi j hj h1 h2
      have h3 := hnb j (by omega) h1
      have h4 : f (nb m n j) ≤ 0 := by
        by_contra hc
        push Not at hc
        have := mul_neg_of_neg_of_pos hneg hc
        linarith
      rcases hs _ (nb_lt G hn (by omega) h1) with ⟨a, b⟩ | ⟨a, b⟩ | ⟨a, b⟩
      · linarith
      · exact b.le
      · exact b.le
    refine updateV_neg C n (negUp_of (hns 0 (by omega)) (hq 0 (by omega))) (negUp_of (hns 1 (by omega)) (hq 1 (by omega))) ?_ ?_
    · rw [hC n hn]
      have := doubleEpsilon_pos
      linarith
    · rcases hs n hn with ⟨a, b⟩ | ⟨a, b⟩ | ⟨a, b⟩
      · linarith
      · exact b
      · exact absurd a hne
  · left
    refine ⟨hpos, ?_⟩
    have hq : ∀ i, i < 2 → ∀ j, (j = 2 * i ∨ j = 2 * i + 1) → nb m n j ≠ m.nNodes → s.st (nb m n j) = .frozen →
        0 ≤ s.sd (nb m n j) := by
      intro i hi j hj h1 h2
      have h3 := hnb j (by omega) h1
      have h4 : 0 ≤ f (nb m n j) := by
        by_contra hc
        push Not at hc
        have := mul_neg_of_pos_of_neg hpos hc
        linarith
      rcases hs _ (nb_lt G hn (by omega) h1) with ⟨a, b⟩ | ⟨a, b⟩ | ⟨a, b⟩
      · exact b.le
      · linarith
      · exact b.ge
    refine updateV_pos C n (posUp_of (hns 0 (by omega)) (hq 0 (by omega))) (posUp_of (hns 1 (by omega)) (hq 1 (by omega))) ?_ ?_
    · rw [hC n hn]; exact heps hpos
    · rcases hs n hn with ⟨a, b⟩ | ⟨a, b⟩ | ⟨a, b⟩
      · exact b
      · linarith
      · exact absurd a hne

theorem Run.side (G : IsGrid w h m) {s0 s' : AS ℝ} {l : List Event} (r : Run m C iv ad s0 l s')
    (hC : ∀ i, i < m.nNodes → C i = f i) (h0 : ∀ i, i < m.nNodes → SameSide (f i) (s0.sd i))
    (hst : ∀ i, i < m.nNodes → OnInterface w h f i → s0.st i = .frozen)
    (heps : ∀ i, i < m.nNodes → ¬ OnInterface w h f i → 0 < f i → doubleEpsilon < f i)
    (hns : ∀ l1 s1, Run m C iv ad s0 l1 s1 → ∀ n, n < m.nNodes → s1.st n ≠ .frozen → ∀ i, i < 2 → ¬ StaleAt m s1 n i) :
    ∀ i, i < m.nNodes → SameSide (f i) (s'.sd i) := by
  induction r with
  | nil => exact h0
  | @snoc s1 s2 l e r h ih =>
    have key : ∀ n, n < m.nNodes → s1.st n ≠ .frozen → SameSide (f n) (updateV m C s1 n) := by
      intro n hn hs
      have hno : ¬ OnInterface w _ f n := fun ho => hs (r.frozen (hst n hn ho)).1
      exact updateV_side G hC ih hn hno (heps n hn hno) (hns _ _ r n hn hs)
    cases h with
    | discover n hn hs ha hf =>
      intro i hi
      simp only [Function.update_apply]
      split_ifs with hin
      · subst hin; exact key i hi (by rw [hs]; simp)
      · exact ih i hi
    | estimate n hn hs =>
      intro i hi
      simp only [Function.update_apply]
      split_ifs with hin
      · subst hin; exact key i hi hs
      · exact ih i hi
    | freeze n hn hs hmin hden => exact ih

/-! ### values -/

theorem Run.split {D : Type} [FP D] {m : Mesh D} {C : Nat → D} {iv : Bool} {ad : Nat → Prop} {s s' : AS D} {l : List Event}
    (r : Run m C iv ad s l s') : ∀ l1 l2, l = l1 ++ l2 → ∃ s1, Run m C iv ad s l1 s1 ∧ Run m C iv ad s1 l2 s' := by
  induction r with
  | nil =>
    intro l1 l2 h
    obtain ⟨rfl, rfl⟩ := List.append_eq_nil_iff.1 h.symm
    exact ⟨_, .nil _, .nil _⟩
  | @snoc s1 s2 l e r h ih =>
    intro l1 l2 he
    rcases List.eq_nil_or_concat l2 with rfl | ⟨l2, e', rfl⟩
    · rw [List.append_nil] at he
      exact ⟨s2, he ▸ r.snoc h, .nil _⟩
    · rw [List.concat_eq_append, ← List.append_assoc] at he
      obtain ⟨h1, h2⟩ := List.append_inj' he rfl
      simp only [List.cons.injEq, and_true] at h2
      subst h2
      obtain ⟨s3, r1, r2⟩ := ih l1 l2 h1
      refine ⟨s3, r1, ?_⟩
      rw [List.concat_eq_append]
      exact r2.snoc h

theorem Run.single {D : Type} [FP D] {m : Mesh D} {C : Nat → D} {iv : Bool} {ad : Nat → Prop} {s s' : AS D} {l : List Event}
    (r : Run m C iv ad s l s') {e : Event} (he : l = [e]) : Micro m C iv ad s e s' := by
  induction r with
  | nil => cases he
  | @snoc s1 s2 l e' r h ih =>
    cases l with
    | nil =>
      have : e' = e := by simpa using he
      subst this
      have hs : s = s1 := by
        clear ih h he
        generalize hl : ([] : List Event) = l at r
        cases r with
        | nil => rfl
        | snoc r h => simp at hl
      subst hs; exact h
    | cons a b => simp at he

/-- nothing happens to a final node -/
theorem Run.final {D : Type} [FP D] {m : Mesh D} {C : Nat → D} {iv : Bool} {ad : Nat → Prop} {s s' : AS D} {l : List Event}
    (r : Run m C iv ad s l s') {i : Nat} (hi : s.st i = .frozen) :
    .discover i ∉ l ∧ .estimate i ∉ l ∧ .freeze i ∉ l := by
  induction r with
  | nil => simp
  | @snoc s1 s2 l e r h ih =>
    have h1 := (r.frozen hi).1
    obtain ⟨a, b, c⟩ := ih
    cases h with
    | discover n hn hs ha hf =>
      have : i ≠ n := fun h => by rw [h, hs] at h1; cases h1
      simp [a, b, c, this]
    | estimate n hn hs =>
      have : i ≠ n := fun h => hs (h ▸ h1)
      simp [a, b, c, this]
    | freeze n hn hs hmin hden =>
      have : i ≠ n := fun h => by rw [h, hs] at h1; cases h1
      simp [a, b, c, this]

/-- every value is an initial one or solves the discrete Eikonal equation -/
theorem Run.solves {s0 s' : AS ℝ} {l : List Event} (r : Run m C iv ad s0 l s') (i : Nat) :
    s'.sd i = s0.sd i ∨ ∃ l1 l2 s1, l = l1 ++ l2 ∧ Run m C iv ad s0 l1 s1 ∧ Run m C iv ad s1 l2 s' ∧ s1.st i ≠ .frozen ∧
      eik m s1 i (s'.sd i) = 1 ∧ (doubleEpsilon < C i → ∀ T, eik m s1 i T = 1 → T ≤ s'.sd i) ∧
      (¬ doubleEpsilon < C i → ∀ T, eik m s1 i T = 1 → s'.sd i ≤ T) := by
  induction r with
  | nil => exact .inl rfl
  | @snoc s1 s2 l e r h ih =>
    have hold : s2.sd i = s1.sd i → _ := fun he => by
      rw [← he] at ih
      exact (show s2.sd i = s0.sd i ∨ ∃ l1 l2 s3, l ++ [e] = l1 ++ l2 ∧ Run m C iv ad s0 l1 s3 ∧ Run m C iv ad s3 l2 s2 ∧
        s3.st i ≠ .frozen ∧ eik m s3 i (s2.sd i) = 1 ∧ (doubleEpsilon < C i → ∀ T, eik m s3 i T = 1 → T ≤ s2.sd i) ∧
        (¬ doubleEpsilon < C i → ∀ T, eik m s3 i T = 1 → s2.sd i ≤ T) from by
        rcases ih with ih | ⟨l1, l2, s3, e1, r1, r2, h3⟩
        · exact .inl ih
        · exact .inr ⟨l1, l2 ++ [e], s3, by rw [e1, List.append_assoc], r1, r2.snoc h, h3⟩)
    have hnew : s1.st i ≠ .frozen → s2.sd i = updateV m C s1 i → s2.sd i = s0.sd i ∨ ∃ l1 l2 s3, l ++ [e] = l1 ++ l2 ∧
        Run m C iv ad s0 l1 s3 ∧ Run m C iv ad s3 l2 s2 ∧
        s3.st i ≠ .frozen ∧ eik m s3 i (s2.sd i) = 1 ∧ (doubleEpsilon < C i → ∀ T, eik m s3 i T = 1 → T ≤ s2.sd i) ∧
        (¬ doubleEpsilon < C i → ∀ T, eik m s3 i T = 1 → s2.sd i ≤ T) := by
      intro hf hv
      by_cases h2 : ∃ T1 T2, T1 ≠ T2 ∧ eik m s1 i T1 = 1 ∧ eik m s1 i T2 = 1
      · have := updateV_solves C i h2
        rw [← hv] at this
        exact .inr ⟨l, [e], s1, rfl, r, (Run.nil s1).snoc h, hf, this⟩
      · exact hold (hv.trans (updateV_keeps C i h2))
    cases h with
    | discover n hn hs ha hf =>
      by_cases hin : i = n
      · subst hin; exact hnew (by rw [hs]; simp) (by simp)
      · exact hold (by simp [Function.update_apply, hin])
    | estimate n hn hs =>
      by_cases hin : i = n
      · subst hin; exact hnew hs (by simp)
      · exact hold (by simp [Function.update_apply, hin])
    | freeze n hn hs hmin hden => exact hold rfl

/-! ### velocities -/

/-- a front: nothing, or weight and velocity of a final neighbour -/
def FrontOk (m : Mesh ℝ) (s : AS ℝ) (n k : Nat) (t : Bool × ℝ × ℝ × ℝ) : Prop :=
  (t.1 = false ∧ t.2.2.1 = 0 ∧ ∀ j, (j = 2 * k ∨ j = 2 * k + 1) → nb m n j = m.nNodes ∨ s.st (nb m n j) ≠ .frozen) ∨
    (t.1 = true ∧ ∃ j, (j = 2 * k ∨ j = 2 * k + 1) ∧ nb m n j ≠ m.nNodes ∧ s.st (nb m n j) = .frozen ∧
      t.2.1 = |s.sd (nb m n j)| ∧ t.2.2.1 = |s.sd n - s.sd (nb m n j)| ∧ t.2.2.2 = s.vel (nb m n j) ∧
      ∀ j', (j' = 2 * k ∨ j' = 2 * k + 1) → nb m n j' ≠ m.nNodes → s.st (nb m n j') = .frozen →
        |s.sd (nb m n j)| ≤ |s.sd (nb m n j')|)

theorem fronts_ok (s : AS ℝ) (n k : Nat) : FrontOk m s n k (fronts m s n k) := by
  unfold fronts FrontOk frontV
  simp only [FP.nat_real, FP.abs_real, FP.sub_real, Bool.not_false, Bool.true_or, and_true]
  by_cases h0 : nb m n (2 * k) ≠ m.nNodes ∧ s.st (nb m n (2 * k)) = .frozen
  · rw [if_pos h0]
    simp only [Bool.not_true, Bool.false_or, FP.lt_real]
    by_cases h1 : nb m n (2 * k + 1) ≠ m.nNodes ∧ s.st (nb m n (2 * k + 1)) = .frozen ∧
        |s.sd (nb m n (2 * k + 1))| < |s.sd (nb m n (2 * k))|
    · rw [if_pos h1]
      right
      refine ⟨rfl, 2 * k + 1, .inr rfl, h1.1, h1.2.1, rfl, rfl, rfl, ?_⟩
      rintro j (rfl | rfl) - -
      · exact h1.2.2.le
      · exact le_refl _
    · rw [if_neg h1]
      right
      refine ⟨rfl, 2 * k, .inl rfl, h0.1, h0.2, rfl, rfl, rfl, ?_⟩
      rintro j (rfl | rfl) a b
      · exact le_refl _
      · by_contra hc
        push Not at hc
        exact h1 ⟨a, b, hc⟩
  · rw [if_neg h0]
    simp only [Bool.not_false, Bool.true_or, and_true]
    by_cases h1 : nb m n (2 * k + 1) ≠ m.nNodes ∧ s.st (nb m n (2 * k + 1)) = .frozen
    · rw [if_pos h1]
      right
      refine ⟨rfl, 2 * k + 1, .inr rfl, h1.1, h1.2, rfl, rfl, rfl, ?_⟩
      rintro j (rfl | rfl) a b
      · exact absurd ⟨a, b⟩ h0
      · exact le_refl _
    · rw [if_neg h1]
      left
      refine ⟨rfl, by simp, ?_⟩
      rintro j (rfl | rfl)
      · by_contra hc; push Not at hc; exact h0 hc
      · by_contra hc; push Not at hc; exact h1 hc

theorem velV_real (s : AS ℝ) (n : Nat) :
    velDen m s n = (fronts m s n 0).2.2.1 + (fronts m s n 1).2.2.1 ∧
    velV m s n = ((fronts m s n 0).2.2.1 * (fronts m s n 0).2.2.2 + (fronts m s n 1).2.2.1 * (fronts m s n 1).2.2.2) /
      ((fronts m s n 0).2.2.1 + (fronts m s n 1).2.2.1) := by
  unfold velV velDen
  simp

theorem avg_bounds {a b u v lo hi : ℝ} (ha : 0 ≤ a) (hb : 0 ≤ b) (hs : a + b ≠ 0) (hu : a ≠ 0 → lo ≤ u ∧ u ≤ hi)
    (hv : b ≠ 0 → lo ≤ v ∧ v ≤ hi) : lo ≤ (a * u + b * v) / (a + b) ∧ (a * u + b * v) / (a + b) ≤ hi := by
  have hpos : 0 < a + b := lt_of_le_of_ne (by linarith) (Ne.symm hs)
  have h1 : a * lo ≤ a * u ∧ a * u ≤ a * hi := by
    by_cases h0 : a = 0
    · simp [h0]
    · exact ⟨mul_le_mul_of_nonneg_left (hu h0).1 ha, mul_le_mul_of_nonneg_left (hu h0).2 ha⟩
  have h2 : b * lo ≤ b * v ∧ b * v ≤ b * hi := by
    by_cases h0 : b = 0
    · simp [h0]
    · exact ⟨mul_le_mul_of_nonneg_left (hv h0).1 hb, mul_le_mul_of_nonneg_left (hv h0).2 hb⟩
  rw [le_div_iff₀ hpos, div_le_iff₀ hpos]
  constructor <;> nlinarith

theorem Run.bounds (G : IsGrid w h m) {s0 s' : AS ℝ} {l : List Event} (r : Run m C iv ad s0 l s') {lo hi : ℝ}
    (h0 : ∀ i, i < m.nNodes → s0.st i = .frozen → lo ≤ s0.vel i ∧ s0.vel i ≤ hi) :
    ∀ i, i < m.nNodes → (iv = true → s'.st i = .frozen → lo ≤ s'.vel i ∧ s'.vel i ≤ hi) ∧
      (s'.st i ≠ .frozen → s'.vel i = s0.vel i) := by
  induction r with
  | nil => exact fun i hi => ⟨fun _ => h0 i hi, fun _ => rfl⟩
  | @snoc s1 s2 l e r h ih =>
    cases h with
    | discover n hn hs ha hf =>
      intro i hi'
      obtain ⟨a, b⟩ := ih i hi'
      by_cases hin : i = n
      · subst hin
        simp only [Function.update_self]
        exact ⟨fun _ h => (by cases h), fun _ => b (by rw [hs]; simp)⟩
      · simp only [Function.update_apply, hin, if_false]
        exact ⟨a, b⟩
    | estimate n hn hs => exact ih
    | freeze n hn hs hmin hden =>
      intro i hi'
      obtain ⟨a, b⟩ := ih i hi'
      by_cases hin : i = n
      · subst hin
        simp only [Function.update_self]
        refine ⟨fun hiv _ => ?_, fun h => absurd rfl h⟩
        subst hiv
        simp only [if_true, Function.update_self]
        obtain ⟨e1, e2⟩ := velV_real (m := m) { s1 with st := Function.update s1.st i .frozen } i
        have hd := hden rfl
        have hd : ¬ velDen m { s1 with st := Function.update s1.st i .frozen } i = 0 := by simpa using hd
        rw [e1] at hd
        rw [e2]
        have key : ∀ k, k < 2 → 0 ≤ (fronts m { s1 with st := Function.update s1.st i .frozen } i k).2.2.1 ∧
            ((fronts m { s1 with st := Function.update s1.st i .frozen } i k).2.2.1 ≠ 0 →
              lo ≤ (fronts m { s1 with st := Function.update s1.st i .frozen } i k).2.2.2 ∧
              (fronts m { s1 with st := Function.update s1.st i .frozen } i k).2.2.2 ≤ hi) := by
          intro k hk
          rcases fronts_ok (m := m) { s1 with st := Function.update s1.st i .frozen } i k with ⟨-, h1, -⟩ | ⟨-, j, hj, h1, h2, h3, h4, h5, -⟩
          · rw [h1]; exact ⟨le_refl _, fun h => absurd rfl h⟩
          · rw [h4, h5]
            refine ⟨abs_nonneg _, fun _ => ?_⟩
            have hne : nb m i j ≠ i := fun he => adj_ne (adj_nb G hi' (show j < 4 by omega) h1) he.symm
            simp only [Function.update_apply, hne, if_false] at h2
            exact (ih _ (nb_lt G hi' (by omega) h1)).1 rfl h2
        obtain ⟨k0, k0'⟩ := key 0 (by omega)
        obtain ⟨k1, k1'⟩ := key 1 (by omega)
        exact avg_bounds k0 k1 hd k0' k1'
      · simp only [Function.update_apply, hin, if_false]
        refine ⟨fun hiv => ?_, fun hs' => ?_⟩
        · subst hiv
          simp only [if_true, Function.update_apply, hin, if_false]
          exact a rfl
        · split_ifs
          · simp only [Function.update_apply, hin, if_false]; exact b hs'
          · exact b hs'

end

end FMM

end Slsm
