import Verif.Proof.FMMSide
import Verif.Spec.Straight
import Verif.Props.LevelSet
import Verif.Proof.Reinit
import Verif.Proof.Mirror

/-! # A straight boundary: the fast marching method is exact -/

namespace Slsm

namespace FMM

section
variable {w h : Nat} {m : Mesh ℝ} {C : Nat → ℝ} {iv : Bool} {ad : Nat → Prop} {g δ : Nat → ℝ}

/-- The distances vary by one along one axis and not along the other. -/
def Sloped (δ : Nat → ℝ) : Prop :=
  (δ 1 = -δ 0 ∧ |δ 0| = 1 ∧ δ 2 = 0 ∧ δ 3 = 0) ∨ (δ 3 = -δ 2 ∧ |δ 2| = 1 ∧ δ 0 = 0 ∧ δ 1 = 0)

/-- `g` is a linear function on the grid, with slopes `δ`. -/
def LinearOn (m : Mesh ℝ) (g δ : Nat → ℝ) : Prop := ∀ n j, n < m.nNodes → j < 4 → nb m n j ≠ m.nNodes → g (nb m n j) = g n + δ j

theorem upwind_none_left {l r : Side} (h : l.only = none) : upwindCode l r = r.only := by
  unfold upwindCode; rw [h]

theorem upwind_none_right {l r : Side} (h : r.only = none) : upwindCode l r = l.only := by
  unfold upwindCode; rw [h]; cases l.only <;> rfl

theorem only_none {d : Side} (h : d.first = none) : d.only = none := by
  unfold Side.only; rw [h]; rfl

/-- Values in one direction of a linear function. -/
theorem side_linear (G : IsGrid w h m) (hg : LinearOn m g δ) {s : AS ℝ} (hf : ∀ i, i < m.nNodes → s.st i = .frozen → s.sd i = g i) {n j : Nat} (hn : n < m.nNodes) (hj : j < 4) :
    ((sideOf m s n j).only = none) ∨ (sideOf m s n j).only = some (g n + δ j, none) ∨ (sideOf m s n j).only = some (g n + δ j, some (g n + 2 * δ j)) := by
  unfold Side.only sideOf finalValue
  dsimp only
  by_cases h1 : nb m n j ≠ m.nNodes ∧ s.st (nb m n j) = .frozen ∧ |s.sd (nb m n j)| < FP.maxVal
  · rw [if_pos h1]
    have hlt := nb_lt G hn hj h1.1
    have e1 : s.sd (nb m n j) = g n + δ j := by rw [hf _ hlt h1.2.1, hg n j hn hj h1.1]
    right
    by_cases h2 : nb m (nb m n j) j ≠ m.nNodes ∧ s.st (nb m (nb m n j) j) = .frozen ∧ |s.sd (nb m (nb m n j) j)| < FP.maxVal
    · have hlt2 := nb_lt G hlt hj h2.1
      have e2 : s.sd (nb m (nb m n j) j) = g n + 2 * δ j := by
        rw [hf _ hlt2 h2.2.1, hg _ j hlt hj h2.1, hg n j hn hj h1.1]; ring
      rw [if_pos h2, e1, e2]
      simp only [Option.map_some, Side.usable]
      split_ifs
      · exact .inr rfl
      · exact .inl rfl
    · rw [if_neg h2, e1]
      exact .inl rfl
  · rw [if_neg h1]
    exact .inl rfl

/-- A direction with a final neighbour. -/
theorem side_some {s : AS ℝ} {n j : Nat} (h1 : nb m n j ≠ m.nNodes) (h2 : s.st (nb m n j) = .frozen) (h3 : |s.sd (nb m n j)| < FP.maxVal) :
    (sideOf m s n j).only ≠ none := by
  unfold Side.only sideOf finalValue
  dsimp only
  rw [if_pos ⟨h1, h2, h3⟩]
  simp

/-- Along the axis on which nothing varies. -/
theorem diff_flat (G : IsGrid w h m) (hg : LinearOn m g δ) {s : AS ℝ} (hf : ∀ i, i < m.nNodes → s.st i = .frozen → s.sd i = g i) {n i : Nat} (hn : n < m.nNodes) (hi : i < 2)
    (h0 : δ (2 * i) = 0) (h1 : δ (2 * i + 1) = 0) : ∃ β : ℝ, 0 ≤ β ∧ ∀ T, diffSq T (axisCode m s n i) = β * (T - g n) ^ 2 := by
  have a := side_linear G hg hf hn (j := 2 * i) (by omega)
  have b := side_linear G hg hf hn (j := 2 * i + 1) (by omega)
  rw [h0] at a
  rw [h1] at b
  simp only [add_zero, mul_zero] at a b
  unfold axisCode upwindCode
  have k1 : ∃ β : ℝ, 0 ≤ β ∧ ∀ T, diffSq T (some (g n, none)) = β * (T - g n) ^ 2 := ⟨1, by norm_num, fun T => by simp [diffSq]⟩
  have k2 : ∃ β : ℝ, 0 ≤ β ∧ ∀ T, diffSq T (some (g n, some (g n))) = β * (T - g n) ^ 2 := ⟨9 / 4, by norm_num, fun T => by simp only [diffSq]; ring⟩
  have k0 : ∃ β : ℝ, 0 ≤ β ∧ ∀ T, diffSq T none = β * (T - g n) ^ 2 := ⟨0, le_refl _, fun T => by simp [diffSq]⟩
  rcases a with a | a | a <;> rcases b with b | b | b <;> rw [a, b] <;> simp only [lt_irrefl, if_false] <;> first | exact k0 | exact k1 | exact k2

/-- Along the other axis, when exactly the direction `j` has a final neighbour. -/
theorem diff_slope (G : IsGrid w h m) (hg : LinearOn m g δ) {s : AS ℝ} (hf : ∀ i, i < m.nNodes → s.st i = .frozen → s.sd i = g i) {n i j j' : Nat} (hn : n < m.nNodes) (hi : i < 2)
    (hj : (j = 2 * i ∧ j' = 2 * i + 1) ∨ (j = 2 * i + 1 ∧ j' = 2 * i)) (h1 : (sideOf m s n j).only ≠ none) (h2 : (sideOf m s n j').only = none) :
    ∃ α : ℝ, 0 < α ∧ ∀ T, diffSq T (axisCode m s n i) = (α * (T - g n) - δ j) ^ 2 := by
  have hj4 : j < 4 := by omega
  have e : axisCode m s n i = (sideOf m s n j).only := by
    unfold axisCode
    rcases hj with ⟨rfl, rfl⟩ | ⟨rfl, rfl⟩
    · exact upwind_none_right h2
    · exact upwind_none_left h2
  rw [e]
  rcases side_linear G hg hf hn hj4 with a | a | a
  · exact absurd a h1
  · exact ⟨1, one_pos, fun T => by rw [a]; simp only [diffSq]; ring⟩
  · exact ⟨3 / 2, by norm_num, fun T => by rw [a]; simp only [diffSq]; ring⟩

/-- The quadratic equation. -/
theorem root_exact {s : AS ℝ} {n : Nat} {α β d : ℝ} (hα : 0 < α) (hβ : 0 ≤ β) (hd : |d| = 1)
    (he : ∀ T, eik m s n T = (α * (T - g n) - d) ^ 2 + β * (T - g n) ^ 2)
    (hin : d = -1 → doubleEpsilon < C n) (hout : d = 1 → ¬ doubleEpsilon < C n) : updateV m C s n = g n := by
  have hd2 : d ^ 2 = 1 := by rw [← sq_abs, hd]; norm_num
  have hd0 : d ≠ 0 := fun h => by rw [h] at hd; norm_num at hd
  have hS : 0 < α ^ 2 + β := by positivity
  have r1 : eik m s n (g n) = 1 := by rw [he]; simp [hd2]
  have r2 : eik m s n (g n + 2 * α * d / (α ^ 2 + β)) = 1 := by
    rw [he]
    have : (α * (g n + 2 * α * d / (α ^ 2 + β) - g n) - d) ^ 2 + β * (g n + 2 * α * d / (α ^ 2 + β) - g n) ^ 2 = d ^ 2 := by
      field_simp; ring
    rw [this, hd2]
  have hne : g n ≠ g n + 2 * α * d / (α ^ 2 + β) := by
    have : 2 * α * d / (α ^ 2 + β) ≠ 0 := by
      refine div_ne_zero (mul_ne_zero (by positivity) hd0) hS.ne'
    intro h
    exact this (by linarith)
  obtain ⟨e, a, b⟩ := updateV_solves (m := m) (s := s) C n ⟨_, _, hne, r1, r2⟩
  rw [he] at e
  have hu : (updateV m C s n - g n) * ((α ^ 2 + β) * (updateV m C s n - g n) - 2 * α * d) = 0 := by
    nlinarith [e, hd2]
  rcases mul_eq_zero.1 hu with h | h
  · linarith
  · rcases (abs_eq (by norm_num : (0 : ℝ) ≤ 1)).1 hd with h1 | h1
    · have := b (hout h1) _ r1
      rw [h1] at h
      nlinarith
    · have := a (hin h1) _ r1
      rw [h1] at h
      nlinarith

/-- Distances are linear with unit slope along an axis; every node that is not final at first has a neighbour closer by one, and lies on the side that the copy says. -/
structure Setting (m : Mesh ℝ) (C g δ : Nat → ℝ) (s0 : AS ℝ) : Prop where
  slope : Sloped δ
  lin : LinearOn m g δ
  big : ∀ n, n < m.nNodes → |g n| < FP.maxVal
  start : ∀ n, n < m.nNodes → s0.st n = .frozen → s0.sd n = g n
  kind : ∀ n, n < m.nNodes → s0.st n = .frozen ∨ s0.st n = .none
  below : ∀ n k, n < m.nNodes → k < m.nNodes → s0.st n = .frozen → s0.st k ≠ .frozen → |g n| ≤ |g k|
  inner : ∀ n, n < m.nNodes → s0.st n ≠ .frozen → ∃ j, j < 4 ∧ nb m n j ≠ m.nNodes ∧ |g (nb m n j)| = |g n| - 1
  side : ∀ n, n < m.nNodes → s0.st n ≠ .frozen → (0 < g n → doubleEpsilon < C n) ∧ (g n < 0 → ¬ doubleEpsilon < C n)

/-- What holds throughout. -/
structure Exactly (m : Mesh ℝ) (ad : Nat → Prop) (g : Nat → ℝ) (s0 s : AS ℝ) : Prop where
  unmasked : ∀ n, n < m.nNodes → s.st n ≠ .masked
  old : ∀ n, n < m.nNodes → s0.st n = .frozen → s.st n = .frozen
  frozen : ∀ n, n < m.nNodes → s.st n = .frozen → s.sd n = g n
  trial : ∀ n, n < m.nNodes → s.st n = .trial → s.sd n = g n ∧ ∃ j, j < 4 ∧ nb m n j ≠ m.nNodes ∧ |g (nb m n j)| = |g n| - 1 ∧ s.st (nb m n j) = .frozen
  below : ∀ n k, n < m.nNodes → k < m.nNodes → s.st n = .frozen → s.st k ≠ .frozen → |g n| ≤ |g k|
  adm : ∀ n, n < m.nNodes → s.st n = .trial → ad n

theorem abs_step {a d : ℝ} (hd : d = 0 ∨ |d| = 1) (h : |a + d| = |a| - 1) : (0 < a ∧ d = -1) ∨ (a < 0 ∧ d = 1) := by
  rcases hd with rfl | hd
  · rw [add_zero] at h; linarith
  · have h0 := abs_nonneg (a + d)
    rcases lt_trichotomy a 0 with ha | ha | ha
    · right
      refine ⟨ha, ?_⟩
      rcases (abs_eq (by norm_num : (0 : ℝ) ≤ 1)).1 hd with h1 | h1
      · exact h1
      · rw [h1, abs_of_neg ha, abs_of_neg (by linarith)] at h; linarith
    · rw [ha] at h; simp at h; rw [hd] at h; norm_num at h
    · left
      refine ⟨ha, ?_⟩
      rcases (abs_eq (by norm_num : (0 : ℝ) ≤ 1)).1 hd with h1 | h1
      · rw [h1, abs_of_pos ha, abs_of_pos (by linarith)] at h; linarith
      · exact h1

theorem Sloped.abs (S : Sloped δ) {j : Nat} (hj : j < 4) : δ j = 0 ∨ |δ j| = 1 := by
  have : j = 0 ∨ j = 1 ∨ j = 2 ∨ j = 3 := by omega
  rcases S with ⟨a, b, c, d⟩ | ⟨a, b, c, d⟩ <;> rcases this with rfl | rfl | rfl | rfl <;> simp [a, b, c, d]

theorem updated (G : IsGrid w h m) {s0 s : AS ℝ} (S : Setting m C g δ s0) (E : Exactly m ad g s0 s) {n j : Nat} (hn : n < m.nNodes) (hs : s.st n ≠ .frozen) (hj : j < 4)
    (h1 : nb m n j ≠ m.nNodes) (h2 : |g (nb m n j)| = |g n| - 1) (h3 : s.st (nb m n j) = .frozen) : updateV m C s n = g n := by
  have hlt := nb_lt G hn hj h1
  have hd := S.slope.abs hj
  have h4 := S.lin n j hn hj h1
  rw [h4] at h2
  have hsg := abs_step hd h2
  have hs0 : s0.st n ≠ .frozen := fun h => hs (E.old n hn h)
  have hone : (sideOf m s n j).only ≠ none := side_some h1 h3 (by rw [E.frozen _ hlt h3]; exact S.big _ hlt)
  have hopp : ∀ j', j' < 4 → δ j' = -δ j → (sideOf m s n j').only = none := by
    intro j' hj' e
    apply only_none
    unfold sideOf finalValue
    dsimp only
    rw [if_neg]
    rintro ⟨k1, k2, -⟩
    have hlt' := nb_lt G hn hj' k1
    have := E.below _ n hlt' hn k2 hs
    rw [S.lin n j' hn hj' k1, e] at this
    rcases hsg with ⟨p, q⟩ | ⟨p, q⟩
    · rw [q, abs_of_pos p, abs_of_pos (by linarith)] at this; linarith
    · rw [q, abs_of_neg p, abs_of_neg (by linarith)] at this; linarith
  have hd1 : |δ j| = 1 := by rcases hsg with ⟨_, q⟩ | ⟨_, q⟩ <;> rw [q] <;> norm_num
  have hd0 : δ j ≠ 0 := fun h => by rw [h] at hd1; norm_num at hd1
  have hin : δ j = -1 → doubleEpsilon < C n := by
    intro e
    rcases hsg with ⟨p, q⟩ | ⟨p, q⟩
    · exact (S.side n hn hs0).1 p
    · rw [e] at q; norm_num at q
  have hout : δ j = 1 → ¬ doubleEpsilon < C n := by
    intro e
    rcases hsg with ⟨p, q⟩ | ⟨p, q⟩
    · rw [e] at q; norm_num at q
    · exact (S.side n hn hs0).2 p
  have hj' : j = 0 ∨ j = 1 ∨ j = 2 ∨ j = 3 := by omega
  rcases S.slope with ⟨a, b, c, d⟩ | ⟨a, b, c, d⟩
  · obtain ⟨β, hβ, eβ⟩ := diff_flat G S.lin E.frozen hn (i := 1) (by norm_num) c d
    have key : ∃ α : ℝ, 0 < α ∧ ∀ T, diffSq T (axisCode m s n 0) = (α * (T - g n) - δ j) ^ 2 := by
      rcases hj' with rfl | rfl | rfl | rfl
      · exact diff_slope G S.lin E.frozen hn (by norm_num) (.inl ⟨rfl, rfl⟩) hone (hopp 1 (by norm_num) a)
      · exact diff_slope G S.lin E.frozen hn (by norm_num) (.inr ⟨rfl, rfl⟩) hone (hopp 0 (by norm_num) (by rw [a]; ring))
      · exact absurd c hd0
      · exact absurd d hd0
    obtain ⟨α, hα, eα⟩ := key
    exact root_exact hα hβ hd1 (fun T => by unfold eik; rw [eα, eβ]) hin hout
  · obtain ⟨β, hβ, eβ⟩ := diff_flat G S.lin E.frozen hn (i := 0) (by norm_num) c d
    have key : ∃ α : ℝ, 0 < α ∧ ∀ T, diffSq T (axisCode m s n 1) = (α * (T - g n) - δ j) ^ 2 := by
      rcases hj' with rfl | rfl | rfl | rfl
      · exact absurd c hd0
      · exact absurd d hd0
      · exact diff_slope G S.lin E.frozen hn (by norm_num) (.inl ⟨rfl, rfl⟩) hone (hopp 3 (by norm_num) a)
      · exact diff_slope G S.lin E.frozen hn (by norm_num) (.inr ⟨rfl, rfl⟩) hone (hopp 2 (by norm_num) (by rw [a]; ring))
    obtain ⟨α, hα, eα⟩ := key
    exact root_exact hα hβ hd1 (fun T => by unfold eik; rw [eα, eβ, add_comm]) hin hout

/-- A node next to a final one has the neighbour that is closer by one final. -/
theorem inner_frozen (G : IsGrid w h m) {s0 s : AS ℝ} (S : Setting m C g δ s0) (E : Exactly m ad g s0 s) {n j : Nat} (hn : n < m.nNodes) (hs : s.st n ≠ .frozen) (hj : j < 4)
    (h1 : nb m n j ≠ m.nNodes) (h3 : s.st (nb m n j) = .frozen) :
    ∃ j, j < 4 ∧ nb m n j ≠ m.nNodes ∧ |g (nb m n j)| = |g n| - 1 ∧ s.st (nb m n j) = .frozen := by
  have hs0 : s0.st n ≠ .frozen := fun h => hs (E.old n hn h)
  obtain ⟨j0, a, b, c⟩ := S.inner n hn hs0
  refine ⟨j0, a, b, c, ?_⟩
  by_contra hc
  have hlt := nb_lt G hn hj h1
  have hlt0 := nb_lt G hn a b
  have h4 := E.below _ _ hlt hlt0 h3 hc
  rw [c] at h4
  -- then the final neighbour is the inner one
  have hd := S.slope.abs hj
  rw [S.lin n j hn hj h1] at h4
  have h5 : |g n + δ j| = |g n| - 1 := by
    refine le_antisymm h4 ?_
    have := abs_sub_abs_le_abs_sub (g n) (g n + δ j)
    rw [show g n - (g n + δ j) = -δ j by ring, abs_neg] at this
    rcases hd with h | h
    · rw [h, add_zero] at h4; linarith
    · linarith
  have h6 := abs_step hd h5
  rw [S.lin n j0 hn a b] at c
  have h7 := abs_step (S.slope.abs a) c
  have h8 : δ j0 = δ j := by
    rcases h6 with ⟨p, q⟩ | ⟨p, q⟩ <;> rcases h7 with ⟨p', q'⟩ | ⟨p', q'⟩
    · rw [q, q']
    · linarith
    · linarith
    · rw [q, q']
  have h9 : j0 = j := by
    have hd1 : δ j ≠ 0 := by rcases h6 with ⟨_, q⟩ | ⟨_, q⟩ <;> rw [q] <;> norm_num
    have e1 : j = 0 ∨ j = 1 ∨ j = 2 ∨ j = 3 := by omega
    have e2 : j0 = 0 ∨ j0 = 1 ∨ j0 = 2 ∨ j0 = 3 := by omega
    rcases S.slope with ⟨x1, x2, x3, x4⟩ | ⟨x1, x2, x3, x4⟩ <;> rcases e1 with rfl | rfl | rfl | rfl <;>
      rcases e2 with rfl | rfl | rfl | rfl <;> first | rfl | (exfalso; apply hd1; linarith)
  rw [h9] at hc
  exact hc h3

/-- Walking inwards from a node that is not final. -/
theorem walk_in (G : IsGrid w h m) {s0 s : AS ℝ} (S : Setting m C g δ s0) (E : Exactly m ad g s0 s) :
    ∀ (k n : Nat), n < m.nNodes → s.st n ≠ .frozen → |g n| < k → ∃ i j, i < m.nNodes ∧ j < 4 ∧ s.st i ≠ .frozen ∧ |g i| ≤ |g n| ∧
      nb m i j ≠ m.nNodes ∧ |g (nb m i j)| = |g i| - 1 ∧ s.st (nb m i j) = .frozen := by
  intro k
  induction k with
  | zero => intro n hn hs hk; exact absurd hk (not_lt.2 (by push_cast; exact abs_nonneg _))
  | succ k ih =>
    intro n hn hs hk
    have hs0 : s0.st n ≠ .frozen := fun h => hs (E.old n hn h)
    obtain ⟨j, hj, h1, h2⟩ := S.inner n hn hs0
    by_cases hf : s.st (nb m n j) = .frozen
    · exact ⟨n, j, hn, hj, hs, le_refl _, h1, h2, hf⟩
    · push_cast at hk
      obtain ⟨i, j', a, b, c, d, e⟩ := ih _ (nb_lt G hn hj h1) hf (by linarith)
      exact ⟨i, j', a, b, c, by linarith, e⟩

theorem Exactly.step (G : IsGrid w h m) {s0 s s' : AS ℝ} {e : Event} (S : Setting m C g δ s0) (E : Exactly m ad g s0 s) (had : ∀ i n, i < m.nNodes → n < m.nNodes → ad n → ¬ ad i → |g n| ≤ |g i|)
    (r : Micro m C iv ad s e s') : Exactly m ad g s0 s' := by
  cases r with
  | discover n hn hs ha hf =>
    obtain ⟨j, hj, h1, h3⟩ := hf
    have hnf : s.st n ≠ .frozen := by rw [hs]; simp
    obtain ⟨j, hj, h1, h2, h3⟩ := inner_frozen G S E hn hnf hj h1 h3
    have hu := updated G S E hn hnf hj h1 h2 h3
    have hk : ∀ k, s.st k = .frozen → k ≠ n := fun k hk h => hnf (h ▸ hk)
    refine ⟨fun k hk0 => ?_, fun k hk0 h => ?_, fun k hk0 h => ?_, fun k hk0 h => ?_, fun k l hk0 hl h h' => ?_, fun k hk0 h => ?_⟩
    rotate_right
    · by_cases e : k = n
      · subst e; exact ha
      · simp only [Function.update_of_ne e] at h; exact E.adm k hk0 h
    · by_cases e : k = n
      · subst e; simp
      · simp only [Function.update_of_ne e]; exact E.unmasked k hk0
    · have := E.old k hk0 h
      simp only [Function.update_of_ne (hk k this)]
      exact this
    · by_cases e : k = n
      · subst e; simp at h
      · simp only [Function.update_of_ne e] at h ⊢
        exact E.frozen k hk0 h
    · by_cases e : k = n
      · subst e
        simp only [Function.update_self]
        refine ⟨hu, j, hj, h1, h2, ?_⟩
        rw [Function.update_of_ne (hk _ h3)]
        exact h3
      · simp only [Function.update_of_ne e] at h ⊢
        obtain ⟨a, j', b, c, d, f⟩ := E.trial k hk0 h
        refine ⟨a, j', b, c, d, ?_⟩
        rw [Function.update_of_ne (hk _ f)]
        exact f
    · have a : s.st k = .frozen := by
        by_cases e : k = n
        · subst e; simp at h
        · simpa [Function.update_of_ne e] using h
      have b : s.st l ≠ .frozen := by
        by_cases e : l = n
        · subst e; exact hnf
        · simpa [Function.update_of_ne e] using h'
      exact E.below k l hk0 hl a b
  | estimate n hn hs =>
    have hk : ∀ k, s.st k = .frozen → k ≠ n := fun k hk h => hs (h ▸ hk)
    refine ⟨E.unmasked, E.old, fun k hk0 h => ?_, fun k hk0 h => ?_, E.below, E.adm⟩
    · simp only [Function.update_of_ne (hk k h)]
      exact E.frozen k hk0 h
    · by_cases e : k = n
      · subst e
        obtain ⟨a, j', b, c, d, f⟩ := E.trial k hk0 h
        simp only [Function.update_self]
        exact ⟨updated G S E hn hs b c d f, j', b, c, d, f⟩
      · simp only [Function.update_of_ne e]
        exact E.trial k hk0 h
  | freeze n hn hs hmin hden hband =>
    have hmin := hmin inferInstance
    have hband := hband inferInstance
    have hnf : s.st n ≠ .frozen := by rw [hs]; simp
    obtain ⟨hv, j, hj, h1, h2, h3⟩ := E.trial n hn hs
    have hmin : ∀ i, i < m.nNodes → s.st i = .trial → |g n| ≤ |g i| := by
      intro i hi hsi
      have := hmin i hi hsi
      rw [(E.trial i hi hsi).1, hv] at this
      simpa using this
    have hleast : ∀ k, k < m.nNodes → s.st k ≠ .frozen → |g n| ≤ |g k| := by
      intro k hk hsk
      by_contra hc
      obtain ⟨c, hc'⟩ := exists_nat_gt |g k|
      obtain ⟨i, j', a1, a2, a3, a4, a5, a6, a7⟩ := walk_in G S E c k hk hsk hc'
      by_cases ht : s.st i = .trial
      · exact hc ((hmin i a1 ht).trans a4)
      · have hnone : s.st i = .none := by
          have : s.st i ≠ .masked := E.unmasked i a1
          cases hst : s.st i <;> simp_all
        have hai : ad i := by
          by_contra hai
          have := had i n a1 hn (E.adm n hn hs) hai
          linarith
        have := hband i j' a1 a2 hnone hai a5 a7
        rw [E.frozen _ (nb_lt G a1 a2 a5) a7, hv] at this
        simp only [FP.abs_real, FP.eq_real] at this
        rw [a6] at this
        linarith
    refine ⟨fun k hk0 => ?_, fun k hk0 h => ?_, fun k hk0 h => ?_, fun k hk0 h => ?_, fun k l hk0 hl h h' => ?_, fun k hk0 h => ?_⟩
    rotate_right
    · by_cases e : k = n
      · subst e; simp at h
      · simp only [Function.update_of_ne e] at h; exact E.adm k hk0 h
    · by_cases e : k = n
      · subst e; simp
      · simp only [Function.update_of_ne e]; exact E.unmasked k hk0
    · by_cases e : k = n
      · subst e; simp
      · simp only [Function.update_of_ne e]
        exact E.old k hk0 h
    · by_cases e : k = n
      · subst e; exact hv
      · simp only [Function.update_of_ne e] at h
        exact E.frozen k hk0 h
    · by_cases e : k = n
      · subst e; simp at h
      · simp only [Function.update_of_ne e] at h
        obtain ⟨a, j', b, c, d, f⟩ := E.trial k hk0 h
        refine ⟨a, j', b, c, d, ?_⟩
        by_cases e' : nb m k j' = n
        · simp [e']
        · simp only [Function.update_of_ne e']
          exact f
    · by_cases e' : l = n
      · subst e'; simp at h'
      · simp only [Function.update_of_ne e'] at h'
        by_cases e : k = n
        · subst e; exact hleast l hl h'
        · simp only [Function.update_of_ne e] at h
          exact E.below k l hk0 hl h h'

/-- No weight for a neighbour at the same distance. -/
theorem front_flat (G : IsGrid w h m) {s0 s : AS ℝ} (S : Setting m C g δ s0) (E : Exactly m ad g s0 s) {n k : Nat} (hn : n < m.nNodes) (hs : s.st n = .trial) (hk : k < 4)
    (h0 : δ k = 0) (t : Bool × ℝ × ℝ × ℝ) (ht : t.2.2.1 = 0) : (frontV m { s with st := Function.update s.st n .frozen } n k t).2.2.1 = 0 := by
  unfold frontV
  split_ifs with hc
  · obtain ⟨h1, h2, -⟩ := hc
    show |s.sd n - s.sd (nb m n k)| = 0
    by_cases e : nb m n k = n
    · rw [e, sub_self, abs_zero]
    · simp only [Function.update_of_ne e] at h2
      rw [E.frozen _ (nb_lt G hn hk h1) h2, (E.trial n hn hs).1, S.lin n k hn hk h1, h0, add_zero, sub_self, abs_zero]
  · exact ht

/-- Nothing happens for a neighbour that is not final. -/
theorem front_not {s : AS ℝ} {n k : Nat} (hf : nb m n k = m.nNodes ∨ s.st (nb m n k) ≠ .frozen) (hne : nb m n k ≠ n) (t : Bool × ℝ × ℝ × ℝ) :
    frontV m { s with st := Function.update s.st n .frozen } n k t = t := by
  unfold frontV
  rw [if_neg]
  rintro ⟨h1, h2, -⟩
  simp only [Function.update_of_ne hne] at h2
  exact hf.elim h1 fun h => h h2

/-- The weights of the extension: one for the neighbour that is closer by one, none for others. -/
theorem velocity_weights (G : IsGrid w h m) {s0 s : AS ℝ} (S : Setting m C g δ s0) (E : Exactly m ad g s0 s) {n j : Nat} (hn : n < m.nNodes) (hs : s.st n = .trial) (hj : j < 4)
    (h1 : nb m n j ≠ m.nNodes) (h2 : |g (nb m n j)| = |g n| - 1) (h3 : s.st (nb m n j) = .frozen) :
    velDen m { s with st := Function.update s.st n .frozen } n = 1 ∧ velV m { s with st := Function.update s.st n .frozen } n = s.vel (nb m n j) := by
  have hnf : s.st n ≠ .frozen := by rw [hs]; simp
  have hlt := nb_lt G hn hj h1
  have h4 := S.lin n j hn hj h1
  have h2' := h2
  rw [h4] at h2'
  have hsg := abs_step (S.slope.abs hj) h2'
  have hd1 : |δ j| = 1 := by rcases hsg with ⟨_, q⟩ | ⟨_, q⟩ <;> rw [q] <;> norm_num
  have hd0 : δ j ≠ 0 := fun h => by rw [h] at hd1; norm_num at hd1
  have hjn : nb m n j ≠ n := fun e => by rw [e] at h3; exact hnf h3
  have hin : ∀ t : Bool × ℝ × ℝ × ℝ, t.1 = false → (frontV m { s with st := Function.update s.st n .frozen } n j t).2.2 = (1, s.vel (nb m n j)) := by
    intro t ht
    unfold frontV
    rw [if_pos ⟨h1, by simp only [Function.update_of_ne hjn]; exact h3, by simp [ht]⟩]
    show (|s.sd n - s.sd (nb m n j)|, s.vel (nb m n j)) = _
    rw [E.frozen _ hlt h3, (E.trial n hn hs).1, h4, show g n - (g n + δ j) = -δ j by ring, abs_neg, hd1]
  have hopp : ∀ j', j' < 4 → δ j' = -δ j → ∀ t, frontV m { s with st := Function.update s.st n .frozen } n j' t = t := by
    intro j' hj' e t
    by_cases k1 : nb m n j' = m.nNodes
    · exact front_not (.inl k1) (by rw [k1]; omega) t
    · have hlt' := nb_lt G hn hj' k1
      have hl := S.lin n j' hn hj' k1
      refine front_not (.inr fun k2 => ?_) (fun k2 => ?_) t
      · have := E.below _ n hlt' hn k2 hnf
        rw [hl, e] at this
        rcases hsg with ⟨p, q⟩ | ⟨p, q⟩
        · rw [q, abs_of_pos p, abs_of_pos (by linarith)] at this; linarith
        · rw [q, abs_of_neg p, abs_of_neg (by linarith)] at this; linarith
      · rw [k2, e] at hl
        exact hd0 (by linarith)
  have fin : ∀ i i' : Nat, (i = 0 ∧ i' = 1 ∨ i = 1 ∧ i' = 0) → (fronts m { s with st := Function.update s.st n .frozen } n i).2.2 = (1, s.vel (nb m n j)) →
      (fronts m { s with st := Function.update s.st n .frozen } n i').2.2.1 = 0 →
      velDen m { s with st := Function.update s.st n .frozen } n = 1 ∧ velV m { s with st := Function.update s.st n .frozen } n = s.vel (nb m n j) := by
    intro i i' hii a b
    unfold velV velDen
    rcases hii with ⟨rfl, rfl⟩ | ⟨rfl, rfl⟩ <;> rw [a, b] <;> simp
  have hj' : j = 0 ∨ j = 1 ∨ j = 2 ∨ j = 3 := by omega
  rcases S.slope with ⟨a, b, c, d⟩ | ⟨a, b, c, d⟩
  · refine fin 0 1 (.inl ⟨rfl, rfl⟩) ?_ (front_flat G S E hn hs (by norm_num) d _ (front_flat G S E hn hs (by norm_num) c _ (by simp)))
    unfold fronts
    rcases hj' with rfl | rfl | rfl | rfl
    · rw [hopp 1 (by norm_num) a]; exact hin _ rfl
    · rw [hopp 0 (by norm_num) (by rw [a]; ring)]; exact hin _ rfl
    · exact absurd c hd0
    · exact absurd d hd0
  · refine fin 1 0 (.inr ⟨rfl, rfl⟩) ?_ (front_flat G S E hn hs (by norm_num) d _ (front_flat G S E hn hs (by norm_num) c _ (by simp)))
    unfold fronts
    rcases hj' with rfl | rfl | rfl | rfl
    · exact absurd c hd0
    · exact absurd d hd0
    · rw [hopp 3 (by norm_num) a]; exact hin _ rfl
    · rw [hopp 2 (by norm_num) (by rw [a]; ring)]; exact hin _ rfl

theorem Exactly.init {s0 : AS ℝ} (S : Setting m C g δ s0) : Exactly m ad g s0 s0 where
  unmasked n hn := by rcases S.kind n hn with h | h <;> rw [h] <;> simp
  old n hn h := h
  frozen := S.start
  trial n hn h := by rcases S.kind n hn with h' | h' <;> rw [h'] at h <;> cases h
  below := S.below
  adm n hn h := by rcases S.kind n hn with h' | h' <;> rw [h'] at h <;> cases h

theorem Exactly.run (G : IsGrid w h m) {s0 s : AS ℝ} {l : List Event} (S : Setting m C g δ s0) (had : ∀ i n, i < m.nNodes → n < m.nNodes → ad n → ¬ ad i → |g n| ≤ |g i|)
    (r : Run m C iv ad s0 l s) : Exactly m ad g s0 s := by
  induction r with
  | nil => exact Exactly.init S
  | snoc r hm ih => exact ih.step G S had hm

/-- Velocities are carried along the direction of the slope. -/
structure Carried (m : Mesh ℝ) (g : Nat → ℝ) (s0 s : AS ℝ) : Prop where
  start : ∀ n, n < m.nNodes → s0.st n = .frozen → s.vel n = s0.vel n
  carry : ∀ n j, n < m.nNodes → s.st n = .frozen → s0.st n ≠ .frozen → j < 4 → nb m n j ≠ m.nNodes → |g (nb m n j)| = |g n| - 1 →
    s.st (nb m n j) = .frozen ∧ s.vel n = s.vel (nb m n j)

theorem slope_unique (S : Sloped δ) {x : ℝ} {j k : Nat} (hj : j < 4) (hk : k < 4) (h1 : |x + δ j| = |x| - 1) (h2 : |x + δ k| = |x| - 1) : j = k := by
  have h6 := abs_step (S.abs hj) h1
  have h7 := abs_step (S.abs hk) h2
  have h8 : δ k = δ j := by
    rcases h6 with ⟨p, q⟩ | ⟨p, q⟩ <;> rcases h7 with ⟨p', q'⟩ | ⟨p', q'⟩
    · rw [q, q']
    · linarith
    · linarith
    · rw [q, q']
  have hd1 : δ j ≠ 0 := by rcases h6 with ⟨_, q⟩ | ⟨_, q⟩ <;> rw [q] <;> norm_num
  have e1 : j = 0 ∨ j = 1 ∨ j = 2 ∨ j = 3 := by omega
  have e2 : k = 0 ∨ k = 1 ∨ k = 2 ∨ k = 3 := by omega
  rcases S with ⟨x1, x2, x3, x4⟩ | ⟨x1, x2, x3, x4⟩ <;> rcases e1 with rfl | rfl | rfl | rfl <;>
    rcases e2 with rfl | rfl | rfl | rfl <;> first | rfl | (exfalso; apply hd1; linarith)

theorem Carried.step (G : IsGrid w h m) {s0 s s' : AS ℝ} {e : Event} (S : Setting m C g δ s0) (E : Exactly m ad g s0 s) (K : Carried m g s0 s)
    (r : Micro m C true ad s e s') : Carried m g s0 s' := by
  cases r with
  | discover n hn hs ha hf =>
    have hk : ∀ k, s.st k = .frozen → k ≠ n := fun k hk h => by rw [h, hs] at hk; cases hk
    refine ⟨K.start, fun k j hk0 h1 h2 hj h3 h4 => ?_⟩
    have : s.st k = .frozen := by
      by_cases e : k = n
      · subst e; simp at h1
      · simpa [Function.update_of_ne e] using h1
    obtain ⟨a, b⟩ := K.carry k j hk0 this h2 hj h3 h4
    refine ⟨?_, b⟩
    simp only [Function.update_of_ne (hk _ a)]
    exact a
  | estimate n hn hs => exact ⟨K.start, K.carry⟩
  | freeze n hn hs hmin hden hband =>
    have hnf : s.st n ≠ .frozen := by rw [hs]; simp
    have hk : ∀ k, s.st k = .frozen → k ≠ n := fun k hk h => hnf (h ▸ hk)
    obtain ⟨hv, j, hj, h1, h2, h3⟩ := E.trial n hn hs
    have hw := (velocity_weights G S E hn hs hj h1 h2 h3).2
    refine ⟨fun k hk0 h => ?_, fun k i hk0 k1 k2 hi k3 k4 => ?_⟩
    · simp only [if_true, Function.update_of_ne (hk k (E.old k hk0 h))]
      exact K.start k hk0 h
    · by_cases e : k = n
      · subst e
        have hij : i = j := by
          rw [S.lin k i hn hi k3] at k4
          rw [S.lin k j hn hj h1] at h2
          exact slope_unique S.slope hi hj k4 h2
        subst hij
        simp only [if_true, Function.update_of_ne (hk _ h3), Function.update_self]
        exact ⟨h3, hw⟩
      · simp only [Function.update_of_ne e] at k1
        obtain ⟨a, b⟩ := K.carry k i hk0 k1 k2 hi k3 k4
        simp only [if_true, Function.update_of_ne (hk _ a), Function.update_of_ne e]
        exact ⟨a, b⟩

theorem Carried.run (G : IsGrid w h m) {s0 s : AS ℝ} {l : List Event} (S : Setting m C g δ s0) (had : ∀ i n, i < m.nNodes → n < m.nNodes → ad n → ¬ ad i → |g n| ≤ |g i|)
    (r : Run m C true ad s0 l s) : Carried m g s0 s := by
  induction r with
  | nil => exact ⟨fun _ _ _ => rfl, fun n j hn h1 h2 => absurd h1 h2⟩
  | snoc r hm ih => exact ih.step G S (Exactly.run G S had r) hm

/-- The extension does not get stuck. -/
theorem not_stuck (G : IsGrid w h m) {s0 : AS ℝ} (S : Setting m C g δ s0) (had : ∀ i n, i < m.nNodes → n < m.nNodes → ad n → ¬ ad i → |g n| ≤ |g i|) :
    ¬ Stuck m C iv ad s0 := by
  rintro ⟨-, s, n, ⟨l, r⟩, hn, hs, -, -, hden⟩
  have E := Exactly.run G S had r
  obtain ⟨-, j, hj, h1, h2, h3⟩ := E.trial n hn hs
  rw [(velocity_weights G S E hn hs hj h1 h2 h3).1] at hden
  simp at hden

end

section
variable {w h : Nat} {m : Mesh ℝ} {f : Nat → ℝ} {a b d : ℝ}

/-- distance of a node from the line -/
noncomputable def lineG (w : Nat) (a b d : ℝ) (i : Nat) : ℝ := a * ((i % (w + 1) : Nat) : ℝ) + b * ((i / (w + 1) : Nat) : ℝ) - d

noncomputable def lineδ (a b : ℝ) (j : Nat) : ℝ := if j = 0 then -a else if j = 1 then a else if j = 2 then -b else b

theorem lineG_node {x y : Nat} (hx : x ≤ w) : lineG w a b d (nodeNo w x y) = a * x + b * y - d := by
  unfold lineG nodeNo
  rw [show (x + y * (w + 1)) % (w + 1) = x by rw [Nat.add_mul_mod_self_right]; exact Nat.mod_eq_of_lt (by omega),
    show (x + y * (w + 1)) / (w + 1) = y by rw [Nat.add_mul_div_right _ _ (by omega), Nat.div_eq_of_lt (by omega)]; omega]

theorem lineG_linear (G : IsGrid w h m) : LinearOn m (lineG w a b d) (lineδ a b) := by
  intro n j hn hj hne
  obtain ⟨x, y, hx, hy, rfl⟩ := G.node_index hn
  rw [nb_value G hx hy] at hne ⊢
  rw [G.nNodes] at hne
  have hj' : j = 0 ∨ j = 1 ∨ j = 2 ∨ j = 3 := by omega
  rw [lineG_node hx]
  rcases hj' with rfl | rfl | rfl | rfl
  · obtain ⟨u, v, e1, e2, hu, hv, e⟩ := nodeNoOr_ne (x := (x : ℤ) - 1) (y := y) hne
    show lineG w a b d (nodeNoOr w h (x - 1) y) = _
    rw [e, lineG_node hu]
    have : (x : ℝ) - 1 = u := by exact_mod_cast e1
    have : (y : ℝ) = v := by exact_mod_cast e2
    unfold lineδ
    simp only [if_true]
    rw [← this, ← ‹(x : ℝ) - 1 = u›]; ring
  · obtain ⟨u, v, e1, e2, hu, hv, e⟩ := nodeNoOr_ne (x := (x : ℤ) + 1) (y := y) hne
    show lineG w a b d (nodeNoOr w h (x + 1) y) = _
    rw [e, lineG_node hu]
    have : (x : ℝ) + 1 = u := by exact_mod_cast e1
    have : (y : ℝ) = v := by exact_mod_cast e2
    unfold lineδ
    norm_num
    rw [← this, ← ‹(x : ℝ) + 1 = u›]; ring
  · obtain ⟨u, v, e1, e2, hu, hv, e⟩ := nodeNoOr_ne (x := (x : ℤ)) (y := (y : ℤ) - 1) hne
    show lineG w a b d (nodeNoOr w h x (y - 1)) = _
    rw [e, lineG_node hu]
    have : (x : ℝ) = u := by exact_mod_cast e1
    have : (y : ℝ) - 1 = v := by exact_mod_cast e2
    unfold lineδ
    norm_num
    rw [← this, ← ‹(x : ℝ) = u›]; ring
  · obtain ⟨u, v, e1, e2, hu, hv, e⟩ := nodeNoOr_ne (x := (x : ℤ)) (y := (y : ℤ) + 1) hne
    show lineG w a b d (nodeNoOr w h x (y + 1)) = _
    rw [e, lineG_node hu]
    have : (x : ℝ) = u := by exact_mod_cast e1
    have : (y : ℝ) + 1 = v := by exact_mod_cast e2
    unfold lineδ
    norm_num
    rw [← this, ← ‹(x : ℝ) = u›]; ring

theorem lineδ_sloped (hax : (|a| = 1 ∧ b = 0) ∨ (a = 0 ∧ |b| = 1)) : Sloped (lineδ a b) := by
  unfold Sloped lineδ
  rcases hax with ⟨h1, h2⟩ | ⟨h1, h2⟩
  · left; simp [h1, h2]
  · right; simp [h1, h2]

/-- Towards the line there is a neighbour. -/
theorem line_toward (hax : (|a| = 1 ∧ b = 0) ∨ (a = 0 ∧ |b| = 1)) (hm : ∃ X Y : ℝ, 0 ≤ X ∧ X ≤ w ∧ 0 ≤ Y ∧ Y ≤ h ∧ a * X + b * Y = d)
    {x y : Nat} (hx : x ≤ w) (hy : y ≤ h) (h0 : a * x + b * y - d ≠ 0) :
    ∃ u v : Nat, u ≤ w ∧ v ≤ h ∧ Adj w h (nodeNo w x y) (nodeNo w u v) ∧
      ((0 < a * x + b * y - d ∧ a * u + b * v - d = a * x + b * y - d - 1) ∨ (a * x + b * y - d < 0 ∧ a * u + b * v - d = a * x + b * y - d + 1)) := by
  obtain ⟨X, Y, hX0, hX1, hY0, hY1, he⟩ := hm
  have left : ∀ X : ℝ, 0 ≤ X → X < x → ∃ u : Nat, u ≤ w ∧ x = u + 1 := by
    intro X h0 h1
    have : (0 : ℝ) < x := by linarith
    have : 0 < x := by exact_mod_cast this
    exact ⟨x - 1, by omega, by omega⟩
  have right : ∀ X : ℝ, X ≤ w → (x : ℝ) < X → x + 1 ≤ w := by
    intro X h0 h1
    have : (x : ℝ) < w := by linarith
    exact_mod_cast this
  have down : ∀ X : ℝ, 0 ≤ X → X < y → ∃ u : Nat, u ≤ h ∧ y = u + 1 := by
    intro X h0 h1
    have : (0 : ℝ) < y := by linarith
    have : 0 < y := by exact_mod_cast this
    exact ⟨y - 1, by omega, by omega⟩
  have up : ∀ X : ℝ, X ≤ h → (y : ℝ) < X → y + 1 ≤ h := by
    intro X h0 h1
    have : (y : ℝ) < h := by linarith
    exact_mod_cast this
  rcases hax with ⟨h1, rfl⟩ | ⟨rfl, h1⟩ <;> rcases (abs_eq (by norm_num : (0 : ℝ) ≤ 1)).1 h1 with rfl | rfl <;>
    rcases lt_or_gt_of_ne h0 with h | h
  · have := right X hX1 (by linarith)
    exact ⟨x + 1, y, this, hy, .inl ⟨x, x + 1, y, hx, this, hy, rfl, rfl, .inl rfl⟩, .inr ⟨h, by push_cast; ring⟩⟩
  · obtain ⟨u, hu, e⟩ := left X hX0 (by linarith)
    refine ⟨u, y, hu, hy, .inl ⟨x, u, y, hx, hu, hy, rfl, rfl, .inr e⟩, .inl ⟨h, by rw [e]; push_cast; ring⟩⟩
  · obtain ⟨u, hu, e⟩ := left X hX0 (by linarith)
    refine ⟨u, y, hu, hy, .inl ⟨x, u, y, hx, hu, hy, rfl, rfl, .inr e⟩, .inr ⟨h, by rw [e]; push_cast; ring⟩⟩
  · have := right X hX1 (by linarith)
    exact ⟨x + 1, y, this, hy, .inl ⟨x, x + 1, y, hx, this, hy, rfl, rfl, .inl rfl⟩, .inl ⟨h, by push_cast; ring⟩⟩
  · have := up Y hY1 (by linarith)
    exact ⟨x, y + 1, hx, this, .inr ⟨x, y, y + 1, hx, hy, this, rfl, rfl, .inl rfl⟩, .inr ⟨h, by push_cast; ring⟩⟩
  · obtain ⟨u, hu, e⟩ := down Y hY0 (by linarith)
    refine ⟨x, u, hx, hu, .inr ⟨x, y, u, hx, hy, hu, rfl, rfl, .inr e⟩, .inl ⟨h, by rw [e]; push_cast; ring⟩⟩
  · obtain ⟨u, hu, e⟩ := down Y hY0 (by linarith)
    refine ⟨x, u, hx, hu, .inr ⟨x, y, u, hx, hy, hu, rfl, rfl, .inr e⟩, .inr ⟨h, by rw [e]; push_cast; ring⟩⟩
  · have := up Y hY1 (by linarith)
    exact ⟨x, y + 1, hx, this, .inr ⟨x, y, y + 1, hx, hy, this, rfl, rfl, .inl rfl⟩, .inl ⟨h, by push_cast; ring⟩⟩

theorem sameSide_eq {x y : ℝ} (s : SameSide x y) : (0 < x ↔ 0 < y) ∧ (x < 0 ↔ y < 0) ∧ (x = 0 ↔ y = 0) := by
  rcases s with ⟨h1, h2⟩ | ⟨h1, h2⟩ | ⟨h1, h2⟩
  · exact ⟨⟨fun _ => h2, fun _ => h1⟩, ⟨fun h => absurd h (not_lt.2 h1.le), fun h => absurd h (not_lt.2 h2.le)⟩, ⟨fun h => absurd h h1.ne', fun h => absurd h h2.ne'⟩⟩
  · exact ⟨⟨fun h => absurd h (not_lt.2 h1.le), fun h => absurd h (not_lt.2 h2.le)⟩, ⟨fun _ => h2, fun _ => h1⟩, ⟨fun h => absurd h h1.ne, fun h => absurd h h2.ne⟩⟩
  · subst h1; subst h2; simp

variable (B : StraightBoundary w h (fun x y => f (nodeNo w x y)) a b d)
include B

theorem line_side (G : IsGrid w h m) {n : Nat} (hn : n < m.nNodes) : SameSide (f n) (lineG w a b d n) := by
  obtain ⟨x, y, hx, hy, rfl⟩ := G.node_index hn
  rw [lineG_node hx]
  exact B.side x y hx hy

/-- Slopes along the two axes. -/
theorem line_step {i n : Nat} (ha : HAdj w h i n) : lineG w a b d n = lineG w a b d i + a ∨ lineG w a b d n = lineG w a b d i - a := by
  obtain ⟨x, x', y, hx, hx', hy, rfl, rfl, e⟩ := ha
  rw [lineG_node hx, lineG_node hx']
  rcases e with rfl | rfl
  · left; push_cast; ring
  · right; push_cast; ring

theorem line_step' {i n : Nat} (ha : VAdj w h i n) : lineG w a b d n = lineG w a b d i + b ∨ lineG w a b d n = lineG w a b d i - b := by
  obtain ⟨x, y, y', hx, hy, hy', rfl, rfl, e⟩ := ha
  rw [lineG_node hx, lineG_node hx]
  rcases e with rfl | rfl
  · left; push_cast; ring
  · right; push_cast; ring

/-- The zero on a cut edge divides it as the distances say. -/
theorem line_ratio (G : IsGrid w h m) {i n : Nat} (ha : Adj w h i n) (hs : f i * f n < 0) : f i * lineG w a b d n = f n * lineG w a b d i := by
  have key : ∀ (x y : ℝ), x * y < 0 → x - y ≠ 0 := fun x y hxy h0 => by
    have : x = y := by linarith
    rw [this] at hxy
    exact absurd hxy (not_lt.2 (mul_self_nonneg y))
  rcases ha with ⟨x, x', y, hx, hx', hy, rfl, rfl, e⟩ | ⟨x, y, y', hx, hy, hy', rfl, rfl, e⟩
  · rcases e with rfl | rfl
    · have hp := B.place (.hor x y) (by
        intro q hq
        simp only [Place.ends, List.mem_cons, List.not_mem_nil, or_false] at hq
        rcases hq with rfl | rfl <;> exact ⟨by assumption, hy⟩) hs
      rw [lineG_node hx, lineG_node hx']
      simp only [Place.coord] at hp
      have h0 := key _ _ hs
      have : a * f (nodeNo w x y) = (d - a * x - b * y) * (f (nodeNo w x y) - f (nodeNo w (x + 1) y)) := by
        field_simp at hp
        linarith
      push_cast
      linarith
    · have hs' : f (nodeNo w x' y) * f (nodeNo w (x' + 1) y) < 0 := by rw [mul_comm]; exact hs
      have hp := B.place (.hor x' y) (by
        intro q hq
        simp only [Place.ends, List.mem_cons, List.not_mem_nil, or_false] at hq
        rcases hq with rfl | rfl <;> exact ⟨by assumption, hy⟩) hs'
      rw [lineG_node hx, lineG_node hx']
      simp only [Place.coord] at hp
      have h0 := key _ _ hs'
      have : a * f (nodeNo w x' y) = (d - a * x' - b * y) * (f (nodeNo w x' y) - f (nodeNo w (x' + 1) y)) := by
        field_simp at hp
        linarith
      push_cast
      linarith
  · rcases e with rfl | rfl
    · have hp := B.place (.ver x y) (by
        intro q hq
        simp only [Place.ends, List.mem_cons, List.not_mem_nil, or_false] at hq
        rcases hq with rfl | rfl <;> exact ⟨hx, by assumption⟩) hs
      rw [lineG_node hx, lineG_node hx]
      simp only [Place.coord] at hp
      have h0 := key _ _ hs
      have : b * f (nodeNo w x y) = (d - a * x - b * y) * (f (nodeNo w x y) - f (nodeNo w x (y + 1))) := by
        field_simp at hp
        linarith
      push_cast
      linarith
    · have hs' : f (nodeNo w x y') * f (nodeNo w x (y' + 1)) < 0 := by rw [mul_comm]; exact hs
      have hp := B.place (.ver x y') (by
        intro q hq
        simp only [Place.ends, List.mem_cons, List.not_mem_nil, or_false] at hq
        rcases hq with rfl | rfl <;> exact ⟨hx, by assumption⟩) hs'
      rw [lineG_node hx, lineG_node hx]
      simp only [Place.coord] at hp
      have h0 := key _ _ hs'
      have : b * f (nodeNo w x y') = (d - a * x - b * y') * (f (nodeNo w x y') - f (nodeNo w x (y' + 1))) := by
        field_simp at hp
        linarith
      push_cast
      linarith

theorem line_opposite (G : IsGrid w h m) {i n : Nat} (hi : i < m.nNodes) (hn : n < m.nNodes) : f i * f n < 0 ↔ lineG w a b d i * lineG w a b d n < 0 :=
  LevelSet.sameSide_mul (line_side B G hi) (line_side B G hn)

/-- The nodes on or next to the boundary are those at a distance less than one. -/
theorem line_interface (G : IsGrid w h m) {n : Nat} (hn : n < m.nNodes) : OnInterface w h f n ↔ |lineG w a b d n| < 1 := by
  have hs := sameSide_eq (line_side B G hn)
  constructor
  · rintro (h0 | ⟨k, ha, ho⟩)
    · have : f n = 0 := by simpa using h0
      rw [hs.2.2.1 this]; norm_num
    · have hk : k < m.nNodes := by rw [G.nNodes]; exact (adj_lt ha).2
      have ho : f n * f k < 0 := by simpa [Opposite] using ho
      rw [line_opposite B G hn hk] at ho
      have hstep : |lineG w a b d k - lineG w a b d n| ≤ 1 := by
        rcases ha with ha | ha
        · rcases line_step B ha with e | e <;> rw [e] <;> rcases B.axis with ⟨h1, -⟩ | ⟨h1, -⟩
          · rw [add_sub_cancel_left, h1]
          · rw [add_sub_cancel_left, h1]; norm_num
          · rw [show ∀ x : ℝ, x - a - x = -a by intro x; ring, abs_neg, h1]
          · rw [show ∀ x : ℝ, x - a - x = -a by intro x; ring, abs_neg, h1]; norm_num
        · rcases line_step' B ha with e | e <;> rw [e] <;> rcases B.axis with ⟨-, h1⟩ | ⟨-, h1⟩
          · rw [add_sub_cancel_left, h1]; norm_num
          · rw [add_sub_cancel_left, h1]
          · rw [show ∀ x : ℝ, x - b - x = -b by intro x; ring, abs_neg, h1]; norm_num
          · rw [show ∀ x : ℝ, x - b - x = -b by intro x; ring, abs_neg, h1]
      rw [abs_le] at hstep
      rw [abs_lt]
      rcases mul_neg_iff.1 ho with ⟨p, q⟩ | ⟨p, q⟩ <;> constructor <;> linarith
  · intro hlt
    by_cases h0 : lineG w a b d n = 0
    · exact .inl (by simpa using hs.2.2.2 h0)
    · obtain ⟨x, y, hx, hy, rfl⟩ := G.node_index hn
      rw [lineG_node hx] at h0 hlt
      obtain ⟨u, v, hu, hv, ha, e⟩ := line_toward B.axis B.meets hx hy h0
      refine .inr ⟨_, ha, ?_⟩
      have : f (nodeNo w x y) * f (nodeNo w u v) < 0 := by
        rw [line_opposite B G hn (by rw [G.nNodes]; exact nodeNo_lt hu hv), lineG_node hx, lineG_node hu]
        rw [abs_lt] at hlt
        rcases e with ⟨p, q⟩ | ⟨p, q⟩ <;> rw [q]
        · exact mul_neg_of_pos_of_neg p (by linarith)
        · exact mul_neg_of_neg_of_pos p (by linarith)
      simpa [Opposite] using this

theorem line_crossing (G : IsGrid w h m) {i n : Nat} {c : ℝ} (hi : i < m.nNodes) (ha : Adj w h i n) (hs : f i * f n < 0)
    (hc : lineG w a b d n = lineG w a b d i + c ∨ lineG w a b d n = lineG w a b d i - c) : c ≠ 0 ∧ f i / (f i - f n) = |lineG w a b d i| / |c| := by
  have hn : n < m.nNodes := by rw [G.nNodes]; exact (adj_lt ha).2
  have ho := (line_opposite B G hi hn).1 hs
  have hr := line_ratio B G ha hs
  have hc0 : c ≠ 0 := by
    rintro rfl
    have : lineG w a b d n = lineG w a b d i := by rcases hc with e | e <;> rw [e] <;> ring
    rw [this] at ho
    exact absurd ho (not_lt.2 (mul_self_nonneg _))
  refine ⟨hc0, ?_⟩
  have h1 : f i - f n ≠ 0 := fun h0 => by
    have : f i = f n := by linarith
    rw [this] at hs
    exact absurd hs (not_lt.2 (mul_self_nonneg _))
  have hpos : 0 < f i / (f i - f n) := by
    rcases mul_neg_iff.1 hs with ⟨p, q⟩ | ⟨p, q⟩
    · exact div_pos p (by linarith)
    · exact div_pos_of_neg_of_neg p (by linarith)
  have h2 : lineG w a b d i - lineG w a b d n ≠ 0 := fun h0 => by
    have : lineG w a b d i = lineG w a b d n := by linarith
    rw [this] at ho
    exact absurd ho (not_lt.2 (mul_self_nonneg _))
  have h3 : f i / (f i - f n) = lineG w a b d i / (lineG w a b d i - lineG w a b d n) := by
    rw [div_eq_div_iff h1 h2]; linarith
  rw [← abs_of_pos hpos, h3, abs_div]
  congr 1
  rcases hc with e | e <;> rw [e]
  · rw [show ∀ x : ℝ, x - (x + c) = -c by intro x; ring, abs_neg]
  · rw [show ∀ x : ℝ, x - (x - c) = c by intro x; ring]

/-- Nodes on or next to the boundary get their distance. -/
theorem line_init (G : IsGrid w h m) {i : Nat} (hi : i < m.nNodes) (hI : OnInterface w h f i) : initSd m f i = lineG w a b d i := by
  classical
  have hs := sameSide_eq (line_side B G hi)
  rw [initSd_real G f hi]
  by_cases h0 : f i = 0
  · rw [if_pos h0, hs.2.2.1 h0]
  · rw [if_neg h0]
    have hex : ∃ n, Adj w h i n ∧ f i * f n < 0 := by
      rcases hI with hI | ⟨n, ha, ho⟩
      · exact absurd (by simpa using hI) h0
      · exact ⟨n, ha, by simpa [Opposite] using ho⟩
    have hg0 : lineG w a b d i ≠ 0 := fun h => h0 (hs.2.2.2 h)
    rw [if_pos hex, borderDist_eq G f hi]
    have e1 : invSq (crossings (HAdj w h) f i) = a ^ 2 / lineG w a b d i ^ 2 := by
      apply invSq_line
      · intro ha0
        obtain ⟨n, ha, ho⟩ := hex
        rcases ha with ha | ha
        · exact ⟨_, n, ha, ho, rfl⟩
        · have := (line_crossing B G hi (.inr ha) ho (line_step' B ha)).1
          rcases B.axis with ⟨-, h⟩ | ⟨h, -⟩
          · exact absurd h this
          · exact absurd h ha0
      · rintro _ ⟨n, ha, ho, rfl⟩
        exact line_crossing B G hi (.inl ha) ho (line_step B ha)
    have e2 : invSq (crossings (VAdj w h) f i) = b ^ 2 / lineG w a b d i ^ 2 := by
      apply invSq_line
      · intro ha0
        obtain ⟨n, ha, ho⟩ := hex
        rcases ha with ha | ha
        · have := (line_crossing B G hi (.inl ha) ho (line_step B ha)).1
          rcases B.axis with ⟨-, h⟩ | ⟨h, -⟩
          · exact absurd h ha0
          · exact absurd h this
        · exact ⟨_, n, ha, ho, rfl⟩
      · rintro _ ⟨n, ha, ho, rfl⟩
        exact line_crossing B G hi (.inr ha) ho (line_step' B ha)
    have hab : a ^ 2 + b ^ 2 = 1 := by
      rcases B.axis with ⟨h1, h2⟩ | ⟨h1, h2⟩
      · rw [h2, ← sq_abs a, h1]; norm_num
      · rw [h1, ← sq_abs b, h2]; norm_num
    rw [e1, e2, ← add_div, hab, Real.sqrt_div zero_le_one, Real.sqrt_one, Real.sqrt_sq_eq_abs, one_div_one_div]
    split_ifs with hneg
    · rw [abs_of_neg (hs.2.1.1 hneg), neg_neg]
    · exact abs_of_pos (hs.1.1 (lt_of_le_of_ne (not_lt.1 hneg) (Ne.symm h0)))

theorem line_abs_le {x y : Nat} (hx : x ≤ w) (hy : y ≤ h) : |a * x + b * y - d| ≤ (w : ℝ) + h := by
  obtain ⟨X, Y, hX0, hX1, hY0, hY1, he⟩ := B.meets
  have hx' : (x : ℝ) ≤ w := by exact_mod_cast hx
  have hy' : (y : ℝ) ≤ h := by exact_mod_cast hy
  have hx0 : (0 : ℝ) ≤ x := by positivity
  have hy0 : (0 : ℝ) ≤ y := by positivity
  rw [← he]
  have h0 : (0 : ℝ) ≤ w := by positivity
  have h1 : (0 : ℝ) ≤ h := by positivity
  rcases B.axis with ⟨h1, rfl⟩ | ⟨rfl, h1⟩ <;> rcases (abs_eq (by norm_num : (0 : ℝ) ≤ 1)).1 h1 with rfl | rfl <;> rw [abs_le] <;> constructor <;> linarith

theorem line_setting (G : IsGrid w h m) {C : Nat → ℝ} (hC : ∀ i, i < m.nNodes → C i = f i) {s0 : AS ℝ} (hbig : (w : ℝ) + h < FP.maxVal)
    (h0 : ∀ i, i < m.nNodes → s0.st i = initSt m f i ∧ s0.sd i = initSd m f i) : Setting m C (lineG w a b d) (lineδ a b) s0 := by
  have hfr : ∀ i, i < m.nNodes → (s0.st i = .frozen ↔ |lineG w a b d i| < 1) := fun i hi => by
    rw [(h0 i hi).1, initSt_iff G f hi, line_interface B G hi]
  refine ⟨lineδ_sloped B.axis, lineG_linear G, fun n hn => ?_, fun n hn hs => ?_, fun n hn => ?_, fun n k hn hk h1 h2 => ?_, fun n hn hs => ?_, fun n hn hs => ?_⟩
  · obtain ⟨x, y, hx, hy, rfl⟩ := G.node_index hn
    rw [lineG_node hx]
    exact lt_of_le_of_lt (line_abs_le B hx hy) hbig
  · rw [(h0 n hn).2]
    exact line_init B G hn ((line_interface B G hn).2 ((hfr n hn).1 hs))
  · rw [(h0 n hn).1]
    exact initSt_cases f n
  · rw [hfr n hn] at h1
    rw [Ne, hfr k hk, not_lt] at h2
    linarith
  · rw [Ne, hfr n hn, not_lt] at hs
    obtain ⟨x, y, hx, hy, rfl⟩ := G.node_index hn
    rw [lineG_node hx] at hs
    obtain ⟨u, v, hu, hv, ha, e⟩ := line_toward B.axis B.meets hx hy (fun h => by rw [h] at hs; norm_num at hs)
    obtain ⟨h1, j, hj, h2⟩ := (adj_iff G hn).1 ha
    refine ⟨j, hj, by rw [h2]; exact h1, ?_⟩
    rw [h2, lineG_node hx, lineG_node hu]
    rcases e with ⟨p, q⟩ | ⟨p, q⟩ <;> rw [q]
    · rw [abs_of_pos p] at hs ⊢; rw [abs_of_nonneg (by linarith)]
    · rw [abs_of_neg p] at hs ⊢; rw [abs_of_nonpos (by linarith)]; ring
  · rw [Ne, hfr n hn, not_lt] at hs
    rw [hC n hn]
    have hsd := sameSide_eq (line_side B G hn)
    constructor
    · intro hp
      obtain ⟨x, y, hx, hy, rfl⟩ := G.node_index hn
      rw [abs_of_pos hp, lineG_node hx] at hs
      have := B.clear x y hx hy hs
      rw [eps_real]
      exact this
    · intro hp
      have := hsd.2.1.2 hp
      rw [eps_real, not_lt]
      have : (0 : ℝ) < 1 / 2 ^ 52 := by positivity
      linarith

/-- The march on a straight boundary. -/
theorem march_line (G : IsGrid w h m) (hbig : (w : ℝ) + h < FP.maxVal) {sd : List ℝ} (hf : vals sd = f) (hsd : sd.length = m.nNodes) {F' : FMM ℝ} {t : Bool}
    (hok : marchDistance m sd (FMM.new m t) = .ok F') {i : Nat} (hi : i < m.nNodes) : vals F'.sd i = lineG w a b d i := by
  have M := marched G hsd hok
  obtain ⟨s0, h0, C, hC, l, r⟩ := M.steps
  rw [hf] at h0 hC
  have S := line_setting B G hC hbig fun i hi => ⟨(h0 i hi).1, (h0 i hi).2.1⟩
  have E := Exactly.run G S (fun i n _ _ _ h => absurd (by rw [adm_false]; trivial) h) r
  have hfin : F'.st i = .frozen := by
    obtain ⟨s0, s', l, C, -, h1⟩ := C15_every_node_once G hsd hok
    have := (h1 i hi).2.2.1
    rw [status_get M.L hi] at this
    exact Option.some.inj this
  exact E.frozen i hi hfin

theorem line_has (G : IsGrid w h m) : HasInterface w h f := by
  obtain ⟨X, Y, hX0, hX1, hY0, hY1, he⟩ := B.meets
  have hfx : ⌊X⌋₊ ≤ w := by exact_mod_cast (Nat.floor_le hX0).trans hX1
  have hfy : ⌊Y⌋₊ ≤ h := by exact_mod_cast (Nat.floor_le hY0).trans hY1
  have hlt : nodeNo w ⌊X⌋₊ ⌊Y⌋₊ < (w + 1) * (h + 1) := nodeNo_lt hfx hfy
  refine ⟨_, hlt, (line_interface B G (by rw [G.nNodes]; exact hlt)).2 ?_⟩
  rw [lineG_node hfx, ← he]
  have a1 := Nat.floor_le hX0
  have a2 := Nat.lt_floor_add_one X
  have b1 := Nat.floor_le hY0
  have b2 := Nat.lt_floor_add_one Y
  rcases B.axis with ⟨h1, rfl⟩ | ⟨rfl, h1⟩ <;> rcases (abs_eq (by norm_num : (0 : ℝ) ≤ 1)).1 h1 with rfl | rfl <;> rw [abs_lt] <;> constructor <;> linarith

end

end FMM

end Slsm
