import Verif.Proof.BndHole

/-! Concrete level sets: a domain without holes, one hole in the middle, one hole at the edge. -/

namespace Slsm

open LevelSet Boundary

section
variable {w h : Nat} {moveLimit : ℝ} {bandWidth : Nat} {f : Bool} {L : LevelSet ℝ}

/-- Without holes the values are the distances to the edge of the domain. -/
theorem plain_level (hw : 1 ≤ w) (hh : 1 ≤ h) (hN : (w + 1) * (h + 1) < 2 ^ 31) (hb : bandWidth < 2 ^ 32)
    (e : new w h (.holes []) moveLimit bandWidth f = .ok L) {x y : ℕ} (hx : x ≤ w) (hy : y ≤ h) :
    level w L false x y = edgeDist w h x y := by
  refine (C23_holes_exact hw hh hN hb e hx hy).unique ⟨.inl rfl, ?_⟩
  rintro q (hq | ⟨_, hm, _⟩)
  · exact le_of_eq hq.symm
  · cases hm

theorem edgeDist_zero {x y : ℕ} (hx : x ≤ w) (hy : y ≤ h) : edgeDist w h x y = 0 ↔ x = 0 ∨ x = w ∨ y = 0 ∨ y = h := by
  unfold edgeDist
  simp only [Nat.min_def]
  split_ifs <;> omega

theorem side_nat (n : ℕ) : nodeSide (n : ℝ) = if n = 0 then .boundary else .inside := by
  split_ifs with h0
  · rw [nodeSide_boundary, h0]; norm_num
  · rw [nodeSide_inside]
    have : (1 : ℝ) ≤ n := by exact_mod_cast Nat.one_le_iff_ne_zero.2 h0
    norm_num
    linarith

theorem plain_side (hw : 1 ≤ w) (hh : 1 ≤ h) (hN : (w + 1) * (h + 1) < 2 ^ 31) (hb : bandWidth < 2 ^ 32)
    (e : new w h (.holes []) moveLimit bandWidth f = .ok L) {x y : ℕ} (hx : x ≤ w) (hy : y ≤ h) :
    nodeSide (level w L false x y) = if x = 0 ∨ x = w ∨ y = 0 ∨ y = h then .boundary else .inside := by
  rw [plain_level hw hh hN hb e hx hy, side_nat]
  simp only [edgeDist_zero hx hy]

theorem cornerEnds_none {a o b : NodeStatus} (ha : a ≠ .outside) (ho : o ≠ .outside) (hb : b ≠ .outside) :
    cornerEnds a o b = (if a = .boundary then 1 else 0) + (if b = .boundary then 1 else 0) := by
  unfold cornerEnds
  rw [if_neg (by tauto)]
  simp [ha, hb]

theorem plain_ends (hw : 2 ≤ w) (hh : 2 ≤ h) (hN : (w + 1) * (h + 1) < 2 ^ 31) (hb : bandWidth < 2 ^ 32)
    (e : new w h (.holes []) moveLimit bandWidth f = .ok L) {x y : ℕ} (hx : x ≤ w) (hy : y ≤ h) (hxy : x = 0 ∨ x = w ∨ y = 0 ∨ y = h) :
    latticeEnds w h (level w L false) x y = 2 := by
  have S : ∀ {x y : ℕ}, x ≤ w → y ≤ h → nodeSide (level w L false x y) = if x = 0 ∨ x = w ∨ y = 0 ∨ y = h then .boundary else .inside :=
    fun hx hy => plain_side (by omega) (by omega) hN hb e hx hy
  have N : ∀ {x y : ℕ}, x ≤ w → y ≤ h → nodeSide (level w L false x y) ≠ .outside := by
    intro x y hx hy
    rw [S hx hy]
    split_ifs <;> simp
  have B : ∀ {x y : ℕ}, x ≤ w → y ≤ h → (nodeSide (level w L false x y) = .boundary ↔ x = 0 ∨ x = w ∨ y = 0 ∨ y = h) := by
    intro x y hx hy
    rw [S hx hy]
    split_ifs with hc <;> simp [hc]
  have key : ∀ {P : Prop} [Decidable P] {x1 y1 x2 y2 x3 y3 : ℕ}, (P → x1 ≤ w ∧ y1 ≤ h ∧ x2 ≤ w ∧ y2 ≤ h ∧ x3 ≤ w ∧ y3 ≤ h) →
      (if P then cornerEnds (nodeSide (level w L false x1 y1)) (nodeSide (level w L false x2 y2)) (nodeSide (level w L false x3 y3)) else 0) =
      (if P then (if x1 = 0 ∨ x1 = w ∨ y1 = 0 ∨ y1 = h then 1 else 0) + (if x3 = 0 ∨ x3 = w ∨ y3 = 0 ∨ y3 = h then 1 else 0) else 0) := by
    intro P _ x1 y1 x2 y2 x3 y3 hP
    by_cases hp : P
    · obtain ⟨a1, a2, a3, a4, a5, a6⟩ := hP hp
      rw [if_pos hp, if_pos hp, cornerEnds_none (N a1 a2) (N a3 a4) (N a5 a6)]
      simp only [B a1 a2, B a5 a6]
    · rw [if_neg hp, if_neg hp]
  unfold latticeEnds
  rw [key (by omega), key (by omega), key (by omega), key (by omega)]
  have : (x = 0 ∨ x = w ∨ (0 < x ∧ x < w)) := by omega
  have : (y = 0 ∨ y = h ∨ (0 < y ∧ y < h)) := by omega
  clear key B N S e hN hb
  split_ifs <;> (try simp only [false_or] at *) <;> omega

theorem plain_tidy (hw : 2 ≤ w) (hh : 2 ≤ h) (hN : (w + 1) * (h + 1) < 2 ^ 31) (hb : bandWidth < 2 ^ 32)
    (e : new w h (.holes []) moveLimit bandWidth f = .ok L) : Tidy w h (level w L false) := by
  refine ⟨fun x y hx hy => ?_, fun x y hx hy hc => ?_⟩
  · by_contra hc
    push Not at hc
    simp only [List.mem_cons, List.not_mem_nil, or_false, forall_eq_or_imp, forall_eq] at hc
    have h1 := plain_side (by omega) (by omega) hN hb e (x := x) (y := y) (by omega) (by omega)
    have h2 := plain_side (by omega) (by omega) hN hb e (x := x + 1) (y := y) (by omega) (by omega)
    have h3 := plain_side (by omega) (by omega) hN hb e (x := x + 1) (y := y + 1) (by omega) (by omega)
    have h4 := plain_side (by omega) (by omega) hN hb e (x := x) (y := y + 1) (by omega) (by omega)
    obtain ⟨c1, c2, c3, c4⟩ := hc
    rw [c1] at h1; rw [c2] at h2; rw [c3] at h3; rw [c4] at h4
    have k : ∀ {P : Prop} [Decidable P], NodeStatus.boundary = (if P then .boundary else .inside) → P := by
      intro P _ hP
      by_contra hn
      rw [if_neg hn] at hP
      cases hP
    have := k h1; have := k h2; have := k h3; have := k h4
    omega
  · rw [plain_side (by omega) (by omega) hN hb e hx hy] at hc
    have : x = 0 ∨ x = w ∨ y = 0 ∨ y = h := by
      by_contra hn
      rw [if_neg hn] at hc
      cases hc
    rw [plain_ends hw hh hN hb e hx hy this]

end

end Slsm
