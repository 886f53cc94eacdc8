import Verif.Spec.Reinit
import Verif.Props.LevelSet
import Verif.Props.FMM

/-! Edges and reinitialisation. -/

namespace Slsm.LevelSet

variable {w h : Nat} {L L' : LevelSet ℝ} {p : Place}

/-- What the march does to the ends of an edge that is cut. -/
theorem cut_ends (hr : Reachable w h L) (e : reinitialise L = .ok L') {q q' : Nat × Nat} (hq : q.1 ≤ w ∧ q.2 ≤ h)
    (ha : Adj w h (nodeNo w q.1 q.2) (nodeNo w q'.1 q'.2))
    (hs : vals L.signedDistance (nodeNo w q.1 q.2) * vals L.signedDistance (nodeNo w q'.1 q'.2) < 0) :
    SameSide (vals L.signedDistance (nodeNo w q.1 q.2)) (vals L'.signedDistance (nodeNo w q.1 q.2)) ∧
    |vals L'.signedDistance (nodeNo w q.1 q.2)| = lineDistance w h L q ∧ 0 < lineDistance w h L q := by
  have C := hr.core
  rcases C27_reinitialise hr with ⟨L1, F, e1, hF, hsd, -⟩ | ⟨e1, -⟩
  · rw [e] at e1
    cases e1
    rw [hsd]
    have h1 := C16_value C.grid C.sd hF ha hs
    obtain ⟨h2, h3, -⟩ := C16_bounds C.grid C.sd hF ha hs
    have h4 : |vals F.sd (nodeNo w q.1 q.2)| = lineDistance w h L q := by
      rw [h1]
      unfold lineDistance
      rw [abs_mul, abs_of_nonneg (one_div_nonneg.2 (Real.sqrt_nonneg _))]
      split <;> simp
    exact ⟨h2, h4, h4 ▸ h3⟩
  · rw [e] at e1
    cases e1

theorem sameSide_mul {a b c d : ℝ} (h1 : SameSide a b) (h2 : SameSide c d) : a * c < 0 ↔ b * d < 0 := by
  have sides : ∀ {a b : ℝ}, SameSide a b → (0 < a ↔ 0 < b) ∧ (a < 0 ↔ b < 0) := by
    rintro a b (⟨p, q⟩ | ⟨p, q⟩ | ⟨p, q⟩)
    · exact ⟨⟨fun _ => q, fun _ => p⟩, ⟨fun h => by linarith, fun h => by linarith⟩⟩
    · exact ⟨⟨fun h => by linarith, fun h => by linarith⟩, ⟨fun _ => q, fun _ => p⟩⟩
    · rw [p, q]
      simp
  rw [mul_neg_iff, mul_neg_iff, (sides h1).1, (sides h1).2, (sides h2).1, (sides h2).2]

/-- An edge as a pair of adjacent lattice points. -/
theorem edge_adj (hg : p.inGrid w h) {f : Nat → Nat → ℝ} (hc : p.cut f) : (p.first.1 ≤ w ∧ p.first.2 ≤ h) ∧ (p.last.1 ≤ w ∧ p.last.2 ≤ h) ∧
    Adj w h (nodeNo w p.first.1 p.first.2) (nodeNo w p.last.1 p.last.2) ∧ Adj w h (nodeNo w p.last.1 p.last.2) (nodeNo w p.first.1 p.first.2) := by
  cases p with
  | node x y => exact absurd hc id
  | hor x y =>
    have i1 := hg (x, y) (by simp [Place.ends])
    have i2 := hg (x + 1, y) (by simp [Place.ends])
    exact ⟨i1, i2, .inl ⟨x, x + 1, y, i1.1, i2.1, i1.2, rfl, rfl, .inl rfl⟩, .inl ⟨x + 1, x, y, i2.1, i1.1, i1.2, rfl, rfl, .inr rfl⟩⟩
  | ver x y =>
    have i1 := hg (x, y) (by simp [Place.ends])
    have i2 := hg (x, y + 1) (by simp [Place.ends])
    exact ⟨i1, i2, .inr ⟨x, y, y + 1, i1.1, i1.2, i2.2, rfl, rfl, .inl rfl⟩, .inr ⟨x, y + 1, y, i1.1, i2.2, i1.2, rfl, rfl, .inr rfl⟩⟩

theorem cut_iff {f : Nat → Nat → ℝ} : p.cut f ↔ f p.first.1 p.first.2 * f p.last.1 p.last.2 < 0 := by
  cases p with
  | node x y => exact ⟨False.elim, fun h => absurd h (not_lt.2 (mul_self_nonneg _))⟩
  | hor x y => exact Iff.rfl
  | ver x y => exact Iff.rfl

theorem coord_along {f : Nat → Nat → ℝ} (hc : p.cut f) : p.coord f =
    along (latticePoint p.first) (latticePoint p.last) (|f p.first.1 p.first.2| / (|f p.first.1 p.first.2| + |f p.last.1 p.last.2|)) := by
  have ratio : ∀ {a b : ℝ}, a * b < 0 → a / (a - b) = |a| / (|a| + |b|) := by
    intro a b hab
    rcases mul_neg_iff.1 hab with ⟨h1, h2⟩ | ⟨h1, h2⟩
    · rw [abs_of_pos h1, abs_of_neg h2, sub_eq_add_neg]
    · rw [abs_of_neg h1, abs_of_pos h2, show a - b = -(-a + b) by ring, div_neg, neg_div]
  cases p with
  | node x y => exact absurd hc id
  | hor x y =>
    unfold Place.coord along latticePoint Place.first Place.last
    dsimp only
    rw [ratio hc]
    push_cast
    congr 1 <;> ring
  | ver x y =>
    unfold Place.coord along latticePoint Place.first Place.last
    dsimp only
    rw [ratio hc]
    push_cast
    congr 1 <;> ring

/-- Around a straight line the values are scaled. -/
theorem straight_ends (hr : Reachable w h L) (e : reinitialise L = .ok L') {a b c : ℝ} (hab : a ≠ 0 ∨ b ≠ 0) {q : Nat × Nat} (hq : q.1 ≤ w ∧ q.2 ≤ h)
    (hs : StraightAt w h L a b c q) :
    |vals L'.signedDistance (nodeNo w q.1 q.2)| = |vals L.signedDistance (nodeNo w q.1 q.2)| / Real.sqrt (a ^ 2 + b ^ 2) := by
  have C := hr.core
  rcases C27_reinitialise hr with ⟨L1, F, e1, hF, hsd, -⟩ | ⟨e1, -⟩
  · rw [e] at e1
    cases e1
    rw [hsd, straight_value C.grid C.sd hF hq.1 hq.2 (fun x y hx hy hn => hs.1 x y hx hy (hn.imp (fun h0 => ?_) id)) hab hs.2.1 hs.2.2,
      hs.1 q.1 q.2 hq.1 hq.2 (.inl rfl)]
    obtain ⟨h1, h2⟩ := (nodeNo_inj hx hq.1).1 h0
    rw [h1, h2]
  · rw [e] at e1
    cases e1

end Slsm.LevelSet
