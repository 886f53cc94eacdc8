import Verif.Proof.StraightVel
import Verif.Props.Boundary

/-! # A straight boundary: its discretisation -/

namespace Slsm

variable {w h : Nat} {a b d : ℝ}

theorem side_plus {v : ℝ} (hv : nodeSide v = .boundary) : nodeSide (v + 1) = .inside := by
  have h1 : |v| < 1 / 10 ^ 6 := by
    unfold nodeSide at hv
    by_contra hc
    rw [if_neg hc] at hv
    split_ifs at hv
  rw [abs_lt] at h1
  have h2 : ¬ |v + 1| < 1 / 10 ^ 6 := by
    rw [abs_lt]
    rintro ⟨-, h⟩
    norm_num at h1 h
    linarith
  unfold nodeSide
  rw [if_neg h2, if_neg]
  norm_num at h1
  linarith

theorem side_minus {v : ℝ} (hv : nodeSide v = .boundary) : nodeSide (v - 1) = .outside := by
  have h1 : |v| < 1 / 10 ^ 6 := by
    unfold nodeSide at hv
    by_contra hc
    rw [if_neg hc] at hv
    split_ifs at hv
  rw [abs_lt] at h1
  have h2 : ¬ |v - 1| < 1 / 10 ^ 6 := by
    rw [abs_lt]
    rintro ⟨h, -⟩
    norm_num at h1 h
    linarith
  unfold nodeSide
  rw [if_neg h2, if_pos]
  norm_num at h1
  linarith

theorem ends_in : cornerEnds .boundary .inside .inside = 1 ∧ cornerEnds .inside .inside .boundary = 1 ∧
    cornerEnds .boundary .outside .outside = 0 ∧ cornerEnds .outside .outside .boundary = 0 := by
  decide

/-- Lattice points on a straight boundary: two segments, or one at the edge of the domain. -/
theorem line_ends (hw : 1 ≤ w) (hh : 1 ≤ h) {f : Nat → Nat → ℝ} (E : ExactDistance w h f a b d) (hax : (|a| = 1 ∧ b = 0) ∨ (a = 0 ∧ |b| = 1)) {x y : Nat} (hx : x ≤ w) (hy : y ≤ h)
    (hb : nodeSide (f x y) = .boundary) : latticeEnds w h f x y ≤ 2 ∧ ((∃ u v, u ≤ w ∧ v ≤ h ∧ 1 / 10 ^ 6 ≤ a * u + b * v - d) → 0 < latticeEnds w h f x y) := by
  obtain ⟨c1, c2, c3, c4⟩ := ends_in
  have hb' := hb
  rw [E x y hx hy] at hb'
  have hp := side_plus hb'
  have hm := side_minus hb'
  have hlt : |a * (x : ℝ) + b * y - d| < 1 / 10 ^ 6 := by
    unfold nodeSide at hb'
    by_contra hc
    rw [if_neg hc] at hb'
    split_ifs at hb'
  rw [abs_lt] at hlt
  have xm : 0 < x → ((x - 1 : Nat) : ℝ) = x - 1 := fun h0 => by rw [Nat.cast_sub h0]; norm_num
  have ym : 0 < y → ((y - 1 : Nat) : ℝ) = y - 1 := fun h0 => by rw [Nat.cast_sub h0]; norm_num
  unfold latticeEnds
  rcases hax with ⟨h1, rfl⟩ | ⟨rfl, h1⟩ <;> rcases (abs_eq (by norm_num : (0 : ℝ) ≤ 1)).1 h1 with rfl | rfl
  · have up : y < h → nodeSide (f x (y + 1)) = .boundary := fun h0 => by rw [E _ _ hx h0, ← hb']; congr 1; ring
    have dn : 0 < y → nodeSide (f x (y - 1)) = .boundary := fun h0 => by rw [E _ _ hx (by omega), ← hb']; congr 1; ring
    have rt : x < w → ∀ z, z ≤ h → nodeSide (f (x + 1) z) = .inside := fun h0 z hz => by rw [E _ _ h0 hz, ← hp]; congr 1; push_cast; ring
    have lt : 0 < x → ∀ z, z ≤ h → nodeSide (f (x - 1) z) = .outside := fun h0 z hz => by rw [E _ _ (by omega) hz, ← hm]; congr 1; rw [xm h0]; ring
    have e1 : (if x < w ∧ y < h then cornerEnds (nodeSide (f x (y + 1))) (nodeSide (f (x + 1) (y + 1))) (nodeSide (f (x + 1) y)) else 0) = if x < w ∧ y < h then 1 else 0 := by
      split_ifs with h0
      · rw [up h0.2, rt h0.1 _ hy, rt h0.1 _ (by omega), c1]
      · rfl
    have e2 : (if 0 < x ∧ y < h then cornerEnds (nodeSide (f (x - 1) y)) (nodeSide (f (x - 1) (y + 1))) (nodeSide (f x (y + 1))) else 0) = 0 := by
      split_ifs with h0
      · rw [up h0.2, lt h0.1 _ hy, lt h0.1 _ (by omega), c4]
      · rfl
    have e3 : (if 0 < x ∧ 0 < y then cornerEnds (nodeSide (f x (y - 1))) (nodeSide (f (x - 1) (y - 1))) (nodeSide (f (x - 1) y)) else 0) = 0 := by
      split_ifs with h0
      · rw [dn h0.2, lt h0.1 _ hy, lt h0.1 _ (by omega), c3]
      · rfl
    have e4 : (if x < w ∧ 0 < y then cornerEnds (nodeSide (f (x + 1) y)) (nodeSide (f (x + 1) (y - 1))) (nodeSide (f x (y - 1))) else 0) = if x < w ∧ 0 < y then 1 else 0 := by
      split_ifs with h0
      · rw [dn h0.2, rt h0.1 _ hy, rt h0.1 _ (by omega), c2]
      · rfl
    rw [e1, e2, e3, e4]
    refine ⟨by split_ifs <;> omega, ?_⟩
    rintro ⟨u, v, hu, hv, hg⟩
    have : (x : ℝ) < u := by linarith
    have : x < u := by exact_mod_cast this
    by_cases hyh : y < h
    · rw [if_pos ⟨by omega, hyh⟩]; omega
    · rw [if_pos (c := x < w ∧ 0 < y) ⟨by omega, by omega⟩]; omega
  · have up : y < h → nodeSide (f x (y + 1)) = .boundary := fun h0 => by rw [E _ _ hx h0, ← hb']; congr 1; ring
    have dn : 0 < y → nodeSide (f x (y - 1)) = .boundary := fun h0 => by rw [E _ _ hx (by omega), ← hb']; congr 1; ring
    have rt : x < w → ∀ z, z ≤ h → nodeSide (f (x + 1) z) = .outside := fun h0 z hz => by rw [E _ _ h0 hz, ← hm]; congr 1; push_cast; ring
    have lt : 0 < x → ∀ z, z ≤ h → nodeSide (f (x - 1) z) = .inside := fun h0 z hz => by rw [E _ _ (by omega) hz, ← hp]; congr 1; rw [xm h0]; ring
    have e1 : (if x < w ∧ y < h then cornerEnds (nodeSide (f x (y + 1))) (nodeSide (f (x + 1) (y + 1))) (nodeSide (f (x + 1) y)) else 0) = 0 := by
      split_ifs with h0
      · rw [up h0.2, rt h0.1 _ hy, rt h0.1 _ (by omega), c3]
      · rfl
    have e2 : (if 0 < x ∧ y < h then cornerEnds (nodeSide (f (x - 1) y)) (nodeSide (f (x - 1) (y + 1))) (nodeSide (f x (y + 1))) else 0) = if 0 < x ∧ y < h then 1 else 0 := by
      split_ifs with h0
      · rw [up h0.2, lt h0.1 _ hy, lt h0.1 _ (by omega), c2]
      · rfl
    have e3 : (if 0 < x ∧ 0 < y then cornerEnds (nodeSide (f x (y - 1))) (nodeSide (f (x - 1) (y - 1))) (nodeSide (f (x - 1) y)) else 0) = if 0 < x ∧ 0 < y then 1 else 0 := by
      split_ifs with h0
      · rw [dn h0.2, lt h0.1 _ hy, lt h0.1 _ (by omega), c1]
      · rfl
    have e4 : (if x < w ∧ 0 < y then cornerEnds (nodeSide (f (x + 1) y)) (nodeSide (f (x + 1) (y - 1))) (nodeSide (f x (y - 1))) else 0) = 0 := by
      split_ifs with h0
      · rw [dn h0.2, rt h0.1 _ hy, rt h0.1 _ (by omega), c4]
      · rfl
    rw [e1, e2, e3, e4]
    refine ⟨by split_ifs <;> omega, ?_⟩
    rintro ⟨u, v, hu, hv, hg⟩
    have : (u : ℝ) < x := by linarith
    have : u < x := by exact_mod_cast this
    by_cases hyh : y < h
    · rw [if_pos ⟨by omega, hyh⟩]; omega
    · rw [if_pos (c := 0 < x ∧ 0 < y) ⟨by omega, by omega⟩]; omega
  · have rt : x < w → nodeSide (f (x + 1) y) = .boundary := fun h0 => by rw [E _ _ h0 hy, ← hb']; congr 1; ring
    have lt : 0 < x → nodeSide (f (x - 1) y) = .boundary := fun h0 => by rw [E _ _ (by omega) hy, ← hb']; congr 1; ring
    have up : y < h → ∀ z, z ≤ w → nodeSide (f z (y + 1)) = .inside := fun h0 z hz => by rw [E _ _ hz h0, ← hp]; congr 1; push_cast; ring
    have dn : 0 < y → ∀ z, z ≤ w → nodeSide (f z (y - 1)) = .outside := fun h0 z hz => by rw [E _ _ hz (by omega), ← hm]; congr 1; rw [ym h0]; ring
    have e1 : (if x < w ∧ y < h then cornerEnds (nodeSide (f x (y + 1))) (nodeSide (f (x + 1) (y + 1))) (nodeSide (f (x + 1) y)) else 0) = if x < w ∧ y < h then 1 else 0 := by
      split_ifs with h0
      · rw [rt h0.1, up h0.2 _ hx, up h0.2 _ (by omega), c2]
      · rfl
    have e2 : (if 0 < x ∧ y < h then cornerEnds (nodeSide (f (x - 1) y)) (nodeSide (f (x - 1) (y + 1))) (nodeSide (f x (y + 1))) else 0) = if 0 < x ∧ y < h then 1 else 0 := by
      split_ifs with h0
      · rw [lt h0.1, up h0.2 _ hx, up h0.2 _ (by omega), c1]
      · rfl
    have e3 : (if 0 < x ∧ 0 < y then cornerEnds (nodeSide (f x (y - 1))) (nodeSide (f (x - 1) (y - 1))) (nodeSide (f (x - 1) y)) else 0) = 0 := by
      split_ifs with h0
      · rw [lt h0.1, dn h0.2 _ hx, dn h0.2 _ (by omega), c4]
      · rfl
    have e4 : (if x < w ∧ 0 < y then cornerEnds (nodeSide (f (x + 1) y)) (nodeSide (f (x + 1) (y - 1))) (nodeSide (f x (y - 1))) else 0) = 0 := by
      split_ifs with h0
      · rw [rt h0.1, dn h0.2 _ hx, dn h0.2 _ (by omega), c3]
      · rfl
    rw [e1, e2, e3, e4]
    refine ⟨by split_ifs <;> omega, ?_⟩
    rintro ⟨u, v, hu, hv, hg⟩
    have : (y : ℝ) < v := by linarith
    have : y < v := by exact_mod_cast this
    by_cases hxw : x < w
    · rw [if_pos ⟨hxw, by omega⟩]; omega
    · rw [if_pos (c := 0 < x ∧ y < h) ⟨by omega, by omega⟩]; omega
  · have rt : x < w → nodeSide (f (x + 1) y) = .boundary := fun h0 => by rw [E _ _ h0 hy, ← hb']; congr 1; ring
    have lt : 0 < x → nodeSide (f (x - 1) y) = .boundary := fun h0 => by rw [E _ _ (by omega) hy, ← hb']; congr 1; ring
    have up : y < h → ∀ z, z ≤ w → nodeSide (f z (y + 1)) = .outside := fun h0 z hz => by rw [E _ _ hz h0, ← hm]; congr 1; push_cast; ring
    have dn : 0 < y → ∀ z, z ≤ w → nodeSide (f z (y - 1)) = .inside := fun h0 z hz => by rw [E _ _ hz (by omega), ← hp]; congr 1; rw [ym h0]; ring
    have e1 : (if x < w ∧ y < h then cornerEnds (nodeSide (f x (y + 1))) (nodeSide (f (x + 1) (y + 1))) (nodeSide (f (x + 1) y)) else 0) = 0 := by
      split_ifs with h0
      · rw [rt h0.1, up h0.2 _ hx, up h0.2 _ (by omega), c4]
      · rfl
    have e2 : (if 0 < x ∧ y < h then cornerEnds (nodeSide (f (x - 1) y)) (nodeSide (f (x - 1) (y + 1))) (nodeSide (f x (y + 1))) else 0) = 0 := by
      split_ifs with h0
      · rw [lt h0.1, up h0.2 _ hx, up h0.2 _ (by omega), c3]
      · rfl
    have e3 : (if 0 < x ∧ 0 < y then cornerEnds (nodeSide (f x (y - 1))) (nodeSide (f (x - 1) (y - 1))) (nodeSide (f (x - 1) y)) else 0) = if 0 < x ∧ 0 < y then 1 else 0 := by
      split_ifs with h0
      · rw [lt h0.1, dn h0.2 _ hx, dn h0.2 _ (by omega), c2]
      · rfl
    have e4 : (if x < w ∧ 0 < y then cornerEnds (nodeSide (f (x + 1) y)) (nodeSide (f (x + 1) (y - 1))) (nodeSide (f x (y - 1))) else 0) = if x < w ∧ 0 < y then 1 else 0 := by
      split_ifs with h0
      · rw [rt h0.1, dn h0.2 _ hx, dn h0.2 _ (by omega), c1]
      · rfl
    rw [e1, e2, e3, e4]
    refine ⟨by split_ifs <;> omega, ?_⟩
    rintro ⟨u, v, hu, hv, hg⟩
    have : (v : ℝ) < y := by linarith
    have : v < y := by exact_mod_cast this
    by_cases hxw : x < w
    · rw [if_pos (c := x < w ∧ 0 < y) ⟨hxw, by omega⟩]; omega
    · rw [if_pos (c := 0 < x ∧ 0 < y) ⟨by omega, by omega⟩]; omega

/-- A point on a grid edge contributes to the nodes at its ends. -/
theorem feeds_of_edge {m : Mesh ℝ} (G : IsGrid w h m) (hfit : (w + 1) * (h + 1) < 4294967296) {p : BoundaryPoint ℝ} (hd : InDomain w h p.coord) {x y : Nat} (hx : x ≤ w) (hy : y ≤ h)
    (hp : (p.coord.y = y ∧ |p.coord.x - x| ≤ 1) ∨ (p.coord.x = x ∧ |p.coord.y - y| ≤ 1)) : Feeds w h m p x y := by
  obtain ⟨nx, ny, hnx, hny, hc, hmin⟩ := getClosestNode_real G hfit hd.1 hd.2.1 hd.2.2.1 hd.2.2.2
  refine ⟨_, hc, ?_⟩
  have half : ∀ t : ℝ, 0 ≤ t → ∃ k : ℕ, |t - k| ≤ 1 / 2 := by
    intro t ht
    by_cases h1 : t - ⌊t⌋₊ ≤ 1 / 2
    · exact ⟨⌊t⌋₊, by rw [abs_le]; have := Nat.floor_le ht; constructor <;> linarith⟩
    · refine ⟨⌊t⌋₊ + 1, ?_⟩
      have := Nat.lt_floor_add_one t
      push_cast
      rw [abs_le]; constructor <;> linarith
  have close : ∀ (t : ℝ) (n c : ℕ), |t - n| ≤ 1 / 2 → |t - c| ≤ 1 → n = c ∨ n = c + 1 ∨ c = n + 1 := by
    intro t n c h1 h2
    rw [abs_le] at h1 h2
    have a1 : (n : ℝ) < c + 2 := by linarith
    have a2 : (c : ℝ) < n + 2 := by linarith
    have a1 : n < c + 2 := by exact_mod_cast a1
    have a2 : c < n + 2 := by exact_mod_cast a2
    omega
  rcases hp with ⟨h1, h2⟩ | ⟨h1, h2⟩
  · have e1 : ny = y := by
      have := hmin nx y
      rw [h1] at this
      have : ((y : ℝ) - ny) ^ 2 ≤ 0 := by nlinarith
      have : (y : ℝ) - ny = 0 := by nlinarith [sq_nonneg ((y : ℝ) - ny)]
      have : (ny : ℝ) = y := by linarith
      exact_mod_cast this
    subst e1
    obtain ⟨k, hk⟩ := half p.coord.x hd.1
    have e2 : |p.coord.x - nx| ≤ 1 / 2 := by
      have := hmin k ny
      exact le_trans (sq_le_sq.1 (by linarith)) hk
    rcases close _ _ _ e2 h2 with e | e | e
    · subst e; exact .inl rfl
    · refine .inr ⟨.inl ⟨nx, x, ny, hnx, hx, hny, rfl, rfl, .inr e⟩, ?_⟩
      unfold sqFrom
      rw [h1]
      have := sq_le_one_iff_abs_le_one (p.coord.x - x) |>.2 h2
      linarith
    · refine .inr ⟨.inl ⟨nx, x, ny, hnx, hx, hny, rfl, rfl, .inl e⟩, ?_⟩
      unfold sqFrom
      rw [h1]
      have := sq_le_one_iff_abs_le_one (p.coord.x - x) |>.2 h2
      linarith
  · have e1 : nx = x := by
      have := hmin x ny
      rw [h1] at this
      have : ((x : ℝ) - nx) ^ 2 ≤ 0 := by nlinarith
      have : (x : ℝ) - nx = 0 := by nlinarith [sq_nonneg ((x : ℝ) - nx)]
      have : (nx : ℝ) = x := by linarith
      exact_mod_cast this
    subst e1
    obtain ⟨k, hk⟩ := half p.coord.y hd.2.2.1
    have e2 : |p.coord.y - ny| ≤ 1 / 2 := by
      have := hmin nx k
      exact le_trans (sq_le_sq.1 (by linarith)) hk
    rcases close _ _ _ e2 h2 with e | e | e
    · subst e; exact .inl rfl
    · refine .inr ⟨.inr ⟨nx, ny, y, hnx, hny, hy, rfl, rfl, .inr e⟩, ?_⟩
      unfold sqFrom
      rw [h1]
      have := sq_le_one_iff_abs_le_one (p.coord.y - y) |>.2 h2
      linarith
    · refine .inr ⟨.inr ⟨nx, ny, y, hnx, hny, hy, rfl, rfl, .inl e⟩, ?_⟩
      unfold sqFrom
      rw [h1]
      have := sq_le_one_iff_abs_le_one (p.coord.y - y) |>.2 h2
      linarith

/-- Exact distances from a line differ by at most one along an edge. -/
theorem line_gentle {f : Nat → Nat → ℝ} (E : ExactDistance w h f a b d) (hax : (|a| = 1 ∧ b = 0) ∨ (a = 0 ∧ |b| = 1)) : Gentle w h f := by
  have ha : |a| ≤ 1 ∧ |b| ≤ 1 := by rcases hax with ⟨h1, rfl⟩ | ⟨rfl, h1⟩ <;> simp [h1]
  constructor
  · intro x y hx hy _
    rw [E x y (by omega) hy, E (x + 1) y hx hy, show a * (x : ℝ) + b * y - d - (a * ((x + 1 : ℕ) : ℝ) + b * y - d) = -a by push_cast; ring, abs_neg]
    exact ha.1
  · intro x y hx hy _
    rw [E x y hx (by omega), E x (y + 1) hx hy, show a * (x : ℝ) + b * y - d - (a * (x : ℝ) + b * ((y + 1 : ℕ) : ℝ) - d) = -b by push_cast; ring, abs_neg]
    exact ha.2

theorem line_tidy (hw : 1 ≤ w) (hh : 1 ≤ h) {f : Nat → Nat → ℝ} (E : ExactDistance w h f a b d) (hax : (|a| = 1 ∧ b = 0) ∨ (a = 0 ∧ |b| = 1)) : Tidy w h f := by
  refine ⟨fun x y hx hy => ?_, fun x y hx hy hb => (line_ends hw hh E hax hx hy hb).1⟩
  by_cases h0 : nodeSide (f x y) = .boundary
  · refine ⟨(x + 1, y + 1), by simp, ?_⟩
    rw [E x y (by omega) (by omega)] at h0
    show nodeSide (f (x + 1) (y + 1)) ≠ _
    rw [E (x + 1) (y + 1) hx hy]
    have hp := side_plus h0
    have hm := side_minus h0
    rcases hax with ⟨h1, rfl⟩ | ⟨rfl, h1⟩ <;> rcases (abs_eq (by norm_num : (0 : ℝ) ≤ 1)).1 h1 with rfl | rfl
    · rw [show (1 : ℝ) * ((x + 1 : ℕ) : ℝ) + 0 * ((y + 1 : ℕ) : ℝ) - d = 1 * x + 0 * y - d + 1 by push_cast; ring, hp]; simp
    · rw [show (-1 : ℝ) * ((x + 1 : ℕ) : ℝ) + 0 * ((y + 1 : ℕ) : ℝ) - d = -1 * x + 0 * y - d - 1 by push_cast; ring, hm]; simp
    · rw [show (0 : ℝ) * ((x + 1 : ℕ) : ℝ) + 1 * ((y + 1 : ℕ) : ℝ) - d = 0 * x + 1 * y - d + 1 by push_cast; ring, hp]; simp
    · rw [show (0 : ℝ) * ((x + 1 : ℕ) : ℝ) + -1 * ((y + 1 : ℕ) : ℝ) - d = 0 * x + -1 * y - d - 1 by push_cast; ring, hm]; simp
  · exact ⟨(x, y), by simp, h0⟩

theorem crossed_of_opposite {u v : ℝ} (h1 : nodeSide u ≠ .boundary) (h2 : nodeSide v ≠ .boundary) (h3 : u * v < 0) : Crossed (nodeSide u) (nodeSide v) := by
  unfold Crossed
  rcases nodeSide_cases u with hu | hu | hu <;> rcases nodeSide_cases v with hv | hv | hv <;> try contradiction
  · rw [nodeSide_inside] at hu hv
    have : (0 : ℝ) < 1 / 10 ^ 6 := by norm_num
    exact absurd h3 (not_lt.2 (mul_nonneg (by linarith) (by linarith)))
  · exact .inl ⟨hu, hv⟩
  · exact .inr ⟨hu, hv⟩
  · rw [nodeSide_outside] at hu hv
    have : (0 : ℝ) < 1 / 10 ^ 6 := by norm_num
    exact absurd h3 (not_lt.2 (mul_nonneg_of_nonpos_of_nonpos (by linarith) (by linarith)))

open Boundary LevelSet in
/-- The discretisation of a straight boundary: every node next to the line has a contributing point. -/
theorem line_discretised {L : LevelSet ℝ} (hr : Reachable w h L) (hB : BandOk L) (hfix : L.isFixedDomain = false)
    (E : ExactDistance w h (level w L false) a b d) (hax : (|a| = 1 ∧ b = 0) ∨ (a = 0 ∧ |b| = 1))
    (hm : ∃ X Y : ℝ, 0 ≤ X ∧ X ≤ w ∧ 0 ≤ Y ∧ Y ≤ h ∧ a * X + b * Y = d) (hin : ∃ u v : Nat, u ≤ w ∧ v ≤ h ∧ 1 / 10 ^ 6 ≤ a * u + b * v - d) :
    ∃ bd L1, discretise L false = .ok (bd, L1) ∧ Reachable w h L1 ∧ L1 = { L with mesh := L1.mesh } ∧ (∀ i, flags L1.mesh i = flags L.mesh i) ∧
      (∀ p ∈ bd.points, InDomain w h p.coord ∧ a * p.coord.x + b * p.coord.y - d < 1 / 10 ^ 6 ∧ -(1 / 10 ^ 6) < a * p.coord.x + b * p.coord.y - d) ∧
      ∀ x y : Nat, x ≤ w → y ≤ h → |a * x + b * y - d| < 1 → ∃ p ∈ bd.points, Feeds w h L1.mesh p x y := by
  have G := hr.core.grid
  have R := ready_of_reachable hr
  have N := near_of_band hr hB hfix
  have T := tame_of_near R (line_gentle E hax) (.inr N) (line_tidy G.w_pos G.h_pos E hax)
  obtain ⟨bd, L1, e, -⟩ := tame_exact T
  have hr1 := C36_reachable hr R e
  obtain ⟨A, hL⟩ := (made R e).annot
  have hdom : ∀ p ∈ bd.points, InDomain w h p.coord := fun p hp => by
    obtain ⟨-, h1, h2, h3, h4, -⟩ := C37_points_on_contour R e hp
    exact ⟨h1, h2, h3, h4⟩
  have hfl : ∀ i, flags L1.mesh i = flags L.mesh i := fun i => by
    unfold flags
    rcases hi : L1.mesh.nodes[i]? with _ | nd
    · rw [List.getElem?_eq_none (by rw [← A.nlen]; exact List.getElem?_eq_none_iff.1 hi)]
    · obtain ⟨a, ha, hs⟩ := A.node i nd hi
      rw [ha, Option.map_some, Option.map_some, hs.eq]
  have hfit := R.fit
  have fed : ∀ {p : BoundaryPoint ℝ} {x y : Nat}, p ∈ bd.points → x ≤ w → y ≤ h →
      ((p.coord.y = y ∧ |p.coord.x - x| ≤ 1) ∨ (p.coord.x = x ∧ |p.coord.y - y| ≤ 1)) → Feeds w h L1.mesh p x y := fun hp hx hy hc =>
    feeds_of_edge hr1.core.grid hfit (hdom _ hp) hx hy hc
  refine ⟨bd, L1, e, hr1, hL, hfl, fun p hp => ⟨hdom p hp, ?_⟩, fun x y hx hy h1 => ?_⟩
  · obtain ⟨⟨pl, hg, hc, he⟩, -⟩ := C37_points_on_contour R e hp
    obtain ⟨i1, i2, i3⟩ := C37_interpolant hc
    cases pl with
    | node x y =>
      have hq := hg (x, y) (by simp [Place.ends])
      obtain ⟨e1, e2⟩ := i3 x y rfl
      rw [E x y hq.1 hq.2, abs_lt] at e2
      rw [he, e1]
      exact ⟨by linarith [e2.2], by linarith [e2.1]⟩
    | hor x y =>
      have h1 := hg (x, y) (by simp [Place.ends])
      have h2 := hg (x + 1, y) (by simp [Place.ends])
      obtain ⟨t, e1, -, -, e4⟩ := i1 x y rfl
      have := (e4 t).2 rfl
      rw [E x y h1.1 h1.2, E (x + 1) y h2.1 h2.2] at this
      push_cast at this
      rw [he, e1]
      have z : a * ((x : ℝ) + t) + b * y - d = 0 := by linarith
      simp only
      rw [z]; norm_num
    | ver x y =>
      have h1 := hg (x, y) (by simp [Place.ends])
      have h2 := hg (x, y + 1) (by simp [Place.ends])
      obtain ⟨t, e1, -, -, e4⟩ := i2 x y rfl
      have := (e4 t).2 rfl
      rw [E x y h1.1 h1.2, E x (y + 1) h2.1 h2.2] at this
      push_cast at this
      rw [he, e1]
      have z : a * (x : ℝ) + b * (y + t) - d = 0 := by linarith
      simp only
      rw [z]; norm_num
  · by_cases hb : nodeSide (level w L false x y) = .boundary
    · obtain ⟨p, hp, hc⟩ := (C39_lattice T (.inr N) e hx hy hb).1.2 ((line_ends G.w_pos G.h_pos E hax hx hy hb).2 hin)
      exact ⟨p, hp, fed hp hx hy (.inl (by rw [hc]; simp))⟩
    · have h0 : a * (x : ℝ) + b * y - d ≠ 0 := fun h0 => hb (by rw [nodeSide_boundary, E x y hx hy, h0]; norm_num)
      obtain ⟨u, v, hu, hv, hadj, hs⟩ := FMM.line_toward (w := w) (h := h) hax hm hx hy h0
      have hopp : level w L false x y * level w L false u v < 0 := by
        rw [E x y hx hy, E u v hu hv]
        rw [abs_lt] at h1
        rcases hs with ⟨p, q⟩ | ⟨p, q⟩ <;> rw [q]
        · exact mul_neg_of_pos_of_neg p (by linarith)
        · exact mul_neg_of_neg_of_pos p (by linarith)
      by_cases hb2 : nodeSide (level w L false u v) = .boundary
      · obtain ⟨p, hp, hc⟩ := (C39_lattice T (.inr N) e hu hv hb2).1.2 ((line_ends G.w_pos G.h_pos E hax hu hv hb2).2 hin)
        refine ⟨p, hp, fed hp hx hy ?_⟩
        rcases hadj with ⟨x1, x2, y1, g1, g2, g3, e1, e2, e3⟩ | ⟨x1, y1, y2, g1, g2, g3, e1, e2, e3⟩
        · obtain ⟨rfl, rfl⟩ := (nodeNo_inj hx g1).1 e1
          obtain ⟨rfl, rfl⟩ := (nodeNo_inj hu g2).1 e2
          refine .inl ?_
          rw [hc]
          refine ⟨rfl, ?_⟩
          rcases e3 with rfl | rfl <;> push_cast <;> simp
        · obtain ⟨rfl, rfl⟩ := (nodeNo_inj hx g1).1 e1
          obtain ⟨rfl, rfl⟩ := (nodeNo_inj hu g1).1 e2
          refine .inr ?_
          rw [hc]
          refine ⟨rfl, ?_⟩
          rcases e3 with rfl | rfl <;> push_cast <;> simp
      · have hcr := crossed_of_opposite hb hb2 hopp
        have hcr' := crossed_of_opposite hb2 hb (by rw [mul_comm]; exact hopp)
        have cut : ∀ pl : Place, pl.inGrid w h → pl.onContour (level w L false) → (∀ x y, pl ≠ .node x y) → ∃ p ∈ bd.points, p.coord = pl.coord (level w L false) := by
          intro pl i1 i2 i3
          obtain ⟨k, pt, j1, j2, -⟩ := C39_watertight T e ⟨i1, i2, i3⟩
          exact ⟨pt, List.mem_iff_getElem?.2 ⟨k, j1⟩, j2⟩
        rcases hadj with ⟨x1, x2, y1, g1, g2, g3, e1, e2, e3⟩ | ⟨x1, y1, y2, g1, g2, g3, e1, e2, e3⟩
        · obtain ⟨rfl, rfl⟩ := (nodeNo_inj hx g1).1 e1
          obtain ⟨rfl, rfl⟩ := (nodeNo_inj hu g2).1 e2
          rcases e3 with rfl | rfl
          · have hg : (Place.hor x v).inGrid w h := by
              intro q hq; simp only [Place.ends, List.mem_cons, List.not_mem_nil, or_false] at hq; rcases hq with rfl | rfl <;> exact ⟨by assumption, by assumption⟩
            obtain ⟨p, hp, hc⟩ := cut (.hor x v) hg hcr (by simp)
            obtain ⟨t, i1, i2, i3, -⟩ := (C37_interpolant (f := level w L false) (p := .hor x v) hcr).1 _ _ rfl
            refine ⟨p, hp, fed hp hx hy (.inl ?_)⟩
            rw [hc, i1]
            refine ⟨rfl, ?_⟩
            simp only
            rw [abs_le]; constructor <;> linarith
          · have hg : (Place.hor u v).inGrid w h := by
              intro q hq; simp only [Place.ends, List.mem_cons, List.not_mem_nil, or_false] at hq; rcases hq with rfl | rfl <;> exact ⟨by assumption, by assumption⟩
            obtain ⟨p, hp, hc⟩ := cut (.hor u v) hg hcr' (by simp)
            obtain ⟨t, i1, i2, i3, -⟩ := (C37_interpolant (f := level w L false) (p := .hor u v) hcr').1 _ _ rfl
            refine ⟨p, hp, fed hp hx hy (.inl ?_)⟩
            rw [hc, i1]
            refine ⟨rfl, ?_⟩
            simp only
            push_cast
            rw [abs_le]; constructor <;> linarith
        · obtain ⟨rfl, rfl⟩ := (nodeNo_inj hx g1).1 e1
          obtain ⟨rfl, rfl⟩ := (nodeNo_inj hu g1).1 e2
          rcases e3 with rfl | rfl
          · have hg : (Place.ver u y).inGrid w h := by
              intro q hq; simp only [Place.ends, List.mem_cons, List.not_mem_nil, or_false] at hq; rcases hq with rfl | rfl <;> exact ⟨by assumption, by assumption⟩
            obtain ⟨p, hp, hc⟩ := cut (.ver u y) hg hcr (by simp)
            obtain ⟨t, i1, i2, i3, -⟩ := (C37_interpolant (f := level w L false) (p := .ver u y) hcr).2.1 _ _ rfl
            refine ⟨p, hp, fed hp hx hy (.inr ?_)⟩
            rw [hc, i1]
            refine ⟨rfl, ?_⟩
            simp only
            rw [abs_le]; constructor <;> linarith
          · have hg : (Place.ver u v).inGrid w h := by
              intro q hq; simp only [Place.ends, List.mem_cons, List.not_mem_nil, or_false] at hq; rcases hq with rfl | rfl <;> exact ⟨by assumption, by assumption⟩
            obtain ⟨p, hp, hc⟩ := cut (.ver u v) hg hcr' (by simp)
            obtain ⟨t, i1, i2, i3, -⟩ := (C37_interpolant (f := level w L false) (p := .ver u v) hcr').2.1 _ _ rfl
            refine ⟨p, hp, fed hp hx hy (.inr ?_)⟩
            rw [hc, i1]
            refine ⟨rfl, ?_⟩
            simp only
            push_cast
            rw [abs_le]; constructor <;> linarith

end Slsm
