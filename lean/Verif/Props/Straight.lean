import Verif.Proof.Straight
import Verif.Props.Motion

/-! # C88: reinitialisation is exact on a straight boundary along an axis -/

namespace Slsm.LevelSet

variable {w h : Nat} {L L' : LevelSet ℝ} {a b d : ℝ}

/-- **C88**: whatever the values, if the boundary is a straight line parallel to an axis, reinitialisation succeeds and gives every node its exact signed distance
from the line, in a domain of any size. -/
theorem C88_exact (hr : Reachable w h L) (B : StraightBoundary w h (Boundary.level w L false) a b d) :
    ∃ L', reinitialise L = .ok L' ∧ ExactDistance w h (Boundary.level w L' false) a b d := by
  have C := hr.core
  have G := C.grid
  have hbig : (w : ℝ) + h < FP.maxVal := by
    have h1 : w + h < 2147483648 := by
      have h2 := C.small
      rw [G.nNodes] at h2
      nlinarith
    have h2 : (w : ℝ) + h < 2147483648 := by exact_mod_cast h1
    refine h2.trans ?_
    show (2147483648 : ℝ) < (2 - 1 / 2 ^ 52) * 2 ^ 1023
    have h3 : (2 : ℝ) ^ 32 ≤ 2 ^ 1023 := pow_le_pow_right₀ (by norm_num) (by norm_num)
    have h4 : (1 : ℝ) ≤ 2 - 1 / 2 ^ 52 := by norm_num
    calc (2147483648 : ℝ) < 2 ^ 32 := by norm_num
      _ ≤ 2 ^ 1023 := h3
      _ = 1 * 2 ^ 1023 := (one_mul _).symm
      _ ≤ _ := mul_le_mul_of_nonneg_right h4 (by positivity)
  have B' : StraightBoundary w h (fun x y => vals L.signedDistance (nodeNo w x y)) a b d := B
  rcases C27_reinitialise hr with ⟨L', F, e, hF, hsd, -⟩ | ⟨-, hno⟩
  · refine ⟨L', e, fun x y hx hy => ?_⟩
    show vals L'.signedDistance _ = _
    rw [hsd, FMM.march_line B' G hbig rfl C.sd hF (by rw [G.nNodes]; exact nodeNo_lt hx hy), FMM.lineG_node hx]
  · exact absurd (FMM.line_has B' G) hno

/-- Exact distances from a line parallel to an axis that meets the domain are a straight boundary. -/
theorem exact_straight {f : Nat → Nat → ℝ} (E : ExactDistance w h f a b d) (hax : (|a| = 1 ∧ b = 0) ∨ (a = 0 ∧ |b| = 1))
    (hm : ∃ X Y : ℝ, 0 ≤ X ∧ X ≤ w ∧ 0 ≤ Y ∧ Y ≤ h ∧ a * X + b * Y = d) : StraightBoundary w h f a b d := by
  refine ⟨hax, hm, fun x y hx hy => ?_, fun p hp hc => ?_, fun x y hx hy h1 => ?_⟩
  · rw [E x y hx hy]
    rcases lt_trichotomy (a * x + b * y - d) 0 with h | h | h
    · exact .inr (.inl ⟨h, h⟩)
    · exact .inr (.inr ⟨h, h⟩)
    · exact .inl ⟨h, h⟩
  · have key : ∀ (x y : ℝ), x * y < 0 → x - y ≠ 0 := fun x y hxy h0 => by
      have : x = y := by linarith
      rw [this] at hxy
      exact absurd hxy (not_lt.2 (mul_self_nonneg y))
    cases p with
    | node x y => exact absurd hc id
    | hor x y =>
      have h1 := hp (x, y) (by simp [Place.ends])
      have h2 := hp (x + 1, y) (by simp [Place.ends])
      have h0 := key _ _ hc
      simp only [Place.coord]
      rw [E x y h1.1 h1.2, E (x + 1) y h2.1 h2.2] at h0 ⊢
      push_cast at h0 ⊢
      have e : a * x + b * y - d - (a * (x + 1) + b * y - d) = -a := by ring
      rw [e] at h0 ⊢
      have ha := neg_ne_zero.1 h0
      field_simp
      ring
    | ver x y =>
      have h1 := hp (x, y) (by simp [Place.ends])
      have h2 := hp (x, y + 1) (by simp [Place.ends])
      have h0 := key _ _ hc
      simp only [Place.coord]
      rw [E x y h1.1 h1.2, E x (y + 1) h2.1 h2.2] at h0 ⊢
      push_cast at h0 ⊢
      have e : a * x + b * y - d - (a * x + b * (y + 1) - d) = -b := by ring
      rw [e] at h0 ⊢
      have ha := neg_ne_zero.1 h0
      field_simp
      ring
  · rw [E x y hx hy]
    have : (1 : ℝ) / 2 ^ 52 < 1 := by norm_num
    linarith

/-- **C88** (repeated): reinitialising again changes no value. -/
theorem C88_again (hr : Reachable w h L) (B : StraightBoundary w h (Boundary.level w L false) a b d) :
    ∃ L1 L2, reinitialise L = .ok L1 ∧ reinitialise L1 = .ok L2 ∧ ∀ i, i < L.mesh.nNodes → vals L2.signedDistance i = vals L1.signedDistance i := by
  obtain ⟨L1, e1, E1⟩ := C88_exact hr B
  obtain ⟨L2, e2, E2⟩ := C88_exact (.call hr (.reinitialise e1)) (exact_straight E1 B.axis B.meets)
  refine ⟨L1, L2, e1, e2, fun i hi => ?_⟩
  obtain ⟨x, y, hx, hy, rfl⟩ := hr.core.grid.node_index hi
  exact (E2 x y hx hy).trans (E1 x y hx hy).symm

/-- The hypotheses are met, for example, by the vertical line `x = 7/3` in a domain of 5 × 4 cells, with the structure on the left and values that are steeper the
farther up, and cut off at -2 and 2. -/
example : ∃ L : LevelSet ℝ, Reachable 5 4 L ∧ StraightBoundary 5 4 (Boundary.level 5 L false) (-1) 0 (-(7 / 3)) ∧
    ¬ ExactDistance 5 4 (Boundary.level 5 L false) (-1) 0 (-(7 / 3)) := by
  obtain ⟨L, hr, -, -⟩ := example_fixed (w := 5) (h := 4) (by norm_num) (by norm_num) (by norm_num)
  have C := hr.core
  have hN : L.mesh.nNodes = 30 := C.grid.nNodes
  let v : Nat → Nat → ℝ := fun x y => max (-2) (min 2 ((7 / 3 - (x : ℝ)) * (1 + y / 8)))
  let L1 : LevelSet ℝ := { L with signedDistance := (List.range 30).map fun i => v (i % 6) (i / 6), target := [] }
  have hr1 : Reachable 5 4 L1 := .call hr (.assign _ L.velocity L.gradient [] (by simp [hN]) C.velocity C.gradient)
  have hv : ∀ x y, x ≤ 5 → y ≤ 4 → Boundary.level 5 L1 false x y = v x y := by
    intro x y hx hy
    have hlt : nodeNo 5 x y < 30 := nodeNo_lt (w := 5) (h := 4) hx hy
    show vals (List.map _ _) _ = _
    rw [vals_map_range _ hlt, show nodeNo 5 x y % 6 = x by unfold nodeNo; omega, show nodeNo 5 x y / 6 = y by unfold nodeNo; omega]
  have pos : ∀ x y : Nat, x ≤ 2 → 0 < v x y := by
    intro x y hx
    have : (x : ℝ) ≤ 2 := by exact_mod_cast hx
    refine lt_max_of_lt_right (lt_min (by norm_num) (mul_pos (by linarith) (by positivity)))
  have neg : ∀ x y : Nat, 3 ≤ x → v x y < 0 := by
    intro x y hx
    have : (3 : ℝ) ≤ x := by exact_mod_cast hx
    refine max_lt (by norm_num) (min_lt_of_right_lt (mul_neg_of_neg_of_pos (by linarith) (by positivity)))
  refine ⟨L1, hr1, ⟨.inl ⟨by norm_num, rfl⟩, ⟨7 / 3, 0, by norm_num, by norm_num, by norm_num, by norm_num, by norm_num⟩, fun x y hx hy => ?_, fun p hp hc => ?_,
    fun x y hx hy h1 => ?_⟩, fun E => ?_⟩
  · rw [hv x y hx hy]
    by_cases h2 : x ≤ 2
    · have : (x : ℝ) ≤ 2 := by exact_mod_cast h2
      exact .inl ⟨pos x y h2, by linarith⟩
    · have : (3 : ℝ) ≤ x := by exact_mod_cast (by omega : 3 ≤ x)
      exact .inr (.inl ⟨neg x y (by omega), by linarith⟩)
  · cases p with
    | node x y => exact absurd hc id
    | hor x y =>
      have h1 := hp (x, y) (by simp [Place.ends])
      have h2 := hp (x + 1, y) (by simp [Place.ends])
      have hc' : Boundary.level 5 L1 false x y * Boundary.level 5 L1 false (x + 1) y < 0 := hc
      rw [hv x y h1.1 h1.2, hv (x + 1) y h2.1 h2.2] at hc'
      have hx2 : x = 2 := by
        by_contra hne
        rcases Nat.lt_or_gt_of_ne hne with h | h
        · exact absurd hc' (not_lt.2 (mul_pos (pos x y (by omega)) (pos (x + 1) y (by omega))).le)
        · exact absurd hc' (not_lt.2 (mul_pos_of_neg_of_neg (neg x y (by omega)) (neg (x + 1) y (by omega))).le)
      subst hx2
      have hy4 : (y : ℝ) ≤ 4 := by exact_mod_cast h1.2
      have e1 : v 2 y = 1 / 3 * (1 + y / 8) := by
        have h0 : (0 : ℝ) ≤ y := by positivity
        show max (-2) (min 2 ((7 / 3 - ((2 : Nat) : ℝ)) * (1 + y / 8))) = _
        push_cast
        rw [min_eq_right (by linarith), max_eq_right (by linarith)]
        norm_num
      have e2 : v 3 y = -(2 / 3) * (1 + y / 8) := by
        have h0 : (0 : ℝ) ≤ y := by positivity
        show max (-2) (min 2 ((7 / 3 - ((3 : Nat) : ℝ)) * (1 + y / 8))) = _
        push_cast
        rw [min_eq_right (by linarith), max_eq_right (by linarith)]
        norm_num
      simp only [Place.coord]
      rw [hv 2 y h1.1 h1.2, hv (2 + 1) y h2.1 h2.2, e1, e2]
      have h3 : (1 + (y : ℝ) / 8) ≠ 0 := by positivity
      rw [show 1 / 3 * (1 + (y : ℝ) / 8) / (1 / 3 * (1 + (y : ℝ) / 8) - -(2 / 3) * (1 + (y : ℝ) / 8)) = 1 / 3 by field_simp; norm_num]
      norm_num
    | ver x y =>
      have h1 := hp (x, y) (by simp [Place.ends])
      have h2 := hp (x, y + 1) (by simp [Place.ends])
      have hc' : Boundary.level 5 L1 false x y * Boundary.level 5 L1 false x (y + 1) < 0 := hc
      rw [hv x y h1.1 h1.2, hv x (y + 1) h2.1 h2.2] at hc'
      by_cases h3 : x ≤ 2
      · exact absurd hc' (not_lt.2 (mul_pos (pos x y h3) (pos x (y + 1) h3)).le)
      · exact absurd hc' (not_lt.2 (mul_pos_of_neg_of_neg (neg x y (by omega)) (neg x (y + 1) (by omega))).le)
  · rw [hv x y hx hy]
    have h0 : (0 : ℝ) ≤ y := by positivity
    have h2 : (1 : ℝ) ≤ 7 / 3 - x := by linarith
    refine lt_max_of_lt_right (lt_min (by norm_num) ?_)
    have : (1 : ℝ) / 2 ^ 52 < 1 := by norm_num
    nlinarith [mul_nonneg (by linarith : (0 : ℝ) ≤ 7 / 3 - x) (by positivity : (0 : ℝ) ≤ (y : ℝ) / 8)]
  · have := E 5 0 (by norm_num) (by norm_num)
    rw [hv 5 0 (by norm_num) (by norm_num)] at this
    have h2 : v 5 0 = -2 := by
      show max (-2) (min 2 ((7 / 3 - ((5 : Nat) : ℝ)) * (1 + ((0 : Nat) : ℝ) / 8))) = _
      norm_num
    rw [h2] at this
    norm_num at this

/-- **C88** (negation for other directions): on a line at 45 degrees the distances after reinitialisation are wrong, already next to the line. -/
theorem C88_diagonal_fails : ∃ L L' : LevelSet ℝ, Reachable 1 1 L ∧ (∀ x y, x ≤ 1 → y ≤ 1 → Boundary.level 1 L false x y = ((x : ℝ) + y - 1 / 2) / Real.sqrt 2) ∧
    reinitialise L = .ok L' ∧ Boundary.level 1 L' false 1 0 = 1 / 2 ∧ Boundary.level 1 L' false 1 0 ≠ Boundary.level 1 L false 1 0 := by
  obtain ⟨L, hr, -, -⟩ := example_fixed (w := 1) (h := 1) (by norm_num) (by norm_num) (by norm_num)
  have C := hr.core
  have hN : L.mesh.nNodes = 4 := C.grid.nNodes
  let L1 : LevelSet ℝ := { L with signedDistance := (List.range 4).map fun i => (((i % 2 : Nat) : ℝ) + ((i / 2 : Nat) : ℝ) - 1 / 2) / Real.sqrt 2, target := [] }
  have hr1 : Reachable 1 1 L1 := .call hr (.assign _ L.velocity L.gradient [] (by simp [hN]) C.velocity C.gradient)
  have hv : ∀ x y, x ≤ 1 → y ≤ 1 → vals L1.signedDistance (nodeNo 1 x y) = ((x : ℝ) + y - 1 / 2) / Real.sqrt 2 := by
    intro x y hx hy
    have hlt : nodeNo 1 x y < 4 := nodeNo_lt (w := 1) (h := 1) hx hy
    show vals (List.map _ _) _ = _
    rw [vals_map_range _ hlt, show nodeNo 1 x y % 2 = x by unfold nodeNo; omega, show nodeNo 1 x y / 2 = y by unfold nodeNo; omega]
  have h2 : (0 : ℝ) < Real.sqrt 2 := by positivity
  have v00 : vals L1.signedDistance 0 = -(1 / 2) / Real.sqrt 2 := by
    refine (hv 0 0 (by norm_num) (by norm_num)).trans ?_
    norm_num
  have v10 : vals L1.signedDistance 1 = 1 / 2 / Real.sqrt 2 := by
    refine (hv 1 0 (by norm_num) (by norm_num)).trans ?_
    norm_num
  have v11 : vals L1.signedDistance 3 = 3 / 2 / Real.sqrt 2 := by
    refine (hv 1 1 (by norm_num) (by norm_num)).trans ?_
    norm_num
  have p10 : 0 < vals L1.signedDistance 1 := by rw [v10]; positivity
  have hs : vals L1.signedDistance 1 * vals L1.signedDistance 0 < 0 := by
    refine mul_neg_of_pos_of_neg p10 ?_
    rw [v00, neg_div]
    exact neg_neg_of_pos (by positivity)
  have ha : HAdj 1 1 1 0 := ⟨1, 0, 0, by norm_num, by norm_num, by norm_num, rfl, rfl, .inr rfl⟩
  rcases C27_reinitialise hr1 with ⟨L', F, e, hF, hsd, -⟩ | ⟨-, hno⟩
  · have hval := _root_.Slsm.C16_value C.grid (by show (List.map _ _).length = _; simp [hN]) hF (.inl ha) hs
    rw [← hsd] at hval
    have c1 : crossings (HAdj 1 1) (vals L1.signedDistance) 1 = {1 / 2} := by
      ext t
      simp only [crossings, Set.mem_setOf_eq, Set.mem_singleton_iff]
      have e0 : vals L1.signedDistance 1 / (vals L1.signedDistance 1 - vals L1.signedDistance 0) = 1 / 2 := by
        rw [v10, v00]
        field_simp
        norm_num
      constructor
      · rintro ⟨n, ⟨x, x', y, hx, hx', hy, e1, rfl, e2⟩, -, rfl⟩
        have hx1 : x = 1 ∧ y = 0 := by unfold nodeNo at e1; omega
        have hx0 : x' = 0 := by omega
        rw [hx1.2, hx0]
        exact e0
      · rintro rfl
        exact ⟨0, ha, hs, e0.symm⟩
    have c2 : crossings (VAdj 1 1) (vals L1.signedDistance) 1 = ∅ := by
      ext t
      simp only [crossings, Set.mem_setOf_eq, Set.mem_empty_iff_false, iff_false]
      rintro ⟨n, ⟨x, y, y', hx, hy, hy', e1, rfl, e2⟩, hneg, -⟩
      have hx1 : x = 1 ∧ y = 0 := by unfold nodeNo at e1; omega
      have hy1 : y' = 1 := by omega
      rw [hx1.1, hy1] at hneg
      have p11 : 0 < vals L1.signedDistance (nodeNo 1 1 1) := by
        show 0 < vals L1.signedDistance 3
        rw [v11]; positivity
      exact absurd hneg (not_lt.2 (mul_pos p10 p11).le)
    rw [c1, c2, if_neg (not_lt.2 p10.le)] at hval
    have i1 : invSq ({1 / 2} : Set ℝ) = 4 := by
      unfold invSq
      rw [if_pos (Set.singleton_nonempty _), csInf_singleton]
      norm_num
    have i2 : invSq (∅ : Set ℝ) = 0 := by unfold invSq; rw [if_neg Set.not_nonempty_empty]
    rw [i1, i2, add_zero, show (4 : ℝ) = 2 ^ 2 by norm_num, Real.sqrt_sq (by norm_num), one_mul] at hval
    refine ⟨L1, L', hr1, fun x y hx hy => hv x y hx hy, e, hval, ?_⟩
    show vals L'.signedDistance 1 ≠ vals L1.signedDistance 1
    rw [hval, v10]
    intro h
    have h3 : (1 : ℝ) < Real.sqrt 2 := by rw [Real.lt_sqrt (by norm_num)]; norm_num
    rw [eq_div_iff h2.ne'] at h
    linarith
  · exact absurd ⟨1, by norm_num, .inr ⟨0, .inl ha, by simpa [Opposite] using hs⟩⟩ hno

end Slsm.LevelSet
