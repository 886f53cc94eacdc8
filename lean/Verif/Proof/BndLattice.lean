import Verif.Proof.BndHole
import Verif.Proof.BndTidy

/-! Holes with lattice points on their rims. -/

namespace Slsm

open LevelSet Boundary

section
variable {w h : Nat} {f : Nat → Nat → ℝ}

theorem cornerEnds_le {a o b : NodeStatus} (ha : a ≠ .boundary) (hb : b ≠ .boundary) :
    cornerEnds a o b ≤ if (a = .outside ↔ b = .outside) then 0 else 1 := by
  unfold cornerEnds
  rw [if_neg ha, if_neg hb]
  split_ifs <;> simp

theorem changes {p q r s : Prop} [Decidable (r ↔ p)] [Decidable (q ↔ r)] [Decidable (s ↔ q)] [Decidable (p ↔ s)] (h1 : ¬ (p ∧ q)) (h2 : ¬ (r ∧ s)) :
    (if (r ↔ p) then 0 else 1) + (if (q ↔ r) then 0 else 1) + (if (s ↔ q) then 0 else 1) + (if (p ↔ s) then 0 else 1) ≤ 2 := by
  by_cases p <;> by_cases q <;> by_cases r <;> by_cases s <;> simp_all

/-- Lattice points on the contour are on the domain edge, or inside and have no neighbour on the contour and no saddle of neighbours. -/
theorem tidy_mixed (hw : 2 ≤ w) (hh : 2 ≤ h)
    (hbd : ∀ x y, x ≤ w → y ≤ h → nodeSide (f x y) = .boundary → onEdge w h x y ∨ (2 ≤ x ∧ x + 2 ≤ w ∧ 2 ≤ y ∧ y + 2 ≤ h ∧
      nodeSide (f (x + 1) y) ≠ .boundary ∧ nodeSide (f (x - 1) y) ≠ .boundary ∧ nodeSide (f x (y + 1)) ≠ .boundary ∧ nodeSide (f x (y - 1)) ≠ .boundary ∧
      ¬ (nodeSide (f (x + 1) y) = .outside ∧ nodeSide (f (x - 1) y) = .outside) ∧ ¬ (nodeSide (f x (y + 1)) = .outside ∧ nodeSide (f x (y - 1)) = .outside)))
    (hout : ∀ x y, x ≤ w → y ≤ h → nodeSide (f x y) = .outside → 2 ≤ x ∧ x + 2 ≤ w ∧ 2 ≤ y ∧ y + 2 ≤ h) : Tidy w h f := by
  classical
  -- the same values, with the points on the contour off the edge made material
  set g : Nat → Nat → ℝ := fun x y => if nodeSide (f x y) = .boundary ∧ ¬ onEdge w h x y then 1 else f x y with hg
  have hone : nodeSide (1 : ℝ) = .inside := by rw [nodeSide_inside]; norm_num
  have geq : ∀ x y, x ≤ w → y ≤ h → ¬ (2 ≤ x ∧ x + 2 ≤ w ∧ 2 ≤ y ∧ y + 2 ≤ h) → g x y = f x y := by
    intro x y hx hy hn
    show (if _ then _ else _) = _
    rw [if_neg]
    rintro ⟨h1, h2⟩
    rcases hbd x y hx hy h1 with h3 | h3
    · exact h2 h3
    · exact hn ⟨h3.1, h3.2.1, h3.2.2.1, h3.2.2.2.1⟩
  have R : Rim w h g := by
    refine ⟨hw, hh, fun x y hx hy hb => ?_, fun x y x' y' hx hy hx' hy' hb ho => ?_⟩
    · by_contra hne
      simp only [hg] at hb
      split_ifs at hb with hc
      · rw [hone] at hb; cases hb
      · exact hc ⟨hb, hne⟩
    · have h1 : onEdge w h x y := by
        by_contra hne
        simp only [hg] at hb
        split_ifs at hb with hc
        · rw [hone] at hb; cases hb
        · exact hc ⟨hb, hne⟩
      have h2 : nodeSide (f x' y') = .outside := by
        simp only [hg] at ho
        split_ifs at ho with hc
        · rw [hone] at ho; cases ho
        · exact ho
      have h3 := hout x' y' hx' hy' h2
      unfold onEdge at h1
      omega
  have T := R.tidy
  constructor
  · intro x y hx hy
    by_contra hcon
    push Not at hcon
    obtain ⟨q, hq, hn⟩ := T.flat x y hx hy
    have hqf := hcon q hq
    have c1 := hcon (x, y) (by simp)
    have c2 := hcon (x + 1, y) (by simp)
    have c3 := hcon (x + 1, y + 1) (by simp)
    have c4 := hcon (x, y + 1) (by simp)
    dsimp only at c1 c2 c3 c4
    have hne : ¬ onEdge w h q.1 q.2 := fun he => hn (by
      show nodeSide (if _ then _ else _) = _
      rw [if_neg (fun h => h.2 he)]
      exact hqf)
    simp only [List.mem_cons, List.not_mem_nil, or_false] at hq
    rcases hq with rfl | rfl | rfl | rfl
    · rcases hbd _ _ (by dsimp only; omega) (by dsimp only; omega) hqf with h1 | h1
      · exact hne h1
      · exact h1.2.2.2.2.1 c2
    · rcases hbd _ _ (by dsimp only; omega) (by dsimp only; omega) hqf with h1 | h1
      · exact hne h1
      · exact h1.2.2.2.2.2.1 c1
    · rcases hbd _ _ (by dsimp only; omega) (by dsimp only; omega) hqf with h1 | h1
      · exact hne h1
      · exact h1.2.2.2.2.2.1 c4
    · rcases hbd _ _ (by dsimp only; omega) (by dsimp only; omega) hqf with h1 | h1
      · exact hne h1
      · exact h1.2.2.2.2.1 c3
  · intro x y hx hy hb
    rcases hbd x y hx hy hb with h1 | ⟨a1, a2, a3, a4, n1, n2, n3, n4, s1, s2⟩
    · have hgb : nodeSide (g x y) = .boundary := by
        show nodeSide (if _ then _ else _) = _
        rw [if_neg (fun h => h.2 h1)]
        exact hb
      have := T.ends x y hx hy hgb
      refine le_of_eq_of_le ?_ this
      unfold onEdge at h1
      unfold latticeEnds
      congr 1
      · congr 1
        · congr 1
          · split_ifs with hc
            · rw [geq _ _ (by omega) (by omega) (by omega), geq _ _ (by omega) (by omega) (by omega), geq _ _ (by omega) (by omega) (by omega)]
            · rfl
          · split_ifs with hc
            · rw [geq _ _ (by omega) (by omega) (by omega), geq _ _ (by omega) (by omega) (by omega), geq _ _ (by omega) (by omega) (by omega)]
            · rfl
        · split_ifs with hc
          · rw [geq _ _ (by omega) (by omega) (by omega), geq _ _ (by omega) (by omega) (by omega), geq _ _ (by omega) (by omega) (by omega)]
          · rfl
      · split_ifs with hc
        · rw [geq _ _ (by omega) (by omega) (by omega), geq _ _ (by omega) (by omega) (by omega), geq _ _ (by omega) (by omega) (by omega)]
        · rfl
    · unfold latticeEnds
      rw [if_pos ⟨by omega, by omega⟩, if_pos ⟨by omega, by omega⟩, if_pos ⟨by omega, by omega⟩, if_pos ⟨by omega, by omega⟩]
      refine le_trans (Nat.add_le_add (Nat.add_le_add (Nat.add_le_add (cornerEnds_le n3 n1) (cornerEnds_le n2 n3)) (cornerEnds_le n4 n2)) (cornerEnds_le n1 n4)) ?_
      exact changes s1 s2

end

/-- Distance from a lattice point of a circle around a lattice point. -/
theorem lattice_gap {a b r d : ℤ} (hr : 0 ≤ r) (hr' : 2 * r + 1 ≤ 1000000) (hd : d = a ^ 2 + b ^ 2 - r ^ 2) :
    (0 < d → 1 / 10 ^ 6 ≤ Real.sqrt ((a : ℝ) ^ 2 + (b : ℝ) ^ 2) - r) ∧ (d < 0 → Real.sqrt ((a : ℝ) ^ 2 + (b : ℝ) ^ 2) - r ≤ -(1 / 10 ^ 6)) ∧
    (d = 0 → Real.sqrt ((a : ℝ) ^ 2 + (b : ℝ) ^ 2) - r = 0) := by
  have hr0 : (0 : ℝ) ≤ r := by exact_mod_cast hr
  have hr1 : 2 * (r : ℝ) + 1 ≤ 1000000 := by exact_mod_cast hr'
  have hdr : (d : ℝ) = (a : ℝ) ^ 2 + (b : ℝ) ^ 2 - (r : ℝ) ^ 2 := by rw [hd]; push_cast; ring
  refine ⟨fun h => ?_, fun h => ?_, fun h => ?_⟩
  · have h1 : (1 : ℝ) ≤ d := by exact_mod_cast h
    have : (r : ℝ) + 1 / 10 ^ 6 ≤ Real.sqrt ((a : ℝ) ^ 2 + (b : ℝ) ^ 2) := by
      refine Real.le_sqrt_of_sq_le ?_
      nlinarith
    linarith
  · have h1 : (d : ℝ) ≤ -1 := by exact_mod_cast (by omega : d ≤ -1)
    have hpos : (1 : ℝ) ≤ r := by
      have : r ≠ 0 := by rintro rfl; nlinarith [sq_nonneg a, sq_nonneg b]
      exact_mod_cast (by omega : 1 ≤ r)
    have : Real.sqrt ((a : ℝ) ^ 2 + (b : ℝ) ^ 2) ≤ (r : ℝ) - 1 / 10 ^ 6 := by
      refine Real.sqrt_le_iff.2 ⟨by norm_num; linarith, ?_⟩
      nlinarith
    linarith
  · have h1 : (d : ℝ) = 0 := by exact_mod_cast h
    rw [show (a : ℝ) ^ 2 + (b : ℝ) ^ 2 = (r : ℝ) ^ 2 by linarith, Real.sqrt_sq hr0, sub_self]

section
variable {w h : Nat} {holes : List (Hole ℝ)} {moveLimit : ℝ} {bandWidth : Nat} {f : Bool} {L : LevelSet ℝ}

theorem holes_lattice (hw : 2 ≤ w) (hh : 2 ≤ h) (hN : (w + 1) * (h + 1) < 2 ^ 31) (hb : bandWidth < 2 ^ 32)
    (e : new w h (.holes holes) moveLimit bandWidth f = .ok L)
    (hin : ∀ c ∈ holes, 1 < c.coord.x - c.r ∧ c.coord.x + c.r < w - 1 ∧ 1 < c.coord.y - c.r ∧ c.coord.y + c.r < h - 1)
    (hint : ∀ c ∈ holes, ∃ X Y R : ℤ, c.coord.x = X ∧ c.coord.y = Y ∧ c.r = R ∧ 0 ≤ R ∧ 2 * R + 1 ≤ 1000000)
    (hsep : ∀ c ∈ holes, ∀ c' ∈ holes, c ≠ c' → c.r + c'.r + 2 ≤ distance c.coord c'.coord) : Tidy w h (level w L false) := by
  have hv : ∀ x y, x ≤ w → y ≤ h → IsLeast ({(edgeDist w h x y : ℝ)} ∪ {d | ∃ hole ∈ holes, d = distance hole.coord (lattice x y) - hole.r})
      (level w L false x y) := fun x y hx hy => C23_holes_exact (by omega) (by omega) hN hb e hx hy
  refine tidy_mixed hw hh (fun x y hx hy hn => ?_) fun x y hx hy => holes_out hw hh hN hb e hin hx hy
  by_cases hedge : onEdge w h x y
  · exact .inl hedge
  refine .inr ?_
  rw [nodeSide_boundary] at hn
  obtain ⟨c, hc, h1⟩ : ∃ c ∈ holes, level w L false x y = distance c.coord (lattice x y) - c.r := by
    rcases (hv x y hx hy).1 with h1 | h1
    · exfalso
      rw [Set.mem_singleton_iff] at h1
      rw [h1, Nat.abs_cast] at hn
      have : 1 ≤ edgeDist w h x y := by
        unfold edgeDist onEdge at *
        simp only [Nat.min_def]
        split_ifs <;> omega
      have : (1 : ℝ) ≤ edgeDist w h x y := by exact_mod_cast this
      have h3 := lt_of_le_of_lt this hn
      norm_num at h3
    · exact h1
  obtain ⟨X, Y, R, hX, hY, hR, hR0, hR1⟩ := hint c hc
  have hdist : ∀ x' y' : ℕ, distance c.coord (lattice x' y') = Real.sqrt ((((X - x' : ℤ)) : ℝ) ^ 2 + (((Y - y' : ℤ)) : ℝ) ^ 2) := by
    intro x' y'
    unfold distance lattice
    dsimp only
    rw [hX, hY]
    push_cast
    rfl
  have hd0 : (X - x) ^ 2 + (Y - y) ^ 2 - R ^ 2 = 0 := by
    obtain ⟨g1, g2, -⟩ := lattice_gap (a := X - x) (b := Y - y) hR0 hR1 rfl
    rw [h1, hdist, hR] at hn
    rw [abs_lt] at hn
    rcases lt_trichotomy ((X - x) ^ 2 + (Y - y) ^ 2 - R ^ 2) 0 with h2 | h2 | h2
    · have := g2 h2
      linarith [hn.1]
    · exact h2
    · have := g1 h2
      linarith [hn.2]
  have hax : |X - x| ≤ R := abs_le_of_sq_le_sq (by nlinarith [sq_nonneg (Y - y)]) hR0
  have hay : |Y - y| ≤ R := abs_le_of_sq_le_sq (by nlinarith [sq_nonneg (X - x)]) hR0
  rw [abs_le] at hax hay
  obtain ⟨i1, i2, i3, i4⟩ := hin c hc
  rw [hX, hR] at i1 i2
  rw [hY, hR] at i3 i4
  have j1 : 1 < X - R := by exact_mod_cast i1
  have j2 : X + R < w - 1 := by exact_mod_cast i2
  have j3 : 1 < Y - R := by exact_mod_cast i3
  have j4 : Y + R < h - 1 := by exact_mod_cast i4
  have b1 : 2 ≤ x := by omega
  have b2 : x + 2 ≤ w := by omega
  have b3 : 2 ≤ y := by omega
  have b4 : y + 2 ≤ h := by omega
  have hdr : distance c.coord (lattice x y) = c.r := by
    have := (lattice_gap (a := X - x) (b := Y - y) hR0 hR1 rfl).2.2 hd0
    rw [hdist, hR]
    linarith
  -- the neighbours
  have nb : ∀ x' y' : ℕ, ((x = x' + 1 ∧ y = y') ∨ (x' = x + 1 ∧ y = y') ∨ (y = y' + 1 ∧ x = x') ∨ (y' = y + 1 ∧ x = x')) → 
      (X - x') ^ 2 + (Y - y') ^ 2 - R ^ 2 ≠ 0 →
      nodeSide (level w L false x' y') ≠ .boundary ∧ (nodeSide (level w L false x' y') = .outside → (X - x') ^ 2 + (Y - y') ^ 2 - R ^ 2 < 0) := by
    intro x' y' hs hne
    obtain ⟨g1, g2, -⟩ := lattice_gap (a := X - x') (b := Y - y') hR0 hR1 rfl
    rw [← hdist, ← hR] at g1 g2
    have hx' : x' ≤ w := by omega
    have hy' : y' ≤ h := by omega
    rcases lt_or_gt_of_ne hne with h2 | h2
    · refine ⟨?_, fun _ => h2⟩
      have : nodeSide (level w L false x' y') = .outside := by
        rw [nodeSide_outside]
        exact le_trans ((hv x' y' hx' hy').2 (.inr ⟨c, hc, rfl⟩)) (g2 h2)
      rw [this]
      simp
    · have : nodeSide (level w L false x' y') = .inside := by
        rw [nodeSide_inside]
        rcases (hv x' y' hx' hy').1 with h3 | ⟨c', hc', h3⟩
        · rw [Set.mem_singleton_iff] at h3
          rw [h3]
          have : 1 ≤ edgeDist w h x' y' := by
            unfold edgeDist
            simp only [Nat.min_def]
            split_ifs <;> omega
          have : (1 : ℝ) ≤ edgeDist w h x' y' := by exact_mod_cast this
          refine le_trans ?_ this
          norm_num
        · rw [h3]
          by_cases hcc : c = c'
          · rw [← hcc]
            exact g1 h2
          · have s1 := hsep c hc c' hc' hcc
            have s2 := distance_triangle c.coord (lattice x' y') c'.coord
            rw [LevelSet.distance_comm (lattice x' y')] at s2
            have s3 : distance c.coord (lattice x' y') ≤ distance c.coord (lattice x y) + 1 := distance_step (by omega)
            rw [hdr] at s3
            have : (1 : ℝ) ≤ distance c'.coord (lattice x' y') - c'.r := by linarith
            refine le_trans ?_ this
            norm_num
      rw [this]
      simp
  have e1 := nb (x + 1) y (by omega) (by push_cast; intro h; have : 2 * (X - x) = 1 := by nlinarith
                                         omega)
  have e2 := nb (x - 1) y (by omega) (by rw [Nat.cast_sub (by omega)]; push_cast; intro h; have : 2 * (X - x) = -1 := by nlinarith
                                         omega)
  have e3 := nb x (y + 1) (by omega) (by push_cast; intro h; have : 2 * (Y - y) = 1 := by nlinarith
                                         omega)
  have e4 := nb x (y - 1) (by omega) (by rw [Nat.cast_sub (by omega)]; push_cast; intro h; have : 2 * (Y - y) = -1 := by nlinarith
                                         omega)
  rw [Nat.cast_sub (by omega)] at e2 e4
  push_cast at e1 e2 e3 e4
  refine ⟨b1, b2, b3, b4, e1.1, e2.1, e3.1, e4.1, fun ⟨p, q⟩ => ?_, fun ⟨p, q⟩ => ?_⟩
  · have := e1.2 p
    have := e2.2 q
    nlinarith
  · have := e3.2 p
    have := e4.2 q
    nlinarith

end

end Slsm
