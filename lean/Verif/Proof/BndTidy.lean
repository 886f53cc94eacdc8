import Verif.Spec.Boundary

/-! Lattice points on the contour that are tidy. -/

namespace Slsm

variable {w h : Nat} {f : Nat → Nat → ℝ}

theorem Generic.tidy (G : Generic w h f) : Tidy w h f :=
  ⟨fun x y hx hy => ⟨(x, y), by simp, G x y (by omega) (by omega)⟩, fun x y hx hy hb => absurd hb (G x y hx hy)⟩

theorem cornerEnds_inner {a o b : NodeStatus} (ha : a ≠ .outside) (ho : o ≠ .outside) (hb : b ≠ .outside) :
    cornerEnds a o b = (if a = .boundary then 1 else 0) + (if b = .boundary then 1 else 0) := by
  unfold cornerEnds
  rw [if_neg (by tauto)]
  simp [ha, hb]

theorem Rim.tidy (G : Rim w h f) : Tidy w h f := by
  obtain ⟨g1, g2, g3, g4⟩ := G
  have hin : ∀ a b, a ≤ w → b ≤ h → ¬ onEdge w h a b → nodeSide (f a b) ≠ .boundary := fun a b ha hb hn he => hn (g3 a b ha hb he)
  constructor
  · intro x y hx hy
    by_cases h1 : x = 0 <;> by_cases h2 : y = 0
    · exact ⟨(x + 1, y + 1), by simp, hin _ _ (by omega) (by omega) (by unfold onEdge; omega)⟩
    · exact ⟨(x + 1, y), by simp, hin _ _ (by omega) (by omega) (by unfold onEdge; omega)⟩
    · exact ⟨(x, y + 1), by simp, hin _ _ (by omega) (by omega) (by unfold onEdge; omega)⟩
    · exact ⟨(x, y), by simp, hin _ _ (by omega) (by omega) (by unfold onEdge; omega)⟩
  · intro x y hx hy hb
    have hedge := g3 x y hx hy hb
    have hno : ∀ x' y', x' ≤ w → y' ≤ h → x ≤ x' + 1 → x' ≤ x + 1 → y ≤ y' + 1 → y' ≤ y + 1 → nodeSide (f x' y') ≠ .outside := by
      intro x' y' a1 a2 a3 a4 a5 a6 ho
      have := g4 x y x' y' hx hy a1 a2 hb ho
      omega
    unfold latticeEnds
    by_cases x0 : 0 < x <;> by_cases x1 : x < w <;> by_cases y0 : 0 < y <;> by_cases y1 : y < h
    · exact absurd hedge (by unfold onEdge; omega)
    · rw [if_neg (by omega), if_neg (by omega), if_pos ⟨x0, y0⟩, if_pos ⟨x1, y0⟩,
        cornerEnds_inner (hno _ _ (by omega) (by omega) (by omega) (by omega) (by omega) (by omega))
          (hno _ _ (by omega) (by omega) (by omega) (by omega) (by omega) (by omega))
          (hno _ _ (by omega) (by omega) (by omega) (by omega) (by omega) (by omega)),
        cornerEnds_inner (hno _ _ (by omega) (by omega) (by omega) (by omega) (by omega) (by omega))
          (hno _ _ (by omega) (by omega) (by omega) (by omega) (by omega) (by omega))
          (hno _ _ (by omega) (by omega) (by omega) (by omega) (by omega) (by omega)),
        if_neg (hin x (y - 1) (by omega) (by omega) (by unfold onEdge; omega))]
      split_ifs <;> omega
    · rw [if_pos ⟨x1, y1⟩, if_pos ⟨x0, y1⟩, if_neg (by omega), if_neg (by omega),
        cornerEnds_inner (hno _ _ (by omega) (by omega) (by omega) (by omega) (by omega) (by omega))
          (hno _ _ (by omega) (by omega) (by omega) (by omega) (by omega) (by omega))
          (hno _ _ (by omega) (by omega) (by omega) (by omega) (by omega) (by omega)),
        cornerEnds_inner (hno _ _ (by omega) (by omega) (by omega) (by omega) (by omega) (by omega))
          (hno _ _ (by omega) (by omega) (by omega) (by omega) (by omega) (by omega))
          (hno _ _ (by omega) (by omega) (by omega) (by omega) (by omega) (by omega)),
        if_neg (hin x (y + 1) (by omega) (by omega) (by unfold onEdge; omega))]
      split_ifs <;> omega
    · omega
    · rw [if_neg (by omega), if_pos ⟨x0, y1⟩, if_pos ⟨x0, y0⟩, if_neg (by omega),
        cornerEnds_inner (hno _ _ (by omega) (by omega) (by omega) (by omega) (by omega) (by omega))
          (hno _ _ (by omega) (by omega) (by omega) (by omega) (by omega) (by omega))
          (hno _ _ (by omega) (by omega) (by omega) (by omega) (by omega) (by omega)),
        cornerEnds_inner (hno _ _ (by omega) (by omega) (by omega) (by omega) (by omega) (by omega))
          (hno _ _ (by omega) (by omega) (by omega) (by omega) (by omega) (by omega))
          (hno _ _ (by omega) (by omega) (by omega) (by omega) (by omega) (by omega)),
        if_neg (hin (x - 1) y (by omega) (by omega) (by unfold onEdge; omega))]
      split_ifs <;> omega
    · rw [if_neg (by omega), if_neg (by omega), if_pos ⟨x0, y0⟩, if_neg (by omega),
        cornerEnds_inner (hno _ _ (by omega) (by omega) (by omega) (by omega) (by omega) (by omega))
          (hno _ _ (by omega) (by omega) (by omega) (by omega) (by omega) (by omega))
          (hno _ _ (by omega) (by omega) (by omega) (by omega) (by omega) (by omega))]
      split_ifs <;> omega
    · rw [if_neg (by omega), if_pos ⟨x0, y1⟩, if_neg (by omega), if_neg (by omega),
        cornerEnds_inner (hno _ _ (by omega) (by omega) (by omega) (by omega) (by omega) (by omega))
          (hno _ _ (by omega) (by omega) (by omega) (by omega) (by omega) (by omega))
          (hno _ _ (by omega) (by omega) (by omega) (by omega) (by omega) (by omega))]
      split_ifs <;> omega
    · omega
    · rw [if_pos ⟨x1, y1⟩, if_neg (by omega), if_neg (by omega), if_pos ⟨x1, y0⟩,
        cornerEnds_inner (hno _ _ (by omega) (by omega) (by omega) (by omega) (by omega) (by omega))
          (hno _ _ (by omega) (by omega) (by omega) (by omega) (by omega) (by omega))
          (hno _ _ (by omega) (by omega) (by omega) (by omega) (by omega) (by omega)),
        cornerEnds_inner (hno _ _ (by omega) (by omega) (by omega) (by omega) (by omega) (by omega))
          (hno _ _ (by omega) (by omega) (by omega) (by omega) (by omega) (by omega))
          (hno _ _ (by omega) (by omega) (by omega) (by omega) (by omega) (by omega)),
        if_neg (hin (x + 1) y (by omega) (by omega) (by unfold onEdge; omega))]
      split_ifs <;> omega
    · rw [if_neg (by omega), if_neg (by omega), if_neg (by omega), if_pos ⟨x1, y0⟩,
        cornerEnds_inner (hno _ _ (by omega) (by omega) (by omega) (by omega) (by omega) (by omega))
          (hno _ _ (by omega) (by omega) (by omega) (by omega) (by omega) (by omega))
          (hno _ _ (by omega) (by omega) (by omega) (by omega) (by omega) (by omega))]
      split_ifs <;> omega
    · rw [if_pos ⟨x1, y1⟩, if_neg (by omega), if_neg (by omega), if_neg (by omega),
        cornerEnds_inner (hno _ _ (by omega) (by omega) (by omega) (by omega) (by omega) (by omega))
          (hno _ _ (by omega) (by omega) (by omega) (by omega) (by omega) (by omega))
          (hno _ _ (by omega) (by omega) (by omega) (by omega) (by omega) (by omega))]
      split_ifs <;> omega
    all_goals omega

end Slsm
