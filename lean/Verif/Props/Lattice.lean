import Verif.Proof.BndLattice
import Verif.Props.Boundary

/-! # C41: holes with lattice points on their rims -/

namespace Slsm

open LevelSet Boundary

variable {w h : Nat} {holes : List (Hole ℝ)} {moveLimit : ℝ} {bandWidth : Nat} {f : Bool} {L : LevelSet ℝ}

/-- **C41** (partial, constructed level sets): holes whose centres are lattice points and whose radii are whole numbers (below 500000), so that lattice
points are on their rims; more than one cell away from the edge of the domain, and with gaps of at least two cells between them.  The boundary is
discretised without error, on fixed and free domains. -/
theorem C41_lattice_holes_partial (hw : 2 ≤ w) (hh : 2 ≤ h) (hN : (w + 1) * (h + 1) < 2 ^ 31) (hb : bandWidth < 2 ^ 32)
    (e : new w h (.holes holes) moveLimit bandWidth f = .ok L)
    (hin : ∀ c ∈ holes, 1 < c.coord.x - c.r ∧ c.coord.x + c.r < w - 1 ∧ 1 < c.coord.y - c.r ∧ c.coord.y + c.r < h - 1)
    (hint : ∀ c ∈ holes, ∃ X Y R : ℤ, c.coord.x = X ∧ c.coord.y = Y ∧ c.r = R ∧ 0 ≤ R ∧ R < 500000)
    (hsep : ∀ c ∈ holes, ∀ c' ∈ holes, c ≠ c' → c.r + c'.r + 2 ≤ distance c.coord c'.coord) :
    Tame w h L false ∧ ∃ b L', discretise L false = .ok (b, L') :=
  (C41_holes_partial (by omega) (by omega) hN hb e).1 (holes_lattice hw hh hN hb e hin (fun c hc => by
    obtain ⟨X, Y, R, h1, h2, h3, h4, h5⟩ := hint c hc
    exact ⟨X, Y, R, h1, h2, h3, h4, by omega⟩) hsep)

/-- The initial level set of the area and perimeter programs (`/repo/demos/minimise_area.cpp:85-89`, `minimise_perimeter.cpp:86-90`). -/
example : ∃ L : LevelSet ℝ, new 200 200 (.holes [⟨⟨100, 100⟩, 80⟩]) (1 / 2 : ℝ) 6 true = .ok L ∧ Tame 200 200 L false ∧
    (∃ b L', discretise L false = .ok (b, L')) ∧ level 200 L false 180 100 = 0 := by
  obtain ⟨L, hL⟩ := (C22_accepts_iff (D := ℝ) (w := 200) (h := 200) (by norm_num) (by norm_num) (by norm_num)
    (.holes [⟨⟨100, 100⟩, 80⟩]) (by simp) (1 / 2) 6 (by norm_num) true).2.2 ⟨by norm_num, by norm_num, by norm_num, fun h => by cases h⟩
  obtain ⟨h1, h2⟩ := C41_lattice_holes_partial (by norm_num) (by norm_num) (by norm_num) (by norm_num) hL
    (by simp only [List.mem_singleton, forall_eq]; norm_num)
    (by simp only [List.mem_singleton, forall_eq]; exact ⟨100, 100, 80, by norm_num, by norm_num, by norm_num, by norm_num, by norm_num⟩)
    (by simp only [List.mem_singleton, forall_eq]; exact fun h => absurd rfl h)
  refine ⟨L, hL, h1, h2, ?_⟩
  have hv := C23_holes_exact (by norm_num) (by norm_num) (by norm_num) (by norm_num) hL (x := 180) (y := 100) (by norm_num) (by norm_num)
  have hd : distance (⟨100, 100⟩ : Coord ℝ) (lattice 180 100) = 80 := by
    unfold distance lattice
    norm_num
    rw [show (6400 : ℝ) = 80 ^ 2 by norm_num]
    exact Real.sqrt_sq (by norm_num)
  refine hv.unique ⟨.inr ⟨_, List.mem_singleton.2 rfl, by dsimp only; rw [hd]; norm_num⟩, ?_⟩
  rintro q (hq | ⟨hole, hm, hq⟩)
  · rw [Set.mem_singleton_iff] at hq; rw [hq]; exact Nat.cast_nonneg _
  · rw [List.mem_singleton] at hm; rw [hq, hm]; dsimp only; rw [hd]; norm_num

/-- **C41** fails: two holes that touch at a lattice point give four segments there, and discretising accesses memory out of range. -/
theorem C41_touching_holes_undefined : ∃ L, new 20 10 (.holes [⟨⟨5, 5⟩, 3⟩, ⟨⟨11, 5⟩, 3⟩]) (1 / 2 : ℝ) 3 false = .ok L ∧
    discretise L false = .error .ub := by
  obtain ⟨L, hL⟩ := (C22_accepts_iff (D := ℝ) (w := 20) (h := 10) (by norm_num) (by norm_num) (by norm_num)
    (.holes [⟨⟨5, 5⟩, 3⟩, ⟨⟨11, 5⟩, 3⟩]) (by simp) (1 / 2) 3 (by norm_num) false).2.2 ⟨by norm_num, by norm_num, by norm_num, fun h => by cases h⟩
  refine ⟨L, hL, (C41_holes_partial (by norm_num) (by norm_num) (by norm_num) (by norm_num) hL).2 rfl fun T => ?_⟩
  have V : ∀ (x y : Nat) (d1 d2 m : ℝ), x ≤ 20 → y ≤ 10 → distance ⟨5, 5⟩ (lattice x y) = d1 → distance ⟨11, 5⟩ (lattice x y) = d2 →
      min (edgeDist 20 10 x y : ℝ) (min (d1 - 3) (d2 - 3)) = m → level 20 L false x y = m := by
    intro x y d1 d2 m hx hy hd1 hd2 hm
    refine (C23_holes_exact (by norm_num) (by norm_num) (by norm_num) (by norm_num) hL hx hy).unique ⟨?_, ?_⟩
    · rcases min_choice (edgeDist 20 10 x y : ℝ) (min (d1 - 3) (d2 - 3)) with hc | hc
      · exact .inl (by rw [← hm, hc]; rfl)
      · rcases min_choice (d1 - 3) (d2 - 3) with hc' | hc'
        · exact .inr ⟨_, List.mem_cons_self, by rw [← hm, hc, hc', hd1]⟩
        · exact .inr ⟨_, List.mem_cons_of_mem _ (List.mem_singleton.2 rfl), by rw [← hm, hc, hc', hd2]⟩
    · rintro q (hq | ⟨hole, hq, he⟩)
      · rw [Set.mem_singleton_iff] at hq; rw [hq, ← hm]; exact min_le_left _ _
      · simp only [List.mem_cons, List.not_mem_nil, or_false] at hq
        rcases hq with rfl | rfl
        · rw [he, hd1, ← hm]; exact (min_le_right _ _).trans (min_le_left _ _)
        · rw [he, hd2, ← hm]; exact (min_le_right _ _).trans (min_le_right _ _)
  have hor : ∀ (c : ℝ) (x : ℕ), distance ⟨c, 5⟩ (lattice x 5) = |c - x| := by
    intro c x
    unfold distance lattice
    dsimp only
    rw [show (c - x) ^ 2 + ((5 : ℝ) - (5 : ℕ)) ^ 2 = (c - x) ^ 2 by norm_num, Real.sqrt_sq_eq_abs]
  have s85 : nodeSide (level 20 L false 8 5) = .boundary := by
    rw [V 8 5 3 3 0 (by norm_num) (by norm_num) (by rw [hor]; norm_num) (by rw [hor]; norm_num) (by norm_num [edgeDist]), nodeSide_boundary]; norm_num
  have s75 : nodeSide (level 20 L false 7 5) = .outside := by
    rw [V 7 5 2 4 (-1) (by norm_num) (by norm_num) (by rw [hor]; norm_num) (by rw [hor]; norm_num) (by norm_num [edgeDist]), nodeSide_outside]; norm_num
  have s95 : nodeSide (level 20 L false 9 5) = .outside := by
    rw [V 9 5 4 2 (-1) (by norm_num) (by norm_num) (by rw [hor]; norm_num) (by rw [hor]; norm_num) (by norm_num [edgeDist]), nodeSide_outside]; norm_num
  have far : ∀ (c : ℝ) (x y : ℕ), 10 ≤ (c - x) ^ 2 + (5 - y) ^ 2 → (31 / 10 : ℝ) ≤ distance ⟨c, 5⟩ (lattice x y) := by
    intro c x y hc
    refine Real.le_sqrt_of_sq_le ?_
    unfold lattice
    dsimp only
    linarith
  have inside : ∀ y : ℕ, y = 4 ∨ y = 6 → nodeSide (level 20 L false 8 y) = .inside := by
    intro y hy
    have h1 : (31 / 10 : ℝ) ≤ distance ⟨5, 5⟩ (lattice 8 y) := far 5 8 y (by rcases hy with rfl | rfl <;> norm_num)
    have h2 : (31 / 10 : ℝ) ≤ distance ⟨11, 5⟩ (lattice 8 y) := far 11 8 y (by rcases hy with rfl | rfl <;> norm_num)
    rw [V 8 y _ _ _ (by norm_num) (by omega) rfl rfl rfl, nodeSide_inside]
    refine le_min ?_ (le_min (by norm_num at h1 ⊢; linarith) (by norm_num at h2 ⊢; linarith))
    rcases hy with rfl | rfl <;> norm_num [edgeDist]
  have hne := T.ends 8 5 (by norm_num) (by norm_num) s85
  unfold latticeEnds cornerEnds at hne
  norm_num at hne
  rw [s75, s95, inside 4 (.inl rfl), inside 6 (.inr rfl)] at hne
  simp at hne

end Slsm
