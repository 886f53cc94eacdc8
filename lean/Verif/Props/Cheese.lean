import Verif.Props.Shape

/-! # C62: the default pattern of holes -/

namespace Slsm

open LevelSet

theorem nCheese_eq (n : Nat) (hn : n < 2 ^ 31) : nCheese (D := ℝ) n = ⌊(n : ℝ) / 30 + 1 / 2⌋₊ := by
  unfold nCheese
  have e : FP.floor ((FP.add (FP.div (FP.nat n) (FP.nat 30)) (FP.lit 1 2) : ℝ)) = ⌊(n : ℝ) / 30 + 1 / 2⌋₊ := by simp
  rw [e]
  have hle : ⌊(n : ℝ) / 30 + 1 / 2⌋₊ ≤ n + 1 := by
    apply Nat.floor_le_of_le
    push_cast
    have : (0 : ℝ) ≤ n := Nat.cast_nonneg n
    linarith
  norm_num at hn
  exact u32_of_lt (by omega)

/-- The number of holes is the rounded multiple of 30. -/
theorem nCheese_near (n : Nat) (hn : n < 2 ^ 31) : 30 * nCheese (D := ℝ) n ≤ n + 15 ∧ n < 30 * nCheese (D := ℝ) n + 15 := by
  rw [nCheese_eq n hn]
  have h0 : (0 : ℝ) ≤ (n : ℝ) / 30 + 1 / 2 := by positivity
  have h1 := Nat.floor_le h0
  have h2 := Nat.lt_floor_add_one ((n : ℝ) / 30 + 1 / 2)
  constructor
  · have : (30 * (⌊(n : ℝ) / 30 + 1 / 2⌋₊ : ℝ)) ≤ n + 15 := by linarith
    exact_mod_cast this
  · have : (n : ℝ) < 30 * (⌊(n : ℝ) / 30 + 1 / 2⌋₊ : ℝ) + 15 := by linarith
    exact_mod_cast this

/-- A hole of the outer grid. -/
noncomputable def outerHole (dx dy : ℝ) (nx i : Nat) : Hole ℝ := ⟨⟨dx * (1 + 2 * ((i % nx : ℕ) : ℝ)), dy * (1 + 2 * ((i / nx : ℕ) : ℝ))⟩, 5⟩

/-- A hole of the inner grid. -/
noncomputable def innerHole (dx dy : ℝ) (nx i : Nat) : Hole ℝ := ⟨⟨dx * (2 * (1 + ((i % (nx - 1) : ℕ) : ℝ))), dy * (2 * (1 + ((i / (nx - 1) : ℕ) : ℝ)))⟩, 5⟩

theorem cheeseHoles_eq (w h nx ny : Nat) : cheeseHoles (D := ℝ) w h nx ny =
    (List.range (nx * ny)).map (outerHole ((w : ℝ) / (2 * nx)) ((h : ℝ) / (2 * ny)) nx) ++
      (List.range ((nx - 1) * (ny - 1))).map (innerHole ((w : ℝ) / (2 * nx)) ((h : ℝ) / (2 * ny)) nx) := by
  unfold cheeseHoles
  dsimp only
  refine congrArg₂ _ (List.map_congr_left fun i _ => ?_) (List.map_congr_left fun i _ => ?_)
  · unfold outerHole
    simp only [FP.add_real, FP.mul_real, FP.div_real, FP.nat_real]
    push_cast
    simp only [Hole.mk.injEq, Coord.mk.injEq, and_true]
    exact ⟨by ring, by ring⟩
  · unfold innerHole
    simp only [FP.add_real, FP.mul_real, FP.div_real, FP.nat_real]
    push_cast
    simp only [Hole.mk.injEq, Coord.mk.injEq, and_true]
    exact ⟨by ring, by ring⟩

theorem far {dx : ℝ} (hd : 25 / 2 ≤ dx) {a b : ℤ} (h : a ≠ b) : 25 / 2 ≤ |dx * a - dx * b| := by
  rw [← mul_sub, abs_mul, abs_of_pos (by linarith)]
  have h1 : (1 : ℤ) ≤ |a - b| := Int.one_le_abs (sub_ne_zero.2 h)
  have h2 : (1 : ℝ) ≤ |(a : ℝ) - b| := by exact_mod_cast h1
  nlinarith

theorem far_two {dx : ℝ} (hd : 25 / 2 ≤ dx) {a b : ℕ} (h : a ≠ b) : 25 ≤ |dx * (2 * (a : ℝ)) - dx * (2 * (b : ℝ))| := by
  have := far hd (a := (a : ℤ)) (b := b) (by exact_mod_cast h)
  rw [show dx * (2 * (a : ℝ)) - dx * (2 * (b : ℝ)) = 2 * (dx * ((a : ℤ) : ℝ) - dx * ((b : ℤ) : ℝ)) by push_cast; ring, abs_mul]
  norm_num
  push_cast at this
  linarith

theorem apart_of {p q : Coord ℝ} (h : 25 ≤ |p.x - q.x| ∨ 25 ≤ |p.y - q.y| ∨ 25 / 2 ≤ |p.x - q.x| ∧ 25 / 2 ≤ |p.y - q.y|) : 17 ≤ distance p q := by
  unfold distance
  refine Real.le_sqrt_of_sq_le ?_
  rw [← sq_abs (p.x - q.x), ← sq_abs (p.y - q.y)]
  have h1 := abs_nonneg (p.x - q.x)
  have h2 := abs_nonneg (p.y - q.y)
  rcases h with h | h | ⟨h, h'⟩ <;> nlinarith

theorem index_ne {n i j : Nat} (h : i ≠ j) : i % n ≠ j % n ∨ i / n ≠ j / n := by
  by_contra hc
  push Not at hc
  apply h
  rw [← Nat.div_add_mod i n, ← Nat.div_add_mod j n, hc.1, hc.2]

/-- The smallest distance of two holes of the pattern: half the diagonal. -/
theorem cheese_apart {dx dy : ℝ} (hx : 25 / 2 ≤ dx) (hy : 25 / 2 ≤ dy) (nx a b : Nat) :
    ((List.range a).map (outerHole dx dy nx) ++ (List.range b).map (innerHole dx dy nx)).Pairwise fun c d => 17 ≤ distance c.coord d.coord := by
  rw [List.pairwise_append, List.pairwise_map, List.pairwise_map]
  refine ⟨List.pairwise_lt_range.imp fun {i j} hij => ?_, List.pairwise_lt_range.imp fun {i j} hij => ?_, ?_⟩
  · apply apart_of
    unfold outerHole
    dsimp only
    rcases index_ne (n := nx) (Nat.ne_of_lt hij) with h | h
    · left
      have := far_two hx h
      rwa [show dx * (1 + 2 * ((i % nx : ℕ) : ℝ)) - dx * (1 + 2 * ((j % nx : ℕ) : ℝ)) =
        dx * (2 * ((i % nx : ℕ) : ℝ)) - dx * (2 * ((j % nx : ℕ) : ℝ)) by ring]
    · right; left
      have := far_two hy h
      rwa [show dy * (1 + 2 * ((i / nx : ℕ) : ℝ)) - dy * (1 + 2 * ((j / nx : ℕ) : ℝ)) =
        dy * (2 * ((i / nx : ℕ) : ℝ)) - dy * (2 * ((j / nx : ℕ) : ℝ)) by ring]
  · apply apart_of
    unfold innerHole
    dsimp only
    rcases index_ne (n := nx - 1) (Nat.ne_of_lt hij) with h | h
    · left
      have := far_two hx h
      rwa [show dx * (2 * (1 + ((i % (nx - 1) : ℕ) : ℝ))) - dx * (2 * (1 + ((j % (nx - 1) : ℕ) : ℝ))) =
        dx * (2 * ((i % (nx - 1) : ℕ) : ℝ)) - dx * (2 * ((j % (nx - 1) : ℕ) : ℝ)) by ring]
    · right; left
      have := far_two hy h
      rwa [show dy * (2 * (1 + ((i / (nx - 1) : ℕ) : ℝ))) - dy * (2 * (1 + ((j / (nx - 1) : ℕ) : ℝ))) =
        dy * (2 * ((i / (nx - 1) : ℕ) : ℝ)) - dy * (2 * ((j / (nx - 1) : ℕ) : ℝ)) by ring]
  · intro c hc d hd
    obtain ⟨i, -, rfl⟩ := List.mem_map.1 hc
    obtain ⟨j, -, rfl⟩ := List.mem_map.1 hd
    apply apart_of
    unfold outerHole innerHole
    dsimp only
    right; right
    have h1 := far hx (a := 1 + 2 * ((i % nx : ℕ) : ℤ)) (b := 2 * (1 + ((j % (nx - 1) : ℕ) : ℤ))) (by omega)
    have h2 := far hy (a := 1 + 2 * ((i / nx : ℕ) : ℤ)) (b := 2 * (1 + ((j / (nx - 1) : ℕ) : ℤ))) (by omega)
    push_cast at h1 h2 ⊢
    exact ⟨h1, h2⟩

/-- The distance between neighbouring columns is at least 25 / 2. -/
theorem spacing {w nx : Nat} (h1 : 30 * nx ≤ w + 15) (h2 : 3 ≤ nx) : (25 / 2 : ℝ) ≤ (w : ℝ) / (2 * nx) ∧ (w : ℝ) = 2 * nx * ((w : ℝ) / (2 * nx)) := by
  have hn : (3 : ℝ) ≤ nx := by exact_mod_cast h2
  have hw : (30 : ℝ) * nx ≤ w + 15 := by exact_mod_cast h1
  refine ⟨?_, by field_simp⟩
  rw [le_div_iff₀ (by linarith)]
  linarith

/-- A centre stays at least one spacing away from both edges. -/
theorem margin {d : ℝ} (hd : 25 / 2 ≤ d) {n k : ℕ} (h1 : 1 ≤ k) (h2 : k + 1 ≤ 2 * n) : 15 / 2 ≤ d * (k : ℝ) - 5 ∧ d * (k : ℝ) + 5 ≤ 2 * n * d - 15 / 2 := by
  have a : (1 : ℝ) ≤ k := by exact_mod_cast h1
  have b : (k : ℝ) + 1 ≤ 2 * n := by exact_mod_cast h2
  constructor <;> nlinarith

section
variable {w h : Nat} {moveLimit : ℝ} {bandWidth : Nat} {f : Bool} {L : LevelSet ℝ}

/-- The pattern is symmetric about both middle lines of the domain. -/
theorem cheese_symmetric (hw : 75 ≤ w) (hh : 75 ≤ h) (hN : (w + 1) * (h + 1) < 2 ^ 31) {c : Hole ℝ}
    (hc : c ∈ cheeseHoles (D := ℝ) w h (nCheese (D := ℝ) w) (nCheese (D := ℝ) h)) :
    (⟨⟨w - c.coord.x, c.coord.y⟩, c.r⟩ : Hole ℝ) ∈ cheeseHoles (D := ℝ) w h (nCheese (D := ℝ) w) (nCheese (D := ℝ) h) ∧
    (⟨⟨c.coord.x, h - c.coord.y⟩, c.r⟩ : Hole ℝ) ∈ cheeseHoles (D := ℝ) w h (nCheese (D := ℝ) w) (nCheese (D := ℝ) h) := by
  have hw' : w < 2 ^ 31 := by nlinarith
  have hh' : h < 2 ^ 31 := by nlinarith
  have c1 := (nCheese_real w hw').2 hw
  have c2 := (nCheese_real h hh').2 hh
  obtain ⟨-, ex⟩ := spacing (nCheese_near w hw').1 c1
  obtain ⟨-, ey⟩ := spacing (nCheese_near h hh').1 c2
  generalize nCheese (D := ℝ) w = nx at *
  generalize nCheese (D := ℝ) h = ny at *
  rw [cheeseHoles_eq] at *
  have hidx : ∀ {n m a b : Nat}, a < n → b < m → b * n + a < n * m ∧ (b * n + a) % n = a ∧ (b * n + a) / n = b := by
    intro n m a b ha hb
    refine ⟨?_, by rw [Nat.mul_add_mod_self_right, Nat.mod_eq_of_lt ha], by rw [Nat.add_comm, Nat.add_mul_div_right _ _ (by omega), Nat.div_eq_of_lt ha, Nat.zero_add]⟩
    calc b * n + a < b * n + n := by omega
      _ = (b + 1) * n := by ring
      _ ≤ m * n := Nat.mul_le_mul_right _ hb
      _ = n * m := Nat.mul_comm _ _
  rcases List.mem_append.1 hc with hc | hc <;> obtain ⟨i, hi, rfl⟩ := List.mem_map.1 hc <;> rw [List.mem_range] at hi
  · have hx : i % nx < nx := Nat.mod_lt _ (by omega)
    have hy : i / nx < ny := by rw [Nat.div_lt_iff_lt_mul (by omega)]; rwa [Nat.mul_comm]
    constructor
    · obtain ⟨k1, k2, k3⟩ := hidx (n := nx) (m := ny) (a := nx - 1 - i % nx) (b := i / nx) (by omega) hy
      refine List.mem_append_left _ (List.mem_map.2 ⟨_, List.mem_range.2 k1, ?_⟩)
      unfold outerHole
      rw [k2, k3]
      simp only [Hole.mk.injEq, Coord.mk.injEq, and_true]
      rw [Nat.cast_sub (by omega), Nat.cast_sub (by omega), Nat.cast_one]
      generalize (w : ℝ) / (2 * nx) = dx at *
      rw [ex]; ring
    · obtain ⟨k1, k2, k3⟩ := hidx (n := nx) (m := ny) (a := i % nx) (b := ny - 1 - i / nx) hx (by generalize i / nx = q at *; omega)
      refine List.mem_append_left _ (List.mem_map.2 ⟨_, List.mem_range.2 k1, ?_⟩)
      unfold outerHole
      rw [k2, k3]
      simp only [Hole.mk.injEq, Coord.mk.injEq, and_true, true_and]
      rw [Nat.cast_sub (by generalize i / nx = q at *; omega), Nat.cast_sub (by omega), Nat.cast_one]
      generalize (h : ℝ) / (2 * ny) = dy at *
      rw [ey]; ring
  · have hx : i % (nx - 1) < nx - 1 := Nat.mod_lt _ (by omega)
    have hy : i / (nx - 1) < ny - 1 := by rw [Nat.div_lt_iff_lt_mul (by omega)]; rwa [Nat.mul_comm]
    constructor
    · obtain ⟨k1, k2, k3⟩ := hidx (n := nx - 1) (m := ny - 1) (a := nx - 2 - i % (nx - 1)) (b := i / (nx - 1)) (by omega) hy
      refine List.mem_append_right _ (List.mem_map.2 ⟨_, List.mem_range.2 k1, ?_⟩)
      unfold innerHole
      rw [k2, k3]
      simp only [Hole.mk.injEq, Coord.mk.injEq, and_true]
      rw [Nat.cast_sub (by omega), Nat.cast_sub (by omega), Nat.cast_ofNat]
      generalize (w : ℝ) / (2 * nx) = dx at *
      rw [ex]; ring
    · obtain ⟨k1, k2, k3⟩ := hidx (n := nx - 1) (m := ny - 1) (a := i % (nx - 1)) (b := ny - 2 - i / (nx - 1)) hx (by generalize i / (nx - 1) = q at *; omega)
      refine List.mem_append_right _ (List.mem_map.2 ⟨_, List.mem_range.2 k1, ?_⟩)
      unfold innerHole
      rw [k2, k3]
      simp only [Hole.mk.injEq, Coord.mk.injEq, and_true, true_and]
      rw [Nat.cast_sub (by generalize i / (nx - 1) = q at *; omega), Nat.cast_sub (by omega), Nat.cast_ofNat]
      generalize (h : ℝ) / (2 * ny) = dy at *
      rw [ey]; ring

/-- The structure of the default level set is the domain without the holes: the value at a node is negative exactly in the
interior of a hole. -/
theorem cheese_outside (hw : 1 ≤ w) (hh : 1 ≤ h) (hN : (w + 1) * (h + 1) < 2 ^ 31) (hb : bandWidth < 2 ^ 32)
    (e : new w h .cheese moveLimit bandWidth f = .ok L) {x y : Nat} (hx : x ≤ w) (hy : y ≤ h) :
    vals L.signedDistance (nodeNo w x y) < 0 ↔
      ∃ c ∈ cheeseHoles (D := ℝ) w h (nCheese (D := ℝ) w) (nCheese (D := ℝ) h), distance c.coord (lattice x y) < 5 := by
  have B := built hw hh hN hb e
  obtain ⟨m, hm, hv⟩ := B.value
  have G := new_grid ⟨hw, hh, by norm_num at hN ⊢; omega⟩ hm
  rw [hv, vals_map_range _ (by rw [G.nNodes]; exact nodeNo_lt hx hy)]
  unfold shapeVal
  dsimp only
  rw [edgeVal_real G hx hy, node_coord G hx hy, G.width, G.height]
  have hr : ∀ c ∈ cheeseHoles (D := ℝ) w h (nCheese (D := ℝ) w) (nCheese (D := ℝ) h), c.r = 5 := by
    intro c hc
    rw [cheeseHoles_eq] at hc
    rcases List.mem_append.1 hc with hc | hc <;> obtain ⟨i, -, rfl⟩ := List.mem_map.1 hc <;> rfl
  obtain ⟨hm, hl⟩ := holesVal_least (lattice x y) (cheeseHoles (D := ℝ) w h (nCheese (D := ℝ) w) (nCheese (D := ℝ) h)) (edgeDist w h x y : ℝ)
  constructor
  · intro hneg
    rcases hm with hm | ⟨c, hc, hm⟩
    · rw [Set.mem_singleton_iff] at hm
      rw [hm] at hneg
      exact absurd hneg (not_lt.2 (Nat.cast_nonneg _))
    · refine ⟨c, hc, ?_⟩
      rw [hm, hr c hc] at hneg
      linarith
  · rintro ⟨c, hc, hlt⟩
    refine lt_of_le_of_lt (hl (.inr ⟨c, hc, rfl⟩)) ?_
    rw [hr c hc]
    linarith

/-- **C62**: the default level set is the one made from a list of holes of radius 5 that lie inside the domain, at least 7.5 cells from its edge,
and whose rims are at least seven cells from each other; with `nx` and `ny` the dimensions divided by 30 and rounded, there are
`nx * ny + (nx - 1) * (ny - 1)` of them.  The pattern is symmetric about both middle lines of the domain.  A node is outside the structure
exactly if it is in the interior of a hole. -/
theorem C62_cheese (hw : 1 ≤ w) (hh : 1 ≤ h) (hN : (w + 1) * (h + 1) < 2 ^ 31) (hb : bandWidth < 2 ^ 32)
    (e : new w h .cheese moveLimit bandWidth f = .ok L) :
    ∃ (nx ny : Nat) (hs : List (Hole ℝ)), 30 * nx ≤ w + 15 ∧ w < 30 * nx + 15 ∧ 30 * ny ≤ h + 15 ∧ h < 30 * ny + 15 ∧ 3 ≤ nx ∧ 3 ≤ ny ∧
      new w h (.holes hs) moveLimit bandWidth f = .ok L ∧ hs.length = nx * ny + (nx - 1) * (ny - 1) ∧ (∀ c ∈ hs, c.r = 5) ∧
      (∀ c ∈ hs, 15 / 2 ≤ c.coord.x - c.r ∧ c.coord.x + c.r ≤ w - 15 / 2 ∧ 15 / 2 ≤ c.coord.y - c.r ∧ c.coord.y + c.r ≤ h - 15 / 2) ∧
      (hs.Pairwise fun c d => c.r + d.r + 7 ≤ distance c.coord d.coord) ∧
      (∀ c ∈ hs, ⟨⟨w - c.coord.x, c.coord.y⟩, c.r⟩ ∈ hs ∧ ⟨⟨c.coord.x, h - c.coord.y⟩, c.r⟩ ∈ hs) ∧
      ∀ x y, x ≤ w → y ≤ h → (vals L.signedDistance (nodeNo w x y) < 0 ↔ ∃ c ∈ hs, distance c.coord (lattice x y) < 5) := by
  have hw' : w < 2 ^ 31 := by nlinarith
  have hh' : h < 2 ^ 31 := by nlinarith
  obtain ⟨-, -, -, hc⟩ := (C22_accepts_iff hw hh hN .cheese (by simp) moveLimit bandWidth hb f).2.1 ⟨L, e⟩
  obtain ⟨c1, c2⟩ := hc rfl
  have sym := fun {c} => cheese_symmetric (w := w) (h := h) ((nCheese_real w hw').1 c1) ((nCheese_real h hh').1 c2) hN (c := c)
  have out := fun {x y} => cheese_outside hw hh hN hb e (x := x) (y := y)
  obtain ⟨x1, x2⟩ := nCheese_near w hw'
  obtain ⟨y1, y2⟩ := nCheese_near h hh'
  generalize hnx : nCheese (D := ℝ) w = nx at *
  generalize hny : nCheese (D := ℝ) h = ny at *
  obtain ⟨sx, ex⟩ := spacing x1 c1
  obtain ⟨sy, ey⟩ := spacing y1 c2
  refine ⟨nx, ny, cheeseHoles w h nx ny, x1, x2, y1, y2, c1, c2, ?_, ?_, ?_, ?_, ?_, fun c hc => sym hc, fun x y hx hy => out hx hy⟩
  · unfold new at e ⊢
    have S := base_spec (D := ℝ) (moveLimit := moveLimit) ⟨hw, hh, by norm_num at hN ⊢; omega⟩ (by norm_num at hb ⊢; omega : bandWidth < 4294967296) f false
    rcases hB : base w h moveLimit bandWidth f false with x | B
    · rw [hB] at e; cases e
    · rw [hB] at e S
      obtain ⟨-, W, -⟩ := S
      rw [← e]
      show (initialise (.holes _) B >>= _) = (initialise .cheese B >>= _)
      congr 1
      unfold initialise initialiseCheese
      dsimp only
      rw [W.grid.width, W.grid.height, hnx, hny, decide_eq_true c1, decide_eq_true c2]
      rfl
  · rw [cheeseHoles_eq]; simp
  · intro c hc
    rw [cheeseHoles_eq] at hc
    rcases List.mem_append.1 hc with hc | hc <;> obtain ⟨i, -, rfl⟩ := List.mem_map.1 hc <;> rfl
  · intro c hc
    rw [cheeseHoles_eq] at hc
    rcases List.mem_append.1 hc with hc | hc <;> obtain ⟨i, hi, rfl⟩ := List.mem_map.1 hc
    · rw [List.mem_range] at hi
      have hx : i % nx < nx := Nat.mod_lt _ (by omega)
      have hy : i / nx < ny := by rw [Nat.div_lt_iff_lt_mul (by omega)]; rwa [Nat.mul_comm]
      have m1 := margin sx (n := nx) (k := 1 + 2 * (i % nx)) (by omega) (by omega)
      have m2 := margin sy (n := ny) (k := 1 + 2 * (i / nx)) (by omega) (by generalize i / nx = q at *; omega)
      rw [← ex] at m1
      rw [← ey] at m2
      push_cast at m1 m2
      unfold outerHole
      push_cast
      exact ⟨m1.1, m1.2, m2.1, m2.2⟩
    · rw [List.mem_range] at hi
      have hx : i % (nx - 1) < nx - 1 := Nat.mod_lt _ (by omega)
      have hy : i / (nx - 1) < ny - 1 := by rw [Nat.div_lt_iff_lt_mul (by omega)]; rwa [Nat.mul_comm]
      have m1 := margin sx (n := nx) (k := 2 * (1 + i % (nx - 1))) (by omega) (by omega)
      have m2 := margin sy (n := ny) (k := 2 * (1 + i / (nx - 1))) (by generalize i / (nx - 1) = q; omega) (by generalize i / (nx - 1) = q at *; omega)
      rw [← ex] at m1
      rw [← ey] at m2
      push_cast at m1 m2
      unfold innerHole
      exact ⟨m1.1, m1.2, m2.1, m2.2⟩
  · have := cheese_apart sx sy nx (nx * ny) ((nx - 1) * (ny - 1))
    rw [← cheeseHoles_eq] at this
    rw [cheeseHoles_eq] at this ⊢
    refine this.imp_of_mem fun {c d} hc hd hcd => ?_
    have hr : ∀ c ∈ (List.range (nx * ny)).map (outerHole ((w : ℝ) / (2 * nx)) ((h : ℝ) / (2 * ny)) nx) ++
      (List.range ((nx - 1) * (ny - 1))).map (innerHole ((w : ℝ) / (2 * nx)) ((h : ℝ) / (2 * ny)) nx), c.r = 5 := by
      intro c hc
      rcases List.mem_append.1 hc with hc | hc <;> obtain ⟨i, -, rfl⟩ := List.mem_map.1 hc <;> rfl
    rw [hr c hc, hr d hd]
    linarith

/-- **C62** (memory): for an accepted domain memory is allocated for exactly the holes of the pattern, ... -/
theorem C62_request (hw : 75 ≤ w) (hh : 75 ≤ h) (hN : (w + 1) * (h + 1) < 2 ^ 31) :
    cheeseRequest (nCheese (D := ℝ) w) (nCheese (D := ℝ) h) =
      (cheeseHoles (D := ℝ) w h (nCheese (D := ℝ) w) (nCheese (D := ℝ) h)).length := by
  have hw' : w < 2 ^ 31 := by nlinarith
  have hh' : h < 2 ^ 31 := by nlinarith
  have c1 := (nCheese_real w hw').2 hw
  have c2 := (nCheese_real h hh').2 hh
  have x1 := (nCheese_near w hw').1
  have y1 := (nCheese_near h hh').1
  generalize nCheese (D := ℝ) w = nx at *
  generalize nCheese (D := ℝ) h = ny at *
  have hprod : nx * ny ≤ (w + 1) * (h + 1) := Nat.mul_le_mul (by omega) (by omega)
  have hprod' : (nx - 1) * (ny - 1) ≤ (w + 1) * (h + 1) := Nat.mul_le_mul (by omega) (by omega)
  have d1 : dec32 nx = nx - 1 := by unfold dec32 u32; omega
  have d2 : dec32 ny = ny - 1 := by unfold dec32 u32; omega
  rw [cheeseHoles_eq]
  unfold cheeseRequest
  rw [d1, d2, u32_of_lt (by omega : nx * ny < _), u32_of_lt (by omega : (nx - 1) * (ny - 1) < _), u32_of_lt (by omega)]
  simp

/-- ... but for a domain that is narrower than 15 cells and higher than 45 (to be rejected as too small) memory is requested for almost
2^32 holes of 24 bytes before the check. -/
theorem C62_request_huge (hw : w < 15) (hh : 45 ≤ h) (hN : h < 2 ^ 31) :
    cheeseRequest (nCheese (D := ℝ) w) (nCheese (D := ℝ) h) = 4294967296 - (nCheese (D := ℝ) h - 1) ∧
      4200000000 < cheeseRequest (nCheese (D := ℝ) w) (nCheese (D := ℝ) h) := by
  have x1 := (nCheese_near w (by omega)).1
  have y1 := nCheese_near h hN
  have hx : nCheese (D := ℝ) w = 0 := by omega
  rw [hx]
  generalize nCheese (D := ℝ) h = ny at *
  have d1 : dec32 0 = 4294967295 := rfl
  have d2 : dec32 ny = ny - 1 := by unfold dec32 u32; omega
  have : cheeseRequest 0 ny = 4294967296 - (ny - 1) := by
    unfold cheeseRequest
    rw [d1, d2]
    unfold u32
    rw [Nat.zero_mul]
    omega
  rw [this]
  exact ⟨rfl, by omega⟩

end

/-- The hypotheses are met by a domain of 90 × 75 cells. -/
example : ∃ L, new 90 75 .cheese (1 / 2 : ℝ) 6 true = .ok L ∧ (90 + 1) * (75 + 1) < 2 ^ 31 :=
  let ⟨L, h⟩ := (C22_cheese (by norm_num) (by norm_num) (by norm_num) _ _ (by norm_num) _).2 (by norm_num)
  ⟨L, h, by norm_num⟩

end Slsm
