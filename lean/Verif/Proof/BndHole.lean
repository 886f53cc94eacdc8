import Verif.Proof.BndFlat
import Verif.Props.Motion

/-! Level sets made from holes have slope at most one. -/

namespace Slsm

open LevelSet Boundary

theorem distance_step {c : Coord ℝ} {x y x' y' : ℕ} (hs : (x' = x + 1 ∧ y' = y) ∨ (x = x' + 1 ∧ y' = y) ∨ (y' = y + 1 ∧ x' = x) ∨ (y = y' + 1 ∧ x' = x)) :
    distance c (lattice x y) ≤ distance c (lattice x' y') + 1 := by
  unfold distance lattice
  dsimp only
  have h0 := Real.sqrt_nonneg ((c.x - x') ^ 2 + (c.y - y') ^ 2)
  have hsq := Real.sq_sqrt (show 0 ≤ (c.x - x') ^ 2 + (c.y - y') ^ 2 by positivity)
  have hx : |c.x - x'| ≤ Real.sqrt ((c.x - x') ^ 2 + (c.y - y') ^ 2) := Real.abs_le_sqrt (by nlinarith [sq_nonneg (c.y - y')])
  have hy : |c.y - y'| ≤ Real.sqrt ((c.x - x') ^ 2 + (c.y - y') ^ 2) := Real.abs_le_sqrt (by nlinarith [sq_nonneg (c.x - x')])
  have ax := abs_le.1 hx
  have ay := abs_le.1 hy
  refine Real.sqrt_le_iff.2 ⟨by linarith, ?_⟩
  rcases hs with ⟨rfl, rfl⟩ | ⟨rfl, rfl⟩ | ⟨rfl, rfl⟩ | ⟨rfl, rfl⟩ <;> push_cast at * <;> nlinarith

theorem edgeDist_step {w h x y x' y' : ℕ} (hx : x ≤ w) (hy : y ≤ h) (hx' : x' ≤ w) (hy' : y' ≤ h)
    (hs : (x' = x + 1 ∧ y' = y) ∨ (x = x' + 1 ∧ y' = y) ∨ (y' = y + 1 ∧ x' = x) ∨ (y = y' + 1 ∧ x' = x)) :
    edgeDist w h x y ≤ edgeDist w h x' y' + 1 := by
  unfold edgeDist
  simp only [Nat.min_def]
  split_ifs <;> omega

section
variable {w h : Nat} {holes : List (Hole ℝ)} {moveLimit : ℝ} {bandWidth : Nat} {f : Bool} {L : LevelSet ℝ}

theorem holes_step (hw : 1 ≤ w) (hh : 1 ≤ h) (hN : (w + 1) * (h + 1) < 2 ^ 31) (hb : bandWidth < 2 ^ 32)
    (e : new w h (.holes holes) moveLimit bandWidth f = .ok L) {x y x' y' : ℕ} (hx : x ≤ w) (hy : y ≤ h) (hx' : x' ≤ w) (hy' : y' ≤ h)
    (hs : (x' = x + 1 ∧ y' = y) ∨ (x = x' + 1 ∧ y' = y) ∨ (y' = y + 1 ∧ x' = x) ∨ (y = y' + 1 ∧ x' = x)) :
    level w L false x y ≤ level w L false x' y' + 1 := by
  have h1 := C23_holes_exact hw hh hN hb e hx hy
  have h2 := C23_holes_exact hw hh hN hb e hx' hy'
  have e1 : level w L false x y = vals L.signedDistance (nodeNo w x y) := rfl
  have e2 : level w L false x' y' = vals L.signedDistance (nodeNo w x' y') := rfl
  rw [e1, e2]
  rcases h2.1 with h3 | ⟨c, hc, h3⟩
  · rw [Set.mem_singleton_iff] at h3
    rw [h3]
    refine le_trans (h1.2 (.inl rfl)) ?_
    have := edgeDist_step hx hy hx' hy' hs
    exact_mod_cast this
  · rw [h3]
    refine le_trans (h1.2 (.inr ⟨c, hc, rfl⟩)) ?_
    have := distance_step (c := c.coord) hs
    linarith

theorem holes_gentle (hw : 1 ≤ w) (hh : 1 ≤ h) (hN : (w + 1) * (h + 1) < 2 ^ 31) (hb : bandWidth < 2 ^ 32)
    (e : new w h (.holes holes) moveLimit bandWidth f = .ok L) : Gentle w h (level w L false) := by
  constructor
  · intro x y hx hy _
    have a := holes_step hw hh hN hb e (x := x) (y := y) (x' := x + 1) (y' := y) (by omega) hy hx hy (.inl ⟨rfl, rfl⟩)
    have b := holes_step hw hh hN hb e (x := x + 1) (y := y) (x' := x) (y' := y) hx hy (by omega) hy (.inr (.inl ⟨rfl, rfl⟩))
    rw [abs_le]
    constructor <;> linarith
  · intro x y hx hy _
    have a := holes_step hw hh hN hb e (x := x) (y := y) (x' := x) (y' := y + 1) hx (by omega) hx hy (.inr (.inr (.inl ⟨rfl, rfl⟩)))
    have b := holes_step hw hh hN hb e (x := x) (y := y + 1) (x' := x) (y' := y) hx hy hx (by omega) (.inr (.inr (.inr ⟨rfl, rfl⟩)))
    rw [abs_le]
    constructor <;> linarith

/-- Crossed edges have an active end. -/
theorem holes_seen (hw : 1 ≤ w) (hh : 1 ≤ h) (hN : (w + 1) * (h + 1) < 2 ^ 31) (hb : bandWidth < 2 ^ 32)
    (e : new w h (.holes holes) moveLimit bandWidth f = .ok L) {p : Place} (hp : CutEdge w h (level w L false) p) :
    ∃ q ∈ p.ends, ∃ nd, L.mesh.nodes[nodeNo w q.1 q.2]? = some nd ∧ (nd.isActive = true ∨ nd.isMasked = true) := by
  have hr : Reachable w h L := .new hw hh hN hb e
  have B := built hw hh hN hb e
  have key : ∀ x y v, x ≤ w → y ≤ h → nodeSide (level w L false x y) = .inside → nodeSide v = .outside → level w L false x y - v ≤ 1 →
      ∃ nd, L.mesh.nodes[nodeNo w x y]? = some nd ∧ (nd.isActive = true ∨ nd.isMasked = true) := by
    intro x y v hx hy h1 h2 h3
    rw [nodeSide_inside] at h1
    rw [nodeSide_outside] at h2
    norm_num at h1 h2
    have hle := (C23_holes_exact hw hh hN hb e hx hy).2 (.inl rfl)
    change level w L false x y ≤ _ at hle
    have : L.InBand (nodeNo w x y) := by
      refine ⟨⟨by rw [hr.core.grid.nNodes]; exact nodeNo_lt hx hy, B.unmasked _, fun _ hd => ?_⟩, ?_⟩
      · have h0 : edgeDist w h x y = 0 := by
          have := (C31_edge hr hx hy).1 hd
          unfold edgeDist
          simp only [Nat.min_def]
          split_ifs <;> omega
        rw [h0] at hle
        norm_num at hle
        linarith
      · rw [FP.lt_real, FP.abs_real, FP.nat_real]
        have h4 : (2 : ℝ) < L.bandWidth := by exact_mod_cast hr.core.bandWidth.1
        change |level w L false x y| < _
        rw [abs_of_pos (by linarith)]
        linarith
    obtain ⟨nd, h4, h5⟩ := (B.band.active _).2 this
    exact ⟨nd, h4, .inl h5⟩
  have G := holes_gentle hw hh hN hb e
  obtain ⟨h1, h2, h3⟩ := hp
  cases p with
  | node x y => exact absurd rfl (h3 x y)
  | hor x y =>
    have hi := h1 (x + 1, y) (by simp [Place.ends])
    dsimp only at hi
    have hg := abs_le.1 (G.1 x y hi.1 hi.2 h2)
    rcases h2 with ⟨a, b⟩ | ⟨a, b⟩
    · exact ⟨(x, y), by simp [Place.ends], key x y _ (by omega) hi.2 a b (by linarith)⟩
    · exact ⟨(x + 1, y), by simp [Place.ends], key (x + 1) y _ hi.1 hi.2 b a (by linarith)⟩
  | ver x y =>
    have hi := h1 (x, y + 1) (by simp [Place.ends])
    dsimp only at hi
    have hg := abs_le.1 (G.2 x y hi.1 hi.2 h2)
    rcases h2 with ⟨a, b⟩ | ⟨a, b⟩
    · exact ⟨(x, y), by simp [Place.ends], key x y _ hi.1 (by omega) a b (by linarith)⟩
    · exact ⟨(x, y + 1), by simp [Place.ends], key x (y + 1) _ hi.1 hi.2 b a (by linarith)⟩

/-- Points in the holes are two cells from the domain edge. -/
theorem holes_out (hw : 2 ≤ w) (hh : 2 ≤ h) (hN : (w + 1) * (h + 1) < 2 ^ 31) (hb : bandWidth < 2 ^ 32)
    (e : new w h (.holes holes) moveLimit bandWidth f = .ok L)
    (hin : ∀ c ∈ holes, 1 < c.coord.x - c.r ∧ c.coord.x + c.r < w - 1 ∧ 1 < c.coord.y - c.r ∧ c.coord.y + c.r < h - 1) {x y : ℕ} (hx : x ≤ w) (hy : y ≤ h)
    (hn : nodeSide (level w L false x y) = .outside) : 2 ≤ x ∧ x + 2 ≤ w ∧ 2 ≤ y ∧ y + 2 ≤ h := by
  have hv := C23_holes_exact (by omega) (by omega) hN hb e hx hy
  change IsLeast _ (level w L false x y) at hv
  rw [nodeSide_outside] at hn
  rcases hv.1 with h1 | ⟨c, hc, h1⟩
  · rw [Set.mem_singleton_iff] at h1
    rw [h1] at hn
    have : (0 : ℝ) ≤ edgeDist w h x y := Nat.cast_nonneg _
    norm_num at hn
    linarith
  · rw [h1] at hn
    obtain ⟨a1, a2, a3, a4⟩ := hin c hc
    have hd : distance c.coord (lattice x y) < c.r := by
      norm_num at hn
      linarith
    have hxd : |c.coord.x - x| ≤ distance c.coord (lattice x y) := Real.abs_le_sqrt (by unfold lattice; dsimp only; nlinarith [sq_nonneg (c.coord.y - y)])
    have hyd : |c.coord.y - y| ≤ distance c.coord (lattice x y) := Real.abs_le_sqrt (by unfold lattice; dsimp only; nlinarith [sq_nonneg (c.coord.x - x)])
    have bx := abs_le.1 hxd
    have bY := abs_le.1 hyd
    have c1 : (1 : ℝ) < x := by linarith
    have c2 : (x : ℝ) + 1 < w := by linarith
    have c3 : (1 : ℝ) < y := by linarith
    have c4 : (y : ℝ) + 1 < h := by linarith
    have d1 : 1 < x := by exact_mod_cast c1
    have d2 : x + 1 < w := by exact_mod_cast c2
    have d3 : 1 < y := by exact_mod_cast c3
    have d4 : y + 1 < h := by exact_mod_cast c4
    omega

/-- Holes at least one unit from the domain edge, with no lattice point on a circle. -/
theorem holes_rim (hw : 2 ≤ w) (hh : 2 ≤ h) (hN : (w + 1) * (h + 1) < 2 ^ 31) (hb : bandWidth < 2 ^ 32)
    (e : new w h (.holes holes) moveLimit bandWidth f = .ok L)
    (hin : ∀ c ∈ holes, 1 < c.coord.x - c.r ∧ c.coord.x + c.r < w - 1 ∧ 1 < c.coord.y - c.r ∧ c.coord.y + c.r < h - 1)
    (hgen : ∀ c ∈ holes, ∀ x y, x ≤ w → y ≤ h → 1 / 10 ^ 6 ≤ |distance c.coord (lattice x y) - c.r|) :
    Rim w h (level w L false) := by
  have hv : ∀ x y, x ≤ w → y ≤ h → IsLeast ({(edgeDist w h x y : ℝ)} ∪ {d | ∃ hole ∈ holes, d = distance hole.coord (lattice x y) - hole.r})
      (level w L false x y) := fun x y hx hy => C23_holes_exact (by omega) (by omega) hN hb e hx hy
  have hbd : ∀ x y, x ≤ w → y ≤ h → nodeSide (level w L false x y) = .boundary → onEdge w h x y := by
    intro x y hx hy hn
    rw [nodeSide_boundary] at hn
    rcases (hv x y hx hy).1 with h1 | ⟨c, hc, h1⟩
    · rw [Set.mem_singleton_iff] at h1
      rw [h1, Nat.abs_cast] at hn
      by_contra hne
      have : 1 ≤ edgeDist w h x y := by
        unfold edgeDist onEdge at *
        simp only [Nat.min_def]
        split_ifs <;> omega
      have : (1 : ℝ) ≤ edgeDist w h x y := by exact_mod_cast this
      have h3 := lt_of_le_of_lt this hn
      norm_num at h3
    · rw [h1] at hn
      exact absurd (hgen c hc x y hx hy) (not_le.2 hn)
  have hout := fun x y => holes_out (x := x) (y := y) hw hh hN hb e hin
  refine ⟨hw, hh, hbd, ?_⟩
  intro x y x' y' hx hy hx' hy' h1 h2
  have b1 := hbd x y hx hy h1
  have b2 := hout x' y' hx' hy' h2
  unfold onEdge at b1
  omega

end

/-- Reinitialised values have slope at most one across the contour, if no node changes side. -/
theorem reinitialise_gentle {w h : Nat} {L L' : LevelSet ℝ} (hr : Reachable w h L) (e : reinitialise L = .ok L')
    (hs : ∀ i, i < L.mesh.nNodes → SameSide (vals L.signedDistance i) (vals L'.signedDistance i)) : Gentle w h (level w L' false) := by
  have C := hr.core
  have N : ∀ x y, x ≤ w → y ≤ h → nodeNo w x y < L.mesh.nNodes := fun x y hx hy => by rw [C.grid.nNodes]; exact nodeNo_lt hx hy
  rcases C27_reinitialise hr with ⟨L1, F, e1, hF, hsd, -⟩ | ⟨e1, -⟩
  swap
  · rw [e] at e1; cases e1
  rw [e] at e1
  cases e1
  have key : ∀ i n, Adj w h i n → Adj w h n i → i < L.mesh.nNodes → n < L.mesh.nNodes → 0 < vals L'.signedDistance i →
      vals L'.signedDistance n < 0 → |vals L'.signedDistance i - vals L'.signedDistance n| ≤ 1 := by
    intro i n ha ha' hi hn h1 h2
    have p1 : 0 < vals L.signedDistance i := by
      rcases hs i hi with h | h | h
      · exact h.1
      · linarith [h.2]
      · linarith [h.2]
    have p2 : vals L.signedDistance n < 0 := by
      rcases hs n hn with h | h | h
      · linarith [h.2]
      · exact h.1
      · linarith [h.2]
    have hm : vals L.signedDistance i * vals L.signedDistance n < 0 := mul_neg_of_pos_of_neg p1 p2
    have b1 := (C16_bounds C.grid C.sd hF ha hm).2.2.1
    have b2 := (C16_bounds C.grid C.sd hF ha' (by rwa [mul_comm])).2.2.1
    rw [← hsd, abs_of_pos h1] at b1
    rw [← hsd, abs_of_neg h2] at b2
    rw [abs_of_pos (by linarith)]
    have : vals L.signedDistance i / (vals L.signedDistance i - vals L.signedDistance n) +
        vals L.signedDistance n / (vals L.signedDistance n - vals L.signedDistance i) = 1 := by
      rw [show vals L.signedDistance n - vals L.signedDistance i = -(vals L.signedDistance i - vals L.signedDistance n) by ring, div_neg,
        ← sub_eq_add_neg, ← sub_div]
      exact div_self (by linarith)
    linarith
  have both : ∀ i n, Adj w h i n → Adj w h n i → i < L.mesh.nNodes → n < L.mesh.nNodes →
      Crossed (nodeSide (vals L'.signedDistance i)) (nodeSide (vals L'.signedDistance n)) →
      |vals L'.signedDistance i - vals L'.signedDistance n| ≤ 1 := by
    intro i n ha ha' hi hn hc
    have h0 : (0 : ℝ) < 1 / 10 ^ 6 := by norm_num
    rcases hc with ⟨c1, c2⟩ | ⟨c1, c2⟩
    · rw [nodeSide_inside] at c1
      rw [nodeSide_outside] at c2
      exact key i n ha ha' hi hn (by linarith) (by linarith)
    · rw [nodeSide_outside] at c1
      rw [nodeSide_inside] at c2
      rw [abs_sub_comm]
      exact key n i ha' ha hn hi (by linarith) (by linarith)
  refine ⟨fun x y hx hy hc => ?_, fun x y hx hy hc => ?_⟩
  · exact both _ _ (.inl ⟨x, x + 1, y, by omega, hx, hy, rfl, rfl, .inl rfl⟩) (.inl ⟨x + 1, x, y, hx, by omega, hy, rfl, rfl, .inr rfl⟩)
      (N _ _ (by omega) hy) (N _ _ hx hy) hc
  · exact both _ _ (.inr ⟨x, y, y + 1, hx, by omega, hy, rfl, rfl, .inl rfl⟩) (.inr ⟨x, y + 1, y, hx, hy, by omega, rfl, rfl, .inr rfl⟩)
      (N _ _ hx (by omega)) (N _ _ hx hy) hc

end Slsm
