import Verif.Proof.RoundBase
import Verif.Proof.MeshGeom
import Verif.Proof.LSVel
import Verif.Proof.LSGrad

/-! # Cells and closest nodes in rounded arithmetic -/

namespace Slsm

open FP

namespace Rounding

variable {R : Rounding}

instance : FloorNat R.Num where
  floor_nat n hn := by
    change ⌊(FP.nat n : R.Num).val⌋₊ = n
    rw [val_nat (by omega), Nat.floor_natCast]

theorem val_lit_half : (FP.lit 1 2 : R.Num).val = 1 / 2 := by
  unfold FP.lit
  rw [val_div, val_one, val_nat (by norm_num)]
  have := R.half 1 (by norm_num)
  push_cast at this ⊢
  exact this

theorem val_lit_tol : (FP.lit 1 1000000 : R.Num).val = R.tol := by
  unfold FP.lit tol
  rw [val_div, val_one, val_nat (by norm_num)]
  norm_num

theorem val_centre {x : ℕ} (hx : x < 2 ^ 31) : (FP.add (FP.nat x) (FP.lit 1 2) : R.Num).val = x + 1 / 2 := by
  rw [val_add, val_lit_half, val_nat (by omega)]
  have := R.half (2 * x + 1) (by omega)
  push_cast at this
  rw [show (x : ℝ) + 1 / 2 = (2 * x + 1) / 2 by ring]
  exact this

/-- Column or row of the cell. -/
theorem cellIndex_rnd {n : ℕ} (hn : 1 ≤ n) (hn' : n < 2 ^ 31) {a : R.Num} (h0 : 0 ≤ a.val) (h1 : a.val ≤ n) {e : ℕ}
    (he : e = FP.floor (if (a -. (FP.lit 1 1000000 : R.Num)) <. FP.nat 0 then FP.nat 0 else a -. (FP.lit 1 1000000 : R.Num))) :
    e < n ∧ (e : ℝ) ≤ a.val ∧ a.val < e + 1 + R.tol := by
  have htp : 0 < R.tol := tol_pos
  have htb := R.tol_bounds
  have hn1 : (1 : ℝ) ≤ n := by exact_mod_cast hn
  have hn2 : (n : ℝ) ≤ 2 ^ 31 := by exact_mod_cast hn'.le
  have hv : (a -. (FP.lit 1 1000000 : R.Num)).val = R.rnd (a.val - R.tol) := by rw [val_sub, val_lit_tol]
  have herr := err_le (R := R) (a.val - R.tol)
  by_cases hs : R.rnd (a.val - R.tol) < 0
  · rw [if_pos (by rw [lt_iff, hv, val_zero]; exact hs)] at he
    have e0 : e = 0 := by
      rw [he]
      change ⌊(FP.nat 0 : R.Num).val⌋₊ = 0
      rw [val_zero, Nat.floor_zero]
    subst e0
    have : a.val - R.tol < 0 := by
      by_contra h
      have := rnd_nonneg (R := R) (not_lt.1 h)
      linarith
    refine ⟨by omega, by simpa using h0, by push_cast; linarith⟩
  · rw [if_neg (by rw [lt_iff, hv, val_zero]; exact hs)] at he
    have he : e = ⌊R.rnd (a.val - R.tol)⌋₊ := by rw [he]; change ⌊(a -. (FP.lit 1 1000000 : R.Num)).val⌋₊ = _; rw [hv]
    have hs := not_lt.1 hs
    have hle : R.rnd (a.val - R.tol) ≤ a.val := rnd_le a (by linarith)
    have hel : (e : ℝ) ≤ R.rnd (a.val - R.tol) := by rw [he]; exact Nat.floor_le hs
    have heu : R.rnd (a.val - R.tol) < e + 1 := by rw [he]; exact Nat.lt_floor_add_one _
    have habs : |a.val - R.tol| ≤ 2 ^ 31 := by
      have : R.tol ≤ 1 := htb.2.le.trans (by norm_num)
      rw [abs_le]
      constructor <;> linarith
    have h52 : |a.val - R.tol| / 2 ^ 52 ≤ 1 / 2 ^ 21 := by
      rw [div_le_iff₀ (by positivity)]
      exact habs.trans (by norm_num)
    have hlow := abs_le.1 herr
    have hlt : R.rnd (a.val - R.tol) < n := by
      have : (1 : ℝ) / 2 ^ 21 + 1 / 2 ^ 80 < 1 / 2 ^ 20 := by norm_num
      linarith [hlow.2]
    have hen : e < n := by
      have : (e : ℝ) < n := by linarith
      exact_mod_cast this
    refine ⟨hen, by linarith, ?_⟩
    by_contra h
    have h' : ((e + 1 : ℕ) : ℝ) ≤ a.val - R.tol := by push_cast; linarith
    have := nat_le_rnd (R := R) (n := e + 1) (by omega) h'
    push_cast at this
    linarith

theorem getElement_rnd {w h : Nat} {m : Mesh R.Num} (G : IsGrid w h m) (hfit : (w + 1) * (h + 1) < 2 ^ 31) {p : Coord R.Num}
    (hx0 : 0 ≤ p.x.val) (hx1 : p.x.val ≤ w) (hy0 : 0 ≤ p.y.val) (hy1 : p.y.val ≤ h) :
    ∃ ex ey, ex < w ∧ ey < h ∧ m.getElement p = cellNo w ex ey ∧ (ex : ℝ) ≤ p.x.val ∧ p.x.val < ex + 1 + R.tol ∧
      (ey : ℝ) ≤ p.y.val ∧ p.y.val < ey + 1 + R.tol := by
  obtain ⟨f1, f2, f3⟩ := fits (w := w) (h := h) (by omega)
  have hw : w < 2 ^ 31 := by nlinarith
  have hh : h < 2 ^ 31 := by nlinarith
  obtain ⟨a1, a2, a3⟩ := cellIndex_rnd (R := R) G.w_pos hw hx0 hx1 rfl
  obtain ⟨b1, b2, b3⟩ := cellIndex_rnd (R := R) G.h_pos hh hy0 hy1 rfl
  refine ⟨_, _, a1, b1, ?_, a2, a3, b2, b3⟩
  have hlt := idx_lt a1 b1
  unfold Mesh.getElement
  simp only [G.width]
  rw [cellNo, u32_of_lt (n := _ * w) (by omega), u32_of_lt (by omega), Nat.add_comm]

/-- The sign of a rounded difference from a half is right. -/
theorem sub_half_lt {e : ℕ} (he : e < 2 ^ 31) (a : R.Num) : R.rnd (a.val - (e + 1 / 2)) < 0 ↔ a.val - (e + 1 / 2) < 0 := by
  have h0 : (0 : ℝ) ≤ e := Nat.cast_nonneg e
  constructor
  · intro h
    by_contra hc
    have := rnd_nonneg (R := R) (not_lt.1 hc)
    linarith
  · intro h
    have hf : R.rnd ((e : ℝ) + 1 / 2) = e + 1 / 2 := by
      have := R.half (2 * e + 1) (by omega)
      push_cast at this
      rw [show (e : ℝ) + 1 / 2 = (2 * e + 1) / 2 by ring]
      exact this
    have hg := R.gap (e + 1 / 2) a.val hf a.fix (by rw [abs_of_nonneg (by linarith)]; linarith) (by intro hc; rw [hc] at h; linarith)
    have herr := err_le (R := R) (a.val - (e + 1 / 2))
    rw [abs_of_pos (by linarith)] at hg
    rw [abs_of_neg h] at herr
    have := (abs_le.1 herr).2
    have h52 : -(a.val - (e + 1 / 2)) / 2 ^ 52 ≤ -(a.val - (e + 1 / 2)) / 4 := div_le_div_of_nonneg_left (by linarith) (by norm_num) (by norm_num)
    have h80 : (1 : ℝ) / 2 ^ 80 ≤ (1 / 2 ^ 60) / 4 := by norm_num
    generalize (1 : ℝ) / 2 ^ 80 = t at *
    generalize (1 : ℝ) / 2 ^ 60 = u at *
    linarith

theorem nearestInt' {e n : ℕ} {x : ℝ} (h1 : (e : ℝ) ≤ x) (h2 : x < e + 1 + 1 / 4) (k : ℕ)
    (hn : n = if x - (e + 1 / 2) < 0 then e else e + 1) : (x - n) ^ 2 ≤ (x - k) ^ 2 := by
  rw [sq_le_sq]
  by_cases h : x - (e + 1 / 2) < 0
  · rw [if_pos h] at hn; subst hn
    rw [abs_of_nonneg (by linarith : (0:ℝ) ≤ x - n)]
    rcases Nat.lt_or_ge n k with hk | hk
    · have : (n : ℝ) + 1 ≤ k := by exact_mod_cast hk
      rw [abs_of_nonpos (by linarith)]; linarith
    · have : (k : ℝ) ≤ n := by exact_mod_cast hk
      rw [abs_of_nonneg (by linarith)]; linarith
  · rw [if_neg h] at hn; subst hn
    push_cast
    rcases Nat.lt_trichotomy k (e + 1) with hk | hk | hk
    · have : (k : ℝ) + 1 ≤ e + 1 := by exact_mod_cast hk
      rw [abs_of_nonneg (by linarith : (0:ℝ) ≤ x - k), abs_le]; constructor <;> linarith
    · subst hk; push_cast; exact le_refl _
    · have : (e : ℝ) + 1 + 1 ≤ k := by exact_mod_cast hk
      rw [abs_of_nonpos (by linarith : x - k ≤ (0:ℝ)), abs_le]; constructor <;> linarith

theorem getClosestNode_rnd {w h : Nat} {m : Mesh R.Num} (G : IsGrid w h m) (hfit : (w + 1) * (h + 1) < 2 ^ 31) {p : Coord R.Num}
    (hx0 : 0 ≤ p.x.val) (hx1 : p.x.val ≤ w) (hy0 : 0 ≤ p.y.val) (hy1 : p.y.val ≤ h) :
    ∃ nx ny, nx ≤ w ∧ ny ≤ h ∧ m.getClosestNode p = .ok (nodeNo w nx ny) ∧
      ∀ kx ky : ℕ, (p.x.val - nx) ^ 2 + (p.y.val - ny) ^ 2 ≤ (p.x.val - kx) ^ 2 + (p.y.val - ky) ^ 2 := by
  have hw : w < 2 ^ 31 := by nlinarith
  have hh : h < 2 ^ 31 := by nlinarith
  obtain ⟨ex, ey, hex, hey, he, hx1, hx2, hy1, hy2⟩ := getElement_rnd G hfit hx0 hx1 hy0 hy1
  obtain ⟨el, hel⟩ := G.elem_exists hex hey
  have hc := G.centre _ _ _ hex hey hel
  have hn := G.corner _ _ _ hex hey hel
  have ht : R.tol ≤ 1 / 4 := R.tol_bounds.2.le.trans (by norm_num)
  refine ⟨if p.x.val - (ex + 1 / 2) < 0 then ex else ex + 1, if p.y.val - (ey + 1 / 2) < 0 then ey else ey + 1, ?_, ?_, ?_, ?_⟩
  · split_ifs <;> omega
  · split_ifs <;> omega
  · unfold Mesh.getClosestNode
    rw [he, rd_of_getElem? hel]
    have sx : ((p.x -. el.coord.x) <. FP.nat 0) = decide (p.x.val - (ex + 1 / 2) < 0) := by
      rw [hc, Bool.eq_iff_iff, lt_iff, val_zero, val_sub, val_centre (by omega), decide_eq_true_iff]
      exact sub_half_lt (by omega) p.x
    have sy : ((p.y -. el.coord.y) <. FP.nat 0) = decide (p.y.val - (ey + 1 / 2) < 0) := by
      rw [hc, Bool.eq_iff_iff, lt_iff, val_zero, val_sub, val_centre (by omega), decide_eq_true_iff]
      exact sub_half_lt (by omega) p.y
    simp only [bind, Except.bind, sx, sy, hn, corners, decide_eq_true_eq]
    split_ifs <;> rfl
  · intro kx ky
    exact add_le_add (nearestInt' hx1 (by linarith) kx rfl) (nearestInt' hy1 (by linarith) ky rfl)

theorem pointsOk_rnd {w h : Nat} {m : Mesh R.Num} (G : IsGrid w h m) (hfit : (w + 1) * (h + 1) < 2 ^ 31) {points : List (BoundaryPoint R.Num)}
    (hp : ∀ p ∈ points, 0 ≤ p.coord.x.val ∧ p.coord.x.val ≤ w ∧ 0 ≤ p.coord.y.val ∧ p.coord.y.val ≤ h) : LevelSet.PointsOk m points := by
  intro p hpm
  obtain ⟨a, b, c, d⟩ := hp p hpm
  obtain ⟨nx, ny, h1, h2, h3, -⟩ := getClosestNode_rnd G hfit a b c d
  exact ⟨_, h3, by rw [G.nNodes]; exact nodeNo_lt h1 h2⟩

end Rounding

end Slsm
