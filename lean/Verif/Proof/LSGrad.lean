import Verif.Proof.LSOps
import Verif.Spec.Gradient
import Mathlib.Tactic.Positivity
import Mathlib.Tactic.Linarith
import Mathlib.Tactic.FieldSimp
import Mathlib.Tactic.Ring

/-! Gradients. -/

namespace Slsm

set_option linter.unusedSectionVars false

/-- Conversion of a whole number to `double` and back is the identity below 2^32 (true of IEEE doubles). -/
class FloorNat (D : Type) [FP D] : Prop where
  floor_nat : ∀ n : Nat, n < 4294967296 → FP.floor (FP.nat n : D) = n

instance : FloorNat ℝ := ⟨fun n _ => by simp⟩

theorem sub32_eq {x k : Nat} (h : k ≤ x) (hx : x < 4294967296) : LevelSet.sub32 x k = x - k := by
  unfold LevelSet.sub32 u32; omega

namespace LevelSet

variable {D : Type} [FP D] {w h : Nat} {L : LevelSet D}

/-- difference of neighbours, index clamped -/
def cl (g : Nat → D) (n : Nat) (k : Int) : D :=
  let j := (max 0 (min k (n - 1))).toNat
  FP.sub (g (j + 1)) (g j)

theorem cl_eq (g : Nat → D) (n : Nat) (k : Int) {j : Nat} (hj : (max 0 (min k (n - 1 : Int))).toNat = j) :
    cl g n k = FP.sub (g (j + 1)) (g j) := by
  unfold cl; rw [hj]

theorem diff_eq {G : Nat → Res D} {g : Nat → D} {n : Nat} (hG : ∀ k, k ≤ n → G k = .ok (g k)) {i j : Nat} (hi : i = j + 1)
    (hj : j + 1 ≤ n) (k : Int) (hk : (max 0 (min k (n - 1 : Int))).toNat = j) : diff G i j = .ok (cl g n k) := by
  subst hi
  unfold diff
  rw [hG _ hj, hG j (by omega), cl_eq g n k hk]; rfl

theorem cl_same (g : Nat → D) (n : Nat) (k k' : Int) (hk : (max 0 (min k (n - 1 : Int))).toNat = (max 0 (min k' (n - 1 : Int))).toNat) :
    cl g n k = cl g n k' := by
  unfold cl; rw [hk]

theorem derivForward_eq {G : Nat → Res D} {g : Nat → D} {n x : Nat} (hn : 4 ≤ n) (hn32 : n < 4294967290) (hx : x ≤ n)
    (hG : ∀ k, k ≤ n → G k = .ok (g k)) :
    derivForward G n x = .ok (gradHJWENO (cl g n (x + 2)) (cl g n (x + 1)) (cl g n x) (cl g n (x - 1)) (cl g n (x - 2))) := by
  unfold derivForward
  have s1 : sub32 n 1 = n - 1 := sub32_eq (by omega) (by omega)
  have s2 : sub32 n 2 = n - 2 := sub32_eq (by omega) (by omega)
  have p1 : u32 (x + 1) = x + 1 := u32_of_lt (by omega)
  have p2 : u32 (x + 2) = x + 2 := u32_of_lt (by omega)
  have p3 : u32 (x + 3) = x + 3 := u32_of_lt (by omega)
  rw [s1, s2, p1, p2, p3]
  split_ifs with h1 h2 h3 h4 h5
  · rw [diff_eq hG rfl (by omega) (x + 2) (by omega), diff_eq hG rfl (by omega) (x + 1) (by omega),
      diff_eq hG rfl (by omega) x (by omega)]
    simp only [bind, Except.bind, pure, Except.pure]
    rw [cl_same g n (x - 1) x (by omega), cl_same g n (x - 2) x (by omega)]
  · rw [diff_eq hG rfl (by omega) (x + 2) (by omega), diff_eq hG rfl (by omega) (x + 1) (by omega),
      diff_eq hG rfl (by omega) x (by omega), diff_eq hG rfl (by omega) (x - 1) (by omega)]
    simp only [bind, Except.bind, pure, Except.pure]
    rw [cl_same g n (x - 2) (x - 1) (by omega)]
  all_goals
    have q1 : sub32 x 1 = x - 1 := sub32_eq (by omega) (by omega)
    have q2 : sub32 x 2 = x - 2 := sub32_eq (by omega) (by omega)
    rw [q1, q2]
  · rw [diff_eq hG (by omega) (by omega) (x - 2) (by omega), diff_eq hG (by omega) (by omega) (x - 1) (by omega)]
    simp only [bind, Except.bind, pure, Except.pure]
    rw [cl_same g n (x + 2) (x - 1) (by omega), cl_same g n (x + 1) (x - 1) (by omega), cl_same g n x (x - 1) (by omega)]
  · rw [diff_eq hG (by omega) (by omega) (x - 2) (by omega), diff_eq hG (by omega) (by omega) (x - 1) (by omega),
      diff_eq hG (by omega) (by omega) x (by omega)]
    simp only [bind, Except.bind, pure, Except.pure]
    rw [cl_same g n (x + 2) x (by omega), cl_same g n (x + 1) x (by omega)]
  · rw [diff_eq hG (by omega) (by omega) (x - 2) (by omega), diff_eq hG (by omega) (by omega) (x - 1) (by omega),
      diff_eq hG (by omega) (by omega) x (by omega), diff_eq hG (by omega) (by omega) (x + 1) (by omega)]
    simp only [bind, Except.bind, pure, Except.pure]
    rw [cl_same g n (x + 2) (x + 1) (by omega)]
  · rw [diff_eq hG (by omega) (by omega) (x + 2) (by omega), diff_eq hG (by omega) (by omega) (x + 1) (by omega),
      diff_eq hG (by omega) (by omega) x (by omega), diff_eq hG (by omega) (by omega) (x - 1) (by omega),
      diff_eq hG (by omega) (by omega) (x - 2) (by omega)]
    rfl

theorem derivBackward_eq {G : Nat → Res D} {g : Nat → D} {n x : Nat} (hn : 4 ≤ n) (hn32 : n < 4294967290) (hx : x ≤ n)
    (hG : ∀ k, k ≤ n → G k = .ok (g k)) :
    derivBackward G n x = .ok (gradHJWENO (cl g n (x - 3)) (cl g n (x - 2)) (cl g n (x - 1)) (cl g n x) (cl g n (x + 1))) := by
  unfold derivBackward
  have s1 : sub32 n 1 = n - 1 := sub32_eq (by omega) (by omega)
  have p1 : u32 (x + 1) = x + 1 := u32_of_lt (by omega)
  have p2 : u32 (x + 2) = x + 2 := u32_of_lt (by omega)
  rw [s1, p1, p2]
  split_ifs with h1 h2 h3 h4 h5
  · have q1 : sub32 x 1 = x - 1 := sub32_eq (by omega) (by omega)
    have q2 : sub32 x 2 = x - 2 := sub32_eq (by omega) (by omega)
    have q3 : sub32 x 3 = x - 3 := sub32_eq (by omega) (by omega)
    rw [q1, q2, q3]
    rw [diff_eq hG (by omega) (by omega) (x - 3) (by omega), diff_eq hG (by omega) (by omega) (x - 2) (by omega),
      diff_eq hG (by omega) (by omega) (x - 1) (by omega)]
    simp only [bind, Except.bind, pure, Except.pure]
    rw [cl_same g n x (x - 1) (by omega), cl_same g n (x + 1) (x - 1) (by omega)]
  · have q1 : sub32 x 1 = x - 1 := sub32_eq (by omega) (by omega)
    have q2 : sub32 x 2 = x - 2 := sub32_eq (by omega) (by omega)
    have q3 : sub32 x 3 = x - 3 := sub32_eq (by omega) (by omega)
    rw [q1, q2, q3]
    rw [diff_eq hG (by omega) (by omega) (x - 3) (by omega), diff_eq hG (by omega) (by omega) (x - 2) (by omega),
      diff_eq hG (by omega) (by omega) (x - 1) (by omega), diff_eq hG (by omega) (by omega) x (by omega)]
    simp only [bind, Except.bind, pure, Except.pure]
    rw [cl_same g n (x + 1) x (by omega)]
  · rw [diff_eq hG rfl (by omega) (x + 1) (by omega), diff_eq hG rfl (by omega) x (by omega)]
    simp only [bind, Except.bind, pure, Except.pure]
    rw [cl_same g n (x - 3) x (by omega), cl_same g n (x - 2) x (by omega), cl_same g n (x - 1) x (by omega)]
  · rw [diff_eq hG rfl (by omega) (x + 1) (by omega), diff_eq hG rfl (by omega) x (by omega),
      diff_eq hG rfl (by omega) (x - 1) (by omega)]
    simp only [bind, Except.bind, pure, Except.pure]
    rw [cl_same g n (x - 3) (x - 1) (by omega), cl_same g n (x - 2) (x - 1) (by omega)]
  · rw [diff_eq hG rfl (by omega) (x + 1) (by omega), diff_eq hG rfl (by omega) x (by omega),
      diff_eq hG rfl (by omega) (x - 1) (by omega), diff_eq hG rfl (by omega) (x - 2) (by omega)]
    simp only [bind, Except.bind, pure, Except.pure]
    rw [cl_same g n (x - 3) (x - 2) (by omega)]
  · have q1 : sub32 x 1 = x - 1 := sub32_eq (by omega) (by omega)
    have q2 : sub32 x 2 = x - 2 := sub32_eq (by omega) (by omega)
    have q3 : sub32 x 3 = x - 3 := sub32_eq (by omega) (by omega)
    rw [q1, q2, q3]
    rw [diff_eq hG (by omega) (by omega) (x - 3) (by omega), diff_eq hG (by omega) (by omega) (x - 2) (by omega),
      diff_eq hG (by omega) (by omega) (x - 1) (by omega), diff_eq hG (by omega) (by omega) x (by omega),
      diff_eq hG (by omega) (by omega) (x + 1) (by omega)]
    rfl

/-- value at a lattice point -/
def phi (w : Nat) (L : LevelSet D) (x y : Nat) : D := vals L.signedDistance (nodeNo w x y)

theorem sdAt_eq (W : WF w h L) {x y : Nat} (hx : x ≤ w) (hy : y ≤ h) : sdAt L x y = .ok (phi w L x y) := by
  unfold sdAt
  have G := W.grid
  have h1 : x < L.mesh.xyToIndex.length := by rw [G.xy_length]; omega
  rw [rd_eq h1]
  simp only [bind, Except.bind]
  rw [rd_of_getElem? (G.xy x y _ hx hy (List.getElem?_eq_getElem h1))]
  dsimp only
  rw [rd_vals (by rw [W.sd, G.nNodes]; exact nodeNo_lt hx hy)]
  rfl

/-- law-free value of the corner rule -/
def cornerVal (w h : Nat) (L : LevelSet D) (x y : Nat) : Option D :=
  if (x = 0 ∨ x = w) ∧ (y = 0 ∨ y = h) ∧
      FP.lt (FP.abs (FP.sub (phi w L (inward w x) y) (phi w L x y))) (FP.lit 1 1000000) = true ∧
      FP.lt (FP.abs (FP.sub (phi w L x (inward h y)) (phi w L x y))) (FP.lit 1 1000000) = true then
    some (FP.mul (FP.abs (FP.sub (phi w L x y) (phi w L (inward w x) (inward h y)))) (FP.sqrt (FP.nat 2)))
  else none

theorem cornerGradient_eq (W : WF w h L) {x y x2 y2 : Nat} (hx : x ≤ w) (hy : y ≤ h) (hx2 : x2 ≤ w) (hy2 : y2 ≤ h) :
    cornerGradient L (phi w L x y) x y x2 y2 = .ok (
      if FP.lt (FP.abs (FP.sub (phi w L x2 y) (phi w L x y))) (FP.lit 1 1000000) = true ∧
        FP.lt (FP.abs (FP.sub (phi w L x y2) (phi w L x y))) (FP.lit 1 1000000) = true then
        some (FP.mul (FP.abs (FP.sub (phi w L x y) (phi w L x2 y2))) (FP.sqrt (FP.nat 2))) else none) := by
  unfold cornerGradient
  rw [sdAt_eq W hx2 hy, sdAt_eq W hx hy2, sdAt_eq W hx2 hy2]
  simp only [bind, Except.bind]
  by_cases h1 : FP.lt (FP.abs (FP.sub (phi w L x2 y) (phi w L x y))) (FP.lit 1 1000000) = true
  · by_cases h2 : FP.lt (FP.abs (FP.sub (phi w L x y2) (phi w L x y))) (FP.lit 1 1000000) = true
    · rw [if_pos h1, if_pos h2, if_pos ⟨h1, h2⟩]; rfl
    · rw [if_pos h1, if_neg h2, if_neg (fun h => h2 h.2)]; rfl
  · rw [if_neg h1, if_neg (fun h => h1 h.1)]; rfl

theorem cornerCase_eq (W : WF w h L) (hfit : (w + 1) * (h + 1) < 4294967296) {x y : Nat} (hx : x ≤ w) (hy : y ≤ h) :
    cornerCase L (phi w L x y) x y = .ok (cornerVal w h L x y) := by
  have G := W.grid
  have hw := G.w_pos
  have hh := G.h_pos
  obtain ⟨f1, f2, -⟩ := fits hfit
  unfold cornerCase cornerVal
  rw [G.width, G.height]
  have e1 : u32 (x + 1) = x + 1 := u32_of_lt (by omega)
  have e2 : u32 (y + 1) = y + 1 := u32_of_lt (by omega)
  rw [e1, e2]
  by_cases hx0 : x = 0
  · rw [if_pos hx0]
    by_cases hy0 : y = 0
    · rw [if_pos hy0, cornerGradient_eq W hx hy (by omega) (by omega)]
      subst hx0 hy0
      simp [inward]
    · rw [if_neg hy0]
      by_cases hyh : y = h
      · rw [if_pos hyh, sub32_eq (by omega) (by omega), cornerGradient_eq W hx hy (by omega) (by omega)]
        subst hx0 hyh
        simp [inward, hy0]
      · rw [if_neg hyh, if_neg (by omega)]; rfl
  · rw [if_neg hx0]
    by_cases hxw : x = w
    · rw [if_pos hxw]
      by_cases hy0 : y = 0
      · rw [if_pos hy0, sub32_eq (by omega) (by omega), cornerGradient_eq W hx hy (by omega) (by omega)]
        subst hxw hy0
        simp [inward, hx0]
      · rw [if_neg hy0]
        by_cases hyh : y = h
        · rw [if_pos hyh, sub32_eq (by omega) (by omega), sub32_eq (by omega) (by omega),
            cornerGradient_eq W hx hy (by omega) (by omega)]
          subst hxw hyh
          simp [inward, hx0, hy0]
        · rw [if_neg hyh, if_neg (by omega)]; rfl
    · rw [if_neg hxw, if_neg (by omega)]; rfl

/-- law-free value of the gradient -/
def gradVal (w h : Nat) (L : LevelSet D) (x y : Nat) : D :=
  match cornerVal w h L x y with
  | some g => g
  | none =>
    let sign : D := if FP.lt (vals L.velocity (nodeNo w x y)) (FP.nat 0) then FP.neg (FP.nat 1) else FP.nat 1
    let fx := fun k => phi w L k y
    let fy := fun k => phi w L x k
    upwindNorm
      (FP.mul sign (gradHJWENO (cl fx w (x + 2)) (cl fx w (x + 1)) (cl fx w x) (cl fx w (x - 1)) (cl fx w (x - 2))))
      (FP.mul sign (gradHJWENO (cl fx w (x - 3)) (cl fx w (x - 2)) (cl fx w (x - 1)) (cl fx w x) (cl fx w (x + 1))))
      (FP.mul sign (gradHJWENO (cl fy h (y + 2)) (cl fy h (y + 1)) (cl fy h y) (cl fy h (y - 1)) (cl fy h (y - 2))))
      (FP.mul sign (gradHJWENO (cl fy h (y - 3)) (cl fy h (y - 2)) (cl fy h (y - 1)) (cl fy h y) (cl fy h (y + 1))))

theorem computeGradient_eq [FloorNat D] (W : WF w h L) (hfit : (w + 1) * (h + 1) < 4294967296) (hw4 : 4 ≤ w) (hh4 : 4 ≤ h)
    {x y : Nat} (hx : x ≤ w) (hy : y ≤ h) : computeGradient L (nodeNo w x y) = .ok (gradVal w h L x y) := by
  have G := W.grid
  obtain ⟨f1, f2, -⟩ := fits hfit
  have f1' : w < 4294967290 := by nlinarith
  have f2' : h < 4294967290 := by nlinarith
  obtain ⟨nd, hnd⟩ := G.node_exists hx hy
  have hlt : nodeNo w x y < L.mesh.nNodes := by rw [G.nNodes]; exact nodeNo_lt hx hy
  unfold computeGradient
  rw [rd_of_getElem? hnd]
  simp only [bind, Except.bind]
  rw [G.coord _ _ _ hx hy hnd]
  dsimp only
  rw [FloorNat.floor_nat x (by omega), FloorNat.floor_nat y (by omega), rd_vals (by rw [W.sd]; exact hlt)]
  dsimp only
  rw [show vals L.signedDistance (nodeNo w x y) = phi w L x y from rfl, cornerCase_eq W hfit hx hy]
  unfold gradVal
  cases cornerVal w h L x y with
  | some g => rfl
  | none =>
    dsimp only
    rw [rd_vals (by rw [W.velocity]; exact hlt), G.width, G.height]
    dsimp only
    rw [derivForward_eq (g := fun k => phi w L k y) hw4 f1' hx fun k hk => sdAt_eq W hk hy,
      derivBackward_eq (g := fun k => phi w L k y) hw4 f1' hx fun k hk => sdAt_eq W hk hy,
      derivForward_eq (g := fun k => phi w L x k) hh4 f2' hy fun k hk => sdAt_eq W hx hk,
      derivBackward_eq (g := fun k => phi w L x k) hh4 f2' hy fun k hk => sdAt_eq W hx hk]
    rfl

/-- Result of `computeGradients`. -/
theorem computeGradients_spec [FloorNat D] (C : Core w h L) (hw4 : 4 ≤ w) (hh4 : 4 ≤ h) :
    wp (computeGradients L) (fun L' => L' = { L with gradient := L'.gradient } ∧ L'.gradient.length = L.mesh.nNodes ∧
      ∀ x y, x ≤ w → y ≤ h → vals L'.gradient (nodeNo w x y) =
        if nodeNo w x y ∈ L.band then gradVal w h L x y else FP.nat 0) noErr := by
  have hfit : (w + 1) * (h + 1) < 4294967296 := by rw [← C.grid.nNodes]; have := C.small; omega
  have hlen : L.band.length = L.nNarrowBand := by unfold band; simp [C.band_count]
  unfold computeGradients
  dsimp only
  rw [wp_bind]
  refine wp_imp (wp_forN (fun k g => g.length = L.mesh.nNodes ∧ ∀ x y, x ≤ w → y ≤ h → vals g (nodeNo w x y) =
    if nodeNo w x y ∈ L.band.take k then gradVal w h L x y else FP.nat 0) ?_ ?_) ?_
  · refine ⟨by rw [List.length_replicate, C.gradient], fun x y hx hy => ?_⟩
    rw [List.take_zero, if_neg (by simp)]
    unfold vals
    rw [List.getD_eq_getElem?_getD, List.getElem?_replicate]
    split <;> rfl
  · rintro k hk g ⟨hg, hv⟩
    obtain ⟨n, h1, h2, h3⟩ := band_getElem C hk
    obtain ⟨x, y, hx, hy, rfl⟩ := C.grid.node_index h3
    rw [h1]
    simp only [bind, Except.bind]
    rw [computeGradient_eq C.toWF hfit hw4 hh4 hx hy]
    dsimp only
    rw [wr_eq _ (by omega), wp_ok]
    refine ⟨by simp [hg], fun x' y' hx' hy' => ?_⟩
    rw [vals_set (by omega), hv _ _ hx' hy']
    have hb := band_take_succ h2 (nodeNo w x' y')
    by_cases e : nodeNo w x' y' = nodeNo w x y
    · rw [if_pos e, if_pos (hb.2 (.inr e))]
      obtain ⟨rfl, rfl⟩ := (nodeNo_inj hx' hx).1 e
      rfl
    · rw [if_neg e]
      simp [hb, e]
  · rintro g ⟨hg, hv⟩
    rw [wp_pure]
    rw [← hlen, List.take_length] at hv
    exact ⟨rfl, hg, hv⟩

/-! ### real values -/

theorem cl_real (g : Nat → ℝ) (n : Nat) (k : Int) : cl g n k = slope g n k := rfl

theorem gradHJWENO_real (a b c d e : ℝ) : gradHJWENO a b c d e = weno a b c d e := by
  unfold gradHJWENO weno wenoAlpha estimate1 estimate2 estimate3
  simp only [FP.add_real, FP.sub_real, FP.mul_real, FP.div_real, FP.nat_real, FP.lit_real]
  push_cast
  have e1 : (1:ℝ) / 1000000 = 1 / 10 ^ 6 := by norm_num
  rw [e1]
  have k1 : (13:ℝ) / 12 * (a - 2 * b + c) * (a - 2 * b + c) + 1 / 4 * (a - 4 * b + 3 * c) * (a - 4 * b + 3 * c) =
    13 / 12 * (a - 2 * b + c) ^ 2 + 1 / 4 * (a - 4 * b + 3 * c) ^ 2 := by ring
  have k2 : (13:ℝ) / 12 * (b - 2 * c + d) * (b - 2 * c + d) + 1 / 4 * (b - d) * (b - d) =
    13 / 12 * (b - 2 * c + d) ^ 2 + 1 / 4 * (b - d) ^ 2 := by ring
  have k3 : (13:ℝ) / 12 * (c - 2 * d + e) * (c - 2 * d + e) + 1 / 4 * (3 * c - 4 * d + e) * (3 * c - 4 * d + e) =
    13 / 12 * (c - 2 * d + e) ^ 2 + 1 / 4 * (3 * c - 4 * d + e) ^ 2 := by ring
  rw [k1, k2, k3]
  simp only [← sq]
  generalize (1:ℝ) / 10 / (13 / 12 * (a - 2 * b + c) ^ 2 + 1 / 4 * (a - 4 * b + 3 * c) ^ 2 + 1 / 10 ^ 6) ^ 2 = α1
  generalize (6:ℝ) / 10 / (13 / 12 * (b - 2 * c + d) ^ 2 + 1 / 4 * (b - d) ^ 2 + 1 / 10 ^ 6) ^ 2 = α2
  generalize (3:ℝ) / 10 / (13 / 12 * (c - 2 * d + e) ^ 2 + 1 / 4 * (3 * c - 4 * d + e) ^ 2 + 1 / 10 ^ 6) ^ 2 = α3
  ring

theorem wenoAlpha_pos {g S : ℝ} (hg : 0 < g) (hS : 0 ≤ S) : 0 < wenoAlpha g S := by
  unfold wenoAlpha; positivity

/-- convex combination of the three estimates -/
theorem weno_convex (a b c d e : ℝ) : ∃ w1 w2 w3 : ℝ, 0 < w1 ∧ 0 < w2 ∧ 0 < w3 ∧ w1 + w2 + w3 = 1 ∧
    weno a b c d e = w1 * estimate1 a b c + w2 * estimate2 b c d + w3 * estimate3 c d e := by
  unfold weno
  have h1 := wenoAlpha_pos (g := 1 / 10) (S := 13 / 12 * (a - 2 * b + c) ^ 2 + 1 / 4 * (a - 4 * b + 3 * c) ^ 2)
    (by norm_num) (by positivity)
  have h2 := wenoAlpha_pos (g := 6 / 10) (S := 13 / 12 * (b - 2 * c + d) ^ 2 + 1 / 4 * (b - d) ^ 2) (by norm_num) (by positivity)
  have h3 := wenoAlpha_pos (g := 3 / 10) (S := 13 / 12 * (c - 2 * d + e) ^ 2 + 1 / 4 * (3 * c - 4 * d + e) ^ 2)
    (by norm_num) (by positivity)
  dsimp only
  generalize wenoAlpha (1 / 10) _ = α1 at h1 ⊢
  generalize wenoAlpha (6 / 10) _ = α2 at h2 ⊢
  generalize wenoAlpha (3 / 10) _ = α3 at h3 ⊢
  have hs : 0 < α1 + α2 + α3 := by positivity
  refine ⟨α1 / (α1 + α2 + α3), α2 / (α1 + α2 + α3), α3 / (α1 + α2 + α3), by positivity, by positivity, by positivity, ?_, ?_⟩
  · field_simp
  · field_simp

theorem weno_of_agree {a b c d e q : ℝ} (h1 : estimate1 a b c = q) (h2 : estimate2 b c d = q) (h3 : estimate3 c d e = q) :
    weno a b c d e = q := by
  obtain ⟨w1, w2, w3, -, -, -, hs, he⟩ := weno_convex a b c d e
  rw [he, h1, h2, h3]
  calc w1 * q + w2 * q + w3 * q = (w1 + w2 + w3) * q := by ring
    _ = q := by rw [hs, one_mul]

theorem weno_const (a : ℝ) : weno a a a a a = a := by
  apply weno_of_agree
  · unfold estimate1; ring
  · unfold estimate2; ring
  · unfold estimate3; ring

theorem upwindNorm_real (r l u d : ℝ) : upwindNorm r l u d =
    Real.sqrt ((max l 0) ^ 2 + (min r 0) ^ 2 + (max d 0) ^ 2 + (min u 0) ^ 2) := by
  unfold upwindNorm
  simp only [FP.lt_real, FP.add_real, FP.mul_real, FP.nat_real, FP.sqrt_real]
  push_cast
  have hmax : ∀ t : ℝ, (max t 0) ^ 2 = if 0 < t then t * t else 0 := by
    intro t; split_ifs with ht
    · rw [max_eq_left ht.le, sq]
    · rw [max_eq_right (not_lt.1 ht)]; simp
  have hmin : ∀ t : ℝ, (min t 0) ^ 2 = if t < 0 then t * t else 0 := by
    intro t; split_ifs with ht
    · rw [min_eq_left ht.le, sq]
    · rw [min_eq_right (not_lt.1 ht)]; simp
  rw [hmax, hmax, hmin, hmin]
  congr 1
  split_ifs <;> ring

theorem cornerVal_real {L : LevelSet ℝ} {x y : Nat} : cornerVal w h L x y =
    open Classical in if FlatCorner w h (phi w L) x y then
      some (|phi w L x y - phi w L (inward w x) (inward h y)| * Real.sqrt 2) else none := by
  unfold cornerVal FlatCorner
  simp only [FP.lt_real, FP.abs_real, FP.sub_real, FP.lit_real, FP.mul_real, FP.sqrt_real, FP.nat_real]
  have e1 : ((1:ℕ):ℝ) / ((1000000:ℕ):ℝ) = 1 / 10 ^ 6 := by norm_num
  rw [e1]
  push_cast
  congr

/-- Value of the gradient away from flat corners. -/
theorem gradVal_real {L : LevelSet ℝ} {x y : Nat} (hf : ¬ FlatCorner w h (phi w L) x y) :
    gradVal w h L x y = upwindGradient w h (phi w L) (if vals L.velocity (nodeNo w x y) < 0 then -1 else 1) x y := by
  unfold gradVal
  rw [cornerVal_real, if_neg hf]
  simp only [gradHJWENO_real, upwindNorm_real, cl_real, FP.lt_real, FP.mul_real, FP.neg_real, FP.nat_real]
  push_cast
  rfl

theorem gradVal_flat {L : LevelSet ℝ} {x y : Nat} (hf : FlatCorner w h (phi w L) x y) :
    gradVal w h L x y = |phi w L x y - phi w L (inward w x) (inward h y)| * Real.sqrt 2 := by
  unfold gradVal
  rw [cornerVal_real, if_pos hf]

theorem gradVal_nonneg {L : LevelSet ℝ} {x y : Nat} : 0 ≤ gradVal w h L x y := by
  by_cases hf : FlatCorner w h (phi w L) x y
  · rw [gradVal_flat hf]; positivity
  · rw [gradVal_real hf]; exact Real.sqrt_nonneg _

theorem slope_linear {f : Nat → ℝ} {n : Nat} (hn : 1 ≤ n) {a b : ℝ} (hf : ∀ k, k ≤ n → f k = a * k + b) (k : Int) : slope f n k = a := by
  unfold slope
  dsimp only
  generalize hj : (max 0 (min k ((n : Int) - 1))).toNat = j
  rw [hf _ (by omega), hf _ (by omega)]
  push_cast; ring

theorem upwind_plane {φ : Nat → Nat → ℝ} (hw : 1 ≤ w) (hh : 1 ≤ h) {a b c s : ℝ}
    (hφ : ∀ x y, x ≤ w → y ≤ h → φ x y = a * x + b * y + c) (hs : s = 1 ∨ s = -1) {x y : Nat} (hx : x ≤ w) (hy : y ≤ h) :
    upwindGradient w h φ s x y = Real.sqrt (a ^ 2 + b ^ 2) := by
  have hX : ∀ k, slope (fun k => φ k y) w k = a := fun k =>
    slope_linear hw (b := b * y + c) (fun j hj => by rw [hφ _ _ hj hy]; ring) k
  have hY : ∀ k, slope (fun k => φ x k) h k = b := fun k =>
    slope_linear hh (b := a * x + c) (fun j hj => by rw [hφ _ _ hx hj]; ring) k
  unfold upwindGradient leftDeriv rightDeriv
  simp only [hX, hY, weno_const]
  congr 1
  have key : ∀ t : ℝ, (max (s * t) 0) ^ 2 + (min (s * t) 0) ^ 2 = t ^ 2 := by
    intro t
    have : (s * t) ^ 2 = t ^ 2 := by rcases hs with rfl | rfl <;> ring
    rcases le_total (s * t) 0 with h0 | h0
    · rw [max_eq_right h0, min_eq_left h0, this]; ring
    · rw [max_eq_left h0, min_eq_right h0, this]; ring
  have := key a
  have := key b
  linarith

end LevelSet

end Slsm
