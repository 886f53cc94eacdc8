import Verif.Proof.RoundBase
import Verif.Proof.AnyBnd

/-! Discretisation in rounded arithmetic. -/

namespace Slsm

open FP

namespace Boundary

open Rounding

section
variable {R : Rounding} {w h : Nat} {ml : R.Num} {m0 : Mesh R.Num} {sd : List R.Num}

theorem status_boundary (v : R.Num) : nodeStatus v = .boundary ↔ |v.val| < R.tol := by
  unfold nodeStatus
  rw [show (lit 1 1000000 : R.Num) = R.tolNum from rfl]
  by_cases h : |v.val| < R.tol
  · rw [if_pos (by rw [lt_iff, val_abs, tolNum_val]; exact h)]; simp [h]
  · rw [if_neg (by rw [lt_iff, val_abs, tolNum_val]; exact h)]
    split <;> simp [h]

theorem status_outside (v : R.Num) : nodeStatus v = .outside ↔ v.val ≤ -R.tol := by
  have ht := tol_pos (R := R)
  unfold nodeStatus
  rw [show (lit 1 1000000 : R.Num) = R.tolNum from rfl]
  by_cases h : |v.val| < R.tol
  · rw [if_pos (by rw [lt_iff, val_abs, tolNum_val]; exact h)]
    rw [abs_lt] at h
    simp only [reduceCtorEq, false_iff, not_le]
    exact h.1
  · rw [if_neg (by rw [lt_iff, val_abs, tolNum_val]; exact h)]
    rw [not_lt, le_abs] at h
    by_cases h0 : v.val < 0
    · rw [if_pos (by rw [lt_iff, val_zero]; exact h0)]
      simp only [true_iff]
      rcases h with h | h <;> linarith
    · rw [if_neg (by rw [lt_iff, val_zero]; exact h0)]
      simp only [reduceCtorEq, false_iff, not_le]
      linarith

theorem status_inside (v : R.Num) : nodeStatus v = .inside ↔ R.tol ≤ v.val := by
  have ht := tol_pos (R := R)
  have h1 := status_boundary v
  have h2 := status_outside v
  constructor
  · intro hi
    rw [hi] at h1 h2
    simp only [reduceCtorEq, false_iff, not_lt, not_le] at h1 h2
    rw [le_abs] at h1
    rcases h1 with h | h <;> linarith
  · intro hi
    have n1 : nodeStatus v ≠ .boundary := fun h => by
      have := h1.1 h
      rw [abs_lt] at this
      linarith
    have n2 : nodeStatus v ≠ .outside := fun h => by
      have := h2.1 h
      linarith
    unfold nodeStatus at n1 n2 ⊢
    split_ifs at n1 n2 ⊢ <;> simp_all

theorem cut_values {a b : R.Num} (h : cutPair (nodeStatus a) (nodeStatus b) = true) :
    (R.tol ≤ a.val ∧ b.val ≤ -R.tol) ∨ (a.val ≤ -R.tol ∧ R.tol ≤ b.val) := by
  rw [cutPair_iff] at h
  rcases h with ⟨h1, h2⟩ | ⟨h1, h2⟩
  · exact .inl ⟨(status_inside a).1 h1, (status_outside b).1 h2⟩
  · exact .inr ⟨(status_outside a).1 h1, (status_inside b).1 h2⟩

/-- Where a point is: on its edge, close to the zero of the linear interpolant. -/
def Sits (w h : Nat) (sd : List R.Num) (p : Place) (c : Coord R.Num) : Prop :=
  p.meets R.tol (lay w sd) ∧ p.has c.x.val c.y.val ∧
    |c.x.val - (p.coord (lay w sd)).x| ≤ (w + h + 4) / 2 ^ 52 ∧ |c.y.val - (p.coord (lay w sd)).y| ≤ (w + h + 4) / 2 ^ 52

theorem frac_flip {a b : ℝ} (h : a - b ≠ 0) : 1 - b / (b - a) = a / (a - b) := by
  have : b - a ≠ 0 := fun e => h (by linarith)
  field_simp
  ring

theorem cut_ne {a b t : ℝ} (ht : 0 < t) (h : (t ≤ a ∧ b ≤ -t) ∨ (a ≤ -t ∧ t ≤ b)) : a - b ≠ 0 := by
  rcases h with h | h
  · exact (by linarith [h.1, h.2] : 0 < a - b).ne'
  · exact (by linarith [h.1, h.2] : a - b < 0).ne

/-- The coordinates that the code computes for the point on a cut edge. -/
theorem cut_sits (hfit : (w + 1) * (h + 1) < 2 ^ 53) {x y j : Nat} (hx : x < w) (hy : y < h) (hj : j < 4)
    (hcut : cutPair (cornerSide w sd x y j) (cornerSide w sd x y (after j)) = true) :
    Sits w h sd (edgeAt x y j)
      (edgePoint (cornerCoord x y j) j (cornerVal w sd x y j /. (cornerVal w sd x y j -. cornerVal w sd x y (after j)))) := by
  have hw : w + 1 ≤ 2 ^ 53 := by nlinarith
  have hh : h + 1 ≤ 2 ^ 53 := by nlinarith
  have hxw : (x : ℝ) + 1 ≤ w := by exact_mod_cast hx
  have hyh : (y : ℝ) + 1 ≤ h := by exact_mod_cast hy
  have bnd : ∀ {n m : ℕ}, (n : ℝ) ≤ w + h → |(0 : ℝ)| ≤ (w + h + 4) / 2 ^ 52 := by
    intro _ _ _; rw [abs_zero]; positivity
  have z : |(0 : ℝ)| ≤ (w + h + 4) / 2 ^ 52 := by rw [abs_zero]; positivity
  have widen : ∀ {e : ℝ} {n : ℕ}, (n : ℝ) ≤ w + h → e ≤ (n + 4) / 2 ^ 52 → e ≤ (w + h + 4) / 2 ^ 52 := by
    intro e n hn he
    exact he.trans (div_le_div_of_nonneg_right (by linarith) (by positivity))
  have hx0 : (x : ℝ) ≤ w + h := by have : (0 : ℝ) ≤ h := by positivity
                                   linarith
  have hy0 : (y : ℝ) ≤ w + h := by have : (0 : ℝ) ≤ w := by positivity
                                   linarith
  have vx : (FP.nat x : R.Num).val = x := val_nat (by omega)
  have vx1 : (FP.nat (x + 1) : R.Num).val = (x + 1 : ℕ) := val_nat (by omega)
  have vy : (FP.nat y : R.Num).val = y := val_nat (by omega)
  have vy1 : (FP.nat (y + 1) : R.Num).val = (y + 1 : ℕ) := val_nat (by omega)
  unfold cornerSide at hcut
  have hv := cut_values hcut
  obtain ⟨f0, f1, fe⟩ := fraction hv
  match j, hj with
  | 0, _ =>
    have := step_up (R := R) (n := x) (by omega) f0 f1 fe
    refine ⟨hv, ⟨?_, ?_, ?_⟩, ?_, ?_⟩
    · show (x : ℝ) ≤ R.rnd ((FP.nat x : R.Num).val + _); rw [vx]; exact this.1
    · show R.rnd ((FP.nat x : R.Num).val + _) ≤ _; rw [vx]; exact this.2.1
    · exact vy
    · show |R.rnd ((FP.nat x : R.Num).val + _) - _| ≤ _; rw [vx]; exact widen hx0 this.2.2
    · show |(FP.nat y : R.Num).val - y| ≤ _; rw [vy, sub_self]; exact z
  | 1, _ =>
    have := step_up (R := R) (n := y) (by omega) f0 f1 fe
    refine ⟨hv, ⟨?_, ?_, ?_⟩, ?_, ?_⟩
    · exact vx1
    · show (y : ℝ) ≤ R.rnd ((FP.nat y : R.Num).val + _); rw [vy]; exact this.1
    · show R.rnd ((FP.nat y : R.Num).val + _) ≤ _; rw [vy]; exact this.2.1
    · show |(FP.nat (x + 1) : R.Num).val - (x + 1 : ℕ)| ≤ _; rw [vx1, sub_self]; exact z
    · show |R.rnd ((FP.nat y : R.Num).val + _) - _| ≤ _; rw [vy]; exact widen hy0 this.2.2
  | 2, _ =>
    have := step_down (R := R) (n := x) (by omega) f0 f1 fe
    have hne := cut_ne tol_pos hv
    refine ⟨hv.symm.imp And.symm And.symm, ⟨?_, ?_, ?_⟩, ?_, ?_⟩
    · show (x : ℝ) ≤ R.rnd ((FP.nat (x + 1) : R.Num).val - _); rw [vx1]; exact this.1
    · show R.rnd ((FP.nat (x + 1) : R.Num).val - _) ≤ _; rw [vx1]; exact this.2.1
    · exact vy1
    · show |R.rnd ((FP.nat (x + 1) : R.Num).val - _) - _| ≤ _
      rw [vx1]
      have t := widen hx0 this.2.2
      rw [add_sub_assoc, frac_flip (fun e => hne (by linarith))] at t
      exact t
    · show |(FP.nat (y + 1) : R.Num).val - (y + 1 : ℕ)| ≤ _; rw [vy1, sub_self]; exact z
  | 3, _ =>
    have := step_down (R := R) (n := y) (by omega) f0 f1 fe
    have hne := cut_ne tol_pos hv
    refine ⟨hv.symm.imp And.symm And.symm, ⟨?_, ?_, ?_⟩, ?_, ?_⟩
    · exact vx
    · show (y : ℝ) ≤ R.rnd ((FP.nat (y + 1) : R.Num).val - _); rw [vy1]; exact this.1
    · show R.rnd ((FP.nat (y + 1) : R.Num).val - _) ≤ _; rw [vy1]; exact this.2.1
    · show |(FP.nat x : R.Num).val - x| ≤ _; rw [vx, sub_self]; exact z
    · show |R.rnd ((FP.nat (y + 1) : R.Num).val - _) - _| ≤ _
      rw [vy1]
      have t := widen hy0 this.2.2
      rw [add_sub_assoc, frac_flip (fun e => hne (by linarith))] at t
      exact t

/-- The coordinates that the code computes for a point on a lattice point. -/
theorem corner_sits (hfit : (w + 1) * (h + 1) < 2 ^ 53) {x y j : Nat} (hx : x < w) (hy : y < h) (hb : cornerSide w sd x y j = .boundary) :
    Sits w h sd (.node (cornerAt x y j).1 (cornerAt x y j).2) (edgePoint (cornerCoord x y j) 0 (FP.nat 0)) := by
  have hw : w + 1 ≤ 2 ^ 53 := by nlinarith
  have hh : h + 1 ≤ 2 ^ 53 := by nlinarith
  have z : |(0 : ℝ)| ≤ (w + h + 4) / 2 ^ 52 := by rw [abs_zero]; positivity
  have hle := cornerAt_le hx hy j
  have e1 : (FP.nat (cornerAt x y j).1 : R.Num).val = ((cornerAt x y j).1 : ℕ) := val_nat (by omega)
  have e2 : (FP.nat (cornerAt x y j).2 : R.Num).val = ((cornerAt x y j).2 : ℕ) := val_nat (by omega)
  have ex : (edgePoint (cornerCoord (D := R.Num) x y j) 0 (FP.nat 0)).x.val = ((cornerAt x y j).1 : ℕ) := by
    show R.rnd ((FP.nat (cornerAt x y j).1 : R.Num).val + (FP.nat 0 : R.Num).val) = _
    rw [val_zero, add_zero, e1, R.nat _ (by omega)]
  have ey : (edgePoint (cornerCoord (D := R.Num) x y j) 0 (FP.nat 0)).y.val = ((cornerAt x y j).2 : ℕ) := e2
  refine ⟨?_, ⟨ex, ey⟩, ?_, ?_⟩
  · exact (status_boundary _).1 hb
  · rw [ex]; show |_ - ((cornerAt x y j).1 : ℝ)| ≤ _; rw [sub_self]; exact z
  · rw [ey]; show |_ - ((cornerAt x y j).2 : ℝ)| ≤ _; rw [sub_self]; exact z

/-- The coordinates that the code computes for a point of a cell. -/
theorem spot_sits (hfit : (w + 1) * (h + 1) < 2 ^ 53) {x y : Nat} (hx : x < w) (hy : y < h) {c : Coord R.Num} (hc : Spot w sd x y c) :
    ∃ p : Place, p.inGrid w h ∧ p.ofCell x y ∧ Sits w h sd p c := by
  rcases hc with ⟨j, hj, hcut, rfl⟩ | ⟨j, hj, hb, rfl⟩
  · exact ⟨edgeAt x y j, edgeAt_inGrid hx hy hj, edgeAt_cell hj, cut_sits hfit hx hy hj hcut⟩
  · refine ⟨.node (cornerAt x y j).1 (cornerAt x y j).2, ?_, ?_, corner_sits hfit hx hy hb⟩
    · intro q hq
      rw [Place.ends, List.mem_singleton] at hq
      subst hq
      exact cornerAt_le hx hy j
    · intro q hq
      rw [Place.ends, List.mem_singleton] at hq
      subst hq
      exact cornerAt_cell x y j

theorem has_in {p : Place} (hp : p.inGrid w h) {a b : ℝ} (hc : p.has a b) : 0 ≤ a ∧ a ≤ w ∧ 0 ≤ b ∧ b ≤ h := by
  cases p with
  | node x y =>
    have := hp (x, y) (by simp [Place.ends])
    obtain ⟨rfl, rfl⟩ := hc
    exact ⟨by positivity, by exact_mod_cast this.1, by positivity, by exact_mod_cast this.2⟩
  | hor x y =>
    have h1 := hp (x, y) (by simp [Place.ends])
    have h2 := hp (x + 1, y) (by simp [Place.ends])
    obtain ⟨c1, c2, rfl⟩ := hc
    have : ((x + 1 : ℕ) : ℝ) ≤ w := by exact_mod_cast h2.1
    push_cast at this
    exact ⟨le_trans (by positivity) c1, by linarith, by positivity, by exact_mod_cast h1.2⟩
  | ver x y =>
    have h1 := hp (x, y) (by simp [Place.ends])
    have h2 := hp (x, y + 1) (by simp [Place.ends])
    obtain ⟨rfl, c1, c2⟩ := hc
    have : ((y + 1 : ℕ) : ℝ) ≤ h := by exact_mod_cast h2.2
    push_cast at this
    exact ⟨by positivity, by exact_mod_cast h1.1, le_trans (by positivity) c1, by linarith⟩

theorem has_cell {p : Place} {x y : Nat} (hp : p.ofCell x y) {a b : ℝ} (hc : p.has a b) :
    x ≤ a ∧ a ≤ x + 1 ∧ y ≤ b ∧ b ≤ y + 1 := by
  cases p with
  | node u v =>
    obtain ⟨h1, h2, h3, h4⟩ := hp (u, v) (by simp [Place.ends])
    obtain ⟨rfl, rfl⟩ := hc
    exact ⟨by exact_mod_cast h1, by exact_mod_cast h2, by exact_mod_cast h3, by exact_mod_cast h4⟩
  | hor u v =>
    obtain ⟨h1, h2, h3, h4⟩ := hp (u, v) (by simp [Place.ends])
    obtain ⟨h5, h6, -, -⟩ := hp (u + 1, v) (by simp [Place.ends])
    obtain ⟨c1, c2, rfl⟩ := hc
    have : (x : ℝ) ≤ u := by exact_mod_cast h1
    have : ((u : ℝ) + 1) ≤ x + 1 := by exact_mod_cast h6
    exact ⟨by linarith, by linarith, by exact_mod_cast h3, by exact_mod_cast h4⟩
  | ver u v =>
    obtain ⟨h1, h2, h3, h4⟩ := hp (u, v) (by simp [Place.ends])
    obtain ⟨-, -, h5, h6⟩ := hp (u, v + 1) (by simp [Place.ends])
    obtain ⟨rfl, c1, c2⟩ := hc
    have : (y : ℝ) ≤ v := by exact_mod_cast h3
    have : ((v : ℝ) + 1) ≤ y + 1 := by exact_mod_cast h6
    exact ⟨by exact_mod_cast h1, by exact_mod_cast h2, by linarith, by linarith⟩

/-- The limits of a new point. -/
theorem edgeLimit_bounds (hw : w ≤ 2 ^ 53) (hh : h ≤ 2 ^ 53) (hm : 0 ≤ ml.val) {c : Coord R.Num}
    (hc : 0 ≤ c.x.val ∧ c.x.val ≤ w ∧ 0 ≤ c.y.val ∧ c.y.val ≤ h) :
    -ml.val ≤ (edgeLimit ml w h c).1.val ∧ (edgeLimit ml w h c).1.val ≤ 0 ∧
      -(edgeLimit ml w h c).1.val ≤ c.x.val ∧ -(edgeLimit ml w h c).1.val ≤ R.rnd (w - c.x.val) ∧
      -(edgeLimit ml w h c).1.val ≤ c.y.val ∧ -(edgeLimit ml w h c).1.val ≤ R.rnd (h - c.y.val) := by
  obtain ⟨h1, h2, h3, h4⟩ := hc
  have hmin : (FP.min (FP.min c.x (FP.nat w -. c.x)) (FP.min c.y (FP.nat h -. c.y))).val =
      Min.min (Min.min c.x.val (R.rnd (w - c.x.val))) (Min.min c.y.val (R.rnd (h - c.y.val))) := by
    rw [val_min, val_min, val_min, val_sub, val_sub, val_nat hw, val_nat hh]
  unfold edgeLimit
  dsimp only
  generalize FP.min (FP.min c.x (FP.nat w -. c.x)) (FP.min c.y (FP.nat h -. c.y)) = m at hmin ⊢
  have k0 : 0 ≤ m.val := by
    rw [hmin]
    exact le_min (le_min h1 (rnd_nonneg (by linarith))) (le_min h3 (rnd_nonneg (by linarith)))
  have k1 : m.val ≤ c.x.val := by rw [hmin]; exact (min_le_left _ _).trans (min_le_left _ _)
  have k2 : m.val ≤ R.rnd (w - c.x.val) := by rw [hmin]; exact (min_le_left _ _).trans (min_le_right _ _)
  have k3 : m.val ≤ c.y.val := by rw [hmin]; exact (min_le_right _ _).trans (min_le_left _ _)
  have k4 : m.val ≤ R.rnd (h - c.y.val) := by rw [hmin]; exact (min_le_right _ _).trans (min_le_right _ _)
  by_cases hlt : m.val < ml.val
  · rw [if_pos (by rw [lt_iff]; exact hlt)]
    simp only [val_neg, neg_neg]
    exact ⟨by linarith, by linarith, k1, k2, k3, k4⟩
  · rw [if_neg (by rw [lt_iff]; exact hlt)]
    simp only [val_neg, neg_neg]
    rw [not_lt] at hlt
    exact ⟨le_refl _, by linarith, hlt.trans k1, hlt.trans k2, hlt.trans k3, hlt.trans k4⟩

theorem maskLimit_bounds (nd : Node R.Num) (c : Coord R.Num) {l : R.Num} (hl : l.val ≤ 0) :
    l.val ≤ (maskLimit nd c l).1.val ∧ (maskLimit nd c l).1.val ≤ 0 := by
  unfold maskLimit
  dsimp only
  split_ifs with h1 h2 h3
  · exact ⟨le_refl _, hl⟩
  · rw [lt_iff] at h3
    refine ⟨h3.le, ?_⟩
    rw [val_neg, val_sqrt]
    have := rnd_nonneg (R := R) (Real.sqrt_nonneg ((nd.coord.x -. c.x) *. (nd.coord.x -. c.x) +. (nd.coord.y -. c.y) *. (nd.coord.y -. c.y)).val)
    linarith
  · exact ⟨le_refl _, hl⟩
  · exact ⟨le_refl _, hl⟩

/-- Sums of nonnegative numbers are not smaller than the terms. -/
theorem fold_add (l : List R.Num) (hl : ∀ v ∈ l, 0 ≤ v.val) (a : R.Num) (ha : 0 ≤ a.val) :
    a.val ≤ (l.foldl (fun s v => s +. v) a).val ∧ ∀ v ∈ l, v.val ≤ (l.foldl (fun s v => s +. v) a).val := by
  induction l generalizing a with
  | nil => exact ⟨le_refl _, fun v hv => by cases hv⟩
  | cons b l ih =>
    have hb := hl b List.mem_cons_self
    have h1 : a.val ≤ (a +. b).val := by rw [val_add]; exact le_rnd a (by linarith)
    have h2 : b.val ≤ (a +. b).val := by rw [val_add]; exact le_rnd b (by linarith)
    obtain ⟨i1, i2⟩ := ih (fun v hv => hl v (List.mem_cons_of_mem _ hv)) (a +. b) (ha.trans h1)
    rw [List.foldl_cons]
    refine ⟨h1.trans i1, fun v hv => ?_⟩
    rcases List.mem_cons.1 hv with rfl | hv
    · exact h2.trans i1
    · exact i2 v hv

theorem fold_half (l : List R.Num) (hl : ∀ v ∈ l, 0 ≤ v.val) (a : R.Num) (ha : 0 ≤ a.val) :
    a.val ≤ (l.foldl (fun s v => s +. lit 1 2 *. v) a).val := by
  induction l generalizing a with
  | nil => exact le_refl _
  | cons b l ih =>
    have hb := hl b List.mem_cons_self
    have hh : 0 ≤ (lit 1 2 *. b).val := by
      rw [val_mul]
      refine rnd_nonneg (mul_nonneg ?_ hb)
      show 0 ≤ R.rnd _
      exact rnd_nonneg (div_nonneg (by rw [val_one]; norm_num) (by rw [val_nat (by norm_num)]; positivity))
    have h1 : a.val ≤ (a +. lit 1 2 *. b).val := by rw [val_add]; exact le_rnd a (by linarith)
    exact h1.trans (ih (fun v hv => hl v (List.mem_cons_of_mem _ hv)) _ (ha.trans h1))

theorem chord_nonneg (a b : Coord R.Num) : 0 ≤ (chord a b).val := by
  unfold chord
  rw [val_sqrt]
  exact rnd_nonneg (Real.sqrt_nonneg _)

end

end Boundary

end Slsm
