import Verif.Proof.RoundCell

/-! # Area fractions in rounded arithmetic

For every rounding that meets the conditions of `Verif/Spec/Round.lean`, so for IEEE binary64 as long as nothing overflows. -/

namespace Slsm

open LevelSet FP Rounding Boundary

namespace Area

variable {R : Rounding} {w h : Nat} {L L' L1 : LevelSet R.Num} {b : Boundary R.Num} {isTarget : Bool}

theorem grid_rnd (C : Clear w h L isTarget) (e : discretise L isTarget = .ok (b, L')) : IsGrid w h L'.mesh := by
  obtain ⟨W, F, hm, -⟩ := (wp_of_ok (discretise_fit (isTarget := isTarget) C.grid C.len) e).fit
  rw [hm]
  exact F.annot.grid C.grid

theorem cell_index {i : Nat} : cellNo w (i % w) (i / w) = i := by unfold cellNo; rw [Nat.mul_comm]; exact Nat.mod_add_div i w

/-- **C96** (defined): after a discretisation under the conditions of C94, the area fractions can be computed in rounded arithmetic: no undefined
behaviour. -/
theorem C96_returns (C : Clear w h L isTarget) (hS : isTarget = true ∨ Shown w h L isTarget) (e : discretise L isTarget = .ok (b, L')) :
    ∃ L1, computeAreaFractions L' b = .ok L1 := by
  have G := grid_rnd C e
  have := fill_wp L' b
  rcases hr : computeAreaFractions L' b with err | L1
  · rw [hr] at this
    rcases this with ⟨hlt, -⟩ | ⟨i, el, hi, hel, ha⟩
    · rw [G.elements_length, G.nElements] at hlt; omega
    · rw [G.nElements] at hi
      obtain ⟨a, ea, -⟩ := cell_rnd C hS e (idx_mod_lt hi) (idx_div_lt hi) (by rw [cell_index]; exact hel)
      rw [ea] at ha
      cases ha
  · exact ⟨L1, rfl⟩

theorem cell_done (C : Clear w h L isTarget) (hS : isTarget = true ∨ Shown w h L isTarget) (e : discretise L isTarget = .ok (b, L'))
    (e1 : computeAreaFractions L' b = .ok L1) {x y : Nat} (hx : x < w) (hy : y < h) :
    ∃ el, L1.mesh.elements[cellNo w x y]? = some el ∧
      |el.area.val - areaLike (R.scaled (lay w (values L isTarget))) x y (0 < (sumAt w (values L isTarget) x y).val)| ≤ w * h / 2 ^ 44 := by
  have G := grid_rnd C e
  obtain ⟨as, F⟩ := filled e1
  have hi : cellNo w x y < as.length := by rw [F.count, G.nElements]; exact idx_lt hx hy
  obtain ⟨el, h1, h2, h3⟩ := F.done _ _ (List.getElem?_eq_getElem hi)
  obtain ⟨a, ea, ha⟩ := cell_rnd C hS e hx hy h1
  rw [ea] at h2
  rw [← Except.ok.inj h2] at h3
  exact ⟨_, h3, ha⟩

/-- **C96** (bounds): every area fraction is, up to `w·h·2⁻⁴⁴`, between zero and one. -/
theorem C96_bounds (C : Clear w h L isTarget) (hS : isTarget = true ∨ Shown w h L isTarget) (e : discretise L isTarget = .ok (b, L'))
    (e1 : computeAreaFractions L' b = .ok L1) {x y : Nat} (hx : x < w) (hy : y < h) :
    ∃ el, L1.mesh.elements[cellNo w x y]? = some el ∧ -(w * h / 2 ^ 44) ≤ el.area.val ∧ el.area.val ≤ 1 + w * h / 2 ^ 44 := by
  obtain ⟨el, h1, h2⟩ := cell_done C hS e e1 hx hy
  have := areaLike_bounds (R.scaled (lay w (values L isTarget))) x y (0 < (sumAt w (values L isTarget) x y).val)
  rw [abs_le] at h2
  exact ⟨el, h1, by linarith [h2.1, this.1], by linarith [h2.2, this.2]⟩

theorem decided_area {x y : Nat} {sd : List R.Num} (hs : Decided R (lay w sd) x y) :
    areaLike (R.scaled (lay w sd)) x y (0 < (sumAt w sd x y).val) = cellArea (R.scaled (lay w sd)) x y := by
  refine areaLike_eq fun hd => ?_
  have hcs : ∀ j, cornerSide w sd x y j = cellSide (R.scaled (lay w sd)) x y j := by
    intro j
    rw [cellSide, scaled_side, sides_side]
    rfl
  have halt : Alternating w sd x y := by
    intro j hj
    rw [hcs, hcs]
    simp only [isSaddle, Bool.and_eq_true] at hd
    match j, hj with
    | 0, _ => exact hd.1.1.1
    | 1, _ => exact hd.1.1.2
    | 2, _ => exact hd.1.2
    | 3, _ => exact hd.2
  rw [(sum_sign halt (hs (saddle_of_alternating halt))).1, scaled_centre, not_le]

/-- **C96** (value): in a cell that is not a saddle, or where the sum of the corner values is not lost in rounding, the area fraction is within
`w·h·2⁻⁴⁴` of the area of the part of the cell that belongs to the structure, for the exact zeros of the linear interpolants. -/
theorem C96_cells (C : Clear w h L isTarget) (hS : isTarget = true ∨ Shown w h L isTarget) (e : discretise L isTarget = .ok (b, L'))
    (e1 : computeAreaFractions L' b = .ok L1) {x y : Nat} (hx : x < w) (hy : y < h) (hs : Decided R (lay w (values L isTarget)) x y) :
    ∃ el, L1.mesh.elements[cellNo w x y]? = some el ∧ |el.area.val - cellArea (R.scaled (lay w (values L isTarget))) x y| ≤ w * h / 2 ^ 44 := by
  obtain ⟨el, h1, h2⟩ := cell_done C hS e e1 hx hy
  rw [decided_area hs] at h2
  exact ⟨el, h1, h2⟩

/-- The computed sum of numbers of size at most two. -/
theorem fold_two (l : List R.Num) (hl : ∀ v ∈ l, |v.val| ≤ 2) (a : R.Num) (k N : ℕ) (ha : |a.val| ≤ 3 * k) (hN : k + l.length ≤ N) (hN31 : N ≤ 2 ^ 31) :
    |(l.foldl FP.add a).val - (a.val + (l.map Num.val).sum)| ≤ l.length * (4 * N / 2 ^ 52) := by
  induction l generalizing a k with
  | nil => simp
  | cons c l ih =>
    have hc := hl c (by simp)
    rw [List.length_cons] at hN
    have hk : (k : ℝ) + 1 ≤ N := by
      have : k + 1 ≤ N := by omega
      exact_mod_cast this
    have hN' : (N : ℝ) ≤ 2 ^ 31 := by exact_mod_cast hN31
    have hs : |a.val + c.val| ≤ 3 * k + 2 := (abs_add_le _ _).trans (by linarith)
    have herr := R.err (a.val + c.val)
    have tiny : (1 : ℝ) / 2 ^ 1074 ≤ 1 / 2 ^ 52 := one_div_le_one_div_of_le (by positivity) (pow_le_pow_right₀ (by norm_num) (by norm_num))
    have e1 : |(FP.add a c).val - (a.val + c.val)| ≤ 4 * N / 2 ^ 52 := by
      rw [val_add]
      refine herr.trans ?_
      have : |a.val + c.val| / 2 ^ 52 ≤ (3 * N - 1) / 2 ^ 52 := div_le_div_of_nonneg_right (by linarith) (by positivity)
      have e : (4 * (N : ℝ)) / 2 ^ 52 = (3 * N - 1) / 2 ^ 52 + (N + 1) / 2 ^ 52 := by ring
      have : (1 : ℝ) / 2 ^ 52 ≤ (N + 1) / 2 ^ 52 := div_le_div_of_nonneg_right (by linarith [show (0 : ℝ) ≤ N by positivity]) (by positivity)
      linarith
    have small : 4 * (N : ℝ) / 2 ^ 52 ≤ 1 := by
      rw [div_le_one (by positivity)]
      have : (4 : ℝ) * 2 ^ 31 ≤ 2 ^ 52 := by norm_num
      linarith
    have ha' : |(FP.add a c).val| ≤ 3 * ((k + 1 : ℕ) : ℝ) := by
      have := abs_add_le ((FP.add a c).val - (a.val + c.val)) (a.val + c.val)
      rw [sub_add_cancel] at this
      push_cast
      linarith
    have h2 := ih (fun v hv => hl v (by simp [hv])) (FP.add a c) (k + 1) ha' (by omega)
    rw [List.foldl_cons, List.map_cons, List.sum_cons, List.length_cons]
    push_cast
    rw [abs_le] at h2 e1 ⊢
    constructor <;> linarith [h2.1, h2.2, e1.1, e1.2]

/-- **C96** (total): the area is within `(w·h)²·2⁻⁴³` of the area of the structure. -/
theorem C96_total (C : Clear w h L isTarget) (hS : isTarget = true ∨ Shown w h L isTarget) (e : discretise L isTarget = .ok (b, L'))
    (e1 : computeAreaFractions L' b = .ok L1) (hs : ∀ x y, x < w → y < h → Decided R (lay w (values L isTarget)) x y) :
    |L1.area.val - ∑ i ∈ Finset.range (w * h), cellArea (R.scaled (lay w (values L isTarget))) (i % w) (i / w)| ≤ (w * h) ^ 2 / 2 ^ 43 := by
  have G := grid_rnd C e
  obtain ⟨as, F⟩ := filled e1
  have hlen : as.length = w * h := by rw [F.count, G.nElements]
  generalize hA : (fun i => cellArea (R.scaled (lay w (values L isTarget))) (i % w) (i / w)) = A
  have hcell : ∀ (i : Nat) (hi : i < as.length), |as[i].val - A i| ≤ w * h / 2 ^ 44 := by
    intro i hi
    obtain ⟨el, h1, h2, -⟩ := F.done _ _ (List.getElem?_eq_getElem hi)
    rw [hlen] at hi
    have hx := idx_mod_lt hi
    have hy := idx_div_lt hi
    obtain ⟨a, ea, ha⟩ := cell_rnd C hS e hx hy (by rw [cell_index]; exact h1)
    rw [ea] at h2
    rw [decided_area (hs _ _ hx hy), Except.ok.inj h2] at ha
    rw [← hA]
    exact ha
  have hfit : w * h < 2 ^ 31 := lt_of_le_of_lt (Nat.mul_le_mul (by omega) (by omega)) C.fit
  have hfit' : ((w * h : ℕ) : ℝ) ≤ 2 ^ 31 := by exact_mod_cast hfit.le
  have hA01 : ∀ i, 0 ≤ A i ∧ A i ≤ 1 := fun i => by rw [← hA]; exact (C45_bounds _ _ _).1
  have hsmall : (w : ℝ) * h / 2 ^ 44 ≤ 1 := by
    rw [div_le_one (by positivity)]
    push_cast at hfit'
    norm_num at hfit' ⊢
    linarith
  have hl : ∀ v ∈ as, |v.val| ≤ 2 := by
    intro v hv
    obtain ⟨i, hi, rfl⟩ := List.getElem_of_mem hv
    have h1 := hcell i hi
    have h2 := hA01 i
    rw [abs_le] at h1 ⊢
    constructor <;> linarith [h1.1, h1.2, h2.1, h2.2]
  have hfold := fold_two as hl (FP.nat 0) 0 (w * h) (by simp) (by omega) hfit.le
  rw [val_zero, zero_add, hlen] at hfold
  have hsum : ∀ (l : List R.Num) (g : Nat → ℝ) (δ : ℝ), (∀ (i : Nat) (hi : i < l.length), |l[i].val - g i| ≤ δ) →
      |(l.map Num.val).sum - ∑ i ∈ Finset.range l.length, g i| ≤ l.length * δ := by
    intro l
    induction l with
    | nil => intro g δ _; simp
    | cons c l ih =>
      intro g δ hg
      have h1 := ih (fun i => g (i + 1)) δ fun i hi => by
        have := hg (i + 1) (by simpa using hi)
        simpa using this
      have h2 := hg 0 (by simp)
      rw [List.getElem_cons_zero] at h2
      rw [List.map_cons, List.sum_cons, List.length_cons, Finset.sum_range_succ']
      push_cast
      rw [abs_le] at h1 h2 ⊢
      constructor <;> linarith [h1.1, h1.2, h2.1, h2.2]
  have h3 := hsum as A _ hcell
  rw [hlen] at h3
  have harea : L1.area = as.foldl FP.add (FP.nat 0) := by rw [F.eq]
  rw [harea]
  have e1 : ((w * h : ℕ) : ℝ) * (4 * ((w * h : ℕ) : ℝ) / 2 ^ 52) = (w * h) ^ 2 / 2 ^ 50 := by push_cast; ring
  have e2 : ((w * h : ℕ) : ℝ) * (w * h / 2 ^ 44) = (w * h) ^ 2 / 2 ^ 44 := by push_cast; ring
  rw [e1] at hfold
  rw [e2] at h3
  have e3 : ((w : ℝ) * h) ^ 2 / 2 ^ 43 = (w * h) ^ 2 / 2 ^ 44 + (w * h) ^ 2 / 2 ^ 44 := by ring
  have e4 : ((w : ℝ) * h) ^ 2 / 2 ^ 50 ≤ (w * h) ^ 2 / 2 ^ 44 := div_le_div_of_nonneg_left (by positivity) (by positivity) (by norm_num)
  rw [abs_le] at hfold h3 ⊢
  constructor <;> linarith [hfold.1, hfold.2, h3.1, h3.2]

/-! ### one hole -/

/-- Around one hole no cell has corners alternately inside and outside. -/
theorem hole_decided {c : Hole R.Num} {moveLimit : R.Num} {bandWidth : Nat} {f : Bool} (hw : 2 ≤ w) (hh : 2 ≤ h)
    (hw2 : w ≤ 2 ^ 20) (hh2 : h ≤ 2 ^ 20) (hN : (w + 1) * (h + 1) < 2 ^ 31) (hb : bandWidth < 2 ^ 32)
    (e : LevelSet.new w h (.holes [c]) moveLimit bandWidth f = .ok L) (S : Separate w h [holeVal c]) {x y : Nat} (hx : x < w) (hy : y < h) :
    Decided R (lay w (values L false)) x y := by
  intro hsad
  exfalso
  obtain ⟨M, e'⟩ := exact_holes (R := R) (by omega : 1 ≤ w) (by omega : 1 ≤ h) hN [c] f
  have near := fun {x y : Nat} => separate_near hw hh hw2 hh2 hN hb e S (by norm_num : 3 < 2 ^ 32) e' (x := x) (y := y)
  have val := fun {x y : Nat} (hx : x ≤ w) (hy : y ≤ h) => C23_holes_exact (by omega) (by omega) hN (by norm_num : 3 < 2 ^ 32) e' hx hy
  have ht := tol_near (R := R)
  have t1 : 1 / 10 ^ 6 - 1 / 10 ^ 7 ≤ R.tol := by norm_num at ht ⊢; linarith
  have hr := S.pos (holeVal c) (by simp)
  have inn : ∀ {x y : Nat}, x ≤ w → y ≤ h → lay w (values L false) x y ≤ -R.tol → Slsm.distance (holeVal c).coord (lattice x y) < (holeVal c).r := by
    intro x y hx hy hv
    have h1 := near hx hy
    change |lay w (values L false) x y - _| ≤ _ at h1
    rw [abs_le] at h1
    have h2 : level w M false x y < 0 := by norm_num at h1 t1; linarith [h1.1]
    rcases (val hx hy).1 with h3 | ⟨d, hd, h3⟩
    · have h3' : level w M false x y = _ := h3
      rw [h3'] at h2
      exact absurd h2 (not_lt.2 (by positivity))
    · rw [List.map_cons, List.map_nil, List.mem_singleton] at hd
      subst hd
      have h3' : level w M false x y = _ := h3
      linarith
  have out : ∀ {x y : Nat}, x ≤ w → y ≤ h → R.tol ≤ lay w (values L false) x y → (holeVal c).r ≤ Slsm.distance (holeVal c).coord (lattice x y) := by
    intro x y hx hy hv
    have h1 := near hx hy
    change |lay w (values L false) x y - _| ≤ _ at h1
    rw [abs_le] at h1
    have h2 : 0 < level w M false x y := by norm_num at h1 t1; linarith [h1.2]
    have := (val hx hy).2 (.inr ⟨holeVal c, by simp, rfl⟩)
    change level w M false x y ≤ _ at this
    linarith
  have sq : ∀ x y : Nat, Slsm.distance (holeVal c).coord (lattice x y) ^ 2 = ((holeVal c).coord.x - x) ^ 2 + ((holeVal c).coord.y - y) ^ 2 := by
    intro x y
    unfold Slsm.distance lattice
    exact Real.sq_sqrt (by positivity)
  have dn : ∀ x y : Nat, 0 ≤ Slsm.distance (holeVal c).coord (lattice x y) := fun x y => Real.sqrt_nonneg _
  have s00 := sq x y
  have s10 := sq (x + 1) y
  have s11 := sq (x + 1) (y + 1)
  have s01 := sq x (y + 1)
  push_cast at s10 s11 s01
  have flag : Slsm.distance (holeVal c).coord (lattice x y) ^ 2 + Slsm.distance (holeVal c).coord (lattice (x + 1) (y + 1)) ^ 2 =
      Slsm.distance (holeVal c).coord (lattice (x + 1) y) ^ 2 + Slsm.distance (holeVal c).coord (lattice x (y + 1)) ^ 2 := by
    rw [s00, s10, s11, s01]; ring
  have lo : ∀ {d : ℝ}, 0 ≤ d → d < (holeVal c).r → d ^ 2 < (holeVal c).r ^ 2 := fun h0 h1 => by nlinarith
  have hi : ∀ {d : ℝ}, (holeVal c).r ≤ d → (holeVal c).r ^ 2 ≤ d ^ 2 := fun h1 => by nlinarith
  rcases hsad with ⟨h1, h2, h3, h4⟩ | ⟨h1, h2, h3, h4⟩
  · have a1 := hi (out (by omega) (by omega) h1)
    have a2 := lo (dn _ _) (inn (by omega) (by omega) h2)
    have a3 := hi (out (by omega) (by omega) h3)
    have a4 := lo (dn _ _) (inn (by omega) (by omega) h4)
    linarith
  · have a1 := lo (dn _ _) (inn (by omega) (by omega) h1)
    have a2 := hi (out (by omega) (by omega) h2)
    have a3 := lo (dn _ _) (inn (by omega) (by omega) h3)
    have a4 := hi (out (by omega) (by omega) h4)
    linarith

/-- **C96** (one hole): for a level set constructed from one hole well inside the domain, whose rim keeps `4·10⁻⁶` away from the lattice points, the
boundary is discretised, the area fractions are computed, and the area is within `(w·h)²·2⁻⁴³` of that of the exact contour of the same values. -/
theorem C96_hole {c : Hole R.Num} {moveLimit : R.Num} {bandWidth : Nat} (hw : 2 ≤ w) (hh : 2 ≤ h)
    (hw2 : w ≤ 2 ^ 20) (hh2 : h ≤ 2 ^ 20) (hN : (w + 1) * (h + 1) < 2 ^ 31) (hb : bandWidth < 2 ^ 32)
    (e : LevelSet.new w h (.holes [c]) moveLimit bandWidth false = .ok L) (S : Separate w h [holeVal c]) :
    ∃ b L' L1, discretise L false = .ok (b, L') ∧ computeAreaFractions L' b = .ok L1 ∧
      |L1.area.val - ∑ i ∈ Finset.range (w * h), cellArea (R.scaled (lay w L.signedDistance)) (i % w) (i / w)| ≤ (w * h) ^ 2 / 2 ^ 43 := by
  obtain ⟨h1, h2, b, L', h3⟩ := C94_holes hw hh hw2 hh2 hN hb e S
  have hS : false = true ∨ Shown w h L false := .inr (h2 rfl)
  obtain ⟨L1, h4⟩ := C96_returns h1 hS h3
  have h5 := C96_total h1 hS h3 h4 fun x y hx hy => hole_decided hw hh hw2 hh2 hN hb e S hx hy
  have ev : values L false = L.signedDistance := rfl
  rw [ev] at h5
  exact ⟨b, L', L1, h3, h4, h5⟩

/-! ### cases -/

/-- The hole of `disc64_case` meets the conditions. -/
example : ∃ (L : LevelSet binary64.Num) (b : Boundary binary64.Num) (L' L1 : LevelSet binary64.Num),
    LevelSet.new 10 10 (.holes [disc64]) (halfNum 1 (by norm_num)) 6 false = .ok L ∧ discretise L false = .ok (b, L') ∧ computeAreaFractions L' b = .ok L1 ∧
    |L1.area.val - ∑ i ∈ Finset.range (10 * 10), cellArea (binary64.scaled (lay 10 L.signedDistance)) (i % 10) (i / 10)| ≤ 1 / 10 ^ 8 := by
  obtain ⟨L, -, -, e, -⟩ := disc64_case
  obtain ⟨b, L', L1, h1, h2, h3⟩ := C96_hole (by norm_num) (by norm_num) (by norm_num) (by norm_num) (by norm_num) (by norm_num : 6 < 2 ^ 32) e disc64_separate
  refine ⟨L, b, L', L1, e, h1, h2, h3.trans ?_⟩
  norm_num

/-- Every pattern of lattice points as a target meets the conditions, saddles included. -/
example {L : LevelSet binary64.Num} (hr : Reachable w h L) (s : Nat → Prop) [DecidablePred s] :
    let T : LevelSet binary64.Num := { L with target := (List.range L.mesh.nNodes).map fun i => if s i then FP.nat 1 else FP.neg (halfNum 1 (by norm_num)) }
    ∃ b L' L1, discretise T true = .ok (b, L') ∧ computeAreaFractions L' b = .ok L1 ∧
      |L1.area.val - ∑ i ∈ Finset.range (w * h), cellArea (binary64.scaled (lay w (values T true))) (i % w) (i / w)| ≤ (w * h) ^ 2 / 2 ^ 43 := by
  intro T
  obtain ⟨C, -, -, hs⟩ := pattern_case hr s
  obtain ⟨b, L', h1⟩ := C94_safe C
  obtain ⟨L1, h2⟩ := C96_returns C (.inl rfl) h1
  exact ⟨b, L', L1, h1, h2, C96_total C (.inl rfl) h1 h2 fun x y hx hy => hs x y hx hy⟩

end Area

end Slsm
