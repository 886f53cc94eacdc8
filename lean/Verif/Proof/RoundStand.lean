import Verif.Proof.RoundLock
import Verif.Proof.LSNew
import Mathlib.Algebra.Order.BigOperators.Group.Finset
import Mathlib.Algebra.BigOperators.Intervals

/-! Exact values that decide like given rounded ones. -/

namespace Slsm

open FP

namespace Boundary

open Rounding

section
variable {R : Rounding} {w h : Nat}

theorem val_centre {x : ℕ} (hx : x < 2 ^ 31) : (FP.add (FP.nat x) (FP.lit 1 2) : R.Num).val = x + 1 / 2 := by
  show R.rnd ((FP.nat x : R.Num).val + R.rnd (R.rnd (1 : ℕ) / R.rnd (2 : ℕ))) = _
  rw [val_nat (by omega), R.nat 1 (by norm_num), R.nat 2 (by norm_num)]
  have h1 := R.half 1 (by norm_num)
  push_cast at h1 ⊢
  rw [h1]
  have h2 := R.half (2 * x + 1) (by omega)
  push_cast at h2
  rw [show (x : ℝ) + 1 / 2 = (2 * x + 1) / 2 by ring]
  exact h2

theorem exact_grid {m : Mesh R.Num} (G : IsGrid w h m) (hfit : (w + 1) * (h + 1) < 2 ^ 31) : IsGrid w h (m.map Num.val) := by
  have hw : w < 2 ^ 31 := by nlinarith
  have hh : h < 2 ^ 31 := by nlinarith
  have node : ∀ {i : Nat} {nd : Node ℝ}, (m.map Num.val).nodes[i]? = some nd → ∃ a, m.nodes[i]? = some a ∧
      nd =
           { coord := ⟨a.coord.x.val, a.coord.y.val⟩, neighbours := a.neighbours, elements := a.elements, nElements := a.nElements,
             boundaryPoints := a.boundaryPoints, nBoundaryPoints := a.nBoundaryPoints, isActive := a.isActive, isDomain := a.isDomain,
             isMasked := a.isMasked, isMine := a.isMine, status := a.status } := by
    intro i nd hi
    unfold Mesh.map at hi
    dsimp only at hi
    rw [List.getElem?_map, Option.map_eq_some_iff] at hi
    obtain ⟨a, h1, h2⟩ := hi
    exact ⟨a, h1, h2.symm⟩
  have elem : ∀ {i : Nat} {el : Element ℝ}, (m.map Num.val).elements[i]? = some el → ∃ a, m.elements[i]? = some a ∧
      el =
            { coord := ⟨a.coord.x.val, a.coord.y.val⟩, area := a.area.val, nodes := a.nodes, boundarySegments := a.boundarySegments,
              nBoundarySegments := a.nBoundarySegments, status := a.status } := by
    intro i nd hi
    unfold Mesh.map at hi
    dsimp only at hi
    rw [List.getElem?_map, Option.map_eq_some_iff] at hi
    obtain ⟨a, h1, h2⟩ := hi
    exact ⟨a, h1, h2.symm⟩
  refine ⟨G.w_pos, G.h_pos, G.width, G.height, G.nNodes, G.nElements, ?_, ?_, ?_, ?_, ?_, ?_, ?_, ?_, ?_, ?_, G.xy_length, G.xy_col, G.xy⟩
  · show (m.nodes.map _).length = _
    rw [List.length_map, G.nodes_length]
  · show (m.elements.map _).length = _
    rw [List.length_map, G.elements_length]
  · intro x y nd hx hy hi
    obtain ⟨a, ha, rfl⟩ := node hi
    dsimp only
    rw [G.coord x y a hx hy ha]
    dsimp only
    rw [val_nat (by omega), val_nat (by omega)]
    rfl
  · intro x y nd hx hy hi
    obtain ⟨a, ha, rfl⟩ := node hi
    exact G.neighbours x y a hx hy ha
  · intro x y nd hx hy hi
    obtain ⟨a, ha, rfl⟩ := node hi
    exact G.isDomain x y a hx hy ha
  · intro n nd hi
    obtain ⟨a, ha, rfl⟩ := node hi
    exact G.cells n a ha
  · intro n nd hi
    obtain ⟨a, ha, rfl⟩ := node hi
    exact G.slots n a ha
  · intro x y el hx hy hi
    obtain ⟨a, ha, rfl⟩ := elem hi
    dsimp only
    rw [G.centre x y a hx hy ha]
    dsimp only
    rw [val_centre (by omega), val_centre (by omega)]
    simp only [FP.add_real, FP.nat_real, FP.lit_real]
    norm_num
  · intro x y el hx hy hi
    obtain ⟨a, ha, rfl⟩ := elem hi
    exact G.corner x y a hx hy ha
  · intro e el hi
    obtain ⟨a, ha, rfl⟩ := elem hi
    exact G.segSlots e a ha

theorem exact_node (m : Mesh R.Num) {i : Nat} {a : Node R.Num} {b : Node ℝ} (ha : m.nodes[i]? = some a)
    (hb : (m.map Num.val).nodes[i]? = some b) : a.isActive = b.isActive ∧ a.isMasked = b.isMasked := by
  unfold Mesh.map at hb
  dsimp only at hb
  rw [List.getElem?_map, ha] at hb
  cases hb
  exact ⟨rfl, rfl⟩

/-- The level set in exact arithmetic with given values. -/
noncomputable def standIn (w : Nat) (L : LevelSet R.Num) (isTarget : Bool) (g : Nat → Nat → ℝ) : LevelSet ℝ :=
  let l := (List.range L.mesh.nNodes).map fun i => g (i % (w + 1)) (i / (w + 1))
  if isTarget then { exact L with target := l } else { exact L with signedDistance := l }

theorem standIn_mesh (L : LevelSet R.Num) (isTarget : Bool) (g : Nat → Nat → ℝ) : (standIn w L isTarget g).mesh = L.mesh.map Num.val := by
  unfold standIn
  cases isTarget <;> rfl

theorem standIn_values (L : LevelSet R.Num) (isTarget : Bool) (g : Nat → Nat → ℝ) :
    values (standIn w L isTarget g) isTarget = (List.range L.mesh.nNodes).map fun i => g (i % (w + 1)) (i / (w + 1)) := by
  unfold standIn values
  cases isTarget <;> rfl

theorem standIn_level {L : LevelSet R.Num} (G : IsGrid w h L.mesh) (isTarget : Bool) (g : Nat → Nat → ℝ) {x y : Nat} (hx : x ≤ w) (hy : y ≤ h) :
    level w (standIn w L isTarget g) isTarget x y = g x y := by
  unfold level
  rw [standIn_values, LevelSet.vals_map_range _ (by rw [G.nNodes]; exact nodeNo_lt hx hy)]
  unfold nodeNo
  rw [idx_mod (by omega), idx_div (by omega)]

/-! ### The values -/

open Classical in
/-- Sign of the sum of the corner values as the code compares it. -/
noncomputable def sgn (s : R.Num) : ℝ := if 0 < s.val then 1 else if s.val < 0 then -1 else 0

theorem sgn_abs (s : R.Num) : |sgn s| ≤ 1 := by
  unfold sgn; split_ifs <;> norm_num

/-- Twist of a cell. -/
noncomputable def twist (w : Nat) (sd : List R.Num) (x y : Nat) : ℝ := R.sides (lay w sd) x y * sgn (sumAt w sd x y)

theorem sides_abs (f : Nat → Nat → ℝ) (x y : Nat) : |R.sides f x y| ≤ 1 := by
  unfold Rounding.sides; split_ifs <;> norm_num

theorem twist_abs (sd : List R.Num) (x y : Nat) : |twist w sd x y| ≤ 1 := by
  unfold twist
  rw [abs_mul]
  exact mul_le_one₀ (sides_abs _ _ _) (abs_nonneg _) (sgn_abs _)

/-- Sum of the twists below and to the left. -/
noncomputable def twists (w : Nat) (sd : List R.Num) (x y : Nat) : ℝ := ∑ i ∈ Finset.range x, ∑ j ∈ Finset.range y, twist w sd i j

theorem twists_step (sd : List R.Num) (x y : Nat) :
    twists w sd x y - twists w sd (x + 1) y + twists w sd (x + 1) (y + 1) - twists w sd x (y + 1) = twist w sd x y := by
  unfold twists
  rw [Finset.sum_range_succ, Finset.sum_range_succ, Finset.sum_range_succ]
  ring

theorem twists_abs (sd : List R.Num) {x y : Nat} (hx : x ≤ w) (hy : y ≤ h) : |twists w sd x y| ≤ w * h := by
  unfold twists
  have h1 : ∀ i, |∑ j ∈ Finset.range y, twist w sd i j| ≤ h := fun i => by
    refine (Finset.abs_sum_le_sum_abs _ _).trans ((Finset.sum_le_card_nsmul _ _ 1 fun j _ => twist_abs sd i j).trans ?_)
    rw [Finset.card_range, nsmul_eq_mul, mul_one]
    exact_mod_cast hy
  refine (Finset.abs_sum_le_sum_abs _ _).trans ((Finset.sum_le_card_nsmul _ _ (h : ℝ) fun i _ => h1 i).trans ?_)
  rw [Finset.card_range, nsmul_eq_mul]
  exact mul_le_mul_of_nonneg_right (by exact_mod_cast hx) (by positivity)

open Classical in
/-- The values: of the right side, small near the contour, and with the right sign of the sum in saddle cells. -/
noncomputable def standVal (w h : Nat) (sd : List R.Num) (far : Nat → Nat → Prop) (x y : Nat) : ℝ :=
  if far x y then 2 * R.sides (lay w sd) x y
  else R.sides (lay w sd) x y * ((2 + twists w sd x y / (w * h + 1)) / 8)

variable {sd : List R.Num} {far : Nat → Nat → Prop}

theorem factor_bounds {x y : Nat} (hx : x ≤ w) (hy : y ≤ h) :
    1 / 8 ≤ (2 + twists w sd x y / (w * h + 1)) / 8 ∧ (2 + twists w sd x y / (w * h + 1)) / 8 ≤ 3 / 8 := by
  have := twists_abs sd hx hy
  rw [abs_le] at this
  have hp : (0 : ℝ) < w * h + 1 := by positivity
  have h1 : -1 ≤ twists w sd x y / (w * h + 1) := by rw [le_div_iff₀ hp]; linarith
  have h2 : twists w sd x y / (w * h + 1) ≤ 1 := by rw [div_le_iff₀ hp]; linarith
  constructor <;> linarith

theorem nodeSide_scale {v c : ℝ} (hv : v = 0 ∨ v = -1 ∨ v = 1) (hc : 1 / 8 ≤ c) : nodeSide (v * c) = nodeSide v := by
  have h1 : |c| = c := abs_of_nonneg (by linarith)
  rcases hv with rfl | rfl | rfl
  · rw [zero_mul]
  · unfold nodeSide
    rw [if_neg (by rw [abs_mul, h1]; norm_num; linarith), if_pos (by linarith), if_neg (by norm_num), if_pos (by norm_num)]
  · unfold nodeSide
    rw [if_neg (by rw [abs_mul, h1]; norm_num; linarith), if_neg (by linarith), if_neg (by norm_num), if_neg (by norm_num)]

theorem sides_cases (f : Nat → Nat → ℝ) (x y : Nat) : R.sides f x y = 0 ∨ R.sides f x y = -1 ∨ R.sides f x y = 1 := by
  unfold Rounding.sides; split_ifs <;> simp

theorem standVal_side {x y : Nat} (hx : x ≤ w) (hy : y ≤ h) :
    nodeSide (standVal w h sd far x y) = nodeSide (R.sides (lay w sd) x y) := by
  unfold standVal
  split
  · rw [mul_comm]; exact nodeSide_scale (sides_cases _ _ _) (by norm_num)
  · exact nodeSide_scale (sides_cases _ _ _) (factor_bounds hx hy).1

theorem standVal_near {x y : Nat} (hx : x ≤ w) (hy : y ≤ h) (hf : ¬ far x y) : |standVal w h sd far x y| ≤ 3 / 8 := by
  unfold standVal
  rw [if_neg hf, abs_mul]
  have := factor_bounds (sd := sd) hx hy
  rw [abs_of_nonneg (by linarith : (0 : ℝ) ≤ (2 + twists w sd x y / (w * h + 1)) / 8)]
  have := sides_abs (R := R) (lay w sd) x y
  nlinarith [abs_nonneg (R.sides (lay w sd) x y)]

/-- Far nodes are no ends of cut edges. -/
def FarOk (w h : Nat) (s : Nat → Nat → ℝ) (far : Nat → Nat → Prop) : Prop :=
  ∀ p, CutEdge w h s p → ∀ q ∈ p.ends, ¬ far q.1 q.2

theorem standVal_gentle (hF : FarOk w h (R.sides (lay w sd)) far) : Gentle w h (standVal w h sd far) := by
  have key : ∀ a b : ℝ, |a| ≤ 3 / 8 → |b| ≤ 3 / 8 → |a - b| ≤ 1 := by
    intro a b h1 h2
    rw [abs_le] at *
    constructor <;> linarith [h1.1, h1.2, h2.1, h2.2]
  constructor
  · intro x y hx hy hc
    rw [standVal_side (by omega) hy, standVal_side hx hy] at hc
    have hp : CutEdge w h (R.sides (lay w sd)) (.hor x y) := by
      refine ⟨fun q hq => ?_, hc, by simp⟩
      simp only [Place.ends, List.mem_cons, List.not_mem_nil, or_false] at hq
      rcases hq with rfl | rfl
      · exact ⟨by dsimp only; omega, hy⟩
      · exact ⟨hx, hy⟩
    exact key _ _ (standVal_near (by omega) hy (hF _ hp (x, y) (by simp [Place.ends])))
      (standVal_near hx hy (hF _ hp (x + 1, y) (by simp [Place.ends])))
  · intro x y hx hy hc
    rw [standVal_side hx (by omega), standVal_side hx hy] at hc
    have hp : CutEdge w h (R.sides (lay w sd)) (.ver x y) := by
      refine ⟨fun q hq => ?_, hc, by simp⟩
      simp only [Place.ends, List.mem_cons, List.not_mem_nil, or_false] at hq
      rcases hq with rfl | rfl
      · exact ⟨hx, by dsimp only; omega⟩
      · exact ⟨hx, hy⟩
    exact key _ _ (standVal_near hx (by omega) (hF _ hp (x, y) (by simp [Place.ends])))
      (standVal_near hx hy (hF _ hp (x, y + 1) (by simp [Place.ends])))

theorem cornerSide_sides (x y j : Nat) : cornerSide w sd x y j = nodeSide (R.sides (lay w sd) (cornerAt x y j).1 (cornerAt x y j).2) :=
  (sides_side sd _ _).symm

/-- The corners of a cell with four cut edges. -/
theorem alternating_sides {x y : Nat} (ha : Alternating w sd x y) : ∃ s : ℝ, (s = 1 ∨ s = -1) ∧ R.sides (lay w sd) x y = s ∧
    R.sides (lay w sd) (x + 1) y = -s ∧ R.sides (lay w sd) (x + 1) (y + 1) = s ∧ R.sides (lay w sd) x (y + 1) = -s := by
  have n0 : nodeSide (0 : ℝ) = .boundary := by unfold nodeSide; norm_num
  have n1 : nodeSide (1 : ℝ) = .inside := by unfold nodeSide; norm_num
  have n2 : nodeSide (-1 : ℝ) = .outside := by unfold nodeSide; norm_num
  have c0 := cutPair_iff.1 (ha 0 (by omega))
  have c1 := cutPair_iff.1 (ha 1 (by omega))
  have c2 := cutPair_iff.1 (ha 2 (by omega))
  rw [cornerSide_sides, cornerSide_sides] at c0 c1 c2
  change Crossed (nodeSide (R.sides (lay w sd) x y)) (nodeSide (R.sides (lay w sd) (x + 1) y)) at c0
  change Crossed (nodeSide (R.sides (lay w sd) (x + 1) y)) (nodeSide (R.sides (lay w sd) (x + 1) (y + 1))) at c1
  change Crossed (nodeSide (R.sides (lay w sd) (x + 1) (y + 1))) (nodeSide (R.sides (lay w sd) x (y + 1))) at c2
  rcases sides_cases (R := R) (lay w sd) x y with e0 | e0 | e0 <;> rcases sides_cases (R := R) (lay w sd) (x + 1) y with e1 | e1 | e1 <;>
    rw [e0, e1] at c0 <;> simp only [n0, n1, n2, Crossed, reduceCtorEq, and_false, false_and, or_false, false_or, and_self] at c0
  · rcases sides_cases (R := R) (lay w sd) (x + 1) (y + 1) with e2 | e2 | e2 <;> rcases sides_cases (R := R) (lay w sd) x (y + 1) with e3 | e3 | e3 <;>
      rw [e1, e2] at c1 <;> rw [e2, e3] at c2 <;>
      simp only [n0, n1, n2, Crossed, reduceCtorEq, and_false, false_and, or_false, false_or, and_self] at c1 c2
    exact ⟨-1, .inr rfl, e0, by rw [e1]; norm_num, e2, by rw [e3]; norm_num⟩
  · rcases sides_cases (R := R) (lay w sd) (x + 1) (y + 1) with e2 | e2 | e2 <;> rcases sides_cases (R := R) (lay w sd) x (y + 1) with e3 | e3 | e3 <;>
      rw [e1, e2] at c1 <;> rw [e2, e3] at c2 <;>
      simp only [n0, n1, n2, Crossed, reduceCtorEq, and_false, false_and, or_false, false_or, and_self] at c1 c2
    exact ⟨1, .inl rfl, e0, e1, e2, e3⟩

/-- In saddle cells the sum has the sign that the code computes. -/
theorem standVal_sum {x y : Nat} (ha : Alternating w sd x y)
    (hf : ¬ far x y ∧ ¬ far (x + 1) y ∧ ¬ far (x + 1) (y + 1) ∧ ¬ far x (y + 1)) :
    standVal w h sd far x y + standVal w h sd far (x + 1) y + standVal w h sd far (x + 1) (y + 1) + standVal w h sd far x (y + 1) =
      sgn (sumAt w sd x y) / (8 * (w * h + 1)) := by
  obtain ⟨s, hs, e0, e1, e2, e3⟩ := alternating_sides ha
  unfold standVal
  rw [if_neg hf.1, if_neg hf.2.1, if_neg hf.2.2.1, if_neg hf.2.2.2, e0, e1, e2, e3]
  have ht := twists_step (w := w) sd x y
  unfold twist at ht
  rw [e0] at ht
  have hp : (w : ℝ) * h + 1 ≠ 0 := by positivity
  have hss : s * s = 1 := by rcases hs with rfl | rfl <;> norm_num
  have : s * (twists w sd x y - twists w sd (x + 1) y + twists w sd (x + 1) (y + 1) - twists w sd x (y + 1)) = sgn (sumAt w sd x y) := by
    rw [ht, ← mul_assoc, hss, one_mul]
  field_simp
  linarith

end

end Boundary

end Slsm
