import Verif.Spec.RoundPerim
import Verif.Proof.RoundLen
import Verif.Props.RoundSens

/-! # The perimeter in rounded arithmetic -/

namespace Slsm.Rounding

open FP

variable {R : Rounding} {b : Boundary R.Num} {p : BoundaryPoint R.Num}

/-- The computed distances from `c`. -/
noncomputable def chords (b : Boundary R.Num) (nbrs : List Nat) (c : Coord R.Num) : List R.Num :=
  nbrs.filterMap fun j => (b.points[j]?).map fun q => Boundary.chord c q.coord

theorem perimeter_fold (H : Tied b p) (c : Coord R.Num) :
    b.computePerimeter { p with coord := c } = .ok ((chords b (p.neighbours.take p.nNeighbours) c).foldl (fun s v => s +. v) (FP.nat 0)) := by
  have hn := H.size
  unfold Boundary.computePerimeter
  refine forN_eq (fun i => (chords b (p.neighbours.take i) c).foldl (fun s v => s +. v) (FP.nat 0)) (by simp [chords]) fun i hi => ?_
  dsimp only at hi
  have hi' : i < p.neighbours.length := by omega
  have hq : p.neighbours[i] < b.points.length := H.inside _ (List.mem_iff_getElem?.2 ⟨i, by
    rw [List.getElem?_take, if_pos hi, List.getElem?_eq_getElem hi']⟩)
  dsimp only
  rw [rd_eq hi']
  simp only [bind, Except.bind]
  rw [rd_eq hq]
  unfold chords
  rw [List.take_add_one, List.getElem?_eq_getElem hi', List.filterMap_append, List.foldl_append]
  simp only [Option.toList]
  rw [List.filterMap_cons_some (b := Boundary.chord c b.points[p.neighbours[i]].coord) (by rw [List.getElem?_eq_getElem hq]; rfl)]
  rfl

theorem chords_nonneg (nbrs : List Nat) (c : Coord R.Num) : ∀ v ∈ chords b nbrs c, 0 ≤ v.val := by
  intro v hv
  obtain ⟨j, -, h⟩ := List.mem_filterMap.1 hv
  cases hq : b.points[j]? with
  | none => rw [hq] at h; cases h
  | some q => rw [hq] at h; cases h; exact Boundary.chord_nonneg _ _

theorem ringAt_nonneg (nbrs : List Nat) (c : Coord ℝ) : 0 ≤ ringAt b nbrs c := by
  unfold ringAt
  apply List.sum_nonneg
  intro v hv
  obtain ⟨j, -, rfl⟩ := List.mem_map.1 hv
  cases b.points[j]? with
  | none => exact le_rfl
  | some q => exact Real.sqrt_nonneg _

theorem chords_sum (nbrs : List Nat) (c : Coord R.Num) :
    (chords b nbrs c).length ≤ nbrs.length ∧
    |((chords b nbrs c).map Num.val).sum - ringAt b nbrs (placeOf c)| ≤ ringAt b nbrs (placeOf c) / 2 ^ 49 + nbrs.length * (1 / 2 ^ 500) := by
  induction nbrs with
  | nil => simp [chords, ringAt]
  | cons j l ih =>
    obtain ⟨h1, h2⟩ := ih
    unfold chords ringAt at *
    rw [List.map_cons, List.sum_cons]
    cases hq : b.points[j]? with
    | none =>
      rw [List.filterMap_cons_none (by rw [hq]; rfl), Option.elim_none, zero_add]
      refine ⟨h1.trans (by simp), h2.trans ?_⟩
      rw [List.length_cons]
      push_cast
      have : (0 : ℝ) ≤ 1 / 2 ^ 500 := by positivity
      nlinarith
    | some q =>
      rw [List.filterMap_cons_some (b := Boundary.chord c q.coord) (by rw [hq]; rfl), List.map_cons, List.sum_cons, List.length_cons, List.length_cons,
        Option.elim_some]
      refine ⟨Nat.succ_le_succ h1, ?_⟩
      have := Boundary.chord_err c q.coord
      change |(Boundary.chord c q.coord).val - Boundary.distance (placeOf c) (placeOf q.coord)| ≤ Boundary.distance (placeOf c) (placeOf q.coord) / 2 ^ 49 + _ at this
      push_cast
      generalize (1 : ℝ) / 2 ^ 500 = κ at *
      rw [abs_le] at *
      constructor <;> linarith [this.1, this.2, h2.1, h2.2]

/-- The computed perimeter. -/
theorem ring_close (H : Tied b p) (c : Coord R.Num) : ∃ v, b.computePerimeter { p with coord := c } = .ok v ∧ 0 ≤ v.val ∧
    |v.val - ringAt b (p.neighbours.take p.nNeighbours) (placeOf c)| ≤ ringAt b (p.neighbours.take p.nNeighbours) (placeOf c) / 2 ^ 47 + 1 / 2 ^ 490 := by
  have h0 : 0 ≤ ((chords b (p.neighbours.take p.nNeighbours) c).foldl (fun s v => s +. v) (FP.nat 0)).val := by
    have : ∀ (l : List R.Num) (a : R.Num), (∀ v ∈ l, 0 ≤ v.val) → 0 ≤ a.val → 0 ≤ (l.foldl (fun s v => s +. v) a).val := by
      intro l
      induction l with
      | nil => intro a _ h; exact h
      | cons x l ih =>
        intro a hl ha
        refine ih _ (fun v hv => hl v (List.mem_cons_of_mem _ hv)) ?_
        rw [val_add]
        exact rnd_nonneg (add_nonneg ha (hl x List.mem_cons_self))
    exact this _ _ (chords_nonneg _ _) (by rw [val_zero])
  refine ⟨_, perimeter_fold H c, h0, ?_⟩
  obtain ⟨h1, h2⟩ := chords_sum (b := b) (p.neighbours.take p.nNeighbours) c
  have h3 := Boundary.fold_err (chords b (p.neighbours.take p.nNeighbours) c) (chords_nonneg _ _) (FP.nat 0) (by rw [val_zero])
  have hl : (p.neighbours.take p.nNeighbours).length ≤ 4 := by
    rw [List.length_take]
    exact (min_le_left _ _).trans H.few
  have hP := ringAt_nonneg (b := b) (p.neighbours.take p.nNeighbours) (placeOf c)
  rw [val_zero, zero_add] at h3
  have l1 : ((chords b (p.neighbours.take p.nNeighbours) c).length : ℝ) ≤ 4 := by exact_mod_cast h1.trans hl
  have l2 : ((p.neighbours.take p.nNeighbours).length : ℝ) ≤ 4 := by exact_mod_cast hl
  generalize (chords b (p.neighbours.take p.nNeighbours) c).foldl (fun s v => s +. v) (FP.nat 0) = v at *
  generalize ((chords b (p.neighbours.take p.nNeighbours) c).map Num.val).sum = S at *
  generalize ringAt b (p.neighbours.take p.nNeighbours) (placeOf c) = P at *
  generalize ((chords b (p.neighbours.take p.nNeighbours) c).length : ℝ) = n at *
  generalize ((p.neighbours.take p.nNeighbours).length : ℝ) = m at *
  have hκ : (1 : ℝ) / 2 ^ 1074 ≤ 1 / 2 ^ 500 := one_div_le_one_div_of_le (by positivity) (pow_le_pow_right₀ (by norm_num) (by norm_num))
  have hK : (1 : ℝ) / 2 ^ 490 = 2 ^ 10 * (1 / 2 ^ 500) := by
    rw [show (2 : ℝ) ^ 500 = 2 ^ 10 * 2 ^ 490 by rw [← pow_add]]
    field_simp
  have k0 : (0 : ℝ) ≤ 1 / 2 ^ 1074 := by positivity
  rw [hK]
  generalize (1 : ℝ) / 2 ^ 500 = κ at *
  generalize (1 : ℝ) / 2 ^ 1074 = κ' at *
  have a1 : n * (v.val / 2 ^ 51 + κ') ≤ 4 * (v.val / 2 ^ 51 + κ) := by
    have : 0 ≤ v.val / 2 ^ 51 := by positivity
    nlinarith
  have a2 : m * κ ≤ 4 * κ := by nlinarith
  have h3' := h3.trans a1
  have h2' : |S - P| ≤ P / 2 ^ 49 + 4 * κ := h2.trans (by linarith)
  clear h2 h3 a1 a2 hK
  rw [abs_le] at *
  obtain ⟨b1, b2⟩ := h3'
  obtain ⟨b3, b4⟩ := h2'
  have k1 : 0 ≤ κ := k0.trans hκ
  constructor <;> nlinarith

end Slsm.Rounding
