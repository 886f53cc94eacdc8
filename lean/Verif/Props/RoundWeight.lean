import Verif.Spec.RoundWeight
import Verif.Proof.RoundWeight
import Verif.Props.RoundPerim

/-! # C112: weighted lengths of the demos in rounded arithmetic -/

namespace Slsm.Rounding

open FP Program

variable {R : Rounding} {u l r : R.Num} {b : Boundary R.Num} {p : BoundaryPoint R.Num}

/-- **C112** (weight, rounded arithmetic): the computed weight at any height is between 0 and 1 and within `2⁻⁴⁸` of the weight that is `r` up to the
height `l`, 1 from the height `u` on and linear in between. -/
theorem C112_weight (hlu : 1 / 2 ^ 100 ≤ u.val - l.val) (h0 : 0 ≤ r.val) (h1 : r.val ≤ 1) (y : R.Num) :
    0 ≤ (perimeterWeight (gravity u l r) y).val ∧ (perimeterWeight (gravity u l r) y).val ≤ 1 ∧
    |(perimeterWeight (gravity u l r) y).val - heightWeight u.val l.val r.val y.val| ≤ 1 / 2 ^ 48 := weight_near hlu h0 h1 y

/-- **C112** (lengths, rounded arithmetic): the weighted length of a point is the exact sum over ten parts of each of its segments of weight at the
middle times length, up to a relative error of the unweighted lengths. -/
theorem C112_point_length (hlu : 1 / 2 ^ 100 ≤ u.val - l.val) (h0 : 0 ≤ r.val) (h1 : r.val ≤ 1) (H : Tied b p) {M : ℝ} (hM : 1 ≤ M)
    (hc : |p.coord.y.val| ≤ M) (hb : ∀ q ∈ b.points, |q.coord.y.val| ≤ M) :
    ∃ v, pointLength (gravity u l r) b.points p = .ok v ∧ 0 ≤ v.val ∧
      |v.val - sampled (heightWeight u.val l.val r.val) b (p.neighbours.take p.nNeighbours) (placeOf p.coord)| ≤
        ringAt b (p.neighbours.take p.nNeighbours) (placeOf p.coord) * (1 / 2 ^ 44 + M / (2 ^ 47 * (u.val - l.val))) + 1 / 2 ^ 220 :=
  pointLength_near hlu h0 h1 H hM hc hb

/-- **C112** (line integral, rounded arithmetic): when no segment of the point crosses a height at which the weight has a kink, the weighted length is
the sum of the line integrals of the weight along its segments, up to the same error. -/
theorem C112_integral (hlu : 1 / 2 ^ 100 ≤ u.val - l.val) (h0 : 0 ≤ r.val) (h1 : r.val ≤ 1) (H : Tied b p) {M : ℝ} (hM : 1 ≤ M)
    (hc : |p.coord.y.val| ≤ M) (hb : ∀ q ∈ b.points, |q.coord.y.val| ≤ M)
    (hz : ∀ j ∈ p.neighbours.take p.nNeighbours, ∀ q, b.points[j]? = some q → OneZone u.val l.val p.coord.y.val q.coord.y.val) :
    ∃ v, pointLength (gravity u l r) b.points p = .ok v ∧
      |v.val - ((p.neighbours.take p.nNeighbours).map fun j => (b.points[j]?).elim 0 fun q =>
        weightedLength u.val l.val r.val (placeOf p.coord) (placeOf q.coord)).sum| ≤
        ringAt b (p.neighbours.take p.nNeighbours) (placeOf p.coord) * (1 / 2 ^ 44 + M / (2 ^ 47 * (u.val - l.val))) + 1 / 2 ^ 220 := by
  obtain ⟨v, e, -, hv⟩ := pointLength_near hlu h0 h1 H hM hc hb
  refine ⟨v, e, ?_⟩
  have hs : sampled (heightWeight u.val l.val r.val) b (p.neighbours.take p.nNeighbours) (placeOf p.coord) =
      ((p.neighbours.take p.nNeighbours).map fun j => (b.points[j]?).elim 0 fun q =>
        weightedLength u.val l.val r.val (placeOf p.coord) (placeOf q.coord)).sum := by
    unfold sampled
    congr 1
    refine List.map_congr_left fun j hj => ?_
    cases hq : b.points[j]? with
    | none => rfl
    | some q =>
      exact (midSum_zone (r := r.val) (sub_pos.1 (lt_of_lt_of_le (by positivity) hlu)) (a := placeOf p.coord) (c := placeOf q.coord) (hz j hj q hq)).1
  rwa [hs] at hv

/-- **C112** (discretised boundaries, rounded arithmetic): whenever the discretisation of a level set reached from the constructors returns, the
weighted length of each point is computed and accurate. -/
theorem C112_discretised {w h : Nat} {L L' : LevelSet R.Num} {isTarget : Bool} (hr : LevelSet.Reachable w h L)
    (ht' : isTarget = true → L.target.length = L.mesh.nNodes) (e : Boundary.discretise L isTarget = .ok (b, L'))
    (hlu : 1 / 2 ^ 100 ≤ u.val - l.val) (h0 : 0 ≤ r.val) (h1 : r.val ≤ 1) {pt : BoundaryPoint R.Num} (hp : pt ∈ b.points) :
    ∃ v, pointLength (gravity u l r) b.points pt = .ok v ∧ 0 ≤ v.val ∧
      |v.val - sampled (heightWeight u.val l.val r.val) b (pt.neighbours.take pt.nNeighbours) (placeOf pt.coord)| ≤
        ringAt b (pt.neighbours.take pt.nNeighbours) (placeOf pt.coord) * (1 / 2 ^ 44 + (h + 1) / (2 ^ 47 * (u.val - l.val))) + 1 / 2 ^ 220 := by
  obtain ⟨k, hk⟩ := List.mem_iff_getElem?.1 hp
  have H := ((C111_discretised hr ht' e).1 k pt hk).1
  have hy : ∀ q ∈ b.points, |q.coord.y.val| ≤ (h : ℝ) + 1 := by
    intro q hq
    obtain ⟨-, -, -, y0, y1, -⟩ := Boundary.C93_points hr ht' e hq
    rw [abs_of_nonneg y0]
    linarith
  exact C112_point_length hlu h0 h1 H (by have : (0 : ℝ) ≤ h := Nat.cast_nonneg h
                                          linarith) (hy pt hp) hy

/-- **C112** (perimeter, rounded arithmetic): the weighted perimeter of a discretised boundary is computed; it is half the sum of the exact weighted
lengths of its points, up to the errors of these and a relative error proportional to the number of points. -/
theorem C112_perimeter {w h : Nat} {L L' : LevelSet R.Num} {isTarget : Bool} (hr : LevelSet.Reachable w h L)
    (ht' : isTarget = true → L.target.length = L.mesh.nNodes) (e : Boundary.discretise L isTarget = .ok (b, L'))
    (hlu : 1 / 2 ^ 100 ≤ u.val - l.val) (h0 : 0 ≤ r.val) (h1 : r.val ≤ 1) :
    ∃ v, weightedPerimeter (gravity u l r) b.points = .ok v ∧ 0 ≤ v.val ∧
      |v.val - (b.points.map fun pt => sampled (heightWeight u.val l.val r.val) b (pt.neighbours.take pt.nNeighbours) (placeOf pt.coord) / 2).sum| ≤
        2 * (b.points.map fun pt => (ringAt b (pt.neighbours.take pt.nNeighbours) (placeOf pt.coord) *
          (1 / 2 ^ 44 + (h + 1) / (2 ^ 47 * (u.val - l.val))) + 1 / 2 ^ 220) / 2).sum +
        (b.points.map fun pt => sampled (heightWeight u.val l.val r.val) b (pt.neighbours.take pt.nNeighbours) (placeOf pt.coord) / 2).sum / 2 ^ 52 +
        b.points.length * (v.val / 2 ^ 51 + 1 / 2 ^ 230) :=
  weightedPerimeter_near _ _ _ _ fun _ hp => C112_discretised hr ht' e hlu h0 h1 hp

/-- A vertical segment of length 1 whose weight rises from 1/2 to 3/4: in every rounding its weighted length is 5/8 up to `2⁻⁴⁰`. -/
example (R : Rounding) : ∃ (b : Boundary R.Num) (p : BoundaryPoint R.Num) (v : R.Num), b.points[0]? = some p ∧ Tied b p ∧
    pointLength (gravity (FP.nat 2) (FP.nat 0) (RoundRun.hf R)) b.points p = .ok v ∧ |v.val - 5 / 8| ≤ 1 / 2 ^ 40 := by
  obtain ⟨p, hp⟩ : ∃ p : BoundaryPoint R.Num, p = { RoundRun.spot R (FP.nat 0) with coord := ⟨FP.nat 0, FP.nat 1⟩, nNeighbours := 1, neighbours := [1] } := ⟨_, rfl⟩
  obtain ⟨b, hb⟩ : ∃ b : Boundary R.Num, b = { Boundary.new with points := [p, RoundRun.spot R (FP.nat 0)] } := ⟨_, rfl⟩
  have h0 : b.points[0]? = some p := by rw [hb]; rfl
  have hn : p.neighbours.take p.nNeighbours = [1] := by rw [hp]; rfl
  have H : Tied b p := by
    refine ⟨by rw [hp]; show 1 ≤ 4; norm_num, by rw [hp]; exact le_rfl, fun j hj => ?_⟩
    rw [hn, List.mem_singleton] at hj
    rw [hj, hb]
    exact Nat.lt_succ_self 1
  have hv : (RoundRun.hf R).val = 1 / 2 := RoundRun.hf_val
  have h2 : (FP.nat 2 : R.Num).val = 2 := by rw [val_nat (by norm_num)]; norm_num
  have hp1 : p.coord.y.val = 1 := by rw [hp]; exact val_one
  have hy : ∀ q ∈ b.points, |q.coord.y.val| ≤ 1 := by
    intro q hq
    rw [hb] at hq
    rcases List.mem_cons.1 hq with rfl | hq
    · rw [hp1]; norm_num
    · rw [List.mem_singleton.1 hq]
      show |(FP.nat 0 : R.Num).val| ≤ 1
      rw [val_zero]; norm_num
  have hd : Boundary.distance (placeOf p.coord) (placeOf (RoundRun.spot R (FP.nat 0)).coord) = 1 := by
    rw [hp]
    unfold Boundary.distance placeOf
    simp only [RoundRun.spot, val_one, val_zero]
    norm_num
  obtain ⟨v, e, hw⟩ := C112_integral (u := (FP.nat 2 : R.Num)) (l := (FP.nat 0 : R.Num)) (r := RoundRun.hf R) (by rw [h2, val_zero]; norm_num) (by rw [hv]; norm_num)
    (by rw [hv]; norm_num) H le_rfl (hy p (List.mem_of_getElem? h0)) hy (by
      intro j hj q hq
      rw [hn, List.mem_singleton] at hj
      rw [hj, hb] at hq
      cases hq
      rw [h2, val_zero, hp1]
      refine .inr (.inr ?_)
      show _ ∧ _ ∧ _ ≤ (FP.nat 0 : R.Num).val ∧ (FP.nat 0 : R.Num).val ≤ _
      rw [val_zero]
      norm_num)
  refine ⟨b, p, v, h0, H, e, ?_⟩
  have hq : b.points[1]? = some (RoundRun.spot R (FP.nat 0)) := by rw [hb]; rfl
  unfold ringAt at hw
  rw [hn] at hw
  simp only [List.map_cons, List.map_nil, List.sum_cons, List.sum_nil, add_zero] at hw
  rw [hq, Option.elim_some, Option.elim_some, h2, val_zero, hv, (midSum_zone (r := 1 / 2) (by norm_num) (a := placeOf p.coord)
    (c := placeOf (RoundRun.spot R (FP.nat 0)).coord) (by
      show OneZone 2 0 p.coord.y.val (FP.nat 0 : R.Num).val
      rw [hp1, val_zero]
      exact .inr (.inr (by norm_num)))).2, hd] at hw
  have w1 : heightWeight 2 0 (1 / 2) (placeOf p.coord).y = 3 / 4 := by
    show heightWeight 2 0 (1 / 2) p.coord.y.val = 3 / 4
    rw [hp1, heightWeight_mid (by norm_num) (by norm_num) (by norm_num)]
    norm_num
  have w2 : heightWeight 2 0 (1 / 2) (placeOf (RoundRun.spot R (FP.nat 0)).coord).y = 1 / 2 := by
    show heightWeight 2 0 (1 / 2) (FP.nat 0 : R.Num).val = 1 / 2
    rw [val_zero, heightWeight_mid (by norm_num) (by norm_num) (by norm_num)]
    norm_num
  rw [w1, w2] at hw
  norm_num at hw ⊢
  linarith

/-- The hypotheses of `C112_discretised` and `C112_perimeter` are met in binary64, by a plane on a five by five grid, whose boundary has a point. -/
example : ∃ (L L' : LevelSet binary64.Num) (b : Boundary binary64.Num) (pt : BoundaryPoint binary64.Num) (v : binary64.Num), LevelSet.Reachable 5 5 L ∧
    Boundary.discretise L false = .ok (b, L') ∧ pt ∈ b.points ∧ pointLength (gravity (FP.nat 2) (FP.nat 0) (RoundRun.hf binary64)) b.points pt = .ok v ∧
    |v.val - sampled (heightWeight 2 0 (1 / 2)) b (pt.neighbours.take pt.nNeighbours) (placeOf pt.coord)| ≤
      ringAt b (pt.neighbours.take pt.nNeighbours) (placeOf pt.coord) / 2 ^ 42 + 1 / 2 ^ 220 := by
  obtain ⟨L, L', b, pt, -, hr, e, hp, -⟩ := plane_lengths
  have hv : (RoundRun.hf binary64).val = 1 / 2 := RoundRun.hf_val
  have h2 : (FP.nat 2 : binary64.Num).val = 2 := by rw [val_nat (by norm_num)]; norm_num
  obtain ⟨v, e1, -, hw⟩ := C112_discretised (u := (FP.nat 2 : binary64.Num)) (l := (FP.nat 0 : binary64.Num)) (r := RoundRun.hf binary64) hr (fun h => by cases h) e
    (by rw [h2, val_zero]; norm_num) (by rw [hv]; norm_num) (by rw [hv]; norm_num) hp
  refine ⟨L, L', b, pt, v, hr, e, hp, e1, ?_⟩
  rw [h2, val_zero, hv] at hw
  refine hw.trans (add_le_add ?_ le_rfl)
  rw [div_eq_mul_one_div]
  refine mul_le_mul_of_nonneg_left ?_ (ringAt_nonneg _ _)
  norm_num

end Slsm.Rounding
