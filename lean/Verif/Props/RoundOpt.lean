import Verif.Proof.RoundOpt
import Verif.Proof.RoundRun

/-! # Property C104: the limit on displacements in rounded arithmetic -/

namespace Slsm

open FP Rounding

namespace Optimise

/-- The objects that a program can hold: made by the constructor, used for solving, or with the data it shares with the caller (points, multipliers,
time step) replaced. -/
inductive Held {D : Type} [FP D] : Optimise D → Prop where
  | made {pts distances lambdas dt limit isMax equality s} (h : Optimise.new pts distances lambdas dt limit isMax equality = .ok s) : Held s
  | solved {nlopt fuel s r} (h : Held s) (e : solve nlopt fuel s = .ok r) : Held r.1
  | changed {s} (h : Held s) (pts : List (BoundaryPoint D)) (lambdas : List D) (dt : D) :
      Held { s with points := pts, lambdas := lambdas, timeStep := dt }

theorem Held.le {D : Type} [FP D] {s : Optimise D} (h : Held s) : s.nConstraints ≤ s.nConstraintsInitial := by
  induction h with
  | made h => exact (new_counts h).le
  | solved h e ih =>
    obtain ⟨t, o, e1, -, -, -, k4, k5, -⟩ := solve_keep e
    obtain ⟨g1, g2, -⟩ := finish_keep e1
    omega
  | changed h pts l dt ih => exact ih

end Optimise

section
variable {R : Rounding} {s s' : Optimise R.Num} {nlopt : Optimise R.Num → NLoptRun R.Num} {fuel i : Nat} {obj : R.Num} {p q : BoundaryPoint R.Num}

/-- Displacement that the multipliers predict for a point by its sensitivities, calculated exactly, with the cut-off at the edge of the domain. -/
noncomputable def predicted (lambda : List R.Num) (p : BoundaryPoint R.Num) : ℝ :=
  let d := ((lambda.zip p.sensitivities).map fun x => x.1.val * x.2.val).sum
  if p.isDomain then Max.max d p.negativeLimit.val else d

/-- Size of its terms. -/
noncomputable def terms (lambda : List R.Num) (p : BoundaryPoint R.Num) : ℝ := ((lambda.zip p.sensitivities).map fun x => |x.1.val * x.2.val|).sum

/-- No number in the calculation is astronomically large, and the limit on displacements is not tiny. -/
structure Moderate (nlopt : Optimise R.Num → NLoptRun R.Num) (s s' : Optimise R.Num) : Prop where
  answers : ∀ t j, |((nlopt t).lambdas j).val| ≤ 2 ^ 60
  sensitivities : ∀ p ∈ s.points, ∀ c ∈ p.sensitivities, |c.val| ≤ 2 ^ 60
  limits : ∀ p ∈ s.points, |p.negativeLimit.val| ≤ 2 ^ 60
  factors : ∀ f ∈ s'.scaleFactors, |f.val| ≤ 2 ^ 60
  limit : 1 / 2 ^ 100 ≤ s.maxDisplacement.val

theorem at_bound {l : List R.Num} {b : ℝ} (hb : 0 ≤ b) (h : ∀ c ∈ l, |c.val| ≤ b) (j : Nat) : |Optimise.at' l j| ≤ b := by
  rw [Optimise.at', List.getD]
  cases e : l[j]? with
  | none =>
    show |(nat 0 : R.Num).val| ≤ b
    rw [val_zero, abs_zero]
    exact hb
  | some x => exact h x (List.mem_of_getElem? e)

/-- All at once. -/
theorem solve_rounded (h : Optimise.Held s) (e : Optimise.solve nlopt fuel s = .ok (s', obj)) (M : Moderate nlopt s s') (hp : s.points[i]? = some p)
    (hq : s'.points[i]? = some q) (hf : p.isFixed = false) (hd : p.isDomain = true → |p.negativeLimit.val| ≤ s.maxDisplacement.val)
    (ht : s'.timeStep.val ≠ 0) :
    |q.velocity.val * s'.timeStep.val| ≤ s.maxDisplacement.val * (1 + 1 / 2 ^ 50) + terms s'.lambdas p / 2 ^ 43 ∧
    |q.velocity.val * s'.timeStep.val - predicted s'.lambdas p| ≤ s.maxDisplacement.val / 2 ^ 51 + terms s'.lambdas p / 2 ^ 43 ∧
    (s'.nConstraints = 0 → |q.velocity.val * s'.timeStep.val| ≤ s.maxDisplacement.val * (1 + 1 / 2 ^ 47)) := by
  obtain ⟨t, o, e1, k1, k2, k3, k4, k5, k6, k7, k8, k9⟩ := Optimise.solve_keep e
  have ho : o ≠ none := by
    rintro rfl
    exact any_ok Optimise.finish_none e1
  obtain ⟨t', hl⟩ := k9 ho
  obtain ⟨g1, g2, g3⟩ := Optimise.finish_keep e1
  dsimp only at g1 g2 g3
  have S : Optimise.Sized t := by
    refine ⟨at_bound (by positivity) (by rw [← g3]; exact M.factors), ?_, ?_, k6⟩
    · rw [k1]
      exact fun p hp => at_bound (by positivity) (M.sensitivities p hp)
    · rw [k1]
      exact M.limits
  have hll : t.lambdas.length = t.nConstraints + 1 := by rw [hl]; simp
  have hlb : ∀ j, |Optimise.at' t.lambdas j| ≤ 2 ^ 60 := at_bound (by positivity) (by
    rw [hl]
    intro c hc
    obtain ⟨j, -, rfl⟩ := List.mem_map.1 hc
    exact M.answers _ _)
  have hM : 0 < t.maxDisplacement.val := by
    rw [k3]
    exact lt_of_lt_of_le (by positivity) M.limit
  obtain ⟨l, E⟩ := any_ok (Optimise.finish_near S hlb hll hM (k2.trans (by rw [k1])) k7) e1
  dsimp only at E
  have hpt : t.points[i]? = some p := by rw [k1]; exact hp
  obtain ⟨d, x, e2, C⟩ := E.pts i p hpt hf (by rw [k3]; exact hd)
  rw [e2] at hq
  cases hq
  have hi : t.nConstraints = 0 ∨ t.indexMap = List.range (t.nConstraints + 1) := by
    refine E.all.imp_right fun h1 => ?_
    have := h.le
    rw [k8 (by omega)]
    congr 2
    omega
  have key := Optimise.outcome_near S (List.mem_of_getElem? hpt) hi E (by rw [k3]; exact M.limit) ht C (by rw [k3]; exact hd)
  have hw : Optimise.weight t s'.lambdas p = terms s'.lambdas p :=
    (Optimise.zip_val_sum (fun x y => |x * y|) (by simp) (by simp) _ _ _ fun j hj => E.tail j (by omega)).symm
  have hfc : Optimise.forecast t s'.lambdas p = ((s'.lambdas.zip p.sensitivities).map fun x => x.1.val * x.2.val).sum :=
    (Optimise.zip_val_sum (fun x y => x * y) (by simp) (by simp) _ _ _ fun j hj => E.tail j (by omega)).symm
  rw [hw, hfc, k3] at key
  exact ⟨key.1, key.2.1, fun hz => key.2.2 (by omega)⟩

/-- **C104** (limit): in rounded arithmetic, whatever the solver answered and however often the object has been used, after `solve` no movable point moves
by more than the limit given to the constructor, up to rounding of the limit and of the contributions of the multipliers.  The condition on points on the
edge of the domain is that of `C46_cfl_partial`; without it the claim is false (`C46_fails`). -/
theorem C104_limit (h : Optimise.Held s) (e : Optimise.solve nlopt fuel s = .ok (s', obj)) (M : Moderate nlopt s s') (hp : s.points[i]? = some p)
    (hq : s'.points[i]? = some q) (hf : p.isFixed = false) (hd : p.isDomain = true → |p.negativeLimit.val| ≤ s.maxDisplacement.val)
    (ht : s'.timeStep.val ≠ 0) :
    |q.velocity.val * s'.timeStep.val| ≤ s.maxDisplacement.val * (1 + 1 / 2 ^ 50) + terms s'.lambdas p / 2 ^ 43 :=
  (solve_rounded h e M hp hq hf hd ht).1

/-- **C104** (without constraints): if there are no constraints, or all have been dropped, the limit is exceeded by rounding of the limit only. -/
theorem C104_unconstrained (h : Optimise.Held s) (e : Optimise.solve nlopt fuel s = .ok (s', obj)) (M : Moderate nlopt s s') (hp : s.points[i]? = some p)
    (hq : s'.points[i]? = some q) (hf : p.isFixed = false) (hd : p.isDomain = true → |p.negativeLimit.val| ≤ s.maxDisplacement.val)
    (ht : s'.timeStep.val ≠ 0) (hn : s'.nConstraints = 0) :
    |q.velocity.val * s'.timeStep.val| ≤ s.maxDisplacement.val * (1 + 1 / 2 ^ 47) :=
  (solve_rounded h e M hp hq hf hd ht).2.2 hn

/-- **C104** (consistency): the velocities that `solve` stores, the time step and the multipliers that it reports belong together: velocity times time step
is the displacement that the multipliers predict, up to rounding. -/
theorem C104_consistent (h : Optimise.Held s) (e : Optimise.solve nlopt fuel s = .ok (s', obj)) (M : Moderate nlopt s s') (hp : s.points[i]? = some p)
    (hq : s'.points[i]? = some q) (hf : p.isFixed = false) (hd : p.isDomain = true → |p.negativeLimit.val| ≤ s.maxDisplacement.val)
    (ht : s'.timeStep.val ≠ 0) :
    |q.velocity.val * s'.timeStep.val - predicted s'.lambdas p| ≤ s.maxDisplacement.val / 2 ^ 51 + terms s'.lambdas p / 2 ^ 43 :=
  (solve_rounded h e M hp hq hf hd ht).2.1

/-- A call to which all three theorems apply, in every rounding: one point, no constraint, limit one half, a solver that asks for a displacement of one.  The
displacement is scaled down to the limit. -/
example (R : Rounding) : ∃ (nlopt : Optimise R.Num → NLoptRun R.Num) (s s' : Optimise R.Num) (obj : R.Num) (p q : BoundaryPoint R.Num), Optimise.Held s ∧
    Optimise.solve nlopt 1 s = .ok (s', obj) ∧ Moderate nlopt s s' ∧ s.points[0]? = some p ∧ s'.points[0]? = some q ∧ p.isFixed = false ∧
    (p.isDomain = true → |p.negativeLimit.val| ≤ s.maxDisplacement.val) ∧ s'.timeStep.val ≠ 0 ∧ s'.nConstraints = 0 ∧
    q.velocity.val * s'.timeStep.val = s.maxDisplacement.val ∧ terms s'.lambdas p = 1 / 2 ∧ ∀ t, (nlopt t).lambdas 0 = nat 1 := by
  refine ⟨RoundRun.yes R, RoundRun.start R, _, _, _, _, .made RoundRun.start_new, RoundRun.ran, ⟨?_, ?_, ?_, ?_, ?_⟩, rfl, rfl, rfl, ?_, ?_, rfl, ?_, ?_, fun _ => rfl⟩
  · intro t j
    show |(nat 1 : R.Num).val| ≤ _
    rw [val_one]; norm_num
  · intro p hp c hc
    obtain rfl := List.mem_singleton.1 hp
    obtain rfl := List.mem_singleton.1 hc
    rw [val_one]; norm_num
  · intro p hp
    obtain rfl := List.mem_singleton.1 hp
    show |(nat 0 : R.Num).val| ≤ _
    rw [val_zero]; norm_num
  · intro c hc
    obtain rfl := List.mem_singleton.1 hc
    rw [val_one]; norm_num
  · show _ ≤ (RoundRun.hf R).val
    rw [RoundRun.hf_val]; norm_num
  · intro h; cases h
  · show (RoundRun.hf R).val ≠ 0
    rw [RoundRun.hf_val]; norm_num
  · show (nat 1 : R.Num).val * (RoundRun.hf R).val = (RoundRun.hf R).val
    rw [val_one, one_mul]
  · show ([|(RoundRun.hf R).val * (nat 1 : R.Num).val|] : List ℝ).sum = 1 / 2
    rw [RoundRun.hf_val, val_one]; norm_num

end

end Slsm
