import Verif.Proof.RoundOpt

/-! # A call of `solve` in rounded arithmetic, calculated -/

namespace Slsm.RoundRun

open FP Rounding

variable {R : Rounding}

theorem mul_exact {a b c : R.Num} (h : a.val * b.val = c.val) : a *. b = c := num_ext (by rw [val_mul, h, c.fix])
theorem div_exact {a b c : R.Num} (h : a.val / b.val = c.val) : a /. b = c := num_ext (by rw [val_div, h, c.fix])
theorem add_exact {a b c : R.Num} (h : a.val + b.val = c.val) : a +. b = c := num_ext (by rw [val_add, h, c.fix])

/-- One half. -/
noncomputable def hf (R : Rounding) : R.Num := nat 1 /. nat 2

theorem hf_val : (hf R).val = 1 / 2 := by
  show R.rnd ((nat 1 : R.Num).val / (nat 2 : R.Num).val) = _
  rw [val_one, val_nat (by norm_num)]
  have := R.half 1 (by norm_num)
  push_cast at this ⊢
  exact this

/-- A point with one sensitivity. -/
noncomputable def spot (R : Rounding) (v : R.Num) : BoundaryPoint R.Num where
  coord := ⟨nat 0, nat 0⟩
  normal := ⟨nat 1, nat 0⟩
  length := nat 1
  velocity := v
  negativeLimit := nat 0
  positiveLimit := nat 0
  isDomain := false
  isFixed := false
  nSegments := 0
  segments := []
  nNeighbours := 0
  neighbours := []
  sensitivities := [nat 1]

/-- A solver that answers one. -/
noncomputable def yes (R : Rounding) (_ : Optimise R.Num) : NLoptRun R.Num := ⟨[], fun _ => nat 1, nat 0, .code 1⟩

/-- The object that the constructor makes for it. -/
noncomputable def start (R : Rounding) : Optimise R.Num := {
    nPoints := 0, nConstraints := 0, nConstraintsInitial := 0, points := [spot R (nat 0)], constraintDistances := [],
    lambdas := [nat 0], timeStep := nat 0, maxDisplacement := hf R, isMax := false,
    isEquality := [],
    indexMap := [], displacements := [], negativeLambdaLimits := [nat 0],
    positiveLambdaLimits := [nat 0], scaleFactors := [nat 0],
    constraintDistancesScaled := [], gradients := [], returnCode := none }

theorem start_new : Optimise.new [spot R (nat 0)] [] [nat 0] (nat 0) (hf R) false [] = .ok (start R) := by
  have h1 : (nat 0 <. hf R) = true := by rw [lt_iff, val_zero, hf_val]; norm_num
  have h2 : (hf R <. nat 1) = true := by rw [lt_iff, val_one, hf_val]; norm_num
  have h3 : LevelSet.sub32 [(nat 0 : R.Num)].length 1 = 0 := by
    simp [LevelSet.sub32, u32]
  unfold Optimise.new
  rw [h1, h2, h3]
  rfl

theorem prep : Optimise.prepare 1 (start R) = .ok { start R with
    nPoints := 1, displacements := [nat 0], indexMap := [0], negativeLambdaLimits := [neg (hf R)], positiveLambdaLimits := [hf R], scaleFactors := [nat 1],
    gradients := [[nat 1]] } := by
  have e1 : (abs (nat 1 : R.Num)) = nat 1 := num_ext (by simp)
  have e2 : (nat 1 /. nat 1 : R.Num) = nat 1 := div_exact (by simp)
  have e3 : (nat 1 *. nat 1 : R.Num) = nat 1 := mul_exact (by simp)
  have e4 : (nat 0 +. nat 1 : R.Num) = nat 1 := add_exact (by simp)
  have e5 : (nat 0 /. nat 1 : R.Num) = nat 0 := div_exact (by simp)
  have e6 : (neg (hf R) /. nat 1 : R.Num) = neg (hf R) := div_exact (by simp)
  have e7 : (hf R /. nat 1 : R.Num) = hf R := div_exact (by simp)
  have c1 : ((nat 0 : R.Num) <. nat 1) = true := by simp
  have c2 : (lit 1 (2 ^ 1022) <. (nat 1 : R.Num)) = true := by
    have h2 : (2 : ℝ) ≤ (nat (2 ^ 1022) : R.Num).val := by
      rw [val_nat_rnd]
      have : ((2 : ℕ) : ℝ) ≤ ((2 ^ 1022 : ℕ) : ℝ) := by
        rw [Nat.cast_le]
        exact Nat.le_self_pow (by norm_num) 2
      have := nat_le_rnd (R := R) (n := 2) (by norm_num) this
      exact_mod_cast this
    have h3 : R.rnd ((nat 1 : R.Num).val / (nat (2 ^ 1022) : R.Num).val) ≤ (hf R).val := by
      refine rnd_le (hf R) ?_
      rw [val_one, hf_val]
      gcongr
    rw [lt_iff, val_one]
    show R.rnd ((nat 1 : R.Num).val / (nat (2 ^ 1022) : R.Num).val) < 1
    rw [hf_val] at h3
    linarith
  have c3 : ((nat 0 : R.Num) <. neg (hf R)) = false := by rw [lt_false, val_zero, val_neg, hf_val]; norm_num
  have c4 : (hf R <. nat 0) = false := by rw [lt_false, val_zero, hf_val]; norm_num
  generalize hq : (lit 1 (2 ^ 1022) : R.Num) = tiny at c2
  have g : ∀ f : R.Num, Optimise.computeGradients { start R with nPoints := 1, displacements := [nat 0], indexMap := [0], scaleFactors := [nat 1] } [f] 0 = .ok [nat 1] := by
    intro f
    simp [Optimise.computeGradients, start, spot, forN, rd, wr, modAt, e3, e4, Bind.bind, Except.bind, pure, Except.pure]
  have f : Optimise.computeScaleFactors { start R with nPoints := 1, displacements := [nat 0], indexMap := [0] } = .ok [nat 1] := by
    simp [Optimise.computeScaleFactors, Optimise.maxSensitivity, Optimise.computeGradients, start, spot, forN, rd, wr, modAt, e1, e2, e3, e4, c1, Bind.bind, Except.bind, pure, Except.pure]
  have l : Optimise.computeLambdaLimits 1 { start R with nPoints := 1, displacements := [nat 0], indexMap := [0], scaleFactors := [nat 1] } =
      .ok { start R with nPoints := 1, displacements := [nat 0], indexMap := [0], scaleFactors := [nat 1], negativeLambdaLimits := [neg (hf R)], positiveLambdaLimits := [hf R] } := by
    unfold Optimise.computeLambdaLimits
    rw [hq]
    simp [-lt_iff, -lt_false, Optimise.maxSensitivity, Optimise.shrink, whileN, start, spot, forN, rd, wr, e1, e6, e7, c2, c3, c4, Bind.bind, Except.bind, pure, Except.pure]
  unfold Optimise.prepare Optimise.reduce
  have f' : Optimise.computeScaleFactors { start R with
      nPoints := (start R).points.length
      displacements := Optimise.resize (start R).displacements (start R).points.length (nat 0)
      indexMap := List.range ((start R).nConstraints + 1) } = .ok [nat 1] := f
  have m : forN 1 [nat 0] (fun i l => do
      let f ← rd [(nat 1 : R.Num)] i
      modAt l i fun x => pure (x /. f)) = .ok [nat 0] := by
    simp [forN, rd, wr, modAt, e5, Bind.bind, Except.bind, pure, Except.pure]
  have m' : forN ((start R).nConstraints + 1) (start R).lambdas (fun i l => do
      let f ← rd [(nat 1 : R.Num)] i
      modAt l i fun x => pure (x /. f)) = .ok [nat 0] := m
  dsimp only
  rw [f']
  simp only [Bind.bind, Except.bind] at m' ⊢
  rw [m']
  dsimp only
  have l' : Optimise.computeLambdaLimits 1 { start R with
      nPoints := (start R).points.length
      displacements := Optimise.resize (start R).displacements (start R).points.length (nat 0)
      indexMap := List.range ((start R).nConstraints + 1)
      scaleFactors := [nat 1]
      lambdas := [nat 0] } = _ := l
  rw [l']
  simp only [start, lt_irrefl, if_false, pure, Except.pure]
  simp [Optimise.resize, Optimise.computeGradients, start, spot, forN, rd, wr, modAt, e1, e2, e3, e4, Bind.bind, Except.bind, pure, Except.pure]

theorem ran : Optimise.solve (yes R) 1 (start R) = .ok ({ start R with
    nPoints := 1, displacements := [hf R], indexMap := [0], negativeLambdaLimits := [neg (hf R)], positiveLambdaLimits := [hf R], scaleFactors := [nat 1],
    gradients := [[nat 1]], lambdas := [hf R], timeStep := hf R, points := [spot R (nat 1)], returnCode := some 1 }, nat 0) := by
  have e1 : (abs (nat 1 : R.Num)) = nat 1 := num_ext (by simp)
  have e3 : (nat 1 *. nat 1 : R.Num) = nat 1 := mul_exact (by simp)
  have e5 : (nat 0 /. nat 1 : R.Num) = nat 0 := div_exact (by simp)
  have e6 : (nat 1 *. hf R : R.Num) = hf R := mul_exact (by simp)
  have e7 : (hf R /. nat 1 : R.Num) = hf R := div_exact (by simp)
  have e8 : (hf R *. nat 1 : R.Num) = hf R := mul_exact (by simp)
  have e9 : (hf R /. hf R : R.Num) = nat 1 := div_exact (by rw [hf_val]; simp)
  have e10 : (nat 0 *. hf R : R.Num) = nat 0 := mul_exact (by simp)
  have e11 : abs (hf R) = hf R := num_ext (by rw [val_abs, hf_val]; norm_num)
  have c1 : ((nat 0 : R.Num) <. nat 1) = true := by simp
  have c2 : (hf R <. (nat 1 : R.Num)) = true := by rw [lt_iff, val_one, hf_val]; norm_num
  have c3 : ((nat 1 : R.Num) =. nat 0) = false := by
    rw [Bool.eq_false_iff, ne_eq, eq_iff]
    simp
  unfold Optimise.solve
  rw [prep]
  simp [-lt_iff, -lt_false, -eq_iff, Optimise.attempts, Optimise.attempt, Optimise.finish, Optimise.rescaleDisplacements, Optimise.computeDisplacements, Optimise.displacement,
    yes, start, spot, forN, rd, wr, modAt, e1, e3, e5, e6, e7, e8, e9, e10, e11, c1, c2, c3, Bind.bind, Except.bind, pure, Except.pure]

end Slsm.RoundRun
