import Verif.Proof.Weighted
import Verif.Proof.Demo
import Verif.Proof.DemoRun
import Mathlib.MeasureTheory.Measure.Lebesgue.Basic
import Mathlib.Analysis.SpecialFunctions.Exp

/-! Umbrella sampling. -/

namespace Slsm.Program

open LevelSet

variable {ρ : Type} {P : Problem ρ ℝ} {U : Umbrella ρ ℝ} {E : Env ℝ} {w h : Nat}

theorem trajectory_run {s s' : State ρ ℝ} {k k' : Nat} (hs : Running w h P s) (e : trajectory P U E k s = .ok (k', s')) :
    Running w h P s' ∧ U.interval ≤ s'.runningTime := by
  unfold trajectory at e
  obtain ⟨h1, h2⟩ := whileN_ok (fun y : Nat × State ρ ℝ => Running w h P y.2) (fun y y' a1 _ e => by
    obtain ⟨z, e1, e2⟩ := bind_eq_ok e
    cases e2
    exact .step a1 e1) _ _ _ (.annotate (t := FP.nat 0) (g := s.rng) hs (AreasOnly.refl _)) e
  exact ⟨h1, by simpa using h2⟩

/-- The parts of a trial. -/
theorem trial_ok {v v' : Walker ρ ℝ} (e : trial P U E v = .ok v') : ∃ k s x y, trajectory P U E v.count v.state = .ok (k, s) ∧
    centreOfMass U.G s.boundary.points = .ok (x, y) ∧
    (((isAccepted U.exp U.uniform (biasPotential (x - U.width / 2) U.centre U.spring) v.bias U.beta s.rng).1 = true ∧
      v' = { v with state := { s with rng := (isAccepted U.exp U.uniform (biasPotential (x - U.width / 2) U.centre U.spring) v.bias U.beta s.rng).2 },
                    xCentre := x - U.width / 2, bias := biasPotential (x - U.width / 2) U.centre U.spring,
                    signedDistance := s.levelSet.signedDistance, nAccept := v.nAccept + 1, nTrials := v.nTrials + 1,
                    runningTime := v.runningTime + s.runningTime, count := k }) ∨
    ((isAccepted U.exp U.uniform (biasPotential (x - U.width / 2) U.centre U.spring) v.bias U.beta s.rng).1 = false ∧ ∃ L t,
      reinitialise { s.levelSet with signedDistance := v.signedDistance } = .ok L ∧
      refresh P { s with levelSet := L, nReinit := 0,
                         rng := (isAccepted U.exp U.uniform (biasPotential (x - U.width / 2) U.centre U.spring) v.bias U.beta s.rng).2 } = .ok t ∧
      v' = { v with state := t, nTrials := v.nTrials + 1, runningTime := v.runningTime + s.runningTime, count := k })) := by
  unfold trial at e
  obtain ⟨⟨k, s⟩, e1, e⟩ := bind_eq_ok e
  obtain ⟨⟨x, y⟩, e2, e⟩ := bind_eq_ok e
  dsimp only at e e2
  have hx : (x -. FP.lit 1 2 *. U.width : ℝ) = x - U.width / 2 := by
    simp only [FP.sub_real, FP.mul_real, FP.lit_real]
    push_cast
    ring
  rw [hx] at e
  refine ⟨k, s, x, y, e1, e2, ?_⟩
  split at e
  · rename_i ha
    cases e
    exact .inl ⟨ha, rfl⟩
  · rename_i ha
    obtain ⟨L, e3, e⟩ := bind_eq_ok e
    obtain ⟨t, e4, e⟩ := bind_eq_ok e
    cases e
    exact .inr ⟨by simpa using ha, L, t, e3, e4, rfl⟩

theorem bias_real (x c k : ℝ) : biasPotential x c k = 1 / 2 * k * (x - c) ^ 2 := by
  unfold biasPotential
  simp only [FP.sub_real, FP.mul_real, FP.lit_real]
  push_cast
  ring

theorem accepted_real (uniform : ρ → ℝ × ρ) (c p beta : ℝ) (g : ρ) : (isAccepted Real.exp uniform c p beta g).1 = true ↔
    (uniform g).1 < Real.exp (-(beta * (c - p))) := by
  unfold isAccepted
  simp only [FP.lt_real, FP.mul_real, FP.sub_real, FP.neg_real]
  rw [neg_mul]

end Slsm.Program
