import Verif.Spec.Optimise

/-! # Specification vocabulary for failures of the solver -/

namespace Slsm.Optimise

/-- A solver that always fails: round-off errors (`nlopt::roundoff_limited`) or invalid arguments. -/
def Fails (nlopt : Optimise ℝ → NLoptRun ℝ) : Prop := ∀ t, (nlopt t).result = .roundoff ∨ (nlopt t).result = .invalid

/-- The same solver, reporting success. -/
def reported (nlopt : Optimise ℝ → NLoptRun ℝ) (t : Optimise ℝ) : NLoptRun ℝ := { nlopt t with result := .code 1 }

end Slsm.Optimise
