import Verif.Spec.Retry
import Verif.Model.OptReport

/-! # Specification vocabulary for the report of the last optimisation -/

namespace Slsm.Optimise

open IO (Text)

/-- The line says that the optimisation succeeded. -/
def SaysSuccess (m : Text) : Prop := "[INFO] Success: ".toList <+: m

/-- The line says that the optimisation failed. -/
def SaysFailure (m : Text) : Prop := "[INFO] Failed: ".toList <+: m

/-- The line says that there was no optimisation. -/
def SaysNothingDone (m : Text) : Prop := m = "[INFO] No optimisation has been performed.\n".toList

/-- A line: one line break, at its end. -/
def IsLine (m : Text) : Prop := ∃ l, m = l ++ ['\n'] ∧ '\n' ∉ l

/-- The words of the manual of the solver (`nlopt_result`) that identify a code. -/
inductive Names : Int → String → Prop where
  | generic : Names 1 "Generic success"
  | stopval : Names 2 "stopval"
  | ftol : Names 3 "ftol"
  | xtol : Names 4 "xtol"
  | maxeval : Names 5 "maxeval"
  | maxtime : Names 6 "maxtime"
  | failure : Names (-1) "Generic failure"
  | invalid : Names (-2) "Invalid arguments"
  | memory : Names (-3) "memory"
  | roundoff : Names (-4) "roundoff"
  | forced : Names (-5) "forced"

/-- The solver ended with a failure in the call that `solve` makes from the state `s`. -/
def FailsFrom (nlopt : Optimise ℝ → NLoptRun ℝ) (fuel : Nat) (s : Optimise ℝ) : Prop :=
  ∀ t, prepare fuel s = .ok t → (nlopt t).result = .roundoff ∨ (nlopt t).result = .invalid

/-- The solver ended with the code `c` in the call that `solve` makes from the state `s`. -/
def EndsWith (nlopt : Optimise ℝ → NLoptRun ℝ) (fuel : Nat) (s : Optimise ℝ) (c : Nat) : Prop :=
  ∀ t, prepare fuel s = .ok t → (nlopt t).result = .code c

end Slsm.Optimise
