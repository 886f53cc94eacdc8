import Verif.Model.Optimise
import Verif.Model.IO

/-! # The report of the last optimisation (`/repo/src/Optimise.cpp`) -/

namespace Slsm.Optimise

open IO (Text)

variable {D : Type}

/-- The text for a return code (`/repo/src/Optimise.cpp:785-800`). -/
def report (c : Int) : Text :=
  (if c = 1 then "[INFO] Success: Generic success return value.\n"
  else if c = 2 then "[INFO] Success: stopval was reached.\n"
  else if c = 3 then "[INFO] Success: ftol_rel or ftol_abs was reached.\n"
  else if c = 4 then "[INFO] Success: xtol_rel or xtol_abs was reached.\n"
  else if c = 5 then "[INFO] Success: maxeval was reached.\n"
  else if c = 6 then "[INFO] Success: maxtime was reached.\n"
  else if c = -1 then "[INFO] Failed: Generic failure code.\n"
  else if c = -2 then "[INFO] Failed: Invalid arguments.\n"
  else if c = -3 then "[INFO] Failed: Ran out of memory.\n"
  else if c = -4 then "[INFO] Failed: Halted because roundoff errors limited progress.\n"
  else if c = -5 then "[INFO] Failed: Halted because of a forced termination.\n"
  else "[INFO] No optimisation has been performed.\n").toList

/-- `queryReturnCode` (`/repo/src/Optimise.cpp:774-801`): what it writes to the standard output.  `returnCode` (`/repo/src/Optimise.h:230`) has no
initial value: reading it before it is set is undefined. -/
def queryReturnCode (s : Optimise D) : Res Text :=
  match s.returnCode with
  | none => .error .ub
  | some c => pure (report c)

end Slsm.Optimise
