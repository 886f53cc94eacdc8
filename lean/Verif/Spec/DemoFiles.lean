import Verif.Model.DemoFiles
import Verif.Spec.IO

/-! # What a program finds in a file of numbers -/

namespace Slsm.Program

open Slsm Slsm.IO

variable {D : Type}

/-- Extraction from the stream until it fails delivers `ys`; the failing extraction stores `last` (nothing at the end of the file, the value given by the
standard for text that is not a number). -/
inductive Yields [Txt D] : Stream → List D → Option D → Prop
  | done {s t : Stream} {x : Option D} (h : extract s = (t, x)) (hf : t.fail = true) : Yields s [] x
  | more {s t : Stream} {y : D} {ys : List D} {x : Option D} (h : extract s = (t, some y)) (hf : t.fail = false) (hs : Yields t ys x) : Yields s (y :: ys) x

/-- The points given by a list of numbers: two numbers each, an odd number at the end is left out. -/
def pairs : List D → List (Coord D)
  | x :: y :: r => ⟨x, y⟩ :: pairs r
  | _ => []

end Slsm.Program
