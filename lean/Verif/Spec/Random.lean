import Verif.Model.Random

/-! # Programs that draw random numbers -/

namespace Slsm.Random

open FP

/-- The calls a program can make. -/
inductive Call (D : Type) where
  | uniform
  | integer (min max : Int)
  | normal
  | normalWith (mean stdDev : D)
  | getSeed
  | setSeed (s : Nat)

/-- What a call delivers. -/
inductive Answer (D : Type) where
  | real (x : D)
  | int (n : Int)
  | seed (n : Nat)
  | none

variable {G D : Type} [FP D] (lib : Library G D)

/-- One call. -/
def call (c : Call D) (t : Twister G D) : Answer D × Twister G D :=
  match c with
  | .uniform => let r := uniform lib t; (.real r.1, r.2)
  | .integer a b => let r := integer lib a b t; (.int r.1, r.2)
  | .normal => let r := normal lib t; (.real r.1, r.2)
  | .normalWith m s => let r := normalWith lib m s t; (.real r.1, r.2)
  | .getSeed => (.seed (getSeed t), t)
  | .setSeed s => (.none, setSeed lib s t)

/-- The state after calls. -/
def after : List (Call D) → Twister G D → Twister G D
  | [], t => t
  | c :: cs, t => after cs (call lib c t).2

/-- The answers to calls. -/
def answers : List (Call D) → Twister G D → List (Answer D)
  | [], _ => []
  | c :: cs, t => (call lib c t).1 :: answers cs (call lib c t).2

/-- The generators of programs: made by the constructor, then used. -/
def Reached (t : Twister G D) : Prop := ∃ device cs, t = after lib cs (new lib device)

/-- Number of calls of `normal()`. -/
def normals (cs : List (Call D)) : Nat := cs.countP fun c => match c with | .normal => true | _ => false

end Slsm.Random
