/-!
# Outcomes, checked vectors and loops
-/

namespace Slsm

/-- Abnormal outcomes of a call. -/
inductive Err where
  /-- `exit(EXIT_FAILURE)` reached through `slsm_check` (`/repo/src/Debug.h`). -/
  | exit
  /-- undefined behaviour: out-of-range `std::vector` access and the like. -/
  | ub
  /-- the iteration bound given to a `while` loop of the model was used up. -/
  | fuel
  deriving DecidableEq, Repr

/-- Result of a modelled C++ function. -/
abbrev Res (α : Type) := Except Err α

/-- Checked read `v[i]` of a `std::vector`. -/
def rd {α : Type} (v : List α) (i : Nat) : Res α :=
  match v[i]? with
  | some a => .ok a
  | none => .error .ub

/-- Checked write `v[i] = a`. -/
def wr {α : Type} (v : List α) (i : Nat) (a : α) : Res (List α) :=
  if i < v.length then .ok (v.set i a) else .error .ub

/-- Checked in-place modification of `v[i]`. -/
def modAt {α : Type} (v : List α) (i : Nat) (f : α → Res α) : Res (List α) :=
  rd v i >>= fun a => f a >>= fun b => wr v i b

/-- `slsm_check(cond, ...)` followed by `error: exit(EXIT_FAILURE)` (`/repo/src/Debug.h`). -/
def check (c : Bool) : Res Unit := if c then .ok () else .error .exit

/-- `for (i = 0; i < n; i++) s = f(i, s)`. -/
def forN {σ : Type} : Nat → σ → (Nat → σ → Res σ) → Res σ
  | 0, s, _ => .ok s
  | n + 1, s, f => forN n s f >>= f n

/-- `while (c(s)) s = f(s)` with an iteration bound; running out of the bound is reported as `Err.fuel`. -/
def whileN {σ : Type} : Nat → (σ → Bool) → (σ → Res σ) → σ → Res σ
  | 0, c, _, s => if c s then .error .fuel else .ok s
  | n + 1, c, f, s => if c s then f s >>= whileN n c f else .ok s

end Slsm
