import Verif.Spec.Eikonal
import Verif.Spec.Round

/-! # States of the fast marching method, read as real numbers -/

namespace Slsm

variable {R : Rounding}

/-- The state whose numbers are the values of the representable ones: what the method would work on if it calculated exactly. -/
def AS.exact (s : AS R.Num) : AS ℝ := ⟨s.st, fun i => (s.sd i).val, fun i => (s.vel i).val⟩

/-- `T` is the number that the node update should give in state `s`, up to rounding: if the discrete Eikonal equation has two solutions that are not too
close to each other, `T` solves it up to `S²·2⁻³⁸` and is near the larger one inside (`cp`, the original value, above the machine epsilon) and near
the smaller one outside. -/
def Chosen (S : ℝ) (m : Mesh R.Num) (s : AS R.Num) (n : Nat) (cp T : R.Num) : Prop :=
  ∀ T1 T2, eik (m.map Rounding.Num.val) s.exact n T1 = 1 → eik (m.map Rounding.Num.val) s.exact n T2 = 1 → T1 + S / 2 ^ 19 ≤ T2 →
    |eik (m.map Rounding.Num.val) s.exact n T.val - 1| ≤ S ^ 2 / 2 ^ 38 ∧
    (R.rnd (1 / 2 ^ 52) < cp.val → |T.val - T2| ≤ (S + S ^ 2 / (T2 - T1)) / 2 ^ 39) ∧
    (¬ R.rnd (1 / 2 ^ 52) < cp.val → |T.val - T1| ≤ (S + S ^ 2 / (T2 - T1)) / 2 ^ 39)

end Slsm
