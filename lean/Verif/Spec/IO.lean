import Verif.Model.IO
import Mathlib.Data.Real.Archimedean
import Mathlib.Data.Nat.Find

/-! # Files: what is assumed of the numbers, and two kinds of numbers for which it holds -/

namespace Slsm.IO

open Slsm

/-- The decimal number `± m * 10 ^ e`. -/
noncomputable def decimalValue (s : Bool) (m : Nat) (e : Int) : ℝ := (if s then -1 else 1) * (m * (10 : ℝ) ^ e)

/-- The text formats treat numbers of the type `D` correctly; `val x` is the value of `x`, `none` for infinities and NaN.
Printing rounds to a nearest millionth, reading rounds to a nearest number of the type. -/
structure Faithful {D : Type} [Txt D] (val : D → Option ℝ) : Prop where
  print : ∀ x v, val x = some v → ∃ n, Txt.micro x = some n ∧ |(n : ℝ) - |v| * 1000000| ≤ 1 / 2 ∧ (if Txt.sign x then v ≤ 0 else 0 ≤ v)
  word : ∀ x, val x = none → Txt.micro x = none ∧ (Txt.word x = "inf".toList ∨ Txt.word x = "nan".toList)
  read : ∀ s m e y, Txt.decimal (D := D) s m e = some y →
    ∃ u, val y = some u ∧ ∀ x v, val x = some v → |u - decimalValue s m e| ≤ |v - decimalValue s m e|
  range : ∀ s m e x v, val x = some v → |decimalValue s m e| ≤ |v| + 1 → ∃ y, Txt.decimal (D := D) s m e = some y

/-- A number occupies eight bytes from which it can be recovered. -/
class LawfulRaw (D : Type) [Raw D] : Prop where
  length : ∀ x : D, (Raw.bytes x).length = 8
  back : ∀ x : D, Raw.ofBytes (Raw.bytes x) = x

/-! ## Real numbers -/

noncomputable instance : Txt ℝ where
  sign x := decide (x < 0)
  micro x := some ⌊|x| * 1000000 + 1 / 2⌋₊
  word _ := []
  decimal s m e := some (decimalValue s m e)
  zero := 0
  huge _ := 0

/-! ## IEEE double precision -/

/-- The bit patterns of IEEE 754 double precision: the sign bit and the other 63 bits. -/
structure Double where
  negative : Bool
  code : Fin (2 ^ 63)
  deriving DecidableEq

namespace Double

/-- Number of the first code that does not stand for a finite number. -/
def top : Nat := 2047 * 2 ^ 52

/-- The magnitude that belongs to a code: `f * 2^-1074` for subnormal numbers, otherwise `(2^52 + f) * 2^(e - 1075)`. -/
def magnitude (c : Nat) : ℚ :=
  if c / 2 ^ 52 = 0 then (c : ℚ) / 2 ^ 1074 else ((2 ^ 52 + c % 2 ^ 52 : Nat) : ℚ) * 2 ^ (c / 2 ^ 52) / 2 ^ 1075

/-- The value of a finite number. -/
noncomputable def val (x : Double) : Option ℝ :=
  if x.code.1 < top then some (((if x.negative then -magnitude x.code.1 else magnitude x.code.1 : ℚ)) : ℝ) else none

/-- Round a rational number to an integer, halves to even. -/
def roundEven (q : ℚ) : Nat :=
  let n := ⌊q⌋₊
  if q - n < 1 / 2 then n else if 1 / 2 < q - n then n + 1 else if n % 2 = 0 then n else n + 1

/-- The largest finite code whose magnitude is not above `q`. -/
def below (q : ℚ) : Nat := Nat.findGreatest (fun c => magnitude c ≤ q) (top - 1)

/-- The code of the number nearest to `q ≥ 0`, halves to even. -/
def nearest (q : ℚ) : Nat :=
  let c := below q
  if q - magnitude c < magnitude (c + 1) - q then c else if magnitude (c + 1) - q < q - magnitude c then c + 1
  else if c % 2 = 0 then c else c + 1

/-- `strtod`: the nearest number, `none` for a result that is not finite. -/
def decimal (s : Bool) (m : Nat) (e : Int) : Option Double :=
  let c := nearest ((m : ℚ) * (10 : ℚ) ^ e)
  if h : c < top then some ⟨s, ⟨c, h.trans (by norm_num [top])⟩⟩ else none

instance : Txt Double where
  sign x := x.negative
  micro x := if x.code.1 < top then some (roundEven (magnitude x.code.1 * 1000000)) else none
  word x := if x.code.1 = top then "inf".toList else "nan".toList
  decimal := decimal
  zero := ⟨false, 0⟩
  huge s := ⟨s, ⟨top - 1, by norm_num [top]⟩⟩

/-- The number made of the bits. -/
def bits (x : Double) : Nat := (if x.negative then 2 ^ 63 else 0) + x.code.1

/-- Little endian, as on every supported platform. -/
instance : Raw Double where
  bytes x := (List.range 8).map fun i => Char.ofNat (x.bits / 256 ^ i % 256)
  ofBytes t :=
    let n := t.foldr (fun c a => c.toNat + 256 * a) 0
    ⟨decide (2 ^ 63 ≤ n), ⟨n % 2 ^ 63, Nat.mod_lt _ (by norm_num)⟩⟩

end Double

end Slsm.IO

namespace Slsm.IO

open Slsm

variable {D : Type}

/-- Every array has an entry for every node (true of every level set made by the constructors, see `complete_reachable`). -/
structure Complete (L : LevelSet D) : Prop where
  nodes : L.mesh.nodes.length = L.mesh.nNodes
  distance : L.signedDistance.length = L.mesh.nNodes
  velocity : L.velocity.length = L.mesh.nNodes
  gradient : L.gradient.length = L.mesh.nNodes
  count : L.mesh.nNodes < 2 ^ 32

/-- The numbers written for node `i`. -/
def record (L : LevelSet D) (isXY : Bool) (i : Nat) : List D :=
  (if isXY then (L.mesh.nodes[i]?.map fun nd => [nd.coord.x, nd.coord.y]).getD [] else []) ++
    (L.signedDistance[i]?.toList ++ (L.velocity[i]?.toList ++ L.gradient[i]?.toList))

/-- All numbers written are finite. -/
def AllFinite (val : D → Option ℝ) (L : LevelSet D) (isXY : Bool) : Prop :=
  ∀ i, i < L.mesh.nNodes → ∀ x ∈ record L isXY i, ∃ v, val x = some v

/-- `y` is what is left of `x` after it was written with six decimals and read again: there is a decimal number `d` within half a millionth of
`x`, and `y` is a number nearest to `d`. -/
def Restored (val : D → Option ℝ) (x y : D) : Prop :=
  ∃ v u d : ℝ, val x = some v ∧ val y = some u ∧ |d - v| ≤ 1 / 2000000 ∧ ∀ z w, val z = some w → |u - d| ≤ |w - d|

/-- The numbers that `while (stream >> x)` delivers. -/
inductive Delivers [Txt D] : Stream → List D → Prop
  | done {s : Stream} (h : (extract (D := D) s).1.fail = true) : Delivers s []
  | more {s t : Stream} {y : D} {ys : List D} (h : extract s = (t, some y)) (hf : t.fail = false) (hs : Delivers t ys) : Delivers s (y :: ys)

end Slsm.IO

namespace Slsm.IO

/-- Number of lines of a text: the line feeds, and one more if there is something after the last of them. -/
def lineCount (t : Text) : Nat := t.count '\n' + (if t.getLast?.getD '\n' = '\n' then 0 else 1)

end Slsm.IO

namespace Slsm.IO

/-- The text after the first `n` lines. -/
def afterLines : Nat → Text → Text
  | 0, t => t
  | n + 1, t => afterLines n ((t.dropWhile fun c => c != '\n').drop 1)

/-- Line `n` (from 0) of a text. -/
def lineAt (n : Nat) (t : Text) : Text := (afterLines n t).takeWhile fun c => c != '\n'

/-- The head of a VTK file for a rectilinear grid of `w × h` cells, in twelve lines. -/
structure GridHead (w h : Nat) (t : Text) : Prop where
  version : lineAt 0 t = "# vtk DataFile Version 3.0".toList
  title : lineAt 1 t = "Para0".toList
  format : lineAt 2 t = "ASCII".toList
  dataset : lineAt 3 t = "DATASET RECTILINEAR_GRID".toList
  dimensions : lineAt 4 t = "DIMENSIONS ".toList ++ dec (w + 1) ++ ' ' :: dec (h + 1) ++ " 1".toList
  columns : lineAt 5 t = "X_COORDINATES ".toList ++ dec (w + 1) ++ " int".toList
  xs : lineAt 6 t = (List.range (w + 1)).flatMap fun i => dec i ++ [' ']
  rows : lineAt 7 t = "Y_COORDINATES ".toList ++ dec (h + 1) ++ " int".toList
  ys : lineAt 8 t = (List.range (h + 1)).flatMap fun i => dec i ++ [' ']
  depth : lineAt 9 t = "Z_COORDINATES 1 int".toList
  zs : lineAt 10 t = "0".toList
  blank : lineAt 11 t = []

/-- From line `k` on, the text has a block of scalars: two lines of head, then the numbers that a reader finds. -/
structure Scalars {D : Type} [Txt D] (val : D → Option ℝ) (name : String) (v : List D) (k : Nat) (t : Text) : Prop where
  head : lineAt k t = "SCALARS ".toList ++ name.toList ++ " float 1".toList
  table : lineAt (k + 1) t = "LOOKUP_TABLE default".toList
  values : ∃ ys, Delivers ⟨afterLines (k + 2) t, false, false⟩ ys ∧ List.Forall₂ (Restored val) v ys

end Slsm.IO
