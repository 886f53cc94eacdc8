import Verif.Model.Boundary

/-!
# Files (`/repo/src/InputOutput.cpp`)

A byte is represented by the character with the same code.  `printf`, `std::ostream` and `std::istream` belong to the C and C++ libraries;
what they do with the formats used by the code is modelled here after glibc and libstdc++ in the "C" locale.
-/

namespace Slsm

/-- What the text formats need to know about a `double`: the parts of glibc's `%lf` and `strtod` that depend on the representation of
numbers. -/
class Txt (D : Type) where
  /-- the sign bit -/
  sign : D → Bool
  /-- the magnitude in millionths, rounded to an integer as by `%lf`; `none` for infinities and NaN -/
  micro : D → Option Nat
  /-- the word written for an infinity or NaN -/
  word : D → List Char
  /-- the number nearest to `± m * 10 ^ e`, `none` if it is too large -/
  decimal : Bool → Nat → Int → Option D
  /-- `0.0` -/
  zero : D
  /-- `± std::numeric_limits<double>::max()` -/
  huge : Bool → D

/-- The bytes of a `double` in memory. -/
class Raw (D : Type) where
  bytes : D → List Char
  ofBytes : List Char → D

namespace IO

abbrev Text := List Char

/-- The file system: content of the files that can be opened for reading, and the names that can be opened for writing.  Different names
are different files; a file that was written can be read. -/
structure FileSystem where
  files : Text → Option Text
  writable : Text → Bool

namespace FileSystem

/-- Replace the content of a file. -/
def put (F : FileSystem) (name content : Text) : FileSystem :=
  { F with files := fun n => if n = name then some content else F.files n }

/-- `fopen(name, "w")`, the check (e.g. `/repo/src/InputOutput.cpp:128-131`), output of `content`, `fclose`.  The content is computed
before the file is opened; a full disk is not modelled. -/
def save (F : FileSystem) (name : Text) (content : Res Text) : Res FileSystem := do
  check (F.writable name)
  let c ← content
  pure (F.put name c)

end FileSystem

/-! ## Numbers as text -/

/-- The character of a decimal digit. -/
def digit (d : Nat) : Char := Char.ofNat (48 + d)

/-- Decimal notation. -/
def dec (n : Nat) : Text := if n < 10 then [digit n] else dec (n / 10) ++ [digit (n % 10)]
termination_by n
decreasing_by omega

/-- Decimal notation, filled up with zeros on the left to the given width. -/
def pad (width n : Nat) : Text := List.replicate (width - (dec n).length) '0' ++ dec n

/-- `%d` for an `unsigned int` (converted to `int` as on every supported platform). -/
def fmtInt (n : Nat) : Text := if n < 2147483648 then dec n else '-' :: dec (4294967296 - n)

section Format

variable {D : Type} [Txt D]

/-- `%lf`. -/
def fmt (x : D) : Text :=
  (if Txt.sign x then ['-'] else []) ++
    match Txt.micro x with
    | some n => dec (n / 1000000) ++ '.' :: pad 6 (n % 1000000)
    | none => Txt.word x

end Format

/-! ## File names -/

/-- What a file contains: stem and extension of its name. -/
inductive Kind where
  | levelSetVTK | levelSetTXT | levelSetBIN | points | segments | areaVTK | areaTXT
  deriving DecidableEq

/-- Stem of the file name (`/repo/src/InputOutput.cpp:46`, `118`, `160`, `194`, `260`, `296`, `335`, `394`, `447`). -/
def Kind.stem : Kind → Text
  | .levelSetVTK | .levelSetTXT | .levelSetBIN => "level-set_".toList
  | .points => "boundary-points_".toList
  | .segments => "boundary-segments_".toList
  | .areaVTK | .areaTXT => "area_".toList

/-- Extension of the file name (same lines). -/
def Kind.extension : Kind → Text
  | .levelSetVTK | .areaVTK => ".vtk".toList
  | .levelSetTXT | .points | .segments | .areaTXT => ".txt".toList
  | .levelSetBIN => ".bin".toList

/-- The file name made from a data point and a directory (`/repo/src/InputOutput.cpp:37-46` and the same lines of the other functions). -/
def fileName (k : Kind) (datapoint : Nat) (directory : Text) : Text :=
  (if directory = [] then [] else directory ++ ['/']) ++ (k.stem ++ (pad 4 datapoint ++ k.extension))

/-! ## Writing -/

section Save

variable {D : Type} [Txt D]

/-- One line of text for every `i < n`. -/
def lines (n : Nat) (f : Nat → Res Text) : Res Text :=
  forN n [] fun i s => do
    let t ← f i
    pure (s ++ t)

/-- Header of the VTK files (`/repo/src/InputOutput.cpp:62-71`, `409-418`). -/
def vtkHeader (width height : Nat) : Text :=
  "# vtk DataFile Version 3.0\n".toList ++ "Para0\n".toList ++ "ASCII\n".toList ++ "DATASET RECTILINEAR_GRID\n".toList ++
  ("DIMENSIONS ".toList ++ fmtInt (u32 (1 + width)) ++ ' ' :: fmtInt (u32 (1 + height)) ++ " 1\n".toList) ++
  ("X_COORDINATES ".toList ++ fmtInt (u32 (1 + width)) ++ " int\n".toList) ++
  (List.range (width + 1)).flatMap (fun i => fmtInt i ++ [' ']) ++
  ("\nY_COORDINATES ".toList ++ fmtInt (u32 (1 + height)) ++ " int\n".toList) ++
  (List.range (height + 1)).flatMap (fun i => fmtInt i ++ [' ']) ++
  "\nZ_COORDINATES 1 int\n0\n\n".toList

/-- A block of scalars (`/repo/src/InputOutput.cpp:75-78`, `83-86`, `92-95`). -/
def vtkScalars (name : Text) (n : Nat) (v : List D) : Res Text := do
  let body ← lines n fun i => do
    let x ← rd v i
    pure (fmt x ++ ['\n'])
  pure ("SCALARS ".toList ++ name ++ " float 1\n".toList ++ "LOOKUP_TABLE default\n".toList ++ body)

/-- Content written by `saveLevelSetVTK(fileName, ...)` (`/repo/src/InputOutput.cpp:61-96`). -/
def levelSetVTK (L : LevelSet D) (isVelocity isGradient : Bool) : Res Text := do
  let s ← vtkScalars "distance".toList L.mesh.nNodes L.signedDistance
  let v ← if isVelocity then vtkScalars "velocity".toList L.mesh.nNodes L.velocity else pure []
  let g ← if isGradient then vtkScalars "gradient".toList L.mesh.nNodes L.gradient else pure []
  pure (vtkHeader L.mesh.width L.mesh.height ++ ("POINT_DATA ".toList ++ fmtInt L.mesh.nNodes ++ ['\n']) ++ s ++ v ++ g)

/-- `InputOutput::saveLevelSetVTK(fileName, ...)` (`/repo/src/InputOutput.cpp:51-104`). -/
def saveLevelSetVTK (F : FileSystem) (name : Text) (L : LevelSet D) (isVelocity isGradient : Bool) : Res FileSystem :=
  F.save name (levelSetVTK L isVelocity isGradient)

/-- `InputOutput::saveLevelSetVTK(datapoint, ...)` (`/repo/src/InputOutput.cpp:34-49`): the flags are not passed on, so that the default
values `false` (`/repo/src/InputOutput.h:75-76`) are used. -/
def saveLevelSetVTKAt (F : FileSystem) (datapoint : Nat) (L : LevelSet D) (_isVelocity _isGradient : Bool) (directory : Text) :
    Res FileSystem :=
  saveLevelSetVTK F (fileName .levelSetVTK datapoint directory) L false false

/-- One line of `saveLevelSetTXT` (`/repo/src/InputOutput.cpp:136-137`). -/
def levelSetLine (L : LevelSet D) (isXY : Bool) (i : Nat) : Res Text := do
  let xy ← if isXY then do
      let nd ← rd L.mesh.nodes i
      pure (fmt nd.coord.x ++ ' ' :: fmt nd.coord.y ++ [' '])
    else pure []
  let s ← rd L.signedDistance i
  let v ← rd L.velocity i
  let g ← rd L.gradient i
  pure (xy ++ (fmt s ++ ' ' :: (fmt v ++ ' ' :: (fmt g ++ ['\n']))))

/-- Content written by `saveLevelSetTXT` (`/repo/src/InputOutput.cpp:133-138`). -/
def levelSetTXT (L : LevelSet D) (isXY : Bool) : Res Text := lines L.mesh.nNodes (levelSetLine L isXY)

/-- `InputOutput::saveLevelSetTXT(fileName, ...)` (`/repo/src/InputOutput.cpp:123-146`). -/
def saveLevelSetTXT (F : FileSystem) (name : Text) (L : LevelSet D) (isXY : Bool) : Res FileSystem := F.save name (levelSetTXT L isXY)

/-- `InputOutput::saveLevelSetTXT(datapoint, ...)` (`/repo/src/InputOutput.cpp:106-121`). -/
def saveLevelSetTXTAt (F : FileSystem) (datapoint : Nat) (L : LevelSet D) (directory : Text) (isXY : Bool) : Res FileSystem :=
  saveLevelSetTXT F (fileName .levelSetTXT datapoint directory) L isXY

/-- Content written by `saveBoundaryPointsTXT` (`/repo/src/InputOutput.cpp:310-313`). -/
def pointsTXT (b : Boundary D) : Res Text :=
  lines b.nPoints fun i => do
    let p ← rd b.points i
    pure (fmt p.coord.x ++ ' ' :: (fmt p.coord.y ++ ' ' :: (fmt p.length ++ ['\n'])))

/-- `InputOutput::saveBoundaryPointsTXT(fileName, ...)` (`/repo/src/InputOutput.cpp:301-321`). -/
def savePoints (F : FileSystem) (name : Text) (b : Boundary D) : Res FileSystem := F.save name (pointsTXT b)

/-- `InputOutput::saveBoundaryPointsTXT(datapoint, ...)` (`/repo/src/InputOutput.cpp:284-299`). -/
def savePointsAt (F : FileSystem) (datapoint : Nat) (b : Boundary D) (directory : Text) : Res FileSystem :=
  savePoints F (fileName .points datapoint directory) b

/-- Content written by `saveBoundarySegmentsTXT` (`/repo/src/InputOutput.cpp:349-372`). -/
def segmentsTXT (b : Boundary D) : Res Text :=
  lines b.nSegments fun i => do
    let s ← rd b.segments i
    let p ← rd b.points s.start
    let q ← rd b.points s.stop
    pure (fmt p.coord.x ++ ' ' :: (fmt p.coord.y ++ '\n' :: (fmt q.coord.x ++ ' ' :: (fmt q.coord.y ++ ['\n', '\n']))))

/-- `InputOutput::saveBoundarySegmentsTXT(fileName, ...)` (`/repo/src/InputOutput.cpp:340-380`). -/
def saveSegments (F : FileSystem) (name : Text) (b : Boundary D) : Res FileSystem := F.save name (segmentsTXT b)

/-- `InputOutput::saveBoundarySegmentsTXT(datapoint, ...)` (`/repo/src/InputOutput.cpp:323-338`). -/
def saveSegmentsAt (F : FileSystem) (datapoint : Nat) (b : Boundary D) (directory : Text) : Res FileSystem :=
  saveSegments F (fileName .segments datapoint directory) b

/-- Content written by `saveAreaFractionsVTK` (`/repo/src/InputOutput.cpp:408-425`). -/
def areaVTK (m : Mesh D) : Res Text := do
  let body ← lines m.nElements fun i => do
    let el ← rd m.elements i
    pure (fmt el.area ++ ['\n'])
  pure (vtkHeader m.width m.height ++ ("CELL_DATA ".toList ++ fmtInt m.nElements ++ ['\n']) ++
    ("SCALARS area float 1\n".toList ++ "LOOKUP_TABLE default\n".toList ++ body))

/-- `InputOutput::saveAreaFractionsVTK(fileName, ...)` (`/repo/src/InputOutput.cpp:399-433`). -/
def saveAreaVTK (F : FileSystem) (name : Text) (m : Mesh D) : Res FileSystem := F.save name (areaVTK m)

/-- `InputOutput::saveAreaFractionsVTK(datapoint, ...)` (`/repo/src/InputOutput.cpp:382-397`). -/
def saveAreaVTKAt (F : FileSystem) (datapoint : Nat) (m : Mesh D) (directory : Text) : Res FileSystem :=
  saveAreaVTK F (fileName .areaVTK datapoint directory) m

/-- Content written by `saveAreaFractionsTXT` (`/repo/src/InputOutput.cpp:461-466`). -/
def areaTXT (m : Mesh D) (isXY : Bool) : Res Text :=
  lines m.nElements fun i => do
    let el ← rd m.elements i
    pure ((if isXY then fmt el.coord.x ++ ' ' :: fmt el.coord.y ++ [' '] else []) ++ (fmt el.area ++ ['\n']))

/-- `InputOutput::saveAreaFractionsTXT(fileName, ...)` (`/repo/src/InputOutput.cpp:452-474`). -/
def saveAreaTXT (F : FileSystem) (name : Text) (m : Mesh D) (isXY : Bool) : Res FileSystem := F.save name (areaTXT m isXY)

/-- `InputOutput::saveAreaFractionsTXT(datapoint, ...)` (`/repo/src/InputOutput.cpp:435-450`). -/
def saveAreaTXTAt (F : FileSystem) (datapoint : Nat) (m : Mesh D) (directory : Text) (isXY : Bool) : Res FileSystem :=
  saveAreaTXT F (fileName .areaTXT datapoint directory) m isXY

end Save

/-! ## Reading text -/

/-- `isspace` in the "C" locale. -/
def isSpace (c : Char) : Bool := c == ' ' || (9 ≤ c.toNat && c.toNat ≤ 13)

/-- The decimal digits. -/
def isDigit (c : Char) : Bool := 48 ≤ c.toNat && c.toNat ≤ 57

/-- Value of a string of digits. -/
def numeral (cs : Text) : Nat := cs.foldl (fun a c => a * 10 + (c.toNat - 48)) 0

/-- Number of lines read by `while (std::getline(inputFile, line)) nLines++` (`/repo/src/InputOutput.cpp:210-211`), before it is reduced to
32 bits: a last line without line feed counts unless it is empty. -/
def countLines : Text → Nat
  | [] => 0
  | c :: cs =>
    if c = '\n' then countLines cs + 1
    else match cs with
      | [] => 1
      | _ :: _ => countLines cs

/-- An optional sign: is it a minus, and the characters after it. -/
def takeSign : Text → Bool × Text
  | '-' :: cs => (true, cs)
  | '+' :: cs => (false, cs)
  | cs => (false, cs)

/-- A string of digits and the characters after it. -/
def takeDigits (cs : Text) : Text × Text := (cs.takeWhile isDigit, cs.dropWhile isDigit)

/-- The digits after an optional decimal point. -/
def takeFraction : Text → Text × Text
  | '.' :: cs => takeDigits cs
  | cs => ([], cs)

/-- The exponent: whether there is an `e` or `E`, the sign, the digits. -/
def takeExponent : Text → (Bool × Bool × Text) × Text
  | c :: cs =>
    if c = 'e' ∨ c = 'E' then
      let s := takeSign cs
      let d := takeDigits s.2
      ((true, s.1, d.1), d.2)
    else ((false, false, []), c :: cs)
  | [] => ((false, false, []), [])

/-- State of a `std::ifstream`: the characters not yet read, `eofbit`, `failbit`. -/
structure Stream where
  rest : Text
  eof : Bool
  fail : Bool

section Load

variable {D : Type} [Txt D]

/-- What `std::num_get` makes of the characters at the head of the stream (libstdc++: `_M_extract_float`, `__convert_to_v`): the value
stored, whether the conversion succeeded, and the characters left. -/
def scan (cs : Text) : D × Bool × Text :=
  let s := takeSign cs
  let i := takeDigits s.2
  let f := takeFraction i.2
  if i.1 = [] ∧ f.1 = [] then (Txt.zero, false, f.2)
  else
    let e := takeExponent f.2
    if e.1.1 = true ∧ e.1.2.2 = [] then (Txt.zero, false, e.2)
    else
      let exponent : Int := (if e.1.2.1 then -(numeral e.1.2.2 : Int) else (numeral e.1.2.2 : Int)) - (f.1.length : Int)
      match Txt.decimal s.1 (numeral (i.1 ++ f.1)) exponent with
      | some x => (x, true, e.2)
      | none => (Txt.huge s.1, false, e.2)

/-- `operator>>(std::istream&, double&)`: the stream afterwards and the value stored, if any. -/
def extract (s : Stream) : Stream × Option D :=
  if s.eof || s.fail then ({ s with fail := true }, none)
  else match s.rest.dropWhile isSpace with
    | [] => (⟨[], true, true⟩, none)
    | c :: cs =>
      let r := scan (D := D) (c :: cs)
      (⟨r.2.2, r.2.2.isEmpty, !r.2.1⟩, some r.1)

/-- `n` numbers read into the variable `tmp`. -/
def skip : Nat → Stream → Stream
  | 0, s => s
  | n + 1, s => skip n (extract (D := D) s).1

/-- State of the loops that read the file: the stream, the signed distances, `node`. -/
structure Loader (D : Type) where
  stream : Stream
  distance : List D
  node : Nat

/-- One evaluation of the loop condition (`/repo/src/InputOutput.cpp:228`, `238`): `lead` numbers before the signed distance, two after
it.  With `assertions`, as in a library built to check indices, `signedDistance[node]` fails for `node` out of range; without, only
storing a number there does. -/
def readNode (assertions : Bool) (lead : Nat) (s : Loader D) : Res (Loader D) := do
  inRange (assertions && s.distance.length ≤ s.node)
  let r := extract (D := D) (skip (D := D) lead s.stream)
  let v ← store r.2 s.distance s.node
  pure { s with stream := skip (D := D) 2 r.1, distance := v }
where
  inRange (bad : Bool) : Res Unit := if bad then .error .ub else .ok ()
  store (x : Option D) (v : List D) (i : Nat) : Res (List D) :=
    match x with
    | some a => wr v i a
    | none => .ok v

/-- The loops (`/repo/src/InputOutput.cpp:228-229`, `238-239`).  The bound on the number of iterations is never reached (`readNodes_ends`). -/
def readNodes (assertions : Bool) (lead : Nat) : Nat → Loader D → Res (Loader D)
  | 0, _ => .error .fuel
  | n + 1, s => do
    let s ← readNode assertions lead s
    if s.stream.fail then pure s else readNodes assertions lead n { s with node := u32 (s.node + 1) }

/-- `InputOutput::loadLevelSetTXT(fileName, ...)` (`/repo/src/InputOutput.cpp:199-246`). -/
def loadLevelSetTXT (assertions : Bool) (F : FileSystem) (name : Text) (L : LevelSet D) (isXY : Bool) : Res (LevelSet D) :=
  match F.files name with
  | none => .error .exit
  | some c => do
    check (u32 (countLines c) == L.mesh.nNodes)
    let s ← readNodes assertions (if isXY then 2 else 0) (c.length + 1) ⟨⟨c, false, false⟩, L.signedDistance, 0⟩
    pure { L with signedDistance := s.distance }

/-- `InputOutput::loadLevelSetTXT(datapoint, ...)` (`/repo/src/InputOutput.cpp:182-197`). -/
def loadLevelSetTXTAt (assertions : Bool) (F : FileSystem) (datapoint : Nat) (L : LevelSet D) (directory : Text) (isXY : Bool) :
    Res (LevelSet D) :=
  loadLevelSetTXT assertions F (fileName .levelSetTXT datapoint directory) L isXY

end Load

/-! ## Binary files -/

section Binary

variable {D : Type} [Raw D]

/-- The memory of a `std::vector<double>`. -/
def image (v : List D) : Text := v.flatMap Raw.bytes

/-- Cut memory into `n` numbers of eight bytes. -/
def numbers : Nat → Text → List D
  | 0, _ => []
  | n + 1, t => Raw.ofBytes (t.take 8) :: numbers n (t.drop 8)

/-- `InputOutput::saveLevelSetBIN(fileName, ...)` (`/repo/src/InputOutput.cpp:165-180`). -/
def saveLevelSetBIN (F : FileSystem) (name : Text) (L : LevelSet D) : Res FileSystem :=
  F.save name (if L.signedDistance.length < L.mesh.nNodes then .error .ub else .ok ((image L.signedDistance).take (L.mesh.nNodes * 8)))

/-- `InputOutput::saveLevelSetBIN(datapoint, ...)` (`/repo/src/InputOutput.cpp:148-163`). -/
def saveLevelSetBINAt (F : FileSystem) (datapoint : Nat) (L : LevelSet D) (directory : Text) : Res FileSystem :=
  saveLevelSetBIN F (fileName .levelSetBIN datapoint directory) L

/-- `InputOutput::loadLevelSetBIN(fileName, ...)` (`/repo/src/InputOutput.cpp:265-281`): the first bytes of the memory of the vector are
replaced by as many bytes as the file has, but no more than asked for.  Storing past the end of the vector is undefined behaviour. -/
def loadLevelSetBIN (F : FileSystem) (name : Text) (L : LevelSet D) : Res (LevelSet D) :=
  match F.files name with
  | none => .error .exit
  | some c =>
    let new := c.take (L.mesh.nNodes * 8)
    if L.signedDistance.length * 8 < new.length then .error .ub
    else .ok { L with signedDistance := numbers L.signedDistance.length (new ++ (image L.signedDistance).drop new.length) }

/-- `InputOutput::loadLevelSetBIN(datapoint, ...)` (`/repo/src/InputOutput.cpp:248-263`). -/
def loadLevelSetBINAt (F : FileSystem) (datapoint : Nat) (L : LevelSet D) (directory : Text) : Res (LevelSet D) :=
  loadLevelSetBIN F (fileName .levelSetBIN datapoint directory) L

end Binary

end IO

end Slsm
