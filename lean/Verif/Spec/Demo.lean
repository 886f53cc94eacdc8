import Verif.Model.Demo
import Verif.Spec.Program
import Verif.Spec.Boundary
import Mathlib.MeasureTheory.Integral.IntervalIntegral.Basic

/-! # Specification vocabulary for sampling, weighted perimeters and umbrella sampling -/

namespace Slsm.Program

variable {ρ α D : Type} [FP D]

/-- Measuring leaves the program as it is, area fractions apart. -/
def Passive (obs : Observe ρ α D) : Prop :=
  ∀ s0 s r s', obs s0 s = .ok (r, s') → ∃ L, AreasOnly s.levelSet L ∧ s' = { s with levelSet := L }

/-- The times at which samples are due. -/
noncomputable def due (first interval : ℝ) (k : Nat) : ℝ := first + k * interval

/-- The log at time `t`: there is an entry for every sample that has become due, and no other; no entry was made before the sample was due, and
they are in order of time. -/
structure Sampled (first interval t : ℝ) (l : Log α ℝ) : Prop where
  next : l.nextSample = due first interval l.times.length
  reached : ∀ k, k < l.times.length ↔ due first interval k ≤ t
  times : ∀ (k : Nat) (u : ℝ), l.times[k]? = some u → due first interval k ≤ u ∧ u ≤ t
  sorted : l.times.Pairwise (· ≤ ·)
  records : l.records.length = l.times.length

/-- The weight at height `y`: `r` up to the height `l`, 1 from the height `u` on, linear in between. -/
noncomputable def heightWeight (u l r y : ℝ) : ℝ := r + (1 - r) * max 0 (min 1 ((y - l) / (u - l)))

/-- The weighted length of the straight line from `a` to `c`: the line integral of the weight. -/
noncomputable def weightedLength (u l r : ℝ) (a c : Coord ℝ) : ℝ :=
  Boundary.distance a c * ∫ t in (0 : ℝ)..1, heightWeight u l r (a.y + t * (c.y - a.y))

/-- The place of point number `k`. -/
noncomputable def placeOf (points : List (BoundaryPoint ℝ)) (k : Nat) : Coord ℝ := (points[k]?).elim ⟨0, 0⟩ fun p => p.coord

/-- Sum over the segments of a boundary of a function of their ends. -/
noncomputable def overSegments (b : Boundary ℝ) (f : Coord ℝ → Coord ℝ → ℝ) : ℝ :=
  (b.segments.map fun s => f (placeOf b.points s.start) (placeOf b.points s.stop)).sum

/-- A straight line from height `y` to height `y'` does not cross the heights at which the weight has a kink. -/
def OneZone (u l y y' : ℝ) : Prop := (y ≤ l ∧ y' ≤ l) ∨ (u ≤ y ∧ u ≤ y') ∨ (l ≤ y ∧ y ≤ u ∧ l ≤ y' ∧ y' ≤ u)

/-! ### Umbrella sampling -/

/-- Probability with which a change of energy `dE` is to be accepted. -/
noncomputable def metropolis (beta dE : ℝ) : ℝ := min 1 (Real.exp (-(beta * dE)))

/-- States of the umbrella sampling program between trials. -/
inductive Walks (w h : Nat) (P : Problem ρ D) (U : Umbrella ρ D) : Walker ρ D → Prop
  | begin {s : State ρ D} {v : Walker ρ D} (hs : Running w h P s) (e : walker U s = .ok v) : Walks w h P U v
  | trial {E : Env D} {v v' : Walker ρ D} (hv : Walks w h P U v) (e : trial P U E v = .ok v') : Walks w h P U v'

/-! ### The command line -/

/-- What can be set on the command line. -/
inductive Item
  | temperature (v : String) | gravity (v : String) | centre (v : String) | spring (v : String) | interval (v : String)
  | sampleInterval (v : String) | samples (v : String) | restart (v : String) | boundary

/-- How the help message says it is done (`/repo/demos/bimodal_brolly.cpp:779-795`). -/
def Item.documented : Item → List (List String)
  | .temperature v => [["-t", v], ["--temperature", v]]
  | .gravity v => [["-g", v], ["--gravity", v]]
  | .centre v => [["-c", v], ["--centre", v]]
  | .spring v => [["-s", v], ["--spring", v]]
  | .interval v => [["-ui", v], ["--umbrella-interval", v]]
  | .sampleInterval v => [["-si", v], ["--sample-interval", v]]
  | .samples v => [["-n", v], ["--number-samples", v]]
  | .restart v => [["-r", v], ["--restart", v]]
  | .boundary => [["-b"], ["--boundary-sample"]]

/-- Names of file names that fit into the array of the program. -/
def Item.fits : Item → Prop
  | .restart v => v.utf8ByteSize < 100
  | _ => True

/-- The last value given, or the value used before. -/
def lastOf {α : Type} (f : Item → Option α) (items : List Item) (default : α) : α := (items.filterMap f).getLast?.getD default

/-- The options after a list of items: for each of them the last value given counts, or else the default. -/
structure Configured (atof : String → D) (atoi : String → Nat) (items : List Item) (o o' : Options D) : Prop where
  temperature : o'.temperature = lastOf (fun | .temperature v => some (atof v) | _ => none) items o.temperature
  gravity : o'.gravityMult = lastOf (fun | .gravity v => some (atof v) | _ => none) items o.gravityMult
  centre : o'.centre = lastOf (fun | .centre v => some (atof v) | _ => none) items o.centre
  spring : o'.spring = lastOf (fun | .spring v => some (atof v) | _ => none) items o.spring
  interval : o'.umbrellaInterval = lastOf (fun | .interval v => some (atof v) | _ => none) items o.umbrellaInterval
  sampleInterval : o'.sampleInterval = lastOf (fun | .sampleInterval v => some (atoi v) | _ => none) items o.sampleInterval
  samples : o'.nSamples = lastOf (fun | .samples v => some (atoi v) | _ => none) items o.nSamples
  restart : o'.restart = lastOf (fun | .restart v => some (some v) | _ => none) items o.restart
  boundary : o'.isBoundarySample = lastOf (fun | .boundary => some true | _ => none) items o.isBoundarySample

/-- How the program reads an item: as documented, with one exception. -/
def Item.Spelled (i : Item) (ws : List String) : Prop :=
  (ws ∈ i.documented ∧ ∀ v, ws ≠ ["--umbrella-interval", v]) ∨ ∃ v, i = .interval v ∧ ws = ["--unmbrella-interval", v]

/-- Words after which a value is read. -/
def takesValue : List String := ["-t", "--temperature", "-g", "--gravity", "-c", "--centre", "-s", "--spring", "-ui", "--unmbrella-interval", "-si",
  "--sample-interval", "-n", "--number-samples", "-r", "--restart"]

/-- How reading ends, given what is left of the command line: at its end, with the help message, with undefined behaviour (a missing value, a file
name that is too long) or with an error message. -/
def Stops (rest : List String) (o : Options D) (r : Res (Option (Options D))) : Prop :=
  (rest = [] ∧ r = .ok (some o)) ∨
  (∃ a t, rest = a :: t ∧ a ∈ ["-h", "--help"] ∧ r = .ok none) ∨
  (∃ a, rest = [a] ∧ a ∈ takesValue ∧ r = .error .ub) ∨
  (∃ a v t, rest = a :: v :: t ∧ a ∈ ["-r", "--restart"] ∧ 100 ≤ v.utf8ByteSize ∧ r = .error .ub) ∨
  (∃ a t, rest = a :: t ∧ a ∉ takesValue ++ ["-b", "--boundary-sample", "-h", "--help"] ∧ r = .error .exit)

end Slsm.Program
