import Verif.Model.Num

/-! # `MersenneTwister` (`/repo/src/MersenneTwister.h`)

The engine and the distributions are parts of the C++ library; they are parameters (`Library`).  What is modelled is which of them is used
when, and the state that they keep between calls.  Of the state of a distribution only `std::normal_distribution` has any: its algorithm
makes two numbers at a time and keeps the second one for the next call (libstdc++, `bits/random.tcc`, `normal_distribution::operator()`;
the same in libc++). -/

namespace Slsm.Random

open FP

/-- What the class uses from the library: `G` is the state of `std::mt19937`. -/
structure Library (G D : Type) where
  /-- `generator.seed(value)` -/
  seed : Nat → G
  /-- `std::uniform_real_distribution<double>{0.0, 1.0}` -/
  uniform : G → D × G
  /-- `std::uniform_int_distribution<int>{min, max}` -/
  integer : Int → Int → G → Int × G
  /-- Two independent deviates with mean zero and variance one: the one returned and the one saved. -/
  pair : G → D × D × G

/-- `class MersenneTwister` (`/repo/src/MersenneTwister.h:31-135`): all data members; `saved` is the number saved in
`default_normal_distribution`. -/
structure Twister (G D : Type) where
  generator : G
  saved : Option D
  seed : Nat

variable {G D : Type} [FP D] (lib : Library G D)

/-- The constructor (`/repo/src/MersenneTwister.h:35-56`), given the number delivered by `std::random_device`. -/
def new (device : Nat) : Twister G D := { generator := lib.seed device, saved := none, seed := device }

/-- `operator()` (`/repo/src/MersenneTwister.h:60-63`). -/
def uniform (t : Twister G D) : D × Twister G D :=
  let r := lib.uniform t.generator
  (r.1, { t with generator := r.2 })

/-- `integer` (`/repo/src/MersenneTwister.h:75-78`). -/
def integer (min max : Int) (t : Twister G D) : Int × Twister G D :=
  let r := lib.integer min max t.generator
  (r.1, { t with generator := r.2 })

/-- `std::normal_distribution::operator()` of the library: value, saved number and generator afterwards. -/
def deviate (mean stdDev : D) (saved : Option D) (g : G) : D × Option D × G :=
  match saved with
  | some z => (z *. stdDev +. mean, none, g)
  | none =>
    let r := lib.pair g
    (r.1 *. stdDev +. mean, some r.2.1, r.2.2)

/-- `normal()` (`/repo/src/MersenneTwister.h:85-88`). -/
def normal (t : Twister G D) : D × Twister G D :=
  let r := deviate lib (nat 0) (nat 1) t.saved t.generator
  (r.1, { t with saved := r.2.1, generator := r.2.2 })

/-- `normal(mean, stdDev)` (`/repo/src/MersenneTwister.h:100-103`): a new distribution every time. -/
def normalWith (mean stdDev : D) (t : Twister G D) : D × Twister G D :=
  let r := deviate lib mean stdDev none t.generator
  (r.1, { t with generator := r.2.2 })

/-- `getSeed` (`/repo/src/MersenneTwister.h:109-112`). -/
def getSeed (t : Twister G D) : Nat := t.seed

/-- `setSeed` (`/repo/src/MersenneTwister.h:118-122`). -/
def setSeed (s : Nat) (t : Twister G D) : Twister G D := { t with seed := s, generator := lib.seed s }

end Slsm.Random
