import Verif.Spec.Random
import Verif.Lib.Real

/-! # C61: reproducible random numbers -/

namespace Slsm.Random

open FP

variable {G D : Type} [FP D] {lib : Library G D}

theorem answers_congr (cs : List (Call D)) {t u : Twister G D} (hs : t.saved = u.saved) (hg : t.generator = u.generator) (hd : t.seed = u.seed) :
    answers lib cs t = answers lib cs u := by
  obtain ⟨g, z, s⟩ := t
  obtain ⟨g', z', s'⟩ := u
  cases hs
  cases hg
  cases hd
  rfl

/-- Without calls of `normal()` the saved number does not matter. -/
theorem answers_saved {cs : List (Call D)} (h : Call.normal ∉ cs) (g : G) (s : Nat) (z z' : Option D) :
    answers lib cs ⟨g, z, s⟩ = answers lib cs ⟨g, z', s⟩ := by
  induction cs generalizing g s with
  | nil => rfl
  | cons c cs ih =>
    have h' : Call.normal ∉ cs := fun hm => h (List.mem_cons_of_mem _ hm)
    cases c with
    | normal => exact absurd List.mem_cons_self h
    | uniform => exact congrArg (List.cons _) (ih h' _ _)
    | integer a b => exact congrArg (List.cons _) (ih h' _ _)
    | normalWith a b => exact congrArg (List.cons _) (ih h' _ _)
    | getSeed => exact congrArg (List.cons _) (ih h' _ _)
    | setSeed a => exact congrArg (List.cons _) (ih h' _ _)

/-- A number is saved after an odd number of calls of `normal()`. -/
theorem saved_iff (cs : List (Call D)) (t : Twister G D) :
    (after lib cs t).saved.isSome = (t.saved.isSome ^^ decide (normals cs % 2 = 1)) := by
  induction cs generalizing t with
  | nil => simp [after, normals]
  | cons c cs ih =>
    show (after lib cs (call lib c t).2).saved.isSome = _
    rw [ih]
    cases c with
    | normal =>
      have e : normals (Call.normal :: cs) = normals cs + 1 := by simp [normals]
      have e2 : (call lib .normal t).2.saved.isSome = !t.saved.isSome := by
        show (deviate lib (nat 0) (nat 1) t.saved t.generator).2.1.isSome = _
        cases t.saved <;> rfl
      rw [e, e2]
      rcases Nat.mod_two_eq_zero_or_one (normals cs) with h | h
      · have : (normals cs + 1) % 2 = 1 := by omega
        rw [h, this]; cases t.saved.isSome <;> rfl
      · have : (normals cs + 1) % 2 = 0 := by omega
        rw [h, this]; cases t.saved.isSome <;> rfl
    | uniform => rfl
    | integer a b => rfl
    | normalWith a b => rfl
    | getSeed => rfl
    | setSeed a => rfl

omit [FP D] in
theorem seeds_forget {t u : Twister G D} (ht : t.saved = none) (hu : u.saved = none) (s : Nat) : setSeed lib s t = setSeed lib s u := by
  unfold setSeed
  rw [ht, hu]

/-- **C61** (partial: if `normal()` was called an even number of times before): after `setSeed(s)` the answers to any calls depend only on `s` and
the calls, not on how the generator was made and used before. -/
theorem C61_reproducible_partial {d1 d2 : Nat} {h1 h2 : List (Call D)} (e1 : normals h1 % 2 = 0) (e2 : normals h2 % 2 = 0) (s : Nat)
    (cs : List (Call D)) :
    answers lib (.setSeed s :: cs) (after lib h1 (new lib d1)) = answers lib (.setSeed s :: cs) (after lib h2 (new lib d2)) := by
  have key : ∀ (d : Nat) (h : List (Call D)), normals h % 2 = 0 → (after lib h (new lib d)).saved = none := by
    intro d h e
    have := saved_iff (lib := lib) h (new lib d)
    rw [show (new lib d : Twister G D).saved = none from rfl, e] at this
    simpa using this
  show Answer.none :: answers lib cs (setSeed lib s _) = Answer.none :: answers lib cs (setSeed lib s _)
  rw [seeds_forget (key d1 h1 e1) (key d2 h2 e2)]

/-- **C61** (partial: if `normal()` is not called afterwards): the same for every earlier use. -/
theorem C61_without_normal_partial {t u : Twister G D} (s : Nat) {cs : List (Call D)} (h : Call.normal ∉ cs) :
    answers lib (.setSeed s :: cs) t = answers lib (.setSeed s :: cs) u :=
  congrArg (Answer.none :: ·) (answers_saved h _ _ _ _)

/-- **C61** (disagreement): if `normal()` was called an odd number of times before, then the first `normal()` after `setSeed(s)` returns a number
that was made before seeding: it is the same for all `s`. -/
theorem C61_fails {d : Nat} {h : List (Call D)} (e : normals h % 2 = 1) :
    ∃ z, ∀ s, answers lib [.setSeed s, .normal] (after lib h (new lib d)) = [.none, .real z] := by
  have := saved_iff (lib := lib) h (new lib d)
  rw [show (new lib d : Twister G D).saved = none from rfl, e] at this
  obtain ⟨z, hz⟩ : ∃ z, (after lib h (new lib d)).saved = some z := by simpa [Option.isSome_iff_exists] using this
  refine ⟨z *. nat 1 +. nat 0, fun s => ?_⟩
  show [Answer.none, Answer.real (deviate lib (nat 0) (nat 1) (after lib h (new lib d)).saved (lib.seed s)).1] = _
  rw [hz]; rfl

/-- **C61** (disagreement, two runs): whenever the library saves a number different from the one that it makes first from seed `s`, seeding
again with the same `s` after one `normal()` does not reproduce it. -/
theorem C61_rerun_fails {lib : Library G ℝ} {d s : Nat} (h : (lib.pair (lib.seed s)).2.1 ≠ (lib.pair (lib.seed s)).1) :
    answers lib [.setSeed s, .normal] (new lib d) ≠ answers lib [.setSeed s, .normal] (after lib [.setSeed s, .normal] (new lib d)) := by
  intro he
  have h1 : answers lib [.setSeed s, .normal] (new lib d) = [.none, .real ((lib.pair (lib.seed s)).1 *. nat 1 +. nat 0)] := rfl
  have h2 : answers lib [.setSeed s, .normal] (after lib [.setSeed s, .normal] (new lib d)) =
      [.none, .real ((lib.pair (lib.seed s)).2.1 *. nat 1 +. nat 0)] := rfl
  rw [h1, h2] at he
  have h3 := (List.cons.inj (List.cons.inj he).2).1
  have h4 := Answer.real.inj h3
  simp at h4
  exact h h4.symm

/-- **C61** (seed): `getSeed` returns the last seed set, or the one from the device. -/
theorem C61_getSeed (d s : Nat) (h cs : List (Call D)) (hc : ∀ s', Call.setSeed s' ∉ cs) :
    getSeed (after lib (h ++ .setSeed s :: cs) (new lib d)) = s ∧ getSeed (after lib cs (new lib d)) = d := by
  have key : ∀ (t : Twister G D), (after lib cs t).seed = t.seed := by
    intro t
    induction cs generalizing t with
    | nil => rfl
    | cons c cs ih =>
      have hs : ∀ s', Call.setSeed s' ∉ cs := fun s' hm => hc s' (List.mem_cons_of_mem _ hm)
      show (after lib cs (call lib c t).2).seed = _
      rw [ih hs]
      cases c with
      | setSeed a => exact absurd List.mem_cons_self (hc a)
      | _ => rfl
  have happ : ∀ (a b : List (Call D)) (t : Twister G D), after lib (a ++ b) t = after lib b (after lib a t) := by
    intro a b
    induction a with
    | nil => intro t; rfl
    | cons c a ih => intro t; exact ih _
  refine ⟨?_, key _⟩
  unfold getSeed
  rw [happ]
  show (after lib cs (setSeed lib s _)).seed = s
  rw [key]; rfl

/-- A library that meets the hypotheses: states are numbers, a pair consists of two consecutive ones. -/
noncomputable def counter : Library Nat ℝ where
  seed s := s
  uniform g := (0, g + 1)
  integer a _ g := (a, g + 1)
  pair g := (g, g + 1, g + 2)

example (d s : Nat) : answers counter [.setSeed s, .normal] (new counter d) ≠
    answers counter [.setSeed s, .normal] (after counter [.setSeed s, .normal] (new counter d)) :=
  C61_rerun_fails (by simp [counter])

example : normals [Call.normal, .uniform, .normalWith (0 : ℝ) 1, .normal] % 2 = 0 ∧ normals [Call.normal, .setSeed (D := ℝ) 4] % 2 = 1 := by
  simp [normals]

/-! ### C99: which numbers are drawn -/

theorem answers_get (cs : List (Call D)) (t : Twister G D) (k : Nat) :
    (answers lib cs t)[k]? = cs[k]?.map fun c => (call lib c (after lib (cs.take k) t)).1 := by
  induction cs generalizing t k with
  | nil => rfl
  | cons c cs ih =>
    cases k with
    | zero => rfl
    | succ k => exact ih _ k

/-- **C99** (ranges): in every sequence of calls, on any generator, the answer to `operator()` is in any range in which all numbers of the uniform
distribution of the library are, and the answer to `integer(min, max)` is between `min` and `max` if this is so for all numbers of the distribution of
the library with these bounds. -/
theorem C99_ranges (cs : List (Call D)) (t : Twister G D) (k : Nat) :
    (∀ P : D → Prop, (∀ g, P (lib.uniform g).1) → cs[k]? = some .uniform → ∃ x, (answers lib cs t)[k]? = some (.real x) ∧ P x) ∧
    ∀ a b : Int, (∀ g, a ≤ (lib.integer a b g).1 ∧ (lib.integer a b g).1 ≤ b) → cs[k]? = some (.integer a b) →
      ∃ n, (answers lib cs t)[k]? = some (.int n) ∧ a ≤ n ∧ n ≤ b := by
  constructor
  · intro P hP hk
    exact ⟨_, by rw [answers_get, hk]; rfl, hP (after lib (cs.take k) t).generator⟩
  · intro a b hab hk
    exact ⟨_, by rw [answers_get, hk]; rfl, hab (after lib (cs.take k) t).generator⟩

/-- **C99** (uniform numbers): after seeding, successive calls of `operator()` return the successive numbers of the library for that seed: none is returned
twice, none is left out. -/
theorem C99_uniform (s n : Nat) (t : Twister G D) :
    answers lib (.setSeed s :: List.replicate n .uniform) t =
      .none :: (List.range n).map fun k => .real (lib.uniform ((fun g => (lib.uniform g).2)^[k] (lib.seed s))).1 := by
  have key : ∀ (n : Nat) (t : Twister G D), answers lib (List.replicate n .uniform) t =
      (List.range n).map fun k => .real (lib.uniform ((fun g => (lib.uniform g).2)^[k] t.generator)).1 := by
    intro n
    induction n with
    | zero => intro t; rfl
    | succ n ih =>
      intro t
      rw [List.replicate_succ, List.range_succ_eq_map, List.map_cons, List.map_map]
      exact congrArg (List.cons _) (ih _)
  exact congrArg (List.cons _) (key n (setSeed lib s t))

/-- **C99** (integers): the same for `integer`. -/
theorem C99_integer (s n : Nat) (a b : Int) (t : Twister G D) :
    answers lib (.setSeed s :: List.replicate n (.integer a b)) t =
      .none :: (List.range n).map fun k => .int (lib.integer a b ((fun g => (lib.integer a b g).2)^[k] (lib.seed s))).1 := by
  have key : ∀ (n : Nat) (t : Twister G D), answers lib (List.replicate n (.integer a b)) t =
      (List.range n).map fun k => .int (lib.integer a b ((fun g => (lib.integer a b g).2)^[k] t.generator)).1 := by
    intro n
    induction n with
    | zero => intro t; rfl
    | succ n ih =>
      intro t
      rw [List.replicate_succ, List.range_succ_eq_map, List.map_cons, List.map_map]
      exact congrArg (List.cons _) (ih _)
  exact congrArg (List.cons _) (key n (setSeed lib s t))

/-- **C99** (normal numbers): on a new generator with seed `s`, calls of `normal()` return the successive pairs of the library, both numbers of each, in
turn. -/
theorem C99_normal (d s n : Nat) :
    answers lib (.setSeed s :: List.replicate (2 * n) .normal) (new lib d) =
      .none :: (List.range n).flatMap fun k =>
        [.real ((lib.pair ((fun g => (lib.pair g).2.2)^[k] (lib.seed s))).1 *. nat 1 +. nat 0),
         .real ((lib.pair ((fun g => (lib.pair g).2.2)^[k] (lib.seed s))).2.1 *. nat 1 +. nat 0)] := by
  have key : ∀ (n : Nat) (g : G) (z : Nat), answers lib (List.replicate (2 * n) .normal) ⟨g, none, z⟩ =
      (List.range n).flatMap fun k =>
        [.real ((lib.pair ((fun g => (lib.pair g).2.2)^[k] g)).1 *. nat 1 +. nat 0),
         .real ((lib.pair ((fun g => (lib.pair g).2.2)^[k] g)).2.1 *. nat 1 +. nat 0)] := by
    intro n
    induction n with
    | zero => intro g z; rfl
    | succ n ih =>
      intro g z
      rw [show 2 * (n + 1) = 2 * n + 1 + 1 by omega, List.replicate_succ, List.replicate_succ, List.range_succ_eq_map, List.flatMap_cons, List.flatMap_map]
      exact congrArg (fun l => Answer.real ((lib.pair g).1 *. nat 1 +. nat 0) :: Answer.real ((lib.pair g).2.1 *. nat 1 +. nat 0) :: l) (ih (lib.pair g).2.2 z)
  exact congrArg (List.cons _) (key n (lib.seed s) s)

/-- **C99** (normal numbers with given mean and deviation): each call makes a new pair and uses its first number; a number saved by `normal()` is neither
used nor lost. -/
theorem C99_normalWith (a b : D) (t : Twister G D) :
    answers lib [.normalWith a b, .uniform] t =
      [.real ((lib.pair t.generator).1 *. b +. a), .real (lib.uniform (lib.pair t.generator).2.2).1] ∧
    (t.saved.isSome → answers lib [.normalWith a b, .normal] t = [.real ((lib.pair t.generator).1 *. b +. a)] ++ answers lib [.normal] t) := by
  refine ⟨rfl, fun h => ?_⟩
  obtain ⟨g, z, s⟩ := t
  cases z with
  | none => cases h
  | some z => rfl

/-- Numbers for a library with states that count: the numbers differ. -/
example : answers counter [.setSeed 3, .integer 1 2, .normal, .normal] (new counter 0) =
    [.none, .int 1, .real ((((4 : Nat) : ℝ)) *. nat 1 +. nat 0), .real ((((4 : Nat) : ℝ) + 1) *. nat 1 +. nat 0)] := rfl

/-- The hypotheses on the ranges hold for this library. -/
example : ∀ g, (1 : Int) ≤ (counter.integer 1 2 g).1 ∧ (counter.integer 1 2 g).1 ≤ 2 := by
  intro g
  simp [counter]

end Slsm.Random
