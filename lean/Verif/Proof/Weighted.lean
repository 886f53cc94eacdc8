import Verif.Spec.Demo
import Verif.Proof.ProgramDemo
import Mathlib.Analysis.SpecialFunctions.Integrals.Basic

/-! Weighted perimeters: closed forms over the reals. -/

namespace Slsm.Program

open LevelSet

theorem regular_weighted {ρ D : Type} [FP D] (G : Gravity D) (normal : ρ → D × ρ) (temperature maxMismatch : D) (targetArea : List D) :
    Regular (weighted G normal temperature maxMismatch targetArea : Problem ρ D) where
  assign L b b' e := by
    change (setSensitivity 0 (weightedSensitivity G b) b >>= fun b' => setSensitivity 1 (fun p => mismatchSensitivity L p.coord) b' >>= fun b' =>
      Sensitivity.itoCorrection (FP.lit 1 10000) b' temperature) = _ at e
    rcases h1 : setSensitivity 0 (weightedSensitivity G b) b with x | b1
    · rw [h1] at e; cases e
    · rw [h1] at e
      simp only [bind, Except.bind] at e
      rcases h2 : setSensitivity 1 (fun p => mismatchSensitivity L p.coord) b1 with x | b2
      · rw [h2] at e; cases e
      · rw [h2] at e
        obtain ⟨f1, g1⟩ := setSensitivity_frame h1
        obtain ⟨f2, g2⟩ := setSensitivity_frame h2
        obtain ⟨f3, g3⟩ := ito_frame e
        refine ⟨?_, sens_trans (sens_trans g1 g2) g3⟩
        rw [f2, f1] at f3
        exact f3
  extend _ _ _ _ _ _ _ _ e := regular_noisy e
  finish := (regular_constrained normal temperature maxMismatch).finish

/-! ### The weight -/

section
variable {u l r y : ℝ}

theorem weight_real (hlu : l < u) : perimeterWeight (gravity u l r) y = heightWeight u l r y := by
  have hd : 0 < u - l := by linarith
  unfold perimeterWeight gravity heightWeight
  dsimp only
  by_cases h1 : u < y
  · rw [if_pos (by simpa using h1), min_eq_left (by rw [one_le_div hd]; linarith), max_eq_right (by norm_num)]
    simp
  rw [if_neg (by simpa using h1)]
  by_cases h2 : y < l
  · rw [if_pos (by simpa using h2), min_eq_right (by rw [div_le_one hd]; linarith),
      max_eq_left (div_nonpos_of_nonpos_of_nonneg (by linarith) hd.le)]
    ring
  rw [if_neg (by simpa using h2), min_eq_right (by rw [div_le_one hd]; linarith), max_eq_right (div_nonneg (by linarith) hd.le)]
  simp only [FP.sub_real, FP.mul_real, FP.div_real, FP.nat_real, Nat.cast_one]
  field_simp
  ring

theorem weight_le (hr : r ≤ 1) : heightWeight u l r y ≤ 1 := by
  unfold heightWeight
  have : max 0 (min 1 ((y - l) / (u - l))) ≤ 1 := max_le (by norm_num) (min_le_left _ _)
  nlinarith

theorem le_weight (hr : r ≤ 1) : r ≤ heightWeight u l r y := by
  unfold heightWeight
  have : 0 ≤ max 0 (min 1 ((y - l) / (u - l))) := le_max_left _ _
  nlinarith

theorem weight_mono (hlu : l < u) (hr : r ≤ 1) : Monotone (heightWeight u l r) := by
  intro y y' h
  unfold heightWeight
  have hd : 0 < u - l := by linarith
  have h1 : (y - l) / (u - l) ≤ (y' - l) / (u - l) := by gcongr
  have h2 : max 0 (min 1 ((y - l) / (u - l))) ≤ max 0 (min 1 ((y' - l) / (u - l))) := max_le_max le_rfl (min_le_min le_rfl h1)
  nlinarith

theorem weight_lip (hlu : l < u) (hr : r ≤ 1) (y y' : ℝ) : |heightWeight u l r y - heightWeight u l r y'| ≤ (1 - r) / (u - l) * |y - y'| := by
  have hd : 0 < u - l := by linarith
  unfold heightWeight
  rw [show r + (1 - r) * max 0 (min 1 ((y - l) / (u - l))) - (r + (1 - r) * max 0 (min 1 ((y' - l) / (u - l)))) =
    (1 - r) * (max 0 (min 1 ((y - l) / (u - l))) - max 0 (min 1 ((y' - l) / (u - l)))) by ring, abs_mul, abs_of_nonneg (by linarith : 0 ≤ 1 - r)]
  have h1 : |max 0 (min 1 ((y - l) / (u - l))) - max 0 (min 1 ((y' - l) / (u - l)))| ≤ |(y - l) / (u - l) - (y' - l) / (u - l)| := by
    refine (abs_max_sub_max_le_max _ _ _ _).trans ?_
    rw [sub_self, abs_zero]
    refine max_le (abs_nonneg _) ((abs_min_sub_min_le_max _ _ _ _).trans ?_)
    rw [sub_self, abs_zero]
    exact max_le (abs_nonneg _) le_rfl
  rw [← sub_div, abs_div, abs_of_pos hd, show y - l - (y' - l) = y - y' by ring] at h1
  calc (1 - r) * _ ≤ (1 - r) * (|y - y'| / (u - l)) := mul_le_mul_of_nonneg_left h1 (by linarith)
    _ = _ := by ring

theorem weight_cont (u l r : ℝ) : Continuous (heightWeight u l r) := by
  unfold heightWeight
  fun_prop

theorem weight_zone (hlu : l < u) {y y' t : ℝ} (hz : OneZone u l y y') (h0 : 0 ≤ t) (h1 : t ≤ 1) :
    heightWeight u l r (y + t * (y' - y)) = heightWeight u l r y + t * (heightWeight u l r y' - heightWeight u l r y) := by
  have hd : 0 < u - l := by linarith
  have low : ∀ z, z ≤ l → heightWeight u l r z = r := fun z hz => by
    unfold heightWeight
    rw [min_eq_right (by rw [div_le_one hd]; linarith), max_eq_left (div_nonpos_of_nonpos_of_nonneg (by linarith) hd.le)]
    ring
  have high : ∀ z, u ≤ z → heightWeight u l r z = 1 := fun z hz => by
    unfold heightWeight
    rw [min_eq_left (by rw [one_le_div hd]; linarith), max_eq_right (by norm_num)]
    ring
  have mid : ∀ z, l ≤ z → z ≤ u → heightWeight u l r z = r + (1 - r) * ((z - l) / (u - l)) := fun z hz hz' => by
    unfold heightWeight
    rw [min_eq_right (by rw [div_le_one hd]; linarith), max_eq_right (div_nonneg (by linarith) hd.le)]
  rcases hz with ⟨a, c⟩ | ⟨a, c⟩ | ⟨a, a', c, c'⟩
  · rw [low _ (by nlinarith), low y a, low y' c]; ring
  · rw [high _ (by nlinarith), high y a, high y' c]; ring
  · rw [mid _ (by nlinarith) (by nlinarith), mid y a a', mid y' c c']
    field_simp
    ring

end

/-! ### The rule for one segment -/

/-- The sum over the ten parts of a segment. -/
noncomputable def midSum (f : ℝ → ℝ) (a c : Coord ℝ) : ℝ :=
  ∑ j ∈ Finset.range 10, f (a.y + ((j : ℝ) + 1 / 2) * (c.y - a.y) / 10) * (Boundary.distance a c / 10)

theorem midSum_comm (f : ℝ → ℝ) (a c : Coord ℝ) : midSum f a c = midSum f c a := by
  unfold midSum
  rw [← Finset.sum_range_reflect, Boundary.distance_comm]
  refine Finset.sum_congr rfl fun j hj => ?_
  have hj := Finset.mem_range.1 hj
  have e : ((10 - 1 - j : Nat) : ℝ) = 9 - j := by
    rw [Nat.cast_sub (by omega)]
    norm_num
  rw [e]
  congr 2
  ring

theorem distance_nonneg (a c : Coord ℝ) : 0 ≤ Boundary.distance a c := Real.sqrt_nonneg _

theorem midSum_le {f : ℝ → ℝ} {K : ℝ} (hf : ∀ y, f y ≤ K) (a c : Coord ℝ) : midSum f a c ≤ K * Boundary.distance a c := by
  have hd := distance_nonneg a c
  calc midSum f a c ≤ ∑ j ∈ Finset.range 10, K * (Boundary.distance a c / 10) :=
        Finset.sum_le_sum fun j _ => mul_le_mul_of_nonneg_right (hf _) (by linarith)
    _ = _ := by rw [Finset.sum_const, Finset.card_range]; simp; ring

theorem le_midSum {f : ℝ → ℝ} {K : ℝ} (hf : ∀ y, K ≤ f y) (a c : Coord ℝ) : K * Boundary.distance a c ≤ midSum f a c := by
  have hd := distance_nonneg a c
  calc K * Boundary.distance a c = ∑ j ∈ Finset.range 10, K * (Boundary.distance a c / 10) := by
        rw [Finset.sum_const, Finset.card_range]; simp; ring
    _ ≤ midSum f a c := Finset.sum_le_sum fun j _ => mul_le_mul_of_nonneg_right (hf _) (by linarith)

theorem midSum_integral {f : ℝ → ℝ} {K : ℝ} (hf : Continuous f) (hK : ∀ y y', |f y - f y'| ≤ K * |y - y'|) (a c : Coord ℝ) :
    |midSum f a c - Boundary.distance a c * ∫ t in (0 : ℝ)..1, f (a.y + t * (c.y - a.y))| ≤ K * |c.y - a.y| / 20 * Boundary.distance a c := by
  have hd := distance_nonneg a c
  have hcont : Continuous fun t : ℝ => f (a.y + t * (c.y - a.y)) := hf.comp (by fun_prop)
  have hsum := intervalIntegral.sum_integral_adjacent_intervals (f := fun t : ℝ => f (a.y + t * (c.y - a.y))) (μ := MeasureTheory.volume)
    (a := fun j : Nat => (j : ℝ) / 10) (n := 10) fun k _ => hcont.intervalIntegrable _ _
  norm_num at hsum
  rw [← hsum, Finset.mul_sum]
  unfold midSum
  rw [← Finset.sum_sub_distrib]
  refine (Finset.abs_sum_le_sum_abs _ _).trans ?_
  calc _ ≤ ∑ j ∈ Finset.range 10, K * |c.y - a.y| / 200 * Boundary.distance a c := Finset.sum_le_sum fun j _ => ?_
    _ = _ := by rw [Finset.sum_const, Finset.card_range]; simp; ring
  have hm : f (a.y + ((j : ℝ) + 1 / 2) * (c.y - a.y) / 10) / 10 =
      ∫ t in ((j : ℝ) / 10)..(((j : ℝ) + 1) / 10), f (a.y + ((j : ℝ) + 1 / 2) * (c.y - a.y) / 10) := by
    rw [intervalIntegral.integral_const, smul_eq_mul]
    ring
  rw [show f (a.y + ((j : ℝ) + 1 / 2) * (c.y - a.y) / 10) * (Boundary.distance a c / 10) -
      Boundary.distance a c * ∫ t in ((j : ℝ) / 10)..(((j : ℝ) + 1) / 10), f (a.y + t * (c.y - a.y)) =
    Boundary.distance a c * (f (a.y + ((j : ℝ) + 1 / 2) * (c.y - a.y) / 10) / 10 -
      ∫ t in ((j : ℝ) / 10)..(((j : ℝ) + 1) / 10), f (a.y + t * (c.y - a.y))) by ring, abs_mul, abs_of_nonneg hd, hm,
    ← intervalIntegral.integral_sub (by simp) (hcont.intervalIntegrable _ _), mul_comm]
  refine mul_le_mul_of_nonneg_right ?_ hd
  have := intervalIntegral.norm_integral_le_of_norm_le_const (a := (j : ℝ) / 10) (b := ((j : ℝ) + 1) / 10) (C := K * |c.y - a.y| / 20)
    (f := fun t => f (a.y + ((j : ℝ) + 1 / 2) * (c.y - a.y) / 10) - f (a.y + t * (c.y - a.y))) fun t ht => by
      rw [Set.uIoc_of_le (by linarith), Set.mem_Ioc] at ht
      have hK0 : 0 ≤ K := by
        have := (abs_nonneg _).trans (hK 0 1)
        simpa using this
      rw [Real.norm_eq_abs]
      refine (hK _ _).trans ?_
      rw [show a.y + ((j : ℝ) + 1 / 2) * (c.y - a.y) / 10 - (a.y + t * (c.y - a.y)) = (((j : ℝ) + 1 / 2) / 10 - t) * (c.y - a.y) by ring, abs_mul]
      have h2 : |((j : ℝ) + 1 / 2) / 10 - t| ≤ 1 / 20 := by rw [abs_le]; constructor <;> linarith [ht.1, ht.2]
      have h3 : |((j : ℝ) + 1 / 2) / 10 - t| * |c.y - a.y| ≤ 1 / 20 * |c.y - a.y| := mul_le_mul_of_nonneg_right h2 (abs_nonneg _)
      calc K * _ ≤ K * (1 / 20 * |c.y - a.y|) := mul_le_mul_of_nonneg_left h3 hK0
        _ = _ := by ring
  rw [Real.norm_eq_abs] at this
  refine this.trans (le_of_eq ?_)
  rw [show ((j : ℝ) + 1) / 10 - (j : ℝ) / 10 = 1 / 10 by ring, abs_of_pos (by norm_num : (0 : ℝ) < 1 / 10)]
  ring

theorem midSum_zone {u l r : ℝ} (hlu : l < u) {a c : Coord ℝ} (hz : OneZone u l a.y c.y) :
    midSum (heightWeight u l r) a c = weightedLength u l r a c ∧
      weightedLength u l r a c = Boundary.distance a c * ((heightWeight u l r a.y + heightWeight u l r c.y) / 2) := by
  have e2 : weightedLength u l r a c = Boundary.distance a c * ((heightWeight u l r a.y + heightWeight u l r c.y) / 2) := by
    unfold weightedLength
    congr 1
    rw [intervalIntegral.integral_congr (g := fun t => heightWeight u l r a.y + t * (heightWeight u l r c.y - heightWeight u l r a.y))]
    · rw [intervalIntegral.integral_add (by simp) (Continuous.intervalIntegrable (by fun_prop) _ _), intervalIntegral.integral_const,
        intervalIntegral.integral_mul_const, integral_id]
      simp
      ring
    · intro t ht
      rw [Set.uIcc_of_le (by norm_num), Set.mem_Icc] at ht
      exact weight_zone hlu hz ht.1 ht.2
  refine ⟨?_, e2⟩
  rw [e2]
  unfold midSum
  have : ∀ j ∈ Finset.range 10, heightWeight u l r (a.y + ((j : ℝ) + 1 / 2) * (c.y - a.y) / 10) * (Boundary.distance a c / 10) =
      (heightWeight u l r a.y + ((j : ℝ) + 1 / 2) / 10 * (heightWeight u l r c.y - heightWeight u l r a.y)) * (Boundary.distance a c / 10) := by
    intro j hj
    have hj : (j : ℝ) ≤ 9 := by exact_mod_cast (by have := Finset.mem_range.1 hj; omega : j ≤ 9)
    rw [← weight_zone hlu hz (by positivity) (by linarith)]
    congr 2
    ring
  rw [Finset.sum_congr rfl this]
  simp only [Finset.sum_range_succ, Finset.sum_range_zero]
  push_cast
  ring

/-! ### Sums over neighbours and segments -/

/-- The neighbours of a point are the other ends of the segments that end at it (with multiplicity). -/
structure Incident (b : Boundary ℝ) : Prop where
  size : ∀ p ∈ b.points, p.nNeighbours ≤ p.neighbours.length
  inside : ∀ p ∈ b.points, ∀ j ∈ p.neighbours.take p.nNeighbours, j < b.points.length
  ends : ∀ s ∈ b.segments, s.start < b.points.length ∧ s.stop < b.points.length
  sum : ∀ (k : Nat) (p : BoundaryPoint ℝ), b.points[k]? = some p → ∀ f : Nat → ℝ, ((p.neighbours.take p.nNeighbours).map f).sum =
    (b.segments.map fun s => (if k = s.start then f s.stop else 0) + if k = s.stop then f s.start else 0).sum

theorem incident_of_discretise {w h : Nat} {L L' : LevelSet ℝ} {isTarget : Bool} {b : Boundary ℝ} (R : Boundary.Ready w h L isTarget)
    (e : Boundary.discretise L isTarget = .ok (b, L')) : Incident b := by
  have H := Sensitivity.linked_of_discretise R e
  have M := Boundary.made R e
  refine ⟨H.size, H.inside, fun s hs => ?_, fun k p hk f => ?_⟩
  · obtain ⟨p, q, h1, h2, -⟩ := M.segment hs
    exact ⟨(List.getElem?_eq_some_iff.1 h1).1, (List.getElem?_eq_some_iff.1 h2).1⟩
  · obtain ⟨_, _, _, p0, h0, hl⟩ := M.point hk
    have hn : p.nNeighbours = (Boundary.upTo (Boundary.nbrsAt b.segments k) b.segments.length).length := by rw [hl.eq]
    have ht := hl.ntake
    rw [← hn] at ht
    rw [ht, Boundary.nbrs_eq]
    generalize b.segments = segs
    induction segs with
    | nil => rfl
    | cons g l ih =>
      rw [List.flatMap_cons, List.map_append, List.sum_append, ih, List.map_cons, List.sum_cons, List.map_append, List.sum_append]
      congr 1
      congr 1 <;> split_ifs <;> simp

theorem Fits.incident {ρ : Type} {w h : Nat} {s : State ρ ℝ} {L L0 : LevelSet ℝ} {b0 : Boundary ℝ} (F : Fits w h s L L0 b0) : Incident s.boundary := by
  have I := incident_of_discretise (ready_of_reachable F.reach) F.disc
  have hl := F.normals.length_eq
  have hs : s.boundary.segments = b0.segments := by rw [F.eq]
  refine ⟨fun p hp => ?_, fun p hp j hj => ?_, fun g hg => ?_, fun k p hk f => ?_⟩
  · obtain ⟨q, hq, e⟩ := forall₂_mem' F.normals hp
    rw [e]; exact I.size q hq
  · obtain ⟨q, hq, e⟩ := forall₂_mem' F.normals hp
    rw [← hl]; rw [e] at hj; exact I.inside q hq j hj
  · rw [hs] at hg; rw [← hl]; exact I.ends g hg
  · rw [hs]
    have hk' : k < b0.points.length := by rw [hl]; exact (List.getElem?_eq_some_iff.1 hk).1
    have e := F.normals.get (i := k) hk' (by rw [← hl]; exact hk')
    rw [List.getElem?_eq_getElem (by rw [← hl]; exact hk')] at hk
    cases hk
    rw [List.get_eq_getElem, List.get_eq_getElem] at e
    rw [e]
    exact I.sum k _ (List.getElem?_eq_getElem hk') f

section
variable {b : Boundary ℝ}

/-- Displacing a point. -/
theorem Incident.set (I : Incident b) {k : Nat} {p : BoundaryPoint ℝ} (hk : b.points[k]? = some p) (c : Coord ℝ) :
    Incident { b with points := b.points.set k { p with coord := c } } := by
  have hp : p ∈ b.points := List.mem_iff_getElem?.2 ⟨k, hk⟩
  refine ⟨fun q hq => ?_, fun q hq j hj => ?_, fun g hg => ?_, fun j q hj f => ?_⟩
  · rcases List.mem_or_eq_of_mem_set hq with h | rfl
    · exact I.size q h
    · exact I.size p hp
  · rw [List.length_set]
    rcases List.mem_or_eq_of_mem_set hq with h | rfl
    · exact I.inside q h j hj
    · exact I.inside p hp j hj
  · rw [List.length_set]; exact I.ends g hg
  · dsimp only at hj ⊢
    by_cases hjk : j = k
    · subst hjk
      rw [List.getElem?_set_self (List.getElem?_eq_some_iff.1 hk).1] at hj
      cases hj
      exact I.sum j p hk f
    · rw [List.getElem?_set_ne (Ne.symm hjk)] at hj
      exact I.sum j q hj f

theorem Incident.total (I : Incident b) (g : Nat → ℝ) {F : Coord ℝ → Coord ℝ → ℝ} (hF : ∀ a c, F a c = F c a) :
    ∑ k ∈ Finset.range b.points.length, g k * (1 / 2 * (((b.points[k]?).elim [] fun p => p.neighbours.take p.nNeighbours).map fun j =>
      F (placeOf b.points k) (placeOf b.points j)).sum) =
    (b.segments.map fun s => F (placeOf b.points s.start) (placeOf b.points s.stop) * ((g s.start + g s.stop) / 2)).sum := by
  have e1 : ∀ k ∈ Finset.range b.points.length, g k * (1 / 2 * (((b.points[k]?).elim [] fun p => p.neighbours.take p.nNeighbours).map fun j =>
      F (placeOf b.points k) (placeOf b.points j)).sum) = g k * (1 / 2 * (b.segments.map fun s =>
        (if k = s.start then F (placeOf b.points k) (placeOf b.points s.stop) else 0) +
        if k = s.stop then F (placeOf b.points k) (placeOf b.points s.start) else 0).sum) := by
    intro k hk
    have hk := Finset.mem_range.1 hk
    rw [← I.sum k _ (List.getElem?_eq_getElem hk) fun j => F (placeOf b.points k) (placeOf b.points j), List.getElem?_eq_getElem hk]
    rfl
  rw [Finset.sum_congr rfl e1]
  have hn := I.ends
  generalize b.points.length = n at hn
  generalize b.segments = segs at hn
  generalize placeOf b.points = c
  induction segs with
  | nil => simp
  | cons s l ih =>
    have ih := ih fun s hs => hn s (List.mem_cons_of_mem _ hs)
    obtain ⟨h1, h2⟩ := hn s List.mem_cons_self
    simp only [List.map_cons, List.sum_cons]
    rw [← ih]
    simp only [mul_add]
    rw [Finset.sum_add_distrib, Finset.sum_add_distrib]
    congr 1
    have a1 : ∀ k, g k * (1 / 2 * if k = s.start then F (c k) (c s.stop) else 0) =
        if k = s.start then 1 / 2 * g s.start * F (c s.start) (c s.stop) else 0 := fun k => by
      split_ifs with hk
      · rw [hk]; ring
      · ring
    have a2 : ∀ k, g k * (1 / 2 * if k = s.stop then F (c k) (c s.start) else 0) =
        if k = s.stop then 1 / 2 * g s.stop * F (c s.start) (c s.stop) else 0 := fun k => by
      split_ifs with hk
      · rw [hk, hF (c s.stop)]; ring
      · ring
    simp only [a1, a2]
    rw [Finset.sum_ite_eq', Finset.sum_ite_eq', if_pos (Finset.mem_range.2 h1), if_pos (Finset.mem_range.2 h2)]
    ring

/-! ### The functions of the programs -/

variable {u l r : ℝ}

/-- Value of `computePointLength` at the place `c`. -/
noncomputable def lengthAt (u l r : ℝ) (points : List (BoundaryPoint ℝ)) (p : BoundaryPoint ℝ) (c : Coord ℝ) : ℝ :=
  ((p.neighbours.take p.nNeighbours).map fun j => midSum (heightWeight u l r) c (placeOf points j)).sum

theorem pointLength_real (I : Incident b) (hlu : l < u) {p : BoundaryPoint ℝ} (hp : p ∈ b.points) (c : Coord ℝ) :
    pointLength (gravity u l r) b.points { p with coord := c } = .ok (lengthAt u l r b.points p c) := by
  have hn := I.size p hp
  unfold pointLength
  refine forN_eq (fun i => ((p.neighbours.take i).map fun j => midSum (heightWeight u l r) c (placeOf b.points j)).sum) (by simp) fun i hi => ?_
  dsimp only at hi
  have hi' : i < p.neighbours.length := by omega
  have hq : p.neighbours[i] < b.points.length := I.inside p hp _ (List.mem_iff_getElem?.2 ⟨i, by
    rw [List.getElem?_take, if_pos hi, List.getElem?_eq_getElem hi']⟩)
  dsimp only
  rw [rd_eq hi']
  simp only [bind, Except.bind]
  rw [rd_eq hq]
  rw [List.take_succ, List.getElem?_eq_getElem hi', List.map_append, List.sum_append]
  simp only [Option.toList, List.map_cons, List.map_nil, List.sum_cons, List.sum_nil, add_zero]
  have hpl : placeOf b.points p.neighbours[i] = (b.points[p.neighbours[i]]).coord := by
    unfold placeOf
    rw [List.getElem?_eq_getElem hq]
    rfl
  rw [hpl]
  generalize (b.points[p.neighbours[i]]).coord = a
  generalize (List.map (fun j => midSum (heightWeight u l r) c (placeOf b.points j)) (List.take i p.neighbours)).sum = v
  unfold midSum
  have hd : Real.sqrt ((a.x - c.x) * (a.x - c.x) + (a.y - c.y) * (a.y - c.y)) = Boundary.distance c a := by
    rw [Boundary.distance_comm]
    rfl
  refine forN_eq (fun n => v + ∑ j ∈ Finset.range n, heightWeight u l r (c.y + ((j : ℝ) + 1 / 2) * (a.y - c.y) / 10) * (Boundary.distance c a / 10))
    (by simp) fun n hn => ?_
  rw [weight_real hlu, Finset.sum_range_succ, ← hd]
  simp only [FP.add_real, FP.sub_real, FP.mul_real, FP.div_real, FP.nat_real, FP.sqrt_real, FP.lit_real]
  push_cast
  rw [add_assoc]
  rfl

theorem perimeter_sum (I : Incident b) (hlu : l < u) : weightedPerimeter (gravity u l r) b.points =
    .ok (overSegments b (midSum (heightWeight u l r))) := by
  have key : weightedPerimeter (gravity u l r) b.points = .ok (∑ k ∈ Finset.range b.points.length, 1 * (1 / 2 *
      (((b.points[k]?).elim [] fun p => p.neighbours.take p.nNeighbours).map fun j =>
        midSum (heightWeight u l r) (placeOf b.points k) (placeOf b.points j)).sum)) := by
    unfold weightedPerimeter
    refine forN_eq (fun n => ∑ k ∈ Finset.range n, 1 * (1 / 2 * (((b.points[k]?).elim [] fun p => p.neighbours.take p.nNeighbours).map fun j =>
        midSum (heightWeight u l r) (placeOf b.points k) (placeOf b.points j)).sum)) (by simp) fun n hn => ?_
    rw [rd_eq hn]
    simp only [bind, Except.bind]
    have := pointLength_real (r := r) I hlu (List.getElem_mem hn) (b.points[n]).coord
    rw [show ({ b.points[n] with coord := (b.points[n]).coord } : BoundaryPoint ℝ) = b.points[n] from rfl] at this
    rw [this, Finset.sum_range_succ]
    have e : placeOf b.points n = (b.points[n]).coord := by
      unfold placeOf
      rw [List.getElem?_eq_getElem hn]
      rfl
    rw [e, List.getElem?_eq_getElem hn]
    simp only [FP.add_real, FP.mul_real, FP.lit_real, pure, Except.pure, one_mul]
    unfold lengthAt
    push_cast
    rfl
  rw [key, I.total (fun _ => 1) (midSum_comm _)]
  congr 1
  unfold overSegments
  congr 1
  refine List.map_congr_left fun s _ => ?_
  ring

theorem centre_sum (I : Incident b) (hlu : l < u) : centreOfMass (gravity u l r) b.points =
    .ok (overSegments b (fun a c => midSum (heightWeight u l r) a c * ((a.x + c.x) / 2)) / overSegments b (midSum (heightWeight u l r)),
      overSegments b (fun a c => midSum (heightWeight u l r) a c * ((a.y + c.y) / 2)) / overSegments b (midSum (heightWeight u l r))) := by
  let W : Nat → ℝ := fun k => 1 / 2 * (((b.points[k]?).elim [] fun p => p.neighbours.take p.nNeighbours).map fun j =>
        midSum (heightWeight u l r) (placeOf b.points k) (placeOf b.points j)).sum
  have tot : ∀ g : Nat → ℝ, ∑ k ∈ Finset.range b.points.length, g k * W k =
      (b.segments.map fun s => midSum (heightWeight u l r) (placeOf b.points s.start) (placeOf b.points s.stop) * ((g s.start + g s.stop) / 2)).sum :=
    fun g => I.total g (midSum_comm _)
  unfold centreOfMass
  rw [forN_eq (fun n => (∑ k ∈ Finset.range n, 1 * W k, ∑ k ∈ Finset.range n, (placeOf b.points k).x * W k,
    ∑ k ∈ Finset.range n, (placeOf b.points k).y * W k)) (by simp) fun n hn => ?_]
  · simp only [bind, Except.bind, pure, Except.pure, FP.div_real, tot]
    unfold overSegments
    have e1 : (b.segments.map fun s => midSum (heightWeight u l r) (placeOf b.points s.start) (placeOf b.points s.stop) * ((1 + 1) / 2)) =
        b.segments.map fun s => midSum (heightWeight u l r) (placeOf b.points s.start) (placeOf b.points s.stop) :=
      List.map_congr_left fun s _ => by ring
    rw [e1]
  · dsimp only
    rw [rd_eq hn]
    simp only [bind, Except.bind]
    have := pointLength_real (r := r) I hlu (List.getElem_mem hn) (b.points[n]).coord
    rw [show ({ b.points[n] with coord := (b.points[n]).coord } : BoundaryPoint ℝ) = b.points[n] from rfl] at this
    rw [this, Finset.sum_range_succ, Finset.sum_range_succ, Finset.sum_range_succ]
    have e : placeOf b.points n = (b.points[n]).coord := by
      unfold placeOf
      rw [List.getElem?_eq_getElem hn]
      rfl
    have eW : W n = 1 / 2 * lengthAt u l r b.points b.points[n] (b.points[n]).coord := by
      dsimp only [W]
      rw [e, List.getElem?_eq_getElem hn]
      rfl
    rw [e, eW]
    simp only [FP.add_real, FP.mul_real, FP.lit_real, pure, Except.pure, one_mul]
    push_cast
    rw [mul_assoc, mul_assoc]

theorem lengthAt_sum (I : Incident b) {k : Nat} {p : BoundaryPoint ℝ} (hk : b.points[k]? = some p) (c : Coord ℝ) :
    lengthAt u l r b.points p c = (b.segments.map fun s => (if k = s.start then midSum (heightWeight u l r) c (placeOf b.points s.stop) else 0) +
      if k = s.stop then midSum (heightWeight u l r) c (placeOf b.points s.start) else 0).sum :=
  I.sum k p hk fun j => midSum (heightWeight u l r) c (placeOf b.points j)

/-- The change of the weighted perimeter when a point is displaced. -/
theorem displaced_sum (I : Incident b) (hne : ∀ s ∈ b.segments, s.start ≠ s.stop) {k : Nat} {p : BoundaryPoint ℝ} (hk : b.points[k]? = some p)
    (c : Coord ℝ) : overSegments { b with points := b.points.set k { p with coord := c } } (midSum (heightWeight u l r)) -
      overSegments b (midSum (heightWeight u l r)) = lengthAt u l r b.points p c - lengthAt u l r b.points p p.coord := by
  rw [lengthAt_sum I hk, lengthAt_sum I hk]
  have hk0 : placeOf b.points k = p.coord := by unfold placeOf; rw [hk]; rfl
  have hp : ∀ j, placeOf (b.points.set k { p with coord := c }) j = if j = k then c else placeOf b.points j := by
    intro j
    unfold placeOf
    split_ifs with hj
    · rw [hj, List.getElem?_set_self (List.getElem?_eq_some_iff.1 hk).1]
      rfl
    · rw [List.getElem?_set_ne (Ne.symm hj)]
  unfold overSegments
  simp only [hp]
  rw [← hk0]
  generalize placeOf b.points = q
  generalize b.segments = segs at hne
  induction segs with
  | nil => simp
  | cons s m ih =>
    have ih := ih fun s hs => hne s (List.mem_cons_of_mem _ hs)
    have h1 := hne s List.mem_cons_self
    simp only [List.map_cons, List.sum_cons]
    rw [add_sub_add_comm, ih, add_sub_add_comm]
    congr 1
    by_cases a1 : s.start = k <;> by_cases a2 : s.stop = k
    · exact absurd (a1.trans a2.symm) h1
    · rw [if_pos a1, if_neg a2, if_pos a1.symm, if_neg (Ne.symm a2), if_pos a1.symm, if_neg (Ne.symm a2), a1]
      ring
    · rw [if_neg a1, if_pos a2, if_neg (Ne.symm a1), if_pos a2.symm, if_neg (Ne.symm a1), if_pos a2.symm, a2, midSum_comm _ c, midSum_comm _ (q k)]
      ring
    · rw [if_neg a1, if_neg a2, if_neg (Ne.symm a1), if_neg (Ne.symm a2), if_neg (Ne.symm a1), if_neg (Ne.symm a2)]
      ring

/-- Lengths of the segments. -/
theorem Fits.length {ρ : Type} {w h : Nat} {s : State ρ ℝ} {L L0 : LevelSet ℝ} {b0 : Boundary ℝ} (F : Fits w h s L L0 b0) :
    overSegments s.boundary Boundary.distance = s.boundary.length := by
  have R := ready_of_reachable F.reach
  obtain ⟨h1, h2, -⟩ := C38_segments R F.disc
  have hs : s.boundary.segments = b0.segments := by rw [F.eq]
  have hl : s.boundary.length = b0.length := by rw [F.eq]
  have hp : ∀ (k : Nat) (p : BoundaryPoint ℝ), b0.points[k]? = some p → placeOf s.boundary.points k = p.coord := by
    intro k p hk
    have hk' := (List.getElem?_eq_some_iff.1 hk).1
    have hk2 : k < s.boundary.points.length := by rw [← F.normals.length_eq]; exact hk'
    have e := F.normals.get (i := k) hk' hk2
    rw [List.get_eq_getElem, List.get_eq_getElem] at e
    rw [List.getElem?_eq_getElem hk'] at hk
    cases hk
    unfold placeOf
    rw [List.getElem?_eq_getElem hk2, e]
    rfl
  rw [hl, h2]
  unfold overSegments
  rw [hs]
  congr 1
  refine List.map_congr_left fun g hg => ?_
  obtain ⟨p, q, _, _, e1, e2, e3, -⟩ := h1 g hg
  rw [hp _ _ e1, hp _ _ e2, e3]

end

/-- A state of the program with the weighted perimeter in which all sensitivities are defined. -/
theorem weighted_assign_demo {u l r : ℝ} (hlu : l < u) (normal : Unit → ℝ × Unit) (T m : ℝ) (A : List ℝ) : ∃ (s : State Unit ℝ) (b : Boundary ℝ) (k : Nat)
    (p : BoundaryPoint ℝ), Running 5 5 (weighted (gravity u l r) normal T m A) s ∧
      (weighted (gravity u l r) normal T m A).assign s.levelSet s.boundary = .ok b ∧ s.boundary.points[k]? = some p ∧ 0 < p.length := by
  have ha : Mid (1 / 10 ^ 4) := ⟨by norm_num, by norm_num⟩
  obtain ⟨L, L1, L2, b, hr, e1, hr1, Ta, hN, e2, hf, ht, hL2, p, hp, hpl⟩ := striped_start ha (List.replicate 36 0)
  obtain ⟨L3, e3⟩ := C45_returns Ta (.inr hN) e2
  obtain ⟨b', e4, -⟩ := C44_normals_partial hr1 Ta e2
  have e5 : b.computeNormalVectors L3 = .ok b' := by
    rw [(C45_frame e3).1]
    exact e4
  let s : State Unit ℝ := { levelSet := L3, boundary := b', lambdas := [0, 0], nReinit := 0, runningTime := 0, rng := () }
  have es : start (weighted (gravity u l r) normal T m A) L 2 () = .ok s := by
    unfold start launch
    rw [e1]
    simp only [bind, Except.bind]
    unfold refresh
    dsimp only
    rw [e2]
    simp only [bind, Except.bind, weighted, pure, Except.pure]
    rw [e3]
    dsimp only
    rw [e5]
    simp [s]
  have hs : Running 5 5 (weighted (gravity u l r) normal T m A) s := .start hr es
  obtain ⟨L', L0, b0, F⟩ := hs.fits (regular_weighted _ normal T m A)
  have hr3 : Reachable 5 5 L3 := F.reachable
  have ht3 : L3.target.length = L3.mesh.nNodes := by
    rw [hr3.core.grid.nNodes, show L3.target = L1.target by rw [(C45_frame e3).1, hL2], ht]
    rfl
  have f2 := (normals_frame e5).2
  have hval : ∀ q ∈ b'.points, ∃ v, mismatchSensitivity L3 q.coord = .ok v := fun q hq => by
    obtain ⟨q0, h0, e⟩ := forall₂_mem' f2 hq
    rw [show q.coord = q0.coord by rw [e]]
    exact striped_mismatch ha Ta e2 hf hr3 ht3 h0
  obtain ⟨b1, h1⟩ := setSensitivity_safe (k := 0) (value := weightedSensitivity (gravity u l r) b') (b := b') fun p hp =>
    ⟨by rw [(F.fresh hp).1]; simp, by
      have := (Sensitivity.C54_restores (FP.lit 1 10000) p (pointLength (gravity u l r) b'.points)).1 _ _ (pointLength_real F.incident hlu hp _)
        (pointLength_real F.incident hlu hp _)
      unfold weightedSensitivity
      rw [this]
      exact ⟨_, rfl⟩⟩
  have f1 := (setSensitivity_frame h1).2
  obtain ⟨b2, h2⟩ := setSensitivity_safe (k := 1) (value := fun p => mismatchSensitivity L3 p.coord) (b := b1) fun p hp => by
    obtain ⟨q, hq, e⟩ := forall₂_mem' f1 hp
    exact ⟨by rw [e.2, (F.fresh hq).1]; simp, by rw [e.1]; exact hval q hq⟩
  obtain ⟨b3, h3, -⟩ := ito_ok (delta := FP.lit 1 10000) (T := T) (linked_sens (linked_sens F.linked f1) (setSensitivity_frame h2).2)
  obtain ⟨k, hk⟩ := List.mem_iff_getElem?.1 hp
  obtain ⟨p', hk', e⟩ := forall₂_get f2 hk
  refine ⟨s, b3, k, p', hs, ?_, hk', by rw [e]; exact hpl⟩
  change (setSensitivity 0 (weightedSensitivity (gravity u l r) b') b' >>= fun b' =>
    setSensitivity 1 (fun p => mismatchSensitivity L3 p.coord) b' >>= fun b' => Sensitivity.itoCorrection (FP.lit 1 10000) b' T) = _
  rw [h1]
  simp only [bind, Except.bind]
  rw [h2]
  exact h3

/-- The program with the weighted perimeter, for the example of `BndKink`. -/
theorem weighted_demo (G : Gravity ℝ) (normal : Unit → ℝ × Unit) (T m : ℝ) (A : List ℝ) : ∃ (s : State Unit ℝ) (k : Nat) (p : BoundaryPoint ℝ),
    Running 5 5 (weighted G normal T m A) s ∧ s.boundary.points[k]? = some p ∧ 0 < p.length ∧ (∀ g ∈ s.boundary.segments, g.start ≠ g.stop) ∧
      0 < s.boundary.length := by
  obtain ⟨L, L1, L2, b, b', k, p, hr, e1, hr1, Ta, hN, e2, e4, h1, h2, h3, h4⟩ := kink_start
  obtain ⟨L3, e3⟩ := C45_returns Ta (.inr hN) e2
  have e5 : b.computeNormalVectors L3 = .ok b' := by
    rw [(C45_frame e3).1]
    exact e4
  let s : State Unit ℝ := { levelSet := L3, boundary := b', lambdas := [0, 0], nReinit := 0, runningTime := 0, rng := () }
  have es : start (weighted G normal T m A) L 2 () = .ok s := by
    unfold start launch
    rw [e1]
    simp only [bind, Except.bind]
    unfold refresh
    dsimp only
    rw [e2]
    simp only [bind, Except.bind, weighted, pure, Except.pure]
    rw [e3]
    dsimp only
    rw [e5]
    simp [s]
  have hfin : (weighted G normal T m A).finish b L2 = .ok (b', L3) := by
    show (Area.computeAreaFractions L2 b >>= fun L => b.computeNormalVectors L >>= fun b => pure (b, L)) = _
    rw [e3]
    simp only [bind, Except.bind]
    rw [e5]
    rfl
  obtain ⟨f1, f2, -⟩ := (regular_weighted G normal T m A).finish _ _ _ _ hfin
  have hseg : b'.segments = b.segments := by rw [f1]
  have hlen : b'.length = b.length := by rw [f1]
  refine ⟨s, k, p, .start hr es, h1, h3, fun g hg => ?_, ?_⟩
  · obtain ⟨-, -, -, -, -, hne, -⟩ := C38_segments_exact Ta e2 (hseg ▸ hg : g ∈ b.segments)
    exact hne
  · obtain ⟨q, hq, e⟩ := forall₂_mem' f2 (List.mem_of_getElem? h1)
    show 0 < b'.length
    obtain ⟨c1, c2⟩ := C40_point_lengths Ta.toReady e2
    rw [hlen, ← c1]
    have hq' : 0 < q.length := by rw [e] at h3; exact h3
    refine lt_of_lt_of_le hq' (List.single_le_sum (fun v hv => ?_) _ (List.mem_map.2 ⟨q, hq, rfl⟩))
    obtain ⟨s', hs', rfl⟩ := List.mem_map.1 hv
    exact (c2 s' hs').2

end Slsm.Program
