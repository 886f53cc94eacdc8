import Verif.Proof.Match
import Verif.Proof.Columns

/-! # C82: what the programs constrain and record -/

namespace Slsm.Program

open LevelSet

section
variable {ρ : Type} {w h : Nat} {L L1 : LevelSet ℝ} {A : List ℝ} {f g : Nat → Nat → ℝ}

/-- **C82** (target): discretising the target gives the areas that the target occupies in the cells; the signed distance function and the target stay
the same. -/
theorem C82_target (T : Boundary.Tame w h L true) : ∃ A L1, targetAreas L = .ok (A, L1) ∧ ListsAreas w h (Boundary.level w L true) A ∧
    L1.signedDistance = L.signedDistance ∧ L1.target = L.target ∧ L1.band = L.band := by
  obtain ⟨b, L', e1⟩ := C41_safe_partial T
  obtain ⟨L1, e2⟩ := C45_returns T (.inl rfl) e1
  obtain ⟨A, e3, hA⟩ := target_list (hasAreas T (.inl rfl) e1 e2)
  have hL : L' = { L with mesh := L'.mesh } := by
    obtain ⟨_, _, -, -, -, -, -, -, -, -, -, -, -, h4⟩ := C36_node_status T.toReady e1 (Nat.zero_le _) (Nat.zero_le _)
    exact h4
  refine ⟨A, L1, ?_, hA, ?_, ?_, ?_⟩
  · unfold targetAreas
    rw [e1]
    simp only [bind, Except.bind]
    rw [e2]
    dsimp only
    simp only [bind, Except.bind] at e3
    rw [e3]
    rfl
  all_goals rw [(C45_frame e2).1]; dsimp only; rw [hL]
  rfl

/-- Discretising the target does not affect the discretisation of the level set. -/
theorem target_tame (T : Boundary.Tame w h L true) (e : targetAreas L = .ok (A, L1)) (T0 : Boundary.Tame w h L false)
    (hN : Boundary.NearSeen w h L false) : Boundary.Tame w h L1 false ∧ Boundary.NearSeen w h L1 false := by
  unfold targetAreas at e
  obtain ⟨⟨b, L3⟩, h1, e⟩ := bind_eq_ok e
  obtain ⟨L4, h2, e⟩ := bind_eq_ok e
  obtain ⟨A4, -, e⟩ := bind_eq_ok e
  cases e
  have h3 : L3 = { L with mesh := L3.mesh } := by
    obtain ⟨_, _, -, -, -, -, -, -, -, -, -, -, -, h4⟩ := C36_node_status T.toReady h1 (Nat.zero_le _) (Nat.zero_le _)
    exact h4
  have hsd : L1.signedDistance = L.signedDistance := by
    rw [(C45_frame h2).1]; dsimp only; rw [h3]
  have hnodes : L1.mesh.nodes = L3.mesh.nodes := by rw [(C45_frame h2).1]
  have hg : IsGrid w h L1.mesh := (areas_frame h2).grid (grid_after T h1)
  have hl : Boundary.level w L1 false = Boundary.level w L false := by
    funext x y
    show vals L1.signedDistance _ = vals L.signedDistance _
    rw [hsd]
  have hnd : ∀ x y nd, x ≤ w → y ≤ h → L.mesh.nodes[nodeNo w x y]? = some nd → (nd.isActive = true ∨ nd.isMasked = true) →
      ∃ nd', L1.mesh.nodes[nodeNo w x y]? = some nd' ∧ (nd'.isActive = true ∨ nd'.isMasked = true) := by
    intro x y nd hx hy hn ha
    obtain ⟨a, a', k1, k2, -, -, -, -, -, k3, k4, -⟩ := C36_node_status T.toReady h1 hx hy
    rw [hn] at k1
    cases k1
    exact ⟨a', by rw [hnodes]; exact k2, by rw [k3, k4]; exact ha⟩
  refine ⟨⟨⟨hg, ?_, T0.fit⟩, by rw [hl]; exact T0.gentle, .inr ?_, by rw [hl]; exact T0.tidy⟩, ?_⟩
  · have := T0.len
    rw [hg.nNodes, ← T0.grid.nNodes]
    show _ ≤ L1.signedDistance.length
    rw [hsd]
    exact this
  · intro p hp
    rw [hl] at hp
    rcases T0.seen with hc | hs
    · cases hc
    obtain ⟨q, hq, nd, hn, ha⟩ := hs p hp
    obtain ⟨i1, i2⟩ := hp.1 q hq
    exact ⟨q, hq, hnd _ _ _ i1 i2 hn ha⟩
  · intro x y hx hy hv
    rw [hl] at hv
    obtain ⟨nd, hn, ha⟩ := hN x y hx hy hv
    exact hnd _ _ _ hx hy hn ha

/-- **C82** (beginning): programs with a target start the loop at time zero with the reinitialised level set and with the areas that the target they
were given occupies in the cells. -/
theorem C82_start {P : List ℝ → Problem ρ ℝ} (hP : ∀ A, Regular (P A)) {n : Nat} {r : ρ} {s : State ρ ℝ} (hr : Reachable w h L)
    (e1 : reinitialise L = .ok L1) (T : Boundary.Tame w h L1 true) (e : startTarget P L n r = .ok (A, s)) :
    ListsAreas w h (Boundary.level w L true) A ∧ Running w h (P A) s ∧ s.runningTime = 0 ∧ s.lambdas = List.replicate n 0 ∧ s.nReinit = 0 ∧
    s.rng = r ∧ s.levelSet.signedDistance = L1.signedDistance ∧ s.levelSet.band = L1.band := by
  have hr1 : Reachable w h L1 := .call hr (.reinitialise e1)
  obtain ⟨A', L2, e2, hA, u1, u2, u3⟩ := C82_target T
  obtain ⟨-, -, F, -, -, hB⟩ := wp_of_ok (reinitialise_spec hr.core.toWF hr.core.small) e1
  have ht : L1.target = L.target := by rw [hB.frame]
  have hr2 : Reachable w h L2 := by
    have e2' := e2
    unfold targetAreas at e2'
    obtain ⟨⟨b, L3⟩, h1, e2'⟩ := bind_eq_ok e2'
    obtain ⟨L4, h2, e2'⟩ := bind_eq_ok e2'
    obtain ⟨A4, -, e2'⟩ := bind_eq_ok e2'
    cases e2'
    exact (areas_frame h2).reachable (C36_reachable hr1 T.toReady h1)
  unfold startTarget at e
  rw [e1] at e
  simp only [bind, Except.bind] at e
  rw [e2] at e
  dsimp only at e
  rcases h3 : launch (P A') L2 n r with x | s1
  · rw [h3] at e; cases e
  rw [h3] at e
  cases e
  have h4 := h3
  unfold launch at h4
  obtain ⟨v1, -, -, v4, v5, v6, v7⟩ := refresh_levelSet (hP _) (by exact hr2) h4
  obtain ⟨b0, L0, -, -, v8⟩ := refresh_ok h4
  refine ⟨?_, .launch hr2 h3, by rw [v5]; simp, by rw [v6]; simp, v7, by rw [v8], v1.trans u1, v4.trans u3⟩
  have hl : Boundary.level w L1 true = Boundary.level w L true := by
    funext x y
    unfold Boundary.level Boundary.values
    rw [if_pos rfl, if_pos rfl, ht]
  rw [← hl]
  exact hA

/-- **C82** (mismatch): the difference in area between two structures is between zero and the area of the domain; it is at least the difference of
their total areas, it is zero exactly if they occupy the same area in every cell, it is symmetric and satisfies the triangle inequality. -/
theorem C82_distance (w h : Nat) (f g k : Nat → Nat → ℝ) : 0 ≤ areaDifference w h f g ∧ areaDifference w h f g ≤ w * h ∧
    |totalArea w h f - totalArea w h g| ≤ areaDifference w h f g ∧
    (areaDifference w h f g = 0 ↔ ∀ x y, x < w → y < h → cellArea f x y = cellArea g x y) ∧
    areaDifference w h f g = areaDifference w h g f ∧ areaDifference w h f k ≤ areaDifference w h f g + areaDifference w h g k := by
  unfold areaDifference totalArea
  have h0 : ∀ y ∈ Finset.range h, 0 ≤ ∑ x ∈ Finset.range w, |cellArea f x y - cellArea g x y| := fun _ _ =>
    Finset.sum_nonneg fun _ _ => abs_nonneg _
  refine ⟨Finset.sum_nonneg h0, ?_, ?_, ?_, ?_, ?_⟩
  · calc _ ≤ ∑ y ∈ Finset.range h, ∑ x ∈ Finset.range w, (1 : ℝ) := Finset.sum_le_sum fun y _ => Finset.sum_le_sum fun x _ => by
          obtain ⟨⟨a1, a2⟩, -⟩ := C45_bounds f x y
          obtain ⟨⟨b1, b2⟩, -⟩ := C45_bounds g x y
          rw [abs_le]
          constructor <;> linarith
      _ = w * h := by simp [mul_comm]
  · rw [← Finset.sum_sub_distrib]
    refine (Finset.abs_sum_le_sum_abs _ _).trans (Finset.sum_le_sum fun y _ => ?_)
    rw [← Finset.sum_sub_distrib]
    exact Finset.abs_sum_le_sum_abs _ _
  · rw [Finset.sum_eq_zero_iff_of_nonneg h0]
    constructor
    · intro hz x y hx hy
      have h1 := hz y (Finset.mem_range.2 hy)
      rw [Finset.sum_eq_zero_iff_of_nonneg fun _ _ => abs_nonneg _] at h1
      exact sub_eq_zero.1 (abs_eq_zero.1 (h1 x (Finset.mem_range.2 hx)))
    · intro he y hy
      refine Finset.sum_eq_zero fun x hx => ?_
      rw [he x y (Finset.mem_range.1 hx) (Finset.mem_range.1 hy), sub_self, abs_zero]
  · refine Finset.sum_congr rfl fun y _ => Finset.sum_congr rfl fun x _ => abs_sub_comm _ _
  · rw [← Finset.sum_add_distrib]
    refine Finset.sum_le_sum fun y _ => ?_
    rw [← Finset.sum_add_distrib]
    exact Finset.sum_le_sum fun x _ => abs_sub_le _ _ _

/-- The areas at the top of the loop of the programs that compute them. -/
theorem refresh_areas {P : Problem ρ ℝ} (hP : ∀ b L b' L', P.finish b L = .ok (b', L') → Area.computeAreaFractions L b = .ok L') {t s : State ρ ℝ}
    (T : Boundary.Tame w h t.levelSet false) (hN : Boundary.NearSeen w h t.levelSet false) (e : refresh P t = .ok s) :
    HasAreas w h s.levelSet.mesh (Boundary.level w t.levelSet false) ∧ s.levelSet.area = totalArea w h (Boundary.level w t.levelSet false) ∧
    s.levelSet.mesh.width = w ∧ s.levelSet.mesh.height = h := by
  obtain ⟨b, L0, e1, e2, -⟩ := refresh_ok e
  have e3 := hP _ _ _ _ e2
  have G := grid_after T e1
  refine ⟨hasAreas T (.inr hN) e1 e3, ?_, ?_, ?_⟩
  · rw [C45_total_area T (.inr hN) e1 e3, sum_grid]; rfl
  · rw [(C45_frame e3).1]; exact G.width
  · rw [(C45_frame e3).1]; exact G.height

theorem finish_areas {b b' : Boundary ℝ} {L L' : LevelSet ℝ} (e : (do
    let L ← Area.computeAreaFractions L b
    let b ← b.computeNormalVectors L
    pure (b, L)) = Except.ok (b', L')) : Area.computeAreaFractions L b = .ok L' := by
  obtain ⟨L2, e1, e⟩ := bind_eq_ok e
  obtain ⟨b2, -, e⟩ := bind_eq_ok e
  cases e
  exact e1

theorem cells_small (T : Boundary.Tame w h L false) : u32 (w * h) = w * h :=
  u32_of_lt (by have := T.fit; nlinarith)

/-- **C82** (constraints): at the top of the loop the distance from the constraint handed to the solver is the permitted fraction of the area of the
domain minus the area of the structure (constrained perimeter program), or minus the difference in area between the structure and the target
(dumbbell and bimodal programs).  So it is negative exactly if the constraint is violated. -/
theorem C82_constraint {t s : State ρ ℝ} (T : Boundary.Tame w h t.levelSet false) (hN : Boundary.NearSeen w h t.levelSet false)
    (normal : ρ → ℝ × ρ) (temp limit : ℝ) (G : Gravity ℝ) (hA : ListsAreas w h g A) :
    (refresh (minimisePerimeterConstrained normal temp limit) t = .ok s →
      (minimisePerimeterConstrained normal temp limit).distances s.levelSet =
        .ok [(w * h : ℝ) * limit - totalArea w h (Boundary.level w t.levelSet false)]) ∧
    (refresh (weighted G normal temp limit A) t = .ok s →
      (weighted G normal temp limit A).distances s.levelSet =
        .ok [(w * h : ℝ) * limit - areaDifference w h g (Boundary.level w t.levelSet false)]) := by
  constructor
  · intro e
    obtain ⟨-, h2, h3, h4⟩ := refresh_areas (fun _ _ _ _ => finish_areas) T hN e
    simp only [minimisePerimeterConstrained, h2, h3, h4, cells_small T, pure, Except.pure, FP.sub_real, FP.mul_real, FP.nat_real, Nat.cast_mul]
  · intro e
    obtain ⟨h1, h2, h3, h4⟩ := refresh_areas (fun _ _ _ _ => finish_areas) T hN e
    simp only [weighted, mismatch_sum h1 hA, h3, h4, cells_small T, bind, Except.bind, pure, Except.pure, FP.sub_real, FP.mul_real, FP.nat_real, Nat.cast_mul]

/-- **C82** (shape matching record): the shape matching program records the difference in area between the structure and the target as a fraction of
the area of the domain; so the record is between zero and one, and zero exactly if the two occupy the same area in every cell (`C82_distance`). -/
theorem C82_match_record {normal : ρ → ℝ × ρ} {temp : ℝ} {t s s0 : State ρ ℝ} (T : Boundary.Tame w h t.levelSet false)
    (hN : Boundary.NearSeen w h t.levelSet false) (hA : ListsAreas w h g A) (e : refresh (shapeMatch normal temp) t = .ok s) :
    ∃ s', observeMatch A s0 s = .ok (areaDifference w h g (Boundary.level w t.levelSet false) / (w * h : ℝ), s') ∧
      0 ≤ areaDifference w h g (Boundary.level w t.levelSet false) / (w * h : ℝ) ∧
      areaDifference w h g (Boundary.level w t.levelSet false) / (w * h : ℝ) ≤ 1 := by
  obtain ⟨b, L0, e1, e2, -⟩ := refresh_ok e
  cases e2
  obtain ⟨L1, e3⟩ := C45_returns T (.inr hN) e1
  have G := grid_after T e1
  have h3 : L1.mesh.width = w := by rw [(C45_frame e3).1]; exact G.width
  have h4 : L1.mesh.height = h := by rw [(C45_frame e3).1]; exact G.height
  obtain ⟨d1, d2, -⟩ := C82_distance w h g (Boundary.level w t.levelSet false) g
  have hw : (0 : ℝ) < w * h := by
    have h1 : (1 : ℝ) ≤ w := by exact_mod_cast G.w_pos
    have h2 : (1 : ℝ) ≤ h := by exact_mod_cast G.h_pos
    nlinarith
  refine ⟨{ s with levelSet := L1 }, ?_, div_nonneg d1 hw.le, (div_le_one hw).2 d2⟩
  unfold observeMatch
  rw [e3]
  simp only [bind, Except.bind]
  rw [mismatch_sum (hasAreas T (.inr hN) e1 e3) hA]
  simp only [h3, h4, cells_small T, pure, Except.pure, FP.div_real, FP.nat_real, Nat.cast_mul]

/-- **C82** (length records): the recorded length is the length of the boundary at the time of the sample; the perimeter program also records the mean
of the sensitivities of the boundary points at the beginning of the iteration. -/
theorem C82_length_record {P P0 : Problem ρ ℝ} (hP : Regular P) (hP0 : Regular P0) {s0 s : State ρ ℝ} (hs : Running w h P s) (hs0 : Running w h P0 s0) :
    observeArea s0 s = .ok (overSegments s.boundary Boundary.distance, s) ∧
    ∃ b, (minimisePerimeter : Problem ρ ℝ).assign s0.levelSet s0.boundary = .ok b ∧ b.points.length = s0.boundary.points.length ∧
      ∃ cs, List.Forall₂ (fun p c => p.sensitivities[0]? = some c) b.points cs ∧
        observePerimeter s0 s = .ok ((overSegments s.boundary Boundary.distance, cs.sum / s0.boundary.points.length), s) := by
  obtain ⟨L, L0, b0, F⟩ := hs.fits hP
  obtain ⟨L', L0', b0', F0⟩ := hs0.fits hP0
  obtain ⟨b, h1⟩ := setSensitivity_safe (k := 0) (value := perimeterSensitivity s0.boundary) (b := s0.boundary) fun p hp =>
    ⟨by rw [(F0.fresh hp).1]; simp, perimeter_defined F0 hp⟩
  have hlen : b.points.length = s0.boundary.points.length := (setSensitivity_frame h1).2.length_eq.symm
  refine ⟨?_, b, h1, hlen, ?_⟩
  · rw [F.length]; rfl
  have hsens : ∀ p ∈ b.points, ∃ c, p.sensitivities[0]? = some c := by
    intro p hp
    obtain ⟨q, hq, v, hv, hk, e⟩ := forall₂_mem' (setSensitivity_ok h1).2 hp
    exact ⟨v, by rw [e]; dsimp only; rw [List.getElem?_set_self hk]⟩
  obtain ⟨cs, hcs⟩ : ∃ cs, List.Forall₂ (fun (p : BoundaryPoint ℝ) c => p.sensitivities[0]? = some c) b.points cs := by
    generalize b.points = l at hsens
    induction l with
    | nil => exact ⟨[], .nil⟩
    | cons p l ih =>
      obtain ⟨c, hc⟩ := hsens p List.mem_cons_self
      obtain ⟨cs, hcs⟩ := ih fun q hq => hsens q (List.mem_cons_of_mem _ hq)
      exact ⟨c :: cs, .cons hc hcs⟩
  refine ⟨cs, hcs, ?_⟩
  have hsum : (forN b.points.length (FP.nat 0 : ℝ) fun i c => do
      let p ← rd b.points i
      let v ← rd p.sensitivities 0
      pure (FP.add c v)) = .ok cs.sum := by
    have hl := hcs.length_eq
    rw [forN_eq (fun n => (cs.take n).sum) (by simp) fun i hi => ?_, hl, List.take_length]
    obtain ⟨c, h2, h3⟩ := forall₂_get hcs (List.getElem?_eq_getElem hi)
    rw [rd_eq hi]
    simp only [bind, Except.bind]
    rw [rd_of_getElem? h3]
    simp only [pure, Except.pure, FP.add_real]
    rw [List.take_add_one, h2]
    simp
  unfold observePerimeter
  rw [h1]
  simp only [bind, Except.bind] at hsum ⊢
  rw [hsum]
  rw [F.length, hlen]
  simp [pure, Except.pure]

/-- **C82** (constrained perimeter record): the constrained perimeter program records the length of the boundary and the fraction of the domain that the
structure occupies, both at the time of the sample; the fraction is between zero and one. -/
theorem C82_constrained_record {normal : ρ → ℝ × ρ} {temp limit : ℝ} {t s s0 : State ρ ℝ} (hr : Reachable w h t.levelSet)
    (T : Boundary.Tame w h t.levelSet false) (hN : Boundary.NearSeen w h t.levelSet false)
    (e : refresh (minimisePerimeterConstrained normal temp limit) t = .ok s) :
    observeConstrained s0 s = .ok ((overSegments s.boundary Boundary.distance, totalArea w h (Boundary.level w t.levelSet false) / (w * h : ℝ)), s) ∧
      0 ≤ totalArea w h (Boundary.level w t.levelSet false) / (w * h : ℝ) ∧ totalArea w h (Boundary.level w t.levelSet false) / (w * h : ℝ) ≤ 1 := by
  obtain ⟨-, h2, h3, h4⟩ := refresh_areas (fun _ _ _ _ => finish_areas) T hN e
  obtain ⟨L0, b0, F⟩ := refresh_fits (regular_constrained normal temp limit) hr e
  have hw : (0 : ℝ) < w * h := by
    have h1 : (1 : ℝ) ≤ w := by exact_mod_cast T.grid.w_pos
    have h2 : (1 : ℝ) ≤ h := by exact_mod_cast T.grid.h_pos
    nlinarith
  refine ⟨?_, div_nonneg (Finset.sum_nonneg fun y _ => Finset.sum_nonneg fun x _ => (C45_bounds _ _ _).1.1) hw.le, (div_le_one hw).2 ?_⟩
  · unfold observeConstrained
    rw [F.length, h2, h3, h4, cells_small T]
    simp only [pure, Except.pure, FP.div_real, FP.nat_real, Nat.cast_mul]
  · calc _ ≤ ∑ y ∈ Finset.range h, ∑ x ∈ Finset.range w, (1 : ℝ) := Finset.sum_le_sum fun y _ => Finset.sum_le_sum fun x _ => (C45_bounds _ _ _).1.2
      _ = w * h := by simp [mul_comm]

/-- **C82** (records of the dumbbell and bimodal programs; partial: the mismatch and the height are not those of the recorded boundary, see `C82_height_fails`): the recorded length is the weighted perimeter at the time of the sample; the recorded mismatch is
that at the beginning of the iteration, which belongs to the boundary before the step. -/
theorem C82_weighted_record_partial {normal : ρ → ℝ × ρ} {temp limit : ℝ} {G : Gravity ℝ} {t0 s0 s : State ρ ℝ} (T : Boundary.Tame w h t0.levelSet false)
    (hN : Boundary.NearSeen w h t0.levelSet false) (hA : ListsAreas w h g A) (e : refresh (weighted G normal temp limit A) t0 = .ok s0) {v : ℝ}
    (hv : weightedPerimeter G s.boundary.points = .ok v) {c : ℝ × ℝ} (hc : centreOfMass G s.boundary.points = .ok c) :
    observeDumbbell G A s0 s = .ok ((v, areaDifference w h g (Boundary.level w t0.levelSet false)), s) ∧
    observeBimodal G w A s0 s = .ok ((v, areaDifference w h g (Boundary.level w t0.levelSet false), c.1 - w / 2, c.2 - w / 2), s) := by
  obtain ⟨h1, -, -, -⟩ := refresh_areas (fun _ _ _ _ => finish_areas) T hN e
  constructor
  · unfold observeDumbbell
    rw [mismatch_sum h1 hA, hv]
    rfl
  · unfold observeBimodal
    rw [mismatch_sum h1 hA, hv, hc]
    simp [bind, Except.bind, pure, Except.pure]

/-- **C82** (negation): the bimodal program records positions relative to the centre of the domain, it is said, but subtracts half of the width
from both coordinates: in a domain that is not a square the recorded height is wrong by half of the difference between height and width (by -5 in the program, where the
domain is 70 by 60, `/repo/demos/bimodal.cpp:125-126`), whatever the boundary. -/
theorem C82_height_fails {G : Gravity ℝ} {s0 s s' : State ρ ℝ} {r : ℝ × ℝ × ℝ × ℝ} (e : observeBimodal G w A s0 s = .ok (r, s')) :
    ∃ c, centreOfMass G s.boundary.points = .ok c ∧ r.2.2.1 = c.1 - w / 2 ∧ r.2.2.2 - (c.2 - h / 2) = ((h : ℝ) - w) / 2 := by
  unfold observeBimodal at e
  obtain ⟨m, -, e⟩ := bind_eq_ok e
  obtain ⟨v, -, e⟩ := bind_eq_ok e
  obtain ⟨c, h1, e⟩ := bind_eq_ok e
  obtain ⟨c1, c2⟩ := c
  cases e
  refine ⟨(c1, c2), h1, by simp, ?_⟩
  simp
  ring

end

/-! ### Cases to which the theorems apply -/

/-- Three columns of structure, which are also the target; the domain is 5 by 5.  The hypotheses of the theorems about targets, constraints and
records are met. -/
example (normal : Unit → ℝ × Unit) (temp limit : ℝ) : ∃ (L : LevelSet ℝ) (A : List ℝ) (L1 : LevelSet ℝ) (t s : State Unit ℝ) (v : ℝ) (c : ℝ × ℝ),
    Boundary.Tame 5 5 L true ∧ targetAreas L = .ok (A, L1) ∧ ListsAreas 5 5 (Boundary.level 5 L true) A ∧
    Boundary.Tame 5 5 t.levelSet false ∧ Boundary.NearSeen 5 5 t.levelSet false ∧
    Reachable 5 5 t.levelSet ∧ refresh (minimisePerimeterConstrained normal temp limit) t = .ok s ∧
    refresh (weighted (gravity 4 1 (1 / 50)) normal temp limit A) t = .ok s ∧
    Running 5 5 (weighted (gravity 4 1 (1 / 50)) normal temp limit A) s ∧
    weightedPerimeter (gravity 4 1 (1 / 50)) s.boundary.points = .ok v ∧ centreOfMass (gravity 4 1 (1 / 50)) s.boundary.points = .ok c := by
  obtain ⟨L, hr, hf, hx⟩ := columns_level (cols 0)
  obtain ⟨L1, e1, hf1, hB1, hx1⟩ := columns_reinitialise (cols_turns 0) cols_nearest.1 hr hf hx
  have hf1 := hf1.congr cols_sign.1
  have hr1 : Reachable 5 5 L1 := .call hr (.reinitialise e1)
  obtain ⟨T1, N1⟩ := columns_tame (cols_turns 1) hr1 hf1 hB1 hx1
  have TT : Boundary.Tame 5 5 { L1 with target := L1.signedDistance } true := ⟨⟨T1.grid, T1.len, T1.fit⟩, T1.gentle, .inl rfl, T1.tidy⟩
  obtain ⟨A, L2, e2, hA, -⟩ := C82_target TT
  let t : State Unit ℝ := { levelSet := L1, boundary := Boundary.new, lambdas := List.replicate 2 (FP.nat 0), nReinit := 0, runningTime := FP.nat 0, rng := () }
  obtain ⟨b1, L1', b1', L1'', d1, r1, -⟩ := weighted_refresh (gravity 4 1 (1 / 50)) normal temp limit A t hr1 T1 N1
  have hs : Running 5 5 (weighted (gravity 4 1 (1 / 50)) normal temp limit A) { t with levelSet := L1'', boundary := b1' } :=
    .launch (n := 2) (g := ()) hr1 r1
  obtain ⟨L', L0, b0, F⟩ := hs.fits (regular_weighted _ normal temp limit A)
  exact ⟨_, A, L2, t, _, _, _, TT, e2, hA, T1, N1, hr1, r1, r1, hs, perimeter_sum F.incident (by norm_num), centre_sum F.incident (by norm_num)⟩

/-- The hypotheses of `C82_start` are met by three columns whose target is slightly different. -/
example (normal : Unit → ℝ × Unit) (temp : ℝ) : ∃ (L L1 : LevelSet ℝ) (A : List ℝ) (s : State Unit ℝ), Reachable 5 5 L ∧ reinitialise L = .ok L1 ∧
    Boundary.Tame 5 5 L1 true ∧ L.target ≠ L.signedDistance ∧ startTarget (fun _ => shapeMatch normal temp) L 1 () = .ok (A, s) := by
  obtain ⟨L0, hr0, hf0, hx0⟩ := columns_level (cols 0)
  have C := hr0.core
  obtain ⟨L', e', hf', hB', hx'⟩ := columns_reinitialise (cols_turns 0) cols_nearest.1 hr0 hf0 hx0
  have hf' := hf'.congr cols_sign.1
  have hr' : Reachable 5 5 L' := .call hr0 (.reinitialise e')
  obtain ⟨T', -⟩ := columns_tame (cols_turns 1) hr' hf' hB' hx'
  have hr : Reachable 5 5 { L0 with target := L'.signedDistance } := .call hr0 (.assign L0.signedDistance L0.velocity L0.gradient _ C.sd C.velocity C.gradient)
  obtain ⟨L1, e1, hf1, hB1, hx1⟩ := columns_reinitialise (cols_turns 0) cols_nearest.1 hr hf0 hx0
  have hf1 := hf1.congr cols_sign.1
  have hr1 : Reachable 5 5 L1 := .call hr (.reinitialise e1)
  obtain ⟨T1, N1⟩ := columns_tame (cols_turns 1) hr1 hf1 hB1 hx1
  obtain ⟨-, -, F, -, -, hB⟩ := wp_of_ok (reinitialise_spec hr.core.toWF hr.core.small) e1
  have ht : L1.target = L'.signedDistance := by rw [hB.frame]
  have TT : Boundary.Tame 5 5 L1 true := by
    have hl : Boundary.level 5 L1 true = Boundary.level 5 L' false := by
      funext x y
      show vals L1.target _ = vals L'.signedDistance _
      rw [ht]
    refine ⟨⟨T1.grid, ?_, T1.fit⟩, by rw [hl]; exact T'.gentle, .inl rfl, by rw [hl]; exact T'.tidy⟩
    show L1.mesh.nNodes ≤ L1.target.length
    rw [ht, hr1.core.grid.nNodes, ← hr'.core.grid.nNodes]
    exact T'.len
  obtain ⟨A, L2, e2, -⟩ := C82_target TT
  obtain ⟨T2, -⟩ := target_tame TT e2 T1 N1
  obtain ⟨b, L3, d⟩ := C41_safe_partial T2
  refine ⟨_, L1, A, { levelSet := L3, boundary := b, lambdas := List.replicate 1 (FP.nat 0), nReinit := 0, runningTime := FP.nat 0, rng := () }, hr, e1, TT, ?_, ?_⟩
  · intro hc
    have h1 := hf' 0 0 (by norm_num) (by norm_num)
    have h2 := hf0 0 0 (by norm_num) (by norm_num)
    dsimp only at hc
    rw [hc, h2] at h1
    norm_num [cols] at h1
  · unfold startTarget
    rw [e1]
    simp only [bind, Except.bind]
    rw [e2]
    dsimp only
    unfold launch refresh
    rw [show (State.levelSet _) = L2 from rfl, d]
    rfl

/-- A state of the shape matching program for `C82_match_record`, and the record. -/
example (normal : Unit → ℝ × Unit) (temp : ℝ) : ∃ (t s s' : State Unit ℝ) (A : List ℝ) (L1 L2 : LevelSet ℝ), targetAreas L1 = .ok (A, L2) ∧
    L1.signedDistance = t.levelSet.signedDistance ∧ refresh (shapeMatch normal temp) t = .ok s ∧ s.boundary.points ≠ [] ∧ observeMatch A s s = .ok (0, s') := by
  obtain ⟨L, hr, hf, hx⟩ := columns_level (cols 0)
  obtain ⟨L1, e1, hf1, hB1, hx1⟩ := columns_reinitialise (cols_turns 0) cols_nearest.1 hr hf hx
  have hf1 := hf1.congr cols_sign.1
  have hr1 : Reachable 5 5 L1 := .call hr (.reinitialise e1)
  obtain ⟨T1, N1⟩ := columns_tame (cols_turns 1) hr1 hf1 hB1 hx1
  have TT : Boundary.Tame 5 5 { L1 with target := L1.signedDistance } true := ⟨⟨T1.grid, T1.len, T1.fit⟩, T1.gentle, .inl rfl, T1.tidy⟩
  obtain ⟨A, L2, e2, hA, -⟩ := C82_target TT
  let t : State Unit ℝ := { levelSet := L1, boundary := Boundary.new, lambdas := [], nReinit := 0, runningTime := 0, rng := () }
  obtain ⟨b, L', d1⟩ := C41_safe_partial T1
  have r1 : refresh (shapeMatch normal temp) t = .ok { t with levelSet := L', boundary := b } := by
    unfold refresh
    rw [d1]
    rfl
  obtain ⟨s', o1, -⟩ := C82_match_record (s0 := { t with levelSet := L', boundary := b }) T1 N1 hA r1
  refine ⟨t, _, s', A, _, L2, e2, rfl, r1, ?_, ?_⟩
  · have hcut : CutEdge 5 5 (Boundary.level 5 L1 false) (.hor 0 2) := by
      refine ⟨fun q hq => ?_, ?_, by simp⟩
      · simp only [Place.ends, List.mem_cons, List.not_mem_nil, or_false] at hq
        rcases hq with rfl | rfl <;> exact ⟨by norm_num, by norm_num⟩
      · refine .inl ⟨?_, ?_⟩
        · change nodeSide (vals L1.signedDistance _) = _
          rw [hf1 0 2 (by norm_num) (by norm_num), nodeSide_inside]
          norm_num [cols]
        · change nodeSide (vals L1.signedDistance _) = _
          rw [hf1 1 2 (by norm_num) (by norm_num), nodeSide_outside]
          norm_num [cols]
    obtain ⟨k, p, g1, -⟩ := C39_watertight T1 d1 hcut
    exact List.ne_nil_of_mem (List.mem_of_getElem? g1)
  · rw [o1]
    have hz := (C82_distance 5 5 (Boundary.level 5 { L1 with target := L1.signedDistance } true) (Boundary.level 5 t.levelSet false)
      (Boundary.level 5 t.levelSet false)).2.2.2.1.2 fun _ _ _ _ => rfl
    rw [hz, zero_div]

end Slsm.Program
