import Verif.Proof.Demo
import Verif.Proof.DemoRun
import Verif.Proof.Columns
import Verif.Proof.CommandLine

/-! # C76–C80: sampling, weighted perimeters, umbrella sampling -/

namespace Slsm.Program

open LevelSet

/-! ### C76 -/

section
variable {ρ α : Type} {P : Problem ρ ℝ} {obs : Observe ρ α ℝ} {first interval maxTime : ℝ} {w h : Nat} {E : Env ℝ} {k : Nat}

/-- Measuring does not disturb any of the programs. -/
theorem observers_passive (G : Gravity ℝ) (width : ℝ) (A : List ℝ) : Passive (observeArea : Observe ρ ℝ ℝ) ∧
    Passive (observePerimeter : Observe ρ (ℝ × ℝ) ℝ) ∧ Passive (observeConstrained : Observe ρ (ℝ × ℝ) ℝ) ∧
    Passive (observeMatch A : Observe ρ ℝ ℝ) ∧ Passive (observeDumbbell G A : Observe ρ (ℝ × ℝ) ℝ) ∧
    Passive (observeBimodal G width A : Observe ρ (ℝ × ℝ × ℝ × ℝ) ℝ) :=
  ⟨passive_area, passive_perimeter, passive_constrained, passive_match A, passive_dumbbell G A, passive_bimodal G width A⟩

/-- **C76** (one iteration): if the log was right before an iteration it is right afterwards: for every sampling time reached in the iteration one
entry is added, with the time at the end of the iteration and measurements made on the boundary and level set at the end of the iteration (and on the
state before it, `x.1`, which some of the programs use). -/
theorem C76_iteration (hi : 0 < interval) (hP : Regular P) (ho : Passive obs) {x x' : State ρ ℝ × Log α ℝ} (hr : Running w h P x.1)
    (hk : Quiet P ∨ ∃ normal T, 0 ≤ T ∧ P.extend = noisy normal T) (hS : Sampled first interval x.1.runningTime x.2)
    (e : turn P obs interval E k x = .ok x') : Running w h P x'.1 ∧ Sampled first interval x'.1.runningTime x'.2 ∧
      x.1.runningTime ≤ x'.1.runningTime ∧ ∃ m rs, x'.2.times = x.2.times ++ List.replicate m x'.1.runningTime ∧ x'.2.records = x.2.records ++ rs ∧
        ∀ r ∈ rs, ∃ s s', Running w h P s ∧ s.runningTime = x'.1.runningTime ∧ s.boundary = x'.1.boundary ∧
          s.levelSet.signedDistance = x'.1.levelSet.signedDistance ∧ obs x.1 s = .ok (r, s') := by
  obtain ⟨s, h1, h2⟩ := bind_eq_ok e
  have ht := C71_time hP hr h1 hk
  obtain ⟨S, hS'⟩ := sample_spec hi ho ht (.step hr h1) hS h2
  refine ⟨S.run, hS', by rw [S.time]; exact ht, ?_⟩
  rw [S.time, S.boundary, S.values]
  exact S.log

/-- **C76** (whole run): when the main loop ends, the maximum time has been reached and the log has exactly one entry for every sampling time up to
the end of the run, none before it was due, in order of time. -/
theorem C76_run (hi : 0 < interval) (hP : Regular P) (ho : Passive obs) {s : State ρ ℝ} (hr : Running w h P s)
    (hk : Quiet P ∨ ∃ normal T, 0 ≤ T ∧ P.extend = noisy normal T) (hs : s.runningTime < first) {n : Nat} {x' : State ρ ℝ × Log α ℝ}
    (e : mainLoop P obs maxTime interval E (s, { nextSample := first, times := [], records := [] }) = .ok (n, x')) :
    maxTime ≤ x'.1.runningTime ∧ Running w h P x'.1 ∧ Sampled first interval x'.1.runningTime x'.2 := by
  have S0 : Sampled first interval s.runningTime ({ nextSample := first, times := [], records := [] } : Log α ℝ) := by
    refine ⟨by simp [due], fun k => ⟨fun hk => by simp at hk, fun hd => ?_⟩, fun k u hu => by simp at hu, by simp, rfl⟩
    have := (due_mono (first := first) hi (Nat.zero_le k)).trans hd
    simp [due] at this
    linarith
  obtain ⟨⟨h1, h2⟩, h3⟩ := whileN_ok (fun y : Nat × State ρ ℝ × Log α ℝ => Running w h P y.2.1 ∧ Sampled first interval y.2.1.runningTime y.2.2)
    (fun y y' ⟨a1, a2⟩ _ e => by
      obtain ⟨z, e1, e2⟩ := bind_eq_ok e
      cases e2
      obtain ⟨b1, b2, -⟩ := C76_iteration hi hP ho a1 hk a2 e1
      exact ⟨b1, b2⟩) _ _ _ ⟨hr, S0⟩ e
  exact ⟨by simpa using h3, h1, h2⟩

/-- **C76** (order of iterations): the main loop carries out iterations numbered `0`, `1`, … without gap, each of them on the state and the log left by
the one before, as long as the maximum time has not been reached, and returns their number and the state and log left by the last one. -/
theorem C76_order {x x' : State ρ ℝ × Log α ℝ} {n : Nat} (e : mainLoop P obs maxTime interval E x = .ok (n, x')) :
    ∃ t : Nat → State ρ ℝ × Log α ℝ, t 0 = x ∧ t n = x' ∧ maxTime ≤ x'.1.runningTime ∧
      ∀ i, i < n → (t i).1.runningTime < maxTime ∧ turn P obs interval E i (t i) = .ok (t (i + 1)) := by
  obtain ⟨-, h2, t, h3, h4, h5⟩ := whileN_trace (c := fun y : State ρ ℝ × Log α ℝ => FP.lt y.1.runningTime maxTime)
    (f := turn P obs interval E) _ _ _ _ _ e
  exact ⟨t, h3, h4, by simpa using h2, fun i hi => ⟨by simpa using (h5 i (Nat.zero_le _) hi).1, (h5 i (Nat.zero_le _) hi).2⟩⟩

/-- **C76** (end of sampling): the loop that takes the samples ends, whatever the time step was. -/
theorem C76_ends (hi : 0 < interval) (ho : Passive obs) {s0 s1 : State ρ ℝ} {l : Log α ℝ}
    (hobs : ∀ L, AreasOnly s1.levelSet L → ∃ r, obs s0 { s1 with levelSet := L } = .ok r) :
    ∃ N, ∀ fuel, N ≤ fuel → ∃ x', sample obs interval fuel s0 (s1, l) = .ok x' := by
  obtain ⟨N, hN⟩ := exists_nat_gt ((s1.runningTime - l.nextSample) / interval)
  rw [div_lt_iff₀ hi] at hN
  refine ⟨N, fun fuel hf => ?_⟩
  suffices hw : wp (sample obs interval fuel s0 (s1, l)) (fun _ => True) noErr by
    obtain ⟨x', hx', -⟩ := wp_noErr_iff.1 hw
    exact ⟨x', hx'⟩
  unfold sample
  refine wp_imp (wp_whileN (fun x => (∃ L, AreasOnly s1.levelSet L ∧ x.1 = { s1 with levelSet := L }) ∧
    ∃ j : Nat, x.2.nextSample = l.nextSample + j * interval ∧ x.2.times.length = l.times.length + j)
    (fun x => N + l.times.length - x.2.times.length) ⟨⟨_, AreasOnly.refl _, rfl⟩, 0, by simp, rfl⟩ (by dsimp only; omega)
    fun x ⟨⟨L, hA, hL⟩, j, hj, hlen⟩ hc => ?_) fun _ _ => trivial
  · obtain ⟨s, m⟩ := x
    dsimp only at hL hj hc hlen ⊢
    subst hL
    have hjN : j < N := by
      have h1 : l.nextSample + j * interval ≤ s1.runningTime := by rw [← hj]; simpa using hc
      have h2 : (j : ℝ) * interval < N * interval := by linarith
      have h3 := lt_of_mul_lt_mul_right h2 hi.le
      exact_mod_cast h3
    refine ⟨by omega, ?_⟩
    obtain ⟨⟨r, s'⟩, hr⟩ := hobs L hA
    obtain ⟨L', hA', rfl⟩ := ho _ _ _ _ hr
    rw [hr]
    refine ⟨⟨⟨L', hA.trans hA', rfl⟩, j + 1, ?_, ?_⟩, ?_⟩
    · dsimp only
      rw [FP.add_real, hj]
      push_cast
      ring
    · simp only [List.length_append, List.length_singleton]
      omega
    · simp only [List.length_append, List.length_singleton]
      omega

/-- **C76** (repeated times): if the time goes on by more than the sampling interval after a sample is due, consecutive entries have the same time; the
perimeter program divides by the difference of their times (`/repo/demos/minimise_perimeter.cpp:238-245`). -/
theorem C76_repeated (hi : 0 < interval) (hP : Regular P) (ho : Passive obs) {x x' : State ρ ℝ × Log α ℝ} (hr : Running w h P x.1)
    (hk : Quiet P ∨ ∃ normal T, 0 ≤ T ∧ P.extend = noisy normal T) (hS : Sampled first interval x.1.runningTime x.2)
    (e : turn P obs interval E k x = .ok x') (hlong : x.2.nextSample + interval ≤ x'.1.runningTime) :
    ∃ (j : Nat) (t : ℝ), x'.2.times[j]? = some t ∧ x'.2.times[j + 1]? = some t := by
  obtain ⟨-, S', -, m, rs, t1, -⟩ := C76_iteration hi hP ho hr hk hS e
  have h1 : x.2.times.length + 1 < x'.2.times.length := by
    rw [S'.reached, due_succ, ← hS.next]
    exact hlong
  rw [t1, List.length_append, List.length_replicate] at h1
  refine ⟨x.2.times.length, x'.1.runningTime, ?_, ?_⟩ <;> rw [t1, List.getElem?_append_right (by omega), List.getElem?_replicate, if_pos (by omega)]

end

/-- The last hypothesis of `C70_step_partial` and those of `C71_time` are met: an iteration of the area minimisation program that arrives at a well behaved
level set, and in which time passes. -/
example : ∃ (s t s' : State Unit ℝ) (nlopt : Optimise ℝ → NLoptRun ℝ) (fuel : Nat), Running 5 5 minimiseArea s ∧
    advance minimiseArea nlopt fuel 0 s = .ok t ∧ Boundary.Tame 5 5 t.levelSet false ∧ step minimiseArea nlopt fuel 0 s = .ok s' ∧
    s.runningTime < s'.runningTime := by
  obtain ⟨s, s', nlopt, fuel, -, hr, hs, h0, hT, -, -, t, h1, h2⟩ := step_demo 0
  exact ⟨s, t, s', nlopt, fuel, hr, h1, h2.tame, hs, by rw [h0]; exact hT⟩

/-- A run of the area minimisation program that meets the hypotheses of the theorems above: one iteration, in which time goes on by `T`; samples are
due at times `T/2` and `T`. -/
example : ∃ (s s' : State Unit ℝ) (E : Env ℝ) (T : ℝ) (l : Log ℝ ℝ), Running 5 5 minimiseArea s ∧ s.runningTime = 0 ∧ 0 < T ∧
    turn minimiseArea observeArea (T / 2) E 0 (s, { nextSample := T / 2, times := [], records := [] }) = .ok (s', l) ∧
    mainLoop minimiseArea observeArea T (T / 2) E (s, { nextSample := T / 2, times := [], records := [] }) = .ok (1, s', l) ∧
    T / 2 + T / 2 ≤ s'.runningTime ∧ l.times = [T, T] ∧ l.records = [s'.boundary.length, s'.boundary.length] := by
  obtain ⟨s, s', nlopt, fuel, hf, hr, hs, h0, hT, -, -, -⟩ := step_demo 3
  obtain ⟨n, rfl⟩ : ∃ n, fuel = n + 3 := ⟨fuel - 3, by omega⟩
  let T := s'.runningTime
  let E : Env ℝ := { solver := fun _ => nlopt, dt := fun _ => 0, fuel := n + 3 }
  have ht : turn minimiseArea observeArea (T / 2) E 0 (s, { nextSample := T / 2, times := [], records := [] }) =
      .ok (s', { nextSample := T / 2 + T / 2 + T / 2, times := [T, T], records := [s'.boundary.length, s'.boundary.length] }) := by
    unfold turn
    rw [show step minimiseArea (E.solver 0) E.fuel (E.dt 0) s = .ok s' from hs]
    simp only [bind, Except.bind]
    unfold sample
    rw [show E.fuel = n + 3 from rfl]
    rw [whileN, if_pos (by simp [T]; linarith)]
    simp only [observeArea, pure, Except.pure, bind, Except.bind, FP.add_real]
    rw [whileN, if_pos (by simp [T])]
    simp only [observeArea, pure, Except.pure, bind, Except.bind, FP.add_real]
    rw [whileN, if_neg (by simp [T]; linarith)]
    rfl
  refine ⟨s, s', E, T, _, hr, h0, hT, ht, ?_, by simp [T], rfl, rfl⟩
  unfold mainLoop
  rw [show E.fuel = n + 2 + 1 from rfl, whileN, if_pos (by simp [h0]; exact hT)]
  dsimp only
  rw [ht]
  simp only [pure, Except.pure, bind, Except.bind]
  rw [whileN, if_neg (by simp [T])]

/-! ### C77 -/

section
variable {ρ : Type} {P : Problem ρ ℝ} {s : State ρ ℝ} {w h : Nat} {u l r : ℝ}

/-- The programs with weighted perimeters use the library as intended and are without undefined behaviour in the extension of velocities. -/
theorem weighted_regular (G : Gravity ℝ) (normal : ρ → ℝ × ρ) (T m : ℝ) (A : List ℝ) : Regular (weighted G normal T m A) ∧
    Guarded w h (weighted G normal T m A) :=
  ⟨regular_weighted G normal T m A, fun _ _ _ _ hr hp => guarded_noisy hr hp⟩

/-- **C77** (weight): the weight is `r` below the lower height, 1 above the upper height and linear in between; it lies between `r` and 1 and
does not decrease with height. -/
theorem C77_weight (hlu : l < u) (hr : r ≤ 1) (y : ℝ) : perimeterWeight (gravity u l r) y = heightWeight u l r y ∧
    r ≤ perimeterWeight (gravity u l r) y ∧ perimeterWeight (gravity u l r) y ≤ 1 ∧
    ∀ y', y ≤ y' → perimeterWeight (gravity u l r) y ≤ perimeterWeight (gravity u l r) y' := by
  refine ⟨weight_real hlu, ?_, ?_, fun y' hy => ?_⟩
  · rw [weight_real hlu]; exact le_weight hr
  · rw [weight_real hlu]; exact weight_le hr
  · rw [weight_real hlu, weight_real hlu]; exact weight_mono hlu hr hy

/-- **C77** (perimeter): in every state of a running program the weighted perimeter is defined and lies between `r` times the length of the boundary
and the length of the boundary.  It approximates the integral of the weight along the boundary, with the error given; the error vanishes if no
segment crosses the heights where the weight has a kink. -/
theorem C77_perimeter (hP : Regular P) (hs : Running w h P s) (hlu : l < u) (hr : r ≤ 1) :
    ∃ v, weightedPerimeter (gravity u l r) s.boundary.points = .ok v ∧ r * s.boundary.length ≤ v ∧ v ≤ s.boundary.length ∧
      |v - overSegments s.boundary (weightedLength u l r)| ≤
        (1 - r) / (20 * (u - l)) * overSegments s.boundary (fun a c => |c.y - a.y| * Boundary.distance a c) ∧
      ((∀ g ∈ s.boundary.segments, OneZone u l (placeOf s.boundary.points g.start).y (placeOf s.boundary.points g.stop).y) →
        v = overSegments s.boundary (weightedLength u l r)) := by
  obtain ⟨L, L0, b0, F⟩ := hs.fits hP
  refine ⟨_, perimeter_sum F.incident hlu, ?_, ?_, ?_, fun hz => ?_⟩
  · rw [← F.length]
    unfold overSegments
    rw [← List.sum_map_mul_left]
    exact List.sum_le_sum fun g _ => le_midSum (fun y => le_weight hr) _ _
  · rw [← F.length]
    unfold overSegments
    exact List.sum_le_sum fun g _ => (midSum_le (fun y => weight_le hr) _ _).trans (by rw [one_mul])
  · unfold overSegments
    have hd : 0 < u - l := by linarith
    generalize s.boundary.segments = segs
    induction segs with
    | nil => simp
    | cons g m ih =>
      simp only [List.map_cons, List.sum_cons]
      rw [add_sub_add_comm, mul_add]
      refine (abs_add_le _ _).trans (add_le_add ?_ ih)
      refine (midSum_integral (weight_cont u l r) (weight_lip hlu hr) _ _).trans (le_of_eq ?_)
      field_simp
  · unfold overSegments
    congr 1
    exact List.map_congr_left fun g hg => (midSum_zone hlu (hz g hg)).1

/-- **C77** (sensitivity): what the program computes as the sensitivity of a point is the central difference of the weighted perimeter when that point alone is
moved along its normal, per unit length, if no segment joins a point with itself (`C38_segments_exact`). -/
theorem C77_sensitivity (hP : Regular P) (hs : Running w h P s) (hlu : l < u) (hne : ∀ g ∈ s.boundary.segments, g.start ≠ g.stop) {k : Nat}
    {p : BoundaryPoint ℝ} (hk : s.boundary.points[k]? = some p) :
    ∃ V : ℝ → ℝ, (∀ t, weightedPerimeter (gravity u l r) (s.boundary.points.set k (Sensitivity.displaced p t)) = .ok (V t)) ∧
      weightedSensitivity (gravity u l r) s.boundary p = .ok ((V (1 / 10000) - V (-(1 / 10000))) / (2 / 10000) / p.length) := by
  obtain ⟨L, L0, b0, F⟩ := hs.fits hP
  have I := F.incident
  have hp := List.mem_of_getElem? hk
  refine ⟨fun t => overSegments { s.boundary with points := s.boundary.points.set k (Sensitivity.displaced p t) } (midSum (heightWeight u l r)),
    fun t => perimeter_sum (I.set hk _) hlu, ?_⟩
  have := (Sensitivity.C54_restores (FP.lit 1 10000) p (pointLength (gravity u l r) s.boundary.points)).1 _ _ (pointLength_real I hlu hp _)
    (pointLength_real I hlu hp _)
  unfold weightedSensitivity
  rw [this]
  refine congrArg Except.ok ?_
  have d1 := displaced_sum (u := u) (l := l) (r := r) I hne hk (Sensitivity.displaced p (1 / 10000)).coord
  have d2 := displaced_sum (u := u) (l := l) (r := r) I hne hk (Sensitivity.displaced p (-(1 / 10000))).coord
  change overSegments { s.boundary with points := s.boundary.points.set k (Sensitivity.displaced p (1 / 10000)) } _ - _ = _ at d1
  change overSegments { s.boundary with points := s.boundary.points.set k (Sensitivity.displaced p (-(1 / 10000))) } _ - _ = _ at d2
  have d3 : overSegments { s.boundary with points := s.boundary.points.set k (Sensitivity.displaced p (1 / 10000)) } (midSum (heightWeight u l r)) -
      overSegments { s.boundary with points := s.boundary.points.set k (Sensitivity.displaced p (-(1 / 10000))) } (midSum (heightWeight u l r)) =
    lengthAt u l r s.boundary.points p (Sensitivity.displaced p (1 / 10000)).coord -
      lengthAt u l r s.boundary.points p (Sensitivity.displaced p (-(1 / 10000))).coord := by linarith
  dsimp only
  rw [d3]
  unfold Sensitivity.displaced
  simp only [FP.sub_real, FP.add_real, FP.mul_real, FP.div_real, FP.nat_real, FP.lit_real, Nat.cast_ofNat, Nat.cast_one, neg_mul, ← sub_eq_add_neg]
  norm_num

/-- **C74** (dumbbell and bimodal programs): the objective sensitivity of every boundary point is the derivative of the weighted perimeter with the Ito
correction `-T κ / (2 length)`; the sensitivity of the constraint is the mismatch at the point. -/
theorem C74_weighted {G : Gravity ℝ} {normal : ρ → ℝ × ρ} {T m : ℝ} {A : List ℝ} (hs : Running w h (weighted G normal T m A) s) {b : Boundary ℝ}
    (e : (weighted G normal T m A).assign s.levelSet s.boundary = .ok b) {k : Nat} {p : BoundaryPoint ℝ} (hk : s.boundary.points[k]? = some p) :
    ∃ c v, weightedSensitivity G s.boundary p = .ok c ∧ mismatchSensitivity s.levelSet p.coord = .ok v ∧
      b.points[k]? = some { p with sensitivities := [c - T * Sensitivity.curvature (1 / 10000) s.boundary p / (2 * p.length), v] } := by
  obtain ⟨L, L0, b0, F⟩ := hs.fits (regular_weighted G normal T m A)
  obtain ⟨b1, h1, e⟩ := bind_eq_ok (show (setSensitivity 0 (weightedSensitivity G s.boundary) s.boundary >>= fun b' =>
    setSensitivity 1 (fun p => mismatchSensitivity s.levelSet p.coord) b' >>= fun b' => Sensitivity.itoCorrection (FP.lit 1 10000) b' T) = _ from e)
  obtain ⟨b2, h2, e⟩ := bind_eq_ok e
  have f1 := (setSensitivity_frame h1).2
  have f2 := (setSensitivity_frame h2).2
  obtain ⟨b', h3, h4⟩ := ito_ok (delta := FP.lit 1 10000) (T := T) (linked_sens (linked_sens F.linked f1) f2)
  have : b' = b := Except.ok.inj (h3.symm.trans e)
  subst this
  have hp := List.mem_of_getElem? hk
  obtain ⟨p1, e1, c, hc, -, g1⟩ := forall₂_get (setSensitivity_ok h1).2 hk
  obtain ⟨p2, e2, v, hv, -, g2⟩ := forall₂_get (setSensitivity_ok h2).2 e1
  refine ⟨c, v, hc, by rw [g1] at hv; exact hv, ?_⟩
  obtain ⟨s0, e3, e4⟩ := h4 k p2 e2
  have s1 : SensOnly p p1 := by rw [g1]; exact ⟨rfl, List.length_set⟩
  have s2 : SensOnly p1 p2 := by rw [g2]; exact ⟨rfl, List.length_set⟩
  rw [e4, curvature_sens f2 s2, curvature_sens f1 s1]
  rw [g2, g1, (F.fresh hp).1] at e3 ⊢
  simp at e3 ⊢
  rw [← e3]

end

/-- The hypotheses of `C74_weighted` are met. -/
example (normal : Unit → ℝ × Unit) (T m : ℝ) (A : List ℝ) : ∃ (s : State Unit ℝ) (b : Boundary ℝ) (k : Nat) (p : BoundaryPoint ℝ),
    Running 5 5 (weighted (gravity 4 1 (1 / 50)) normal T m A) s ∧ (weighted (gravity 4 1 (1 / 50)) normal T m A).assign s.levelSet s.boundary = .ok b ∧
      s.boundary.points[k]? = some p ∧ 0 < p.length := weighted_assign_demo (by norm_num) normal T m A

/-- States of the program to which the theorems apply, with a boundary of positive length. -/
example (normal : Unit → ℝ × Unit) (T m : ℝ) (A : List ℝ) : ∃ (s : State Unit ℝ) (k : Nat) (p : BoundaryPoint ℝ),
    Running 5 5 (weighted (gravity 4 1 (1 / 50)) normal T m A) s ∧ s.boundary.points[k]? = some p ∧ 0 < p.length ∧
      (∀ g ∈ s.boundary.segments, g.start ≠ g.stop) ∧ 0 < s.boundary.length :=
  weighted_demo _ normal T m A

/-! ### C78 -/

section
variable {ρ : Type} {P : Problem ρ ℝ} {s : State ρ ℝ} {w h : Nat} {u l r : ℝ}

/-- **C78** (in the box): if the boundary has positive length and weights are positive, the centre of mass is defined and lies in every box that
contains the boundary points; so it lies in the domain. -/
theorem C78_box (hP : Regular P) (hs : Running w h P s) (hlu : l < u) (hr : r ≤ 1) (h0 : 0 < r) (hl : 0 < s.boundary.length) :
    ∃ x y, centreOfMass (gravity u l r) s.boundary.points = .ok (x, y) ∧
      (∀ a, (∀ p ∈ s.boundary.points, a ≤ p.coord.x) → a ≤ x) ∧ (∀ a, (∀ p ∈ s.boundary.points, p.coord.x ≤ a) → x ≤ a) ∧
      (∀ a, (∀ p ∈ s.boundary.points, a ≤ p.coord.y) → a ≤ y) ∧ (∀ a, (∀ p ∈ s.boundary.points, p.coord.y ≤ a) → y ≤ a) ∧
      InDomain w h ⟨x, y⟩ := by
  obtain ⟨L, L0, b0, F⟩ := hs.fits hP
  have I := F.incident
  have hpos : 0 < overSegments s.boundary (midSum (heightWeight u l r)) := by
    refine lt_of_lt_of_le (mul_pos h0 hl) ?_
    rw [← F.length]
    unfold overSegments
    rw [← List.sum_map_mul_left]
    exact List.sum_le_sum fun g _ => le_midSum (fun y => le_weight hr) _ _
  have hm : ∀ a c : Coord ℝ, 0 ≤ midSum (heightWeight u l r) a c := fun a c =>
    (mul_nonneg h0.le (distance_nonneg a c)).trans (le_midSum (fun y => le_weight hr) a c)
  have low : ∀ (f : Coord ℝ → ℝ) (a : ℝ), (∀ p ∈ s.boundary.points, a ≤ f p.coord) →
      a ≤ overSegments s.boundary (fun p q => midSum (heightWeight u l r) p q * ((f p + f q) / 2)) / overSegments s.boundary (midSum (heightWeight u l r)) := by
    intro f a ha
    rw [le_div_iff₀ hpos]
    unfold overSegments
    rw [← List.sum_map_mul_left]
    refine List.sum_le_sum fun g hg => ?_
    obtain ⟨h1, h2⟩ := I.ends g hg
    have place : ∀ k, k < s.boundary.points.length → a ≤ f (placeOf s.boundary.points k) := fun k hk => by
      unfold placeOf
      rw [List.getElem?_eq_getElem hk]
      exact ha _ (List.getElem_mem hk)
    have := hm (placeOf s.boundary.points g.start) (placeOf s.boundary.points g.stop)
    rw [mul_comm]
    exact mul_le_mul_of_nonneg_left (by linarith [place _ h1, place _ h2]) this
  have high : ∀ (f : Coord ℝ → ℝ) (a : ℝ), (∀ p ∈ s.boundary.points, f p.coord ≤ a) →
      overSegments s.boundary (fun p q => midSum (heightWeight u l r) p q * ((f p + f q) / 2)) / overSegments s.boundary (midSum (heightWeight u l r)) ≤ a := by
    intro f a ha
    rw [div_le_iff₀ hpos]
    unfold overSegments
    rw [← List.sum_map_mul_left]
    refine List.sum_le_sum fun g hg => ?_
    obtain ⟨h1, h2⟩ := I.ends g hg
    have place : ∀ k, k < s.boundary.points.length → f (placeOf s.boundary.points k) ≤ a := fun k hk => by
      unfold placeOf
      rw [List.getElem?_eq_getElem hk]
      exact ha _ (List.getElem_mem hk)
    have := hm (placeOf s.boundary.points g.start) (placeOf s.boundary.points g.stop)
    rw [mul_comm a]
    exact mul_le_mul_of_nonneg_left (by linarith [place _ h1, place _ h2]) this
  refine ⟨_, _, centre_sum I hlu, low (fun c => c.x), high (fun c => c.x), low (fun c => c.y), high (fun c => c.y), ?_⟩
  exact ⟨low (fun c => c.x) _ fun p hp => (F.fresh hp).2.2.2.1, high (fun c => c.x) _ fun p hp => (F.fresh hp).2.2.2.2.1,
    low (fun c => c.y) _ fun p hp => (F.fresh hp).2.2.2.2.2.1, high (fun c => c.y) _ fun p hp => (F.fresh hp).2.2.2.2.2.2⟩

/-- **C78** (centroid): without weighting (`r = 1`) it is the centroid of the boundary curve: the mean of the middles of the segments, weighted by their
lengths. -/
theorem C78_centroid (hP : Regular P) (hs : Running w h P s) (hlu : l < u) : centreOfMass (gravity u l 1) s.boundary.points =
    .ok (overSegments s.boundary (fun a c => Boundary.distance a c * ((a.x + c.x) / 2)) / s.boundary.length,
      overSegments s.boundary (fun a c => Boundary.distance a c * ((a.y + c.y) / 2)) / s.boundary.length) := by
  obtain ⟨L, L0, b0, F⟩ := hs.fits hP
  have e : midSum (heightWeight u l 1) = Boundary.distance := by
    funext a c
    refine le_antisymm ((midSum_le (fun y => weight_le le_rfl) a c).trans (by rw [one_mul])) ?_
    exact le_trans (by rw [one_mul]) (le_midSum (fun y => le_weight le_rfl) a c)
  rw [centre_sum F.incident hlu, e, F.length]

end

/-! ### C79 -/

section
variable {ρ : Type} {P : Problem ρ ℝ} {U : Umbrella ρ ℝ} {E : Env ℝ} {w h : Nat}

/-- **C79** (acceptance): if the random number is uniform in the interval from 0 to 1, a change from bias potential `a` to `c` is accepted with
the Metropolis probability; a change that lowers the potential is accepted whatever the random number is. -/
theorem C79_acceptance (a c beta : ℝ) :
    MeasureTheory.volume {t : ℝ | t ∈ Set.Ico (0 : ℝ) 1 ∧ (isAccepted Real.exp (fun _ : Unit => (t, ())) c a beta ()).1 = true} =
      ENNReal.ofReal (metropolis beta (c - a)) ∧
    (0 ≤ beta → c ≤ a → ∀ (uniform : ρ → ℝ × ρ) g, (uniform g).1 < 1 → (isAccepted Real.exp uniform c a beta g).1 = true) := by
  constructor
  · have : {t : ℝ | t ∈ Set.Ico (0 : ℝ) 1 ∧ (isAccepted Real.exp (fun _ : Unit => (t, ())) c a beta ()).1 = true} =
        Set.Ico 0 (metropolis beta (c - a)) := by
      ext t
      rw [Set.mem_setOf_eq, accepted_real, Set.mem_Ico, Set.mem_Ico, metropolis, lt_min_iff, and_assoc]
    rw [this, Real.volume_Ico, sub_zero]
  · intro hb hc uniform g hg
    rw [accepted_real]
    refine hg.trans_le (Real.one_le_exp ?_)
    nlinarith

/-- **C79** (detailed balance): the acceptance probabilities satisfy detailed balance with respect to the Boltzmann weights of the bias potential. -/
theorem C79_detailed_balance (a c beta : ℝ) :
    ENNReal.ofReal (Real.exp (-(beta * a))) *
        MeasureTheory.volume {t : ℝ | t ∈ Set.Ico (0 : ℝ) 1 ∧ (isAccepted Real.exp (fun _ : Unit => (t, ())) c a beta ()).1 = true} =
      ENNReal.ofReal (Real.exp (-(beta * c))) *
        MeasureTheory.volume {t : ℝ | t ∈ Set.Ico (0 : ℝ) 1 ∧ (isAccepted Real.exp (fun _ : Unit => (t, ())) a c beta ()).1 = true} := by
  rw [(C79_acceptance (ρ := Unit) a c beta).1, (C79_acceptance (ρ := Unit) c a beta).1, ← ENNReal.ofReal_mul (Real.exp_pos _).le,
    ← ENNReal.ofReal_mul (Real.exp_pos _).le]
  congr 1
  unfold metropolis
  rw [mul_min_of_nonneg _ _ (Real.exp_pos _).le, mul_min_of_nonneg _ _ (Real.exp_pos _).le, ← Real.exp_add, ← Real.exp_add, mul_one, mul_one,
    show -(beta * a) + -(beta * (c - a)) = -(beta * c) by ring, show -(beta * c) + -(beta * (a - c)) = -(beta * a) by ring, min_comm]

/-- **C79** (partial, histories): between trials the program is in a state of the underlying program; the number of accepted trials does not exceed the
number of trials, each of which takes at least the given time; the stored potential is that of the stored coordinate; stored coordinate and
signed distances belong to one state of the program (for the initial state see `C79_first_fails`); the level set has the stored signed
distances, or is the reinitialisation of a level set which has them.  Missing: that a rejected trial leaves the configuration as it was, which is false
(`C79_rejected_fails`). -/
theorem C79_history_partial (hP : Regular P) {v : Walker ρ ℝ} (hv : Walks w h P U v) : Running w h P v.state ∧ v.nAccept ≤ v.nTrials ∧
    v.nTrials * U.interval ≤ v.runningTime ∧ v.bias = 1 / 2 * U.spring * (v.xCentre - U.centre) ^ 2 ∧
    (∃ s x y, Running w h P s ∧ v.signedDistance = s.levelSet.signedDistance ∧ centreOfMass U.G s.boundary.points = .ok (x, y) ∧
      v.xCentre = if v.nAccept = 0 then x else x - U.width / 2) ∧
    (v.state.levelSet.signedDistance = v.signedDistance ∨ ∃ L0 L, Reachable w h L0 ∧ L0.signedDistance = v.signedDistance ∧
      reinitialise L0 = .ok L ∧ v.state.levelSet.signedDistance = L.signedDistance) := by
  induction hv with
  | @begin s v hs e =>
    obtain ⟨⟨x, y⟩, e1, e2⟩ := bind_eq_ok e
    cases e2
    exact ⟨hs, le_rfl, by simp, bias_real _ _ _, ⟨s, x, y, hs, rfl, e1, by simp⟩, .inl rfl⟩
  | @trial E v v' hv e ih =>
    obtain ⟨i1, i2, i3, i4, ⟨s0, x0, y0, j1, j2, j3, j4⟩, -⟩ := ih
    obtain ⟨k, s, x, y, e1, e2, ⟨ha, rfl⟩ | ⟨ha, L, t, e3, e4, rfl⟩⟩ := trial_ok e
    · obtain ⟨h1, h2⟩ := trajectory_run i1 e1
      refine ⟨.annotate (t := s.runningTime) h1 (AreasOnly.refl _), by dsimp only; omega, ?_, bias_real _ _ _, ⟨s, x, y, h1, rfl, e2, by simp⟩, .inl rfl⟩
      dsimp only
      push_cast
      linarith
    · obtain ⟨h1, h2⟩ := trajectory_run i1 e1
      obtain ⟨L1, L2, b0, F⟩ := h1.fits hP
      obtain ⟨L3, L4, b1, F0⟩ := j1.fits hP
      have hlen : v.signedDistance.length = s.levelSet.mesh.nNodes := by
        rw [j2, F0.reachable.core.sd, F0.reachable.core.grid.nNodes, F.reachable.core.grid.nNodes]
      have hr0 : Reachable w h { s.levelSet with signedDistance := v.signedDistance } :=
        .call F.reachable (.assign v.signedDistance s.levelSet.velocity s.levelSet.gradient s.levelSet.target hlen
          F.reachable.core.velocity F.reachable.core.gradient)
      have hr : Reachable w h L := .call hr0 (.reinitialise e3)
      have ht : Running w h P t := .reset (.annotate (L := s.levelSet) (t := s.runningTime)
        (g := (isAccepted U.exp U.uniform (biasPotential (x - U.width / 2) U.centre U.spring) v.bias U.beta s.rng).2) h1 (AreasOnly.refl _)) hr e4
      refine ⟨ht, by dsimp only; omega, ?_, i4, ⟨s0, x0, y0, j1, j2, j3, j4⟩, .inr ⟨_, L, hr0, rfl, e3, ?_⟩⟩
      · dsimp only
        push_cast
        linarith
      · exact (refresh_levelSet hP (by exact hr) e4).1

/-- **C79** (counts): a complete run makes the number of trials asked for. -/
theorem C79_counts {nSamples sampleInterval : Nat} {v v' : Walker ρ ℝ} (hv : Walks w h P U v)
    (e : umbrella P U E nSamples sampleInterval v = .ok v') : v'.nTrials = v.nTrials + nSamples * sampleInterval ∧ Walks w h P U v' := by
  have one : ∀ {v v' : Walker ρ ℝ}, trial P U E v = .ok v' → v'.nTrials = v.nTrials + 1 := by
    intro v v' e
    obtain ⟨k, s, x, y, e1, e2, ⟨ha, rfl⟩ | ⟨ha, L, t, e3, e4, rfl⟩⟩ := trial_ok e <;> rfl
  have inner : ∀ (n : Nat) (v v' : Walker ρ ℝ), Walks w h P U v → forN n v (fun _ v => trial P U E v) = .ok v' →
      v'.nTrials = v.nTrials + n ∧ Walks w h P U v' := by
    intro n
    induction n with
    | zero => intro v v' hv e; cases e; exact ⟨rfl, hv⟩
    | succ n ih =>
      intro v v' hv e
      obtain ⟨v1, e1, e2⟩ := bind_eq_ok e
      obtain ⟨h1, h2⟩ := ih v v1 hv e1
      exact ⟨by rw [one e2, h1]; omega, .trial h2 e2⟩
  unfold umbrella at e
  induction nSamples generalizing v' with
  | zero => cases e; exact ⟨by simp, hv⟩
  | succ n ih =>
    obtain ⟨v1, e1, e2⟩ := bind_eq_ok e
    obtain ⟨h1, h2⟩ := ih e1
    obtain ⟨h3, h4⟩ := inner _ _ _ h2 e2
    exact ⟨by rw [h3, h1, Nat.succ_mul]; omega, h4⟩

/-- **C79** (negation): the first potential is computed with a coordinate that is not relative to the middle of the domain
(`/repo/demos/bimodal_brolly.cpp:290-294`; compare line 437).  If the bias is centred where the program starts, the first trial is accepted whatever the
random number is, wherever within half the width of the domain it ends, although it increases the potential. -/
theorem C79_first_fails (hexp : U.exp = Real.exp) (hk : 0 < U.spring) (hb : 0 ≤ U.beta) {s : State ρ ℝ} {v : Walker ρ ℝ} {x y : ℝ}
    (hc : centreOfMass U.G s.boundary.points = .ok (x, y)) (hcen : U.centre = x - U.width / 2) (e : walker U s = .ok v) {x' : ℝ}
    (hx : |x' - U.centre| ≤ U.width / 2) (hne : x' ≠ U.centre) {g : ρ} (hu : (U.uniform g).1 < 1) :
    biasPotential (x - U.width / 2) U.centre U.spring < biasPotential x' U.centre U.spring ∧
      (isAccepted U.exp U.uniform (biasPotential x' U.centre U.spring) v.bias U.beta g).1 = true := by
  obtain ⟨⟨x0, y0⟩, e1, e2⟩ := bind_eq_ok e
  rw [hc] at e1
  cases e1
  cases e2
  constructor
  · rw [bias_real, bias_real, ← hcen, sub_self]
    have : 0 < (x' - U.centre) ^ 2 := by
      have := sub_ne_zero.2 hne
      positivity
    nlinarith [mul_pos hk this]
  · rw [hexp]
    refine (C79_acceptance _ _ _).2 hb ?_ _ _ hu
    rw [bias_real, bias_real]
    have h1 : (x' - U.centre) ^ 2 ≤ (x - U.centre) ^ 2 := by
      rw [show x - U.centre = U.width / 2 by rw [hcen]; ring, sq_le_sq, abs_of_nonneg ((abs_nonneg _).trans hx)]
      exact hx
    nlinarith

end

/-- **C79** (negation): a rejected trial can move the boundary, since the restored signed distances are reinitialised.  The program is run from its beginning to the
end of the first trial. -/
theorem C79_rejected_fails (normal : Unit → ℝ × Unit) (T m : ℝ) (A : List ℝ) (E : Env ℝ) : ∃ (U : Umbrella Unit ℝ) (L : LevelSet ℝ) (s : State Unit ℝ)
    (v v' : Walker Unit ℝ), U.exp = Real.exp ∧ U.uniform = (fun g => (1 / 2, g)) ∧ U.beta = 1 ∧ 0 < U.spring ∧ U.G = gravity 4 1 (1 / 50) ∧ U.width = 5 ∧
      Reachable 5 5 L ∧ start (weighted U.G normal T m A) L 2 () = .ok s ∧ walker U s = .ok v ∧ trial (weighted U.G normal T m A) U E v = .ok v' ∧
      v'.nAccept = v.nAccept ∧ v'.nTrials = 1 ∧ ∃ p ∈ v'.state.boundary.points, ∀ q ∈ v.state.boundary.points, q.coord ≠ p.coord :=
  rejected_demo normal T m A E

/-- A history with an accepted trial of positive duration, as in `C79_history_partial` and `C79_counts`. -/
example : ∃ (U : Umbrella Unit ℝ) (E : Env ℝ) (v v' : Walker Unit ℝ), Regular (minimiseArea : Problem Unit ℝ) ∧ U.exp = Real.exp ∧ 0 < U.interval ∧
    Walks 5 5 minimiseArea U v ∧ umbrella minimiseArea U E 1 1 v = .ok v' ∧ v'.nAccept = 1 ∧ v'.nTrials = 1 ∧ 0 < v'.runningTime := by
  obtain ⟨U, E, v, v', h1, h2, h3, h4, h5⟩ := accepted_demo
  exact ⟨U, E, v, v', regular_area, h1, h2, h3, by simpa [umbrella, forN, bind, Except.bind] using h4, h5⟩

/-- The hypotheses of `C79_first_fails` are met if the bias is centred where the program starts. -/
example (normal : Unit → ℝ × Unit) (T m : ℝ) (A : List ℝ) : ∃ (U : Umbrella Unit ℝ) (s : State Unit ℝ) (v : Walker Unit ℝ) (x y : ℝ),
    Running 5 5 (weighted U.G normal T m A) s ∧ U.exp = Real.exp ∧ 0 < U.spring ∧ 0 ≤ U.beta ∧ 0 < U.width ∧
      centreOfMass U.G s.boundary.points = .ok (x, y) ∧ U.centre = x - U.width / 2 ∧ walker U s = .ok v := by
  obtain ⟨s, k, p, hs, -⟩ := weighted_demo (gravity 4 1 (1 / 50)) normal T m A
  obtain ⟨L, L0, b0, F⟩ := hs.fits (regular_weighted _ normal T m A)
  obtain ⟨x, y, hc⟩ : ∃ x y, centreOfMass (gravity 4 1 (1 / 50)) s.boundary.points = .ok (x, y) := ⟨_, _, centre_sum F.incident (by norm_num)⟩
  let U : Umbrella Unit ℝ := .mk (gravity 4 1 (1 / 50)) Real.exp (fun g => (1 / 2, g)) 1 5 (x - 5 / 2) 1 1
  obtain ⟨v, hv⟩ : ∃ v, walker U s = .ok v := by
    unfold walker
    rw [show U.G = gravity 4 1 (1 / 50) from rfl, hc]
    exact ⟨_, rfl⟩
  exact ⟨U, s, v, x, y, hs, rfl, one_pos, zero_le_one, by norm_num [U], hc, rfl, hv⟩

/-! ### C80 -/

section
variable {D : Type} [FP D] {atof : String → D} {atoi : String → Nat}

/-- **C80** (partial): a command line made of documented options (in any order and number, one spelling excepted, see `C80_documented_fails`), with file names
that fit, is accepted; for each parameter the last value given counts, or else the default. -/
theorem C80_accepts_partial {items : List Item} {lines : List (List String)}
    (hs : List.Forall₂ (fun i ws => ws ∈ Item.documented i ∧ ∀ v, ws ≠ ["--umbrella-interval", v]) items lines) (hf : ∀ i ∈ items, i.fits) (o : Options D)
    {n : Nat} (hn : lines.flatten.length ≤ n) : ∃ o', parse atof atoi n lines.flatten o = .ok (some o') ∧ Configured atof atoi items o o' := by
  obtain ⟨m, o', -, h2, h3⟩ := parse_items (atof := atof) (atoi := atoi) (hs.imp fun _ _ h => .inl h) hf [] n (by simpa using hn) o
  rw [List.append_nil] at h3
  exact ⟨o', by rw [h3]; cases m <;> rfl, h2⟩

/-- **C80** (outcomes): what happens for any command line at all: after a number of options the program comes to the end, or to a request for help, or
to a missing value or a file name that does not fit (undefined behaviour), or to an unknown word (error message). -/
theorem C80_outcomes (args : List String) (o : Options D) {n : Nat} (hn : args.length ≤ n) :
    ∃ items lines rest o', List.Forall₂ Item.Spelled items lines ∧ (∀ i ∈ items, i.fits) ∧ args = lines.flatten ++ rest ∧
      Configured atof atoi items o o' ∧ Stops rest o' (parse atof atoi n args o) :=
  parse_cases args.length args le_rfl n o hn

/-- **C80** (negations): the option `--umbrella-interval` of the help message is rejected; an option without its value, and a long file name, have undefined behaviour. -/
theorem C80_documented_fails (o : Options D) (n : Nat) (v : String) (rest : List String) :
    ["--umbrella-interval", v] ∈ (Item.interval v).documented ∧
    parse atof atoi (n + 1) ("--umbrella-interval" :: v :: rest) o = .error .exit ∧
    parse atof atoi (n + 1) ["-t"] o = .error .ub ∧
    (100 ≤ v.utf8ByteSize → parse atof atoi (n + 1) ("-r" :: v :: rest) o = .error .ub) := by
  refine ⟨by simp [Item.documented], rfl, rfl, fun hv => ?_⟩
  have hv : ¬ v.utf8ByteSize < 100 := by omega
  simp [parse, operand, bind, Except.bind, hv]

/-- A command line that meets the hypotheses of `C80_accepts_partial`: the second temperature counts. -/
example (o : Options D) : ∃ o', parse atof atoi 5 ["-t", "1", "-b", "--temperature", "2"] o = .ok (some o') ∧ o'.temperature = atof "2" ∧
    o'.isBoundarySample = true ∧ o'.spring = o.spring := by
  obtain ⟨o', h1, h2⟩ := C80_accepts_partial (atof := atof) (atoi := atoi) (items := [.temperature "1", .boundary, .temperature "2"])
    (lines := [["-t", "1"], ["-b"], ["--temperature", "2"]]) (by simp [Item.documented]) (by simp [Item.fits]) o (n := 5) (by simp)
  exact ⟨o', h1, h2.temperature, h2.boundary, h2.spring⟩

end

end Slsm.Program
