import Verif.Proof.OptVal

/-! The end of `solve`. -/

namespace Slsm.Optimise

open FP

variable {s s' : Optimise ℝ} {lambda : List ℝ} {p : BoundaryPoint ℝ}

theorem zip_sum (l m : List ℝ) : ((l.zip m).map fun x => x.1 * x.2).sum = ∑ j ∈ Finset.range l.length, l.getD j 0 * m.getD j 0 := by
  induction l generalizing m with
  | nil => simp
  | cons a l ih =>
    cases m with
    | nil => simp
    | cons b m =>
      rw [List.zip_cons_cons, List.map_cons, List.sum_cons, ih m, List.length_cons, Finset.sum_range_succ']
      simp only [List.getD_cons_zero, List.getD_cons_succ]
      rw [add_comm]

theorem proposed_eq (l : List ℝ) (p : BoundaryPoint ℝ) :
    proposed l p = ∑ j ∈ Finset.range l.length, l.getD j 0 * p.sensitivities.getD j 0 := zip_sum l p.sensitivities

/-- `raw` in terms of the unscaled multipliers. -/
theorem raw_eq_proposed {l : List ℝ} (hl : l.length = s.nConstraints + 1) (hv : ∀ j, j < s.nConstraints + 1 → l.getD j 0 = lambda.getD j 0 * s.scaleFactors.getD j 0)
    (hid : ∀ j, j ≤ s.nConstraints → s.indexMap.getD j 0 = j) : raw s lambda p = proposed l p := by
  rw [proposed_eq, hl, Finset.sum_range_succ', add_comm]
  unfold raw
  congr 1
  · rw [hv 0 (by omega)]; ring
  · refine Finset.sum_congr rfl fun j hj => ?_
    rw [Finset.mem_range] at hj
    rw [hid (j + 1) (by omega), hv (j + 1) (by omega)]
    ring

/-- The state is ready for `finish`. -/
structure Closing (s : Optimise ℝ) : Prop where
  pts : s.nPoints = s.points.length
  idx : s.indexMap.length = s.nConstraints + 1
  ident : s.nConstraintsInitial ≤ s.nConstraints → ∀ j, j ≤ s.nConstraints → s.indexMap.getD j 0 = j

/-- What `finish` returns. -/
structure Closed (s : Optimise ℝ) (o : ℝ) (r : Optimise ℝ × ℝ) : Prop where
  count : r.1.points.length = s.points.length
  point : ∀ (i : Nat) (p : BoundaryPoint ℝ), s.points[i]? = some p → ∃ d, r.1.points[i]? = some { p with velocity := d / r.1.timeStep } ∧
    (p.isFixed = true → s.displacements[i]? = some d) ∧
    (p.isFixed = false → d = capped p (proposed r.1.lambdas p) ∧
      ((p.isDomain = true → |p.negativeLimit| ≤ s.maxDisplacement) → |d| ≤ s.maxDisplacement)) ∧ r.1.displacements[i]? = some d
  len : r.1.lambdas.length = max s.nConstraintsInitial s.nConstraints + 1
  step : r.1.timeStep = |r.1.lambdas.getD 0 0|
  value : ∃ t, 0 < t ∧ t ≤ 1 ∧ r.2 = o * t / s.scaleFactors.getD 0 0 ∧
    (∀ j, j ≤ s.nConstraints → s.nConstraintsInitial ≤ s.nConstraints ∨ j = 0 →
      r.1.lambdas.getD j 0 = s.lambdas.getD j 0 * t * s.scaleFactors.getD j 0) ∧
    ((∀ (i : Nat) (p : BoundaryPoint ℝ), s.points[i]? = some p → p.isFixed = false →
      |capped p (raw s s.lambdas p)| ≤ s.maxDisplacement) → t = 1) ∧
    (t = 1 ∨ ∃ (i : Nat) (p : BoundaryPoint ℝ), s.points[i]? = some p ∧ p.isFixed = false ∧ |capped p (raw s s.lambdas p)| * t = s.maxDisplacement) ∧
    ∀ p, proposed r.1.lambdas p = raw s s.lambdas p * t
  whole : s.nConstraints = 0 ∨ s.nConstraintsInitial ≤ s.nConstraints
  rest : r.1.maxDisplacement = s.maxDisplacement ∧ r.1.nConstraints = s.nConstraints ∧ r.1.nConstraintsInitial = s.nConstraintsInitial
  frame : r.1 = { s with displacements := r.1.displacements, lambdas := r.1.lambdas, timeStep := r.1.timeStep, points := r.1.points }

theorem resize_getD {l : List ℝ} {n j : Nat} (h : l.length ≤ n) : (resize l n 0).getD j 0 = l.getD j 0 := by
  unfold resize
  rw [List.take_of_length_le h]
  simp only [List.getD, List.getElem?_append]
  split
  · rfl
  · rw [List.getElem?_replicate, List.getElem?_eq_none (by omega)]
    split <;> rfl

theorem resize_length {α : Type} {l : List α} {n : Nat} {a : α} : (resize l n a).length = n := by
  unfold resize
  rw [List.length_append, List.length_take, List.length_replicate]
  omega

theorem finish_val (C : Closing s) (hm : 0 < s.maxDisplacement) {o : Option ℝ} (ho : o ≠ none → s.lambdas.length = s.nConstraints + 1) :
    wp (finish s o) (fun r => ∃ v, o = some v ∧ Closed s v r) anyErr := by
  unfold finish
  rw [wp_bind]
  refine wp_imp computeDisplacements_val fun ds hds => ?_
  rw [wp_bind]
  cases o with
  | none =>
    refine any_of fun r hr => ?_
    exact trivial
  | some v =>
    have hl := ho (by simp)
    have hcur : Current { s with displacements := ds } := fun i p hi hp hf => (hds.2 i p hi hp).2 hf
    refine wp_imp (rescale_val hcur hm hl) ?_
    rintro ⟨s1, t⟩ ⟨l, ds', rfl, ht0, ht1, hlm, hcur', hdl, hfix, hone, hatt, hcfl⟩
    dsimp only at ht0 ht1 hlm hone hatt hcfl hfix hdl
    have hcur2 : ∀ (i : Nat) (p : BoundaryPoint ℝ), i < s.nPoints → s.points[i]? = some p → p.isFixed = false →
        ds'[i]? = some (capped p (raw s l p)) := hcur'
    rw [wp_bind, wp_pure, wp_bind]
    refine wp_imp (any_modEach (fun i x y => y = x * s.scaleFactors.getD i 0) fun i w hi hw => ?_) ?_
    · rw [wp_bind]
      refine any_rd fun f hf => any_modAt fun x hx => ⟨x, _, hx, rfl, ?_⟩
      rw [getD_of hf]; rfl
    · intro l2 ⟨e1, _, e3⟩
      dsimp only at e1 e3 ⊢
      have hll : l.length = s.nConstraints + 1 := by rw [hlm, List.length_map, hl]
      have hl2 : l2.length = s.nConstraints + 1 := e1.trans hll
      have hval : ∀ j, j < s.nConstraints + 1 → l2.getD j 0 = l.getD j 0 * s.scaleFactors.getD j 0 := by
        intro j hj
        obtain ⟨x, y, h1, h2, rfl⟩ := e3 j hj
        rw [getD_of h1, getD_of h2]
      rw [wp_bind]
      refine any_rd fun l0 hl0 => ?_
      rw [wp_bind]
      refine wp_imp (any_modEach (fun i x y => ∃ d, ds'[i]? = some d ∧ y = { x with velocity := d / |l0| }) fun i w hi hw => ?_) ?_
      · rw [wp_bind]
        refine any_rd fun d hd => any_modAt fun x hx => ⟨x, _, hx, rfl, d, hd, rfl⟩
      · intro pts ⟨p1, _, p3⟩
        -- common part
        have done : ∀ (l3 : List ℝ) (c : ℝ), (s.nConstraints = 0 ∨ s.nConstraintsInitial ≤ s.nConstraints) → l3.getD 0 0 = l2.getD 0 0 →
            l3.length = max s.nConstraintsInitial s.nConstraints + 1 →
            (∀ p : BoundaryPoint ℝ, proposed l3 p = raw s l p) →
            (∀ j, j ≤ s.nConstraints → s.nConstraintsInitial ≤ s.nConstraints ∨ j = 0 → l3.getD j 0 = l2.getD j 0) →
            s.scaleFactors.getD 0 0 = c →
            Closed s v ({ s with displacements := ds', lambdas := l3, timeStep := |l0|, points := pts }, v * t / c) := by
          intro l3 c hw h0 h3 hp hj hc
          refine ⟨p1, fun i p hi => ?_, h3, ?_, ⟨t, ht0, ht1, by rw [hc], fun j hj1 hj2 => ?_, fun hall => ?_, hatt, fun p => ?_⟩, hw, ⟨rfl, rfl, rfl⟩, rfl⟩
          · have hlt : i < s.nPoints := by rw [C.pts]; exact (List.getElem?_eq_some_iff.1 hi).1
            obtain ⟨x, y, a1, a2, d, a3, a4⟩ := p3 i hlt
            rw [hi] at a1
            cases a1
            refine ⟨d, by rw [← a4]; exact a2, fun hf => ?_, fun hf => ?_, a3⟩
            · rw [← (hds.2 i p hlt hi).1 hf, ← hfix i p hlt hi hf]
              exact a3
            · have hd := hcur2 i p hlt hi hf
              rw [a3] at hd
              have hd := Option.some.inj hd
              refine ⟨by rw [hp]; exact hd, fun hdom => ?_⟩
              rw [hd]
              exact hcfl i p hlt hi hf hdom
          · show |l0| = _
            rw [h0, getD_of hl0]
          · show l3.getD j 0 = _
            rw [hj j hj1 hj2, hval j (by omega), hlm, getD_map_mul]
          · exact hone fun i p hi hp hf => hall i p hp hf
          · show proposed l3 p = _
            rw [hp, hlm]
            exact raw_map_mul t
        rw [wp_bind]
        refine wp_ite (fun hlt => ?_) (fun hlt => ?_)
        · refine wp_ite (fun hpos => ?_) (fun hpos => ?_)
          · -- undefined: `indexMap[nConstraints + 1]`
            rw [wp_bind]
            refine any_of fun l3 hl3 => ?_
            exfalso
            have : ∀ (n : Nat) (f : Nat → List ℝ → Res (List ℝ)) (v : List ℝ), 0 < n → (∀ x, f 0 v ≠ .ok x) → ∀ x, forN n v f ≠ .ok x := by
              intro n f v hn h0
              induction n with
              | zero => omega
              | succ n ih =>
                intro x hx
                rw [forN_succ] at hx
                rcases Nat.eq_zero_or_pos n with rfl | hn'
                · exact h0 x hx
                · cases h1 : forN n v f with
                  | error e => rw [h1] at hx; cases hx
                  | ok y => exact ih hn' y h1
            refine this _ _ _ (Nat.succ_pos _) (fun x hx => ?_) l3 hl3
            rw [rd_ub (by rw [C.idx]; omega)] at hx
            cases hx
          · have h0 : s.nConstraints = 0 := by omega
            rw [wp_pure]
            dsimp only
            rw [wp_bind]
            refine any_rd fun c hc => ?_
            rw [wp_pure]
            have hle : l2.length ≤ 1 + s.nConstraintsInitial := by omega
            refine ⟨v, rfl, done _ _ (.inl h0) (by rw [show (nat 0 : ℝ) = 0 by simp]; exact resize_getD hle) (by rw [show (nat 0 : ℝ) = 0 by simp, resize_length]; omega) (fun p => ?_)
              (fun j _ _ => by rw [show (nat 0 : ℝ) = 0 by simp]; exact resize_getD hle) (getD_of hc)⟩
            · rw [show (nat 0 : ℝ) = 0 by simp, proposed_eq]
              simp only [resize_getD hle, resize_length]
              rw [Finset.sum_eq_single 0]
              · unfold raw
                rw [h0, Finset.sum_range_zero, add_zero, hval 0 (by omega)]
                ring
              · intro j _ hj
                have : l2.getD j 0 = 0 := by
                  rw [List.getD, List.getElem?_eq_none (by omega)]; rfl
                rw [this, zero_mul]
              · intro hn
                exact absurd (Finset.mem_range.2 (by omega)) hn
        · rw [wp_pure, wp_bind]
          refine any_rd fun c hc => ?_
          rw [wp_pure]
          have hge : s.nConstraintsInitial ≤ s.nConstraints := by
            have : ¬ s.nConstraints < s.nConstraintsInitial := hlt
            omega
          refine ⟨v, rfl, done _ _ (.inr hge) rfl (by rw [hl2, max_eq_right hge]) (fun p => ?_) (fun _ _ _ => rfl) (getD_of hc)⟩
          exact (raw_eq_proposed hl2 hval (C.ident hge)).symm

end Slsm.Optimise
