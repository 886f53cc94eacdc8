import Verif.Proof.OptSafe

/-! # What the steps of the optimiser leave alone, for any kind of number -/

namespace Slsm.Optimise

open FP

variable {D : Type} [FP D] {s s' t : Optimise D}

/-- The points and the limit are the same, and so is the numbering of the constraints as long as none has been dropped. -/
structure Keep (s r : Optimise D) : Prop where
  pts : r.points = s.points
  npts : r.nPoints = s.nPoints
  lim : r.maxDisplacement = s.maxDisplacement
  init : r.nConstraintsInitial = s.nConstraintsInitial
  le : r.nConstraints ≤ s.nConstraints
  idx : r.nConstraints = s.nConstraints → r.indexMap = s.indexMap
  len : s.indexMap.length = s.nConstraints + 1 → r.indexMap.length = r.nConstraints + 1

theorem Keep.refl : Keep s s := ⟨rfl, rfl, rfl, rfl, le_rfl, fun _ => rfl, fun h => h⟩

theorem Keep.trans (h : Keep s s') (h' : Keep s' t) : Keep s t :=
  ⟨h'.pts.trans h.pts, h'.npts.trans h.npts, h'.lim.trans h.lim, h'.init.trans h.init, h'.le.trans h.le, fun e =>
    (h'.idx (le_antisymm h'.le (by have := h.le; omega))).trans (h.idx (le_antisymm h.le (by have := h'.le; omega))), fun e => h'.len (h.len e)⟩

/-- The first two loops of a pass also leave the number of constraints alone. -/
structure Same (s r : Optimise D) : Prop extends Keep s r where
  num : r.nConstraints = s.nConstraints

theorem Same.refl : Same s s := ⟨.refl, rfl⟩

theorem Same.trans (h : Same s s') (h' : Same s' t) : Same s t := ⟨h.toKeep.trans h'.toKeep, h'.num.trans h.num⟩

theorem limits_same {fuel : Nat} : wp (computeLambdaLimits fuel s) (Same s) anyErr := by
  unfold computeLambdaLimits
  refine wp_forN (fun _ t => Same s t) .refl fun i _ t ht => ?_
  rw [wp_bind]; refine any_rd fun _ _ => ?_
  rw [wp_bind]; refine any_of fun _ _ => ?_
  rw [wp_bind]; refine any_rd fun _ _ => ?_
  dsimp only
  rw [wp_bind]; refine any_wr fun _ => ?_
  rw [wp_bind]; refine any_wr fun _ => ?_
  rw [wp_bind]; refine any_rd fun _ _ => ?_
  rw [wp_bind]; refine any_of fun _ _ => ?_
  rw [wp_bind]; refine any_of fun _ _ => ?_
  rw [wp_bind]; refine any_wr fun _ => ?_
  exact ⟨⟨ht.pts, ht.npts, ht.lim, ht.init, ht.le, ht.idx, ht.len⟩, ht.num⟩

theorem assess_same {n i : Nat} : wp (assess n i s) (fun r => Same s r.1) anyErr := by
  unfold assess
  rw [wp_bind]
  have h : wp (cornerChanges s n i) (fun r => Same s r.1) anyErr := by
    unfold cornerChanges
    refine wp_forN (fun _ (r : Optimise D × List D) => Same s r.1) .refl ?_
    rintro j _ ⟨t, cs⟩ ht
    dsimp only at ht ⊢
    rw [wp_bind]; refine any_of fun _ _ => ?_
    rw [wp_bind]; refine any_of fun _ _ => ?_
    rw [wp_bind]; refine any_rd fun _ _ => ?_
    rw [wp_bind]; refine any_of fun _ _ => ?_
    exact ⟨⟨ht.pts, ht.npts, ht.lim, ht.init, ht.le, ht.idx, ht.len⟩, ht.num⟩
  refine wp_imp h ?_
  rintro ⟨t, cs⟩ ht
  dsimp only at ht ⊢
  rw [wp_bind]; refine any_rd fun _ _ => ?_
  rw [wp_bind]; refine any_rd fun _ _ => ?_
  rw [wp_bind]; refine any_rd fun _ _ => ?_
  have e : ∀ v : List D, Same s { t with constraintDistancesScaled := v } := fun _ =>
    ⟨⟨ht.pts, ht.npts, ht.lim, ht.init, ht.le, ht.idx, ht.len⟩, ht.num⟩
  refine wp_ite (fun _ => wp_ite (fun _ => ?_) fun _ => ht) fun _ => wp_ite (fun _ => ?_) fun _ => ht
  · rw [wp_bind]; exact any_wr fun _ => e _
  · rw [wp_bind]
    refine any_rd fun _ _ => wp_ite (fun _ => ?_) fun _ => ht
    rw [wp_bind]; exact any_wr fun _ => e _

theorem any_move {α : Type} {v : List α} {i j : Nat} {Q : List α → Prop} (h : ∀ x, v[i]? = some x → Q (v.set j x)) :
    wp (rd v i >>= wr v j) Q anyErr := by
  rw [wp_bind]
  exact any_rd fun x hx => any_wr fun _ => h x hx

/-- What `moveDown` leaves alone. -/
theorem moveDown_keep {n i : Nat} : wp (moveDown n i s) (fun r => (r.points = s.points ∧ r.nPoints = s.nPoints ∧
    r.maxDisplacement = s.maxDisplacement ∧ r.nConstraintsInitial = s.nConstraintsInitial ∧ r.nConstraints = s.nConstraints) ∧
    r.indexMap.length = s.indexMap.length ∧ (n = i → r.indexMap = s.indexMap)) anyErr := by
  unfold moveDown
  rw [wp_bind]; refine any_move fun _ _ => ?_
  rw [wp_bind]; refine any_move fun _ _ => ?_
  rw [wp_bind]; refine any_move fun _ _ => ?_
  rw [wp_bind]; refine any_move fun _ _ => ?_
  rw [wp_bind]; refine any_move fun m hm => ?_
  rw [wp_bind]; refine any_move fun _ _ => ?_
  rw [wp_bind]; refine any_move fun _ _ => ?_
  rw [wp_bind]; refine any_move fun _ _ => ?_
  refine ⟨⟨rfl, rfl, rfl, rfl, rfl⟩, List.length_set, ?_⟩
  rintro rfl
  refine List.ext_getElem? fun j => ?_
  show (s.indexMap.set (n + 1) m)[j]? = _
  by_cases hj : n + 1 = j
  · subst hj
    rw [List.getElem?_set_self (List.getElem?_eq_some_iff.1 hm).1, hm]
  · rw [List.getElem?_set_ne hj]

theorem pass_keep : wp (pass s.nConstraints s) (fun r => Keep s r.1) anyErr := by
  unfold pass
  refine wp_ite (fun _ => trivial) fun _ => ?_
  rw [wp_bind]
  refine wp_imp (wp_forN (fun _ r => Same s r.1) .refl ?_) ?_
  · rintro i _ ⟨t, act⟩ ht
    dsimp only at ht ⊢
    rw [wp_bind]
    refine wp_imp assess_same ?_
    rintro ⟨t', a⟩ h
    exact ht.trans h
  · rintro ⟨t, act⟩ ht
    dsimp only at ht ⊢
    rw [wp_bind]
    refine wp_imp (wp_forN (fun i r => (r.1.points = s.points ∧ r.1.nPoints = s.nPoints ∧ r.1.maxDisplacement = s.maxDisplacement ∧
      r.1.nConstraintsInitial = s.nConstraintsInitial ∧ r.1.nConstraints = s.nConstraints) ∧ r.1.indexMap.length = s.indexMap.length ∧ r.2 ≤ i ∧ (r.2 = i → r.1.indexMap = s.indexMap))
      ⟨⟨ht.pts, ht.npts, ht.lim, ht.init, ht.num⟩, congrArg _ (ht.idx ht.num), le_rfl, fun _ => ht.idx ht.num⟩ ?_) ?_
    · rintro i hi ⟨t', k⟩ ⟨⟨h1, h2, h3, h4, h5⟩, h8, h6, h7⟩
      dsimp only at h1 h2 h3 h4 h5 h6 h7 h8 ⊢
      rw [wp_bind]
      refine any_rd fun a _ => wp_ite (fun _ => ?_) fun _ => ⟨⟨h1, h2, h3, h4, h5⟩, h8, by dsimp only; omega, fun h => by dsimp only at h; omega⟩
      rw [wp_bind]
      refine wp_imp moveDown_keep ?_
      rintro t'' ⟨⟨g1, g2, g3, g4, g5⟩, g8, g6⟩
      exact ⟨⟨g1.trans h1, g2.trans h2, g3.trans h3, g4.trans h4, g5.trans h5⟩, g8.trans h8, by dsimp only; omega, fun h => by
        dsimp only at h ⊢
        rw [g6 (by omega), h7 (by omega)]⟩
    · rintro ⟨t', k⟩ ⟨⟨h1, h2, h3, h4, h5⟩, h8, h6, h7⟩
      dsimp only at h1 h2 h3 h4 h5 h6 h7 h8 ⊢
      rw [wp_pure]
      dsimp only
      split
      · exact ⟨h1, h2, h3, h4, h6, fun e => by change k = _ at e; omega, fun _ => resize_length⟩
      · exact ⟨h1, h2, h3, h4, h5.le, fun e => h7 (by omega), fun e => by omega⟩

theorem pass_few {n : Nat} : wp (pass n s) (fun _ => n < 31) anyErr := by
  unfold pass
  refine wp_ite (fun _ => trivial) fun _ => any_of fun _ _ => by omega

theorem constraints_few {fuel n : Nat} : wp (computeConstraintDistances fuel n s) (fun _ => n < 31) anyErr := by
  cases fuel with
  | zero => exact trivial
  | succ fuel =>
    unfold computeConstraintDistances
    rw [wp_bind]
    exact wp_imp pass_few fun _ h => any_of fun _ _ => h

theorem constraints_keep {fuel n : Nat} (hn : n = s.nConstraints) : wp (computeConstraintDistances fuel n s) (Keep s) anyErr := by
  induction fuel generalizing n s with
  | zero => exact trivial
  | succ fuel ih =>
    unfold computeConstraintDistances
    rw [wp_bind]
    subst hn
    refine wp_imp pass_keep ?_
    rintro ⟨t, k⟩ h
    dsimp only at h ⊢
    refine wp_ite (fun _ => wp_imp (ih rfl) fun r hr => h.trans hr) fun _ => h

/-- `prepare` leaves the points and the limit alone, and numbers the constraints in order unless it drops one. -/
theorem prepare_keep {fuel : Nat} : wp (prepare fuel s) (fun r => r.points = s.points ∧ r.nPoints = s.points.length ∧
    r.maxDisplacement = s.maxDisplacement ∧ r.nConstraintsInitial = s.nConstraintsInitial ∧ r.nConstraints ≤ s.nConstraints ∧ r.nConstraints < 31 ∧ r.indexMap.length = r.nConstraints + 1 ∧
    (r.nConstraints = s.nConstraints → r.indexMap = List.range (s.nConstraints + 1))) anyErr := by
  unfold prepare
  rw [wp_bind]
  have h : wp (reduce fuel s) (fun r => r.points = s.points ∧ r.nPoints = s.points.length ∧
    r.maxDisplacement = s.maxDisplacement ∧ r.nConstraintsInitial = s.nConstraintsInitial ∧ r.nConstraints ≤ s.nConstraints ∧ r.nConstraints < 31 ∧ r.indexMap.length = r.nConstraints + 1 ∧
    (r.nConstraints = s.nConstraints → r.indexMap = List.range (s.nConstraints + 1))) anyErr := by
    unfold reduce
    dsimp only
    rw [wp_bind]; refine any_of fun f _ => ?_
    rw [wp_bind]; refine any_of fun l _ => ?_
    rw [wp_bind]
    refine wp_imp limits_same fun t ht => ?_
    have e : ∀ r, Keep t r → r.nConstraints < 31 → r.points = s.points ∧ r.nPoints = s.points.length ∧
        r.maxDisplacement = s.maxDisplacement ∧ r.nConstraintsInitial = s.nConstraintsInitial ∧ r.nConstraints ≤ s.nConstraints ∧ r.nConstraints < 31 ∧ r.indexMap.length = r.nConstraints + 1 ∧
        (r.nConstraints = s.nConstraints → r.indexMap = List.range (s.nConstraints + 1)) := fun r hr hl =>
      ⟨hr.pts.trans ht.pts, hr.npts.trans ht.npts, hr.lim.trans ht.lim, hr.init.trans ht.init, hr.le.trans ht.le, hl, hr.len (ht.len (by simp)), fun h => by
        rw [hr.idx (h.trans ht.num.symm)]; exact ht.idx ht.num⟩
    refine wp_ite (fun _ => ?_) fun h => e _ .refl (by omega)
    exact wp_mono (wp_and (constraints_keep rfl) constraints_few) (fun r hr => e r hr.1 (by have := hr.1.le; have := hr.2; omega)) fun _ _ => trivial
  refine wp_imp h fun r hr => ?_
  dsimp only
  rw [wp_bind]; refine any_of fun g _ => ?_
  exact hr

/-- After the attempts the multipliers are an answer of the solver, if the objective has a value. -/
theorem attempt_keep {nlopt : Optimise D → NLoptRun D} {o : Option D}
    (ho : o ≠ none → ∃ t, s.lambdas = (List.range (s.nConstraints + 1)).map (nlopt t).lambdas) :
    wp (attempt nlopt s o) (fun r => Same s r.1 ∧ (r.2 ≠ none → ∃ t, r.1.lambdas = (List.range (r.1.nConstraints + 1)).map (nlopt t).lambdas)) anyErr := by
  unfold attempt
  refine wp_ite (fun _ => ?_) fun _ => ⟨.refl, ho⟩
  dsimp only
  rw [wp_bind]
  refine wp_imp (wp_foldlM (fun _ t => ∃ d, t = { s with displacements := d }) ⟨_, rfl⟩ fun q b hb t ht => ?_) fun t ht => ?_
  · obtain ⟨d, rfl⟩ := ht
    rw [wp_bind]
    have : wp (callback { s with displacements := d } ((List.range (s.nConstraints + 1)).map b.1) b.2.1 b.2.2)
        (fun r => ∃ d, r.1 = { s with displacements := d }) anyErr := by
      unfold callback
      rw [wp_bind]; refine any_of fun d' _ => ?_
      dsimp only
      rw [wp_bind]; refine any_of fun v _ => ?_
      refine wp_ite (fun _ => ?_) fun _ => ⟨_, rfl⟩
      rw [wp_bind]; exact any_rd fun _ _ => ⟨_, rfl⟩
    refine wp_imp this ?_
    rintro ⟨t, g, v⟩ ⟨d', rfl⟩
    exact ⟨d', rfl⟩
  · obtain ⟨d, rfl⟩ := ht
    dsimp only
    cases (nlopt s).result with
    | code c => exact ⟨⟨⟨rfl, rfl, rfl, rfl, le_rfl, fun _ => rfl, fun h => h⟩, rfl⟩, fun _ => ⟨s, rfl⟩⟩
    | roundoff =>
      dsimp only
      rw [wp_bind]; refine any_of fun v _ => ?_
      exact ⟨⟨⟨rfl, rfl, rfl, rfl, le_rfl, fun _ => rfl, fun h => h⟩, rfl⟩, fun _ => ⟨s, rfl⟩⟩
    | invalid => exact ⟨⟨⟨rfl, rfl, rfl, rfl, le_rfl, fun _ => rfl, fun h => h⟩, rfl⟩, fun _ => ⟨s, rfl⟩⟩
    | other => exact trivial

theorem attempts_keep {nlopt : Optimise D → NLoptRun D} {o : Option D} {fuel : Nat}
    (ho : o ≠ none → ∃ t, s.lambdas = (List.range (s.nConstraints + 1)).map (nlopt t).lambdas) :
    wp (attempts nlopt fuel s o) (fun r => Same s r.1 ∧ (r.2 ≠ none → ∃ t, r.1.lambdas = (List.range (r.1.nConstraints + 1)).map (nlopt t).lambdas)) anyErr := by
  induction fuel generalizing s o with
  | zero => exact trivial
  | succ fuel ih =>
    unfold attempts
    rw [wp_bind]
    refine wp_imp (attempt_keep ho) ?_
    rintro ⟨t, o'⟩ ⟨h1, h2⟩
    dsimp only at h1 h2 ⊢
    cases hc : t.returnCode with
    | none => exact trivial
    | some c =>
      dsimp only
      refine wp_ite (fun _ => ?_) fun _ => ⟨h1, h2⟩
      exact wp_imp (ih h2) fun r hr => ⟨h1.trans hr.1, hr.2⟩

/-- The state in which the last part of `solve` begins. -/
theorem solve_keep {nlopt : Optimise D → NLoptRun D} {fuel : Nat} {r : Optimise D × D} (e : solve nlopt fuel s = .ok r) :
    ∃ t o, finish t o = .ok r ∧ t.points = s.points ∧ t.nPoints = s.points.length ∧ t.maxDisplacement = s.maxDisplacement ∧
      t.nConstraintsInitial = s.nConstraintsInitial ∧ t.nConstraints ≤ s.nConstraints ∧ t.nConstraints < 31 ∧ t.indexMap.length = t.nConstraints + 1 ∧
      (t.nConstraints = s.nConstraints → t.indexMap = List.range (s.nConstraints + 1)) ∧
      (o ≠ none → ∃ t', t.lambdas = (List.range (t.nConstraints + 1)).map (nlopt t').lambdas) := by
  have : wp (solve nlopt fuel s) (fun r => ∃ t o, finish t o = .ok r ∧ t.points = s.points ∧ t.nPoints = s.points.length ∧
      t.maxDisplacement = s.maxDisplacement ∧
      t.nConstraintsInitial = s.nConstraintsInitial ∧ t.nConstraints ≤ s.nConstraints ∧ t.nConstraints < 31 ∧ t.indexMap.length = t.nConstraints + 1 ∧
      (t.nConstraints = s.nConstraints → t.indexMap = List.range (s.nConstraints + 1)) ∧
      (o ≠ none → ∃ t', t.lambdas = (List.range (t.nConstraints + 1)).map (nlopt t').lambdas)) anyErr := by
    unfold solve
    rw [wp_bind]
    refine wp_imp prepare_keep ?_
    rintro t ⟨h1, h2, h3, h4, h5, h7, h8, h6⟩
    rw [wp_bind]; refine any_of fun _ _ => ?_
    rw [wp_bind]
    refine wp_imp (attempts_keep fun h => absurd rfl h) ?_
    rintro ⟨t', o⟩ ⟨g1, g2⟩
    dsimp only at g1 g2 ⊢
    refine any_of fun r hr => ⟨t', o, hr, g1.pts.trans h1, g1.npts.trans h2, g1.lim.trans h3, g1.init.trans h4, g1.le.trans h5, g1.le.trans_lt h7, g1.len h8, fun h => ?_, g2⟩
    rw [g1.idx g1.num]
    exact h6 (g1.num.symm.trans h)
  exact any_ok this e

theorem finish_keep {o : Option D} {r : Optimise D × D} (e : finish s o = .ok r) : r.1.nConstraints = s.nConstraints ∧
    r.1.nConstraintsInitial = s.nConstraintsInitial ∧ r.1.scaleFactors = s.scaleFactors := by
  have : wp (finish s o) (fun r => r.1.nConstraints = s.nConstraints ∧ r.1.nConstraintsInitial = s.nConstraintsInitial ∧
      r.1.scaleFactors = s.scaleFactors) anyErr := by
    unfold finish
    rw [wp_bind]
    refine any_of fun d _ => ?_
    dsimp only
    rw [wp_bind]
    refine wp_imp (Q := fun r => r.1.nConstraints = s.nConstraints ∧ r.1.nConstraintsInitial = s.nConstraintsInitial ∧
      r.1.scaleFactors = s.scaleFactors) ?_ fun x hx => ?_
    · unfold rescaleDisplacements
      rw [wp_bind]
      refine any_of fun m _ => wp_ite (fun _ => (wp_pure _ _ _).2 ⟨rfl, rfl, rfl⟩) fun _ => ?_
      dsimp only
      rw [wp_bind]
      refine any_of fun l _ => ?_
      rw [wp_bind]
      exact any_of fun l _ => (wp_pure _ _ _).2 ⟨rfl, rfl, rfl⟩
    · obtain ⟨t, c⟩ := x
      dsimp only at hx ⊢
      rw [wp_bind]
      refine any_of fun obj _ => ?_
      rw [wp_bind]
      refine any_of fun l _ => ?_
      rw [wp_bind]
      refine any_of fun l0 _ => ?_
      rw [wp_bind]
      refine any_of fun pts _ => ?_
      rw [wp_bind]
      refine wp_imp (Q := fun r => r.nConstraints = s.nConstraints ∧ r.nConstraintsInitial = s.nConstraintsInitial ∧
        r.scaleFactors = s.scaleFactors) ?_ fun x hx => ?_
      · refine wp_ite (fun _ => wp_ite (fun _ => ?_) fun _ => (wp_pure _ _ _).2 hx) fun _ => (wp_pure _ _ _).2 hx
        rw [wp_bind]
        exact any_of fun l _ => (wp_pure _ _ _).2 hx
      · rw [wp_bind]
        exact any_of fun l _ => (wp_pure _ _ _).2 hx
  exact any_ok this e

theorem new_counts {pts : List (BoundaryPoint D)} {distances lambdas : List D} {dt limit : D} {isMax : Bool} {equality : List Bool}
    (e : new pts distances lambdas dt limit isMax equality = .ok s) : s.nConstraints = s.nConstraintsInitial := by
  have : wp (new pts distances lambdas dt limit isMax equality) (fun s => s.nConstraints = s.nConstraintsInitial) anyErr := by
    unfold new
    generalize LevelSet.sub32 lambdas.length 1 = n
    rw [wp_bind]; refine any_of fun _ _ => ?_
    rw [wp_bind]; refine any_of fun _ _ => ?_
    dsimp only
    rw [wp_bind]; refine any_of fun _ _ => ?_
    rw [wp_bind]; exact any_of fun _ _ => rfl
  exact any_ok this e

end Slsm.Optimise
