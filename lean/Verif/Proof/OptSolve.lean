import Verif.Proof.OptPrep
import Verif.Proof.OptFinish

/-! The whole of `solve`. -/

namespace Slsm.Optimise

open FP

variable {s s0 s1 s' : Optimise ℝ}

/-! ### before the solver -/

/-- The state after the limits have been computed. -/
structure Limited (s s0 : Optimise ℝ) : Prop where
  eq : s0 = { s with
    nPoints := s.points.length, displacements := resize s.displacements s.points.length 0, indexMap := List.range (s.nConstraints + 1),
    scaleFactors := s0.scaleFactors, lambdas := s0.lambdas, negativeLambdaLimits := s0.negativeLambdaLimits,
    positiveLambdaLimits := s0.positiveLambdaLimits }
  len : s0.lambdas.length = s.lambdas.length
  fn : ∀ i, i ≤ s.nConstraints → ∃ f x a b c, s0.scaleFactors[i]? = some f ∧ s.lambdas[i]? = some x ∧ s0.negativeLambdaLimits[i]? = some a ∧
    s0.positiveLambdaLimits[i]? = some b ∧ s0.lambdas[i]? = some c ∧ 0 ≤ f ∧ (Responds s.points i → 0 < f) ∧
    Limit s.points s.maxDisplacement f (x / f) a b c i

theorem Limit.nonneg {pts : List (BoundaryPoint ℝ)} {maxD f l0 lo hi l : ℝ} {k : Nat} (h : Limit pts maxD f l0 lo hi l k) (hm : 0 < maxD)
    (hf : 0 ≤ f) : 0 ≤ hi := by
  obtain ⟨m, hP, rfl⟩ := h.val
  have : 0 < m := lt_of_lt_of_le (by positivity) hP.ge
  positivity

theorem Limited.bracket (L : Limited s s0) (hm : 0 < s.maxDisplacement) : Bracket s0 := by
  intro b hb
  have hn : s0.nConstraints = s.nConstraints := by rw [L.eq]
  obtain ⟨f, x, lo, hi, c, h1, h2, h3, h4, h5, h6, h7, h8⟩ := L.fn b (by omega)
  have := h8.nonneg hm h6
  rw [getD_of h3, getD_of h4, h8.sym]
  exact ⟨by linarith, this⟩

/-- The state after inactive constraints have been removed. -/
structure Reduced (s s0 s1 : Optimise ℝ) : Prop where
  lim : Limited s s0
  rel : Rel s0 s1
  loose : ∀ j, j < s.nConstraints → Dropped s0 (s.nConstraints + 1) j → j + 1 ∉ s1.indexMap
  aim : s1.nConstraints = s.nConstraints →
    s1 = { s0 with displacements := s1.displacements, constraintDistancesScaled := s1.constraintDistancesScaled } ∧
    ∀ j, j < s.nConstraints → Aim s0 (s.nConstraints + 1) j s1.constraintDistancesScaled

/-- The state before the solver is called. -/
structure Prepared (s s0 s1 r : Optimise ℝ) : Prop extends Reduced s s0 s1 where
  eq : r = { s1 with gradients := r.gradients }
  grads : r.gradients.length = s1.nConstraints + 1
  grad : s1.indexMap = List.range (s1.nConstraints + 1) → ∀ i, i ≤ s1.nConstraints → ∃ g, r.gradients[i]? = some g ∧
    g.length = s1.nConstraints + 1 ∧ ∀ j, j ≤ s1.nConstraints → g[j]? = some (gradEntry s1 i j)

theorem reduce_val {fuel : Nat} (hm : 0 < s.maxDisplacement) : wp (reduce fuel s) (fun r => ∃ s0, Reduced s s0 r) anyErr := by
  unfold reduce
  rw [wp_bind]
  refine wp_imp (scale_val rfl rfl) fun f hf => ?_
  dsimp only at hf ⊢
  rw [wp_bind]
  refine wp_imp (any_modEach (fun i x y => ∃ a, f[i]? = some a ∧ y = x / a) fun i w hi hw => ?_) fun l hl => ?_
  · rw [wp_bind]
    refine any_rd fun a ha => any_modAt fun x hx => ⟨x, _, hx, rfl, a, ha, rfl⟩
  obtain ⟨l1, l2, l3⟩ := hl
  rw [wp_bind]
  refine wp_imp (limits_val rfl hm fun i hi => ?_) ?_
  · obtain ⟨x, h1, h2, -⟩ := hf.2 i hi
    exact ⟨x, h1, h2⟩
  · rintro s0 ⟨lo, hi, la, hs0, g1, g2, g3⟩
    dsimp only at hs0 g1 g2 g3
    have L : Limited s s0 := by
      refine ⟨?_, ?_, fun i hi => ?_⟩
      · rw [hs0]; simp
      · rw [hs0]; exact g1.trans l1
      · obtain ⟨a, l0, x, y, c, h1, h2, h3, h4, h5, h6⟩ := g3 i hi
        obtain ⟨z, z1, z2, z3⟩ := hf.2 i hi
        obtain ⟨u, v, u1, v1, b, b1, rfl⟩ := l3 i (by omega)
        rw [h1] at z1 b1
        cases z1; cases b1
        rw [h2] at v1; cases v1
        rw [hs0]
        exact ⟨a, u, x, y, c, h1, u1, h3, h4, h5, z2, z3, h6⟩
    have hn : s0.nConstraints = s.nConstraints := by rw [hs0]
    have hR : Rel s0 s0 := by
      refine rel_refl (by rw [hs0]) ?_ ?_ ?_ ?_ <;> intro j hj <;> obtain ⟨a, x, p, q, c, h1, h2, h3, h4, h5, -⟩ := L.fn j (by omega)
      exacts [⟨_, h5⟩, ⟨_, h1⟩, ⟨_, h3⟩, ⟨_, h4⟩]
    refine wp_ite (fun _ => ?_) (fun h0 => ⟨s0, L, hR, fun j hj => by omega, fun _ => ⟨rfl, fun j hj => by omega⟩⟩)
    refine wp_imp (constraints_val hR (L.bracket hm) (by rw [hs0]) rfl) fun r h => ⟨s0, L, h.1, fun j hj hD => ?_, fun hr => ?_⟩
    · rw [← hn] at hj hD
      refine h.2.2.1 j (j + 1) hj hD ?_
      rw [hs0] at hj ⊢
      exact List.getElem?_range (by dsimp only at hj; omega)
    · have := h.2.2.2 (hr.trans hn.symm)
      exact ⟨this.1, by rw [← hn]; exact this.2⟩

theorem prepare_val {fuel : Nat} (hm : 0 < s.maxDisplacement) : wp (prepare fuel s) (fun r => ∃ s0 s1, reduce fuel s = .ok s1 ∧ Prepared s s0 s1 r) anyErr := by
  unfold prepare
  rw [wp_bind]
  refine any_of fun s1 hred => ?_
  obtain ⟨s0, R⟩ := any_ok (reduce_val hm) hred
  dsimp only
  rw [wp_bind]
  by_cases hid : s1.indexMap = List.range (s1.nConstraints + 1)
  · refine wp_imp (wp_forN (fun n gs => gs.length = s1.nConstraints + 1 ∧ ∀ i, i < n → ∃ g, gs[i]? = some g ∧
      g.length = s1.nConstraints + 1 ∧ ∀ j, j ≤ s1.nConstraints → g[j]? = some (gradEntry s1 i j))
      ⟨resize_length, fun i hi => absurd hi (Nat.not_lt_zero i)⟩ fun i hi gs hg => ?_) fun gs hg => ?_
    · rw [wp_bind]
      refine wp_imp (gradients_val (by exact hid) (by dsimp only; omega)) fun g hg' => ?_
      refine any_wr fun hlt => ⟨by rw [List.length_set]; exact hg.1, fun j hj => ?_⟩
      by_cases hji : j = i
      · subst hji
        rw [List.getElem?_set_self hlt]
        exact ⟨g, rfl, by rw [hg'.1, List.length_replicate], hg'.2⟩
      · rw [List.getElem?_set_ne (Ne.symm hji)]
        exact hg.2 j (by omega)
    · rw [wp_pure]
      exact ⟨s0, s1, hred, R, rfl, hg.1, fun _ i hi => hg.2 i (by omega)⟩
  · refine wp_imp (wp_forN (fun _ gs => gs.length = s1.nConstraints + 1) resize_length fun i hi gs hg => ?_) fun gs hg => ?_
    · rw [wp_bind]
      refine wp_imp gradients_len fun g _ => any_wr fun hlt => ?_
      rw [List.length_set]; exact hg
    · rw [wp_pure]
      exact ⟨s0, s1, hred, R, rfl, hg, fun h => absurd h hid⟩

/-! ### the solver -/

/-- States that may differ in what the attempts change. -/
structure Framed (s s' : Optimise ℝ) : Prop where
  eq : s' = { s with
    displacements := s'.displacements, lambdas := s'.lambdas, constraintDistancesScaled := s'.constraintDistancesScaled,
    returnCode := s'.returnCode }
  shift : Shifted s s'.displacements
  targets : s'.constraintDistancesScaled.length = s.constraintDistancesScaled.length

theorem Framed.refl : Framed s s := ⟨rfl, ⟨rfl, fun _ _ _ _ _ => rfl⟩, rfl⟩

theorem Framed.trans (h : Framed s s0) (h' : Framed s0 s1) : Framed s s1 := by
  refine ⟨?_, ⟨h'.shift.1.trans h.shift.1, fun i p hi hp hf => ?_⟩, h'.targets.trans h.targets⟩
  · rw [h'.eq, h.eq]
  · have e := h.eq
    rw [← h.shift.2 i p hi hp hf]
    exact h'.shift.2 i p (by rw [e]; exact hi) (by rw [e]; exact hp) hf

theorem function_val {index : Nat} : wp (computeFunction s index) (fun v => ∃ j, s.indexMap[index]? = some j ∧
    v = (∑ i ∈ Finset.range s.nPoints, (s.points[i]?).elim 0 fun p => if p.isFixed then 0 else
      s.scaleFactors.getD index 0 * s.displacements.getD i 0 * p.sensitivities.getD j 0 * p.length) -
      (if index = 0 then 0 else s.scaleFactors.getD index 0 * s.constraintDistancesScaled.getD (index - 1) 0)) anyErr := by
  unfold computeFunction
  rw [wp_bind]
  refine any_rd fun j hj => ?_
  rw [wp_bind]
  refine wp_imp (wp_forN (fun n v => v = ∑ i ∈ Finset.range n, (s.points[i]?).elim 0 fun p => if p.isFixed then 0 else
      s.scaleFactors.getD index 0 * s.displacements.getD i 0 * p.sensitivities.getD j 0 * p.length) (by simp) fun i hi v hv => ?_) fun v hv => ?_
  · rw [wp_bind]
    refine any_rd fun p hp => ?_
    rw [Finset.sum_range_succ, hp, Option.elim_some]
    refine wp_ite (fun hf => ?_) (fun hf => ?_)
    · rw [if_pos hf, add_zero]; exact hv
    · rw [wp_bind]; refine any_rd fun f hf' => ?_
      rw [wp_bind]; refine any_rd fun d hd => ?_
      rw [wp_bind]; refine any_rd fun c hc => ?_
      rw [wp_pure, if_neg hf, ← hv, getD_of hf', getD_of hd, getD_of hc]
      simp only [FP.add_real, FP.mul_real]
  · refine wp_ite (fun hi => ?_) (fun hi => ?_)
    · rw [wp_pure]
      exact ⟨j, hj, by rw [if_pos hi, sub_zero]; exact hv⟩
    · rw [wp_bind]; refine any_rd fun f hf => ?_
      rw [wp_bind]; refine any_rd fun t ht => ?_
      rw [wp_pure]
      exact ⟨j, hj, by rw [if_neg hi, ← hv, getD_of hf, getD_of ht]; simp only [FP.sub_real, FP.mul_real]⟩

theorem callback_val {lambda : List ℝ} {w : Bool} {index : Nat} (hp : s.nPoints = s.points.length) :
    wp (callback s lambda w index) (fun r => (r.1 = { s with displacements := r.1.displacements } ∧ Displaced s lambda r.1.displacements) ∧
      (∃ j, s.indexMap[index]? = some j ∧ r.2.2 = s.scaleFactors.getD index 0 * effect s j lambda -
        (if index = 0 then 0 else s.scaleFactors.getD index 0 * s.constraintDistancesScaled.getD (index - 1) 0)) ∧
      (w = true → ∃ g, r.2.1 = some g ∧ s.gradients[index]? = some g) ∧ (w = false → r.2.1 = none)) anyErr := by
  unfold callback
  rw [wp_bind]
  refine wp_imp computeDisplacements_val fun ds hds => ?_
  dsimp only
  rw [wp_bind]
  refine wp_imp function_val ?_
  rintro v ⟨j, hj, hv⟩
  have hv' : v = s.scaleFactors.getD index 0 * effect s j lambda -
      (if index = 0 then 0 else s.scaleFactors.getD index 0 * s.constraintDistancesScaled.getD (index - 1) 0) := by
    rw [hv]
    congr 1
    unfold effect
    rw [Finset.mul_sum]
    refine Finset.sum_congr rfl fun i hi => ?_
    dsimp only
    cases hpi : s.points[i]? with
    | none => simp
    | some p =>
      rw [Option.elim_some, Option.elim_some]
      cases hf : p.isFixed
      · rw [getD_of ((hds.2 i p (Finset.mem_range.1 hi) hpi).2 hf)]
        simp only [Bool.false_eq_true, if_false]
        ring
      · simp
  refine wp_ite (fun hw => ?_) (fun hw => ?_)
  · rw [wp_bind]
    refine any_rd fun g hg => ?_
    rw [wp_pure]
    exact ⟨⟨rfl, hds⟩, ⟨j, hj, hv'⟩, fun _ => ⟨g, rfl, hg⟩, fun h => by rw [h] at hw; cases hw⟩
  · rw [wp_pure]
    exact ⟨⟨rfl, hds⟩, ⟨j, hj, hv'⟩, fun h => absurd h hw, fun _ => rfl⟩

theorem attempt_val {nlopt : Optimise ℝ → NLoptRun ℝ} {o : Option ℝ} (hp : s.nPoints = s.points.length) :
    wp (attempt nlopt s o) (fun r => Framed s r.1 ∧
      (if s.lambdas.length = s.nConstraints + 1 then r.2 = some (nlopt s).objective ∧
        r.1.lambdas = (List.range (s.nConstraints + 1)).map (nlopt s).lambdas else r = (s, o))) anyErr := by
  unfold attempt
  by_cases hl : s.lambdas.length = s.nConstraints + 1
  · simp only [if_pos hl]
    rw [wp_bind]
    refine wp_imp (wp_foldlM (fun _ t => Framed s t) Framed.refl fun q b _ t ht => ?_) fun t ht => ?_
    · rw [wp_bind]
      refine wp_imp (callback_val (by rw [ht.eq]; exact hp)) ?_
      rintro ⟨s2, g, v⟩ ⟨⟨h1, h2⟩, -⟩
      rw [wp_pure]
      dsimp only at h1 h2
      refine ht.trans ⟨?_, ⟨h2.1, fun i p hi hp hf => (h2.2 i p hi hp).1 hf⟩, ?_⟩ <;> rw [h1]
    · have hn : t.nConstraints = s.nConstraints := by rw [ht.eq]
      cases (nlopt s).result with
      | code c =>
        dsimp only
        rw [wp_pure]
        exact ⟨ht.trans ⟨rfl, ⟨rfl, fun _ _ _ _ _ => rfl⟩, rfl⟩, rfl, by dsimp only; rw [hn]⟩
      | roundoff =>
        dsimp only
        rw [wp_bind]
        refine wp_imp (any_modEach (fun _ _ _ => True) fun i w hi hw => any_modAt fun x hx => ⟨x, _, hx, rfl, trivial⟩) fun u hu => ?_
        rw [wp_pure]
        exact ⟨ht.trans ⟨rfl, ⟨rfl, fun _ _ _ _ _ => rfl⟩, hu.1⟩, rfl, by dsimp only; rw [hn]⟩
      | invalid =>
        dsimp only
        rw [wp_pure]
        exact ⟨ht.trans ⟨rfl, ⟨rfl, fun _ _ _ _ _ => rfl⟩, rfl⟩, rfl, by dsimp only; rw [hn]⟩
      | other => exact trivial
  · simp only [if_neg hl]
    rw [wp_pure]
    exact ⟨Framed.refl, rfl⟩

theorem attempts_val {nlopt : Optimise ℝ → NLoptRun ℝ} {fuel : Nat} {o : Option ℝ} (hp : s.nPoints = s.points.length) :
    wp (attempts nlopt fuel s o) (fun r => Framed s r.1 ∧ ((r.2 = o ∧ r.1.lambdas = s.lambdas) ∨
      ∃ s2, Framed s s2 ∧ s2.lambdas.length = s.nConstraints + 1 ∧ r.2 = some (nlopt s2).objective ∧
        r.1.lambdas = (List.range (s.nConstraints + 1)).map (nlopt s2).lambdas)) anyErr := by
  induction fuel generalizing s o with
  | zero => exact trivial
  | succ fuel ih =>
    unfold attempts
    rw [wp_bind]
    refine wp_imp (attempt_val hp) ?_
    rintro ⟨t, o'⟩ ⟨F, h⟩
    dsimp only at F h ⊢
    have hn : t.nConstraints = s.nConstraints := by rw [F.eq]
    have here : ((o' = o ∧ t.lambdas = s.lambdas) ∨
      ∃ s2, Framed s s2 ∧ s2.lambdas.length = s.nConstraints + 1 ∧ o' = some (nlopt s2).objective ∧
        t.lambdas = (List.range (s.nConstraints + 1)).map (nlopt s2).lambdas) := by
      split at h
      · next hl => exact .inr ⟨s, Framed.refl, hl, h.1, h.2⟩
      · cases h; exact .inl ⟨rfl, rfl⟩
    split
    · exact trivial
    · refine wp_ite (fun _ => ?_) (fun _ => ⟨F, here⟩)
      refine wp_imp (ih (by rw [F.eq]; exact hp)) ?_
      rintro ⟨t2, o2⟩ ⟨F2, h2⟩
      dsimp only at F2 h2 ⊢
      rw [hn] at h2
      refine ⟨F.trans F2, ?_⟩
      rcases h2 with ⟨rfl, e⟩ | ⟨s2, a, b⟩
      · rw [e]
        exact here
      · exact .inr ⟨s2, F.trans a, b⟩

/-- All that happens when `solve` returns. -/
structure Solved (nlopt : Optimise ℝ → NLoptRun ℝ) (s s0 s1 s2 s3 sc : Optimise ℝ) (r : Optimise ℝ × ℝ) : Prop where
  prep : Prepared s s0 s1 s2
  framed : Framed s2 s3
  call : Framed s2 sc ∧ sc.lambdas.length = s2.nConstraints + 1
  answer : s3.lambdas = (List.range (s2.nConstraints + 1)).map (nlopt sc).lambdas
  closed : Closed s3 (nlopt sc).objective r

theorem Rel.ident (R : Rel s0 s1) (h : s0.nConstraints ≤ s1.nConstraints) : s1.indexMap = List.range (s1.nConstraints + 1) := by
  have key : ∀ j m : Nat, s1.indexMap[j]? = some m → j ≤ m := by
    intro j
    induction j with
    | zero => intros; omega
    | succ j ih =>
      intro m hm
      have hj : j < s1.indexMap.length := by have := (List.getElem?_eq_some_iff.1 hm).1; omega
      have h1 := ih _ (List.getElem?_eq_getElem hj)
      have h2 := List.pairwise_iff_getElem.1 R.sorted j (j + 1) hj (List.getElem?_eq_some_iff.1 hm).1 (by omega)
      rw [(List.getElem?_eq_some_iff.1 hm).2] at h2
      omega
  have key2 : ∀ a j m : Nat, s1.indexMap[j]? = some m → j + a = s1.nConstraints → m + a ≤ s0.nConstraints := by
    intro a
    induction a with
    | zero =>
      intro j m hm hj
      exact R.bound m (List.mem_of_getElem? hm)
    | succ a ih =>
      intro j m hm hj
      have hj' : j + 1 < s1.indexMap.length := by rw [R.idx]; omega
      have h1 := ih (j + 1) _ (List.getElem?_eq_getElem hj') (by omega)
      have h2 := List.pairwise_iff_getElem.1 R.sorted j (j + 1) (by omega) hj' (by omega)
      rw [(List.getElem?_eq_some_iff.1 hm).2] at h2
      omega
  have h0 : s0.nConstraints = s1.nConstraints := by
    have hj : s1.nConstraints < s1.indexMap.length := by rw [R.idx]; omega
    have h1 := key _ _ (List.getElem?_eq_getElem hj)
    have h2 := key2 0 s1.nConstraints _ (List.getElem?_eq_getElem hj) (by omega)
    omega
  refine List.ext_getElem (by rw [R.idx, List.length_range]) fun j h1 h2 => ?_
  rw [List.getElem_range]
  rw [R.idx] at h1
  have a1 := key j _ (List.getElem?_eq_getElem (by rw [R.idx]; omega))
  have a2 := key2 (s1.nConstraints - j) j _ (List.getElem?_eq_getElem (by rw [R.idx]; omega)) (by omega)
  omega

theorem solve_val {nlopt : Optimise ℝ → NLoptRun ℝ} {fuel : Nat} (hm : 0 < s.maxDisplacement) (hn : s.nConstraints ≤ s.nConstraintsInitial) :
    wp (solve nlopt fuel s) (fun r => ∃ s0 s1 s2 s3 sc, reduce fuel s = .ok s1 ∧ Solved nlopt s s0 s1 s2 s3 sc r) anyErr := by
  unfold solve
  rw [wp_bind]
  refine wp_imp (prepare_val hm) ?_
  rintro s2 ⟨s0, s1, hred, P⟩
  rw [wp_bind]
  refine any_of fun _ _ => ?_
  have hs2 := P.eq
  have hp2 : s2.nPoints = s2.points.length := by
    rw [hs2]
    dsimp only
    rw [P.rel.pts, P.rel.npts, P.lim.eq]
  rw [wp_bind]
  refine wp_imp (attempts_val hp2) ?_
  rintro ⟨s3, o⟩ ⟨F, h⟩
  dsimp only at F h ⊢
  have e := F.eq
  have hmm : s3.maxDisplacement = s.maxDisplacement := by
    rw [e]; dsimp only
    rw [hs2]; dsimp only
    rw [P.rel.other.1, P.lim.eq]
  have hni : s3.nConstraintsInitial = s.nConstraintsInitial := by
    rw [e]; dsimp only
    rw [hs2]; dsimp only
    rw [P.rel.other.2.1, P.lim.eq]
  have hn3 : s3.nConstraints = s1.nConstraints := by
    rw [e]; dsimp only
    rw [hs2]
  have him : s3.indexMap = s1.indexMap := by
    rw [e]; dsimp only
    rw [hs2]
  have C : Closing s3 := by
    refine ⟨by rw [e]; exact hp2, by rw [him, hn3]; exact P.rel.idx, fun hh j hj => ?_⟩
    have h0 : s0.nConstraints = s.nConstraints := by rw [P.lim.eq]
    rw [him, P.rel.ident (by omega), List.getD, List.getElem?_range (by omega)]
    rfl
  refine wp_imp (finish_val C (by rw [hmm]; exact hm) ?_) ?_
  · rintro ho
    rcases h with ⟨rfl, -⟩ | ⟨sc, h1, h2, h3, h4⟩
    · exact absurd rfl ho
    · rw [h4, List.length_map, List.length_range]
      rw [e]
  · rintro r ⟨v, rfl, hc⟩
    rcases h with ⟨h, -⟩ | ⟨sc, h1, h2, h3, h4⟩
    · cases h
    · cases h3
      exact ⟨s0, s1, s2, s3, sc, hred, P, F, ⟨h1, h2⟩, h4, hc⟩

end Slsm.Optimise
