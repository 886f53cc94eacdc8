import Verif.Proof.OptSafe

/-! From the internal quantities to the specification. -/

namespace Slsm.Optimise

open FP

variable {s s0 s1 : Optimise ℝ} {pts : List (BoundaryPoint ℝ)} {distances lambdas : List ℝ} {dt limit : ℝ} {isMax : Bool} {equality : List Bool}

theorem list_sum_elim {α : Type} (l : List α) (g : α → ℝ) : (l.map g).sum = ∑ i ∈ Finset.range l.length, (l[i]?).elim 0 g := by
  induction l with
  | nil => simp
  | cons a l ih =>
    rw [List.map_cons, List.sum_cons, List.length_cons, Finset.sum_range_succ', ih, add_comm]
    simp

/-! ### the constructor -/

theorem check_bind {α : Type} (b : Bool) (f : Unit → Res α) : (check b >>= f) = if b = true then f () else .error .exit := by
  cases b <;> rfl

theorem sub32_iff {a b : Nat} (h : a < 4294967296) (h' : b < 4294967295) : LevelSet.sub32 a 1 = b ↔ a = b + 1 := by
  unfold LevelSet.sub32 u32
  omega

/-- The object the constructor makes for `n` constraints. -/
def made (pts : List (BoundaryPoint ℝ)) (distances lambdas : List ℝ) (dt limit : ℝ) (isMax : Bool) (equality : List Bool) (n : Nat) : Optimise ℝ where
  nPoints := 0
  nConstraints := n
  nConstraintsInitial := n
  points := pts
  constraintDistances := distances
  lambdas := lambdas
  timeStep := dt
  maxDisplacement := limit
  isMax := isMax
  isEquality := if equality.length = 0 then List.replicate n false else equality
  indexMap := []
  displacements := []
  negativeLambdaLimits := List.replicate (n + 1) 0
  positiveLambdaLimits := List.replicate (n + 1) 0
  scaleFactors := List.replicate (n + 1) 0
  constraintDistancesScaled := distances
  gradients := []
  returnCode := none

theorem new_eq : new pts distances lambdas dt limit isMax equality =
    if (0 < limit ∧ limit < 1) ∧ pts ≠ [] ∧ LevelSet.sub32 lambdas.length 1 = distances.length then
      .ok (made pts distances lambdas dt limit isMax equality distances.length)
    else .error .exit := by
  unfold new
  generalize LevelSet.sub32 lambdas.length 1 = n
  simp only [check_bind]
  have h0 : (nat 0 : ℝ) = 0 := by simp
  rw [h0]
  by_cases h1 : 0 < limit ∧ limit < 1
  · have e1 : (((0 : ℝ) <. limit && limit <. nat 1)) = true := by simpa using h1
    rw [if_pos e1]
    by_cases h2 : pts = []
    · subst h2
      simp
    · rw [if_pos (by rw [decide_eq_true_eq]; exact List.length_pos_iff.2 h2)]
      by_cases h3 : n = distances.length
      · subst h3
        rw [if_pos (by cases distances <;> simp), if_pos (by simp)]
        symm
        rw [if_pos ⟨h1, h2, rfl⟩]
        rfl
      · symm
        rw [if_neg (fun h => h3 h.2.2)]
        symm
        by_cases h4 : (!(decide (0 < n) && distances.isEmpty)) = true
        · rw [if_pos h4, if_neg (by simpa using h3)]
        · rw [if_neg h4]
  · rw [if_neg (by simpa using h1), if_neg (fun h => h1 h.1)]

theorem new_iff (hl : lambdas.length < 4294967296) (hd : distances.length < 4294967295) :
    (∃ s, new pts distances lambdas dt limit isMax equality = .ok s) ↔
      0 < limit ∧ limit < 1 ∧ pts ≠ [] ∧ lambdas.length = distances.length + 1 := by
  have hb := sub32_iff hl hd
  rw [new_eq]
  split
  · rename_i h
    exact ⟨fun _ => ⟨h.1.1, h.1.2, h.2.1, hb.1 h.2.2⟩, fun _ => ⟨_, rfl⟩⟩
  · rename_i h
    exact ⟨fun ⟨s, hs⟩ => (by cases hs), fun h' => absurd ⟨⟨h'.1, h'.2.1⟩, h'.2.2.1, hb.2 h'.2.2.2⟩ h⟩

theorem new_exit : (∃ s, new pts distances lambdas dt limit isMax equality = .ok s) ∨ new pts distances lambdas dt limit isMax equality = .error .exit := by
  rw [new_eq]
  split
  · exact .inl ⟨_, rfl⟩
  · exact .inr rfl

theorem new_val (h : new pts distances lambdas dt limit isMax equality = .ok s) : 0 < limit ∧ limit < 1 ∧
    s = made pts distances lambdas dt limit isMax equality distances.length := by
  rw [new_eq] at h
  split at h
  · rename_i hc
    cases h
    exact ⟨hc.1.1, hc.1.2, rfl⟩
  · cases h

theorem fresh (V : ValidInput pts distances lambdas limit equality) (h : new pts distances lambdas dt limit isMax equality = .ok s) : Fresh s := by
  obtain ⟨h1, h2, rfl⟩ := new_val h
  refine ⟨h1, rfl, V.few, List.length_replicate .., List.length_replicate .., List.length_replicate .., V.lambdas, rfl, rfl, ?_,
    V.sizes, V.responds⟩
  show (if equality.length = 0 then List.replicate distances.length false else equality).length = distances.length
  rcases V.equality with h | h
  · rw [h]; simp
  · split
    · simp
    · exact h

/-! ### reached objects -/

theorem Reduced.le (R : Reduced s s0 s1) : s1.nConstraints ≤ s.nConstraints := by
  have h0 : s0.nConstraints = s.nConstraints := by rw [R.lim.eq]
  have h1 := R.rel.sorted.imp (S := fun a b => a ≠ b) fun h => h.ne
  have h2 : s1.indexMap ⊆ List.range (s.nConstraints + 1) := fun m hm => List.mem_range.2 (by have := R.rel.bound m hm; omega)
  have h3 := (List.Nodup.subperm h1 h2).length_le
  rw [List.length_range, R.rel.idx] at h3
  omega

theorem Solved.facts {nlopt : Optimise ℝ → NLoptRun ℝ} {s2 s3 sc : Optimise ℝ} {r : Optimise ℝ × ℝ} (S : Solved nlopt s s0 s1 s2 s3 sc r) :
    s3.maxDisplacement = s.maxDisplacement ∧ s3.nConstraints = s1.nConstraints ∧ s3.nConstraintsInitial = s.nConstraintsInitial ∧
      s3.points = s.points ∧ s3.scaleFactors = s1.scaleFactors ∧ s3.indexMap = s1.indexMap ∧ s3.nPoints = s.points.length := by
  refine ⟨?_, ?_, ?_, ?_, ?_, ?_, ?_⟩
  · rw [S.framed.eq]; dsimp only
    rw [S.prep.eq]; dsimp only
    rw [S.prep.rel.other.1, S.prep.lim.eq]
  · rw [S.framed.eq]; dsimp only
    rw [S.prep.eq]
  · rw [S.framed.eq]; dsimp only
    rw [S.prep.eq]; dsimp only
    rw [S.prep.rel.other.2.1, S.prep.lim.eq]
  · rw [S.framed.eq]; dsimp only
    rw [S.prep.eq]; dsimp only
    rw [S.prep.rel.pts, S.prep.lim.eq]
  · rw [S.framed.eq]; dsimp only
    rw [S.prep.eq]
  · rw [S.framed.eq]; dsimp only
    rw [S.prep.eq]
  · rw [S.framed.eq]; dsimp only
    rw [S.prep.eq]; dsimp only
    rw [S.prep.rel.npts, S.prep.lim.eq]

theorem Reached.ok (h : Reached s) : 0 < s.maxDisplacement ∧ s.nConstraints ≤ s.nConstraintsInitial := by
  induction h with
  | made h =>
    obtain ⟨h1, -, rfl⟩ := new_val h
    exact ⟨h1, le_rfl⟩
  | solved h e ih =>
    obtain ⟨s0, s1, s2, s3, sc, -, S⟩ := any_ok (solve_val ih.1 ih.2) e
    obtain ⟨f1, f2, f3, -⟩ := S.facts
    obtain ⟨r1, r2, r3⟩ := S.closed.rest
    have := S.prep.toReduced.le
    exact ⟨by rw [r1, f1]; exact ih.1, by rw [r2, r3, f2, f3]; exact this.trans ih.2⟩
  | changed h _ _ _ ih => exact ih

/-! ### the box -/

theorem Limit.allowed {maxD f l0 lo hi l : ℝ} {k : Nat} (h : Limit pts maxD f l0 lo hi l k) (hf : 0 < f) (x : ℝ) :
    lo ≤ x ∧ x ≤ hi ↔ Allowed pts maxD k (f * x) := by
  obtain ⟨m, hP, rfl⟩ := h.val
  have hm : 0 < m := lt_of_lt_of_le (by positivity) hP.ge
  rw [h.sym, ← abs_le, le_div_iff₀ hf, le_div_iff₀ hm]
  have e : |x| * f * m = |f * x| * m := by rw [abs_mul, abs_of_pos hf]; ring
  rw [e]
  constructor
  · intro h1
    refine ⟨?_, fun p hp hpf => ?_⟩
    · refine le_trans ?_ h1
      rw [div_eq_mul_one_div]
      exact mul_le_mul_of_nonneg_left hP.ge (abs_nonneg _)
    · obtain ⟨j, hj⟩ := List.mem_iff_getElem?.1 hp
      obtain ⟨c, c1, c2⟩ := hP.bound j p (List.getElem?_eq_some_iff.1 hj).1 hj hpf
      rw [getD_of c1, abs_mul]
      exact (mul_le_mul_of_nonneg_left c2 (abs_nonneg _)).trans h1
  · rintro ⟨h1, h2⟩
    rcases hP.attained with rfl | ⟨j, p, c, a1, a2, a3, a4, rfl⟩
    · rw [← div_eq_mul_one_div]; exact h1
    · have := h2 p (List.mem_of_getElem? a2) a3
      rw [getD_of a4, abs_mul] at this
      exact this

/-- Multipliers that vanish outside the map. -/
theorem predicted_eq_total (R : Reduced s s0 s1) (hd : ∀ p ∈ s.points, p.isFixed = false → p.isDomain = false) {lambda : List ℝ}
    (hl : lambda.length = s.nConstraints + 1) {L : Nat → ℝ} (hL : ∀ b ∈ s1.indexMap, lambda.getD b 0 = s0.scaleFactors.getD b 0 * L b)
    (h0 : ∀ j, j ≤ s.nConstraints → j ∉ s1.indexMap → lambda.getD j 0 = 0) (k : Nat) :
    predicted s.points lambda k = total s0 s1.indexMap L k := by
  have hn0 : s0.nConstraints = s.nConstraints := by rw [R.lim.eq]
  have hp : s0.points = s.points := by rw [R.lim.eq]
  have hnp : s0.nPoints = s.points.length := by rw [R.lim.eq]
  unfold predicted total
  rw [list_sum_elim, hp, hnp]
  refine Finset.sum_congr rfl fun i _ => ?_
  cases hpi : s.points[i]? with
  | none => rfl
  | some p =>
    rw [Option.elim_some, Option.elim_some]
    cases hf : p.isFixed
    · simp only [Bool.false_eq_true, if_false]
      have : capped p (proposed lambda p) = lin s0 s1.indexMap L p := by
        unfold capped
        rw [hd p (List.mem_of_getElem? hpi) hf]
        simp only [Bool.false_eq_true, if_false]
        rw [proposed_eq, hl]
        unfold lin
        have e1 : (s1.indexMap.map fun b => s0.scaleFactors.getD b 0 * L b * p.sensitivities.getD b 0) =
            s1.indexMap.map fun b => lambda.getD b 0 * p.sensitivities.getD b 0 := List.map_congr_left fun b hb => by rw [hL b hb]
        rw [e1]
        have hnd : s1.indexMap.Nodup := R.rel.sorted.imp fun h => h.ne
        have e2 : (s1.indexMap.map fun b => lambda.getD b 0 * p.sensitivities.getD b 0).sum =
            ∑ b ∈ s1.indexMap.toFinset, lambda.getD b 0 * p.sensitivities.getD b 0 := (List.sum_toFinset _ hnd).symm
        rw [e2]
        symm
        refine Finset.sum_subset (fun b hb => ?_) fun b hb hb' => ?_
        · rw [List.mem_toFinset] at hb
          have := R.rel.bound b hb
          exact Finset.mem_range.2 (by omega)
        · rw [Finset.mem_range] at hb
          rw [List.mem_toFinset] at hb'
          rw [h0 b (by omega) hb', zero_mul]
      rw [this]
    · simp

/-! ### multipliers in natural units -/

theorem natural_length {lambda : List ℝ} : (natural s lambda).length = s.nConstraints + 1 := by
  unfold natural; simp

theorem natural_getD {lambda : List ℝ} {k : Nat} (h : k ≤ s.nConstraints) :
    (natural s lambda).getD k 0 = lambda.getD k 0 * s.scaleFactors.getD k 0 := by
  unfold natural
  rw [List.getD, List.getElem?_map, List.getElem?_range (by omega)]
  rfl

theorem raw_natural (hid : s.indexMap = List.range (s.nConstraints + 1)) {lambda : List ℝ} {p : BoundaryPoint ℝ} :
    raw s lambda p = proposed (natural s lambda) p := by
  refine raw_eq_proposed natural_length (fun j hj => natural_getD (by omega)) fun j hj => ?_
  rw [hid, List.getD, List.getElem?_range (by omega)]
  rfl

theorem effect_natural (hid : s.indexMap = List.range (s.nConstraints + 1)) (hp : s.nPoints = s.points.length) {lambda : List ℝ} {k : Nat} :
    effect s k lambda = predicted s.points (natural s lambda) k := by
  unfold effect predicted
  rw [list_sum_elim, hp]
  refine Finset.sum_congr rfl fun i _ => ?_
  cases s.points[i]? with
  | none => rfl
  | some p => rw [Option.elim_some, Option.elim_some, raw_natural hid]

/-! ### the box and its corners -/

theorem Limited.facts (L : Limited s s0) : s0.points = s.points ∧ s0.nPoints = s.points.length ∧ s0.nConstraints = s.nConstraints ∧
    s0.indexMap = List.range (s.nConstraints + 1) ∧ s0.constraintDistances = s.constraintDistances ∧ s0.isEquality = s.isEquality ∧
    s0.constraintDistancesScaled = s.constraintDistancesScaled := by
  rw [L.eq]
  exact ⟨rfl, rfl, rfl, rfl, rfl, rfl, rfl⟩

theorem Limited.rel (L : Limited s s0) : Rel s0 s0 := by
  have hn := L.facts.2.2.1
  refine rel_refl (by rw [L.facts.2.2.2.1, hn]) (fun j hj => ?_) (fun j hj => ?_) (fun j hj => ?_) fun j hj => ?_ <;>
    obtain ⟨f, x, a, b, c, h1, h2, h3, h4, h5, -⟩ := L.fn j (by omega)
  · exact ⟨c, h5⟩
  · exact ⟨f, h1⟩
  · exact ⟨a, h3⟩
  · exact ⟨b, h4⟩

theorem cornerL_getD {n j k : Nat} (h : k < n) : (cornerL s n j).getD k 0 =
    if j.testBit k then s.positiveLambdaLimits.getD k 0 else s.negativeLambdaLimits.getD k 0 := by
  unfold cornerL
  rw [List.getD, List.getElem?_map, List.getElem?_range h]
  rfl

/-- Multipliers each of which is allowed. -/
def InBox (s : Optimise ℝ) (lambda : List ℝ) : Prop :=
  lambda.length = s.nConstraints + 1 ∧ ∀ k, k ≤ s.nConstraints → Allowed s.points s.maxDisplacement k (lambda.getD k 0)

theorem corner_inBox (L : Limited s s0) (hm : 0 < s.maxDisplacement) (hr : ∀ k, k ≤ s.nConstraints → Responds s.points k) {j : Nat} :
    InBox s (natural s0 (cornerL s0 (s.nConstraints + 1) j)) := by
  have hn := L.facts.2.2.1
  refine ⟨by rw [natural_length, hn], fun k hk => ?_⟩
  obtain ⟨f, x, a, b, c, h1, h2, h3, h4, h5, h6, h7, h8⟩ := L.fn k hk
  have hnn := h8.nonneg hm h6
  rw [natural_getD (by omega), cornerL_getD (by omega), getD_of h1, getD_of h3, getD_of h4, mul_comm, ← h8.allowed (h7 (hr k hk)), h8.sym]
  split <;> constructor <;> linarith

theorem inBox_corner (L : Limited s s0) (hr : ∀ k, k ≤ s.nConstraints → Responds s.points k)
    (hd : ∀ p ∈ s.points, p.isFixed = false → p.isDomain = false) {lambda : List ℝ} (hb : InBox s lambda) (k : Nat) :
    (∃ j, j < 2 ^ (s.nConstraints + 1) ∧ predicted s.points lambda k ≤ effect s0 k (cornerL s0 (s.nConstraints + 1) j)) ∧
    ∃ j, j < 2 ^ (s.nConstraints + 1) ∧ effect s0 k (cornerL s0 (s.nConstraints + 1) j) ≤ predicted s.points lambda k := by
  classical
  have R := L.rel
  obtain ⟨e1, e2, hn, e4, -⟩ := L.facts
  have hd' : ∀ (i : Nat) (p : BoundaryPoint ℝ), s0.points[i]? = some p → p.isFixed = false → p.isDomain = false := fun i p hp hf =>
    hd p (by rw [← e1]; exact List.mem_of_getElem? hp) hf
  -- the scaled multipliers
  let l : Nat → ℝ := fun b => lambda.getD b 0 / s0.scaleFactors.getD b 0
  have hl : ∀ b, b ≤ s.nConstraints → s0.negativeLambdaLimits.getD b 0 ≤ l b ∧ l b ≤ s0.positiveLambdaLimits.getD b 0 ∧
      lambda.getD b 0 = l b * s0.scaleFactors.getD b 0 := by
    intro b hb'
    obtain ⟨f, x, lo, hi, c, h1, h2, h3, h4, h5, h6, h7, h8⟩ := L.fn b hb'
    have hf := h7 (hr b hb')
    have hx : lambda.getD b 0 = l b * s0.scaleFactors.getD b 0 := by
      show lambda.getD b 0 = lambda.getD b 0 / s0.scaleFactors.getD b 0 * s0.scaleFactors.getD b 0
      rw [getD_of h1]
      field_simp
    have := (h8.allowed hf (l b)).2 (by rw [mul_comm]; rw [getD_of h1] at hx; rw [← hx]; exact hb.2 b hb')
    rw [getD_of h3, getD_of h4]
    exact ⟨this.1, this.2, hx⟩
  have hpre : predicted s.points lambda k = total s0 s0.indexMap l k := by
    have h1 : lambda = natural s0 ((List.range (s.nConstraints + 1)).map l) := by
      refine List.ext_getElem? fun i => ?_
      by_cases hi : i ≤ s.nConstraints
      · have h2 := (hl i hi).2.2
        rw [List.getElem?_eq_getElem (by rw [hb.1]; omega), List.getElem?_eq_getElem (by rw [natural_length]; omega)]
        congr 1
        have h3 : (natural s0 ((List.range (s.nConstraints + 1)).map l)).getD i 0 = l i * s0.scaleFactors.getD i 0 := by
          rw [natural_getD (by omega)]
          congr 1
          rw [List.getD, List.getElem?_map, List.getElem?_range (by omega)]
          rfl
        rw [List.getD, List.getElem?_eq_getElem (by rw [natural_length]; omega)] at h3
        rw [List.getD, List.getElem?_eq_getElem (by rw [hb.1]; omega)] at h2
        exact h2.trans h3.symm
      · rw [List.getElem?_eq_none (by rw [hb.1]; omega), List.getElem?_eq_none (by rw [natural_length]; omega)]
    rw [h1, ← e1, ← effect_natural (by rw [e4, hn]) (by rw [e2, e1])]
    refine R.effect_eq hd' fun j m hj => ?_
    rw [e4] at hj
    obtain ⟨hj1, hj2⟩ := List.getElem?_eq_some_iff.1 hj
    rw [List.getElem_range] at hj2
    rw [List.length_range] at hj1
    subst hj2
    rw [List.getD, List.getElem?_map, List.getElem?_range hj1]
    rfl
  have hcor : ∀ j, effect s0 k (cornerL s0 (s.nConstraints + 1) j) = total s0 s0.indexMap (fun b => if j.testBit b then s0.positiveLambdaLimits.getD b 0
      else s0.negativeLambdaLimits.getD b 0) k := by
    intro j
    refine R.effect_eq hd' fun i m hi => ?_
    rw [e4] at hi
    obtain ⟨hj1, hj2⟩ := List.getElem?_eq_some_iff.1 hi
    rw [List.getElem_range] at hj2
    rw [List.length_range] at hj1
    subst hj2
    rw [cornerL_getD hj1]
  have hmem : ∀ b ∈ s0.indexMap, b ≤ s.nConstraints := fun b hb' => by rw [e4, List.mem_range] at hb'; omega
  constructor
  · obtain ⟨j, hj, hbits⟩ := exists_bits (s.nConstraints + 1) fun b => decide (0 ≤ coef s0 k b)
    refine ⟨j, hj, ?_⟩
    rw [hpre, hcor, total_eq, total_eq]
    refine List.sum_le_sum fun b hb' => ?_
    have hle := hmem b hb'
    obtain ⟨a1, a2, -⟩ := hl b hle
    rw [hbits b (by omega)]
    by_cases hc : 0 ≤ coef s0 k b
    · simp only [hc, decide_true, if_true]
      exact mul_le_mul_of_nonneg_right a2 hc
    · simp only [hc, decide_false, Bool.false_eq_true, if_false]
      exact mul_le_mul_of_nonpos_right a1 (by linarith)
  · obtain ⟨j, hj, hbits⟩ := exists_bits (s.nConstraints + 1) fun b => decide (coef s0 k b ≤ 0)
    refine ⟨j, hj, ?_⟩
    rw [hpre, hcor, total_eq, total_eq]
    refine List.sum_le_sum fun b hb' => ?_
    have hle := hmem b hb'
    obtain ⟨a1, a2, -⟩ := hl b hle
    rw [hbits b (by omega)]
    by_cases hc : coef s0 k b ≤ 0
    · simp only [hc, decide_true, if_true]
      exact mul_le_mul_of_nonpos_right a2 hc
    · simp only [hc, decide_false, Bool.false_eq_true, if_false]
      exact mul_le_mul_of_nonneg_right a1 (by linarith)

/-! ### objects after `solve` -/

theorem solve_facts {nlopt : Optimise ℝ → NLoptRun ℝ} {fuel : Nat} {r : Optimise ℝ × ℝ} (h : Reached s) (e : solve nlopt fuel s = .ok r) :
    ∃ s0 s1 s2 s3 sc, reduce fuel s = .ok s1 ∧ Solved nlopt s s0 s1 s2 s3 sc r := any_ok (solve_val h.ok.1 h.ok.2) e

theorem Solved.point {nlopt : Optimise ℝ → NLoptRun ℝ} {s2 s3 sc : Optimise ℝ} {r : Optimise ℝ × ℝ} (S : Solved nlopt s s0 s1 s2 s3 sc r)
    {i : Nat} {p : BoundaryPoint ℝ} (hp : s.points[i]? = some p) : ∃ d, r.1.points[i]? = some { p with velocity := d / r.1.timeStep } ∧
    (p.isFixed = true → d = s.displacements.getD i 0) ∧ (p.isFixed = false → d = capped p (proposed r.1.lambdas p) ∧
      ((p.isDomain = true → |p.negativeLimit| ≤ s.maxDisplacement) → |d| ≤ s.maxDisplacement)) ∧ r.1.displacements[i]? = some d := by
  obtain ⟨f1, f2, f3, f4, f5, f6, f7⟩ := S.facts
  obtain ⟨d, h1, h2, h3, h4⟩ := S.closed.point i p (by rw [f4]; exact hp)
  rw [f1] at h3
  refine ⟨d, h1, fun hf => ?_, h3, h4⟩
  have hlt := (List.getElem?_eq_some_iff.1 hp).1
  have k1 := h2 hf
  obtain ⟨e1, e2, -⟩ := S.prep.lim.facts
  have hs1 : s1.points = s.points := by rw [S.prep.rel.pts, e1]
  have hs2 : s2.points = s.points := by rw [S.prep.eq]; exact hs1
  have n1 : s1.nPoints = s.points.length := by rw [S.prep.rel.npts, e2]
  have n2 : s2.nPoints = s.points.length := by rw [S.prep.eq]; exact n1
  rw [S.framed.shift.2 i p (by rw [n2]; exact hlt) (by rw [hs2]; exact hp) hf] at k1
  have d2 : s2.displacements = s1.displacements := by rw [S.prep.eq]
  rw [d2, S.prep.rel.shift.2 i p (by rw [e2]; exact hlt) (by rw [e1]; exact hp) hf] at k1
  have d0 : s0.displacements = resize s.displacements s.points.length 0 := by rw [S.prep.lim.eq]
  rw [d0] at k1
  rw [← getD_of (d := 0) k1]
  unfold resize
  simp only [List.getD, List.getElem?_append, List.getElem?_take, List.length_take, List.getElem?_replicate]
  by_cases hi : i < s.displacements.length
  · rw [if_pos (by omega), if_pos hlt]
  · rw [if_neg (by omega), List.getElem?_eq_none (by omega)]
    split <;> rfl

theorem Solved.fresh {nlopt : Optimise ℝ → NLoptRun ℝ} {s2 s3 sc : Optimise ℝ} {r : Optimise ℝ × ℝ} (S : Solved nlopt s s0 s1 s2 s3 sc r)
    (V : Fresh s) (F : Fit s1 s.nConstraints) (hw : s1.nConstraints = s.nConstraints) {pts : List (BoundaryPoint ℝ)}
    (h1 : ∀ p ∈ pts, p.isFixed = false → s.nConstraints < p.sensitivities.length) (h2 : ∀ k, k ≤ s.nConstraints → Responds pts k)
    {l : List ℝ} (hl : l.length = s.nConstraints + 1) {dt : ℝ} : Fresh { r.1 with points := pts, lambdas := l, timeStep := dt } := by
  obtain ⟨f1, f2, f3, f4, f5, f6, f7⟩ := S.facts
  have g : r.1.scaleFactors = s1.scaleFactors ∧ r.1.negativeLambdaLimits = s1.negativeLambdaLimits ∧ r.1.positiveLambdaLimits = s1.positiveLambdaLimits ∧
      r.1.constraintDistances = s1.constraintDistances ∧ r.1.isEquality = s1.isEquality := by
    rw [S.closed.frame, S.framed.eq, S.prep.eq]
    exact ⟨rfl, rfl, rfl, rfl, rfl⟩
  have ht : r.1.constraintDistancesScaled.length = s1.constraintDistancesScaled.length := by
    have e1 : r.1.constraintDistancesScaled = s3.constraintDistancesScaled := by rw [S.closed.frame]
    have e2 : s2.constraintDistancesScaled = s1.constraintDistancesScaled := by rw [S.prep.eq]
    rw [e1, S.framed.targets, e2]
  obtain ⟨r1, r2, r3⟩ := S.closed.rest
  have hn : r.1.nConstraints = s.nConstraints := by rw [r2, f2, hw]
  refine ⟨by show 0 < r.1.maxDisplacement; rw [r1, f1]; exact V.max, by show r.1.nConstraintsInitial = r.1.nConstraints; rw [r3, f3, hn, V.init],
    by show r.1.nConstraints < 31; rw [hn]; exact V.few, ?_, ?_, ?_, ?_, ?_, ?_, ?_, ?_, ?_⟩
  · show r.1.scaleFactors.length = r.1.nConstraints + 1; rw [g.1, hn, F.sf, hw]
  · show r.1.negativeLambdaLimits.length = r.1.nConstraints + 1; rw [g.2.1, hn, F.lo, hw]
  · show r.1.positiveLambdaLimits.length = r.1.nConstraints + 1; rw [g.2.2.1, hn, F.hi, hw]
  · show l.length = r.1.nConstraints + 1; rw [hn, hl]
  · show r.1.constraintDistances.length = r.1.nConstraints; rw [g.2.2.2.1, hn, F.cd, hw]
  · show r.1.constraintDistancesScaled.length = r.1.nConstraints; rw [ht, hn, F.ts, hw]
  · show r.1.isEquality.length = r.1.nConstraints; rw [g.2.2.2.2, hn, F.eqs, hw]
  · show ∀ p ∈ pts, p.isFixed = false → r.1.nConstraints < p.sensitivities.length; rw [hn]; exact h1
  · show ∀ k, k ≤ r.1.nConstraints → Responds pts k; rw [hn]; exact h2

/-- The state the solver sees. -/
theorem Solved.call_fit {nlopt : Optimise ℝ → NLoptRun ℝ} {s2 s3 sc : Optimise ℝ} {r : Optimise ℝ × ℝ} (S : Solved nlopt s s0 s1 s2 s3 sc r)
    {N : Nat} (F : Fit s1 N) : Fit sc N ∧ sc.gradients.length = sc.nConstraints + 1 := by
  have e : sc = { s1 with
      displacements := sc.displacements, lambdas := sc.lambdas, constraintDistancesScaled := sc.constraintDistancesScaled,
      returnCode := sc.returnCode, gradients := sc.gradients } := by
    rw [S.call.1.eq, S.prep.eq]
  have hn : sc.nConstraints = s1.nConstraints := by rw [e]
  have hp : sc.points = s1.points := by rw [e]
  have hg : sc.gradients = s2.gradients := by rw [S.call.1.eq]
  have e2 : s2.nConstraints = s1.nConstraints := by rw [S.prep.eq]
  have d2 : s2.displacements = s1.displacements := by rw [S.prep.eq]
  have c2 : s2.constraintDistancesScaled = s1.constraintDistancesScaled := by rw [S.prep.eq]
  refine ⟨⟨by rw [e]; exact F.pts, ?_, by rw [e]; exact F.idx, by rw [e]; exact F.sf, by rw [e]; exact F.lo, by rw [e]; exact F.hi, ?_, by rw [e]; exact F.cd, ?_,
    by rw [e]; exact F.eqs, by rw [e]; exact F.bound, by rw [e]; exact F.zero, by rw [e]; exact F.sens⟩, ?_⟩
  · rw [S.call.1.shift.1, d2, hp]; exact F.disp
  · rw [S.call.2, e2, hn]
  · rw [S.call.1.targets, c2, hn]; exact F.ts
  · rw [hg, S.prep.grads, hn]

/-! ### limits when the largest sensitivity is known -/

theorem peak_limits (L : Limited s s0) {k : Nat} (hk : k ≤ s.nConstraints) (hr : Responds s.points k) {M : ℝ} (hM : 1 ≤ M)
    (h1 : ∀ p ∈ s.points, p.isFixed = false → |p.sensitivities.getD k 0| ≤ M) (h2 : ∃ p ∈ s.points, p.isFixed = false ∧ |p.sensitivities.getD k 0| = M) :
    s0.scaleFactors.getD k 0 * s0.negativeLambdaLimits.getD k 0 = -(s.maxDisplacement / M) ∧
      s0.scaleFactors.getD k 0 * s0.positiveLambdaLimits.getD k 0 = s.maxDisplacement / M := by
  obtain ⟨f, x, a, b, c, g1, g2, g3, g4, g5, g6, g7, g8⟩ := L.fn k hk
  have hf0 := g7 hr
  obtain ⟨m, hP, hv⟩ := g8.val
  have hsmall : (1 : ℝ) / 2 ^ 1022 < 1 := by
    rw [div_lt_one (by positivity)]
    exact one_lt_pow₀ (by norm_num) (by norm_num)
  have hm : m = M := by
    obtain ⟨p, hp, hpf, he⟩ := h2
    obtain ⟨j, hj⟩ := List.mem_iff_getElem?.1 hp
    obtain ⟨y, y1, y2⟩ := hP.bound j p (List.getElem?_eq_some_iff.1 hj).1 hj hpf
    rw [getD_of y1] at he
    rcases hP.attained with rfl | ⟨i, q, c, a1, a2, a3, a4, rfl⟩
    · linarith
    · have := h1 q (List.mem_of_getElem? a2) a3
      rw [getD_of a4] at this
      linarith
  have : M ≠ 0 := by linarith
  rw [getD_of g1, getD_of g3, getD_of g4, g8.sym, hv, hm]
  constructor <;> field_simp

/-! ### which constraints stay -/

theorem Reduced.stays {s s0 s1 : Optimise ℝ} (R : Reduced s s0 s1) {m : Nat} (hm : m < s.nConstraints)
    (h : s.isEquality[m]? = some true ∨ ∃ d, s.constraintDistances[m]? = some d ∧ d < 0) : m + 1 ∈ s1.indexMap := by
  by_contra hne
  obtain ⟨f1, f2, f3, f4, f5, f6, -⟩ := R.lim.facts
  obtain ⟨g1, d, g2, g3, -⟩ := R.rel.gone m (by omega) hne
  rw [f6] at g1
  rw [f5] at g2
  rcases h with h | ⟨d', h, hlt⟩
  · rw [h] at g1; cases g1
  · rw [h] at g2; cases g2; linarith

theorem Reduced.all_stay {s s0 s1 : Optimise ℝ} (R : Reduced s s0 s1) (h : ∀ m, m < s.nConstraints → m + 1 ∈ s1.indexMap) :
    s1.nConstraints = s.nConstraints := by
  have hle := R.le
  have hs : List.range (s.nConstraints + 1) ⊆ s1.indexMap := by
    intro k hk
    rw [List.mem_range] at hk
    cases k with
    | zero => exact List.mem_of_getElem? R.rel.zero
    | succ k => exact h k (by omega)
  have := (List.Nodup.subperm List.nodup_range hs).length_le
  rw [List.length_range, R.rel.idx] at this
  omega

theorem Reduced.none_stay {s s0 s1 : Optimise ℝ} (R : Reduced s s0 s1) (h : ∀ m, m < s.nConstraints → m + 1 ∉ s1.indexMap) : s1.nConstraints = 0 := by
  have hn0 := R.lim.facts.2.2.1
  have hs : s1.indexMap ⊆ [0] := by
    intro k hk
    have hb := R.rel.bound k hk
    cases k with
    | zero => simp
    | succ k => exact absurd hk (h k (by omega))
  have hnd : s1.indexMap.Nodup := R.rel.sorted.imp fun h => h.ne
  have := (List.Nodup.subperm hnd hs).length_le
  rw [R.rel.idx] at this
  simp only [List.length_singleton] at this
  omega

/-! ### the solver's answer -/

theorem Solved.answer_raw {nlopt : Optimise ℝ → NLoptRun ℝ} {s2 s3 sc : Optimise ℝ} {r : Optimise ℝ × ℝ} (S : Solved nlopt s s0 s1 s2 s3 sc r)
    {L : Nat → ℝ} (hL : ∀ (j m : Nat), s1.indexMap[j]? = some m → (nlopt sc).lambdas j = L m) (p : BoundaryPoint ℝ) :
    raw s3 s3.lambdas p = lin s0 s1.indexMap L p := by
  obtain ⟨f1, f2, f3, f4, f5, f6, f7⟩ := S.facts
  have e : raw s3 s3.lambdas p = raw s1 s3.lambdas p := by
    unfold raw
    rw [f2, f5, f6]
  rw [e]
  refine S.prep.rel.raw_eq fun j m hj => ?_
  have hlt := (List.getElem?_eq_some_iff.1 hj).1
  have h2 : s2.nConstraints = s1.nConstraints := by rw [S.prep.eq]
  rw [S.prep.rel.idx] at hlt
  rw [S.answer, List.getD, List.getElem?_map, List.getElem?_range (by omega)]
  exact hL j m hj

/-- The scaled limits are those of the original functions. -/
theorem Solved.limits {nlopt : Optimise ℝ → NLoptRun ℝ} {s2 s3 sc : Optimise ℝ} {r : Optimise ℝ × ℝ} (S : Solved nlopt s s0 s1 s2 s3 sc r)
    {j m : Nat} (hj : s1.indexMap[j]? = some m) : sc.negativeLambdaLimits.getD j 0 = s0.negativeLambdaLimits.getD m 0 ∧
      sc.positiveLambdaLimits.getD j 0 = s0.positiveLambdaLimits.getD m 0 := by
  have e : sc.negativeLambdaLimits = s1.negativeLambdaLimits ∧ sc.positiveLambdaLimits = s1.positiveLambdaLimits := by
    rw [S.call.1.eq, S.prep.eq]; exact ⟨rfl, rfl⟩
  obtain ⟨-, -, ⟨x, a1, a2⟩, ⟨y, b1, b2⟩⟩ := S.prep.rel.full j m hj
  rw [e.1, e.2, getD_of a1, getD_of a2, getD_of b1, getD_of b2]
  exact ⟨rfl, rfl⟩

end Slsm.Optimise
