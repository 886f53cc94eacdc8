import Verif.Proof.OptDemo
import Verif.Props.Boundary

/-! # C46–C53, C64–C66: the optimiser -/

namespace Slsm.Optimise

variable {s s' : Optimise ℝ} {nlopt : Optimise ℝ → NLoptRun ℝ} {fuel : Nat} {obj : ℝ} {i : Nat} {p q : BoundaryPoint ℝ}
variable {pts : List (BoundaryPoint ℝ)} {distances lambdas : List ℝ} {dt limit : ℝ} {isMax : Bool} {equality : List Bool}

/-! ### C48 -/

/-- **C48**: after `solve` the time step is the absolute value of the first multiplier, there is one multiplier for the objective and each
constraint the object was made with, the number of points is unchanged, and for every movable point `velocity * timeStep` is the displacement
that belongs to the returned multipliers; nothing else about the point changes. -/
theorem C48_consistent (h : Reached s) (e : solve nlopt fuel s = .ok (s', obj)) :
    s'.timeStep = |s'.lambdas.getD 0 0| ∧ s'.lambdas.length = s.nConstraintsInitial + 1 ∧ s'.points.length = s.points.length ∧
    ∀ (i : Nat) (p : BoundaryPoint ℝ), s.points[i]? = some p → ∃ q, s'.points[i]? = some q ∧ q = { p with velocity := q.velocity } ∧
      (p.isFixed = false → s'.timeStep ≠ 0 → q.velocity * s'.timeStep = capped p (proposed s'.lambdas p)) := by
  obtain ⟨s0, s1, s2, s3, sc, -, S⟩ := solve_facts h e
  obtain ⟨f1, f2, f3, f4, f5, f6, f7⟩ := S.facts
  have hle := S.prep.toReduced.le
  have hni := h.ok.2
  refine ⟨S.closed.step, ?_, by rw [S.closed.count, f4], fun i p hp => ?_⟩
  · rw [S.closed.len, f2, f3, max_eq_left (by omega)]
  · obtain ⟨d, h1, -, h2, -⟩ := S.point hp
    refine ⟨_, h1, rfl, fun hf ht => ?_⟩
    rw [← (h2 hf).1]
    exact div_mul_cancel₀ _ ht

/-! ### C46 -/

/-- **C46**, partial: after `solve` no movable point moves by more than the limit given to the constructor, whatever the solver answered and
however often the object has been used, provided that the side limit of points on the edge of the domain is not larger than that.
Missing: without the last condition the claim is false, see `C46_fails`. -/
theorem C46_cfl_partial (h : Reached s) (e : solve nlopt fuel s = .ok (s', obj)) (hp : s.points[i]? = some p) (hq : s'.points[i]? = some q)
    (hf : p.isFixed = false) (hd : p.isDomain = true → |p.negativeLimit| ≤ s.maxDisplacement) (ht : s'.timeStep ≠ 0) :
    |q.velocity * s'.timeStep| ≤ s.maxDisplacement := by
  obtain ⟨s0, s1, s2, s3, sc, -, S⟩ := solve_facts h e
  obtain ⟨d, h1, -, h2, -⟩ := S.point hp
  rw [h1] at hq
  cases hq
  dsimp only
  rw [div_mul_cancel₀ _ ht]
  exact (h2 hf).2 hd

/-- **C46** for the points of a discretised boundary: their side limits are below `10⁻⁶` on the edge of the domain, so the limit is respected
whenever it is at least `10⁻⁶`. -/
theorem C46_discretised {w ht : Nat} {L L' : LevelSet ℝ} {isTarget : Bool} {b : Boundary ℝ} (R : Boundary.Ready w ht L isTarget)
    (eb : Boundary.discretise L isTarget = .ok (b, L')) (h : Reached s) (e : solve nlopt fuel s = .ok (s', obj)) (hp : s.points[i]? = some p)
    (hq : s'.points[i]? = some q) (hf : p.isFixed = false)
    (hb : ∃ pt ∈ b.points, p.isDomain = pt.isDomain ∧ p.negativeLimit = pt.negativeLimit) (hm : 1 / 10 ^ 6 ≤ s.maxDisplacement)
    (h0 : s'.timeStep ≠ 0) : |q.velocity * s'.timeStep| ≤ s.maxDisplacement := by
  refine C46_cfl_partial h e hp hq hf (fun hdom => ?_) h0
  obtain ⟨pt, hpt, e1, e2⟩ := hb
  obtain ⟨nx, ny, nd, -, -, -, -, -, k1, -, k2⟩ := C43_limits R eb hpt
  have hlt := k1.1 (by rw [← e1]; exact hdom)
  have hge : 0 ≤ Boundary.distToEdge w ht pt.coord := by
    obtain ⟨-, i1, i2, i3, i4, -⟩ := C37_points_on_contour R eb hpt
    exact le_min (le_min i1 (by linarith)) (le_min i3 (by linarith))
  have hmin : min L.moveLimit (Boundary.distToEdge w ht pt.coord) = Boundary.distToEdge w ht pt.coord := min_eq_right (lt_of_lt_of_le hlt (min_le_left _ _)).le
  have h6 : Boundary.distToEdge w ht pt.coord < 1 / 10 ^ 6 := lt_of_lt_of_le hlt (min_le_right _ _)
  rw [hmin] at k2
  rw [e2, k2, abs_neg]
  split
  · have hdn : 0 ≤ Boundary.distance ⟨nx, ny⟩ pt.coord := Real.sqrt_nonneg _
    rw [abs_of_nonneg (le_min hge hdn)]
    exact (min_le_left _ _).trans (h6.le.trans hm)
  · rw [abs_of_nonneg hge]
    exact h6.le.trans hm

/-- The condition on the side limits in `C46_cfl_partial` is needed: one point on the edge of the domain whose side limit is larger than the
limit on displacements, one violated constraint, and a solver that answers with a corner of its search box. -/
theorem C46_fails : ∃ (pts : List (BoundaryPoint ℝ)) (s s' : Optimise ℝ) (fuel : Nat) (obj : ℝ) (p q : BoundaryPoint ℝ),
    ValidInput pts [-1] [0, 0] (1 / 2) [] ∧ new pts [-1] [0, 0] 0 (1 / 2) false [] = .ok s ∧
    solve (cornerSolver false) fuel s = .ok (s', obj) ∧ s.points[0]? = some p ∧ s'.points[0]? = some q ∧ p.isFixed = false ∧
    s'.timeStep ≠ 0 ∧ s.maxDisplacement < |q.velocity * s'.timeStep| := by
  have V : ValidInput [dot [1, 1] 1 true (-(9 / 10))] [-1] [0, 0] (1 / 2) [] := by
    refine ⟨by norm_num, by simp, rfl, .inl rfl, by simp, by simp [dot], fun k hk => ⟨by simp [dot], _, List.mem_singleton.2 rfl, rfl, ?_, by simp [dot]⟩⟩
    have : k = 0 ∨ k = 1 := by simp only [List.length_singleton] at hk; omega
    rcases this with rfl | rfl <;> simp [dot]
  obtain ⟨s, fuel, ⟨s', obj⟩, s0, s1, s2, s3, sc, h1, hs, F, -, h2, S⟩ := demo V false fun s s0 s1 hs R => by
    refine .inr (R.all_stay fun m hm => R.stays hm (.inr ?_))
    subst hs
    have : m = 0 := by simp only [made, List.length_singleton] at hm; omega
    subst this
    exact ⟨-1, rfl, by norm_num⟩
  have hn : s.nConstraints = 1 := by rw [hs]; rfl
  have hpts : s.points = [dot [1, 1] 1 true (-(9 / 10))] := by rw [hs]; rfl
  have hmax : s.maxDisplacement = 1 / 2 := by rw [hs]; rfl
  have hall := S.prep.toReduced.all_stay fun m hm => S.prep.toReduced.stays hm (.inr ⟨-1, by
    have : m = 0 := by omega
    subst this
    rw [hs]; rfl, by norm_num⟩)
  have hidx : s1.indexMap = [0, 1] := by
    rw [S.prep.rel.ident (by rw [S.prep.lim.facts.2.2.1]; omega), hall, hn]; rfl
  have hlim : ∀ k, k ≤ 1 → s0.scaleFactors.getD k 0 * s0.negativeLambdaLimits.getD k 0 = -(1 / 2) := by
    intro k hk
    have e1 : (dot [1, 1] 1 true (-(9 / 10))).sensitivities.getD k 0 = 1 := by
      rcases (by omega : k = 0 ∨ k = 1) with rfl | rfl <;> rfl
    have := (peak_limits S.prep.lim (k := k) (by omega) (F.responds k (by omega)) (M := 1) le_rfl
      (by rw [hpts]; intro p hp _; rw [List.mem_singleton] at hp; rw [hp, e1, abs_one])
      ⟨_, by rw [hpts]; exact List.mem_singleton.2 rfl, rfl, by rw [e1, abs_one]⟩).1
    rw [this, hmax]; norm_num
  have hraw : raw s3 s3.lambdas (dot [1, 1] 1 true (-(9 / 10))) = -1 := by
    rw [corner_raw S, lin, hidx]
    simp only [Bool.false_eq_true, if_false, List.map_cons, List.map_nil, List.sum_cons, List.sum_nil, hlim 0 (by omega), hlim 1 (by omega)]
    simp only [dot, List.getD_cons_zero, List.getD_cons_succ]
    norm_num
  have hcap : capped (dot [1, 1] 1 true (-(9 / 10))) (raw s3 s3.lambdas (dot [1, 1] 1 true (-(9 / 10)))) = -(9 / 10) := by
    rw [hraw]
    unfold capped
    simp only [dot, if_true]
    norm_num
  obtain ⟨f1, f2, f3, f4, f5, f6, f7⟩ := S.facts
  obtain ⟨t, t0, t1, -, v1, -, v2, v3⟩ := S.closed.value
  have ht : 1 / 2 < t := by
    rcases v2 with rfl | ⟨i, p, a1, -, a2⟩
    · norm_num
    · rw [f4, hpts] at a1
      have := List.mem_singleton.1 (List.mem_of_getElem? a1)
      rw [this, hcap, f1, hmax] at a2
      norm_num at a2
      linarith
  have hp0 : s.points[0]? = some (dot [1, 1] 1 true (-(9 / 10))) := by rw [hpts]; rfl
  obtain ⟨d, g1, -, g2, -⟩ := S.point hp0
  have hd := (g2 rfl).1
  have hstep : s'.timeStep = t / 2 := by
    rw [S.closed.step, corner_step S (v1 0 (by omega) (.inr rfl))]
    simp only [Bool.false_eq_true, if_false]
    rw [hlim 0 (by omega), abs_mul, abs_of_pos t0]
    norm_num
    ring
  have hstep0 : s'.timeStep ≠ 0 := by rw [hstep]; positivity
  refine ⟨_, s, s', fuel, obj, _, _, V, h1, h2, hp0, g1, rfl, hstep0, ?_⟩
  dsimp only
  rw [div_mul_cancel₀ _ hstep0, hd, v3, hraw, hmax]
  unfold capped
  simp only [dot, if_true]
  have hlt : max (-1 * t) (-(9 / 10)) < -(1 / 2) := max_lt (by linarith) (by norm_num)
  rw [abs_of_neg (by linarith)]
  linarith

/-! ### C47 -/

/-- **C47**, partial: after `solve` a movable point on the edge of the domain has not moved further out than its side limit.  Missing: points
that are not flagged can, see `C47_fails`. -/
theorem C47_domain_partial (h : Reached s) (e : solve nlopt fuel s = .ok (s', obj)) (hp : s.points[i]? = some p) (hq : s'.points[i]? = some q)
    (hf : p.isFixed = false) (hd : p.isDomain = true) (ht : s'.timeStep ≠ 0) : p.negativeLimit ≤ q.velocity * s'.timeStep := by
  obtain ⟨s0, s1, s2, s3, sc, -, S⟩ := solve_facts h e
  obtain ⟨d, h1, -, h2, -⟩ := S.point hp
  rw [h1] at hq
  cases hq
  dsimp only
  rw [div_mul_cancel₀ _ ht, (h2 hf).1]
  unfold capped
  rw [hd]
  exact le_max_right _ _

/-- **C47**: fixed points do not move in the first call of `solve`. -/
theorem C47_fixed (hn : new pts distances lambdas dt limit isMax equality = .ok s) (e : solve nlopt fuel s = .ok (s', obj))
    (hp : s.points[i]? = some p) (hq : s'.points[i]? = some q) (hf : p.isFixed = true) (ht : s'.timeStep ≠ 0) : q.velocity * s'.timeStep = 0 := by
  obtain ⟨s0, s1, s2, s3, sc, -, S⟩ := solve_facts (.made hn) e
  obtain ⟨d, h1, h2, -, -⟩ := S.point hp
  rw [h1] at hq
  cases hq
  dsimp only
  rw [div_mul_cancel₀ _ ht, h2 hf]
  obtain ⟨-, -, rfl⟩ := new_val hn
  simp [made]

/-- **C47**: in later calls a fixed point gets the displacement that the point with the same number had after the call before. -/
theorem C47_reuse (h : Reached s) (e : solve nlopt fuel s = .ok (s', obj)) (hp : s.points[i]? = some p) (hq : s'.points[i]? = some q)
    (hf : p.isFixed = true) (ht : s'.timeStep ≠ 0) : q.velocity * s'.timeStep = s.displacements.getD i 0 := by
  obtain ⟨s0, s1, s2, s3, sc, -, S⟩ := solve_facts h e
  obtain ⟨d, h1, h2, -, -⟩ := S.point hp
  rw [h1] at hq
  cases hq
  dsimp only
  rw [div_mul_cancel₀ _ ht, h2 hf]

/-- The displacements the object remembers are those of the points. -/
theorem C47_remembered (h : Reached s) (e : solve nlopt fuel s = .ok (s', obj)) (hq : s'.points[i]? = some q) (ht : s'.timeStep ≠ 0) :
    s'.displacements.getD i 0 = q.velocity * s'.timeStep := by
  obtain ⟨s0, s1, s2, s3, sc, -, S⟩ := solve_facts h e
  have hlt := (List.getElem?_eq_some_iff.1 hq).1
  rw [S.closed.count, S.facts.2.2.2.1] at hlt
  obtain ⟨d, h1, -, -, h2⟩ := S.point (List.getElem?_eq_getElem hlt)
  rw [h1] at hq
  cases hq
  dsimp only
  rw [div_mul_cancel₀ _ ht]
  exact getD_of h2

/-- The side limit of a point that is not flagged is not respected: here the point may move outwards by `0.1` at most but moves by `0.5`. -/
theorem C47_fails : ∃ (pts : List (BoundaryPoint ℝ)) (s s' : Optimise ℝ) (fuel : Nat) (obj : ℝ) (p q : BoundaryPoint ℝ),
    ValidInput pts [] [0] (1 / 2) [] ∧ new pts [] [0] 0 (1 / 2) false [] = .ok s ∧
    solve (cornerSolver false) fuel s = .ok (s', obj) ∧ s.points[0]? = some p ∧ s'.points[0]? = some q ∧ p.isFixed = false ∧
    s'.timeStep ≠ 0 ∧ q.velocity * s'.timeStep < p.negativeLimit := by
  have V := one_point_valid
  obtain ⟨s, fuel, ⟨s', obj⟩, s0, s1, s2, s3, sc, h1, hs, F, -, h2, S⟩ := demo V false fun s s0 s1 hs R =>
    .inl (R.none_stay fun m hm => by subst hs; exact absurd hm (Nat.not_lt_zero m))
  obtain ⟨a, b⟩ := one_point F (by rw [hs]; rfl) (by rw [hs]; rfl) S (by rw [hs]; simp [made, dot])
  have hp : s.points[0]? = some (dot [1] 1 false (-(1 / 10))) := by rw [hs]; rfl
  obtain ⟨q, c, d⟩ := b 0 _ hp rfl
  refine ⟨_, s, s', fuel, obj, _, q, V, h1, h2, hp, c, rfl, ?_, ?_⟩
  · rw [a]; norm_num
  · rw [d]; simp only [dot]; norm_num

/-- A point that is fixed moves if the object is used again and the point with its number moved before. -/
theorem C47_stale_fails : ∃ (pts pts' : List (BoundaryPoint ℝ)) (s s' s'' : Optimise ℝ) (fuel fuel' : Nat) (obj obj' : ℝ) (p q : BoundaryPoint ℝ),
    ValidInput pts [] [0] (1 / 2) [] ∧ new pts [] [0] 0 (1 / 2) false [] = .ok s ∧ solve (cornerSolver false) fuel s = .ok (s', obj) ∧
    solve (cornerSolver false) fuel' { s' with points := pts', lambdas := [0], timeStep := 0 } = .ok (s'', obj') ∧
    pts'[0]? = some p ∧ p.isFixed = true ∧ s''.points[0]? = some q ∧ s''.timeStep ≠ 0 ∧ q.velocity * s''.timeStep ≠ 0 := by
  have V := one_point_valid
  obtain ⟨s, fuel, ⟨s', obj⟩, s0, s1, s2, s3, sc, h1, hs, F, Ft, h2, S⟩ := demo V false fun s s0 s1 hs R =>
    .inl (R.none_stay fun m hm => by subst hs; exact absurd hm (Nat.not_lt_zero m))
  have hn : s.nConstraints = 0 := by rw [hs]; rfl
  have hmax : s.maxDisplacement = 1 / 2 := by rw [hs]; rfl
  obtain ⟨a, b⟩ := one_point F hn hmax S (by rw [hs]; simp [made, dot])
  obtain ⟨q, c, d⟩ := b 0 (dot [1] 1 false (-(1 / 10))) (by rw [hs]; rfl) rfl
  have hn1 : s1.nConstraints = 0 := S.prep.toReduced.none_stay fun m hm => by omega
  let pts' : List (BoundaryPoint ℝ) := [{ dot [1] 1 false (-(1 / 10)) with isFixed := true }, dot [1] 1 false (-(1 / 10))]
  have F' : Fresh { s' with points := pts', lambdas := [0], timeStep := 0 } := by
    refine S.fresh F Ft (by omega) (fun p hp hf => ?_) (fun k hk => ?_) (by rw [hn]; rfl)
    · rw [hn]
      rcases List.mem_pair.1 hp with rfl | rfl
      · cases hf
      · simp [dot]
    · have : k = 0 := by omega
      subst this
      refine ⟨fun p hp => ?_, dot [1] 1 false (-(1 / 10)), by simp [pts'], rfl, by simp [dot], by simp [dot]⟩
      rcases List.mem_pair.1 hp with rfl | rfl <;> simp [dot]
  have hr' : Reached { s' with points := pts', lambdas := [0], timeStep := 0 } := .changed (.solved (.made h1) h2) _ _ _
  obtain ⟨N, hN⟩ := solve_exact F' (nlopt := cornerSolver false) fun t => ⟨1, rfl⟩
  obtain ⟨t1, g1, g2, g3, -⟩ := hN N le_rfl
  have hn' : s'.nConstraints = 0 := by
    have := S.closed.rest.2.1
    dsimp only at this
    rw [this, S.facts.2.1, hn1]
  have hm' : s'.maxDisplacement = 1 / 2 := by
    have := S.closed.rest.1
    dsimp only at this
    rw [this, S.facts.1, hmax]
  dsimp only at g2
  obtain ⟨⟨s'', obj'⟩, h3⟩ := g3 (.inl (by omega))
  obtain ⟨t0, t1', t2, t3, tc, -, T⟩ := solve_facts hr' h3
  obtain ⟨a', -⟩ := one_point F' hn' hm' T (fun p hp hf => by
    rcases List.mem_pair.1 hp with rfl | rfl
    · cases hf
    · simp [dot])
  have ht : s''.timeStep ≠ 0 := by rw [a']; norm_num
  have ht' : s'.timeStep ≠ 0 := by rw [a]; norm_num
  obtain ⟨q', k1, -⟩ := T.point (i := 0) (p := { dot [1] 1 false (-(1 / 10)) with isFixed := true }) rfl
  refine ⟨_, pts', s, s', s'', fuel, N, obj, obj', _, _, V, h1, h2, h3, rfl, rfl, k1, ht, ?_⟩
  rw [C47_reuse hr' h3 rfl k1 rfl ht]
  show s'.displacements.getD 0 0 ≠ 0
  rw [C47_remembered (.made h1) h2 c ht', d]
  norm_num

/-! ### C49 -/

/-- **C49**: the search box handed to the solver.  For every function `k` that is left, at position `j` of the reduced problem: the solver's
multiplier `x` stands for the multiplier `f * x`, `f > 0`; `x` is within the limits exactly if `f * x` on its own moves no point by more than
the limit on displacements; and the start point is inside and stands for the caller's multiplier times a factor in `(0, 1]`, which is `1` if
the caller's multiplier was allowed. -/
theorem C49_box (h : Reached s) (e : prepare fuel s = .ok s') (hr : ∀ k, k ≤ s.nConstraints → Responds s.points k) {j k : Nat}
    (hk : s'.indexMap[j]? = some k) : ∃ f lo hi x y t, s'.scaleFactors[j]? = some f ∧ s'.negativeLambdaLimits[j]? = some lo ∧
      s'.positiveLambdaLimits[j]? = some hi ∧ s'.lambdas[j]? = some x ∧ s.lambdas[k]? = some y ∧ 0 < f ∧
      (∀ z, lo ≤ z ∧ z ≤ hi ↔ Allowed s.points s.maxDisplacement k (f * z)) ∧ lo ≤ x ∧ x ≤ hi ∧
      f * x = y * t ∧ 0 < t ∧ t ≤ 1 ∧ (Allowed s.points s.maxDisplacement k y → t = 1) := by
  obtain ⟨s0, s1, -, P⟩ := any_ok (prepare_val h.ok.1) e
  have e1 : s'.indexMap = s1.indexMap ∧ s'.scaleFactors = s1.scaleFactors ∧ s'.negativeLambdaLimits = s1.negativeLambdaLimits ∧
      s'.positiveLambdaLimits = s1.positiveLambdaLimits ∧ s'.lambdas = s1.lambdas := by rw [P.eq]; exact ⟨rfl, rfl, rfl, rfl, rfl⟩
  obtain ⟨i1, i2, i3, i4, i5⟩ := e1
  rw [i1] at hk
  have hle : k ≤ s.nConstraints := by
    have := P.rel.bound k (List.mem_of_getElem? hk)
    rw [P.lim.facts.2.2.1] at this
    exact this
  obtain ⟨⟨x, a1, a2⟩, ⟨f, b1, b2⟩, ⟨lo, c1, c2⟩, ⟨hi, d1, d2⟩⟩ := P.rel.full j k hk
  obtain ⟨f', y, lo', hi', x', g1, g2, g3, g4, g5, g6, g7, g8⟩ := P.lim.fn k hle
  rw [b2] at g1; rw [c2] at g3; rw [d2] at g4; rw [a2] at g5
  cases g1; cases g3; cases g4; cases g5
  have hf := g7 (hr k hle)
  obtain ⟨n, hx, hn⟩ := g8.start
  refine ⟨f, lo, hi, x, y, (9 / 10) ^ n, by rw [i2]; exact b1, by rw [i3]; exact c1, by rw [i4]; exact d1, by rw [i5]; exact a1, g2, hf,
    g8.allowed hf, g8.inside.1, g8.inside.2, ?_, by positivity, pow_le_one₀ (by norm_num) (by norm_num), fun ha => ?_⟩
  · rw [hx]; field_simp
  · rcases Nat.eq_zero_or_pos n with rfl | hpos
    · simp
    · have := (g8.allowed hf (y / f)).2 (by rw [mul_div_cancel₀ _ hf.ne']; exact ha)
      rcases hn hpos with h1 | h1 <;> linarith

/-- **C49**: the loops that shrink the start point end: for valid arguments the first part of `solve` succeeds (without a failure of any kind)
for every sufficiently large bound on their number of rounds. -/
theorem C49_terminates (V : ValidInput pts distances lambdas limit equality) (hn : new pts distances lambdas dt limit isMax equality = .ok s) :
    ∃ N, ∀ fuel, N ≤ fuel → ∃ r, reduce fuel s = .ok r := by
  obtain ⟨N, hN⟩ := reduce_safe (fresh V hn)
  refine ⟨N, fun fuel hf => ?_⟩
  obtain ⟨r, hr, -⟩ := wp_noErr_iff.1 (hN fuel hf)
  exact ⟨r, hr⟩

/-! ### C50 -/

/-- **C50**: the reduced problem: position 0 is the objective; positions are in the order of the original functions, each original function
occurs at most once; the data of a position are those of its original function (the target may have been cut off, see `C66_targets`); every
equality constraint and every constraint that is violated stays. -/
theorem C50_map (h : Reached s) (e : reduce fuel s = .ok s') :
    s'.indexMap.length = s'.nConstraints + 1 ∧ s'.indexMap[0]? = some 0 ∧ s'.indexMap.Pairwise (· < ·) ∧ (∀ k ∈ s'.indexMap, k ≤ s.nConstraints) ∧
    s'.points = s.points ∧ s'.maxDisplacement = s.maxDisplacement ∧
    (∀ j m : Nat, s'.indexMap[j + 1]? = some (m + 1) → s'.constraintDistances[j]? = s.constraintDistances[m]? ∧ s'.isEquality[j]? = s.isEquality[m]?) ∧
    ∀ m, m < s.nConstraints → m + 1 ∉ s'.indexMap → s.isEquality[m]? = some false ∧ ∃ d, s.constraintDistances[m]? = some d ∧ 0 ≤ d := by
  obtain ⟨s0, R⟩ := any_ok (reduce_val h.ok.1) e
  obtain ⟨f1, f2, f3, f4, f5, f6, f7⟩ := R.lim.facts
  refine ⟨R.rel.idx, R.rel.zero, R.rel.sorted, fun k hk => by rw [← f3]; exact R.rel.bound k hk, by rw [R.rel.pts, f1], ?_, fun j m hj => ?_, fun m hm hg => ?_⟩
  · rw [R.rel.other.1, R.lim.eq]
  · rw [← f5, ← f6]; exact R.rel.cons j m hj
  · obtain ⟨g1, d, g2, g3, -⟩ := R.rel.gone m (by rw [f3]; exact hm) hg
    rw [f6] at g1
    rw [f5] at g2
    exact ⟨g1, d, g2, g3⟩

/-- **C50** (for every number type): the recursion that removes constraints ends after at most one call per constraint, and one more. -/
theorem C50_terminates {D : Type} [FP D] (s : Optimise D) : computeConstraintDistances (s.nConstraints + 1) s.nConstraints s ≠ .error .fuel := by
  intro hne
  have := constraints_ub (s := s) (n := s.nConstraints) rfl (Nat.lt_succ_self _)
  rw [hne] at this
  cases this

/-! ### C51 -/

/-- **C51**, partial: if no movable point is on the edge of the domain, then for all allowed multipliers of the functions that are left 99% of
the predicted change of a removed constraint stay below its distance (so the predicted change of the constraint is at most 1% too large).
Missing: the claim itself, see `C51_fails`. -/
theorem C51_quiet_partial (h : Reached s) (e : reduce fuel s = .ok s') (hr : ∀ k, k ≤ s.nConstraints → Responds s.points k)
    (hd : ∀ p ∈ s.points, p.isFixed = false → p.isDomain = false) {m : Nat} (hm : m < s.nConstraints) (hg : m + 1 ∉ s'.indexMap) {d : ℝ}
    (hdist : s.constraintDistances[m]? = some d) {lambda : List ℝ} (hl : lambda.length = s.nConstraints + 1)
    (hin : ∀ k, k ∈ s'.indexMap → Allowed s.points s.maxDisplacement k (lambda.getD k 0))
    (hout : ∀ k, k ≤ s.nConstraints → k ∉ s'.indexMap → lambda.getD k 0 = 0) : predicted s.points lambda (m + 1) * (99 / 100) < d := by
  obtain ⟨s0, R⟩ := any_ok (reduce_val h.ok.1) e
  obtain ⟨f1, f2, f3, f4, f5, f6, f7⟩ := R.lim.facts
  obtain ⟨g1, d', g2, g3, g4⟩ := R.rel.gone m (by rw [f3]; exact hm) hg
  rw [f5, hdist] at g2
  cases g2
  have hb : ∀ b ∈ s'.indexMap, ∃ f lo hi, s0.scaleFactors.getD b 0 = f ∧ 0 < f ∧ s0.negativeLambdaLimits.getD b 0 = lo ∧
      s0.positiveLambdaLimits.getD b 0 = hi ∧ ∀ z, lo ≤ z ∧ z ≤ hi ↔ Allowed s.points s.maxDisplacement b (f * z) := by
    intro b hb
    have hle := R.rel.bound b hb
    rw [f3] at hle
    obtain ⟨f, y, lo, hi, x, g1, g2, g3, g4, g5, g6, g7, g8⟩ := R.lim.fn b hle
    exact ⟨f, lo, hi, getD_of g1, g7 (hr b hle), getD_of g3, getD_of g4, g8.allowed (g7 (hr b hle))⟩
  rw [predicted_eq_total R hd hl (L := fun b => lambda.getD b 0 / s0.scaleFactors.getD b 0) (fun b hb' => ?_) hout]
  · refine g4 (fun i p hp hf => hd p (by rw [← f1]; exact List.mem_of_getElem? hp) hf) _ fun b hb' => ?_
    obtain ⟨f, lo, hi, h1, h2, h3, h4, h5⟩ := hb b hb'
    rw [h1, h3, h4, h5, mul_div_cancel₀ _ h2.ne']
    exact hin b hb'
  · obtain ⟨f, lo, hi, h1, h2, -⟩ := hb b hb'
    rw [h1, mul_div_cancel₀ _ h2.ne']

/-- Removed constraints can be violated: two points, the second tiny but with a large sensitivity of the constraint; the constraint is removed,
the solver answers with an allowed multiplier of the objective, `solve` returns it, and the predicted change of the constraint is `0.5`
although its distance is `0.498`. -/
theorem C51_fails : ∃ (pts : List (BoundaryPoint ℝ)) (s s' r : Optimise ℝ) (fuel : Nat) (obj : ℝ),
    ValidInput pts [498 / 1000] [0, 0] (1 / 2) [] ∧ (∀ p ∈ pts, p.isFixed = false ∧ p.isDomain = false) ∧
    new pts [498 / 1000] [0, 0] 0 (1 / 2) false [] = .ok s ∧ reduce fuel s = .ok r ∧ 1 ∉ r.indexMap ∧
    solve (cornerSolver true) fuel s = .ok (s', obj) ∧ Allowed pts (1 / 2) 0 (s'.lambdas.getD 0 0) ∧ s'.lambdas.getD 1 0 = 0 ∧
    498 / 1000 < predicted pts s'.lambdas 1 := by
  set A := dot [1, 1] 1 false (-(1 / 2)) with hA
  set B := dot [0, 1000] (1 / 10 ^ 9) false (-(1 / 2)) with hB
  have a0 : A.sensitivities.getD 0 0 = 1 := rfl
  have a1 : A.sensitivities.getD 1 0 = 1 := rfl
  have b0 : B.sensitivities.getD 0 0 = 0 := rfl
  have b1 : B.sensitivities.getD 1 0 = 1000 := rfl
  have V : ValidInput [A, B] [498 / 1000] [0, 0] (1 / 2) [] := by
    refine ⟨by norm_num, by simp, rfl, .inl rfl, by simp, fun p hp _ => ?_, fun k hk => ⟨fun p hp => ?_, A, by simp, rfl, ?_, by simp [hA, dot]⟩⟩
    · rcases List.mem_pair.1 hp with rfl | rfl <;> simp [hA, hB, dot]
    · rcases List.mem_pair.1 hp with rfl | rfl <;> simp [hA, hB, dot]
    · rcases (by simp only [List.length_singleton] at hk; omega : k = 0 ∨ k = 1) with rfl | rfl
      · rw [a0]; norm_num
      · rw [a1]; norm_num
  have hmem : ∀ p ∈ [A, B], p.isFixed = false ∧ p.isDomain = false := fun p hp => by
    rcases List.mem_pair.1 hp with rfl | rfl <;> exact ⟨rfl, rfl⟩
  -- the limits
  have lim : ∀ s s0, s = Optimise.made [A, B] [498 / 1000] [0, 0] 0 (1 / 2) false [] 1 → Limited s s0 →
      (s0.scaleFactors.getD 0 0 * s0.negativeLambdaLimits.getD 0 0 = -(1 / 2) ∧ s0.scaleFactors.getD 0 0 * s0.positiveLambdaLimits.getD 0 0 = 1 / 2) ∧
      (s0.scaleFactors.getD 1 0 * s0.negativeLambdaLimits.getD 1 0 = -(1 / 2000) ∧ s0.scaleFactors.getD 1 0 * s0.positiveLambdaLimits.getD 1 0 = 1 / 2000) := by
    intro s s0 hs L
    have hmax : s.maxDisplacement = 1 / 2 := by rw [hs]; rfl
    have hpts : s.points = [A, B] := by rw [hs]; rfl
    have hn : s.nConstraints = 1 := by rw [hs]; rfl
    have r0 := peak_limits L (k := 0) (by omega) (by rw [hpts]; exact V.responds 0 (by simp)) (M := 1) le_rfl
      (fun p hp _ => by
        rw [hpts] at hp
        rcases List.mem_pair.1 hp with rfl | rfl
        · rw [a0, abs_one]
        · rw [b0, abs_zero]; norm_num) ⟨A, by rw [hpts]; simp, rfl, by rw [a0, abs_one]⟩
    have r1 := peak_limits L (k := 1) (by omega) (by rw [hpts]; exact V.responds 1 (by simp)) (M := 1000) (by norm_num)
      (fun p hp _ => by
        rw [hpts] at hp
        rcases List.mem_pair.1 hp with rfl | rfl
        · rw [a1, abs_one]; norm_num
        · rw [b1]; norm_num) ⟨B, by rw [hpts]; simp, rfl, by rw [b1]; norm_num⟩
    rw [hmax] at r0 r1
    norm_num at r0 r1 ⊢
    exact ⟨r0, r1⟩
  have gone : ∀ s s0 s1, s = Optimise.made [A, B] [498 / 1000] [0, 0] 0 (1 / 2) false [] 1 → Reduced s s0 s1 → ∀ m, m < s.nConstraints → m + 1 ∉ s1.indexMap := by
    intro s s0 s1 hs R m hm
    obtain ⟨⟨l1, l2⟩, l3, l4⟩ := lim s s0 hs R.lim
    have hn : s.nConstraints = 1 := by rw [hs]; rfl
    have hm0 : m = 0 := by omega
    subst hm0
    refine R.loose 0 (by omega) ⟨by rw [R.lim.facts.2.2.2.2.2.1, hs]; rfl, 498 / 1000, 1, by rw [R.lim.facts.2.2.2.2.1, hs]; rfl, by norm_num,
      by rw [R.lim.facts.2.2.2.1, hn]; rfl, fun j hj => ?_⟩
    have key : ∀ k, k ≤ 1 → (natural s0 (cornerL s0 (s.nConstraints + 1) j)).getD k 0 =
        (if j.testBit k then s0.scaleFactors.getD k 0 * s0.positiveLambdaLimits.getD k 0 else s0.scaleFactors.getD k 0 * s0.negativeLambdaLimits.getD k 0) := by
      intro k hk
      rw [natural_getD (by rw [R.lim.facts.2.2.1]; omega), cornerL_getD (by omega), mul_comm]
      split <;> rfl
    have hlen : (natural s0 (cornerL s0 (s.nConstraints + 1) j)).length = 2 := by rw [natural_length, R.lim.facts.2.2.1, hn]
    rw [effect_natural (by rw [R.lim.facts.2.2.2.1, R.lim.facts.2.2.1]) (by rw [R.lim.facts.2.1, R.lim.facts.1]), R.lim.facts.1]
    have hpts : s.points = [A, B] := by rw [hs]; rfl
    rw [hpts]
    have e0 := key 0 (by omega)
    have e1 := key 1 (by omega)
    rw [l1, l2] at e0
    rw [l3, l4] at e1
    unfold predicted
    simp only [List.map_cons, List.map_nil, List.sum_cons, List.sum_nil]
    rw [proposed_eq, proposed_eq, hlen]
    simp only [Finset.sum_range_succ, Finset.sum_range_zero, a0, a1, b0, b1]
    rw [e0, e1]
    simp only [capped, hA, hB, dot, Bool.false_eq_true, if_false]
    split <;> split <;> norm_num
  obtain ⟨s, fuel, ⟨s', obj⟩, s0, s1, s2, s3, sc, h1, hs, F, -, h2, S⟩ := demo V true fun s s0 s1 hs R => .inl (R.none_stay (gone s s0 s1 hs R))
  have hmax : s.maxDisplacement = 1 / 2 := by rw [hs]; rfl
  have hpts : s.points = [A, B] := by rw [hs]; rfl
  have hn : s.nConstraints = 1 := by rw [hs]; rfl
  have hg := gone s s0 s1 hs S.prep.toReduced
  have hn1 := S.prep.toReduced.none_stay hg
  obtain ⟨⟨l1, l2⟩, l3, l4⟩ := lim s s0 hs S.prep.lim
  obtain ⟨r, hred⟩ : ∃ r, reduce fuel s = .ok r := by
    obtain ⟨_, s1', _, _, _, hr, _⟩ := solve_facts (.made h1) h2
    exact ⟨s1', hr⟩
  obtain ⟨s0', R'⟩ := any_ok (reduce_val F.max) hred
  have hidx : s1.indexMap = [0] := by
    have h0 := S.prep.rel.idx
    have h1 := S.prep.rel.zero
    rw [hn1] at h0
    obtain ⟨x, hx⟩ := List.length_eq_one_iff.1 h0
    rw [hx] at h1 ⊢
    cases h1
    rfl
  have hraw : ∀ p : BoundaryPoint ℝ, raw s3 s3.lambdas p = 1 / 2 * p.sensitivities.getD 0 0 := by
    intro p
    rw [corner_raw S, lin, hidx]
    simp only [if_true, List.map_cons, List.map_nil, List.sum_cons, List.sum_nil, l2, add_zero]
  obtain ⟨f1, f2, f3, f4, f5, f6, f7⟩ := S.facts
  obtain ⟨t, t0, t1, -, v1, v2, -, v3⟩ := S.closed.value
  have ht : t = 1 := v2 fun i p hp hf => by
    rw [f4, hpts] at hp
    rw [hraw, f1, hmax]
    rcases List.mem_pair.1 (List.mem_of_getElem? hp) with rfl | rfl
    · rw [a0]; simp only [capped, hA, dot, Bool.false_eq_true, if_false]; norm_num
    · rw [b0]; simp only [capped, hB, dot, Bool.false_eq_true, if_false]; norm_num
  subst ht
  have hl0 : s'.lambdas.getD 0 0 = 1 / 2 := by
    have := corner_step S (v1 0 (by omega) (.inr rfl))
    simp only [if_true] at this
    rw [this, l2]; norm_num
  have hlen : s'.lambdas.length = 2 := by
    have := S.closed.len
    dsimp only at this
    rw [this, f2, f3, hn1, F.init, hn]
    rfl
  refine ⟨[A, B], s, s', r, fuel, obj, V, hmem, h1, hred, gone s s0' r hs R' 0 (by omega), h2, ⟨?_, fun p hp _ => ?_⟩, ?_, ?_⟩
  · rw [hl0, abs_of_pos (by norm_num)]
    exact div_le_self (by norm_num) (one_le_pow₀ (by norm_num))
  · rw [hl0]
    rcases List.mem_pair.1 hp with rfl | rfl
    · rw [a0]; norm_num
    · rw [b0]; norm_num
  · have hB' := v3 { dot [0, 1] 1 false 0 with isFixed := false }
    rw [hraw, proposed_eq] at hB'
    dsimp only at hB'
    rw [hlen] at hB'
    simp only [Finset.sum_range_succ, Finset.sum_range_zero, dot, List.getD_cons_zero, List.getD_cons_succ] at hB'
    linarith
  · unfold predicted
    simp only [List.map_cons, List.map_nil, List.sum_cons, List.sum_nil]
    have vA := v3 A
    have vB := v3 B
    dsimp only at vA vB
    rw [vA, vB, hraw, hraw, a0, a1, b0, b1]
    simp only [capped, hA, hB, dot, Bool.false_eq_true, if_false]
    norm_num

/-! ### C52 -/

/-- **C52**: for valid arguments, a solver that ends normally and enough rounds for the loops, the first `solve` either succeeds, or some but
not all of the constraints are removed and it accesses memory out of range. -/
theorem C52_exact (V : ValidInput pts distances lambdas limit equality) (hn : new pts distances lambdas dt limit isMax equality = .ok s)
    (hc : ∀ t, ∃ c, (nlopt t).result = .code c) : ∃ N, ∀ fuel, N ≤ fuel → ∃ r, reduce fuel s = .ok r ∧ r.nConstraints ≤ distances.length ∧
      ((∃ x, solve nlopt fuel s = .ok x) ↔ r.nConstraints = 0 ∨ r.nConstraints = distances.length) ∧
      (solve nlopt fuel s = .error .ub ↔ 0 < r.nConstraints ∧ r.nConstraints < distances.length) := by
  obtain ⟨N, hN⟩ := solve_exact (fresh V hn) hc
  refine ⟨N, fun fuel hf => ?_⟩
  obtain ⟨r, h1, h2, h3, h4⟩ := hN fuel hf
  obtain ⟨-, -, rfl⟩ := new_val hn
  refine ⟨r, h1, h2, ⟨fun ⟨x, hx⟩ => ?_, h3⟩, ⟨fun hu => ?_, fun h => h4 h.1 h.2⟩⟩
  · by_contra hne
    rw [h4 (by omega) (by show r.nConstraints < distances.length; have : r.nConstraints ≤ distances.length := h2; omega)] at hx
    cases hx
  · by_contra hne
    have h2' : r.nConstraints ≤ distances.length := h2
    obtain ⟨x, hx⟩ := h3 (by show r.nConstraints = 0 ∨ r.nConstraints = distances.length; omega)
    rw [hx] at hu
    cases hu

/-- **C52**, partial: with at most one constraint, or if every constraint is an equality constraint or violated, the first `solve` succeeds.
Missing: with two or more constraints of which some are removed it does not, see `C52_fails`. -/
theorem C52_safe_partial (V : ValidInput pts distances lambdas limit equality) (hn : new pts distances lambdas dt limit isMax equality = .ok s)
    (hc : ∀ t, ∃ c, (nlopt t).result = .code c)
    (h : distances.length ≤ 1 ∨ ∀ m, m < distances.length → equality[m]? = some true ∨ ∃ d, distances[m]? = some d ∧ d < 0) :
    ∃ N, ∀ fuel, N ≤ fuel → ∃ x, solve nlopt fuel s = .ok x := by
  obtain ⟨N, hN⟩ := C52_exact V hn hc
  refine ⟨N, fun fuel hf => ?_⟩
  obtain ⟨r, h1, h2, h3, -⟩ := hN fuel hf
  rw [h3]
  rcases h with h | h
  · omega
  · obtain ⟨s0, R⟩ := any_ok (reduce_val (Reached.made hn).ok.1) h1
    obtain ⟨-, -, hs⟩ := new_val hn
    have hnc : s.nConstraints = distances.length := by rw [hs]; rfl
    right
    rw [← hnc]
    refine R.all_stay fun m hm => R.stays hm ?_
    rw [hnc] at hm
    rcases h m hm with h' | h'
    · left
      have : equality.length ≠ 0 := by
        have := (List.getElem?_eq_some_iff.1 h').1
        omega
      have he : s.isEquality = equality := by
        rw [hs]
        show (if equality.length = 0 then _ else _) = _
        rw [if_neg this]
      rw [he]; exact h'
    · right
      rw [hs]; exact h'

/-- Two constraints, the first far from being violated, the second violated: `solve` accesses memory out of range whatever the solver does. -/
theorem C52_fails : ∃ (pts : List (BoundaryPoint ℝ)) (s : Optimise ℝ), ValidInput pts [100, -1] [0, 0, 0] (1 / 2) [] ∧
    new pts [100, -1] [0, 0, 0] 0 (1 / 2) false [] = .ok s ∧
    ∀ nlopt : Optimise ℝ → NLoptRun ℝ, (∀ t, ∃ c, (nlopt t).result = .code c) → ∃ N, ∀ fuel, N ≤ fuel → solve nlopt fuel s = .error .ub := by
  set A := dot [1, 1, 1] 1 false (-(1 / 2)) with hA
  have ha : ∀ k, k ≤ 2 → A.sensitivities.getD k 0 = 1 := by
    intro k hk
    rcases (by omega : k = 0 ∨ k = 1 ∨ k = 2) with rfl | rfl | rfl <;> rfl
  have V : ValidInput [A] [100, -1] [0, 0, 0] (1 / 2) [] := by
    refine ⟨by norm_num, by simp, rfl, .inl rfl, by simp, fun p hp _ => ?_, fun k hk => ⟨fun p hp => ?_, A, by simp, rfl, ?_, by simp [hA, dot]⟩⟩
    · rw [List.mem_singleton.1 hp]; simp [hA, dot]
    · rw [List.mem_singleton.1 hp]; simp [hA, dot]
    · rw [ha k hk]; norm_num
  obtain ⟨s, h1⟩ := (new_iff (pts := [A]) (distances := [100, -1]) (lambdas := [0, 0, 0]) (dt := 0) (limit := 1 / 2) (isMax := false) (equality := [])
    (by simp) (by simp)).2 ⟨V.limit.1, V.limit.2, V.points, V.lambdas⟩
  refine ⟨[A], s, V, h1, fun nlopt hc => ?_⟩
  obtain ⟨N, hN⟩ := C52_exact V h1 hc
  refine ⟨N, fun fuel hf => ?_⟩
  obtain ⟨r, g1, g2, -, g4⟩ := hN fuel hf
  rw [g4]
  obtain ⟨s0, R⟩ := any_ok (reduce_val (Reached.made h1).ok.1) g1
  obtain ⟨-, -, hs⟩ := new_val h1
  have hn : s.nConstraints = 2 := by rw [hs]; rfl
  have hpts : s.points = [A] := by rw [hs]; rfl
  have hmax : s.maxDisplacement = 1 / 2 := by rw [hs]; rfl
  have in2 : 2 ∈ r.indexMap := R.stays (m := 1) (by omega) (.inr ⟨-1, by rw [hs]; rfl, by norm_num⟩)
  have out1 : 1 ∉ r.indexMap := by
    refine R.loose 0 (by omega) ⟨by rw [R.lim.facts.2.2.2.2.2.1, hs]; rfl, 100, 1, by rw [R.lim.facts.2.2.2.2.1, hs]; rfl, by norm_num,
      by rw [R.lim.facts.2.2.2.1, hn]; rfl, fun j hj => ?_⟩
    rw [effect_natural (by rw [R.lim.facts.2.2.2.1, R.lim.facts.2.2.1]) (by rw [R.lim.facts.2.1, R.lim.facts.1]), R.lim.facts.1, hpts]
    have hb := (corner_inBox R.lim (by rw [hmax]; norm_num) (fun k hk => by rw [hpts]; exact V.responds k (by rw [hn] at hk; exact hk)) (j := j))
    have key : ∀ k, k ≤ 2 → |(natural s0 (cornerL s0 (s.nConstraints + 1) j)).getD k 0| ≤ 1 / 2 := by
      intro k hk
      have := (hb.2 k (by omega)).2 A (by rw [hpts]; simp) rfl
      rw [ha k hk, mul_one, hmax] at this
      exact this
    unfold predicted
    simp only [List.map_cons, List.map_nil, List.sum_cons, List.sum_nil]
    rw [proposed_eq, hb.1, hn]
    simp only [Finset.sum_range_succ, Finset.sum_range_zero, ha 0 (by omega), ha 1 (by omega), ha 2 (by omega)]
    have k0 := abs_le.1 (key 0 (by omega))
    have k1 := abs_le.1 (key 1 (by omega))
    have k2 := abs_le.1 (key 2 (by omega))
    rw [show A.isFixed = false from rfl, show A.length = 1 from rfl]
    simp only [capped, show A.isDomain = false from rfl, Bool.false_eq_true, if_false]
    rw [hn] at k0 k1 k2
    linarith
  have hnd : r.indexMap.Nodup := R.rel.sorted.imp fun h => h.ne
  have u1 := (List.Nodup.subperm (l₂ := r.indexMap) (l₁ := [0, 2]) (by simp) (by
    intro k hk
    rcases List.mem_pair.1 hk with rfl | rfl
    · exact List.mem_of_getElem? R.rel.zero
    · exact in2)).length_le
  have u2 := (List.Nodup.subperm hnd (l₂ := [0, 2]) (by
    intro k hk
    have hb := R.rel.bound k hk
    rw [R.lim.facts.2.2.1, hn] at hb
    rcases (by omega : k = 0 ∨ k = 1 ∨ k = 2) with rfl | rfl | rfl
    · simp
    · exact absurd hk out1
    · simp)).length_le
  rw [R.rel.idx] at u1 u2
  simp only [List.length_cons, List.length_nil] at u1 u2 ⊢
  omega

/-- **C52**: an object for which no constraint was removed can be used again, with new points and multipliers. -/
theorem C52_reuse (V : ValidInput pts distances lambdas limit equality) (hn : new pts distances lambdas dt limit isMax equality = .ok s)
    {nlopt' : Optimise ℝ → NLoptRun ℝ} (hc : ∀ t, ∃ c, (nlopt' t).result = .code c) :
    ∃ N, ∀ fuel, N ≤ fuel → ∀ r, reduce fuel s = .ok r → r.nConstraints = distances.length → ∀ s' obj, solve nlopt fuel s = .ok (s', obj) →
      ∀ pts' lambdas' dt', ValidInput pts' distances lambdas' limit equality →
        ∃ N', ∀ fuel', N' ≤ fuel' → ∃ r', reduce fuel' { s' with points := pts', lambdas := lambdas', timeStep := dt' } = .ok r' ∧
          ((∃ x, solve nlopt' fuel' { s' with points := pts', lambdas := lambdas', timeStep := dt' } = .ok x) ↔
            r'.nConstraints = 0 ∨ r'.nConstraints = distances.length) := by
  have F := fresh V hn
  obtain ⟨N, hN⟩ := reduce_safe F
  refine ⟨N, fun fuel hf r hr hrn s' obj e pts' lambdas' dt' V' => ?_⟩
  obtain ⟨s0, s1, s2, s3, sc, h1, S⟩ := solve_facts (.made hn) e
  rw [h1] at hr
  cases hr
  obtain ⟨t, ht1, Ft⟩ := wp_noErr_iff.1 (hN fuel hf)
  rw [h1] at ht1
  cases ht1
  obtain ⟨-, -, hs⟩ := new_val hn
  have hnc : s.nConstraints = distances.length := by rw [hs]; rfl
  have F' : Fresh { s' with points := pts', lambdas := lambdas', timeStep := dt' } :=
    S.fresh F Ft (by rw [hrn, hnc]) (by rw [hnc]; exact V'.sizes) (by rw [hnc]; exact V'.responds) (by rw [hnc]; exact V'.lambdas)
  have hn' : s'.nConstraints = distances.length := by
    have := S.closed.rest.2.1
    dsimp only at this
    rw [this, S.facts.2.1, hrn]
  obtain ⟨N', hN'⟩ := solve_exact F' hc
  refine ⟨N', fun fuel' hf' => ?_⟩
  obtain ⟨r', g1, g2, g3, g4⟩ := hN' fuel' hf'
  dsimp only at g2 g3 g4
  refine ⟨r', g1, fun ⟨x, hx⟩ => ?_, fun h => g3 (by rw [hn']; exact h)⟩
  by_contra hne
  rw [g4 (by omega) (by omega)] at hx
  cases hx

/-! ### C53 -/

/-- **C53**: the value the callback returns to the solver for function `i` is, in scaled units, the predicted change minus the target. -/
theorem C53_value (h : Reached s) (e : prepare fuel s = .ok s') (hall : s'.nConstraints = s.nConstraints) (hi : i ≤ s.nConstraints)
    {lambda : List ℝ} {w : Bool} {t : Optimise ℝ} {g : Option (List ℝ)} {v : ℝ} (c : callback s' lambda w i = .ok (t, g, v)) :
    v = s'.scaleFactors.getD i 0 * (predicted s.points (natural s' lambda) i - if i = 0 then 0 else s'.constraintDistancesScaled.getD (i - 1) 0) := by
  obtain ⟨s0, s1, -, P⟩ := any_ok (prepare_val h.ok.1) e
  obtain ⟨f1, f2, f3, f4, f5, f6, f7⟩ := P.lim.facts
  have q1 : s'.nConstraints = s1.nConstraints := by rw [P.eq]
  have q2 : s'.indexMap = List.range (s'.nConstraints + 1) := by
    have : s'.indexMap = s1.indexMap := by rw [P.eq]
    rw [this, P.rel.ident (by omega), q1]
  have q3 : s'.points = s.points := by
    have : s'.points = s1.points := by rw [P.eq]
    rw [this, P.rel.pts, f1]
  have q4 : s'.nPoints = s'.points.length := by
    have : s'.nPoints = s1.nPoints := by rw [P.eq]
    rw [this, P.rel.npts, f2, q3]
  obtain ⟨-, ⟨j, hj, hv⟩, -⟩ := any_ok (callback_val q4) c
  dsimp only at hv
  rw [q2, List.getElem?_range (by omega)] at hj
  cases hj
  rw [hv, effect_natural q2 q4, q3]
  split <;> ring

/-- **C53**: while no side limit is active, the gradient handed to the solver gives the change of the callback's value exactly: the value is an
affine function of the multipliers with this gradient (if no constraint was removed). -/
theorem C53_gradient (h : Reached s) (e : prepare fuel s = .ok s') (hall : s'.nConstraints = s.nConstraints) (hi : i ≤ s.nConstraints)
    {lambda mu : List ℝ} {w : Bool} {t t' : Optimise ℝ} {g g' : Option (List ℝ)} {v v' : ℝ} (c : callback s' lambda true i = .ok (t, g, v))
    (c' : callback s' mu w i = .ok (t', g', v'))
    (hf : ∀ p ∈ s.points, p.isFixed = false → p.isDomain = true → p.negativeLimit ≤ proposed (natural s' lambda) p ∧ p.negativeLimit ≤ proposed (natural s' mu) p) :
    ∃ grad, g = some grad ∧ grad.length = s.nConstraints + 1 ∧
      v' - v = ∑ j ∈ Finset.range (s.nConstraints + 1), grad.getD j 0 * (mu.getD j 0 - lambda.getD j 0) := by
  obtain ⟨s0, s1, -, P⟩ := any_ok (prepare_val h.ok.1) e
  obtain ⟨f1, f2, f3, f4, f5, f6, f7⟩ := P.lim.facts
  have q1 : s'.nConstraints = s1.nConstraints := by rw [P.eq]
  have q0 : s1.indexMap = List.range (s1.nConstraints + 1) := P.rel.ident (by omega)
  have q2 : s'.indexMap = List.range (s'.nConstraints + 1) := by
    have : s'.indexMap = s1.indexMap := by rw [P.eq]
    rw [this, q0, q1]
  have q3 : s1.points = s.points := by rw [P.rel.pts, f1]
  have q3' : s'.points = s.points := by
    have : s'.points = s1.points := by rw [P.eq]
    rw [this, q3]
  have q4 : s1.nPoints = s.points.length := by rw [P.rel.npts, f2]
  have q4' : s'.nPoints = s'.points.length := by
    have : s'.nPoints = s1.nPoints := by rw [P.eq]
    rw [this, q4, q3']
  have q5 : s'.scaleFactors = s1.scaleFactors := by rw [P.eq]
  obtain ⟨-, -, hg, -⟩ := any_ok (callback_val q4') c
  dsimp only at hg
  obtain ⟨grad, g1, g2⟩ := hg rfl
  obtain ⟨grad', k1, k2, k3⟩ := P.grad q0 i (by omega)
  rw [g2] at k1
  cases k1
  refine ⟨grad, g1, by rw [k2]; omega, ?_⟩
  rw [C53_value h e hall hi c, C53_value h e hall hi c']
  have hpre : ∀ l : List ℝ, (∀ p ∈ s.points, p.isFixed = false → p.isDomain = true → p.negativeLimit ≤ proposed (natural s' l) p) →
      predicted s.points (natural s' l) i = ∑ a ∈ Finset.range s.points.length, (s.points[a]?).elim 0 fun p => if p.isFixed then 0 else
        (∑ j ∈ Finset.range (s.nConstraints + 1), l.getD j 0 * s1.scaleFactors.getD j 0 * p.sensitivities.getD j 0) * p.sensitivities.getD i 0 * p.length := by
    intro l hl
    unfold predicted
    rw [list_sum_elim]
    refine Finset.sum_congr rfl fun a _ => ?_
    cases hp : s.points[a]? with
    | none => rfl
    | some p =>
      rw [Option.elim_some, Option.elim_some]
      cases hpf : p.isFixed
      · simp only [Bool.false_eq_true, if_false]
        have hc : capped p (proposed (natural s' l) p) = proposed (natural s' l) p := by
          unfold capped
          split
          · exact max_eq_left (hl p (List.mem_of_getElem? hp) hpf (by assumption))
          · rfl
        rw [hc, proposed_eq, natural_length, hall]
        congr 2
        refine Finset.sum_congr rfl fun j hj => ?_
        rw [Finset.mem_range] at hj
        rw [natural_getD (by omega), q5]
      · simp
  rw [hpre mu fun p hp h1 h2 => (hf p hp h1 h2).2, hpre lambda fun p hp h1 h2 => (hf p hp h1 h2).1, q5]
  have hgr : ∀ j, j ∈ Finset.range (s.nConstraints + 1) → grad.getD j 0 * (mu.getD j 0 - lambda.getD j 0) =
      ∑ a ∈ Finset.range s.points.length, (s.points[a]?).elim 0 fun p => if p.isFixed then 0 else
        s1.scaleFactors.getD i 0 * ((mu.getD j 0 - lambda.getD j 0) * s1.scaleFactors.getD j 0 * p.sensitivities.getD j 0 * p.sensitivities.getD i 0 * p.length) := by
    intro j hj
    rw [Finset.mem_range] at hj
    rw [getD_of (k3 j (by omega)), gradEntry, q4, q3, Finset.sum_mul]
    refine Finset.sum_congr rfl fun a _ => ?_
    cases s.points[a]? with
    | none => simp
    | some p =>
      rw [Option.elim_some, Option.elim_some]
      split
      · simp
      · ring
  rw [Finset.sum_congr rfl hgr, Finset.sum_comm, ← mul_sub, sub_sub_sub_cancel_right, ← Finset.sum_sub_distrib, Finset.mul_sum]
  refine Finset.sum_congr rfl fun a _ => ?_
  cases s.points[a]? with
  | none => simp
  | some p =>
    simp only [Option.elim_some]
    split
    · simp
    · rw [← sub_mul, ← sub_mul, ← Finset.sum_sub_distrib, Finset.sum_mul, Finset.sum_mul, Finset.mul_sum]
      exact Finset.sum_congr rfl fun j _ => by ring

/-! ### C64 -/

/-- **C64**: if the solver reports the callback's value of the objective at the point it returns, and no movable point is on the edge of the
domain, then the value `solve` returns is the change of the objective predicted for the returned multipliers. -/
theorem C64_objective (V : ValidInput pts distances lambdas limit equality) (hn : new pts distances lambdas dt limit isMax equality = .ok s)
    (hd : ∀ p ∈ pts, p.isFixed = false → p.isDomain = false)
    (honest : ∀ t t' g v, callback t ((List.range (t.nConstraints + 1)).map (nlopt t).lambdas) false 0 = .ok (t', g, v) → (nlopt t).objective = v) :
    ∃ N, ∀ fuel, N ≤ fuel → ∀ s' obj, solve nlopt fuel s = .ok (s', obj) → obj = predicted pts s'.lambdas 0 := by
  have F := fresh V hn
  obtain ⟨N, hN⟩ := reduce_safe F
  refine ⟨N, fun fuel hf s' obj e => ?_⟩
  obtain ⟨s0, s1, s2, s3, sc, h1, S⟩ := solve_facts (.made hn) e
  obtain ⟨t, ht1, Ft⟩ := wp_noErr_iff.1 (hN fuel hf)
  rw [h1] at ht1
  cases ht1
  obtain ⟨-, -, hs⟩ := new_val hn
  have p0 : s.points = pts := by rw [hs]; rfl
  obtain ⟨Fc, gc⟩ := S.call_fit Ft
  have e2 : s2.nConstraints = s1.nConstraints := by rw [S.prep.eq]
  have ec : sc.nConstraints = s1.nConstraints ∧ sc.scaleFactors = s1.scaleFactors ∧ sc.indexMap = s1.indexMap ∧ sc.points = s1.points := by
    rw [S.call.1.eq, S.prep.eq]; exact ⟨rfl, rfl, rfl, rfl⟩
  obtain ⟨⟨t', g, v⟩, hcb, -⟩ := wp_noErr_iff.1 (callback_safe Fc gc (l := (List.range (sc.nConstraints + 1)).map (nlopt sc).lambdas) (by simp) (w := false)
    (i := 0) (by omega) (E := noErr))
  have ho := honest sc t' g v hcb
  obtain ⟨-, ⟨j, hj, hv⟩, -⟩ := any_ok (callback_val Fc.pts) hcb
  rw [Fc.zero] at hj
  cases hj
  dsimp only at hv
  rw [if_pos rfl, sub_zero] at hv
  obtain ⟨f1, f2, f3, f4, f5, f6, f7⟩ := S.facts
  obtain ⟨t, t0, t1, v0, -, -, -, v3⟩ := S.closed.value
  dsimp only at v0 v3
  have hans : s3.lambdas = (List.range (sc.nConstraints + 1)).map (nlopt sc).lambdas := by rw [S.answer, e2, ec.1]
  have hraw : ∀ p, raw sc ((List.range (sc.nConstraints + 1)).map (nlopt sc).lambdas) p = raw s3 s3.lambdas p := by
    intro p
    rw [← hans]
    unfold raw
    rw [ec.1, ec.2.1, ec.2.2.1, f2, f5, f6]
  have hf0 : 0 < s1.scaleFactors.getD 0 0 := by
    obtain ⟨f, x, a, b, c, g1, -, -, -, -, -, g2, -⟩ := S.prep.lim.fn 0 (by omega)
    obtain ⟨-, ⟨y, y1, y2⟩, -⟩ := S.prep.rel.full 0 0 S.prep.rel.zero
    rw [g1] at y2
    cases y2
    rw [getD_of y1]
    exact g2 (F.responds 0 (by omega))
  rw [v0, ho, hv, ec.2.1, f5, mul_assoc, mul_div_cancel_left₀ _ hf0.ne']
  unfold effect predicted
  rw [list_sum_elim, Fc.pts, ec.2.2.2, S.prep.rel.pts, S.prep.lim.facts.1, p0, Finset.sum_mul]
  refine Finset.sum_congr rfl fun a _ => ?_
  cases hp : pts[a]? with
  | none => simp
  | some p =>
    rw [Option.elim_some, Option.elim_some]
    cases hpf : p.isFixed
    · simp only [Bool.false_eq_true, if_false]
      have hc : ∀ x, capped p x = x := fun x => by
        unfold capped
        rw [hd p (List.mem_of_getElem? hp) hpf]
        rfl
      rw [hc, hc, v3, hraw]
      ring
    · simp

/-! ### C65 -/

/-- **C65**: the constructor accepts its arguments exactly if the limit is strictly between 0 and 1, there is a point, and there is one
multiplier more than there are constraint distances; otherwise the program exits. -/
theorem C65_accepts (hl : lambdas.length < 2 ^ 32) (hd : distances.length + 1 < 2 ^ 32) :
    ((∃ s, new pts distances lambdas dt limit isMax equality = .ok s) ↔
      0 < limit ∧ limit < 1 ∧ pts ≠ [] ∧ lambdas.length = distances.length + 1) ∧
    ((¬ ∃ s, new pts distances lambdas dt limit isMax equality = .ok s) → new pts distances lambdas dt limit isMax equality = .error .exit) :=
  ⟨new_iff (by omega) (by omega), fun h => new_exit.resolve_left h⟩

/-! ### C66 -/

/-- **C66**: the targets of the first `solve`, if no constraint is removed and no movable point is on the edge of the domain: a violated
constraint is corrected as far as 99% of the largest predicted decrease that allowed multipliers can cause; the other targets are the distance,
or 99% of the largest predicted increase if that is smaller. -/
theorem C66_targets (V : ValidInput pts distances lambdas limit equality) (hn : new pts distances lambdas dt limit isMax equality = .ok s)
    (e : reduce fuel s = .ok s') (hall : s'.nConstraints = distances.length) (hd : ∀ p ∈ pts, p.isFixed = false → p.isDomain = false)
    {m : Nat} {d : ℝ} (hm : distances[m]? = some d) :
    let reach := {c | ∃ lambda : List ℝ, lambda.length = distances.length + 1 ∧
      (∀ k, k ≤ distances.length → Allowed pts limit k (lambda.getD k 0)) ∧ c = predicted pts lambda (m + 1)}
    ∃ least greatest target, IsLeast reach least ∧ IsGreatest reach greatest ∧ s'.constraintDistancesScaled[m]? = some target ∧
      (d < 0 → target = max d (least * (99 / 100))) ∧ (0 ≤ d → target = min d (greatest * (99 / 100))) := by
  intro reach
  have F := fresh V hn
  obtain ⟨s0, R⟩ := any_ok (reduce_val F.max) e
  obtain ⟨f1, f2, f3, f4, f5, f6, f7⟩ := R.lim.facts
  obtain ⟨-, -, hs⟩ := new_val hn
  have n0 : s.nConstraints = distances.length := by rw [hs]; rfl
  have p0 : s.points = pts := by rw [hs]; rfl
  have m0 : s.maxDisplacement = limit := by rw [hs]; rfl
  have c0 : s.constraintDistances = distances := by rw [hs]; rfl
  have t0 : s.constraintDistancesScaled = distances := by rw [hs]; rfl
  have hml : m < distances.length := (List.getElem?_eq_some_iff.1 hm).1
  obtain ⟨-, hA⟩ := R.aim (by rw [hall, n0])
  obtain ⟨d', k, mn, mx, a1, a2, ⟨j1, a3, a4⟩, ⟨j2, a5, a6⟩, a7, a8, a9, a10, a11⟩ := hA m (by omega)
  rw [f5, c0, hm] at a1
  cases a1
  rw [f4, List.getElem?_range (by omega)] at a2
  cases a2
  have hbox : ∀ lambda : List ℝ, InBox s lambda ↔ lambda.length = distances.length + 1 ∧
      ∀ k, k ≤ distances.length → Allowed pts limit k (lambda.getD k 0) := by
    intro lambda
    unfold InBox
    rw [n0, p0, m0]
  have hin : ∀ j, effect s0 (m + 1) (cornerL s0 (s.nConstraints + 1) j) ∈ reach := by
    intro j
    have hb := (hbox _).1 (corner_inBox R.lim F.max F.responds (j := j))
    refine ⟨_, hb.1, hb.2, ?_⟩
    rw [effect_natural (by rw [f4, f3]) (by rw [f2, f1]), f1, p0]
  have hext : ∀ c ∈ reach, mn ≤ c ∧ c ≤ mx := by
    rintro c ⟨lambda, h1, h2, rfl⟩
    obtain ⟨⟨i1, b1, b2⟩, i2, b3, b4⟩ := inBox_corner R.lim F.responds (by rw [p0]; exact hd) ((hbox lambda).2 ⟨h1, h2⟩) (m + 1)
    rw [p0] at b2 b4
    exact ⟨(a7 i2 b3).1.trans b4, b2.trans (a7 i1 b1).2⟩
  rw [f7, t0, hm] at a9 a11
  have least : IsLeast reach mn := ⟨by rw [← a4]; exact hin j1, fun c hc => (hext c hc).1⟩
  have greatest : IsGreatest reach mx := ⟨by rw [← a6]; exact hin j2, fun c hc => (hext c hc).2⟩
  rcases lt_or_ge d 0 with hneg | hpos
  · rcases lt_or_ge d (mn * (99 / 100)) with h1 | h1
    · exact ⟨mn, mx, _, least, greatest, a8 hneg h1, fun _ => (max_eq_right h1.le).symm, fun h => by linarith⟩
    · exact ⟨mn, mx, _, least, greatest, a9 hneg h1, fun _ => (max_eq_left h1).symm, fun h => by linarith⟩
  · rcases lt_or_ge (mx * (99 / 100)) d with h1 | h1
    · exact ⟨mn, mx, _, least, greatest, a10 hpos h1, fun h => by linarith, fun _ => (min_eq_right h1.le).symm⟩
    · exact ⟨mn, mx, _, least, greatest, a11 hpos h1, fun h => by linarith, fun _ => (min_eq_left h1).symm⟩

/-! ### the hypotheses above can be met -/

/-- A problem with one movable point inside the domain, one violated constraint and a solver that answers with a corner of the search box. -/
theorem demo_valid : ValidInput [dot [1, 2] 1 false (-(1 / 2))] [-1] [0, 0] (1 / 2) [] := by
  refine ⟨by norm_num, by simp, rfl, .inl rfl, by simp, by simp [dot], fun k hk => ⟨by simp [dot], _, List.mem_singleton.2 rfl, rfl, ?_, by simp [dot]⟩⟩
  have : k = 0 ∨ k = 1 := by simp only [List.length_singleton] at hk; omega
  rcases this with rfl | rfl <;> simp [dot]

/-- `C46`–`C50`, `C53`, `C66`: a call of `solve` that succeeds without removing the constraint; the hypotheses on the points hold by definition. -/
example : ∃ (s s' r : Optimise ℝ) (fuel : Nat) (obj : ℝ), new [dot [1, 2] 1 false (-(1 / 2))] [-1] [0, 0] 0 (1 / 2) false [] = .ok s ∧
    Reached s ∧ reduce fuel s = .ok r ∧ r.nConstraints = 1 ∧ solve (cornerSolver false) fuel s = .ok (s', obj) ∧ s'.timeStep ≠ 0 := by
  have V := demo_valid
  obtain ⟨s, fuel, ⟨s', obj⟩, s0, s1, s2, s3, sc, h1, hs, F, -, h2, S⟩ := demo V false fun s s0 s1 hs R => by
    refine .inr (R.all_stay fun m hm => R.stays hm (.inr ?_))
    subst hs
    have : m = 0 := by simp only [made, List.length_singleton] at hm; omega
    subst this
    exact ⟨-1, rfl, by norm_num⟩
  have hn : s.nConstraints = 1 := by rw [hs]; rfl
  obtain ⟨_, r, _, _, _, hr, _⟩ := solve_facts (.made h1) h2
  obtain ⟨s0', R⟩ := any_ok (reduce_val F.max) hr
  have hall : r.nConstraints = s.nConstraints := R.all_stay fun m hm => R.stays hm (.inr ⟨-1, by
    have : m = 0 := by omega
    subst this
    rw [hs]; rfl, by norm_num⟩)
  refine ⟨s, s', r, fuel, obj, h1, .made h1, hr, by omega, h2, ?_⟩
  obtain ⟨t, t0, t1, -, v1, -⟩ := S.closed.value
  rw [S.closed.step, corner_step S (v1 0 (by omega) (.inr rfl))]
  simp only [Bool.false_eq_true, if_false]
  have hpts : s.points = [dot [1, 2] 1 false (-(1 / 2))] := by rw [hs]; rfl
  have := (peak_limits S.prep.lim (k := 0) (by omega) (F.responds 0 (by omega)) (M := 1) le_rfl
    (by rw [hpts]; intro p hp _; rw [List.mem_singleton] at hp; rw [hp]; simp [dot])
    ⟨_, by rw [hpts]; exact List.mem_singleton.2 rfl, rfl, by simp [dot]⟩).1
  rw [this, hs]
  simp only [made]
  rw [abs_ne_zero]
  have : t ≠ 0 := t0.ne'
  positivity

/-- `C64`: a solver that is honest about the value of the objective. -/
example : let nlopt : Optimise ℝ → NLoptRun ℝ := fun t =>
      ⟨[], fun _ => 0, match callback t ((List.range (t.nConstraints + 1)).map fun _ => 0) false 0 with | .ok r => r.2.2 | .error _ => 0, .code 1⟩
    ∀ t t' g v, callback t ((List.range (t.nConstraints + 1)).map (nlopt t).lambdas) false 0 = .ok (t', g, v) → (nlopt t).objective = v := by
  intro nlopt t t' g v h
  show (match callback t ((List.range (t.nConstraints + 1)).map fun _ => (0 : ℝ)) false 0 with | .ok r => r.2.2 | .error _ => 0) = v
  rw [show callback t ((List.range (t.nConstraints + 1)).map fun _ => (0 : ℝ)) false 0 = .ok (t', g, v) from h]

end Slsm.Optimise
