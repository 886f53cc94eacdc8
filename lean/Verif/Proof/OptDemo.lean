import Verif.Proof.OptSpec

/-! Concrete optimisation problems. -/

namespace Slsm.Optimise

/-- A boundary point with given sensitivities, length, flag for the edge of the domain and side limit. -/
noncomputable def dot (sens : List ℝ) (len : ℝ) (dom : Bool) (lim : ℝ) : BoundaryPoint ℝ where
  coord := ⟨0, 0⟩
  normal := ⟨1, 0⟩
  length := len
  velocity := 0
  negativeLimit := lim
  positiveLimit := 1 / 2
  isDomain := dom
  isFixed := false
  nSegments := 0
  segments := []
  nNeighbours := 0
  neighbours := []
  sensitivities := sens

/-- A solver that asks nothing and answers with the lower or upper corner of the search box. -/
def cornerSolver (up : Bool) (t : Optimise ℝ) : NLoptRun ℝ :=
  ⟨[], fun k => (if up then t.positiveLambdaLimits else t.negativeLambdaLimits).getD k 0, 0, .code 1⟩

variable {s s0 s1 s2 s3 sc : Optimise ℝ} {r : Optimise ℝ × ℝ}

/-- `new` and `solve` for valid arguments, when all or none of the constraints are removed. -/
theorem demo_with {pts : List (BoundaryPoint ℝ)} {distances lambdas : List ℝ} {limit : ℝ} {equality : List Bool}
    (V : ValidInput pts distances lambdas limit equality) {nlopt : Optimise ℝ → NLoptRun ℝ} (hc : ∀ t, ∃ c, (nlopt t).result = .code c) (K : Nat)
    (hn : ∀ s s0 s1, s = made pts distances lambdas 0 limit false equality distances.length → Reduced s s0 s1 →
      s1.nConstraints = 0 ∨ s1.nConstraints = s.nConstraints) :
    ∃ s fuel r s0 s1 s2 s3 sc, K ≤ fuel ∧ new pts distances lambdas 0 limit false equality = .ok s ∧
      s = made pts distances lambdas 0 limit false equality distances.length ∧ Fresh s ∧ Fit s1 s.nConstraints ∧
      solve nlopt fuel s = .ok r ∧ Solved nlopt s s0 s1 s2 s3 sc r := by
  have hl := V.lambdas
  have hfew := V.few
  obtain ⟨s, hs⟩ := (new_iff (pts := pts) (dt := 0) (isMax := false) (equality := equality) (by omega) (by omega)).2
    ⟨V.limit.1, V.limit.2, V.points, V.lambdas⟩
  obtain ⟨-, -, rfl⟩ := new_val hs
  have F := fresh V hs
  obtain ⟨N, hN⟩ := solve_exact F (nlopt := nlopt) hc
  obtain ⟨N', hN'⟩ := reduce_safe F
  obtain ⟨s1, h1, h2, h3, h4⟩ := hN (max K (max N N')) (le_trans (le_max_left _ _) (le_max_right _ _))
  obtain ⟨t, ht1, Ft⟩ := wp_noErr_iff.1 (hN' (max K (max N N')) (le_trans (le_max_right _ _) (le_max_right _ _)))
  rw [h1] at ht1
  cases ht1
  obtain ⟨s0, R⟩ := any_ok (reduce_val F.max) h1
  obtain ⟨r, hr⟩ := h3 (hn _ _ _ rfl R)
  obtain ⟨s0', s1', s2, s3, sc, h1', S⟩ := solve_facts (.made hs) hr
  rw [h1] at h1'
  cases h1'
  exact ⟨_, _, r, s0', s1, s2, s3, sc, le_max_left _ _, hs, rfl, F, Ft, hr, S⟩

theorem demo {pts : List (BoundaryPoint ℝ)} {distances lambdas : List ℝ} {limit : ℝ} {equality : List Bool}
    (V : ValidInput pts distances lambdas limit equality) (up : Bool)
    (hn : ∀ s s0 s1, s = made pts distances lambdas 0 limit false equality distances.length → Reduced s s0 s1 →
      s1.nConstraints = 0 ∨ s1.nConstraints = s.nConstraints) :
    ∃ s fuel r s0 s1 s2 s3 sc, new pts distances lambdas 0 limit false equality = .ok s ∧
      s = made pts distances lambdas 0 limit false equality distances.length ∧ Fresh s ∧ Fit s1 s.nConstraints ∧
      solve (cornerSolver up) fuel s = .ok r ∧ Solved (cornerSolver up) s s0 s1 s2 s3 sc r := by
  obtain ⟨s, fuel, r, s0, s1, s2, s3, sc, -, h⟩ := demo_with V (nlopt := cornerSolver up) (fun _ => ⟨1, rfl⟩) 0 hn
  exact ⟨s, fuel, r, s0, s1, s2, s3, sc, h⟩

/-- A solver that asks nothing and answers with a fraction of the lower corner of the search box. -/
def shortSolver (ε : ℝ) (t : Optimise ℝ) : NLoptRun ℝ := ⟨[], fun k => ε * t.negativeLambdaLimits.getD k 0, 0, .code 1⟩

/-- Points with sensitivity one, no constraint, and such a solver. -/
theorem short_step {ε : ℝ} (hε : 0 < ε) (F : Fresh s) (hn : s.nConstraints = 0) (hmax : 0 < s.maxDisplacement)
    (S : Solved (shortSolver ε) s s0 s1 s2 s3 sc r) (h1 : ∀ p ∈ s.points, p.sensitivities.getD 0 0 = 1) :
    r.1.lambdas.getD 0 0 < 0 ∧ |r.1.lambdas.getD 0 0| ≤ ε * s.maxDisplacement := by
  have hlim : s0.scaleFactors.getD 0 0 * s0.negativeLambdaLimits.getD 0 0 = -s.maxDisplacement := by
    obtain ⟨-, p, hp, hpf, -, -⟩ := F.responds 0 (by omega)
    have := (peak_limits S.prep.lim (k := 0) (by omega) (F.responds 0 (by omega)) (M := 1) le_rfl
      (fun p hp hf => by rw [h1 p hp, abs_one]) ⟨p, hp, hpf, by rw [h1 p hp, abs_one]⟩).1
    rw [this, div_one]
  obtain ⟨f1, f2, f3, f4, f5, f6, f7⟩ := S.facts
  obtain ⟨t, t0, t1, -, v1, -⟩ := S.closed.value
  have e0 : s3.lambdas.getD 0 0 = ε * s0.negativeLambdaLimits.getD 0 0 := by
    rw [S.answer, List.getD, List.getElem?_map, List.getElem?_range (by omega)]
    show ε * sc.negativeLambdaLimits.getD 0 0 = _
    rw [(S.limits S.prep.rel.zero).1]
  have e1 : s3.scaleFactors.getD 0 0 = s0.scaleFactors.getD 0 0 := by
    rw [f5]
    obtain ⟨-, ⟨x, a1, a2⟩, -⟩ := S.prep.rel.full 0 0 S.prep.rel.zero
    rw [getD_of a1, getD_of a2]
  have : r.1.lambdas.getD 0 0 = -(ε * s.maxDisplacement * t) := by
    rw [v1 0 (by omega) (.inr rfl), e0, e1]
    linear_combination ε * t * hlim
  have hp : 0 < ε * s.maxDisplacement := mul_pos hε hmax
  rw [this]
  refine ⟨by nlinarith, ?_⟩
  rw [abs_neg, abs_of_pos (mul_pos hp t0)]
  nlinarith

theorem corner_raw {up : Bool} (S : Solved (cornerSolver up) s s0 s1 s2 s3 sc r) (p : BoundaryPoint ℝ) :
    raw s3 s3.lambdas p = lin s0 s1.indexMap (fun m => (if up then s0.positiveLambdaLimits else s0.negativeLambdaLimits).getD m 0) p :=
  S.answer_raw (fun j m hj => by cases up; exact (S.limits hj).1; exact (S.limits hj).2) p

theorem corner_first {up : Bool} (S : Solved (cornerSolver up) s s0 s1 s2 s3 sc r) :
    s3.lambdas.getD 0 0 * s3.scaleFactors.getD 0 0 =
      s0.scaleFactors.getD 0 0 * (if up then s0.positiveLambdaLimits else s0.negativeLambdaLimits).getD 0 0 := by
  obtain ⟨f1, f2, f3, f4, f5, f6, f7⟩ := S.facts
  have e0 : s3.lambdas.getD 0 0 = (if up then s0.positiveLambdaLimits else s0.negativeLambdaLimits).getD 0 0 := by
    rw [S.answer, List.getD, List.getElem?_map, List.getElem?_range (by omega)]
    have := S.limits S.prep.rel.zero
    cases up
    · exact this.1
    · exact this.2
  have e1 : s1.scaleFactors.getD 0 0 = s0.scaleFactors.getD 0 0 := by
    obtain ⟨-, ⟨x, a1, a2⟩, -⟩ := S.prep.rel.full 0 0 S.prep.rel.zero
    rw [getD_of a1, getD_of a2]
  rw [e0, f5, e1, mul_comm]

theorem corner_step {up : Bool} (S : Solved (cornerSolver up) s s0 s1 s2 s3 sc r) {t : ℝ} (h : r.1.lambdas.getD 0 0 = s3.lambdas.getD 0 0 * t * s3.scaleFactors.getD 0 0) :
    r.1.lambdas.getD 0 0 = s0.scaleFactors.getD 0 0 * (if up then s0.positiveLambdaLimits else s0.negativeLambdaLimits).getD 0 0 * t := by
  rw [h, ← corner_first S]
  ring

/-- One point with sensitivity one, no constraint, and a solver that answers with the lower end of the search interval. -/
theorem one_point {s s0 s1 s2 s3 sc : Optimise ℝ} {r : Optimise ℝ × ℝ} (F : Fresh s) (hn : s.nConstraints = 0)
    (hmax : s.maxDisplacement = 1 / 2) (S : Solved (cornerSolver false) s s0 s1 s2 s3 sc r)
    (h1 : ∀ p ∈ s.points, p.isFixed = false → p.isDomain = false ∧ p.sensitivities.getD 0 0 = 1) :
    r.1.timeStep = 1 / 2 ∧ ∀ (i : Nat) (p : BoundaryPoint ℝ), s.points[i]? = some p → p.isFixed = false →
      ∃ q, r.1.points[i]? = some q ∧ q.velocity * r.1.timeStep = -(1 / 2) := by
  have hidx : s1.indexMap = [0] := by
    have h0 : s1.nConstraints = 0 := S.prep.toReduced.none_stay fun m hm => by omega
    rw [S.prep.rel.ident (by rw [S.prep.lim.facts.2.2.1]; omega), h0]; rfl
  have hlim : s0.scaleFactors.getD 0 0 * s0.negativeLambdaLimits.getD 0 0 = -(1 / 2) := by
    obtain ⟨-, p, hp, hpf, -, -⟩ := F.responds 0 (by omega)
    have := (peak_limits S.prep.lim (k := 0) (by omega) (F.responds 0 (by omega)) (M := 1) le_rfl
      (fun p hp hf => by rw [(h1 p hp hf).2, abs_one]) ⟨p, hp, hpf, by rw [(h1 p hp hpf).2, abs_one]⟩).1
    rw [this, hmax]; norm_num
  have hraw : ∀ p : BoundaryPoint ℝ, p ∈ s.points → p.isFixed = false → raw s3 s3.lambdas p = -(1 / 2) := by
    intro p hp hf
    rw [corner_raw S, lin, hidx]
    simp only [Bool.false_eq_true, if_false, List.map_cons, List.map_nil, List.sum_cons, List.sum_nil, hlim, (h1 p hp hf).2]
    norm_num
  have hcap : ∀ (p : BoundaryPoint ℝ) (d : ℝ), p ∈ s.points → p.isFixed = false → capped p d = d := by
    intro p d hp hf
    unfold capped
    rw [(h1 p hp hf).1]
    rfl
  obtain ⟨f1, f2, f3, f4, f5, f6, f7⟩ := S.facts
  obtain ⟨t, t0, t1, -, v1, v2, -, v3⟩ := S.closed.value
  have ht : t = 1 := v2 fun i p hp hf => by
    rw [f4] at hp
    have hm := List.mem_of_getElem? hp
    rw [hcap p _ hm hf, hraw p hm hf, f1, hmax]
    norm_num
  subst ht
  have hstep : r.1.timeStep = 1 / 2 := by
    rw [S.closed.step, corner_step S (v1 0 (by omega) (.inr rfl))]
    simp only [Bool.false_eq_true, if_false]
    rw [hlim]
    norm_num
  refine ⟨hstep, fun i p hp hf => ?_⟩
  obtain ⟨d, g1, -, g2, -⟩ := S.point hp
  have hm := List.mem_of_getElem? hp
  refine ⟨_, g1, ?_⟩
  dsimp only
  rw [div_mul_cancel₀ _ (by rw [hstep]; norm_num), (g2 hf).1, hcap p _ hm hf, v3, hraw p hm hf, mul_one]

theorem one_point_valid : ValidInput [dot [1] 1 false (-(1 / 10))] [] [0] (1 / 2) [] := by
  refine ⟨by norm_num, by simp, rfl, .inl rfl, by simp, by simp [dot], fun k hk => ⟨by simp [dot], _, List.mem_singleton.2 rfl, rfl, ?_, by simp [dot]⟩⟩
  have : k = 0 := by simpa using hk
  subst this
  simp [dot]

end Slsm.Optimise
