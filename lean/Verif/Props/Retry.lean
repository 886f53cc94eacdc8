import Verif.Proof.OptRetry
import Verif.Props.Optimise

/-! # C75: failures of the solver -/

namespace Slsm.Optimise

variable {pts : List (BoundaryPoint ℝ)} {distances lambdas : List ℝ} {dt limit : ℝ} {isMax : Bool} {equality : List Bool}
  {s s' : Optimise ℝ} {nlopt nlopt' : Optimise ℝ → NLoptRun ℝ} {fuel : Nat} {obj : ℝ}

/-- **C75** (negation): whatever happens in the solver, `solve` never calls it again: the outcome is settled by the answer to the first call. -/
theorem C75_never_retries (h : Reached s) (hn : ∀ t, prepare fuel s = .ok t → nlopt t = nlopt' t) : solve nlopt fuel s = solve nlopt' fuel s := by
  cases fuel with
  | zero => rfl
  | succ fuel =>
    rw [solve_eq h, solve_eq h]
    refine bind_agree fun t ht => bind_agree fun _ _ => ?_
    rw [attempt_same (hn t ht)]

/-- **C75** (negation): if the solver fails in the first call of `solve`, the behaviour is undefined: the return code tested at the end of the
loop has never been set. -/
theorem C75_fails (V : ValidInput pts distances lambdas limit equality) (hn : new pts distances lambdas dt limit isMax equality = .ok s)
    (hf : Fails nlopt) : ∃ N, ∀ fuel, N ≤ fuel → solve nlopt fuel s = .error .ub := by
  obtain ⟨N, hN⟩ := prepare_ub (fresh V hn)
  refine ⟨N + 1, fun fuel hfu => ?_⟩
  obtain ⟨fuel, rfl⟩ : ∃ k, fuel = k + 1 := ⟨fuel - 1, by omega⟩
  have hnone : s.returnCode = none := by
    obtain ⟨-, -, rfl⟩ := new_val hn
    rfl
  have key : wp (solve nlopt (fuel + 1) s) (fun _ => False) onlyUb := by
    rw [solve_eq (.made hn), wp_bind]
    refine wp_imp (hN (fuel + 1) (by omega)) ?_
    rintro t ⟨F, hg, hrc⟩
    rw [wp_bind]
    refine wp_imp (Q := fun _ => True) ?_ fun _ _ => ?_
    · unfold handOver
      refine ub_forN (fun _ => True) trivial fun i _ _ => ?_
      rw [wp_bind]
      exact ub_rd fun _ _ => trivial
    · obtain ⟨d, -, hd⟩ := attempt_exact (o := none) F hg nlopt
      rw [hd nlopt rfl (by rcases hf t with h | h <;> rw [h] <;> simp), wp_bind, wp_ok]
      have : (outcome (nlopt t) d t).returnCode = none := by
        unfold outcome
        rcases hf t with h | h <;> rw [h] <;> exact hrc.trans hnone
      rw [if_neg (by rw [this]; simp)]
      exact rfl
  rcases wp_iff.1 key with ⟨r, -, hr⟩ | ⟨e, he, rfl⟩
  · exact hr.elim
  · exact he

/-- **C75** (negation): if an object has been used before, with success, a failure of the solver in a later call of `solve` goes unnoticed: points,
multipliers, time step and objective are the same as if the solver had reported the point it stopped at as the solution.  (For an object of which
no constraint was removed, with new points and multipliers.) -/
theorem C75_ignored (V : ValidInput pts distances lambdas limit equality) (hn : new pts distances lambdas dt limit isMax equality = .ok s)
    (hf : Fails nlopt') : ∃ N, ∀ fuel, N ≤ fuel → ∀ r, reduce fuel s = .ok r → r.nConstraints = distances.length → ∀ s' obj,
      solve nlopt fuel s = .ok (s', obj) → ∀ pts' lambdas' dt', ValidInput pts' distances lambdas' limit equality →
        ∃ N', ∀ fuel', N' ≤ fuel' → ∃ r', reduce fuel' { s' with points := pts', lambdas := lambdas', timeStep := dt' } = .ok r' ∧
          (r'.nConstraints = 0 ∨ r'.nConstraints = distances.length → ∃ x y,
            solve nlopt' fuel' { s' with points := pts', lambdas := lambdas', timeStep := dt' } = .ok x ∧
            solve (reported nlopt') fuel' { s' with points := pts', lambdas := lambdas', timeStep := dt' } = .ok y ∧
            x.1.points = y.1.points ∧ x.1.lambdas = y.1.lambdas ∧ x.1.timeStep = y.1.timeStep ∧ x.2 = y.2) := by
  have F := fresh V hn
  obtain ⟨N, hN⟩ := reduce_safe F
  obtain ⟨N1, hN1⟩ := C52_reuse (nlopt := nlopt) (nlopt' := reported nlopt') V hn fun t => ⟨1, rfl⟩
  refine ⟨max N N1, fun fuel hfu r hr hrn s' obj e pts' lambdas' dt' V' => ?_⟩
  obtain ⟨N', hN'⟩ := hN1 fuel (by omega) r hr hrn s' obj e pts' lambdas' dt' V'
  obtain ⟨s0, s1, s2, s3, sc, h1, S⟩ := solve_facts (.made hn) e
  rw [h1] at hr
  cases hr
  obtain ⟨t, ht1, Ft⟩ := wp_noErr_iff.1 (hN fuel (by omega))
  rw [h1] at ht1
  cases ht1
  obtain ⟨-, -, hs⟩ := new_val hn
  have hnc : s.nConstraints = distances.length := by rw [hs]; rfl
  have F' : Fresh { s' with points := pts', lambdas := lambdas', timeStep := dt' } :=
    S.fresh F Ft (by rw [hrn, hnc]) (by rw [hnc]; exact V'.sizes) (by rw [hnc]; exact V'.responds) (by rw [hnc]; exact V'.lambdas)
  have hcode := solve_code (.made hn) e
  obtain ⟨N2, hN2⟩ := solve_unnoticed (.changed (.solved (.made hn) e) pts' lambdas' dt') F' (by exact hcode) hf
  refine ⟨max N' N2, fun fuel' hf' => ?_⟩
  obtain ⟨r', g1, g2⟩ := hN' fuel' (by omega)
  refine ⟨r', g1, fun hc => ?_⟩
  obtain ⟨y, hy⟩ := g2.2 hc
  obtain ⟨c, v, hx⟩ := hN2 fuel' (by omega) y hy
  exact ⟨_, y, hx, hy, rfl, rfl, rfl, rfl⟩

/-- **C75** (partial: the part that holds): when the solver stops because of round-off errors, the targets of the constraints are reduced to 70%, and
nothing else is changed except what the solver stores.  Missing: another attempt, see `C75_never_retries`. -/
theorem C75_reduced_partial (V : ValidInput pts distances lambdas limit equality) (hn : new pts distances lambdas dt limit isMax equality = .ok s) :
    ∃ N, ∀ fuel, N ≤ fuel → ∀ t, prepare fuel s = .ok t → (nlopt t).result = .roundoff → ∃ d, attempt nlopt t none = .ok ({ t with
      displacements := d, lambdas := (List.range (t.nConstraints + 1)).map (nlopt t).lambdas,
      constraintDistancesScaled := t.constraintDistancesScaled.map (· * (7 / 10)) }, some (nlopt t).objective) := by
  obtain ⟨N, hN⟩ := prepare_ub (fresh V hn)
  refine ⟨N, fun fuel hfu t ht hr => ?_⟩
  have := hN fuel hfu
  rw [ht, wp_ok] at this
  obtain ⟨d, -, hd⟩ := attempt_exact (o := none) this.1 this.2.1 nlopt
  refine ⟨d, ?_⟩
  rw [hd nlopt rfl (by rw [hr]; simp)]
  unfold outcome
  rw [hr]

/-- A solver that fails, valid arguments, and an object used before with success. -/
example : Fails (fun t => { cornerSolver false t with result := .roundoff }) ∧
    ValidInput [dot [1, 2] 1 false (-(1 / 2))] [-1] [0, 0] (1 / 2) [] ∧
    ∃ (s s' r : Optimise ℝ) (fuel : Nat) (obj : ℝ), new [dot [1, 2] 1 false (-(1 / 2))] [-1] [0, 0] 0 (1 / 2) false [] = .ok s ∧
      reduce fuel s = .ok r ∧ r.nConstraints = 1 ∧ solve (cornerSolver false) fuel s = .ok (s', obj) := by
  refine ⟨fun t => .inl rfl, demo_valid, ?_⟩
  obtain ⟨s, fuel, ⟨s', obj⟩, s0, s1, s2, s3, sc, h1, hs, F, -, h2, S⟩ := demo demo_valid false fun s s0 s1 hs R => by
    refine .inr (R.all_stay fun m hm => R.stays hm (.inr ?_))
    subst hs
    have : m = 0 := by simp only [made, List.length_singleton] at hm; omega
    subst this
    exact ⟨-1, rfl, by norm_num⟩
  have hn : s.nConstraints = 1 := by rw [hs]; rfl
  obtain ⟨_, r, _, _, _, hr, _⟩ := solve_facts (.made h1) h2
  obtain ⟨s0', R⟩ := any_ok (reduce_val F.max) hr
  have hall : r.nConstraints = s.nConstraints := R.all_stay fun m hm => R.stays hm (.inr ⟨-1, by
    have : m = 0 := by omega
    subst this
    rw [hs]
    rfl, by norm_num⟩)
  exact ⟨s, s', r, fuel, obj, h1, hr, by rw [hall, hn], h2⟩

end Slsm.Optimise
