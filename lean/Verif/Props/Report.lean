import Verif.Spec.OptReport
import Verif.Props.Retry

/-! # C91: the report of the last optimisation -/

namespace Slsm.Optimise

open IO (Text)

variable {pts : List (BoundaryPoint ℝ)} {distances lambdas : List ℝ} {dt limit : ℝ} {isMax : Bool} {equality : List Bool}
  {s s' : Optimise ℝ} {nlopt nlopt' : Optimise ℝ → NLoptRun ℝ} {fuel : Nat} {obj : ℝ}

theorem known (c : Int) (h : -5 ≤ c ∧ c ≤ 6 ∧ c ≠ 0) : c = 1 ∨ c = 2 ∨ c = 3 ∨ c = 4 ∨ c = 5 ∨ c = 6 ∨ c = -1 ∨ c = -2 ∨ c = -3 ∨ c = -4 ∨ c = -5 := by
  omega

theorem report_unknown {c : Int} (h : ¬ (-5 ≤ c ∧ c ≤ 6 ∧ c ≠ 0)) : report c = "[INFO] No optimisation has been performed.\n".toList := by
  unfold report
  iterate 11 rw [if_neg (by omega)]

instance (m : Text) : Decidable (SaysSuccess m) := by unfold SaysSuccess; infer_instance
instance (m : Text) : Decidable (SaysFailure m) := by unfold SaysFailure; infer_instance
instance (m : Text) : Decidable (SaysNothingDone m) := by unfold SaysNothingDone; infer_instance

theorem isLine_of {m : Text} (h : m.getLast? = some '\n' ∧ '\n' ∉ m.dropLast) : IsLine m := by
  refine ⟨m.dropLast, ?_, h.2⟩
  obtain ⟨l, rfl⟩ := List.getLast?_eq_some_iff.1 h.1
  rw [List.dropLast_concat]

/-- **C91** (the text): for every return code the report is one line.  It says success exactly for the six success codes, failure exactly for the five
failure codes, that there was no optimisation for all other codes; it contains the words that identify the code, and different known codes have different
reports. -/
theorem C91_text (c : Int) : IsLine (report c) ∧ (SaysSuccess (report c) ↔ 1 ≤ c ∧ c ≤ 6) ∧ (SaysFailure (report c) ↔ -5 ≤ c ∧ c ≤ -1) ∧
    (SaysNothingDone (report c) ↔ ¬ (-5 ≤ c ∧ c ≤ 6 ∧ c ≠ 0)) ∧ (∀ w, Names c w → w.toList <:+: report c) ∧
    (∀ c', -5 ≤ c ∧ c ≤ 6 ∧ c ≠ 0 → report c = report c' → c = c') := by
  by_cases h : -5 ≤ c ∧ c ≤ 6 ∧ c ≠ 0
  · have key : ∀ c' : Int, (-5 ≤ c' ∧ c' ≤ 6 ∧ c' ≠ 0) ∨ report c' = "[INFO] No optimisation has been performed.\n".toList := fun c' => by
      by_cases h' : -5 ≤ c' ∧ c' ≤ 6 ∧ c' ≠ 0
      · exact .inl h'
      · exact .inr (report_unknown h')
    refine ⟨isLine_of ?_, ?_, ?_, ?_, fun w hw => ?_, fun c' _ he => ?_⟩
    · rcases known c h with rfl | rfl | rfl | rfl | rfl | rfl | rfl | rfl | rfl | rfl | rfl <;> decide
    · rcases known c h with rfl | rfl | rfl | rfl | rfl | rfl | rfl | rfl | rfl | rfl | rfl <;> decide
    · rcases known c h with rfl | rfl | rfl | rfl | rfl | rfl | rfl | rfl | rfl | rfl | rfl <;> decide
    · rcases known c h with rfl | rfl | rfl | rfl | rfl | rfl | rfl | rfl | rfl | rfl | rfl <;> decide
    · cases hw <;> decide
    · rcases key c' with h' | h'
      · rcases known c h with rfl | rfl | rfl | rfl | rfl | rfl | rfl | rfl | rfl | rfl | rfl <;>
          rcases known c' h' with rfl | rfl | rfl | rfl | rfl | rfl | rfl | rfl | rfl | rfl | rfl <;>
          first | rfl | exact absurd he (by decide)
      · rw [h'] at he
        rcases known c h with rfl | rfl | rfl | rfl | rfl | rfl | rfl | rfl | rfl | rfl | rfl <;> exact absurd he (by decide)
  · rw [report_unknown h]
    refine ⟨isLine_of (by decide), ⟨fun h' => absurd h' (by decide), fun h' => by omega⟩, ⟨fun h' => absurd h' (by decide), fun h' => by omega⟩,
      ⟨fun _ => h, fun _ => rfl⟩, fun w hw => ?_, fun c' h' _ => absurd h' h⟩
    cases hw <;> exact absurd (by omega) h

/-- **C91** (negation): before the first call of `solve` the report is not that there was no optimisation; asking for it is undefined behaviour. -/
theorem C91_before_fails (hn : new pts distances lambdas dt limit isMax equality = .ok s) : queryReturnCode s = .error .ub := by
  obtain ⟨-, -, rfl⟩ := new_val hn
  rfl

/-- What `solve` does to the return code. -/
theorem solve_recode (h : Reached s) (e : solve nlopt fuel s = .ok (s', obj)) : ∃ t, prepare fuel s = .ok t ∧
    s'.returnCode = match (nlopt t).result with | .code c => some (c : Int) | _ => s.returnCode := by
  cases fuel with
  | zero =>
    exfalso
    have : wp (solve nlopt 0 s) (fun _ => False) anyErr := by
      unfold solve
      rw [wp_bind]
      refine any_of fun t _ => ?_
      rw [wp_bind]
      refine any_of fun _ _ => ?_
      rw [wp_bind]
      exact trivial
    exact any_ok this e
  | succ fuel =>
    have : wp (solve nlopt (fuel + 1) s) (fun r => ∃ t, prepare (fuel + 1) s = .ok t ∧
        r.1.returnCode = match (nlopt t).result with | .code c => some (c : Int) | _ => s.returnCode) anyErr := by
      rw [solve_eq h, wp_bind]
      refine any_of fun t ht => ?_
      obtain ⟨p1, p2⟩ := (solve_once h (fuel := fuel + 1)).2 t ht
      rw [wp_bind]
      refine any_of fun _ _ => ?_
      rw [wp_bind]
      refine wp_imp (Q := fun q => q.2 = none ∨ q.1.returnCode = match (nlopt t).result with | .code c => some (c : Int) | _ => s.returnCode) ?_ fun q hq => ?_
      · unfold attempt
        refine wp_ite (fun hl => ?_) fun _ => (wp_pure _ _ _).2 (.inl rfl)
        dsimp only
        rw [wp_bind]
        refine wp_imp (wp_foldlM (fun _ u => u.nPoints = u.points.length ∧ u.returnCode = s.returnCode) ⟨p1, p2⟩ fun q b _ u hu => ?_) fun u hu => ?_
        · rw [wp_bind]
          refine wp_imp (callback_val hu.1) ?_
          rintro ⟨s2, g, v⟩ ⟨⟨h1, h2⟩, -⟩
          rw [wp_pure]
          dsimp only at h1
          rw [h1]
          exact hu
        · cases (nlopt t).result with
          | code c => exact (wp_pure _ _ _).2 (.inr rfl)
          | roundoff =>
            dsimp only
            rw [wp_bind]
            exact any_of fun u' _ => (wp_pure _ _ _).2 (.inr hu.2)
          | invalid => exact (wp_pure _ _ _).2 (.inr hu.2)
          | other => exact trivial
      · refine wp_ite (fun _ => any_of fun r hr => ⟨t, ht, ?_⟩) fun _ => trivial
        rcases hq with hq | hq
        · exfalso
          have : wp (finish q.1 q.2) (fun _ => False) anyErr := by
            rw [hq]
            unfold finish
            rw [wp_bind]
            refine any_of fun _ _ => ?_
            dsimp only
            rw [wp_bind]
            refine any_of fun _ _ => ?_
            rw [wp_bind]
            exact trivial
          exact any_ok this hr
        · rw [finish_code hr]
          exact hq
    exact any_ok this e

/-- **C91** (partial: the part that holds): after a call of `solve` in which the solver ended with a code, the report is that of this code, whatever was
done with the object before; it stays so when the program changes the points, multipliers and time step.  Missing: calls in which the solver failed, see
`C91_stale_fails`. -/
theorem C91_after_partial (h : Reached s) (e : solve nlopt fuel s = .ok (s', obj)) {c : Nat} (hc : EndsWith nlopt fuel s c)
    (pts' : List (BoundaryPoint ℝ)) (lambdas' : List ℝ) (dt' : ℝ) :
    queryReturnCode { s' with points := pts', lambdas := lambdas', timeStep := dt' } = .ok (report c) := by
  obtain ⟨t, ht, hr⟩ := solve_recode h e
  rw [hc t ht] at hr
  unfold queryReturnCode
  dsimp only at hr ⊢
  rw [hr]
  rfl

/-- **C91** (negation): after a call of `solve` in which the solver failed, the report is that of the call before. -/
theorem C91_stale (h : Reached s) (e : solve nlopt fuel s = .ok (s', obj)) (hf : FailsFrom nlopt fuel s) : queryReturnCode s' = queryReturnCode s := by
  obtain ⟨t, ht, hr⟩ := solve_recode h e
  unfold queryReturnCode
  rcases hf t ht with h | h <;> rw [h] at hr <;> dsimp only at hr <;> rw [hr]

/-- **C91** (negation): the failure messages are never seen, whatever is done with an object. -/
theorem C91_never_failure (h : Reached s) {m : Text} (hm : queryReturnCode s = .ok m) : ¬ SaysFailure m := by
  have hu := (solve_once h (fuel := 0)).1
  unfold queryReturnCode at hm
  rcases hc : s.returnCode with _ | c
  · rw [hc] at hm; cases hm
  · rw [hc] at hm
    cases hm
    rw [(C91_text c).2.2.1]
    have := hu c hc
    omega

theorem free_valid : ValidInput [dot [1] 1 false (-(1 / 2))] [] [0] (1 / 2) [] := by
  refine ⟨by norm_num, by simp, rfl, .inl rfl, by simp, by simp [dot], fun k hk => ⟨by simp [dot], _, List.mem_singleton.2 rfl, rfl, ?_, by simp [dot]⟩⟩
  have : k = 0 := by simpa using hk
  subst this
  simp [dot]

/-- **C91** (negation): there are programs in which the last call of the solver failed and the report says success: an object used twice, with valid
arguments; the solver succeeds in the first call and fails, because of round-off errors, in the second. -/
theorem C91_stale_fails : ∃ (s s' s'' : Optimise ℝ) (fuel fuel' : Nat) (obj obj' : ℝ) (nlopt nlopt' : Optimise ℝ → NLoptRun ℝ) (m : Text),
    new [dot [1] 1 false (-(1 / 2))] [] [0] 0 (1 / 2) false [] = .ok s ∧ solve nlopt fuel s = .ok (s', obj) ∧ Fails nlopt' ∧
    solve nlopt' fuel' { s' with points := [dot [1] 1 false (-(1 / 2))], lambdas := [0], timeStep := 0 } = .ok (s'', obj') ∧
    queryReturnCode s'' = .ok m ∧ SaysSuccess m := by
  have hn : ∃ s, new [dot [1] 1 false (-(1 / 2))] [] [0] 0 (1 / 2) false [] = .ok s := by
    obtain ⟨s, fuel0, ⟨s1', obj1⟩, s0, s1, s2, s3, sc, h1, -⟩ := demo free_valid false fun s s0 s1 hs R =>
      .inl (R.none_stay fun m hm => by subst hs; simp [made] at hm)
    exact ⟨s, h1⟩
  obtain ⟨s, hn⟩ := hn
  have hf : Fails (fun t => { cornerSolver false t with result := .roundoff }) := fun t => .inl rfl
  obtain ⟨N, hN⟩ := C75_ignored (nlopt := cornerSolver false) free_valid hn hf
  obtain ⟨N0, hN0⟩ := C52_safe_partial (nlopt := cornerSolver false) free_valid hn (fun _ => ⟨1, rfl⟩) (.inl (by simp))
  obtain ⟨⟨s', obj⟩, e⟩ := hN0 (max N N0) (by omega)
  obtain ⟨_, r, _, _, _, hr, S⟩ := solve_facts (.made hn) e
  have hz : ∀ (fuel : Nat) (s r : Optimise ℝ), 0 < s.maxDisplacement → s.nConstraints = 0 → reduce fuel s = .ok r → r.nConstraints = 0 := by
    intro fuel s r hm h0 hr
    obtain ⟨s0', R⟩ := any_ok (reduce_val hm) hr
    exact R.none_stay fun m hm => by omega
  have h0 : s.nConstraints = 0 := by
    obtain ⟨-, -, rfl⟩ := new_val hn
    rfl
  obtain ⟨N', hN'⟩ := hN _ (by omega) r hr (hz _ _ _ (Reached.made hn).ok.1 h0 hr) s' obj e _ _ 0 free_valid
  obtain ⟨r', g1, g2⟩ := hN' N' le_rfl
  have R' : Reached { s' with points := [dot [1] 1 false (-(1 / 2))], lambdas := [0], timeStep := 0 } := .changed (.solved (.made hn) e) _ _ _
  have h0' : s'.nConstraints = 0 := by
    have h1 := S.closed.rest.2.1
    have h2 := S.facts.2.1
    have h3 := S.prep.toReduced.le
    dsimp only at h1
    omega
  obtain ⟨x, -, hx, -⟩ := g2 (.inl (hz _ _ _ R'.ok.1 h0' g1))
  refine ⟨s, s', x.1, _, N', obj, x.2, cornerSolver false, _, report 1, hn, e, hf, hx, ?_, by decide⟩
  rw [C91_stale R' hx fun t _ => hf t]
  exact C91_after_partial (.made hn) e (c := 1) (fun _ _ => rfl) _ _ _

/-- A call of `solve` in which the solver ends with a code, and what is reported after it. -/
example : ∃ (s s' : Optimise ℝ) (fuel : Nat) (obj : ℝ), Reached s ∧ solve (cornerSolver false) fuel s = .ok (s', obj) ∧
    EndsWith (cornerSolver false) fuel s 1 ∧ queryReturnCode s' = .ok "[INFO] Success: Generic success return value.\n".toList := by
  obtain ⟨s, fuel, ⟨s', obj⟩, s0, s1, s2, s3, sc, h1, -, -, -, e, -⟩ := demo free_valid false fun s s0 s1 hs R =>
    .inl (R.none_stay fun m hm => by subst hs; simp [made] at hm)
  exact ⟨s, s', fuel, obj, .made h1, e, fun _ _ => rfl, C91_after_partial (.made h1) e (c := 1) (fun _ _ => rfl) s'.points s'.lambdas s'.timeStep⟩

end Slsm.Optimise
