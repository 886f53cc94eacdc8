import Verif.Proof.OptDemo
import Verif.Spec.Retry

/-! # The loop over attempts in `solve` -/

namespace Slsm.Optimise

variable {s s' t : Optimise ℝ} {nlopt nlopt' : Optimise ℝ → NLoptRun ℝ} {fuel N : Nat} {o : Option ℝ}

/-- How an attempt changes the state. -/
noncomputable def outcome (run : NLoptRun ℝ) (d : List ℝ) (s : Optimise ℝ) : Optimise ℝ :=
  { s with
    displacements := d
    lambdas := (List.range (s.nConstraints + 1)).map run.lambdas
    returnCode := match run.result with | .code c => some c | _ => s.returnCode
    constraintDistancesScaled := match run.result with | .roundoff => s.constraintDistancesScaled.map (· * (7 / 10)) | _ => s.constraintDistancesScaled }

theorem reduce_targets {v : List ℝ} {n : Nat} (h : v.length = n) :
    forN n v (fun i t => modAt t i fun x => pure (x *. FP.lit 7 10)) = .ok (v.map (· * (7 / 10))) := by
  have key := wp_noErr_iff.1 (wp_forN (f := fun i t => modAt t i fun x => (pure (x *. FP.lit 7 10) : Res ℝ)) (E := noErr) (n := n) (s := v)
    (fun k (t : List ℝ) => t.length = n ∧ ∀ i, i < n → t[i]? = if i < k then (v[i]?).map (· * (7 / 10)) else v[i]?)
    ⟨h, fun i hi => by simp⟩ fun k hk t ht => ok_modAt (by omega) fun a ha => ?_)
  · obtain ⟨t, h1, h2, h3⟩ := key
    rw [h1]
    refine congrArg _ (List.ext_getElem? fun i => ?_)
    rcases Nat.lt_or_ge i n with hi | hi
    · rw [h3 i hi, if_pos hi, List.getElem?_map]
    · rw [List.getElem?_eq_none (by omega), List.getElem?_eq_none (by rw [List.length_map]; omega)]
  · refine ⟨by rw [List.length_set]; exact ht.1, fun i hi => ?_⟩
    by_cases hik : i = k
    · subst hik
      have := ht.2 i hi
      rw [if_neg (lt_irrefl _)] at this
      rw [List.getElem?_set_self (by omega), if_pos (by omega), ← this, ha]
      simp [FP.mul_real, FP.lit_real]
    · rw [List.getElem?_set_ne (Ne.symm hik), ht.2 i hi]
      by_cases h' : i < k
      · rw [if_pos h', if_pos (by omega)]
      · rw [if_neg h', if_neg (by omega)]

/-- The callbacks of an attempt change the displacements only. -/
theorem queries_ok (F : Fit s N) (hg : s.gradients.length = s.nConstraints + 1) (run : NLoptRun ℝ) :
    ∃ d, (run.queries.filter fun q => q.2.2 ≤ s.nConstraints).foldlM (init := s) (fun s q => do
      let (s, _, _) ← callback s ((List.range (s.nConstraints + 1)).map q.1) q.2.1 q.2.2
      pure s) = .ok { s with displacements := d } ∧ Fit { s with displacements := d } N := by
  have := wp_noErr_iff.1 (wp_foldlM (E := noErr) (l := run.queries.filter fun q => q.2.2 ≤ s.nConstraints) (s := s) (f := fun s q => do
      let (s, _, _) ← callback s ((List.range (s.nConstraints + 1)).map q.1) q.2.1 q.2.2
      pure s) (fun _ t => Fit t N ∧ ∃ d, t = { s with displacements := d }) ⟨F, _, rfl⟩ fun q b hb t ht => ?_)
  · obtain ⟨t, h1, h2, d, rfl⟩ := this
    exact ⟨d, h1, h2⟩
  · obtain ⟨F', d, rfl⟩ := ht
    rw [wp_bind]
    have hb' : b.2.2 ≤ s.nConstraints := by
      have : b ∈ run.queries.filter fun q => q.2.2 ≤ s.nConstraints := hb.subset (by simp)
      simpa using (List.mem_filter.1 this).2
    refine wp_imp (callback_safe F' hg (by simp) hb') ?_
    rintro ⟨t, g, v⟩ ⟨g1, d', g2⟩
    exact ⟨g1, d', g2⟩

/-- An attempt: it ends the program, or it has the outcome above. -/
theorem attempt_exact (F : Fit s N) (hg : s.gradients.length = s.nConstraints + 1) (nlopt' : Optimise ℝ → NLoptRun ℝ) :
    ∃ d, Fit { s with displacements := d } N ∧ ∀ nlopt : Optimise ℝ → NLoptRun ℝ, (nlopt s).queries = (nlopt' s).queries →
      (nlopt s).result ≠ .other → attempt nlopt s o = .ok (outcome (nlopt s) d s, some (nlopt s).objective) := by
  obtain ⟨d, h1, h2⟩ := queries_ok F hg (nlopt' s)
  refine ⟨d, h2, fun nlopt hq hr => ?_⟩
  unfold attempt
  rw [if_pos F.la]
  dsimp only
  rw [hq, h1]
  simp only [bind, Except.bind]
  unfold outcome
  cases hres : (nlopt s).result with
  | code c => rfl
  | roundoff =>
    dsimp only
    rw [reduce_targets F.ts]
    rfl
  | invalid => rfl
  | other => exact absurd hres hr

/-- A return code, if there is one, is a success. -/
def Unfailed (s : Optimise ℝ) : Prop := ∀ c, s.returnCode = some c → 0 ≤ c

theorem attempt_unfailed (hp : s.nPoints = s.points.length) (hu : Unfailed s) : wp (attempt nlopt s o) (fun r => Unfailed r.1 ∧ 
    (s.returnCode.isSome → r.1.returnCode.isSome)) anyErr := by
  unfold attempt
  refine wp_ite (fun hl => ?_) fun _ => (wp_pure _ _ _).2 ⟨hu, id⟩
  dsimp only
  rw [wp_bind]
  refine wp_imp (wp_foldlM (fun _ t => t.nPoints = t.points.length ∧ t.returnCode = s.returnCode) ⟨hp, rfl⟩ fun q b _ t ht => ?_) fun t ht => ?_
  · rw [wp_bind]
    refine wp_imp (callback_val ht.1) ?_
    rintro ⟨s2, g, v⟩ ⟨⟨h1, h2⟩, -⟩
    rw [wp_pure]
    dsimp only at h1
    rw [h1]
    exact ht
  · cases (nlopt s).result with
    | code c =>
      dsimp only
      rw [wp_pure]
      exact ⟨fun c' h => by cases h; omega, fun _ => rfl⟩
    | roundoff =>
      dsimp only
      rw [wp_bind]
      refine any_of fun u _ => ?_
      rw [wp_pure]
      exact ⟨fun c' h => hu c' (ht.2 ▸ h), fun h => by dsimp only; rw [ht.2]; exact h⟩
    | invalid =>
      dsimp only
      rw [wp_pure]
      exact ⟨fun c' h => hu c' (ht.2 ▸ h), fun h => by dsimp only; rw [ht.2]; exact h⟩
    | other => exact trivial

/-- The loop is left after one attempt. -/
theorem attempts_once (hp : s.nPoints = s.points.length) (hu : Unfailed s) : attempts nlopt (fuel + 1) s o =
    (attempt nlopt s o >>= fun r => if r.1.returnCode.isSome then pure r else .error .ub) := by
  rw [attempts]
  cases h : attempt nlopt s o with
  | error e => rfl
  | ok r =>
    obtain ⟨t, o'⟩ := r
    have h1 := (any_ok (attempt_unfailed hp hu) h).1
    simp only [bind, Except.bind]
    cases hc : t.returnCode with
    | none => simp
    | some c =>
      have := h1 c hc
      dsimp only
      rw [if_neg (by omega)]
      simp

theorem attempt_same (h : nlopt s = nlopt' s) : attempt nlopt s o = attempt nlopt' s o := by
  unfold attempt
  rw [h]

theorem finish_code {r : Optimise ℝ × ℝ} (e : finish s o = .ok r) : r.1.returnCode = s.returnCode := by
  have : wp (finish s o) (fun r => r.1.returnCode = s.returnCode) anyErr := by
    unfold finish
    rw [wp_bind]
    refine any_of fun d _ => ?_
    dsimp only
    rw [wp_bind]
    refine wp_imp (Q := fun r => r.1.returnCode = s.returnCode) ?_ fun x hx => ?_
    · unfold rescaleDisplacements
      rw [wp_bind]
      refine any_of fun m _ => wp_ite (fun _ => (wp_pure _ _ _).2 rfl) fun _ => ?_
      dsimp only
      rw [wp_bind]
      refine any_of fun l _ => ?_
      rw [wp_bind]
      exact any_of fun l _ => (wp_pure _ _ _).2 rfl
    · obtain ⟨t, c⟩ := x
      dsimp only at hx ⊢
      rw [wp_bind]
      refine any_of fun obj _ => ?_
      rw [wp_bind]
      refine any_of fun l _ => ?_
      rw [wp_bind]
      refine any_of fun l0 _ => ?_
      rw [wp_bind]
      refine any_of fun pts _ => ?_
      rw [wp_bind]
      refine wp_imp (Q := fun r => r.returnCode = s.returnCode) ?_ fun x hx => ?_
      · refine wp_ite (fun _ => wp_ite (fun _ => ?_) fun _ => (wp_pure _ _ _).2 hx) fun _ => (wp_pure _ _ _).2 hx
        rw [wp_bind]
        exact any_of fun l _ => (wp_pure _ _ _).2 hx
      · rw [wp_bind]
        exact any_of fun l _ => (wp_pure _ _ _).2 hx
  exact any_ok this e

/-- What `solve` does, for objects a program can hold. -/
theorem solve_once (h : Reached s) : (Unfailed s) ∧ (∀ t, prepare fuel s = .ok t → t.nPoints = t.points.length ∧ t.returnCode = s.returnCode) := by
  have hprep : ∀ (s : Optimise ℝ), Reached s → ∀ (fuel : Nat) t, prepare fuel s = .ok t → t.nPoints = t.points.length ∧ t.returnCode = s.returnCode := by
    intro s hs fuel t ht
    obtain ⟨s0, s1, -, P⟩ := any_ok (prepare_val hs.ok.1) ht
    rw [P.eq]
    dsimp only
    rw [P.rel.pts, P.rel.npts, P.rel.other.2.2.2.2.1, P.lim.eq]
    exact ⟨rfl, rfl⟩
  refine ⟨?_, hprep s h fuel⟩
  induction h with
  | made h =>
    obtain ⟨-, -, rfl⟩ := new_val h
    intro c hc
    cases hc
  | changed h pts lambdas dt ih => exact ih
  | @solved nlopt fuel s r h e ih =>
    unfold solve at e
    rcases hp : prepare fuel s with x | t
    · rw [hp] at e; cases e
    · rw [hp] at e
      simp only [bind, Except.bind] at e
      obtain ⟨p1, p2⟩ := hprep s h fuel t hp
      have hu : Unfailed t := fun c hc => ih c (p2 ▸ hc)
      split at e
      · cases e
      · cases fuel with
        | zero => cases e
        | succ fuel =>
          rw [attempts_once p1 hu] at e
          rcases ha : attempt nlopt t none with x | ⟨t', o'⟩
          · rw [ha] at e; cases e
          · rw [ha] at e
            simp only [bind, Except.bind] at e
            have hu' := (any_ok (attempt_unfailed p1 hu) ha).1
            split at e
            · cases e
            · rename_i v hv
              split at hv
              · cases hv
                have := finish_code e
                intro c hc
                exact hu' c (this ▸ hc)
              · cases hv

/-- `s` with another return code and other targets. -/
def recode (c : Option Int) (v : List ℝ) (s : Optimise ℝ) : Optimise ℝ := { s with returnCode := c, constraintDistancesScaled := v }

theorem bind_map_congr {α β γ : Type} {x x' : Res α} {f : α → Res β} {f' : α → Res γ} {g : γ → β} (hx : x = x')
    (h : ∀ a, f a = (f' a).map g) : (x >>= f) = (x' >>= f').map g := by
  subst hx
  cases x with
  | error e => rfl
  | ok a => exact h a

theorem rescale_recode {c : Option Int} {v : List ℝ} : rescaleDisplacements (recode c v s) =
    (rescaleDisplacements s).map fun r => (recode c v r.1, r.2) := by
  unfold rescaleDisplacements
  refine bind_map_congr rfl fun m => ?_
  split
  · rfl
  · exact bind_map_congr rfl fun l => bind_map_congr rfl fun d => rfl

theorem bind_map_through {α α' β γ : Type} {x : Res α} {x' : Res α'} {f : α → Res β} {f' : α' → Res γ} {g : γ → β} {k : α' → α}
    (hx : x = x'.map k) (h : ∀ a, f (k a) = (f' a).map g) : (x >>= f) = (x' >>= f').map g := by
  subst hx
  cases x' with
  | error e => rfl
  | ok a => exact h a

theorem ite_map {β γ : Type} {p : Prop} {i i' : Decidable p} {a b : Res β} {a' b' : Res γ} {g : γ → β} (ha : a = a'.map g) (hb : b = b'.map g) :
    @ite _ p i a b = (@ite _ p i' a' b').map g := by
  by_cases h : p
  · rw [if_pos h, if_pos h, ha]
  · rw [if_neg h, if_neg h, hb]

theorem finish_recode {c : Option Int} {v : List ℝ} : finish (recode c v s) o = (finish s o).map fun r => (recode c v r.1, r.2) := by
  unfold finish
  refine bind_map_congr rfl fun d => bind_map_through (k := fun r => (recode c v r.1, r.2))
    (rescale_recode (s := { s with displacements := d })) ?_
  rintro ⟨t, sc⟩
  refine bind_map_congr (by cases o <;> rfl) fun x => bind_map_congr rfl fun l => bind_map_congr rfl fun l0 => bind_map_congr rfl fun pts => ?_
  refine bind_map_through (k := recode c v) ?_ fun a => bind_map_congr rfl fun x => rfl
  exact ite_map (ite_map (bind_map_congr rfl fun l => rfl) rfl) rfl

theorem bind_agree {α β : Type} {x : Res α} {f g : α → Res β} (h : ∀ a, x = .ok a → f a = g a) : (x >>= f) = (x >>= g) := by
  cases x with
  | error e => rfl
  | ok a => exact h a rfl

/-- The constraints are handed to the solver. -/
def handOver (t : Optimise ℝ) : Res Unit := forN t.nConstraints () fun i _ => do
  let _ ← rd t.isEquality i
  pure ()

/-- `solve`, for objects a program can hold: the solver is called once. -/
theorem solve_eq (h : Reached s) : solve nlopt (fuel + 1) s = (prepare (fuel + 1) s >>= fun t =>
    handOver t >>= fun _ => attempt nlopt t none >>= fun r => if r.1.returnCode.isSome then finish r.1 r.2 else .error .ub) := by
  unfold solve
  refine bind_agree fun t hp => bind_agree fun _ _ => ?_
  obtain ⟨hu, h2⟩ := solve_once h (fuel := fuel + 1)
  obtain ⟨p1, p2⟩ := h2 t hp
  have hu' : Unfailed t := fun c hc => hu c (p2 ▸ hc)
  rw [attempts_once p1 hu']
  cases attempt nlopt t none with
  | error e => rfl
  | ok r =>
    simp only [bind, Except.bind]
    by_cases hc : r.1.returnCode.isSome
    · rw [if_pos hc, if_pos hc]; rfl
    · rw [if_neg hc, if_neg hc]

theorem solve_code (h : Reached s) {r : Optimise ℝ × ℝ} (e : solve nlopt fuel s = .ok r) : r.1.returnCode.isSome := by
  have key : wp (solve nlopt fuel s) (fun r => r.1.returnCode.isSome) anyErr := by
    cases fuel with
    | zero =>
      unfold solve
      rw [wp_bind]
      refine any_of fun t _ => ?_
      rw [wp_bind]
      refine any_of fun _ _ => ?_
      rw [wp_bind]
      exact trivial
    | succ fuel =>
      rw [solve_eq h, wp_bind]
      refine any_of fun t _ => ?_
      rw [wp_bind]
      refine any_of fun _ _ => ?_
      rw [wp_bind]
      refine any_of fun q _ => wp_ite (fun hq => any_of fun r hr => ?_) fun _ => trivial
      rw [finish_code hr]
      exact hq
  exact any_ok key e

/-- The state in which the solver is called. -/
theorem prepare_ub (V : Fresh s) : ∃ N, ∀ fuel, N ≤ fuel → wp (prepare fuel s) (fun t => Fit t s.nConstraints ∧
    t.gradients.length = t.nConstraints + 1 ∧ t.returnCode = s.returnCode) onlyUb := by
  obtain ⟨N, hN⟩ := reduce_safe V
  refine ⟨N, fun fuel hf => ?_⟩
  obtain ⟨s1, hred, ⟨s0, R⟩, F⟩ := wp_noErr_iff.1 (wp_safe (reduce_val V.max) (hN fuel hf))
  unfold prepare
  rw [wp_bind]
  refine wp_of_eq_ok hred ?_
  dsimp only
  rw [wp_bind]
  refine wp_imp (ub_forN (fun (gs : List (List ℝ)) => gs.length = s1.nConstraints + 1) resize_length fun i gs hgs => ?_) fun gs hgs => ?_
  · rw [wp_bind]
    exact wp_imp computeGradients_ub fun g _ => ub_wr fun _ => by rw [List.length_set]; exact hgs
  · rw [wp_pure]
    refine ⟨⟨F.pts, F.disp, F.idx, F.sf, F.lo, F.hi, F.la, F.cd, F.ts, F.eqs, F.bound, F.zero, F.sens⟩, hgs, ?_⟩
    show s1.returnCode = _
    rw [R.rel.other.2.2.2.2.1, R.lim.eq]

theorem outcome_recode {d : List ℝ} : ∃ c v, outcome (nlopt s) d s = recode c v (outcome (reported nlopt s) d s) := by
  refine ⟨(outcome (nlopt s) d s).returnCode, (outcome (nlopt s) d s).constraintDistancesScaled, ?_⟩
  unfold outcome recode reported
  rfl

/-- If there has been a success before, a failure goes unnoticed. -/
theorem solve_unnoticed (h : Reached s) (V : Fresh s) (hc : s.returnCode.isSome) (hf : Fails nlopt) : ∃ N, ∀ fuel, N ≤ fuel → ∀ y,
    solve (reported nlopt) fuel s = .ok y → ∃ c v, solve nlopt fuel s = .ok (recode c v y.1, y.2) := by
  obtain ⟨N, hN⟩ := prepare_ub V
  refine ⟨N + 1, fun fuel hfu y e => ?_⟩
  obtain ⟨fuel, rfl⟩ : ∃ k, fuel = k + 1 := ⟨fuel - 1, by omega⟩
  rw [solve_eq h] at e ⊢
  have hp := hN (fuel + 1) (by omega)
  cases hpr : prepare (fuel + 1) s with
  | error x => rw [hpr] at e; cases e
  | ok t =>
    rw [hpr] at e hp
    obtain ⟨F, hg, hrc⟩ := (wp_ok _ _ _).1 hp
    simp only [bind, Except.bind] at e ⊢
    cases hfo : handOver t with
    | error x => rw [hfo] at e; cases e
    | ok u =>
      rw [hfo] at e
      dsimp only at e ⊢
      obtain ⟨d, -, hd⟩ := attempt_exact (o := none) F hg nlopt
      have hr1 := hd (reported nlopt) rfl (by simp [reported])
      have hr2 := hd nlopt rfl (by rcases hf t with h | h <;> rw [h] <;> simp)
      rw [hr1] at e
      rw [hr2]
      dsimp only at e ⊢
      rw [if_pos (by simp [outcome, reported])] at e
      have hs2 : (outcome (nlopt t) d t).returnCode = t.returnCode := by
        unfold outcome
        rcases hf t with h | h <;> rw [h]
      rw [if_pos (by rw [hs2, hrc]; exact hc)]
      obtain ⟨c, v, hcv⟩ := outcome_recode (nlopt := nlopt) (s := t) (d := d)
      refine ⟨c, v, ?_⟩
      rw [hcv, finish_recode]
      rw [show (reported nlopt t).objective = (nlopt t).objective from rfl] at e
      rw [e]
      rfl

end Slsm.Optimise
