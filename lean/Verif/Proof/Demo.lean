import Verif.Spec.Demo
import Verif.Proof.ProgramSafe

/-! # Sampling loops -/

namespace Slsm.Program

open LevelSet

theorem whileN_ok {σ : Type} {c : σ → Bool} {f : σ → Res σ} (I : σ → Prop) (hf : ∀ s s', I s → c s = true → f s = .ok s' → I s') :
    ∀ (n : Nat) (s s' : σ), I s → whileN n c f s = .ok s' → I s' ∧ c s' = false := by
  intro n
  induction n with
  | zero =>
    intro s s' hs e
    unfold whileN at e
    split at e
    · cases e
    · rename_i hc
      cases e
      exact ⟨hs, by simpa using hc⟩
  | succ n ih =>
    intro s s' hs e
    unfold whileN at e
    split at e
    · rename_i hc
      rcases h : f s with x | t
      · rw [h] at e; cases e
      · rw [h] at e
        exact ih t s' (hf s t hs hc h) e
    · rename_i hc
      cases e
      exact ⟨hs, by simpa using hc⟩

section
variable {ρ α D : Type} [FP D] {obs : Observe ρ α D}

theorem passive_refl {s s' : State ρ D} (h : s' = s) : ∃ L, AreasOnly s.levelSet L ∧ s' = { s with levelSet := L } := by
  subst h
  exact ⟨_, AreasOnly.refl _, rfl⟩

theorem passive_area : Passive (observeArea : Observe ρ D D) := by
  intro s0 s r s' e
  cases e
  exact passive_refl rfl

theorem passive_constrained : Passive (observeConstrained : Observe ρ (D × D) D) := by
  intro s0 s r s' e
  cases e
  exact passive_refl rfl

theorem bind_eq_ok {β γ : Type} {r : Res β} {f : β → Res γ} {c : γ} (e : (r >>= f) = .ok c) : ∃ b, r = .ok b ∧ f b = .ok c := by
  rcases r with x | b
  · cases e
  · exact ⟨b, rfl, e⟩

/-- A loop that counts its passes: the states it goes through. -/
theorem whileN_trace {σ : Type} {c : σ → Bool} {f : Nat → σ → Res σ} : ∀ (n : Nat) (k : Nat) (s : σ) (m : Nat) (s' : σ),
    whileN n (fun x : Nat × σ => c x.2) (fun x => f x.1 x.2 >>= fun y => pure (x.1 + 1, y)) (k, s) = .ok (m, s') →
    k ≤ m ∧ c s' = false ∧ ∃ t : Nat → σ, t k = s ∧ t m = s' ∧ ∀ i, k ≤ i → i < m → c (t i) = true ∧ f i (t i) = .ok (t (i + 1)) := by
  intro n
  have base : ∀ (k : Nat) (s : σ) (m : Nat) (s' : σ), (Except.ok (k, s) : Res (Nat × σ)) = .ok (m, s') → ¬ c s = true →
      k ≤ m ∧ c s' = false ∧ ∃ t : Nat → σ, t k = s ∧ t m = s' ∧ ∀ i, k ≤ i → i < m → c (t i) = true ∧ f i (t i) = .ok (t (i + 1)) := by
    intro k s m s' e hc
    cases e
    exact ⟨le_refl _, by simpa using hc, fun _ => s, rfl, rfl, fun i h1 h2 => by omega⟩
  induction n with
  | zero =>
    intro k s m s' e
    unfold whileN at e
    split at e
    · cases e
    · rename_i hc
      exact base k s m s' e hc
  | succ n ih =>
    intro k s m s' e
    unfold whileN at e
    split at e
    · rename_i hc
      obtain ⟨x, e1, e2⟩ := bind_eq_ok e
      obtain ⟨y, e3, e4⟩ := bind_eq_ok e1
      cases e4
      obtain ⟨h1, h2, t, h3, h4, h5⟩ := ih _ _ _ _ e2
      refine ⟨by omega, h2, fun i => if i = k then s else t i, by simp, ?_, fun i a b => ?_⟩
      · dsimp only
        rw [if_neg (by omega)]
        exact h4
      · dsimp only
        rw [if_neg (show i + 1 ≠ k by omega)]
        by_cases hi : i = k
        · subst hi
          rw [if_pos rfl, h3]
          exact ⟨hc, e3⟩
        · rw [if_neg hi]
          exact h5 i (by omega) b
    · rename_i hc
      exact base k s m s' e hc

theorem passive_perimeter : Passive (observePerimeter : Observe ρ (D × D) D) := by
  intro s0 s r s' e
  obtain ⟨b, -, e⟩ := bind_eq_ok e
  obtain ⟨c, -, e⟩ := bind_eq_ok e
  cases e
  exact passive_refl rfl

theorem passive_match (A : List D) : Passive (observeMatch A : Observe ρ D D) := by
  intro s0 s r s' e
  obtain ⟨L, h1, e⟩ := bind_eq_ok e
  obtain ⟨c, -, e⟩ := bind_eq_ok e
  cases e
  exact ⟨L, areas_frame h1, rfl⟩

theorem passive_dumbbell (G : Gravity D) (A : List D) : Passive (observeDumbbell G A : Observe ρ (D × D) D) := by
  intro s0 s r s' e
  obtain ⟨b, -, e⟩ := bind_eq_ok e
  obtain ⟨c, -, e⟩ := bind_eq_ok e
  cases e
  exact passive_refl rfl

theorem passive_bimodal (G : Gravity D) (w : D) (A : List D) : Passive (observeBimodal G w A : Observe ρ (D × D × D × D) D) := by
  intro s0 s r s' e
  obtain ⟨b, -, e⟩ := bind_eq_ok e
  obtain ⟨c, -, e⟩ := bind_eq_ok e
  obtain ⟨⟨x, y⟩, -, e⟩ := bind_eq_ok e
  cases e
  exact passive_refl rfl

end

section
variable {ρ α : Type} {obs : Observe ρ α ℝ} {first interval : ℝ} {w h : Nat} {P : Problem ρ ℝ}

theorem due_succ (k : Nat) : due first interval (k + 1) = due first interval k + interval := by
  unfold due
  push_cast
  ring

theorem due_mono (hi : 0 < interval) {j k : Nat} (hjk : j ≤ k) : due first interval j ≤ due first interval k := by
  unfold due
  have : (j : ℝ) ≤ k := by exact_mod_cast hjk
  nlinarith

/-- What holds after some passes of the sampling loop. -/
structure Sampling (w h : Nat) (P : Problem ρ ℝ) (obs : Observe ρ α ℝ) (first interval : ℝ) (s0 s1 : State ρ ℝ) (l0 : Log α ℝ)
    (x : State ρ ℝ × Log α ℝ) : Prop where
  run : Running w h P x.1
  time : x.1.runningTime = s1.runningTime
  boundary : x.1.boundary = s1.boundary
  values : x.1.levelSet.signedDistance = s1.levelSet.signedDistance
  next : x.2.nextSample = due first interval x.2.times.length
  late : ∀ k, k < x.2.times.length → due first interval k ≤ s1.runningTime
  length : x.2.records.length = x.2.times.length
  log : ∃ m rs, x.2.times = l0.times ++ List.replicate m s1.runningTime ∧ x.2.records = l0.records ++ rs ∧ ∀ r ∈ rs, ∃ s s', Running w h P s ∧
    s.runningTime = s1.runningTime ∧ s.boundary = s1.boundary ∧ s.levelSet.signedDistance = s1.levelSet.signedDistance ∧ obs s0 s = .ok (r, s')

theorem sampling_step (ho : Passive obs) {s0 s1 : State ρ ℝ} {l0 : Log α ℝ} {x x' : State ρ ℝ × Log α ℝ}
    (S : Sampling w h P obs first interval s0 s1 l0 x) (hc : FP.le x.2.nextSample x.1.runningTime = true)
    (e : (obs s0 x.1 >>= fun (r, s) => pure (s, { nextSample := FP.add x.2.nextSample interval, times := x.2.times ++ [s.runningTime], records := x.2.records ++ [r] })) = Except.ok (ε := Err) x') : Sampling w h P obs first interval s0 s1 l0 x' := by
  obtain ⟨⟨r, s⟩, h1, h2⟩ := bind_eq_ok e
  cases h2
  obtain ⟨L, hA, rfl⟩ := ho _ _ _ _ h1
  obtain ⟨m, rs, t1, t2, t3⟩ := S.log
  have hc' : due first interval x.2.times.length ≤ s1.runningTime := by
    rw [← S.next, ← S.time]
    simpa using hc
  refine ⟨.annotate S.run hA, S.time, S.boundary, ?_, ?_, fun k hk => ?_, ?_, m + 1, rs ++ [r], ?_, ?_, fun q hq => ?_⟩
  · rw [hA.eq]; exact S.values
  · rw [List.length_append, List.length_singleton, due_succ, FP.add_real, S.next]
  · rw [List.length_append, List.length_singleton] at hk
    rcases Nat.lt_succ_iff_lt_or_eq.1 hk with hk | rfl
    · exact S.late k hk
    · exact hc'
  · simp [S.length]
  · show x.2.times ++ [x.1.runningTime] = _
    rw [S.time, t1, List.append_assoc, List.replicate_succ']
  · rw [t2, List.append_assoc]
  · rcases List.mem_append.1 hq with hq | hq
    · exact t3 q hq
    · rw [List.mem_singleton] at hq
      subst hq
      exact ⟨x.1, _, S.run, S.time, S.boundary, S.values, h1⟩

/-- The sampling loop. -/
theorem sample_spec (hi : 0 < interval) (ho : Passive obs) {s0 s1 : State ρ ℝ} {l0 : Log α ℝ} {fuel : Nat} {t0 : ℝ} (ht : t0 ≤ s1.runningTime)
    (hr : Running w h P s1) (hS : Sampled first interval t0 l0) {x' : State ρ ℝ × Log α ℝ}
    (e : sample obs interval fuel s0 (s1, l0) = .ok x') : Sampling w h P obs first interval s0 s1 l0 x' ∧
      Sampled first interval x'.1.runningTime x'.2 := by
  have S0 : Sampling w h P obs first interval s0 s1 l0 (s1, l0) :=
    ⟨hr, rfl, rfl, rfl, hS.next, fun k hk => ((hS.reached k).1 hk).trans ht, hS.records, 0, [], by simp, by simp, by simp⟩
  obtain ⟨S, hc⟩ := whileN_ok (Sampling w h P obs first interval s0 s1 l0) (fun x y S hc e => sampling_step ho S hc e) fuel (s1, l0) x' S0 e
  refine ⟨S, ?_⟩
  have hc' : s1.runningTime < due first interval x'.2.times.length := by
    rw [← S.next, ← S.time]
    simpa using hc
  obtain ⟨m, rs, t1, t2, t3⟩ := S.log
  refine ⟨S.next, fun k => ⟨fun hk => ?_, fun hk => ?_⟩, fun k u hu => ?_, ?_, S.length⟩
  · rw [S.time]; exact S.late k hk
  · by_contra hcon
    have := due_mono (first := first) hi (not_lt.1 hcon)
    rw [S.time] at hk
    linarith
  · have hk : k < x'.2.times.length := (List.getElem?_eq_some_iff.1 hu).1
    rw [S.time]
    rw [t1, List.getElem?_append] at hu
    split at hu
    · obtain ⟨a, b⟩ := hS.times k u hu
      exact ⟨a, b.trans ht⟩
    · rw [List.getElem?_replicate] at hu
      split at hu
      · cases hu
        exact ⟨S.late k hk, le_rfl⟩
      · cases hu
  · rw [t1, List.pairwise_append]
    refine ⟨hS.sorted, ?_, fun a ha b hb => ?_⟩
    · rw [List.pairwise_replicate]; exact .inr le_rfl
    · rw [List.eq_of_mem_replicate hb]
      obtain ⟨k, hk⟩ := List.mem_iff_getElem?.1 ha
      exact (hS.times k a hk).2.trans ht

end

end Slsm.Program
