import Verif.Proof.OptRel

/-! The first part of `solve`: scale factors, limits, gradients. -/

namespace Slsm.Optimise

open FP

variable {s s0 s' : Optimise ℝ}

/-- `m` bounds the sensitivities of the movable points to function `k`, and is attained unless it is `m0`. -/
structure Peak (pts : List (BoundaryPoint ℝ)) (n k : Nat) (m0 m : ℝ) : Prop where
  ge : m0 ≤ m
  bound : ∀ (j : Nat) (p : BoundaryPoint ℝ), j < n → pts[j]? = some p → p.isFixed = false → ∃ c, p.sensitivities[k]? = some c ∧ |c| ≤ m
  attained : m = m0 ∨ ∃ (j : Nat) (p : BoundaryPoint ℝ) (c : ℝ), j < n ∧ pts[j]? = some p ∧ p.isFixed = false ∧ p.sensitivities[k]? = some c ∧ |c| = m

theorem maxSensitivity_val {pts : List (BoundaryPoint ℝ)} {n k : Nat} {m0 : ℝ} : wp (maxSensitivity pts n k m0) (Peak pts n k m0) anyErr := by
  unfold maxSensitivity
  refine wp_forN (fun i m => Peak pts i k m0 m) ⟨le_rfl, fun j _ hj => absurd hj (Nat.not_lt_zero j), .inl rfl⟩ ?_
  intro i hi m P
  rw [wp_bind]
  refine any_rd fun p hp => ?_
  have at' : ∀ m', m = m' → m' = m0 ∨ ∃ (j : Nat) (q : BoundaryPoint ℝ) (c : ℝ), j < i + 1 ∧ pts[j]? = some q ∧ q.isFixed = false ∧ q.sensitivities[k]? = some c ∧ |c| = m' := by
    rintro m' rfl
    exact P.attained.imp_right fun ⟨j, q, c, h1, h2⟩ => ⟨j, q, c, by omega, h2⟩
  refine wp_ite (fun hf => ?_) (fun hf => ?_)
  · rw [wp_pure]
    refine ⟨P.ge, fun j q hj hq hqf => ?_, at' m rfl⟩
    by_cases hji : j = i
    · subst hji
      rw [hp] at hq
      cases hq
      rw [hf] at hqf
      cases hqf
    · exact P.bound j q (by omega) hq hqf
  · rw [wp_bind]
    refine any_rd fun c hc => ?_
    rw [wp_pure]
    have hf' : p.isFixed = false := by simpa using hf
    by_cases hlt : m < |c|
    · rw [if_pos (by simpa using hlt)]
      refine ⟨P.ge.trans hlt.le, fun j q hj hq hqf => ?_, .inr ⟨i, p, c, by omega, hp, hf', hc, rfl⟩⟩
      by_cases hji : j = i
      · subst hji
        rw [hp] at hq
        cases hq
        exact ⟨c, hc, le_rfl⟩
      · obtain ⟨c', h1, h2⟩ := P.bound j q (by omega) hq hqf
        exact ⟨c', h1, h2.trans hlt.le⟩
    · rw [if_neg (by simpa using hlt)]
      refine ⟨P.ge, fun j q hj hq hqf => ?_, at' m rfl⟩
      by_cases hji : j = i
      · subst hji
        rw [hp] at hq
        cases hq
        exact ⟨c, hc, not_lt.1 hlt⟩
      · exact P.bound j q (by omega) hq hqf

/-! ### gradients -/

/-- Entry `j` of the gradient of function `i`. -/
noncomputable def gradEntry (s : Optimise ℝ) (i j : Nat) : ℝ :=
  ∑ a ∈ Finset.range s.nPoints, (s.points[a]?).elim 0 fun p => if p.isFixed then 0 else
    p.sensitivities.getD i 0 * p.sensitivities.getD j 0 * p.length * (s.scaleFactors.getD i 0 * s.scaleFactors.getD j 0)

theorem gradients_len {g : List ℝ} {i : Nat} : wp (computeGradients s g i) (fun g' => g'.length = g.length) anyErr := by
  unfold computeGradients
  rw [wp_bind]
  refine any_wr fun _ => ?_
  rw [wp_bind]
  refine wp_imp (wp_forN (fun _ (g' : List ℝ) => g'.length = g.length) (by simp) fun k _ g' h => any_wr fun _ => by rw [List.length_set, h]) fun g1 h1 => ?_
  refine wp_forN (fun _ (g' : List ℝ) => g'.length = g.length) h1 fun a _ g' h => ?_
  rw [wp_bind]
  refine any_rd fun p _ => wp_ite (fun _ => h) fun _ => ?_
  refine wp_forN (fun _ (g' : List ℝ) => g'.length = g.length) h fun j _ g' h => ?_
  rw [wp_bind]; refine any_rd fun _ _ => ?_
  rw [wp_bind]; refine any_rd fun _ _ => ?_
  rw [wp_bind]; refine any_rd fun _ _ => ?_
  rw [wp_bind]; refine any_rd fun _ _ => ?_
  rw [wp_bind]; refine any_rd fun _ _ => ?_
  rw [wp_bind]; refine any_rd fun _ _ => ?_
  exact any_modAt fun x _ => by rw [wp_pure, List.length_set, h]

theorem gradients_val (hid : s.indexMap = List.range (s.nConstraints + 1)) {g : List ℝ} {i : Nat} (hi : i ≤ s.nConstraints) :
    wp (computeGradients s g i) (fun g' => g'.length = g.length ∧ ∀ j, j ≤ s.nConstraints → g'[j]? = some (gradEntry s i j)) anyErr := by
  unfold computeGradients
  rw [wp_bind]
  refine any_wr fun h0 => ?_
  rw [wp_bind]
  refine wp_imp (wp_forN (fun n (g' : List ℝ) => g'.length = g.length ∧ ∀ j, j < n + 1 → g'[j]? = some 0) ⟨by simp, fun j hj => ?_⟩
    fun k _ g' h => any_wr fun hlt => ⟨by rw [List.length_set, h.1], fun j hj => ?_⟩) fun g1 h1 => ?_
  · have : j = 0 := by omega
    subst this
    rw [List.getElem?_set_self h0]
    simp
  · by_cases hjk : j = k + 1
    · subst hjk
      rw [List.getElem?_set_self hlt]
      simp
    · rw [List.getElem?_set_ne (Ne.symm hjk)]
      exact h.2 j (by omega)
  · have im : ∀ {j k : Nat}, s.indexMap[j]? = some k → k = j ∧ j ≤ s.nConstraints := by
      intro j k hj
      rw [hid] at hj
      obtain ⟨a, b⟩ := List.getElem?_eq_some_iff.1 hj
      rw [List.length_range] at a
      rw [List.getElem_range] at b
      omega
    let term : Nat → Nat → ℝ := fun a j => (s.points[a]?).elim 0 fun p => if p.isFixed then 0 else
      p.sensitivities.getD i 0 * p.sensitivities.getD j 0 * p.length * (s.scaleFactors.getD i 0 * s.scaleFactors.getD j 0)
    refine wp_forN (fun n (g' : List ℝ) => g'.length = g.length ∧ ∀ j, j ≤ s.nConstraints → g'[j]? = some (∑ a ∈ Finset.range n, term a j))
      ⟨h1.1, fun j hj => by rw [h1.2 j (by omega)]; simp⟩ fun a ha g' h => ?_
    rw [wp_bind]
    refine any_rd fun p hp => wp_ite (fun hf => ?_) fun hf => ?_
    · rw [wp_pure]
      refine ⟨h.1, fun j hj => ?_⟩
      rw [h.2 j hj, Finset.sum_range_succ]
      have : term a j = 0 := by
        simp only [term]
        rw [hp, Option.elim_some, if_pos hf]
      rw [this, add_zero]
    · refine wp_imp (wp_forN (fun n (g' : List ℝ) => g'.length = g.length ∧ ∀ j, j ≤ s.nConstraints →
        g'[j]? = some ((∑ a ∈ Finset.range a, term a j) + if j < n then term a j else 0)) ⟨h.1, fun j hj => by rw [h.2 j hj]; simp⟩
        fun m hm g2 h2 => ?_) fun g3 h3 => ⟨h3.1, fun j hj => ?_⟩
      · rw [wp_bind]; refine any_rd fun k hk => ?_
        rw [wp_bind]; refine any_rd fun fi hfi => ?_
        rw [wp_bind]; refine any_rd fun fj hfj => ?_
        rw [wp_bind]; refine any_rd fun mi hmi => ?_
        rw [wp_bind]; refine any_rd fun x hx => ?_
        rw [wp_bind]; refine any_rd fun c hc => ?_
        obtain ⟨rfl, hkm⟩ := im hk
        obtain ⟨rfl, _⟩ := im hmi
        refine any_modAt fun y hy => ?_
        rw [wp_pure]
        refine ⟨by rw [List.length_set, h2.1], fun j hj => ?_⟩
        by_cases hjk : j = k
        · subst hjk
          rw [List.getElem?_set_self (List.getElem?_eq_some_iff.1 hy).1, if_pos (Nat.lt_succ_self j)]
          have h4 := h2.2 j hj
          rw [hy, if_neg (Nat.lt_irrefl j), add_zero] at h4
          congr 1
          rw [Option.some.inj h4]
          simp only [FP.add_real, FP.mul_real]
          congr 1
          simp only [term]
          rw [hp, Option.elim_some, if_neg hf, getD_of hx, getD_of hc, getD_of hfi, getD_of hfj]
        · rw [List.getElem?_set_ne (Ne.symm hjk), h2.2 j hj]
          congr 2
          by_cases hj2 : j < k
          · rw [if_pos hj2, if_pos (by omega)]
          · rw [if_neg hj2, if_neg (by omega)]
      · rw [h3.2 j hj, if_pos (by omega), Finset.sum_range_succ]

/-! ### scale factors -/

theorem scale_val (hid : s.indexMap = List.range (s.nConstraints + 1)) (hp : s.nPoints = s.points.length) :
    wp (computeScaleFactors s) (fun f => f.length = s.scaleFactors.length ∧
      ∀ i, i ≤ s.nConstraints → ∃ x, f[i]? = some x ∧ 0 ≤ x ∧ (Responds s.points i → 0 < x)) anyErr := by
  unfold computeScaleFactors
  rw [wp_bind]
  refine wp_imp (wp_forN (fun n f => f.length = s.scaleFactors.length ∧ ∀ i, i < n → ∃ m, f[i]? = some (1 / m) ∧ Peak s.points s.nPoints i 0 m)
    ⟨rfl, fun i hi => absurd hi (Nat.not_lt_zero i)⟩ fun i hi f hf => ?_) fun f1 hf1 => ?_
  · rw [wp_bind]
    refine wp_imp maxSensitivity_val fun m hm => any_wr fun hlt => ⟨by rw [List.length_set, hf.1], fun j hj => ?_⟩
    by_cases hji : j = i
    · subst hji
      rw [List.getElem?_set_self hlt]
      exact ⟨m, by simp, by simpa using hm⟩
    · rw [List.getElem?_set_ne (Ne.symm hji)]
      exact hf.2 j (by omega)
  · rw [wp_bind]
    refine wp_imp (wp_forN (fun n (r : List ℝ × List ℝ) => r.1.length = s.scaleFactors.length ∧
      (∀ i, n ≤ i → r.1[i]? = f1[i]?) ∧ ∀ i, i < n → ∃ x, r.1[i]? = some x ∧ 0 ≤ x ∧ (Responds s.points i → 0 < x))
      ⟨hf1.1, fun _ _ => rfl, fun i hi => absurd hi (Nat.not_lt_zero i)⟩ fun i hi r hr => ?_) fun r hr => ?_
    · obtain ⟨f, g⟩ := r
      obtain ⟨r1, r2, r3⟩ := hr
      dsimp only at r1 r2 r3 ⊢
      rw [wp_bind]
      refine wp_imp (gradients_val (s := { s with scaleFactors := f }) hid (i := i) (by dsimp only; omega)) fun g' hg' => ?_
      rw [wp_bind]
      refine any_rd fun a ha => ?_
      rw [wp_bind]
      refine any_modAt fun x hx => ?_
      rw [wp_pure, wp_pure]
      refine ⟨by rw [List.length_set]; exact r1, fun j hj => ?_, fun j hj => ?_⟩
      · dsimp only
        rw [List.getElem?_set_ne (by omega)]
        exact r2 j (by omega)
      · dsimp only
        by_cases hji : j = i
        · subst hji
          obtain ⟨m, h1, P⟩ := hf1.2 j hi
          rw [r2 j le_rfl, h1] at hx
          cases hx
          rw [List.getElem?_set_self (by rw [r1, ← hf1.1]; exact (List.getElem?_eq_some_iff.1 h1).1)]
          refine ⟨_, rfl, ?_, fun hR => ?_⟩
          · simp only [FP.mul_real, FP.div_real, FP.nat_real, FP.abs_real, Nat.cast_one]
            have := P.ge
            positivity
          · obtain ⟨hlen, p, hpm, hpf, hps, hpl⟩ := hR
            obtain ⟨b, hb⟩ := List.mem_iff_getElem?.1 hpm
            have hbl : b < s.nPoints := by rw [hp]; exact (List.getElem?_eq_some_iff.1 hb).1
            obtain ⟨c, c1, c2⟩ := P.bound b p hbl hb hpf
            rw [getD_of c1] at hps
            have hm : 0 < m := lt_of_lt_of_le (abs_pos.2 hps) c2
            have hfj : f.getD j 0 = 1 / m := by
              rw [List.getD, r2 j le_rfl, h1]; rfl
            have hg := hg'.2 j (by dsimp only; omega)
            rw [ha] at hg
            have hapos : 0 < a := by
              rw [Option.some.inj hg]
              unfold gradEntry
              dsimp only
              refine Finset.sum_pos' (fun i _ => ?_) ⟨b, Finset.mem_range.2 hbl, ?_⟩
              · cases hq : s.points[i]? with
                | none => simp
                | some q =>
                  rw [Option.elim_some]
                  split
                  · exact le_rfl
                  · have := hlen q (List.mem_of_getElem? hq)
                    exact mul_nonneg (mul_nonneg (mul_self_nonneg _) this) (mul_self_nonneg _)
              · rw [hb, Option.elim_some, if_neg (by simp [hpf]), getD_of c1, hfj]
                have : 0 < c * c := mul_self_pos.2 hps
                positivity
            simp only [FP.mul_real, FP.div_real, FP.nat_real, FP.abs_real, Nat.cast_one]
            have := abs_pos.2 hapos.ne'
            positivity
        · rw [List.getElem?_set_ne (Ne.symm hji)]
          exact r3 j (by omega)
    · obtain ⟨f, g⟩ := r
      dsimp only
      rw [wp_pure]
      exact ⟨hr.1, fun i hi => hr.2.2 i (by omega)⟩

/-! ### limits -/

theorem any_whileN {σ : Type} {n : Nat} {c : σ → Bool} {f : σ → Res σ} {t : σ} (I : σ → Prop) (h0 : I t)
    (hs : ∀ u, I u → c u = true → wp (f u) I anyErr) : wp (whileN n c f t) (fun u => I u ∧ c u = false) anyErr := by
  induction n generalizing t with
  | zero =>
    unfold whileN
    by_cases hc : c t = true
    · rw [if_pos hc]; exact trivial
    · rw [if_neg hc]; exact ⟨h0, by simpa using hc⟩
  | succ n ih =>
    unfold whileN
    by_cases hc : c t = true
    · rw [if_pos hc, wp_bind]
      exact wp_imp (hs t h0 hc) fun u hu => ih hu
    · rw [if_neg hc]; exact ⟨h0, by simpa using hc⟩

theorem shrink_val {fuel : Nat} {c : ℝ → Bool} {l : ℝ} : wp (shrink fuel c l) (fun x => c x = false ∧ (∃ e : Nat, x = l * (9 / 10) ^ e ∧ (0 < e → c l = true))) anyErr := by
  unfold shrink
  refine wp_imp (any_whileN (fun x => ∃ e : Nat, x = l * (9 / 10) ^ e ∧ (0 < e → c l = true)) ⟨0, by simp, fun h => absurd h (Nat.lt_irrefl 0)⟩ ?_)
    fun x hx => ⟨hx.2, hx.1⟩
  rintro u ⟨e, rfl, he⟩ hc
  rw [wp_pure]
  refine ⟨e + 1, ?_, fun _ => ?_⟩
  · simp only [FP.mul_real, FP.lit_real, Nat.cast_ofNat]
    ring
  · rcases Nat.eq_zero_or_pos e with rfl | h
    · simpa using hc
    · exact he h

/-- The limits and the start value of function `i`. -/
structure Limit (pts : List (BoundaryPoint ℝ)) (maxD f l0 lo hi l : ℝ) (k : Nat) : Prop where
  sym : lo = -hi
  val : ∃ m, Peak pts pts.length k (1 / 2 ^ 1022) m ∧ hi = maxD / m / f
  inside : lo ≤ l ∧ l ≤ hi
  start : ∃ e : Nat, l = l0 * (9 / 10) ^ e ∧ (0 < e → l0 < lo ∨ hi < l0)

theorem limits_val {fuel : Nat} (hid : s.indexMap = List.range (s.nConstraints + 1)) (hm : 0 < s.maxDisplacement)
    (hf : ∀ i, i ≤ s.nConstraints → ∃ x, s.scaleFactors[i]? = some x ∧ 0 ≤ x) :
    wp (computeLambdaLimits fuel s) (fun r => ∃ lo hi l, r = { s with negativeLambdaLimits := lo, positiveLambdaLimits := hi, lambdas := l } ∧
      l.length = s.lambdas.length ∧ (∀ i, s.nConstraints < i → l[i]? = s.lambdas[i]?) ∧
      ∀ i, i ≤ s.nConstraints → ∃ f l0 a b c, s.scaleFactors[i]? = some f ∧ s.lambdas[i]? = some l0 ∧ lo[i]? = some a ∧ hi[i]? = some b ∧
        l[i]? = some c ∧ Limit s.points s.maxDisplacement f l0 a b c i) anyErr := by
  unfold computeLambdaLimits
  refine wp_imp (wp_forN (fun n r => ∃ lo hi l, r = { s with negativeLambdaLimits := lo, positiveLambdaLimits := hi, lambdas := l } ∧
      l.length = s.lambdas.length ∧ (∀ i, n ≤ i → l[i]? = s.lambdas[i]?) ∧
      ∀ i, i < n → ∃ f l0 a b c, s.scaleFactors[i]? = some f ∧ s.lambdas[i]? = some l0 ∧ lo[i]? = some a ∧ hi[i]? = some b ∧
        l[i]? = some c ∧ Limit s.points s.maxDisplacement f l0 a b c i)
    ⟨_, _, _, rfl, rfl, fun _ _ => rfl, fun i hi => absurd hi (Nat.not_lt_zero i)⟩ ?_) ?_
  · rintro i hi r ⟨lo, hi', l, rfl, h1, h2, h3⟩
    dsimp only
    rw [wp_bind]
    refine any_rd fun k hk => ?_
    have hki : k = i := by
      rw [hid] at hk
      obtain ⟨a, b⟩ := List.getElem?_eq_some_iff.1 hk
      rw [List.getElem_range] at b
      exact b.symm
    subst hki
    rw [wp_bind]
    refine wp_imp maxSensitivity_val fun m hP => ?_
    rw [wp_bind]
    refine any_rd fun f hff => ?_
    rw [wp_bind]
    refine any_wr fun g1 => ?_
    rw [wp_bind]
    refine any_wr fun g2 => ?_
    rw [wp_bind]
    refine any_rd fun l0 hl0 => ?_
    rw [wp_bind]
    refine wp_imp shrink_val fun l1 hl1 => ?_
    rw [wp_bind]
    refine wp_imp shrink_val fun l2 hl2 => ?_
    rw [wp_bind]
    refine any_wr fun g3 => ?_
    rw [wp_pure]
    have hP' : Peak s.points s.points.length k (1 / 2 ^ 1022) m := by
      have e : (lit 1 (2 ^ 1022) : ℝ) = 1 / 2 ^ 1022 := by
        rw [FP.lit_real, Nat.cast_one, Nat.cast_pow, Nat.cast_ofNat]
      rw [e] at hP
      exact hP
    refine ⟨_, _, _, rfl, by rw [List.length_set, h1], fun j hj => ?_, fun j hj => ?_⟩
    · rw [List.getElem?_set_ne (by omega)]
      exact h2 j (by omega)
    · by_cases hjk : j = k
      · subst hjk
        refine ⟨f, l0, _, _, _, hff, by rw [← h2 j le_rfl]; exact hl0, List.getElem?_set_self g1, List.getElem?_set_self g2,
          List.getElem?_set_self g3, ?_, ⟨m, hP', ?_⟩, ?_, ?_⟩
        · simp only [FP.neg_real, FP.div_real]
          ring
        · simp only [FP.div_real]
        all_goals
          obtain ⟨c1, e1, rfl, w1⟩ := hl1
          obtain ⟨c2, e2, rfl, w2⟩ := hl2
          have hmpos : 0 < m := lt_of_lt_of_le (by positivity) hP'.ge
          obtain ⟨x, hx, hx0⟩ := hf j (by omega)
          rw [hff] at hx
          cases hx
          have hb : 0 ≤ s.maxDisplacement / m / f := by positivity
          have hlo : -s.maxDisplacement / m / f = -(s.maxDisplacement / m / f) := by ring
          simp only [FP.neg_real, FP.div_real, FP.lt_real_false, FP.lt_real] at c1 c2 w1 w2 ⊢
          rw [hlo] at c1 w1 ⊢
          generalize s.maxDisplacement / m / f = B at *
        · refine ⟨?_, c2⟩
          rcases Nat.eq_zero_or_pos e2 with rfl | h
          · simpa using c1
          · have := w2 h
            have h5 : 0 ≤ l0 * (9 / 10) ^ e1 := by linarith
            have : 0 ≤ l0 * (9 / 10) ^ e1 * (9 / 10) ^ e2 := by positivity
            linarith
        · refine ⟨e1 + e2, by rw [pow_add]; ring, fun h => ?_⟩
          rcases Nat.eq_zero_or_pos e1 with rfl | h1
          · right
            have := w2 (by omega)
            simpa using this
          · exact .inl (w1 h1)
      · rw [List.getElem?_set_ne (Ne.symm hjk), List.getElem?_set_ne (Ne.symm hjk), List.getElem?_set_ne (Ne.symm hjk)]
        exact h3 j (by omega)
  · rintro r ⟨lo, hi, l, rfl, h1, h2, h3⟩
    exact ⟨lo, hi, l, rfl, h1, fun i hi => h2 i (by omega), fun i hi => h3 i (by omega)⟩

end Slsm.Optimise
