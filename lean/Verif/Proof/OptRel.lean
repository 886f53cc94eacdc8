import Verif.Proof.OptSieve
import Batteries.Data.Nat.Lemmas

/-! Which constraints are removed, and why. -/

namespace Slsm.Optimise

open FP

variable {s s0 s' : Optimise ℝ}

/-- Displacement (without cut-off) for multipliers `L` of the functions with original numbers `M`. -/
noncomputable def lin (s0 : Optimise ℝ) (M : List Nat) (L : Nat → ℝ) (p : BoundaryPoint ℝ) : ℝ :=
  (M.map fun b => s0.scaleFactors.getD b 0 * L b * p.sensitivities.getD b 0).sum

/-- Change of function `k` for these multipliers. -/
noncomputable def total (s0 : Optimise ℝ) (M : List Nat) (L : Nat → ℝ) (k : Nat) : ℝ :=
  ∑ i ∈ Finset.range s0.nPoints, (s0.points[i]?).elim 0 fun p => if p.isFixed then 0 else lin s0 M L p * p.sensitivities.getD k 0 * p.length

/-- No multipliers in the box (of the functions `M`) change function `k` by `d / 0.99` or more. -/
def Quiet (s0 : Optimise ℝ) (M : List Nat) (k : Nat) (d : ℝ) : Prop :=
  (∀ (i : Nat) (p : BoundaryPoint ℝ), s0.points[i]? = some p → p.isFixed = false → p.isDomain = false) →
  ∀ L : Nat → ℝ, (∀ b ∈ M, s0.negativeLambdaLimits.getD b 0 ≤ L b ∧ L b ≤ s0.positiveLambdaLimits.getD b 0) →
    total s0 M L k * (99 / 100) < d

/-- Effect of a unit multiplier. -/
noncomputable def coef (s0 : Optimise ℝ) (k b : Nat) : ℝ :=
  ∑ i ∈ Finset.range s0.nPoints, (s0.points[i]?).elim 0 fun p =>
    if p.isFixed then 0 else s0.scaleFactors.getD b 0 * p.sensitivities.getD b 0 * p.sensitivities.getD k 0 * p.length

theorem total_eq (M : List Nat) (L : Nat → ℝ) (k : Nat) : total s0 M L k = (M.map fun b => L b * coef s0 k b).sum := by
  unfold total coef lin
  induction M with
  | nil =>
    simp only [List.map_nil, List.sum_nil]
    refine Finset.sum_eq_zero fun i _ => ?_
    cases s0.points[i]? with
    | none => rfl
    | some p => rw [Option.elim_some]; split <;> simp
  | cons b M ih =>
    simp only [List.map_cons, List.sum_cons]
    rw [← ih, Finset.mul_sum, ← Finset.sum_add_distrib]
    refine Finset.sum_congr rfl fun i _ => ?_
    cases s0.points[i]? with
    | none => simp
    | some p =>
      simp only [Option.elim_some]
      split
      · simp
      · ring

theorem sublist_sum {M M' : List Nat} (hs : M'.Sublist M) (hn : M.Nodup) (f : Nat → ℝ) (hf : ∀ b ∈ M, b ∉ M' → f b = 0) :
    (M'.map f).sum = (M.map f).sum := by
  induction hs with
  | slnil => rfl
  | cons a hs ih =>
    rename_i l1 l2
    rw [List.map_cons, List.sum_cons]
    rw [List.nodup_cons] at hn
    rw [hf a (by simp) fun h => hn.1 (hs.subset h), zero_add]
    exact ih hn.2 fun b hb hb' => hf b (by simp [hb]) hb'
  | cons_cons a hs ih =>
    rename_i l1 l2
    rw [List.nodup_cons] at hn
    rw [List.map_cons, List.sum_cons, List.map_cons, List.sum_cons]
    congr 1
    refine ih hn.2 fun b hb hb' => hf b (by simp [hb]) ?_
    have : b ≠ a := fun h => hn.1 (h ▸ hb)
    simp [this, hb']

theorem Quiet.mono {M M' : List Nat} {k : Nat} {d : ℝ} (Q : Quiet s0 M k d) (hs : M'.Sublist M) (hn : M.Nodup)
    (hb : ∀ b ∈ M, s0.negativeLambdaLimits.getD b 0 ≤ 0 ∧ 0 ≤ s0.positiveLambdaLimits.getD b 0) : Quiet s0 M' k d := by
  intro hd L hL
  classical
  have := Q hd (fun b => if b ∈ M' then L b else 0) (fun b hbM => by
    by_cases h : b ∈ M'
    · simp only [h, if_true]; exact hL b h
    · simp only [h, if_false]; exact hb b hbM)
  rw [total_eq] at this ⊢
  convert this using 2
  rw [← sublist_sum hs hn _ fun b _ hb => by simp only [hb, if_false, zero_mul]]
  congr 1
  exact List.map_congr_left fun b hb => by simp only [hb, if_true]

/-- The current state belongs to the functions with the original numbers `s.indexMap`. -/
structure Rel (s0 s : Optimise ℝ) : Prop where
  pts : s.points = s0.points
  npts : s.nPoints = s0.nPoints
  other : s.maxDisplacement = s0.maxDisplacement ∧ s.nConstraintsInitial = s0.nConstraintsInitial ∧ s.timeStep = s0.timeStep ∧
    s.gradients = s0.gradients ∧ s.returnCode = s0.returnCode ∧ s.isMax = s0.isMax
  idx : s.indexMap.length = s.nConstraints + 1
  zero : s.indexMap[0]? = some 0
  sorted : s.indexMap.Pairwise (· < ·)
  bound : ∀ m ∈ s.indexMap, m ≤ s0.nConstraints
  full : ∀ (j m : Nat), s.indexMap[j]? = some m → (∃ x, s.lambdas[j]? = some x ∧ s0.lambdas[m]? = some x) ∧
    (∃ x, s.scaleFactors[j]? = some x ∧ s0.scaleFactors[m]? = some x) ∧
    (∃ x, s.negativeLambdaLimits[j]? = some x ∧ s0.negativeLambdaLimits[m]? = some x) ∧
    (∃ x, s.positiveLambdaLimits[j]? = some x ∧ s0.positiveLambdaLimits[m]? = some x)
  cons : ∀ (j m : Nat), s.indexMap[j + 1]? = some (m + 1) → s.constraintDistances[j]? = s0.constraintDistances[m]? ∧
    s.isEquality[j]? = s0.isEquality[m]?
  shift : Shifted s0 s.displacements
  gone : ∀ m, m < s0.nConstraints → m + 1 ∉ s.indexMap → s0.isEquality[m]? = some false ∧
    ∃ d, s0.constraintDistances[m]? = some d ∧ 0 ≤ d ∧ Quiet s0 s.indexMap (m + 1) d
  lens : s.lambdas.length = s0.lambdas.length ∨ s.lambdas.length = s.nConstraints + 1

theorem sum_list (M : List Nat) (f : Nat → ℝ) : (M.map f).sum = ∑ j ∈ Finset.range M.length, f (M.getD j 0) := by
  induction M with
  | nil => simp
  | cons a M ih =>
    rw [List.map_cons, List.sum_cons, List.length_cons, Finset.sum_range_succ', ih, add_comm]
    simp

theorem Rel.raw_eq (R : Rel s0 s) {lambda : List ℝ} {L : Nat → ℝ} {p : BoundaryPoint ℝ}
    (h : ∀ (j m : Nat), s.indexMap[j]? = some m → lambda.getD j 0 = L m) : raw s lambda p = lin s0 s.indexMap L p := by
  unfold raw lin
  rw [sum_list, R.idx, Finset.sum_range_succ', add_comm]
  have key : ∀ j, j < s.nConstraints + 1 → s.scaleFactors.getD j 0 * lambda.getD j 0 * p.sensitivities.getD (s.indexMap.getD j 0) 0 =
      s0.scaleFactors.getD (s.indexMap.getD j 0) 0 * L (s.indexMap.getD j 0) * p.sensitivities.getD (s.indexMap.getD j 0) 0 := by
    intro j hj
    have hm := List.getElem?_eq_getElem (show j < s.indexMap.length by rw [R.idx]; exact hj)
    obtain ⟨-, ⟨x, h1, h2⟩, -⟩ := R.full j _ hm
    rw [getD_of hm, getD_of h1, getD_of h2, h j _ hm]
  congr 1
  · exact Finset.sum_congr rfl fun j hj => key (j + 1) (by rw [Finset.mem_range] at hj; omega)
  · have := key 0 (by omega)
    rw [getD_of R.zero] at this ⊢
    exact this

theorem Rel.effect_eq (R : Rel s0 s) {lambda : List ℝ} {L : Nat → ℝ} {k : Nat}
    (hd : ∀ (i : Nat) (p : BoundaryPoint ℝ), s0.points[i]? = some p → p.isFixed = false → p.isDomain = false)
    (h : ∀ (j m : Nat), s.indexMap[j]? = some m → lambda.getD j 0 = L m) : effect s k lambda = total s0 s.indexMap L k := by
  unfold effect total
  rw [R.pts, R.npts]
  refine Finset.sum_congr rfl fun i _ => ?_
  cases hp : s0.points[i]? with
  | none => rfl
  | some p =>
    rw [Option.elim_some, Option.elim_some]
    cases hf : p.isFixed
    · rw [R.raw_eq h]
      unfold capped
      rw [hd i p hp hf]
      simp
    · simp

theorem exists_bits (n : Nat) (f : Nat → Bool) : ∃ j, j < 2 ^ n ∧ ∀ k, k < n → j.testBit k = f k :=
  ⟨Nat.ofBits fun i : Fin n => f i, Nat.ofBits_lt_two_pow _, fun k hk => Nat.testBit_ofBits_lt _ k hk⟩

theorem Rel.quiet (R : Rel s0 s) {k : Nat} {d : ℝ}
    (h : ∀ j, j < 2 ^ (s.nConstraints + 1) → effect s k (cornerL s (s.nConstraints + 1) j) * (99 / 100) < d) : Quiet s0 s.indexMap k d := by
  intro hd L hL
  classical
  obtain ⟨j, hj, hb⟩ := exists_bits (s.nConstraints + 1) fun i => decide (0 ≤ coef s0 k (s.indexMap.getD i 0))
  let C : Nat → ℝ := fun b => if 0 ≤ coef s0 k b then s0.positiveLambdaLimits.getD b 0 else s0.negativeLambdaLimits.getD b 0
  have he := R.effect_eq (k := k) (lambda := cornerL s (s.nConstraints + 1) j) (L := C) hd (fun i m hi => by
    have hlt : i < s.nConstraints + 1 := by rw [← R.idx]; exact (List.getElem?_eq_some_iff.1 hi).1
    obtain ⟨-, -, ⟨x, h1, h2⟩, y, h3, h4⟩ := R.full i m hi
    unfold cornerL
    rw [List.getD, List.getElem?_map, List.getElem?_range hlt]
    simp only [Option.map_some, Option.getD_some]
    rw [hb i hlt, getD_of hi, getD_of h1, getD_of h3]
    show _ = C m
    simp only [C]
    rw [getD_of h2, getD_of h4]
    simp)
  have h1 := h j hj
  rw [he, total_eq] at h1
  rw [total_eq]
  refine lt_of_le_of_lt (mul_le_mul_of_nonneg_right (List.sum_le_sum fun b hbM => ?_) (by norm_num)) h1
  obtain ⟨l1, l2⟩ := hL b hbM
  simp only [C]
  split
  · exact mul_le_mul_of_nonneg_right l2 ‹_›
  · exact mul_le_mul_of_nonpos_right l1 (not_le.1 ‹_›).le

/-! ### one pass -/

theorem sieve_all {α : Type} {off n : Nat} {v0 v : List α} (S : Sieve off (List.range n) n v0 v) : v = v0 := by
  refine List.ext_getElem? fun j => ?_
  by_cases h1 : j < off
  · exact S.low j h1
  · obtain ⟨i, rfl⟩ : ∃ i, j = off + i := ⟨j - off, by omega⟩
    by_cases h2 : i < n
    · exact getElem?_of_ex (S.kept i i (List.getElem?_range h2))
    · exact S.high i (by omega)

theorem sieve1_resize {α : Type} {n : Nat} {K : List Nat} {v0 v : List α} (S : Sieve 1 K n v0 v) (d : α) (h0 : ∃ x, v0[0]? = some x)
    {j i : Nat} (hj : (0 :: K.map (· + 1))[j]? = some i) : ∃ x, (resize v (K.length + 1) d)[j]? = some x ∧ v0[i]? = some x := by
  cases j with
  | zero =>
    cases hj
    obtain ⟨x, hx⟩ := h0
    exact ⟨x, resize_getElem? (by rw [S.low 0 (by omega)]; exact hx) (by omega), hx⟩
  | succ j =>
    rw [List.getElem?_cons_succ, List.getElem?_map, Option.map_eq_some_iff] at hj
    obtain ⟨m, hm, rfl⟩ := hj
    obtain ⟨x, h1, h2⟩ := S.kept j m hm
    rw [Nat.add_comm] at h1 h2
    exact ⟨x, resize_getElem? h1 (by have := (List.getElem?_eq_some_iff.1 hm).1; omega), h2⟩

theorem sieve0_resize {α : Type} {n : Nat} {K : List Nat} {v0 v : List α} (S : Sieve 0 K n v0 v) (d : α)
    {j i : Nat} (hj : K[j]? = some i) : ∃ x, (resize v K.length d)[j]? = some x ∧ v0[i]? = some x := by
  obtain ⟨x, h1, h2⟩ := S.kept j i hj
  rw [Nat.zero_add] at h1 h2
  exact ⟨x, resize_getElem? h1 (List.getElem?_eq_some_iff.1 hj).1, h2⟩

theorem ex_trans {α : Type} {u v w : List α} {i j k : Nat} (h1 : ∃ x, u[i]? = some x ∧ v[j]? = some x) (h2 : ∃ x, v[j]? = some x ∧ w[k]? = some x) :
    ∃ x, u[i]? = some x ∧ w[k]? = some x := by
  obtain ⟨x, a, b⟩ := h1
  obtain ⟨y, c, d⟩ := h2
  rw [b] at c
  cases c
  exact ⟨x, a, d⟩

/-- The limits bracket zero. -/
def Bracket (s0 : Optimise ℝ) : Prop :=
  ∀ b, b ≤ s0.nConstraints → s0.negativeLambdaLimits.getD b 0 ≤ 0 ∧ 0 ≤ s0.positiveLambdaLimits.getD b 0

theorem effect_congr {s1 : Optimise ℝ} {ds ts : List ℝ} (h : s1 = { s with displacements := ds, constraintDistancesScaled := ts }) {k : Nat}
    {lambda : List ℝ} : effect s1 k lambda = effect s k lambda := by rw [h]; rfl

theorem pass_val (R : Rel s0 s) (B : Bracket s0) (hp : s.nPoints = s.points.length) : wp (pass s.nConstraints s) (fun r => Rel s0 r.1 ∧ r.1.nConstraints = r.2 ∧
    r.2 ≤ s.nConstraints ∧ r.1.indexMap.Sublist s.indexMap ∧
    (∀ j m, j < s.nConstraints → Dropped s (s.nConstraints + 1) j → s.indexMap[j + 1]? = some m → m ∉ r.1.indexMap) ∧
    (r.2 = s.nConstraints → r.1 = { s with displacements := r.1.displacements, constraintDistancesScaled := r.1.constraintDistancesScaled } ∧
      ∀ j, j < s.nConstraints → Aim s (s.nConstraints + 1) j r.1.constraintDistancesScaled)) anyErr := by
  unfold pass
  refine wp_ite (fun _ => trivial) (fun _ => ?_)
  rw [wp_bind]
  refine wp_imp (wp_forN (fun i r => (∃ ds ts, r.1 = { s with displacements := ds, constraintDistancesScaled := ts } ∧ Shifted s ds) ∧
    r.2.length = i ∧ (∀ j, j < i → (r.2.getD j false = false ↔ Dropped s (s.nConstraints + 1) j)) ∧
    (∀ j, i ≤ j → r.1.constraintDistancesScaled[j]? = s.constraintDistancesScaled[j]?) ∧
    ∀ j, j < i → r.2.getD j false = true → Aim s (s.nConstraints + 1) j r.1.constraintDistancesScaled)
    ⟨⟨s.displacements, s.constraintDistancesScaled, rfl, rfl, fun _ _ _ _ _ => rfl⟩, rfl, fun j hj => absurd hj (Nat.not_lt_zero j),
      fun _ _ => rfl, fun j hj => absurd hj (Nat.not_lt_zero j)⟩ ?_) ?_
  · rintro i hi ⟨s1, act⟩ ⟨⟨ds, ts, rfl, hds⟩, hl, hdr, hts, haim⟩
    dsimp only at hl hdr hts haim ⊢
    rw [wp_bind]
    refine wp_imp (assess_val (s := { s with displacements := ds, constraintDistancesScaled := ts }) (n := s.nConstraints + 1) (i := i) hp) ?_
    rintro ⟨s2, a⟩ ⟨ds', ts', rfl, h1, h2, h3, h4⟩
    rw [wp_pure]
    dsimp only at h2 h3 h4
    have hlast : (act ++ [a]).getD i false = a := by simp [List.getD, hl]
    have hprev : ∀ j, j < i → (act ++ [a]).getD j false = act.getD j false := fun j hj => by
      simp only [List.getD]
      rw [List.getElem?_append_left (by omega)]
    refine ⟨⟨ds', ts', rfl, h1.1.trans hds.1, fun j q hj hq hf => ?_⟩, by simp [hl], fun j hj => ?_, fun j hj => ?_, fun j hj ha => ?_⟩
    · rw [h1.2 j q hj hq hf]
      exact hds.2 j q hj hq hf
    · dsimp only
      by_cases hji : j = i
      · subst hji
        rw [hlast, h2]
        exact ⟨fun D => ⟨D.ineq, D.quiet⟩, fun D => ⟨D.ineq, D.quiet⟩⟩
      · rw [hprev j (by omega)]
        exact hdr j (by omega)
    · dsimp only
      rw [h3 j (by omega)]
      exact hts j (by omega)
    · dsimp only at ha ⊢
      by_cases hji : j = i
      · subst hji
        rw [hlast] at ha
        obtain ⟨d, k, mn, mx, g1, g2, g3, g4, g5, g6, g7, g8, g9⟩ := h4 ha
        have e := hts j le_rfl
        exact ⟨d, k, mn, mx, g1, g2, g3, g4, g5, g6, fun x y => (g7 x y).trans e, g8, fun x y => (g9 x y).trans e⟩
      · rw [hprev j (by omega)] at ha
        obtain ⟨d, k, mn, mx, g1, g2, g3, g4, g5, g6, g7, g8, g9⟩ := haim j (by omega) ha
        have e := h3 j hji
        exact ⟨d, k, mn, mx, g1, g2, g3, g4, g5, fun x y => e.trans (g6 x y), fun x y => e.trans (g7 x y), fun x y => e.trans (g8 x y),
          fun x y => e.trans (g9 x y)⟩
  · rintro ⟨s1, act⟩ ⟨⟨ds, ts, rfl, hds⟩, hl, hdr, -, haim⟩
    dsimp only at hl hdr haim ⊢
    rw [wp_bind]
    refine wp_imp (wp_forN (fun i r => r.2 = (keep act i).length ∧
      Moved (keep act i) i { s with displacements := ds, constraintDistancesScaled := ts } r.1)
      ⟨rfl, rfl, Sieve.init _ _, Sieve.init _ _, Sieve.init _ _, Sieve.init _ _, Sieve.init _ _, Sieve.init _ _, Sieve.init _ _, Sieve.init _ _⟩ ?_) ?_
    · rintro i hi ⟨s2, k⟩ ⟨hk, M⟩
      dsimp only at hk M ⊢
      subst hk
      rw [wp_bind]
      refine any_rd fun a ha => ?_
      rw [keep_succ, getD_of ha]
      cases a
      · simp only [Bool.false_eq_true, if_false, wp_pure]
        exact ⟨trivial, M.eq, M.la.skip, M.sf.skip, M.lo.skip, M.hi.skip, M.im.skip, M.cd.skip, M.ts.skip, M.eqs.skip⟩
      · simp only [if_true]
        rw [wp_bind]
        refine wp_imp (moveDown_val M (keep_length act i)) fun s3 M3 => ?_
        rw [wp_pure]
        exact ⟨by simp, M3⟩
    · rintro ⟨s2, k⟩ ⟨hk, M⟩
      dsimp only at hk M ⊢
      rw [wp_pure]
      dsimp only
      have hn : k ≤ s.nConstraints := hk ▸ keep_length act _
      have hs2 : s2.nConstraints = s.nConstraints := by rw [M.eq]
      have hsh : Shifted s0 ds := by
        refine ⟨hds.1.trans R.shift.1, fun i q hi hq hf => ?_⟩
        rw [hds.2 i q (by rw [R.npts]; exact hi) (by rw [R.pts]; exact hq) hf]
        exact R.shift.2 i q hi hq hf
      by_cases hlt : k < s.nConstraints
      · rw [if_pos (by rw [hs2]; exact hlt)]
        have hin : ∀ j, j < s.nConstraints + 1 → ∃ m, s.indexMap[j]? = some m := fun j hj =>
          ⟨_, List.getElem?_eq_getElem (by rw [R.idx]; exact hj)⟩
        obtain ⟨f1, f2, f3, f4⟩ := R.full 0 0 R.zero
        have ex0 : ∀ {v w : List ℝ} {i j : Nat}, (∃ x, v[i]? = some x ∧ w[j]? = some x) → ∃ x, v[i]? = some x := fun ⟨x, h, _⟩ => ⟨x, h⟩
        -- the new index map
        have hlen : (truncate k s2).indexMap.length = k + 1 := resize_length
        have hJ : ∀ {j m : Nat}, (truncate k s2).indexMap[j]? = some m →
            ∃ i, (0 :: (keep act s.nConstraints).map (· + 1))[j]? = some i ∧ s.indexMap[i]? = some m := by
          intro j m hj
          have hjlt : j < k + 1 := by rw [← hlen]; exact (List.getElem?_eq_some_iff.1 hj).1
          have hj' : j < (0 :: (keep act s.nConstraints).map (· + 1)).length := by simp; omega
          refine ⟨_, List.getElem?_eq_getElem hj', ?_⟩
          obtain ⟨x, h1, h2⟩ := sieve1_resize M.im 0 ⟨0, R.zero⟩ (List.getElem?_eq_getElem hj')
          rw [← hk] at h1
          have : (truncate k s2).indexMap[j]? = some x := h1
          rw [hj] at this
          rw [Option.some.inj this]
          exact h2
        have hJ' : ∀ {j i : Nat}, (0 :: (keep act s.nConstraints).map (· + 1))[j]? = some i →
            (truncate k s2).indexMap[j]? = s.indexMap[i]? := by
          intro j i hj
          have := getElem?_of_ex (sieve1_resize M.im 0 ⟨0, R.zero⟩ hj)
          rw [← hk] at this
          exact this
        have hsub : (truncate k s2).indexMap.Sublist s.indexMap := by
          have e1 : s.indexMap = (List.range (s.nConstraints + 1)).map fun i => s.indexMap.getD i 0 := by
            refine List.ext_getElem? fun j => ?_
            rw [List.getElem?_map]
            by_cases hj : j < s.nConstraints + 1
            · obtain ⟨m, hm⟩ := hin j hj
              rw [List.getElem?_range hj, Option.map_some, hm, getD_of hm]
            · rw [List.getElem?_eq_none (by rw [R.idx]; omega), List.getElem?_eq_none (by simp; omega)]; rfl
          have e2 : (truncate k s2).indexMap = (0 :: (keep act s.nConstraints).map (· + 1)).map fun i => s.indexMap.getD i 0 := by
            refine List.ext_getElem? fun j => ?_
            rw [List.getElem?_map]
            by_cases hj : j < k + 1
            · have hj' : j < (0 :: (keep act s.nConstraints).map (· + 1)).length := by simp; omega
              rw [List.getElem?_eq_getElem hj', Option.map_some, hJ' (List.getElem?_eq_getElem hj')]
              obtain ⟨m, hm⟩ : ∃ m, s.indexMap[(0 :: (keep act s.nConstraints).map (· + 1))[j]]? = some m := by
                obtain ⟨x, -, h2⟩ := sieve1_resize M.im 0 ⟨0, R.zero⟩ (List.getElem?_eq_getElem hj')
                exact ⟨x, h2⟩
              rw [hm, getD_of hm]
            · rw [List.getElem?_eq_none (by rw [hlen]; omega), List.getElem?_eq_none (by simp; omega)]; rfl
          rw [e1, e2]
          refine List.Sublist.map _ ?_
          rw [List.range_succ_eq_map]
          exact (List.filter_sublist.map _).cons_cons 0
        refine ⟨⟨?_, ?_, ?_, hlen, ?_, R.sorted.sublist hsub, fun m hm => R.bound m (hsub.subset hm), fun j m hj => ?_, fun j m hj => ?_, ?_,
          fun m hm hnot => ?_, .inr resize_length⟩, rfl, hn, hsub, fun j m hj hD hm hmem => ?_, fun h => absurd h (Nat.ne_of_lt hlt)⟩
        · show s2.points = _
          rw [M.eq]; exact R.pts
        · show s2.nPoints = _
          rw [M.eq]; exact R.npts
        · show s2.maxDisplacement = _ ∧ s2.nConstraintsInitial = _ ∧ s2.timeStep = _ ∧ s2.gradients = _ ∧ s2.returnCode = _ ∧ s2.isMax = _
          rw [M.eq]; exact R.other
        · rw [hJ' (j := 0) (i := 0) rfl]
          exact R.zero
        · obtain ⟨i, h1, h2⟩ := hJ hj
          obtain ⟨g1, g2, g3, g4⟩ := R.full i m h2
          have a1 := sieve1_resize M.la (nat 0) (ex0 f1) h1
          have a2 := sieve1_resize M.sf (nat 0) (ex0 f2) h1
          have a3 := sieve1_resize M.lo (nat 0) (ex0 f3) h1
          have a4 := sieve1_resize M.hi (nat 0) (ex0 f4) h1
          rw [← hk] at a1 a2 a3 a4
          exact ⟨ex_trans a1 g1, ex_trans a2 g2, ex_trans a3 g3, ex_trans a4 g4⟩
        · obtain ⟨i, h1, h2⟩ := hJ hj
          rw [List.getElem?_cons_succ, List.getElem?_map, Option.map_eq_some_iff] at h1
          obtain ⟨i', h3, rfl⟩ := h1
          obtain ⟨g1, g2⟩ := R.cons i' m h2
          have a1 := sieve0_resize M.cd (nat 0) h3
          have a2 := sieve0_resize M.eqs false h3
          rw [← hk] at a1 a2
          exact ⟨(getElem?_of_ex a1).trans g1, (getElem?_of_ex a2).trans g2⟩
        · show Shifted s0 s2.displacements
          rw [M.eq]
          exact hsh
        · have hB : ∀ b ∈ s.indexMap, s0.negativeLambdaLimits.getD b 0 ≤ 0 ∧ 0 ≤ s0.positiveLambdaLimits.getD b 0 := fun b hb => B b (R.bound b hb)
          have hnd : s.indexMap.Nodup := R.sorted.imp fun h => h.ne
          by_cases hmem : m + 1 ∈ s.indexMap
          · obtain ⟨i, hi⟩ := List.mem_iff_getElem?.1 hmem
            cases i with
            | zero => rw [R.zero] at hi; cases hi
            | succ i =>
              have hilt : i < s.nConstraints := by
                have := (List.getElem?_eq_some_iff.1 hi).1
                rw [R.idx] at this
                omega
              have hact : act.getD i false = false := by
                by_contra hne
                have hmk : i ∈ keep act s.nConstraints := mem_keep.2 ⟨hilt, by simpa using hne⟩
                obtain ⟨j, hj⟩ := List.mem_iff_getElem?.1 hmk
                have := hJ' (j := j + 1) (i := i + 1) (by rw [List.getElem?_cons_succ, List.getElem?_map, hj]; rfl)
                rw [hi] at this
                exact hnot (List.mem_of_getElem? this)
              have D := (hdr i hilt).1 hact
              obtain ⟨d, k', d1, d2, d3, d4⟩ := D.quiet
              rw [hi] at d3
              cases d3
              obtain ⟨c1, c2⟩ := R.cons i m hi
              exact ⟨by rw [← c2]; exact D.ineq, d, by rw [← c1]; exact d1, d2, (R.quiet d4).mono hsub hnd hB⟩
          · obtain ⟨g1, d, g2, g3, g4⟩ := R.gone m hm hmem
            exact ⟨g1, d, g2, g3, g4.mono hsub hnd hB⟩
        · obtain ⟨a, ha⟩ := List.mem_iff_getElem?.1 hmem
          obtain ⟨i, h1, h2⟩ := hJ ha
          have hnd : s.indexMap.Nodup := R.sorted.imp fun h => h.ne
          have hij : i = j + 1 := by
            obtain ⟨u1, u2⟩ := List.getElem?_eq_some_iff.1 h2
            obtain ⟨v1, v2⟩ := List.getElem?_eq_some_iff.1 hm
            exact (List.Nodup.getElem_inj_iff hnd).1 (u2.trans v2.symm)
          subst hij
          have hmem := List.mem_of_getElem? h1
          rw [List.mem_cons] at hmem
          rcases hmem with h | h
          · omega
          · obtain ⟨i', h3, h4⟩ := List.mem_map.1 h
            have : i' = j := by omega
            subst this
            have h5 := (mem_keep.1 h3).2
            have h6 := (hdr i' hj).2 hD
            rw [h5] at h6
            cases h6
      · rw [if_neg (by rw [hs2]; exact hlt)]
        have hkn : (keep act s.nConstraints).length = s.nConstraints := by omega
        rw [keep_all hkn] at M
        have m1 := sieve_all M.la
        have m2 := sieve_all M.sf
        have m3 := sieve_all M.lo
        have m4 := sieve_all M.hi
        have m5 := sieve_all M.im
        have m6 := sieve_all M.cd
        have m7 := sieve_all M.eqs
        have m8 := sieve_all M.ts
        have e := M.eq
        rw [m1, m2, m3, m4, m5, m6, m7] at e
        rw [m8] at e
        dsimp only at e m5
        subst e
        have hall : ∀ j, j < s.nConstraints → act.getD j false = true := fun j hj => by
          have : j ∈ keep act s.nConstraints := by rw [keep_all hkn]; exact List.mem_range.2 hj
          exact (mem_keep.1 this).2
        refine ⟨⟨R.pts, R.npts, R.other, R.idx, R.zero, R.sorted, R.bound, R.full, R.cons, hsh, R.gone, R.lens⟩, by dsimp only; omega, hn,
          List.Sublist.refl _, fun j m hj hD => ?_, fun _ => ⟨rfl, fun j hj => haim j hj (hall j hj)⟩⟩
        have h6 := (hdr j hj).2 hD
        rw [hall j hj] at h6
        cases h6

theorem rel_refl (hidx : s.indexMap = List.range (s.nConstraints + 1)) (h1 : ∀ j, j ≤ s.nConstraints → ∃ x, s.lambdas[j]? = some x)
    (h2 : ∀ j, j ≤ s.nConstraints → ∃ x, s.scaleFactors[j]? = some x) (h3 : ∀ j, j ≤ s.nConstraints → ∃ x, s.negativeLambdaLimits[j]? = some x)
    (h4 : ∀ j, j ≤ s.nConstraints → ∃ x, s.positiveLambdaLimits[j]? = some x) : Rel s s := by
  have key : ∀ {j m : Nat}, s.indexMap[j]? = some m → j ≤ s.nConstraints ∧ m = j := by
    intro j m hj
    rw [hidx] at hj
    obtain ⟨a, b⟩ := List.getElem?_eq_some_iff.1 hj
    rw [List.length_range] at a
    rw [List.getElem_range] at b
    omega
  have dup : ∀ {v : List ℝ} {j : Nat}, (∃ x, v[j]? = some x) → ∃ x, v[j]? = some x ∧ v[j]? = some x := fun ⟨x, h⟩ => ⟨x, h, h⟩
  refine ⟨rfl, rfl, ⟨rfl, rfl, rfl, rfl, rfl, rfl⟩, by rw [hidx, List.length_range], by rw [hidx]; simp, by rw [hidx]; exact List.pairwise_lt_range,
    fun m hm => ?_, fun j m hj => ?_, fun j m hj => ?_, ⟨rfl, fun _ _ _ _ _ => rfl⟩, fun m hm hnot => ?_, .inl rfl⟩
  · rw [hidx, List.mem_range] at hm
    omega
  · obtain ⟨a, rfl⟩ := key hj
    exact ⟨dup (h1 m a), dup (h2 m a), dup (h3 m a), dup (h4 m a)⟩
  · obtain ⟨a, b⟩ := key hj
    have : m = j := by omega
    subst this
    exact ⟨rfl, rfl⟩
  · exact absurd (by rw [hidx, List.mem_range]; omega) hnot

theorem constraints_val {fuel n : Nat} (R : Rel s0 s) (B : Bracket s0) (hp : s.nPoints = s.points.length) (hn : n = s.nConstraints) :
    wp (computeConstraintDistances fuel n s) (fun r => Rel s0 r ∧ r.indexMap.Sublist s.indexMap ∧
      (∀ j m, j < s.nConstraints → Dropped s (s.nConstraints + 1) j → s.indexMap[j + 1]? = some m → m ∉ r.indexMap) ∧
      (r.nConstraints = s.nConstraints →
        r = { s with displacements := r.displacements, constraintDistancesScaled := r.constraintDistancesScaled } ∧
        ∀ j, j < s.nConstraints → Aim s (s.nConstraints + 1) j r.constraintDistancesScaled)) anyErr := by
  induction fuel generalizing s n with
  | zero => exact trivial
  | succ fuel ih =>
    subst hn
    unfold computeConstraintDistances
    rw [wp_bind]
    refine wp_imp (pass_val R B hp) ?_
    rintro ⟨s1, k⟩ ⟨R1, h1, h2, h3, h4, h5⟩
    dsimp only at R1 h1 h2 h3 h4 h5 ⊢
    refine wp_ite (fun hc => ?_) (fun _ => ?_)
    · refine wp_imp (ih R1 (by rw [R1.npts, R1.pts, ← R.npts, ← R.pts]; exact hp) rfl) fun r ⟨a, b, c, d⟩ => ⟨a, b.trans h3, ?_, fun hr => ?_⟩
      · exact fun j m hj hD hm hmem => h4 j m hj hD hm (b.subset hmem)
      · have hl := b.length_le
        rw [a.idx, R1.idx] at hl
        simp only [Bool.and_eq_true, decide_eq_true_eq] at hc
        omega
    · rw [wp_pure]
      exact ⟨R1, h3, h4, fun hr => h5 (by omega)⟩

end Slsm.Optimise
