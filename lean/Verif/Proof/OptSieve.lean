import Verif.Proof.OptFinish

/-! Removal of inactive constraints. -/

namespace Slsm.Optimise

open FP

section
variable {α : Type}

/-- The entries `off + m`, `m ∈ K`, of `v0` have been moved to the positions `off, off + 1, …` of `v`; the entries from `off + i` on are
untouched. -/
structure Sieve (off : Nat) (K : List Nat) (i : Nat) (v0 v : List α) : Prop where
  len : v.length = v0.length
  low : ∀ j, j < off → v[j]? = v0[j]?
  kept : ∀ (j m : Nat), K[j]? = some m → ∃ x, v[off + j]? = some x ∧ v0[off + m]? = some x
  high : ∀ j, i ≤ j → v[off + j]? = v0[off + j]?

theorem Sieve.init (off : Nat) (v : List α) : Sieve off [] 0 v v :=
  ⟨rfl, fun _ _ => rfl, fun j m h => by simp at h, fun _ _ => rfl⟩

theorem Sieve.skip {off i : Nat} {K : List Nat} {v0 v : List α} (S : Sieve off K i v0 v) : Sieve off K (i + 1) v0 v :=
  ⟨S.len, S.low, S.kept, fun j hj => S.high j (by omega)⟩

theorem Sieve.step {off i : Nat} {K : List Nat} {v0 v : List α} (S : Sieve off K i v0 v) (hK : K.length ≤ i) {x : α}
    (hx : v[off + i]? = some x) : Sieve off (K ++ [i]) (i + 1) v0 (v.set (off + K.length) x) := by
  have hlt : off + K.length < v.length := lt_of_le_of_lt (by omega) (List.getElem?_eq_some_iff.1 hx).1
  refine ⟨by rw [List.length_set, S.len], fun j hj => ?_, fun j m hj => ?_, fun j hj => ?_⟩
  · rw [List.getElem?_set_ne (by omega), S.low j hj]
  · rw [List.getElem?_append] at hj
    split at hj
    · rw [List.getElem?_set_ne (by omega)]
      exact S.kept j m hj
    · rename_i hge
      have hj0 : j - K.length = 0 := by
        by_contra hne
        rw [List.getElem?_eq_none (by simp; omega)] at hj
        cases hj
      rw [hj0] at hj
      cases hj
      have : j = K.length := by omega
      subst this
      refine ⟨x, List.getElem?_set_self hlt, ?_⟩
      rw [← S.high i le_rfl]
      exact hx
  · rw [List.getElem?_set_ne (by omega), S.high j (by omega)]

theorem getElem?_of_ex {v w : List α} {i j : Nat} (h : ∃ x, v[i]? = some x ∧ w[j]? = some x) : v[i]? = w[j]? := by
  obtain ⟨x, h1, h2⟩ := h
  rw [h1, h2]

theorem resize_getElem? {v : List α} {n j : Nat} {d x : α} (h : v[j]? = some x) (hj : j < n) : (resize v n d)[j]? = some x := by
  have hlt := (List.getElem?_eq_some_iff.1 h).1
  unfold resize
  rw [List.getElem?_append_left (by rw [List.length_take]; omega), List.getElem?_take, if_pos hj, h]

end

variable {s s0 s' : Optimise ℝ}

/-- Numbers below `i` of the constraints that stay. -/
def keep (act : List Bool) (i : Nat) : List Nat := (List.range i).filter fun j => act.getD j false

theorem keep_succ (act : List Bool) (i : Nat) : keep act (i + 1) = if act.getD i false then keep act i ++ [i] else keep act i := by
  unfold keep
  rw [List.range_succ, List.filter_append]
  cases h : act.getD i false
  · simpa using h
  · simpa using h

theorem keep_length (act : List Bool) (i : Nat) : (keep act i).length ≤ i := by
  unfold keep
  exact (List.length_filter_le _ _).trans (by simp)

theorem mem_keep {act : List Bool} {i m : Nat} : m ∈ keep act i ↔ m < i ∧ act.getD m false = true := by
  unfold keep
  rw [List.mem_filter, List.mem_range]

theorem keep_sorted (act : List Bool) (i : Nat) : (keep act i).Pairwise (· < ·) := List.pairwise_lt_range.filter _

theorem keep_all {act : List Bool} {i : Nat} (h : (keep act i).length = i) : keep act i = List.range i := by
  have : (keep act i).length = (List.range i).length := by rw [h, List.length_range]
  exact List.filter_eq_self.2 ((List.length_filter_eq_length_iff).1 this)

/-- The data of the constraints have been moved. -/
structure Moved (K : List Nat) (i : Nat) (s0 s : Optimise ℝ) : Prop where
  eq : s = { s0 with lambdas := s.lambdas, scaleFactors := s.scaleFactors, negativeLambdaLimits := s.negativeLambdaLimits,
                     positiveLambdaLimits := s.positiveLambdaLimits, indexMap := s.indexMap, constraintDistances := s.constraintDistances,
                     constraintDistancesScaled := s.constraintDistancesScaled, isEquality := s.isEquality }
  la : Sieve 1 K i s0.lambdas s.lambdas
  sf : Sieve 1 K i s0.scaleFactors s.scaleFactors
  lo : Sieve 1 K i s0.negativeLambdaLimits s.negativeLambdaLimits
  hi : Sieve 1 K i s0.positiveLambdaLimits s.positiveLambdaLimits
  im : Sieve 1 K i s0.indexMap s.indexMap
  cd : Sieve 0 K i s0.constraintDistances s.constraintDistances
  ts : Sieve 0 K i s0.constraintDistancesScaled s.constraintDistancesScaled
  eqs : Sieve 0 K i s0.isEquality s.isEquality

theorem sieve1 {α : Type} {i : Nat} {K : List Nat} {v0 v : List α} (S : Sieve 1 K i v0 v) (hK : K.length ≤ i) {Q : List α → Prop}
    (h : ∀ w, Sieve 1 (K ++ [i]) (i + 1) v0 w → Q w) : wp (rd v (i + 1) >>= wr v (K.length + 1)) Q anyErr := by
  rw [wp_bind]
  refine any_rd fun x hx => any_wr fun _ => ?_
  rw [Nat.add_comm] at hx
  have := S.step hK hx
  rw [Nat.add_comm 1 K.length] at this
  exact h _ this

theorem sieve0 {α : Type} {i : Nat} {K : List Nat} {v0 v : List α} (S : Sieve 0 K i v0 v) (hK : K.length ≤ i) {Q : List α → Prop}
    (h : ∀ w, Sieve 0 (K ++ [i]) (i + 1) v0 w → Q w) : wp (rd v i >>= wr v K.length) Q anyErr := by
  rw [wp_bind]
  refine any_rd fun x hx => any_wr fun _ => ?_
  have := S.step hK (x := x) (by rw [Nat.zero_add]; exact hx)
  rw [Nat.zero_add] at this
  exact h _ this

theorem moveDown_val {K : List Nat} {i : Nat} (M : Moved K i s0 s) (hK : K.length ≤ i) :
    wp (moveDown K.length i s) (Moved (K ++ [i]) (i + 1) s0) anyErr := by
  unfold moveDown
  rw [wp_bind]; refine sieve1 M.la hK fun l hl => ?_
  rw [wp_bind]; refine sieve1 M.sf hK fun f hf => ?_
  rw [wp_bind]; refine sieve1 M.lo hK fun lo hlo => ?_
  rw [wp_bind]; refine sieve1 M.hi hK fun hi hhi => ?_
  rw [wp_bind]; refine sieve1 M.im hK fun m hm => ?_
  rw [wp_bind]; refine sieve0 M.cd hK fun d hd => ?_
  rw [wp_bind]; refine sieve0 M.ts hK fun t ht => ?_
  rw [wp_bind]; refine sieve0 M.eqs hK fun e he => ?_
  rw [wp_pure]
  refine ⟨?_, hl, hf, hlo, hhi, hm, hd, ht, he⟩
  have := M.eq
  rw [this]

/-! ### corners of the box -/

/-- Corner `j` of the box. -/
noncomputable def cornerL (s : Optimise ℝ) (n j : Nat) : List ℝ :=
  (List.range n).map fun k => if j.testBit k then s.positiveLambdaLimits.getD k 0 else s.negativeLambdaLimits.getD k 0

/-- Change of function `k` caused by the multipliers `lambda`. -/
noncomputable def effect (s : Optimise ℝ) (k : Nat) (lambda : List ℝ) : ℝ :=
  ∑ i ∈ Finset.range s.nPoints, (s.points[i]?).elim 0 fun p =>
    if p.isFixed then 0 else capped p (raw s lambda p) * p.sensitivities.getD k 0 * p.length

theorem corner_val {n j : Nat} : wp (corner s n j) (fun l => l = cornerL s n j) anyErr := by
  unfold corner cornerL
  refine wp_forN (fun i l => l = (List.range i).map fun k => if j.testBit k then s.positiveLambdaLimits.getD k 0 else s.negativeLambdaLimits.getD k 0)
    rfl ?_
  intro i hi l hl
  rw [wp_bind]
  refine any_rd fun x hx => ?_
  rw [wp_pure, hl, List.range_succ, List.map_append]
  congr 1
  simp only [List.map_cons, List.map_nil, List.cons.injEq, and_true]
  split at hx
  · rw [getD_of hx, if_pos ‹_›]
  · rw [getD_of hx, if_neg ‹_›]

theorem change_val {ds lambda : List ℝ} {k : Nat} (hd : Displaced s lambda ds) (hp : s.nPoints = s.points.length) :
    wp (change { s with displacements := ds } k) (fun c => c = effect s k lambda) anyErr := by
  unfold change effect
  refine wp_forN (fun n c => c = ∑ i ∈ Finset.range n, (s.points[i]?).elim 0 fun p =>
    if p.isFixed then 0 else capped p (raw s lambda p) * p.sensitivities.getD k 0 * p.length) (by simp) ?_
  intro i hi c hc
  rw [Finset.sum_range_succ, wp_bind]
  refine any_rd fun p hpi => ?_
  dsimp only at hpi hi
  rw [hpi, Option.elim_some]
  refine wp_ite (fun hf => ?_) (fun hf => ?_)
  · rw [wp_pure, if_pos hf, add_zero, hc]
  · rw [if_neg hf, wp_bind]
    refine any_rd fun d hdi => ?_
    rw [wp_bind]
    refine any_rd fun a ha => ?_
    rw [wp_pure, hc]
    have := (hd.2 i p hi hpi).2 (by simpa using hf)
    rw [hdi] at this
    rw [Option.some.inj this, getD_of ha]
    rfl

/-- Only the displacements of movable points have changed. -/
def Shifted (s : Optimise ℝ) (ds : List ℝ) : Prop :=
  ds.length = s.displacements.length ∧ ∀ (i : Nat) (p : BoundaryPoint ℝ), i < s.nPoints → s.points[i]? = some p → p.isFixed = true →
    ds[i]? = s.displacements[i]?

theorem cornerChanges_val {n i : Nat} (hp : s.nPoints = s.points.length) : wp (cornerChanges s n i) (fun r => ∃ ds k,
    r.1 = { s with displacements := ds } ∧ Shifted s ds ∧ s.indexMap[i + 1]? = some k ∧
    r.2 = (List.range (2 ^ n)).map fun j => effect s k (cornerL s n j)) anyErr := by
  unfold cornerChanges
  refine wp_imp (wp_forN (fun m r => ∃ ds, r.1 = { s with displacements := ds } ∧ Shifted s ds ∧
    (0 < m → ∃ k, s.indexMap[i + 1]? = some k) ∧
    r.2 = (List.range m).map fun j => effect s (s.indexMap.getD (i + 1) 0) (cornerL s n j))
    ⟨s.displacements, rfl, ⟨rfl, fun _ _ _ _ _ => rfl⟩, fun h => absurd h (Nat.lt_irrefl 0), rfl⟩ ?_) ?_
  · rintro m hm ⟨s1, cs⟩ ⟨ds, rfl, h1, -, rfl⟩
    dsimp only
    rw [wp_bind]
    refine wp_imp corner_val fun lambda hlam => ?_
    rw [wp_bind]
    refine wp_imp computeDisplacements_val fun ds' hds' => ?_
    rw [wp_bind]
    refine any_rd fun k hk => ?_
    rw [wp_bind]
    have hD : Displaced s lambda ds' := by
      refine ⟨hds'.1.trans h1.1, fun j q hj hq => ⟨fun hf => ?_, (hds'.2 j q hj hq).2⟩⟩
      rw [(hds'.2 j q hj hq).1 hf]
      exact h1.2 j q hj hq hf
    refine wp_imp (change_val hD hp) fun c hc => ?_
    rw [wp_pure]
    refine ⟨ds', rfl, ⟨hD.1, fun j q hj hq hf => (hD.2 j q hj hq).1 hf⟩, fun _ => ⟨k, hk⟩, ?_⟩
    rw [List.range_succ, List.map_append]
    dsimp only
    rw [hc, getD_of hk, hlam]
    rfl
  · rintro ⟨s1, cs⟩ ⟨ds, rfl, h1, h2, rfl⟩
    obtain ⟨k, hk⟩ := h2 (by positivity)
    exact ⟨ds, k, rfl, h1, hk, by rw [getD_of hk]⟩

theorem sorted_last {cs : List ℝ} {b : ℝ} (hb : (cs.mergeSort fun a b => !(b <. a))[(cs.mergeSort fun a b => !(b <. a)).length - 1]? = some b) :
    b ∈ cs ∧ ∀ c ∈ cs, c ≤ b := by
  have hle : (fun a b : ℝ => !(b <. a)) = fun a b => decide (a ≤ b) := by
    funext a b
    by_cases h : b < a
    · rw [(FP.lt_real b a).2 h, decide_eq_false (not_le.2 h)]; rfl
    · rw [(FP.lt_real_false b a).2 (not_lt.1 h), decide_eq_true (not_lt.1 h)]; rfl
  rw [hle] at hb
  have hs : (cs.mergeSort fun a b => decide (a ≤ b)).Pairwise fun a b => decide (a ≤ b) = true :=
    List.pairwise_mergeSort (fun a b c h1 h2 => by simp only [decide_eq_true_eq] at *; exact h1.trans h2)
      (fun a b => by simp only [Bool.or_eq_true, decide_eq_true_eq]; exact le_total a b) cs
  have hp := List.mergeSort_perm cs fun a b => decide (a ≤ b)
  generalize cs.mergeSort (fun a b => decide (a ≤ b)) = l at *
  refine ⟨hp.mem_iff.1 (List.mem_of_getElem? hb), fun c hc => ?_⟩
  obtain ⟨i, hi⟩ := List.mem_iff_getElem?.1 (hp.mem_iff.2 hc)
  obtain ⟨h1, h2⟩ := List.getElem?_eq_some_iff.1 hi
  obtain ⟨h3, h4⟩ := List.getElem?_eq_some_iff.1 hb
  rcases Nat.lt_or_ge i (l.length - 1) with h | h
  · have := List.pairwise_iff_getElem.1 hs i (l.length - 1) h1 h3 h
    rw [h2, h4] at this
    simpa using this
  · have : i = l.length - 1 := by omega
    subst this
    rw [← h2, ← h4]

theorem sorted_first {cs : List ℝ} {b : ℝ} (hb : (cs.mergeSort fun a b => !(b <. a))[0]? = some b) : b ∈ cs ∧ ∀ c ∈ cs, b ≤ c := by
  have hle : (fun a b : ℝ => !(b <. a)) = fun a b => decide (a ≤ b) := by
    funext a b
    by_cases h : b < a
    · rw [(FP.lt_real b a).2 h, decide_eq_false (not_le.2 h)]; rfl
    · rw [(FP.lt_real_false b a).2 (not_lt.1 h), decide_eq_true (not_lt.1 h)]; rfl
  rw [hle] at hb
  have hs : (cs.mergeSort fun a b => decide (a ≤ b)).Pairwise fun a b => decide (a ≤ b) = true :=
    List.pairwise_mergeSort (fun a b c h1 h2 => by simp only [decide_eq_true_eq] at *; exact h1.trans h2)
      (fun a b => by simp only [Bool.or_eq_true, decide_eq_true_eq]; exact le_total a b) cs
  have hp := List.mergeSort_perm cs fun a b => decide (a ≤ b)
  generalize cs.mergeSort (fun a b => decide (a ≤ b)) = l at *
  refine ⟨hp.mem_iff.1 (List.mem_of_getElem? hb), fun c hc => ?_⟩
  obtain ⟨i, hi⟩ := List.mem_iff_getElem?.1 (hp.mem_iff.2 hc)
  obtain ⟨h1, h2⟩ := List.getElem?_eq_some_iff.1 hi
  obtain ⟨h3, h4⟩ := List.getElem?_eq_some_iff.1 hb
  rcases Nat.lt_or_ge 0 i with h | h
  · have := List.pairwise_iff_getElem.1 hs 0 i h3 h1 h
    rw [h2, h4] at this
    simpa using this
  · have : i = 0 := by omega
    subst this
    rw [← h2, ← h4]

/-- Why a constraint is dropped. -/
structure Dropped (s : Optimise ℝ) (n i : Nat) : Prop where
  ineq : s.isEquality[i]? = some false
  quiet : ∃ d k, s.constraintDistances[i]? = some d ∧ 0 ≤ d ∧ s.indexMap[i + 1]? = some k ∧
    ∀ j, j < 2 ^ n → effect s k (cornerL s n j) * (99 / 100) < d

/-- What `assess` does with the target of a constraint: cut it off at 99% of the extreme changes `mn`, `mx` at the corners. -/
def Aim (s : Optimise ℝ) (n i : Nat) (ts : List ℝ) : Prop :=
  ∃ d k mn mx, s.constraintDistances[i]? = some d ∧ s.indexMap[i + 1]? = some k ∧
    (∃ j, j < 2 ^ n ∧ effect s k (cornerL s n j) = mn) ∧ (∃ j, j < 2 ^ n ∧ effect s k (cornerL s n j) = mx) ∧
    (∀ j, j < 2 ^ n → mn ≤ effect s k (cornerL s n j) ∧ effect s k (cornerL s n j) ≤ mx) ∧
    (d < 0 → d < mn * (99 / 100) → ts[i]? = some (mn * (99 / 100))) ∧ (d < 0 → mn * (99 / 100) ≤ d → ts[i]? = s.constraintDistancesScaled[i]?) ∧
    (0 ≤ d → mx * (99 / 100) < d → ts[i]? = some (mx * (99 / 100))) ∧ (0 ≤ d → d ≤ mx * (99 / 100) → ts[i]? = s.constraintDistancesScaled[i]?)

theorem assess_val {n i : Nat} (hp : s.nPoints = s.points.length) : wp (assess n i s) (fun r => ∃ ds ts,
    r.1 = { s with displacements := ds, constraintDistancesScaled := ts } ∧ Shifted s ds ∧
    (r.2 = false ↔ Dropped s n i) ∧ (∀ j, j ≠ i → ts[j]? = s.constraintDistancesScaled[j]?) ∧ (r.2 = true → Aim s n i ts)) anyErr := by
  unfold assess
  rw [wp_bind]
  refine wp_imp (cornerChanges_val hp) ?_
  rintro ⟨s1, cs⟩ ⟨ds, k, rfl, h1, hk, rfl⟩
  dsimp only
  rw [wp_bind]
  refine any_rd fun mn hmn => ?_
  rw [wp_bind]
  refine any_rd fun mx hmx => ?_
  obtain ⟨hm1, hm2⟩ := sorted_last hmx
  obtain ⟨hn1, hn2⟩ := sorted_first hmn
  rw [wp_bind]
  refine any_rd fun d hd => ?_
  have c99 : (lit 99 100 : ℝ) = 99 / 100 := by rw [FP.lit_real]; norm_num
  have hmin : ∀ x : ℝ, x *. lit 99 100 = x * (99 / 100) := fun x => by rw [c99, FP.mul_real]
  have attain : ∀ {m : ℝ}, m ∈ (List.range (2 ^ n)).map (fun j => effect s k (cornerL s n j)) → ∃ j, j < 2 ^ n ∧ effect s k (cornerL s n j) = m := by
    intro m hm
    obtain ⟨j, hj, e⟩ := List.mem_map.1 hm
    exact ⟨j, List.mem_range.1 hj, e⟩
  have between : ∀ j, j < 2 ^ n → mn ≤ effect s k (cornerL s n j) ∧ effect s k (cornerL s n j) ≤ mx := fun j hj =>
    ⟨hn2 _ (List.mem_map.2 ⟨j, List.mem_range.2 hj, rfl⟩), hm2 _ (List.mem_map.2 ⟨j, List.mem_range.2 hj, rfl⟩)⟩
  have aim : ∀ ts : List ℝ, (d < 0 → d < mn * (99 / 100) → ts[i]? = some (mn * (99 / 100))) →
      (d < 0 → mn * (99 / 100) ≤ d → ts[i]? = s.constraintDistancesScaled[i]?) →
      (0 ≤ d → mx * (99 / 100) < d → ts[i]? = some (mx * (99 / 100))) →
      (0 ≤ d → d ≤ mx * (99 / 100) → ts[i]? = s.constraintDistancesScaled[i]?) → Aim s n i ts :=
    fun ts a b c e => ⟨d, k, mn, mx, hd, hk, attain hn1, attain hm1, between, a, b, c, e⟩
  rw [hmin, hmin]
  have hd' : s.constraintDistances[i]? = some d := hd
  refine wp_ite (fun h0 => ?_) (fun h0 => ?_)
  · have h0' : d < 0 := by simpa using h0
    have nd : ¬ Dropped s n i := by
      rintro ⟨-, d', k', e1, e2, -⟩
      rw [hd'] at e1
      cases e1
      linarith
    refine wp_ite (fun h2 => ?_) (fun h2 => ?_)
    · rw [FP.lt_real] at h2
      rw [wp_bind]
      refine any_wr fun hlt => ?_
      rw [wp_pure]
      exact ⟨ds, _, rfl, h1, ⟨fun h => (by cases h), fun h => absurd h nd⟩, fun j hj => List.getElem?_set_ne (Ne.symm hj), fun _ => aim _
        (fun _ _ => List.getElem?_set_self hlt) (fun _ h => absurd h (not_le.2 h2)) (fun h => absurd h (not_le.2 h0')) (fun h => absurd h (not_le.2 h0'))⟩
    · have h2' : mn * (99 / 100) ≤ d := by simpa using h2
      rw [wp_pure]
      exact ⟨ds, _, rfl, h1, ⟨fun h => (by cases h), fun h => absurd h nd⟩, fun _ _ => rfl, fun _ => aim _
        (fun _ h => absurd h (not_lt.2 h2')) (fun _ _ => rfl) (fun h => absurd h (not_le.2 h0')) (fun h => absurd h (not_le.2 h0'))⟩
  · have h0' : 0 ≤ d := by simpa using h0
    refine wp_ite (fun h2 => ?_) (fun h2 => ?_)
    · rw [FP.lt_real] at h2
      rw [wp_bind]
      refine any_rd fun e he => ?_
      have he' : s.isEquality[i]? = some e := he
      refine wp_ite (fun h3 => ?_) (fun h3 => ?_)
      · rw [wp_bind]
        refine any_wr fun hlt => ?_
        rw [wp_pure]
        refine ⟨ds, _, rfl, h1, ⟨fun h => (by cases h), fun h => ?_⟩, fun j hj => List.getElem?_set_ne (Ne.symm hj), fun _ => aim _
          (fun h => absurd h (not_lt.2 h0')) (fun h => absurd h (not_lt.2 h0')) (fun _ _ => List.getElem?_set_self hlt) (fun _ h => absurd h (not_le.2 h2))⟩
        have := h.ineq
        rw [he', h3] at this
        cases this
      · rw [wp_pure]
        refine ⟨ds, _, rfl, h1, ⟨fun _ => ⟨?_, d, k, hd, h0', hk, fun j hj => ?_⟩, fun _ => rfl⟩, fun _ _ => rfl, fun h => by cases h⟩
        · have : e = false := by simpa using h3
          rw [← this]
          exact he
        · refine lt_of_le_of_lt (mul_le_mul_of_nonneg_right (between j hj).2 (by norm_num)) h2
    · have h2' : d ≤ mx * (99 / 100) := by simpa using h2
      rw [wp_pure]
      refine ⟨ds, _, rfl, h1, ⟨fun h => (by cases h), fun h => ?_⟩, fun _ _ => rfl, fun _ => aim _
        (fun h => absurd h (not_lt.2 h0')) (fun h => absurd h (not_lt.2 h0')) (fun _ h => absurd h (not_lt.2 h2')) (fun _ _ => rfl)⟩
      obtain ⟨d', k', e1, -, e2, e3⟩ := h.quiet
      rw [hd'] at e1; cases e1
      rw [hk] at e2; cases e2
      obtain ⟨j, hj, hje⟩ := attain hm1
      have := e3 j hj
      rw [hje] at this
      linarith

end Slsm.Optimise
