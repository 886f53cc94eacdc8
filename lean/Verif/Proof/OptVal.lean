import Verif.Spec.Optimise
import Verif.Lib.WP

/-! Values computed by the optimiser (whenever it returns). -/

namespace Slsm

variable {α : Type}

/-- Any abnormal outcome is allowed. -/
abbrev anyErr : Err → Prop := fun _ => True

theorem any_rd {v : List α} {i : Nat} {Q : α → Prop} (h : ∀ a, v[i]? = some a → Q a) : wp (rd v i) Q anyErr := by
  unfold rd
  cases e : v[i]? with
  | none => exact trivial
  | some a => exact h a e

theorem any_wr {v : List α} {i : Nat} {a : α} {Q : List α → Prop} (h : i < v.length → Q (v.set i a)) : wp (wr v i a) Q anyErr := by
  unfold wr
  split
  · exact h ‹_›
  · exact trivial

theorem any_modAt {v : List α} {i : Nat} {f : α → Res α} {Q : List α → Prop}
    (h : ∀ x, v[i]? = some x → wp (f x) (fun b => Q (v.set i b)) anyErr) : wp (modAt v i f) Q anyErr := by
  unfold modAt
  rw [wp_bind]
  refine any_rd fun x hx => ?_
  rw [wp_bind]
  exact wp_imp (h x hx) fun b hb => any_wr fun _ => hb

theorem any_ok {r : Res α} {Q : α → Prop} (h : wp r Q anyErr) {a : α} (e : r = .ok a) : Q a := by
  subst e; exact h

theorem any_of {r : Res α} {Q : α → Prop} (h : ∀ a, r = .ok a → Q a) : wp r Q anyErr := by
  cases r with
  | ok a => exact h a rfl
  | error e => exact trivial

/-- A loop that updates entry `i` in step `i`. -/
theorem any_each {β : Type} {v : List β} {n : Nat} {f : Nat → List β → Res (List β)} (P : Nat → β → β → Prop)
    (h : ∀ i w, i < n → w.length = v.length → wp (f i w) (fun w' => w'.length = w.length ∧ (∀ j, j ≠ i → w'[j]? = w[j]?) ∧
      ∃ x y, w[i]? = some x ∧ w'[i]? = some y ∧ P i x y) anyErr) :
    wp (forN n v f) (fun w => w.length = v.length ∧ (∀ j, n ≤ j → w[j]? = v[j]?) ∧
      ∀ j, j < n → ∃ x y, v[j]? = some x ∧ w[j]? = some y ∧ P j x y) anyErr := by
  refine wp_forN (fun i w => w.length = v.length ∧ (∀ j, i ≤ j → w[j]? = v[j]?) ∧
      ∀ j, j < i → ∃ x y, v[j]? = some x ∧ w[j]? = some y ∧ P j x y) ⟨rfl, fun _ _ => rfl, fun j hj => absurd hj (Nat.not_lt_zero j)⟩ ?_
  intro i hi w ⟨h1, h2, h3⟩
  refine wp_imp (h i w hi h1) fun w' ⟨g1, g2, x, y, g3, g4, g5⟩ => ⟨g1.trans h1, fun j hj => ?_, fun j hj => ?_⟩
  · rw [g2 j (by omega), h2 j (by omega)]
  · by_cases hji : j = i
    · subst hji
      exact ⟨x, y, by rw [← h2 j le_rfl]; exact g3, g4, g5⟩
    · rw [g2 j hji]
      exact h3 j (by omega)

/-- The same for `modAt`. -/
theorem any_modEach {β : Type} {v : List β} {n : Nat} {f : Nat → List β → Res (List β)} (P : Nat → β → β → Prop)
    (h : ∀ i w, i < n → w.length = v.length → wp (f i w) (fun w' => ∃ x y, w[i]? = some x ∧ w' = w.set i y ∧ P i x y) anyErr) :
    wp (forN n v f) (fun w => w.length = v.length ∧ (∀ j, n ≤ j → w[j]? = v[j]?) ∧
      ∀ j, j < n → ∃ x y, v[j]? = some x ∧ w[j]? = some y ∧ P j x y) anyErr := by
  refine any_each P fun i w hi hw => wp_imp (h i w hi hw) ?_
  rintro w' ⟨x, y, h1, rfl, h2⟩
  exact ⟨List.length_set, fun j hj => List.getElem?_set_ne (Ne.symm hj), x, y, h1,
    List.getElem?_set_self (List.getElem?_eq_some_iff.1 h1).1, h2⟩

namespace Optimise

open FP

variable {s s' : Optimise ℝ} {lambda : List ℝ} {p : BoundaryPoint ℝ}

/-- Displacement before the cut-off, as the code computes it. -/
noncomputable def raw (s : Optimise ℝ) (lambda : List ℝ) (p : BoundaryPoint ℝ) : ℝ :=
  s.scaleFactors.getD 0 0 * lambda.getD 0 0 * p.sensitivities.getD 0 0 +
    ∑ j ∈ Finset.range s.nConstraints, s.scaleFactors.getD (j + 1) 0 * lambda.getD (j + 1) 0 * p.sensitivities.getD (s.indexMap.getD (j + 1) 0) 0

theorem getD_of {l : List α} {i : Nat} {a d : α} (h : l[i]? = some a) : l.getD i d = a := by
  rw [List.getD, h]; rfl

theorem displacement_val : wp (displacement s lambda p) (fun d => d = capped p (raw s lambda p)) anyErr := by
  unfold displacement
  rw [wp_bind]
  refine any_rd fun f hf => ?_
  rw [wp_bind]
  refine any_rd fun l hl => ?_
  rw [wp_bind]
  refine any_rd fun c hc => ?_
  rw [wp_bind]
  refine wp_imp (wp_forN (fun i d => d = f * l * c + ∑ j ∈ Finset.range i,
    s.scaleFactors.getD (j + 1) 0 * lambda.getD (j + 1) 0 * p.sensitivities.getD (s.indexMap.getD (j + 1) 0) 0)
    (by simp) fun i hi d hd => ?_) fun d hd => ?_
  · rw [wp_bind]
    refine any_rd fun k hk => ?_
    rw [wp_bind]
    refine any_rd fun f' hf' => ?_
    rw [wp_bind]
    refine any_rd fun l' hl' => ?_
    rw [wp_bind]
    refine any_rd fun c' hc' => ?_
    rw [wp_pure, Finset.sum_range_succ, getD_of hk, getD_of hf', getD_of hl', getD_of hc', hd]
    simp only [FP.add_real, FP.mul_real]
    ring
  · rw [wp_pure]
    have e : d = raw s lambda p := by
      rw [hd, raw, getD_of hf, getD_of hl, getD_of hc]
    rw [← e]
    unfold capped
    cases hdm : p.isDomain
    · simp
    · simp only [Bool.true_and, if_true]
      by_cases hlt : d < p.negativeLimit
      · rw [if_pos (by simpa using hlt), max_eq_right hlt.le]
      · rw [if_neg (by simpa using hlt), max_eq_left (not_lt.1 hlt)]

/-- What `computeDisplacements` does. -/
def Displaced (s : Optimise ℝ) (lambda ds : List ℝ) : Prop :=
  ds.length = s.displacements.length ∧ ∀ (i : Nat) (p : BoundaryPoint ℝ), i < s.nPoints → s.points[i]? = some p →
    (p.isFixed = true → ds[i]? = s.displacements[i]?) ∧ (p.isFixed = false → ds[i]? = some (capped p (raw s lambda p)))

theorem computeDisplacements_val : wp (computeDisplacements s lambda) (Displaced s lambda) anyErr := by
  unfold computeDisplacements
  refine wp_imp (wp_forN (fun i ds => ds.length = s.displacements.length ∧ (∀ j, i ≤ j → ds[j]? = s.displacements[j]?) ∧
    ∀ (j : Nat) (p : BoundaryPoint ℝ), j < i → s.points[j]? = some p →
      (p.isFixed = true → ds[j]? = s.displacements[j]?) ∧ (p.isFixed = false → ds[j]? = some (capped p (raw s lambda p))))
    ⟨rfl, fun _ _ => rfl, fun j _ hj => absurd hj (Nat.not_lt_zero j)⟩ ?_) fun ds ⟨h1, _, h2⟩ => ⟨h1, h2⟩
  intro i hi ds ⟨h1, h2, h3⟩
  rw [wp_bind]
  refine any_rd fun p hp => ?_
  refine wp_ite (fun hf => ?_) (fun hf => ?_)
  · rw [wp_pure]
    refine ⟨h1, fun j hj => h2 j (by omega), fun j q hj hq => ?_⟩
    by_cases hji : j = i
    · subst hji
      rw [hp] at hq
      cases hq
      exact ⟨fun _ => h2 j le_rfl, fun h0 => by rw [hf] at h0; cases h0⟩
    · exact h3 j q (by omega) hq
  · rw [wp_bind]
    refine wp_imp displacement_val fun d hd => any_wr fun hlt => ?_
    refine ⟨by rw [List.length_set, h1], fun j hj => ?_, fun j q hj hq => ?_⟩
    · rw [List.getElem?_set_ne (by omega)]
      exact h2 j (by omega)
    · by_cases hji : j = i
      · subst hji
        rw [hp] at hq
        cases hq
        exact ⟨fun h0 => absurd h0 hf, fun _ => by rw [List.getElem?_set_self hlt, hd]⟩
      · rw [List.getElem?_set_ne (Ne.symm hji)]
        exact h3 j q (by omega) hq

/-! ### rescaling -/

theorem getD_map_mul (l : List ℝ) (t : ℝ) (j : Nat) : (l.map (· * t)).getD j 0 = l.getD j 0 * t := by
  simp only [List.getD, List.getElem?_map]
  cases l[j]? <;> simp

theorem raw_map_mul (t : ℝ) : raw s (lambda.map (· * t)) p = raw s lambda p * t := by
  unfold raw
  simp only [getD_map_mul]
  rw [add_mul, Finset.sum_mul]
  congr 1
  · ring
  · exact Finset.sum_congr rfl fun j _ => by ring

theorem list_map_of_each {l l' : List ℝ} {n : Nat} {g : ℝ → ℝ} (hn : l.length = n) (hl : l'.length = l.length)
    (h : ∀ j, j < n → ∃ x y, l[j]? = some x ∧ l'[j]? = some y ∧ y = g x) : l' = l.map g := by
  refine List.ext_getElem? fun j => ?_
  by_cases hj : j < n
  · obtain ⟨x, y, h1, h2, rfl⟩ := h j hj
    rw [List.getElem?_map, h1, h2]
    rfl
  · rw [List.getElem?_eq_none (by omega), List.getElem?_eq_none (by rw [List.length_map]; omega)]

/-- The displacements belong to the multipliers. -/
def Current (s : Optimise ℝ) : Prop :=
  ∀ (i : Nat) (p : BoundaryPoint ℝ), i < s.nPoints → s.points[i]? = some p → p.isFixed = false →
    s.displacements[i]? = some (capped p (raw s s.lambdas p))

theorem rescale_val (hc : Current s) (hm : 0 < s.maxDisplacement) (hl : s.lambdas.length = s.nConstraints + 1) :
    wp (rescaleDisplacements s) (fun r => ∃ l ds, r.1 = { s with lambdas := l, displacements := ds } ∧ 0 < r.2 ∧ r.2 ≤ 1 ∧
      l = s.lambdas.map (· * r.2) ∧ Current r.1 ∧ ds.length = s.displacements.length ∧
      (∀ (i : Nat) (p : BoundaryPoint ℝ), i < s.nPoints → s.points[i]? = some p → p.isFixed = true → ds[i]? = s.displacements[i]?) ∧
      ((∀ (i : Nat) (p : BoundaryPoint ℝ), i < s.nPoints → s.points[i]? = some p → p.isFixed = false →
          |capped p (raw s s.lambdas p)| ≤ s.maxDisplacement) → r.2 = 1) ∧
      (r.2 = 1 ∨ ∃ (i : Nat) (p : BoundaryPoint ℝ), s.points[i]? = some p ∧ p.isFixed = false ∧ |capped p (raw s s.lambdas p)| * r.2 = s.maxDisplacement) ∧
      ∀ (i : Nat) (p : BoundaryPoint ℝ), i < s.nPoints → s.points[i]? = some p → p.isFixed = false →
        (p.isDomain = true → |p.negativeLimit| ≤ s.maxDisplacement) → |capped p (raw s l p)| ≤ s.maxDisplacement) anyErr := by
  unfold rescaleDisplacements
  rw [wp_bind]
  refine wp_imp (wp_forN (fun i m => (m = 0 ∨ s.maxDisplacement < m ∧
      ∃ (j : Nat) (p : BoundaryPoint ℝ), j < i ∧ s.points[j]? = some p ∧ p.isFixed = false ∧ |capped p (raw s s.lambdas p)| = m) ∧
      ∀ (j : Nat) (p : BoundaryPoint ℝ), j < i → s.points[j]? = some p → p.isFixed = false →
      |capped p (raw s s.lambdas p)| ≤ Max.max s.maxDisplacement m) ⟨.inl (by simp), fun j _ hj => absurd hj (Nat.not_lt_zero j)⟩ ?_) ?_
  · intro i hi m ⟨h1, h2⟩
    rw [wp_bind]
    refine any_rd fun p hp => ?_
    refine wp_ite (fun hf => ?_) (fun hf => ?_)
    · rw [wp_pure]
      refine ⟨h1.imp_right fun ⟨a, j, q, b, c⟩ => ⟨a, j, q, by omega, c⟩, fun j q hj hq hqf => ?_⟩
      by_cases hji : j = i
      · subst hji
        rw [hp] at hq
        cases hq
        rw [hf] at hqf
        cases hqf
      · exact h2 j q (by omega) hq hqf
    · rw [wp_bind]
      refine any_rd fun d hd => ?_
      rw [wp_pure]
      have hf' : p.isFixed = false := by simpa using hf
      have hdv := hc i p hi hp hf'
      rw [hd] at hdv
      have hdv := Option.some.inj hdv
      by_cases hcond : s.maxDisplacement < |d| ∧ m < |d|
      · rw [if_pos (by simpa using hcond)]
        refine ⟨.inr ⟨hcond.1, i, p, by omega, hp, hf', by rw [hdv]; rfl⟩, fun j q hj hq hqf => ?_⟩
        by_cases hji : j = i
        · subst hji
          rw [hp] at hq
          cases hq
          rw [← hdv]
          exact le_max_right _ _
        · refine (h2 j q (by omega) hq hqf).trans (max_le_max le_rfl ?_)
          exact hcond.2.le
      · rw [if_neg (by simpa using hcond)]
        refine ⟨h1.imp_right fun ⟨a, j, q, b, c⟩ => ⟨a, j, q, by omega, c⟩, fun j q hj hq hqf => ?_⟩
        by_cases hji : j = i
        · subst hji
          rw [hp] at hq
          cases hq
          rw [← hdv]
          rw [le_max_iff]
          rcases not_and_or.1 hcond with h | h
          · exact .inl (not_lt.1 h)
          · exact .inr (not_lt.1 h)
        · exact h2 j q (by omega) hq hqf
  · intro m ⟨h1, h2⟩
    refine wp_ite (fun h0 => ?_) (fun h0 => ?_)
    · have h0' : m = 0 := by simpa using h0
      subst h0'
      rw [wp_pure]
      refine ⟨s.lambdas, s.displacements, rfl, by simp, by simp, by simp, hc, rfl, fun _ _ _ _ _ => rfl, fun _ => by simp, .inl (by simp), ?_⟩
      intro i p hi hp hf _
      have := h2 i p hi hp hf
      rwa [max_eq_left hm.le] at this
    · have h0' : m ≠ 0 := by simpa using h0
      obtain ⟨hmm, j, q, hj, hq, hqf, hqm⟩ := h1.resolve_left h0'
      have hpos : 0 < m := hm.trans hmm
      rw [wp_bind]
      refine wp_imp (any_modEach (fun _ x y => y = x * (s.maxDisplacement / m)) fun i l hi hl => ?_) ?_
      · exact any_modAt fun x hx => ⟨x, _, hx, rfl, rfl⟩
      · intro l ⟨g1, _, g3⟩
        have hlm := list_map_of_each hl g1 g3
        rw [wp_bind]
        refine wp_imp computeDisplacements_val fun ds hds => ?_
        rw [wp_pure]
        have ht : 0 < s.maxDisplacement / m := div_pos hm hpos
        have ht1 : s.maxDisplacement / m < 1 := (div_lt_one hpos).2 hmm
        refine ⟨l, ds, rfl, ht, ht1.le, hlm, fun i p hi hp hf => (hds.2 i p hi hp).2 hf, hds.1,
          fun i p hi hp hf => (hds.2 i p hi hp).1 hf, fun hall => ?_, .inr ⟨j, q, hq, hqf, ?_⟩, fun i p hi hp hf hdom => ?_⟩
        · exact absurd (hqm ▸ hall j q hj hq hqf) (not_le.2 hmm)
        · rw [hqm]
          show m * (s.maxDisplacement / m) = _
          field_simp
        · have hb := h2 i p hi hp hf
          rw [max_eq_right hmm.le] at hb
          rw [hlm, raw_map_mul]
          have htm : m * (s.maxDisplacement / m) = s.maxDisplacement := by field_simp
          generalize s.maxDisplacement / m = t at *
          generalize raw s s.lambdas p = r at *
          unfold capped at hb ⊢
          cases hdm : p.isDomain
          · rw [hdm] at hb
            simp only [Bool.false_eq_true, if_false] at hb ⊢
            rw [abs_mul, abs_of_pos ht, ← htm]
            exact mul_le_mul_of_nonneg_right hb ht.le
          · rw [hdm] at hb
            simp only [if_true] at hb ⊢
            have hN := abs_le.1 (hdom hdm)
            rw [abs_le]
            refine ⟨hN.1.trans (le_max_right _ _), max_le ?_ hN.2⟩
            by_cases hr : 0 ≤ r
            · rw [← htm]
              exact mul_le_mul_of_nonneg_right ((le_max_left _ _).trans (abs_le.1 hb).2) ht.le
            · exact (mul_nonpos_of_nonpos_of_nonneg (not_le.1 hr).le ht.le).trans hm.le

end Optimise

end Slsm
