import Verif.Proof.OptKeep
import Verif.Proof.RoundGrad

/-! # The displacements in rounded arithmetic -/

namespace Slsm

open FP Rounding

namespace Rounding

variable {R : Rounding}

theorem tiny_le {a b : ℕ} (h : a + b ≤ 1074) : (2 : ℝ) ^ a / 2 ^ 1074 ≤ 1 / 2 ^ b := by
  rw [div_le_div_iff₀ (by positivity) (by positivity), ← pow_add, one_mul]
  exact pow_le_pow_right₀ (by norm_num) h

theorem tiny_le' {b : ℕ} (h : b ≤ 1074) : (1 : ℝ) / 2 ^ 1074 ≤ 1 / 2 ^ b := by
  have := tiny_le (a := 0) (b := b) (by omega)
  rwa [pow_zero] at this

/-- A product of three factors. -/
theorem term_near {f l c : ℝ} (hc : |c| ≤ 2 ^ 100) : |R.rnd (R.rnd (f * l) * c) - f * l * c| ≤ 3 / 2 ^ 52 * |f * l * c| + 1 / 2 ^ 240 := by
  have e1 := R.err (f * l)
  have e2 := R.err (R.rnd (f * l) * c)
  have h1 : |R.rnd (f * l) * c - f * l * c| ≤ |f * l * c| / 2 ^ 52 + 1 / 2 ^ 250 := by
    rw [← sub_mul, abs_mul, abs_mul (f * l)]
    calc |R.rnd (f * l) - f * l| * |c| ≤ (|f * l| / 2 ^ 52 + 1 / 2 ^ 1074) * |c| := mul_le_mul_of_nonneg_right e1 (abs_nonneg c)
      _ = |f * l| * |c| / 2 ^ 52 + |c| / 2 ^ 1074 := by ring
      _ ≤ |f * l| * |c| / 2 ^ 52 + 2 ^ 100 / 2 ^ 1074 := by gcongr
      _ ≤ _ := by have := tiny_le (a := 100) (b := 250) (by norm_num); linarith
  have h2 : |R.rnd (f * l) * c| ≤ |f * l * c| + (|f * l * c| / 2 ^ 52 + 1 / 2 ^ 250) := by
    have := abs_add_le (R.rnd (f * l) * c - f * l * c) (f * l * c)
    rw [sub_add_cancel] at this
    linarith
  have h3 : |R.rnd (f * l) * c| / 2 ^ 52 ≤ (|f * l * c| + (|f * l * c| / 2 ^ 52 + 1 / 2 ^ 250)) / 2 ^ 52 := by gcongr
  have := abs_add_le (R.rnd (R.rnd (f * l) * c) - R.rnd (f * l) * c) (R.rnd (f * l) * c - f * l * c)
  rw [sub_add_sub_cancel] at this
  have h0 := abs_nonneg (f * l * c)
  have n0 := tiny_le' (b := 250) (by norm_num)
  have n1 : (1 : ℝ) / 2 ^ 250 / 2 ^ 52 + 1 / 2 ^ 250 + 1 / 2 ^ 250 ≤ 1 / 2 ^ 240 := by norm_num
  linarith

/-- One more term of a sum. -/
theorem sum_near {d T A τ t : ℝ} {k : ℕ} (h1 : 1 ≤ k) (hk : k ≤ 2 ^ 20) (hA : |T| ≤ A)
    (hd : |d - T| ≤ 4 * k / 2 ^ 52 * A + 2 * k / 2 ^ 240) (hτ : |τ - t| ≤ 3 / 2 ^ 52 * |t| + 1 / 2 ^ 240) :
    |R.rnd (d + τ) - (T + t)| ≤ 4 * (k + 1 : ℕ) / 2 ^ 52 * (A + |t|) + 2 * (k + 1 : ℕ) / 2 ^ 240 := by
  have e := R.err (d + τ)
  have g1 := near_add hd hτ
  have g2 : |d + τ| ≤ A + |t| + (4 * k / 2 ^ 52 * A + 2 * k / 2 ^ 240 + (3 / 2 ^ 52 * |t| + 1 / 2 ^ 240)) := by
    have := abs_add_le (d + τ - (T + t)) (T + t)
    rw [sub_add_cancel] at this
    have := abs_add_le T t
    linarith
  have g3 : |d + τ| / 2 ^ 52 ≤ (A + |t| + (4 * k / 2 ^ 52 * A + 2 * k / 2 ^ 240 + (3 / 2 ^ 52 * |t| + 1 / 2 ^ 240))) / 2 ^ 52 := by gcongr
  have := abs_add_le (R.rnd (d + τ) - (d + τ)) (d + τ - (T + t))
  rw [sub_add_sub_cancel] at this
  have hk1 : (1 : ℝ) ≤ k := by exact_mod_cast h1
  have hk2 : (k : ℝ) ≤ 2 ^ 20 := by exact_mod_cast hk
  have hA0 := (abs_nonneg T).trans hA
  have ht0 := abs_nonneg t
  have a1 : (k : ℝ) * A ≤ 2 ^ 20 * A := mul_le_mul_of_nonneg_right hk2 hA0
  have a2 : |t| ≤ (k : ℝ) * |t| := le_mul_of_one_le_left ht0 hk1
  push_cast
  have n1 : (1 : ℝ) / 2 ^ 1074 ≤ 1 / 2 ^ 241 := tiny_le' (by norm_num)
  have n2 : (2 : ℝ) * k / 2 ^ 240 / 2 ^ 52 ≤ 1 / 2 ^ 242 := by
    calc (2 : ℝ) * k / 2 ^ 240 / 2 ^ 52 ≤ 2 * 2 ^ 20 / 2 ^ 240 / 2 ^ 52 := by gcongr
      _ ≤ _ := by norm_num
  have n3 : (1 : ℝ) / 2 ^ 240 / 2 ^ 52 + 1 / 2 ^ 242 + 1 / 2 ^ 241 ≤ 1 / 2 ^ 240 := by norm_num
  generalize hε : (1 : ℝ) / 2 ^ 240 = ε at *
  have m1 : (2 : ℝ) * k / 2 ^ 240 = 2 * k * ε := by rw [← hε]; ring
  have m2 : (2 : ℝ) * (k + 1) / 2 ^ 240 = 2 * k * ε + 2 * ε := by rw [← hε]; ring
  rw [m1] at *
  rw [m2]
  generalize (1 : ℝ) / 2 ^ 242 = z1 at *
  generalize (1 : ℝ) / 2 ^ 241 = z2 at *
  generalize (1 : ℝ) / 2 ^ 1074 = z3 at *
  generalize |t| = w at *
  have x1 : 4 * (k : ℝ) / 2 ^ 52 * A / 2 ^ 52 ≤ A / 2 ^ 52 := by
    have e1 : 4 * (k : ℝ) / 2 ^ 52 * A / 2 ^ 52 = (k * A) * (4 / 2 ^ 104) := by ring
    have e2 : A / 2 ^ 52 = (2 ^ 20 * A) * (1 / 2 ^ 72) := by ring
    rw [e1, e2]
    exact mul_le_mul a1 (by norm_num) (by norm_num) (by positivity)
  have x2 : 4 * ((k : ℝ) + 1) / 2 ^ 52 * (A + w) = 4 * k / 2 ^ 52 * A + 4 / 2 ^ 52 * A + 4 * (k * w) / 2 ^ 52 + 4 / 2 ^ 52 * w := by ring
  rw [x2]
  linarith

theorem sum_abs_le (t : ℕ → ℝ) (n : ℕ) : |∑ j ∈ Finset.range n, t j| ≤ ∑ j ∈ Finset.range n, |t j| := Finset.abs_sum_le_sum_abs _ _

end Rounding

namespace Optimise

variable {R : Rounding} {s s' : Optimise R.Num} {p : BoundaryPoint R.Num}

/-- Value of an entry. -/
noncomputable def at' (l : List R.Num) (j : Nat) : ℝ := (l.getD j (nat 0)).val

theorem at_of {l : List R.Num} {j : Nat} {x : R.Num} (h : l[j]? = some x) : at' l j = x.val := by rw [at', getD_of h]

/-- Sensitivity that belongs to multiplier `j`. -/
noncomputable def sens (s : Optimise R.Num) (p : BoundaryPoint R.Num) (j : Nat) : ℝ :=
  at' p.sensitivities (if j = 0 then 0 else s.indexMap.getD j 0)

/-- Contribution of multiplier `j` to the displacement. -/
noncomputable def part (s : Optimise R.Num) (l : List R.Num) (p : BoundaryPoint R.Num) (j : Nat) : ℝ := at' s.scaleFactors j * at' l j * sens s p j

/-- Exact sum, and sum of the absolute values. -/
noncomputable def whole (s : Optimise R.Num) (l : List R.Num) (p : BoundaryPoint R.Num) : ℝ := ∑ j ∈ Finset.range (s.nConstraints + 1), part s l p j
noncomputable def bulk (s : Optimise R.Num) (l : List R.Num) (p : BoundaryPoint R.Num) : ℝ := ∑ j ∈ Finset.range (s.nConstraints + 1), |part s l p j|

/-- `d` is the displacement before the cut-off, up to rounding. -/
def Sums (s : Optimise R.Num) (l : List R.Num) (p : BoundaryPoint R.Num) (d : ℝ) : Prop :=
  |d - whole s l p| ≤ 4 * (s.nConstraints + 1 : ℕ) / 2 ^ 52 * bulk s l p + 2 * (s.nConstraints + 1 : ℕ) / 2 ^ 240

theorem displacement_near {l : List R.Num} (hc : ∀ j, |at' p.sensitivities j| ≤ 2 ^ 100) (hn : s.nConstraints < 2 ^ 20) :
    wp (displacement s l p) (fun d : R.Num => ∃ x, Sums s l p x ∧ d.val = if p.isDomain then Max.max x p.negativeLimit.val else x) anyErr := by
  unfold displacement
  rw [wp_bind]
  refine any_rd fun f hf => ?_
  rw [wp_bind]
  refine any_rd fun l0 hl => ?_
  rw [wp_bind]
  refine any_rd fun c hcc => ?_
  rw [wp_bind]
  refine wp_imp (wp_forN (fun i d => |d.val - ∑ j ∈ Finset.range (i + 1), part s l p j| ≤
    4 * (i + 1 : ℕ) / 2 ^ 52 * ∑ j ∈ Finset.range (i + 1), |part s l p j| + 2 * (i + 1 : ℕ) / 2 ^ 240) ?_ fun i hi d hd => ?_) fun d hd => ?_
  · have e : part s l p 0 = f.val * l0.val * c.val := by
      rw [part, at_of hf, at_of hl, sens, if_pos rfl, at_of hcc]
    rw [zero_add, Finset.sum_range_one, Finset.sum_range_one, e]
    have h := term_near (R := R) (f := f.val) (l := l0.val) (c := c.val) (by rw [← at_of hcc]; exact hc 0)
    refine h.trans ?_
    have := abs_nonneg (f.val * l0.val * c.val)
    push_cast
    have n : (1 : ℝ) / 2 ^ 240 ≤ 2 * 1 / 2 ^ 240 := by norm_num
    have n2 : 3 / 2 ^ 52 * |f.val * l0.val * c.val| ≤ 4 * 1 / 2 ^ 52 * |f.val * l0.val * c.val| := by
      gcongr; norm_num
    linarith
  · rw [wp_bind]
    refine any_rd fun k hk => ?_
    rw [wp_bind]
    refine any_rd fun f' hf' => ?_
    rw [wp_bind]
    refine any_rd fun l' hl' => ?_
    rw [wp_bind]
    refine any_rd fun c' hc' => ?_
    rw [wp_pure, Finset.sum_range_succ _ (i + 1), Finset.sum_range_succ _ (i + 1)]
    have e : part s l p (i + 1) = f'.val * l'.val * c'.val := by
      rw [part, at_of hf', at_of hl', sens, if_neg (by omega), getD_of hk, at_of hc']
    have h := term_near (R := R) (f := f'.val) (l := l'.val) (c := c'.val) (by rw [← at_of hc']; exact hc k)
    rw [← e] at h
    exact sum_near (by omega) (by omega) (sum_abs_le _ _) hd h
  · rw [wp_pure]
    refine ⟨d.val, hd, ?_⟩
    cases hdm : p.isDomain
    · simp
    · simp only [Bool.true_and, if_true]
      by_cases hlt : d.val < p.negativeLimit.val
      · rw [if_pos (by simpa using hlt), max_eq_right hlt.le]
      · rw [if_neg (by simpa using hlt), max_eq_left (not_lt.1 hlt)]

/-- Displacement of a point, with the cut-off. -/
def Moves (s : Optimise R.Num) (l : List R.Num) (p : BoundaryPoint R.Num) (d : ℝ) : Prop :=
  ∃ x, Sums s l p x ∧ d = if p.isDomain then Max.max x p.negativeLimit.val else x

theorem computeDisplacements_near {l : List R.Num} (hc : ∀ p ∈ s.points, ∀ j, |at' p.sensitivities j| ≤ 2 ^ 100) (hn : s.nConstraints < 2 ^ 20) :
    wp (computeDisplacements s l) (fun ds : List R.Num => ∀ (i : Nat) (p : BoundaryPoint R.Num), i < s.nPoints → s.points[i]? = some p → p.isFixed = false →
      ∃ d : R.Num, ds[i]? = some d ∧ Moves s l p d.val) anyErr := by
  unfold computeDisplacements
  refine wp_forN (fun k ds => ∀ (i : Nat) (p : BoundaryPoint R.Num), i < k → s.points[i]? = some p → p.isFixed = false →
      ∃ d : R.Num, ds[i]? = some d ∧ Moves s l p d.val) (fun i _ hi => absurd hi (Nat.not_lt_zero i)) ?_
  intro i hi ds h
  rw [wp_bind]
  refine any_rd fun p hp => ?_
  refine wp_ite (fun hf => ?_) (fun hf => ?_)
  · rw [wp_pure]
    intro j q hj hq hqf
    by_cases hji : j = i
    · subst hji
      rw [hp] at hq
      cases hq
      rw [hf] at hqf
      cases hqf
    · exact h j q (by omega) hq hqf
  · rw [wp_bind]
    refine wp_imp (displacement_near (hc p (List.mem_of_getElem? hp)) hn) fun d hd => any_wr fun hlt => ?_
    intro j q hj hq hqf
    by_cases hji : j = i
    · subst hji
      rw [hp] at hq
      cases hq
      exact ⟨d, List.getElem?_set_self hlt, hd⟩
    · rw [List.getElem?_set_ne (Ne.symm hji)]
      exact h j q (by omega) hq hqf

/-- Numbers of moderate size. -/
structure Sized (s : Optimise R.Num) : Prop where
  sf : ∀ j, |at' s.scaleFactors j| ≤ 2 ^ 60
  se : ∀ p ∈ s.points, ∀ j, |at' p.sensitivities j| ≤ 2 ^ 60
  ng : ∀ p ∈ s.points, |p.negativeLimit.val| ≤ 2 ^ 60
  nc : s.nConstraints < 31

theorem Sized.sens (S : Sized s) (hp : p ∈ s.points) (j : Nat) : |sens s p j| ≤ 2 ^ 60 := S.se p hp _

theorem bulk_nonneg (l : List R.Num) : 0 ≤ bulk s l p := Finset.sum_nonneg fun _ _ => abs_nonneg _

/-- The displacements are not too large. -/
theorem Moves.size (S : Sized s) (hp : p ∈ s.points) {l : List R.Num} (hl : ∀ j, |at' l j| ≤ 2 ^ 60) {d : ℝ} (h : Moves s l p d) : |d| ≤ 2 ^ 200 := by
  obtain ⟨x, hx, rfl⟩ := h
  have hb : bulk s l p ≤ 2 ^ 190 := by
    calc bulk s l p ≤ ∑ _j ∈ Finset.range (s.nConstraints + 1), (2 : ℝ) ^ 180 := by
          refine Finset.sum_le_sum fun j _ => ?_
          rw [part, abs_mul, abs_mul]
          calc |at' s.scaleFactors j| * |at' l j| * |Optimise.sens s p j| ≤ 2 ^ 60 * 2 ^ 60 * 2 ^ 60 := by
                gcongr
                · exact S.sf j
                · exact hl j
                · exact S.sens hp j
            _ = 2 ^ 180 := by norm_num
      _ = (s.nConstraints + 1 : ℕ) * 2 ^ 180 := by rw [Finset.sum_const, Finset.card_range, nsmul_eq_mul]
      _ ≤ 31 * 2 ^ 180 := by
        gcongr
        have := S.nc
        exact_mod_cast this
      _ ≤ 2 ^ 190 := by norm_num
  have hw : |whole s l p| ≤ bulk s l p := sum_abs_le _ _
  have hn : ((s.nConstraints + 1 : ℕ) : ℝ) ≤ 31 := by have := S.nc; exact_mod_cast this
  have h1 : 4 * ((s.nConstraints + 1 : ℕ) : ℝ) / 2 ^ 52 * bulk s l p ≤ 4 * 31 / 2 ^ 52 * 2 ^ 190 := by
    have := bulk_nonneg (s := s) (p := p) l
    gcongr
  have h2 : 2 * ((s.nConstraints + 1 : ℕ) : ℝ) / 2 ^ 240 ≤ 2 * 31 / 2 ^ 240 := by gcongr
  have h3 : |x| ≤ 2 ^ 199 := by
    have := abs_add_le (x - whole s l p) (whole s l p)
    rw [sub_add_cancel] at this
    unfold Sums at hx
    have n : (4 : ℝ) * 31 / 2 ^ 52 * 2 ^ 190 + 2 * 31 / 2 ^ 240 + 2 ^ 190 ≤ 2 ^ 199 := by norm_num
    linarith
  have hneg := S.ng p hp
  rw [abs_le] at h3 hneg ⊢
  split
  · constructor
    · exact le_trans (by linarith [h3.1]) (le_max_left _ _)
    · exact max_le (by linarith [h3.2]) (by linarith [hneg.2])
  · constructor <;> linarith [h3.1, h3.2]

/-- One rescaled contribution. -/
theorem part_scaled {F l l' c σ : ℝ} (h : |l' - l * σ| ≤ |l * σ| / 2 ^ 52 + 1 / 2 ^ 1074) (hF : |F| ≤ 2 ^ 60) (hc : |c| ≤ 2 ^ 60) (hσ : 0 ≤ σ) :
    σ * |F * l * c| ≤ 2 * |F * l' * c| + 1 / 2 ^ 240 ∧ |F * l' * c - σ * (F * l * c)| ≤ 2 / 2 ^ 52 * |F * l' * c| + 1 / 2 ^ 240 := by
  have hFc : |F * c| ≤ 2 ^ 120 := by
    rw [abs_mul]
    calc |F| * |c| ≤ 2 ^ 60 * 2 ^ 60 := by gcongr
      _ = _ := by norm_num
  have e1 : F * l' * c - σ * (F * l * c) = F * c * (l' - l * σ) := by ring
  have e2 : σ * |F * l * c| = |F * c| * |l * σ| := by
    rw [← abs_of_nonneg hσ, ← abs_mul, ← abs_mul, abs_of_nonneg hσ]
    congr 1
    ring
  have h1 : |F * l' * c - σ * (F * l * c)| ≤ σ * |F * l * c| / 2 ^ 52 + 1 / 2 ^ 250 := by
    rw [e1, abs_mul, e2]
    calc |F * c| * |l' - l * σ| ≤ |F * c| * (|l * σ| / 2 ^ 52 + 1 / 2 ^ 1074) := by gcongr
      _ = |F * c| * |l * σ| / 2 ^ 52 + |F * c| / 2 ^ 1074 := by ring
      _ ≤ |F * c| * |l * σ| / 2 ^ 52 + 2 ^ 120 / 2 ^ 1074 := by gcongr
      _ ≤ _ := by have := tiny_le (a := 120) (b := 250) (by norm_num); linarith
  have h2 : σ * |F * l * c| ≤ |F * l' * c| + |F * l' * c - σ * (F * l * c)| := by
    have := abs_sub (F * l' * c) (F * l' * c - σ * (F * l * c))
    rw [sub_sub_cancel, abs_mul σ, abs_of_nonneg hσ] at this
    exact this
  have h0 : 0 ≤ σ * |F * l * c| := by positivity
  have h3 : σ * |F * l * c| ≤ 2 * |F * l' * c| + 2 / 2 ^ 250 := by
    have := abs_nonneg (F * l' * c)
    linarith
  have n : (2 : ℝ) / 2 ^ 250 ≤ 1 / 2 ^ 240 := by norm_num
  have n' : (2 : ℝ) / 2 ^ 250 / 2 ^ 52 + 1 / 2 ^ 250 ≤ 1 / 2 ^ 240 := by norm_num
  constructor
  · linarith
  · linarith

/-- The sum after rescaling the multipliers, compared with the rescaled sum. -/
theorem sums_scaled (S : Sized s) (hp : p ∈ s.points) {l l' : List R.Num} {σ x x' : ℝ} (h0 : 0 ≤ σ) (h1 : σ ≤ 1)
    (h : ∀ j, j < s.nConstraints + 1 → |at' l' j - at' l j * σ| ≤ |at' l j * σ| / 2 ^ 52 + 1 / 2 ^ 1074)
    (hx : Sums s l p x) (hx' : Sums s l' p x') :
    |x' - σ * x| ≤ 14 * (s.nConstraints + 1 : ℕ) / 2 ^ 52 * bulk s l' p + 1 / 2 ^ 220 := by
  have key : ∀ j ∈ Finset.range (s.nConstraints + 1), _ := fun j hj =>
    part_scaled (h j (Finset.mem_range.1 hj)) (S.sf j) (S.sens hp j) h0
  have hn : ((s.nConstraints + 1 : ℕ) : ℝ) ≤ 31 := by have := S.nc; exact_mod_cast this
  have hn1 : (1 : ℝ) ≤ ((s.nConstraints + 1 : ℕ) : ℝ) := by exact_mod_cast Nat.succ_pos _
  have a1 : σ * bulk s l p ≤ 2 * bulk s l' p + (s.nConstraints + 1 : ℕ) * (1 / 2 ^ 240) := by
    unfold bulk
    rw [Finset.mul_sum, Finset.mul_sum]
    calc _ ≤ ∑ j ∈ Finset.range (s.nConstraints + 1), (2 * |part s l' p j| + 1 / 2 ^ 240) := Finset.sum_le_sum fun j hj => (key j hj).1
      _ = _ := by rw [Finset.sum_add_distrib, Finset.sum_const, Finset.card_range, nsmul_eq_mul]
  have a2 : |whole s l' p - σ * whole s l p| ≤ 2 / 2 ^ 52 * bulk s l' p + (s.nConstraints + 1 : ℕ) * (1 / 2 ^ 240) := by
    unfold bulk whole
    rw [Finset.mul_sum, Finset.mul_sum, ← Finset.sum_sub_distrib]
    calc _ ≤ ∑ j ∈ Finset.range (s.nConstraints + 1), |part s l' p j - σ * part s l p j| := sum_abs_le _ _
      _ ≤ ∑ j ∈ Finset.range (s.nConstraints + 1), (2 / 2 ^ 52 * |part s l' p j| + 1 / 2 ^ 240) := Finset.sum_le_sum fun j hj => (key j hj).2
      _ = _ := by rw [Finset.sum_add_distrib, Finset.sum_const, Finset.card_range, nsmul_eq_mul]
  have a3 : |σ * whole s l p - σ * x| ≤ 4 * (s.nConstraints + 1 : ℕ) / 2 ^ 52 * (σ * bulk s l p) + 2 * (s.nConstraints + 1 : ℕ) / 2 ^ 240 := by
    rw [← mul_sub, abs_mul, abs_of_nonneg h0, abs_sub_comm]
    unfold Sums at hx
    calc σ * |x - whole s l p| ≤ σ * (4 * (s.nConstraints + 1 : ℕ) / 2 ^ 52 * bulk s l p + 2 * (s.nConstraints + 1 : ℕ) / 2 ^ 240) := by gcongr
      _ = 4 * (s.nConstraints + 1 : ℕ) / 2 ^ 52 * (σ * bulk s l p) + σ * (2 * (s.nConstraints + 1 : ℕ) / 2 ^ 240) := by ring
      _ ≤ 4 * (s.nConstraints + 1 : ℕ) / 2 ^ 52 * (σ * bulk s l p) + 1 * (2 * (s.nConstraints + 1 : ℕ) / 2 ^ 240) := by gcongr
      _ = _ := by rw [one_mul]
  unfold Sums at hx'
  have b0 := bulk_nonneg (s := s) (p := p) l'
  generalize bulk s l' p = A at *
  generalize ((s.nConstraints + 1 : ℕ) : ℝ) = N at *
  have a4 : 4 * N / 2 ^ 52 * (σ * bulk s l p) ≤ 4 * N / 2 ^ 52 * (2 * A + N * (1 / 2 ^ 240)) := by gcongr
  have t1 := abs_add_le (x' - whole s l' p) (whole s l' p - σ * whole s l p)
  have t2 := abs_add_le (x' - whole s l' p + (whole s l' p - σ * whole s l p)) (σ * whole s l p - σ * x)
  rw [show x' - whole s l' p + (whole s l' p - σ * whole s l p) + (σ * whole s l p - σ * x) = x' - σ * x by ring] at t2
  have c1 : 2 / 2 ^ 52 * A ≤ 2 * N / 2 ^ 52 * A := by
    gcongr
    linarith
  have c2 : N * (1 / 2 ^ 240) ≤ (31 : ℝ) * (1 / 2 ^ 240) := by gcongr
  have c3 : 2 * N / 2 ^ 240 ≤ 2 * (31 : ℝ) / 2 ^ 240 := by gcongr
  have c4 : 4 * N / 2 ^ 52 * (N * (1 / 2 ^ 240)) ≤ 4 * 31 / 2 ^ 52 * (31 * (1 / 2 ^ 240)) := by
    gcongr
  have c5 : (31 : ℝ) * (1 / 2 ^ 240) + 2 * (2 * (31 : ℝ) / 2 ^ 240) + 4 * 31 / 2 ^ 52 * (31 * (1 / 2 ^ 240)) ≤ 1 / 2 ^ 220 := by norm_num
  have c6 : 14 * N / 2 ^ 52 * A = 4 * N / 2 ^ 52 * A + 2 * N / 2 ^ 52 * A + 4 * N / 2 ^ 52 * (2 * A) := by ring
  rw [c6]
  have c7 : 4 * N / 2 ^ 52 * (2 * A + N * (1 / 2 ^ 240)) = 4 * N / 2 ^ 52 * (2 * A) + 4 * N / 2 ^ 52 * (N * (1 / 2 ^ 240)) := by ring
  linarith

/-- Final displacement of a movable point. -/
structure Clamped (s : Optimise R.Num) (l : List R.Num) (p : BoundaryPoint R.Num) (d x : ℝ) : Prop where
  sums : Sums s l p x
  cut : d = if p.isDomain then Max.max x p.negativeLimit.val else x
  le : |d| ≤ s.maxDisplacement.val + s.maxDisplacement.val / 2 ^ 52 + 14 * (s.nConstraints + 1 : ℕ) / 2 ^ 52 * bulk s l p + 1 / 2 ^ 200

theorem rescale_near (S : Sized s) (hl : ∀ j, |at' s.lambdas j| ≤ 2 ^ 60) (hM : 0 < s.maxDisplacement.val)
    (hcur : ∀ (i : Nat) (p : BoundaryPoint R.Num), i < s.nPoints → s.points[i]? = some p → p.isFixed = false →
      ∃ d : R.Num, s.displacements[i]? = some d ∧ Moves s s.lambdas p d.val) :
    wp (rescaleDisplacements s) (fun r => ∃ l ds, r.1 = { s with lambdas := l, displacements := ds } ∧ l.length = s.lambdas.length ∧ (∀ j, |at' l j| ≤ 2 ^ 62) ∧
      ∀ (i : Nat) (p : BoundaryPoint R.Num), i < s.nPoints → s.points[i]? = some p → p.isFixed = false →
        (p.isDomain = true → |p.negativeLimit.val| ≤ s.maxDisplacement.val) →
        ∃ (d : R.Num) (x : ℝ), ds[i]? = some d ∧ Clamped s l p d.val x) anyErr := by
  unfold rescaleDisplacements
  rw [wp_bind]
  refine wp_imp (wp_forN (fun i (m : R.Num) => (m.val = 0 ∨ s.maxDisplacement.val < m.val ∧ m.val ≤ 2 ^ 200) ∧
      ∀ (j : Nat) (p : BoundaryPoint R.Num), j < i → s.points[j]? = some p → p.isFixed = false → ∃ d : R.Num, s.displacements[j]? = some d ∧
        |d.val| ≤ Max.max s.maxDisplacement.val m.val) ⟨.inl (by simp), fun j _ hj => absurd hj (Nat.not_lt_zero j)⟩ ?_) ?_
  · intro i hi m ⟨h1, h2⟩
    rw [wp_bind]
    refine any_rd fun p hp => ?_
    refine wp_ite (fun hf => ?_) (fun hf => ?_)
    · rw [wp_pure]
      refine ⟨h1, fun j q hj hq hqf => ?_⟩
      by_cases hji : j = i
      · subst hji
        rw [hp] at hq
        cases hq
        rw [hf] at hqf
        cases hqf
      · exact h2 j q (by omega) hq hqf
    · rw [wp_bind]
      refine any_rd fun d hd => ?_
      rw [wp_pure]
      have hf' : p.isFixed = false := by simpa using hf
      obtain ⟨d', hd', hmv⟩ := hcur i p hi hp hf'
      rw [hd] at hd'
      cases hd'
      by_cases hcond : s.maxDisplacement.val < |d.val| ∧ m.val < |d.val|
      · rw [if_pos (by simpa using hcond)]
        refine ⟨.inr ⟨hcond.1, hmv.size S (List.mem_of_getElem? hp) hl⟩, fun j q hj hq hqf => ?_⟩
        by_cases hji : j = i
        · subst hji
          exact ⟨d, hd, le_max_right _ _⟩
        · obtain ⟨e, he, hle⟩ := h2 j q (by omega) hq hqf
          exact ⟨e, he, hle.trans (max_le_max le_rfl hcond.2.le)⟩
      · rw [if_neg (by simpa using hcond)]
        refine ⟨h1, fun j q hj hq hqf => ?_⟩
        by_cases hji : j = i
        · subst hji
          refine ⟨d, hd, ?_⟩
          rw [le_max_iff]
          rcases not_and_or.1 hcond with h | h
          · exact .inl (not_lt.1 h)
          · exact .inr (not_lt.1 h)
        · exact h2 j q (by omega) hq hqf
  · intro m ⟨h1, h2⟩
    have hz : (0 : ℝ) ≤ 1 / 2 ^ 200 := by positivity
    have pos : ∀ (l : List R.Num) (p : BoundaryPoint R.Num), 0 ≤ 14 * ((s.nConstraints + 1 : ℕ) : ℝ) / 2 ^ 52 * bulk s l p := fun l p => by
      have := bulk_nonneg (s := s) (p := p) l
      positivity
    refine wp_ite (fun h0 => ?_) (fun h0 => ?_)
    · have h0' : m.val = 0 := by simpa using h0
      rw [wp_pure]
      refine ⟨s.lambdas, s.displacements, rfl, rfl, fun j => (hl j).trans (by norm_num), ?_⟩
      intro i p hi hp hf _
      obtain ⟨d, hd, x, hx, hcut⟩ := hcur i p hi hp hf
      obtain ⟨d', hd', hle⟩ := h2 i p hi hp hf
      rw [hd] at hd'
      cases hd'
      rw [h0', max_eq_left hM.le] at hle
      refine ⟨d, x, hd, hx, hcut, hle.trans ?_⟩
      have := pos s.lambdas p
      have : 0 ≤ s.maxDisplacement.val / 2 ^ 52 := by positivity
      linarith
    · have h0' : m.val ≠ 0 := by simpa using h0
      obtain ⟨hmm, hmb⟩ := h1.resolve_left h0'
      have hpos : 0 < m.val := hM.trans hmm
      dsimp only
      rw [wp_bind]
      refine wp_imp (any_modEach (fun _ x y => y = x *. (s.maxDisplacement /. m)) fun i l hi hl => ?_) ?_
      · exact any_modAt fun x hx => ⟨x, _, hx, rfl, rfl⟩
      · intro l ⟨g1, g2, g3⟩
        rw [wp_bind]
        refine wp_imp (computeDisplacements_near (s := { s with lambdas := l }) (fun p hp j => (S.se p hp j).trans (by norm_num))
          (lt_trans S.nc (by norm_num))) fun ds hds => ?_
        rw [wp_pure]
        have σ0 : 0 ≤ (s.maxDisplacement /. m).val := rnd_nonneg (by positivity)
        have σ1 : (s.maxDisplacement /. m).val ≤ 1 := rnd_le_one ((div_lt_one hpos).2 hmm).le
        have σm : (s.maxDisplacement /. m).val * m.val ≤ s.maxDisplacement.val + s.maxDisplacement.val / 2 ^ 52 + 1 / 2 ^ 240 := by
          have e := (abs_le.1 (R.err (s.maxDisplacement.val / m.val))).2
          rw [abs_of_nonneg (by positivity)] at e
          have e' : (s.maxDisplacement /. m).val ≤ s.maxDisplacement.val / m.val + (s.maxDisplacement.val / m.val / 2 ^ 52 + 1 / 2 ^ 1074) := by
            show R.rnd _ ≤ _
            linarith
          calc (s.maxDisplacement /. m).val * m.val ≤ (s.maxDisplacement.val / m.val + (s.maxDisplacement.val / m.val / 2 ^ 52 + 1 / 2 ^ 1074)) * m.val := by gcongr
            _ = s.maxDisplacement.val / m.val * m.val + s.maxDisplacement.val / m.val * m.val / 2 ^ 52 + m.val / 2 ^ 1074 := by ring
            _ = s.maxDisplacement.val + s.maxDisplacement.val / 2 ^ 52 + m.val / 2 ^ 1074 := by rw [div_mul_cancel₀ _ hpos.ne']
            _ ≤ s.maxDisplacement.val + s.maxDisplacement.val / 2 ^ 52 + 2 ^ 200 / 2 ^ 1074 := by gcongr
            _ ≤ _ := by have := tiny_le (a := 200) (b := 240) (by norm_num); linarith
        generalize hσ : s.maxDisplacement /. m = σ at *
        have hrel : ∀ j, j < s.nConstraints + 1 → |at' l j - at' s.lambdas j * σ.val| ≤ |at' s.lambdas j * σ.val| / 2 ^ 52 + 1 / 2 ^ 1074 := by
          intro j hj
          obtain ⟨x, y, e1, e2, rfl⟩ := g3 j hj
          rw [at_of e1, at_of e2]
          exact R.err _
        refine ⟨l, ds, rfl, g1, fun j => ?_, fun i p hi hp hf hneg => ?_⟩
        · by_cases hj : j < s.nConstraints + 1
          · obtain ⟨x, y, e1, e2, rfl⟩ := g3 j hj
            have hx := hl j
            rw [at_of e1] at hx
            rw [at_of e2]
            have := abs_rnd (R := R) (x.val * σ.val)
            rw [abs_mul, abs_of_nonneg σ0] at this
            have h3 : |x.val| * σ.val ≤ 2 ^ 60 * 1 := by gcongr
            refine this.trans ?_
            have n : (2 : ℝ) * (2 ^ 60 * 1) + 1 ≤ 2 ^ 62 := by norm_num
            linarith
          · rw [at', List.getD, g2 j (by omega)]
            exact (hl j).trans (by norm_num)
        · obtain ⟨d, hd, x, hx, hcut⟩ := hcur i p hi hp hf
          obtain ⟨d', hd', hle⟩ := h2 i p hi hp hf
          rw [hd] at hd'
          cases hd'
          rw [max_eq_right hmm.le] at hle
          obtain ⟨e, he, x', hx', hcut'⟩ := hds i p hi hp hf
          have hx'' : Sums s l p x' := hx'
          refine ⟨e, x', he, hx'', hcut', ?_⟩
          have key := sums_scaled S (List.mem_of_getElem? hp) σ0 σ1 hrel hx hx''
          have hP := pos l p
          generalize 14 * ((s.nConstraints + 1 : ℕ) : ℝ) / 2 ^ 52 * bulk s l p = P at *
          have n : (1 : ℝ) / 2 ^ 240 + 1 / 2 ^ 220 ≤ 1 / 2 ^ 200 := by norm_num
          have hu : 0 ≤ s.maxDisplacement.val / 2 ^ 52 := by positivity
          rw [abs_le] at hle key ⊢
          have up : x' ≤ s.maxDisplacement.val + s.maxDisplacement.val / 2 ^ 52 + P + 1 / 2 ^ 200 := by
            have : x ≤ m.val := by
              refine le_trans ?_ hle.2
              rw [hcut]
              split
              · exact le_max_left _ _
              · exact le_rfl
            have : σ.val * x ≤ σ.val * m.val := mul_le_mul_of_nonneg_left this σ0
            linarith [key.2]
          cases hdm : p.isDomain with
          | true =>
            rw [hcut', hdm, if_pos rfl]
            have hneg := abs_le.1 (hneg hdm)
            exact ⟨le_trans (by linarith [hneg.1]) (le_max_right _ _), max_le up (by linarith [hneg.2])⟩
          | false =>
            rw [hcut', hdm, if_neg (by simp)]
            rw [hdm, if_neg (by simp)] at hcut
            have : -m.val ≤ x := by rw [← hcut]; exact hle.1
            have : σ.val * -m.val ≤ σ.val * x := mul_le_mul_of_nonneg_left this σ0
            exact ⟨by linarith [key.1], up⟩

/-- What the last part of `solve` does. -/
structure Done (s : Optimise R.Num) (l : List R.Num) (r : Optimise R.Num) : Prop where
  num : r.nConstraints = s.nConstraints
  sf : r.scaleFactors = s.scaleFactors
  size : ∀ j, |at' l j| ≤ 2 ^ 62
  lam : ∀ j, j ≤ s.nConstraints → at' r.lambdas j = R.rnd (at' l j * at' s.scaleFactors j)
  tail : ∀ j, s.nConstraints < j → at' r.lambdas j = 0
  step : r.timeStep.val = |at' r.lambdas 0|
  all : s.nConstraints = 0 ∨ s.nConstraintsInitial ≤ s.nConstraints
  init : r.nConstraintsInitial = s.nConstraintsInitial
  pts : ∀ (i : Nat) (p : BoundaryPoint R.Num), s.points[i]? = some p → p.isFixed = false →
        (p.isDomain = true → |p.negativeLimit.val| ≤ s.maxDisplacement.val) →
        ∃ (d : R.Num) (x : ℝ), r.points[i]? = some { p with velocity := d /. r.timeStep } ∧ Clamped s l p d.val x

theorem forN_stuck {α : Type} (n : Nat) (f : Nat → α → Res α) (v : α) (hn : 0 < n) (h0 : ∀ x, f 0 v ≠ .ok x) (x : α) : forN n v f ≠ .ok x := by
  induction n generalizing x with
  | zero => omega
  | succ n ih =>
    intro hx
    rw [forN_succ] at hx
    rcases Nat.eq_zero_or_pos n with rfl | hn'
    · exact h0 x hx
    · cases h1 : forN n v f with
      | error e => rw [h1] at hx; cases hx
      | ok y => exact ih hn' y h1

theorem at_out {l : List R.Num} {j : Nat} (h : l.length ≤ j) : at' l j = 0 := by
  rw [at', List.getD, List.getElem?_eq_none h]
  exact val_zero

theorem at_resize {l : List R.Num} {n j : Nat} (h : l.length ≤ j) : at' (resize l n (nat 0)) j = 0 := by
  unfold resize
  rw [at', List.getD]
  cases e : (List.take n l ++ List.replicate (n - l.length) (nat 0))[j]? with
  | none => exact val_zero
  | some x =>
    have hx : x = nat 0 := by
      rw [List.getElem?_append_right (by rw [List.length_take]; omega)] at e
      exact List.eq_of_mem_replicate (List.mem_of_getElem? e)
    rw [hx]
    exact val_zero

theorem finish_none : wp (finish s none) (fun _ => False) anyErr := by
  unfold finish
  rw [wp_bind]
  refine any_of fun _ _ => ?_
  rw [wp_bind]
  refine any_of fun _ _ => ?_
  rw [wp_bind]
  exact trivial

theorem finish_near (S : Sized s) (hl : ∀ j, |at' s.lambdas j| ≤ 2 ^ 60) (hll : s.lambdas.length = s.nConstraints + 1) (hM : 0 < s.maxDisplacement.val) (hp : s.nPoints = s.points.length)
    (hi : s.indexMap.length = s.nConstraints + 1) {o : Option R.Num} :
    wp (finish s o) (fun r => ∃ l, Done s l r.1) anyErr := by
  unfold finish
  rw [wp_bind]
  refine wp_imp (computeDisplacements_near (fun p hp j => (S.se p hp j).trans (by norm_num)) (lt_trans S.nc (by norm_num))) fun ds hds => ?_
  rw [wp_bind]
  refine wp_imp (rescale_near (s := { s with displacements := ds }) ⟨S.sf, S.se, S.ng, S.nc⟩ hl hM hds) ?_
  rintro ⟨s1, t⟩ ⟨l, ds', rfl, hlen, hsz, hmv⟩
  have hmv : ∀ (i : Nat) (p : BoundaryPoint R.Num), i < s.nPoints → s.points[i]? = some p → p.isFixed = false →
        (p.isDomain = true → |p.negativeLimit.val| ≤ s.maxDisplacement.val) →
        ∃ (d : R.Num) (x : ℝ), ds'[i]? = some d ∧ Clamped { s with displacements := ds } l p d.val x := hmv
  rw [wp_bind]
  refine any_of fun ob _ => ?_
  rw [wp_bind]
  refine wp_imp (any_modEach (fun i x y => ∃ f, s.scaleFactors[i]? = some f ∧ y = x *. f) fun i w hi hw => ?_) ?_
  · rw [wp_bind]
    refine any_rd fun f hf => any_modAt fun x hx => ⟨x, _, hx, rfl, f, hf, rfl⟩
  · intro l2 ⟨e1, _, e3⟩
    dsimp only at e1 e3 hlen ⊢
    have hval : ∀ j, j < s.nConstraints + 1 → ∃ y, l2[j]? = some y ∧ y.val = R.rnd (at' l j * at' s.scaleFactors j) := by
      intro j hj
      obtain ⟨x, y, h1, h2, f, h3, rfl⟩ := e3 j hj
      exact ⟨_, h2, by rw [at_of h1, at_of h3]; rfl⟩
    rw [wp_bind]
    refine any_rd fun l0 hl0 => ?_
    rw [wp_bind]
    refine wp_imp (any_modEach (fun i x y => ∃ d, ds'[i]? = some d ∧ y = { x with velocity := d /. abs l0 }) fun i w hi hw => ?_) ?_
    · rw [wp_bind]
      refine any_rd fun d hd => any_modAt fun x hx => ⟨x, _, hx, rfl, d, hd, rfl⟩
    · intro pts ⟨p1, _, p3⟩
      have done : ∀ l3 : List R.Num, (s.nConstraints = 0 ∨ s.nConstraintsInitial ≤ s.nConstraints) →
          (∀ j, j ≤ s.nConstraints → l3[j]? = l2[j]?) → (∀ j, s.nConstraints < j → at' l3 j = 0) →
          Done s l { s with displacements := ds', lambdas := l3, timeStep := abs l0, points := pts } := by
        intro l3 ha h3 h4
        refine ⟨rfl, rfl, hsz, fun j hj => ?_, h4, ?_, ha, rfl, fun i p hp' hf hneg => ?_⟩
        · obtain ⟨y, h1, h2⟩ := hval j (by omega)
          rw [← h2, ← at_of h1]
          show at' l3 j = _
          rw [at', List.getD, h3 j hj]
          rfl
        · show |l0.val| = |at' l3 0|
          rw [at', List.getD, h3 0 (Nat.zero_le _), hl0]
          rfl
        · have hlt : i < s.nPoints := by rw [hp]; exact (List.getElem?_eq_some_iff.1 hp').1
          obtain ⟨x, y, a1, a2, d, a3, a4⟩ := p3 i hlt
          rw [hp'] at a1
          cases a1
          obtain ⟨d', x', b1, b2⟩ := hmv i p hlt hp' hf hneg
          rw [a3] at b1
          cases b1
          exact ⟨d, x', by rw [← a4]; exact a2, b2.sums, b2.cut, b2.le⟩
      rw [wp_bind]
      refine wp_ite (fun hlt => ?_) (fun hlt => ?_)
      · refine wp_ite (fun hpos => ?_) (fun hpos => ?_)
        · -- undefined: `indexMap[nConstraints + 1]`
          rw [wp_bind]
          refine any_of fun l3 hl3 => ?_
          exfalso
          refine forN_stuck _ _ _ (Nat.succ_pos _) (fun x hx => ?_) l3 hl3
          rw [rd_ub (by rw [hi]; omega)] at hx
          cases hx
        · have h0 : s.nConstraints = 0 := by omega
          rw [wp_pure]
          dsimp only
          rw [wp_bind]
          refine any_rd fun c hc => ?_
          rw [wp_pure]
          refine ⟨l, done _ (.inl h0) (fun j hj => ?_) fun j hj => at_resize (by omega)⟩
          have hj0 : j = 0 := by omega
          subst hj0
          obtain ⟨y, h1, -⟩ := hval 0 (by omega)
          rw [h1]
          exact resize_getElem? h1 (by omega)
      · rw [wp_pure, wp_bind]
        refine any_rd fun c hc => ?_
        rw [wp_pure]
        have hge : s.nConstraintsInitial ≤ s.nConstraints := by
          have : ¬ s.nConstraints < s.nConstraintsInitial := hlt
          omega
        exact ⟨l, done _ (.inr hge) (fun _ _ => rfl) fun j hj => at_out (by omega)⟩

/-! ### in terms of the reported multipliers -/

/-- One contribution, with the reported multiplier `ℓ`. -/
theorem part_reported {F l c : ℝ} (hc : |c| ≤ 2 ^ 60) :
    |F * l * c| ≤ 15 / 14 * |R.rnd (l * F) * c| + 1 / 2 ^ 240 ∧ |F * l * c - R.rnd (l * F) * c| ≤ 1 / 2 ^ 52 * |F * l * c| + 1 / 2 ^ 240 := by
  have e := R.err (l * F)
  have h1 : |F * l * c - R.rnd (l * F) * c| ≤ 1 / 2 ^ 52 * |F * l * c| + 1 / 2 ^ 250 := by
    rw [mul_comm F l, ← sub_mul, abs_mul, abs_sub_comm, abs_mul (l * F)]
    calc |R.rnd (l * F) - l * F| * |c| ≤ (|l * F| / 2 ^ 52 + 1 / 2 ^ 1074) * |c| := by gcongr
      _ = 1 / 2 ^ 52 * (|l * F| * |c|) + |c| / 2 ^ 1074 := by ring
      _ ≤ 1 / 2 ^ 52 * (|l * F| * |c|) + 2 ^ 60 / 2 ^ 1074 := by gcongr
      _ ≤ _ := by have := tiny_le (a := 60) (b := 250) (by norm_num); linarith
  have h2 : |F * l * c| ≤ |F * l * c - R.rnd (l * F) * c| + |R.rnd (l * F) * c| := by
    have := abs_add_le (F * l * c - R.rnd (l * F) * c) (R.rnd (l * F) * c)
    rwa [sub_add_cancel] at this
  have n : (1 : ℝ) / 2 ^ 250 ≤ 1 / 2 ^ 240 := by norm_num
  have n2 : (15 : ℝ) / 14 * (1 / 2 ^ 250) ≤ 1 / 2 ^ 240 := by norm_num
  have p0 := abs_nonneg (F * l * c)
  have p1 := abs_nonneg (R.rnd (l * F) * c)
  exact ⟨by linarith, by linarith⟩

/-- Sums over lists. -/
theorem zip_val_sum (g : ℝ → ℝ → ℝ) (h0 : ∀ x, g 0 x = 0) (h1 : ∀ x, g x 0 = 0) (l c : List R.Num) (n : Nat) (hn : ∀ j, n ≤ j → at' l j = 0) :
    ((l.zip c).map fun x => g x.1.val x.2.val).sum = ∑ j ∈ Finset.range n, g (at' l j) (at' c j) := by
  induction l generalizing c n with
  | nil =>
    rw [List.zip_nil_left, List.map_nil, List.sum_nil]
    refine (Finset.sum_eq_zero fun j _ => ?_).symm
    rw [at_out (l := []) (Nat.zero_le _), h0]
  | cons x l ih =>
    cases c with
    | nil =>
      rw [List.zip_nil_right, List.map_nil, List.sum_nil]
      refine (Finset.sum_eq_zero fun j _ => ?_).symm
      rw [at_out (l := []) (Nat.zero_le _), h1]
    | cons y c =>
      rw [List.zip_cons_cons, List.map_cons, List.sum_cons]
      cases n with
      | zero =>
        rw [ih c 0 fun j _ => by have := hn (j + 1) (Nat.zero_le _); simpa [at'] using this]
        have : x.val = 0 := by simpa [at'] using hn 0 le_rfl
        rw [Finset.sum_range_zero, Finset.sum_range_zero, add_zero]
        show g x.val y.val = 0
        rw [this, h0]
      | succ n =>
        rw [ih c n fun j hj => by have := hn (j + 1) (by omega); simpa [at'] using this, Finset.sum_range_succ', add_comm]
        rfl

/-- Exact displacement that the reported multipliers predict, and its absolute version. -/
noncomputable def forecast (s : Optimise R.Num) (l : List R.Num) (p : BoundaryPoint R.Num) : ℝ := ∑ j ∈ Finset.range (s.nConstraints + 1), at' l j * at' p.sensitivities j
noncomputable def weight (s : Optimise R.Num) (l : List R.Num) (p : BoundaryPoint R.Num) : ℝ := ∑ j ∈ Finset.range (s.nConstraints + 1), |at' l j * at' p.sensitivities j|

theorem weight_nonneg (l : List R.Num) : 0 ≤ weight s l p := Finset.sum_nonneg fun _ _ => abs_nonneg _

theorem reported_near {l : List R.Num} (S : Sized s) (hp : p ∈ s.points) (hi : s.nConstraints = 0 ∨ s.indexMap = List.range (s.nConstraints + 1))
    (E : Done s l s') : bulk s l p ≤ 15 / 14 * weight s s'.lambdas p + 1 / 2 ^ 230 ∧
      |whole s l p - forecast s s'.lambdas p| ≤ 1 / 2 ^ 52 * bulk s l p + 1 / 2 ^ 230 := by
  have hs : ∀ j, j < s.nConstraints + 1 → sens s p j = at' p.sensitivities j := by
    intro j hj
    unfold sens
    rcases Nat.eq_zero_or_pos j with rfl | h0
    · rw [if_pos rfl]
    · rw [if_neg (by omega)]
      rcases hi with h | h
      · omega
      · rw [h, getD_of (a := j) (by rw [List.getElem?_range hj])]
  have key : ∀ j ∈ Finset.range (s.nConstraints + 1), |part s l p j| ≤ 15 / 14 * |at' s'.lambdas j * at' p.sensitivities j| + 1 / 2 ^ 240 ∧
      |part s l p j - at' s'.lambdas j * at' p.sensitivities j| ≤ 1 / 2 ^ 52 * |part s l p j| + 1 / 2 ^ 240 := by
    intro j hj
    have hj' := Finset.mem_range.1 hj
    unfold part
    rw [E.lam j (by omega), hs j hj']
    exact part_reported (S.se p hp j)
  have hn : ((s.nConstraints + 1 : ℕ) : ℝ) ≤ 31 := by have := S.nc; exact_mod_cast this
  have n : ((s.nConstraints + 1 : ℕ) : ℝ) * (1 / 2 ^ 240) ≤ 1 / 2 ^ 230 := by
    calc ((s.nConstraints + 1 : ℕ) : ℝ) * (1 / 2 ^ 240) ≤ 31 * (1 / 2 ^ 240) := by gcongr
      _ ≤ _ := by norm_num
  constructor
  · unfold bulk weight
    calc _ ≤ ∑ j ∈ Finset.range (s.nConstraints + 1), (15 / 14 * |at' s'.lambdas j * at' p.sensitivities j| + 1 / 2 ^ 240) :=
          Finset.sum_le_sum fun j hj => (key j hj).1
      _ = 15 / 14 * ∑ j ∈ Finset.range (s.nConstraints + 1), |at' s'.lambdas j * at' p.sensitivities j| + ((s.nConstraints + 1 : ℕ) : ℝ) * (1 / 2 ^ 240) := by
          rw [Finset.sum_add_distrib, Finset.sum_const, Finset.card_range, nsmul_eq_mul, Finset.mul_sum]
      _ ≤ _ := by linarith
  · unfold whole forecast bulk
    rw [← Finset.sum_sub_distrib]
    calc _ ≤ ∑ j ∈ Finset.range (s.nConstraints + 1), |part s l p j - at' s'.lambdas j * at' p.sensitivities j| := sum_abs_le _ _
      _ ≤ ∑ j ∈ Finset.range (s.nConstraints + 1), (1 / 2 ^ 52 * |part s l p j| + 1 / 2 ^ 240) := Finset.sum_le_sum fun j hj => (key j hj).2
      _ = 1 / 2 ^ 52 * ∑ j ∈ Finset.range (s.nConstraints + 1), |part s l p j| + ((s.nConstraints + 1 : ℕ) : ℝ) * (1 / 2 ^ 240) := by
          rw [Finset.sum_add_distrib, Finset.sum_const, Finset.card_range, nsmul_eq_mul, Finset.mul_sum]
      _ ≤ _ := by linarith

/-- Velocity times time step. -/
theorem back {d τ : R.Num} (h0 : τ.val ≠ 0) (hτ : |τ.val| ≤ 2 ^ 130) : |(d /. τ).val * τ.val - d.val| ≤ 1 / 2 ^ 52 * |d.val| + 1 / 2 ^ 240 := by
  have e := R.err (d.val / τ.val)
  have h1 : (d /. τ).val * τ.val - d.val = (R.rnd (d.val / τ.val) - d.val / τ.val) * τ.val := by
    rw [sub_mul, div_mul_cancel₀ _ h0]
    rfl
  rw [h1, abs_mul]
  calc |R.rnd (d.val / τ.val) - d.val / τ.val| * |τ.val| ≤ (|d.val / τ.val| / 2 ^ 52 + 1 / 2 ^ 1074) * |τ.val| := by gcongr
    _ = 1 / 2 ^ 52 * (|d.val / τ.val| * |τ.val|) + |τ.val| / 2 ^ 1074 := by ring
    _ = 1 / 2 ^ 52 * |d.val| + |τ.val| / 2 ^ 1074 := by rw [← abs_mul, div_mul_cancel₀ _ h0]
    _ ≤ 1 / 2 ^ 52 * |d.val| + 2 ^ 130 / 2 ^ 1074 := by gcongr
    _ ≤ _ := by have := tiny_le (a := 130) (b := 240) (by norm_num); linarith

theorem Done.small {l : List R.Num} (S : Sized s) (E : Done s l s') : |s'.timeStep.val| ≤ 2 ^ 130 := by
  rw [E.step, abs_abs, E.lam 0 (Nat.zero_le _)]
  have := abs_rnd (R := R) (at' l 0 * at' s.scaleFactors 0)
  rw [abs_mul] at this
  have h : |at' l 0| * |at' s.scaleFactors 0| ≤ 2 ^ 62 * 2 ^ 60 := by
    gcongr
    · exact E.size 0
    · exact S.sf 0
  refine this.trans ?_
  have n : (2 : ℝ) * (2 ^ 62 * 2 ^ 60) + 1 ≤ 2 ^ 130 := by norm_num
  linarith

theorem cut_near {x y n : ℝ} (b : Bool) : |(if b then Max.max x n else x) - (if b then Max.max y n else y)| ≤ |x - y| := by
  cases b
  · simp
  · simp only [if_true]
    exact (abs_max_sub_max_le_abs x y n)

/-- All three claims for one point. -/
theorem outcome_near {l : List R.Num} (S : Sized s) (hp : p ∈ s.points) (hi : s.nConstraints = 0 ∨ s.indexMap = List.range (s.nConstraints + 1))
    (E : Done s l s') (hM : 1 / 2 ^ 100 ≤ s.maxDisplacement.val) (h0 : s'.timeStep.val ≠ 0) {d : R.Num} {x : ℝ} (C : Clamped s l p d.val x)
    (hneg : p.isDomain = true → |p.negativeLimit.val| ≤ s.maxDisplacement.val) :
    |(d /. s'.timeStep).val * s'.timeStep.val| ≤ s.maxDisplacement.val * (1 + 1 / 2 ^ 50) + weight s s'.lambdas p / 2 ^ 43 ∧
    |(d /. s'.timeStep).val * s'.timeStep.val - (if p.isDomain then Max.max (forecast s s'.lambdas p) p.negativeLimit.val else forecast s s'.lambdas p)| ≤
      s.maxDisplacement.val / 2 ^ 51 + weight s s'.lambdas p / 2 ^ 43 ∧
    (s.nConstraints = 0 → |(d /. s'.timeStep).val * s'.timeStep.val| ≤ s.maxDisplacement.val * (1 + 1 / 2 ^ 47)) := by
  obtain ⟨b1, b2⟩ := reported_near S hp hi E
  have hb := back (d := d) h0 (E.small S)
  have hw := weight_nonneg (s := s) (p := p) s'.lambdas
  have hB := bulk_nonneg (s := s) (p := p) l
  obtain ⟨c1, c2, c3⟩ := C
  unfold Sums at c1
  have hn : ((s.nConstraints + 1 : ℕ) : ℝ) ≤ 31 := by have := S.nc; exact_mod_cast this
  have d1 : 14 * ((s.nConstraints + 1 : ℕ) : ℝ) / 2 ^ 52 * bulk s l p ≤ 14 * 31 / 2 ^ 52 * bulk s l p := by gcongr
  have d2 : 4 * ((s.nConstraints + 1 : ℕ) : ℝ) / 2 ^ 52 * bulk s l p ≤ 4 * 31 / 2 ^ 52 * bulk s l p := by gcongr
  have d3 : 2 * ((s.nConstraints + 1 : ℕ) : ℝ) / 2 ^ 240 ≤ 2 * 31 / 2 ^ 240 := by gcongr
  have hv : |(d /. s'.timeStep).val * s'.timeStep.val| ≤ |d.val| + (1 / 2 ^ 52 * |d.val| + 1 / 2 ^ 240) := by
    have := abs_add_le ((d /. s'.timeStep).val * s'.timeStep.val - d.val) d.val
    rw [sub_add_cancel] at this
    linarith
  refine ⟨?_, ?_, fun hz => ?_⟩
  · have n : (1 : ℝ) / 2 ^ 240 ≤ 1 / 2 ^ 100 / 2 ^ 56 := by norm_num
    have n2 : (1 : ℝ) / 2 ^ 200 ≤ 1 / 2 ^ 100 / 2 ^ 56 := by norm_num
    have n3 : (1 : ℝ) / 2 ^ 230 ≤ 1 / 2 ^ 100 / 2 ^ 56 := by norm_num
    generalize (1 : ℝ) / 2 ^ 240 = z1 at *
    generalize (1 : ℝ) / 2 ^ 200 = z2 at *
    generalize (1 : ℝ) / 2 ^ 230 = z3 at *
    linarith
  · have g1 : |d.val - (if p.isDomain then Max.max (forecast s s'.lambdas p) p.negativeLimit.val else forecast s s'.lambdas p)| ≤
        |x - forecast s s'.lambdas p| := by
      rw [c2]
      exact cut_near _
    have g2 := abs_add_le (x - whole s l p) (whole s l p - forecast s s'.lambdas p)
    rw [sub_add_sub_cancel] at g2
    have g3 := abs_add_le ((d /. s'.timeStep).val * s'.timeStep.val - d.val)
      (d.val - (if p.isDomain then Max.max (forecast s s'.lambdas p) p.negativeLimit.val else forecast s s'.lambdas p))
    rw [sub_add_sub_cancel] at g3
    have n : (1 : ℝ) / 2 ^ 240 ≤ 1 / 2 ^ 100 / 2 ^ 56 := by norm_num
    have n2 : (1 : ℝ) / 2 ^ 200 ≤ 1 / 2 ^ 100 / 2 ^ 56 := by norm_num
    have n3 : (1 : ℝ) / 2 ^ 230 ≤ 1 / 2 ^ 100 / 2 ^ 56 := by norm_num
    have n4 : (2 : ℝ) * 31 / 2 ^ 240 ≤ 1 / 2 ^ 100 / 2 ^ 56 := by norm_num
    generalize (1 : ℝ) / 2 ^ 240 = z1 at *
    generalize (1 : ℝ) / 2 ^ 200 = z2 at *
    generalize (1 : ℝ) / 2 ^ 230 = z3 at *
    generalize (2 : ℝ) * 31 / 2 ^ 240 = z4 at *
    linarith
  · rw [hz] at c1 c3 d3
    have hbulk : bulk s l p = |whole s l p| := by
      unfold bulk whole
      rw [hz, Finset.sum_range_one, Finset.sum_range_one]
    rw [hbulk] at c1 c3
    have hd : |d.val| ≤ s.maxDisplacement.val * (1 + 30 / 2 ^ 52) := by
      by_cases hcase : d.val = x
      · rw [hcase] at c3 ⊢
        have hwh : |whole s l p| ≤ |x| + |x - whole s l p| := by
          have := abs_sub x (x - whole s l p)
          rwa [sub_sub_cancel] at this
        have n2 : (1 : ℝ) / 2 ^ 200 ≤ 1 / 2 ^ 100 / 2 ^ 56 := by norm_num
        have n4 : (2 : ℝ) * ((0 + 1 : ℕ) : ℝ) / 2 ^ 240 ≤ 1 / 2 ^ 100 / 2 ^ 56 := by norm_num
        generalize (1 : ℝ) / 2 ^ 200 = z2 at *
        generalize (2 : ℝ) * ((0 + 1 : ℕ) : ℝ) / 2 ^ 240 = z4 at *
        norm_num at c1 c3 n2 n4 hM ⊢
        linarith
      · cases hdm : p.isDomain with
        | false => rw [hdm, if_neg (by simp)] at c2; exact absurd c2 hcase
        | true =>
          rw [hdm, if_pos rfl] at c2
          have : d.val = p.negativeLimit.val := by
            rcases max_choice x p.negativeLimit.val with h | h
            · exact absurd (c2.trans h) hcase
            · exact c2.trans h
          rw [this]
          refine (hneg hdm).trans ?_
          have : 0 < s.maxDisplacement.val := lt_of_lt_of_le (by positivity) hM
          linarith
    have n : (1 : ℝ) / 2 ^ 240 ≤ 1 / 2 ^ 100 / 2 ^ 56 := by norm_num
    generalize (1 : ℝ) / 2 ^ 240 = z1 at *
    linarith

end Optimise

end Slsm
