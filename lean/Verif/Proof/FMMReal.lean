import Verif.Proof.FMMRun
import Verif.Spec.Eikonal
import Mathlib.Tactic.FieldSimp
import Mathlib.Tactic.Linarith
import Mathlib.Tactic.Positivity

/-! Real-number facts about fast marching. -/

namespace Slsm

set_option linter.unusedSectionVars false

namespace FMM

/-! ### crossing distances -/

theorem crossing_bounds {a b : ℝ} (h : a * b < 0) : 0 < a / (a - b) ∧ a / (a - b) < 1 := by
  rcases mul_neg_iff.1 h with ⟨h1, h2⟩ | ⟨h1, h2⟩
  · have : 0 < a - b := by linarith
    exact ⟨div_pos h1 this, (div_lt_one this).2 (by linarith)⟩
  · have : a - b < 0 := by linarith
    exact ⟨div_pos_of_neg_of_neg h1 this, (div_lt_one_of_neg this).2 (by linarith)⟩

/-- least of two optional positive numbers, `0` for none -/
noncomputable def ax (c : Prop) [Decidable c] (d cur : ℝ) : ℝ := if c then (if cur = 0 ∨ d < cur then d else cur) else cur

/-- `R` describes the set `S` of positive numbers: its least element, or `0` if empty -/
def Least0 (S : Set ℝ) (R : ℝ) : Prop := (S = ∅ ∧ R = 0) ∨ (IsLeast S R ∧ 0 < R)

theorem Least0.invSq {S : Set ℝ} {R : ℝ} (h : Least0 S R) : invSq S = if 0 < R then 1 / (R * R) else 0 := by
  unfold Slsm.invSq
  rcases h with ⟨rfl, rfl⟩ | ⟨h1, h2⟩
  · simp
  · rw [if_pos ⟨R, h1.1⟩, if_pos h2, h1.csInf_eq, sq]

theorem Least0.add {S : Set ℝ} {R : ℝ} (h : Least0 S R) (c : Prop) [Decidable c] {d : ℝ} (hd : c → 0 < d) :
    Least0 (S ∪ {x | c ∧ x = d}) (ax c d R) := by
  unfold ax
  by_cases hc : c
  · rw [if_pos hc]
    have hd := hd hc
    rcases h with ⟨rfl, rfl⟩ | ⟨h1, h2⟩
    · right
      refine ⟨⟨?_, ?_⟩, by simpa using hd⟩
      · simp [hc]
      · rintro x (hx | ⟨-, rfl⟩)
        · exact hx.elim
        · simp
    · right
      by_cases hlt : d < R
      · rw [if_pos (.inr hlt)]
        refine ⟨⟨.inr ⟨hc, rfl⟩, ?_⟩, hd⟩
        rintro x (hx | ⟨-, rfl⟩)
        · exact hlt.le.trans (h1.2 hx)
        · exact le_refl _
      · rw [if_neg (by push Not; exact ⟨h2.ne', not_lt.1 hlt⟩)]
        refine ⟨⟨.inl h1.1, ?_⟩, h2⟩
        rintro x (hx | ⟨-, rfl⟩)
        · exact h1.2 hx
        · exact not_lt.1 hlt
  · rw [if_neg hc]
    have : S ∪ {x | c ∧ x = d} = S := by
      ext x; simp [hc]
    rw [this]; exact h

section
variable {w h : Nat} {m : Mesh ℝ}

/-- an edge with a sign change -/
def xing (m : Mesh ℝ) (f : Nat → ℝ) (i j : Nat) : Prop := nb m i j ≠ m.nNodes ∧ f i * f (nb m i j) < 0

open Classical in
theorem crossV_real (f : Nat → ℝ) (i j : Nat) (s : Bool × ℝ × ℝ) :
    (crossV m f i j s).2 = if j < 2 then (ax (xing m f i j) (f i / (f i - f (nb m i j))) s.2.1, s.2.2)
      else (s.2.1, ax (xing m f i j) (f i / (f i - f (nb m i j))) s.2.2) := by
  unfold crossV ax xing
  by_cases hc : nb m i j ≠ m.nNodes ∧ f i * f (nb m i j) < 0
  · have hc' : nb m i j ≠ m.nNodes ∧ FP.lt (FP.mul (f i) (f (nb m i j))) (FP.nat 0) = true := by simpa using hc
    rw [if_pos hc']
    simp only [if_pos hc]
    by_cases hj : j < 2
    · rw [if_pos hj, if_pos hj]
      simp
    · rw [if_neg hj, if_neg hj]
      simp
  · have hc' : ¬ (nb m i j ≠ m.nNodes ∧ FP.lt (FP.mul (f i) (f (nb m i j))) (FP.nat 0) = true) := by simpa using hc
    rw [if_neg hc']
    simp only [if_neg hc]
    split_ifs <;> rfl

theorem borderV_least (G : IsGrid w h m) (f : Nat → ℝ) {i : Nat} (hi : i < m.nNodes) :
    Least0 (crossings (HAdj w h) f i) (borderV m f i).2.1 ∧ Least0 (crossings (VAdj w h) f i) (borderV m f i).2.2 := by
  classical
  have hpos : ∀ j, xing m f i j → 0 < f i / (f i - f (nb m i j)) := fun j hj => (crossing_bounds hj.2).1
  have e1 : (borderV m f i).2.1 = ax (xing m f i 1) (f i / (f i - f (nb m i 1)))
      (ax (xing m f i 0) (f i / (f i - f (nb m i 0))) 0) := by
    unfold borderV
    simp [crossV_real]
  have e2 : (borderV m f i).2.2 = ax (xing m f i 3) (f i / (f i - f (nb m i 3)))
      (ax (xing m f i 2) (f i / (f i - f (nb m i 2))) 0) := by
    unfold borderV
    simp [crossV_real]
  have h0 : Least0 ∅ (0 : ℝ) := .inl ⟨rfl, rfl⟩
  constructor
  · rw [e1]
    have := (h0.add (xing m f i 0) (hpos 0)).add (xing m f i 1) (hpos 1)
    convert this using 1
    ext d
    simp only [crossings, hadj_iff G hi, xing, Set.mem_setOf_eq, Set.empty_union, Set.mem_union]
    constructor
    · rintro ⟨n, ⟨h1, j, hj, rfl⟩, h3, h4⟩
      have : j = 0 ∨ j = 1 := by omega
      obtain rfl | rfl := this
      · exact .inl ⟨⟨h1, h3⟩, h4⟩
      · exact .inr ⟨⟨h1, h3⟩, h4⟩
    · rintro (⟨⟨h1, h3⟩, h4⟩ | ⟨⟨h1, h3⟩, h4⟩)
      · exact ⟨_, ⟨h1, 0, by omega, rfl⟩, h3, h4⟩
      · exact ⟨_, ⟨h1, 1, by omega, rfl⟩, h3, h4⟩
  · rw [e2]
    have := (h0.add (xing m f i 2) (hpos 2)).add (xing m f i 3) (hpos 3)
    convert this using 1
    ext d
    simp only [crossings, vadj_iff G hi, xing, Set.mem_setOf_eq, Set.empty_union, Set.mem_union]
    constructor
    · rintro ⟨n, ⟨h1, j, hj, hj', rfl⟩, h3, h4⟩
      have : j = 2 ∨ j = 3 := by omega
      obtain rfl | rfl := this
      · exact .inl ⟨⟨h1, h3⟩, h4⟩
      · exact .inr ⟨⟨h1, h3⟩, h4⟩
    · rintro (⟨⟨h1, h3⟩, h4⟩ | ⟨⟨h1, h3⟩, h4⟩)
      · exact ⟨_, ⟨h1, 2, by omega, by omega, rfl⟩, h3, h4⟩
      · exact ⟨_, ⟨h1, 3, by omega, by omega, rfl⟩, h3, h4⟩

theorem distSum_real (a b : ℝ) : distSum a b = (if 0 < a then 1 / (a * a) else 0) + (if 0 < b then 1 / (b * b) else 0) := by
  unfold distSum
  by_cases h1 : 0 < a <;> by_cases h2 : 0 < b <;> simp [h1, h2]

theorem borderDist_eq (G : IsGrid w h m) (f : Nat → ℝ) {i : Nat} (hi : i < m.nNodes) :
    borderDist m f i = 1 / Real.sqrt (invSq (crossings (HAdj w h) f i) + invSq (crossings (VAdj w h) f i)) := by
  obtain ⟨h1, h2⟩ := borderV_least G f hi
  unfold borderDist
  rw [distSum_real, h1.invSq, h2.invSq]
  simp [Real.sqrt_inv]

theorem invSq_nonneg (S : Set ℝ) : 0 ≤ invSq S := by
  unfold invSq; split_ifs <;> positivity

/-- the two terms bound the reciprocal of every crossing distance -/
theorem invSq_ge (G : IsGrid w h m) (f : Nat → ℝ) {i : Nat} (hi : i < m.nNodes) {d : ℝ}
    (hd : d ∈ crossings (Adj w h) f i) :
    1 / d ^ 2 ≤ invSq (crossings (HAdj w h) f i) + invSq (crossings (VAdj w h) f i) := by
  have key : ∀ S R, Least0 S R → d ∈ S → 1 / d ^ 2 ≤ invSq S := by
    rintro S R (⟨rfl, -⟩ | ⟨h1, h2⟩) hm
    · exact hm.elim
    · unfold invSq
      rw [if_pos ⟨R, h1.1⟩, h1.csInf_eq]
      have := h1.2 hm
      exact one_div_le_one_div_of_le (by positivity) (pow_le_pow_left₀ h2.le this 2)
  obtain ⟨l1, l2⟩ := borderV_least G f hi
  obtain ⟨n, ha, h1, h2⟩ := hd
  have n1 := invSq_nonneg (crossings (HAdj w h) f i)
  have n2 := invSq_nonneg (crossings (VAdj w h) f i)
  rcases ha with ha | ha
  · have := key _ _ l1 ⟨n, ha, h1, h2⟩
    linarith
  · have := key _ _ l2 ⟨n, ha, h1, h2⟩
    linarith

theorem borderDist_le (G : IsGrid w h m) (f : Nat → ℝ) {i : Nat} (hi : i < m.nNodes) {d : ℝ}
    (hd : d ∈ crossings (Adj w h) f i) : 0 < borderDist m f i ∧ borderDist m f i ≤ d ∧ d < 1 := by
  have hb : 0 < d ∧ d < 1 := by
    obtain ⟨n, ha, h1, rfl⟩ := hd
    exact crossing_bounds h1
  have hge := invSq_ge G f hi hd
  rw [borderDist_eq G f hi]
  have hpos : 0 < 1 / d ^ 2 := by have := hb.1; positivity
  have hs : 0 < invSq (crossings (HAdj w h) f i) + invSq (crossings (VAdj w h) f i) := lt_of_lt_of_le hpos hge
  refine ⟨by positivity, ?_, hb.2⟩
  rw [div_le_iff₀ (Real.sqrt_pos.2 hs)]
  have h1 : 1 / d ≤ Real.sqrt (invSq (crossings (HAdj w h) f i) + invSq (crossings (VAdj w h) f i)) := by
    rw [show (1 : ℝ) / d = Real.sqrt (1 / d ^ 2) by
      rw [show (1 : ℝ) / d ^ 2 = (1 / d) ^ 2 by ring, Real.sqrt_sq (by have := hb.1; positivity)]]
    exact Real.sqrt_le_sqrt hge
  have := mul_le_mul_of_nonneg_left h1 hb.1.le
  rw [mul_one_div, div_self hb.1.ne'] at this
  exact this

open Classical in
theorem initSd_real (G : IsGrid w h m) (f : Nat → ℝ) {i : Nat} (hi : i < m.nNodes) :
    initSd m f i = if f i = 0 then 0 else if (∃ n, Adj w h i n ∧ f i * f n < 0) then
      (if f i < 0 then -borderDist m f i else borderDist m f i) else f i := by
  unfold initSd
  have hb : (borderV m f i).1 = true ↔ ∃ n, Adj w h i n ∧ f i * f n < 0 := by
    rw [borderV_fst G f hi]; simp [Opposite]
  by_cases h0 : f i = 0
  · rw [if_pos (by simpa using h0), if_pos h0, h0]
  · rw [if_neg (by simpa using h0), if_neg h0]
    by_cases h1 : (borderV m f i).1 = true
    · rw [if_pos h1, if_pos (hb.1 h1)]
      by_cases h2 : f i < 0
      · rw [if_pos (by simpa using h2), if_pos h2]; rfl
      · rw [if_neg (by simpa using h2), if_neg h2]
    · rw [if_neg h1, if_neg fun h => h1 (hb.2 h)]

theorem initSd_sameSide (G : IsGrid w h m) (f : Nat → ℝ) {i : Nat} (hi : i < m.nNodes) : SameSide (f i) (initSd m f i) := by
  rw [initSd_real G f hi]
  unfold SameSide
  split_ifs with h0 h1 h2
  · exact .inr (.inr ⟨h0, rfl⟩)
  · obtain ⟨n, ha, hn⟩ := h1
    have := (borderDist_le G f hi ⟨n, ha, hn, rfl⟩).1
    exact .inr (.inl ⟨h2, by linarith⟩)
  · obtain ⟨n, ha, hn⟩ := h1
    have := (borderDist_le G f hi ⟨n, ha, hn, rfl⟩).1
    exact .inl ⟨lt_of_le_of_ne (not_lt.1 h2) (Ne.symm h0), this⟩
  · rcases lt_trichotomy (f i) 0 with h | h | h
    · exact .inr (.inl ⟨h, h⟩)
    · exact absurd h h0
    · exact .inl ⟨h, h⟩

end

/-! ### the node update -/

section
variable {m : Mesh ℝ} {s : AS ℝ}

/-- the pair `(dist1, dist2)` as an `Upwind` -/
noncomputable def toUp (d : ℝ × ℝ) : Upwind :=
  if d.1 < FP.maxVal then some (d.1, if d.2 < FP.maxVal then some d.2 else none) else none

theorem maxVal_pos : (0 : ℝ) < FP.maxVal := by
  show (0 : ℝ) < (2 - 1 / 2 ^ 52) * 2 ^ 1023
  have : (0 : ℝ) < 2 ^ 1023 := by positivity
  have h2 : (0 : ℝ) < 2 - 1 / 2 ^ 52 := by norm_num
  exact mul_pos h2 this

/-- sentinel or a proper value -/
def Ok1 (d : ℝ × ℝ) : Prop := (d.1 = FP.maxVal ∧ d.2 = FP.maxVal) ∨ (|d.1| < FP.maxVal ∧ (d.2 = FP.maxVal ∨ |d.2| < FP.maxVal))

theorem lt_max_of_abs {x : ℝ} (h : |x| < (FP.maxVal : ℝ)) : x < FP.maxVal := lt_of_le_of_lt (le_abs_self x) h

theorem toUp_step (n i j : Nat) {d : ℝ × ℝ} (hd : Ok1 d) :
    Ok1 (stencilV m s n i j d) ∧ toUp (stencilV m s n i j d) =
      match toUp d, (sideOf m s n (2 * i + j)).only with
      | some a, some b => if |b.1| < |a.1| then some (b.1, b.2.or a.2) else some a
      | some a, none => some a
      | none, b => b := by
  unfold stencilV sideOf Side.only finalValue
  simp only
  generalize hk : nb m n (2 * i + j) = k
  generalize hk2 : nb m k (2 * i + j) = k2
  have hmax : |(FP.maxVal : ℝ)| = FP.maxVal := abs_of_pos maxVal_pos
  have hdle : |d.1| ≤ FP.maxVal := by
    rcases hd with ⟨e1, -⟩ | ⟨e1, -⟩
    · rw [e1, hmax]
    · exact e1.le
  by_cases h1 : k ≠ m.nNodes ∧ s.st k = .frozen ∧ |s.sd k| < FP.maxVal
  · have f1 : |s.sd k| < (FP.maxVal : ℝ) := h1.2.2
    rw [if_pos h1]
    -- the second value
    have hsec : ∀ o, Side.usable ⟨o, if k2 ≠ m.nNodes ∧ s.st k2 = .frozen ∧ |s.sd k2| < FP.maxVal then some (s.sd k2)
        else none⟩ (s.sd k) = if k2 ≠ m.nNodes ∧ s.st k2 = .frozen ∧ |s.sd k2| ≤ |s.sd k| then some (s.sd k2) else none := by
      intro o
      unfold Side.usable
      by_cases h2 : k2 ≠ m.nNodes ∧ s.st k2 = .frozen ∧ |s.sd k2| < FP.maxVal
      · rw [if_pos h2]
        dsimp only
        by_cases h3 : |s.sd k2| ≤ |s.sd k|
        · rw [if_pos h3, if_pos ⟨h2.1, h2.2.1, h3⟩]
        · rw [if_neg h3, if_neg fun h => h3 h.2.2]
      · simp only [if_neg h2]
        rw [if_neg fun h => h2 ⟨h.1, h.2.1, lt_of_le_of_lt h.2.2 f1⟩]
    simp only [Option.map_some]
    rw [hsec]
    have hP : (k ≠ m.nNodes ∧ s.st k = .frozen ∧ FP.lt (FP.abs (s.sd k)) (FP.abs d.1) = true) ↔ |s.sd k| < |d.1| :=
      ⟨fun h => by simpa using h.2.2, fun h => ⟨h1.1, h1.2.1, by simpa using h⟩⟩
    have hQ : (k2 ≠ m.nNodes ∧ s.st k2 = .frozen ∧ FP.le (FP.abs (s.sd k2)) (FP.abs (s.sd k)) = true) ↔
        (k2 ≠ m.nNodes ∧ s.st k2 = .frozen ∧ |s.sd k2| ≤ |s.sd k|) := by simp
    by_cases hlt : |s.sd k| < |d.1|
    · rw [if_pos (hP.2 hlt)]
      by_cases h2 : k2 ≠ m.nNodes ∧ s.st k2 = .frozen ∧ |s.sd k2| ≤ |s.sd k|
      · rw [if_pos (hQ.2 h2), if_pos h2]
        have f2 : |s.sd k2| < (FP.maxVal : ℝ) := lt_of_le_of_lt h2.2.2 f1
        refine ⟨.inr ⟨f1, .inr f2⟩, ?_⟩
        have e : toUp (s.sd k, s.sd k2) = some (s.sd k, some (s.sd k2)) := by
          unfold toUp; rw [if_pos (lt_max_of_abs f1), if_pos (lt_max_of_abs f2)]
        rw [e]
        rcases hd with ⟨e1, e2⟩ | ⟨e1, e2⟩
        · have hnone : toUp d = none := by unfold toUp; rw [e1, if_neg (lt_irrefl _)]
          rw [hnone]
        · have hsome : toUp d = some (d.1, if d.2 < FP.maxVal then some d.2 else none) := by
            unfold toUp; rw [if_pos (lt_max_of_abs e1)]
          rw [hsome]
          dsimp only
          rw [if_pos hlt]
          rfl
      · rw [if_neg fun h => h2 (hQ.1 h), if_neg h2]
        rcases hd with ⟨e1, e2⟩ | ⟨e1, e2⟩
        · have hnone : toUp d = none := by unfold toUp; rw [e1, if_neg (lt_irrefl _)]
          rw [hnone, e2]
          refine ⟨.inr ⟨f1, .inl rfl⟩, ?_⟩
          unfold toUp; rw [if_pos (lt_max_of_abs f1), if_neg (lt_irrefl _)]
        · have hsome : toUp d = some (d.1, if d.2 < FP.maxVal then some d.2 else none) := by
            unfold toUp; rw [if_pos (lt_max_of_abs e1)]
          rw [hsome]
          dsimp only
          rw [if_pos hlt]
          refine ⟨.inr ⟨f1, e2⟩, ?_⟩
          unfold toUp; rw [if_pos (lt_max_of_abs f1)]
          rfl
    · rw [if_neg fun h => hlt (hP.1 h)]
      refine ⟨hd, ?_⟩
      rcases hd with ⟨e1, e2⟩ | ⟨e1, e2⟩
      · rw [e1, hmax] at hlt
        exact absurd f1 hlt
      · have hsome : toUp d = some (d.1, if d.2 < FP.maxVal then some d.2 else none) := by
          unfold toUp; rw [if_pos (lt_max_of_abs e1)]
        rw [hsome]
        dsimp only
        rw [if_neg hlt]
  · rw [if_neg h1, if_neg]
    · refine ⟨hd, ?_⟩
      cases toUp d <;> rfl
    · rintro ⟨a1, a2, a3⟩
      have a3' : |s.sd k| < |d.1| := by simpa using a3
      exact h1 ⟨a1, a2, lt_of_lt_of_le a3' hdle⟩

theorem dists_up (n i : Nat) :
    Ok1 (dists m s n i) ∧ toUp (dists m s n i) = axisCode m s n i := by
  have h0 : Ok1 ((FP.maxVal, FP.maxVal) : ℝ × ℝ) := .inl ⟨rfl, rfl⟩
  have e0 : toUp ((FP.maxVal, FP.maxVal) : ℝ × ℝ) = none := by unfold toUp; simp
  obtain ⟨o1, e1⟩ := toUp_step (m := m) n i 0 h0
  obtain ⟨o2, e2⟩ := toUp_step (m := m) n i 1 o1
  refine ⟨o2, ?_⟩
  unfold dists
  rw [e2, e1, e0]
  unfold axisCode upwindCode
  rfl

/-- the coefficients for given upwind values -/
noncomputable def accUp : Upwind → ℝ × ℝ × ℝ → ℝ × ℝ × ℝ
  | none, s => s
  | some (d1, none), s => (s.1 + 1, s.2.1 - 2 * d1, s.2.2 + d1 * d1)
  | some (d1, some d2), s => (s.1 + 9 / 4, s.2.1 - 2 * (9 / 4) * (1 / 3 * (4 * d1 - d2)),
      s.2.2 + 9 / 4 * (1 / 3 * (4 * d1 - d2)) * (1 / 3 * (4 * d1 - d2)))

theorem accum_up {d : ℝ × ℝ} (hd : Ok1 d) (c : ℝ × ℝ × ℝ) : accum d.1 d.2 c = accUp (toUp d) c := by
  unfold accum toUp
  rcases hd with ⟨e1, e2⟩ | ⟨e1, e2 | e2⟩
  · rw [e1, e2]; simp [accUp]
  · have h1 := lt_max_of_abs e1
    rw [e2]
    simp [h1, accUp]
  · have h1 := lt_max_of_abs e1
    have h2 := lt_max_of_abs e2
    simp [h1, h2, accUp]

theorem accUp_poly (u : Upwind) (c : ℝ × ℝ × ℝ) (T : ℝ) :
    (accUp u c).1 * T ^ 2 + (accUp u c).2.1 * T + (accUp u c).2.2 = c.1 * T ^ 2 + c.2.1 * T + c.2.2 + diffSq T u := by
  match u with
  | none => simp [accUp, diffSq]
  | some (d1, none) => simp only [accUp, diffSq]; ring
  | some (d1, some d2) => simp only [accUp, diffSq]; ring

theorem accUp_fst (u : Upwind) (c : ℝ × ℝ × ℝ) : c.1 ≤ (accUp u c).1 ∧ (u ≠ none → c.1 < (accUp u c).1) := by
  match u with
  | none => simp [accUp]
  | some (d1, none) => simp [accUp]
  | some (d1, some d2) => simp only [accUp]; constructor <;> [linarith; (intro; linarith)]

theorem coeffs_up (n : Nat) :
    coeffs m s n = accUp (axisCode m s n 1) (accUp (axisCode m s n 0) (0, 0, 0)) := by
  obtain ⟨o0, e0⟩ := dists_up (m := m) n 0
  obtain ⟨o1, e1⟩ := dists_up (m := m) n 1
  unfold coeffs
  rw [accum_up o1, accum_up o0, e0, e1]
  simp

/-- the quadratic formula -/
theorem quad_root {a b c : ℝ} (ha : 0 < a) (hD : 0 < b * b - 4 * a * c) (T : ℝ) :
    a * T ^ 2 + b * T + c = 0 ↔
      T = (-b + Real.sqrt (b * b - 4 * a * c)) / (2 * a) ∨ T = (-b - Real.sqrt (b * b - 4 * a * c)) / (2 * a) := by
  have h1 := quadratic_eq_zero_iff (a := a) (b := b) (c := c) ha.ne' (s := Real.sqrt (b * b - 4 * a * c))
    (by rw [discrim, Real.mul_self_sqrt hD.le]; ring) T
  rw [← h1]
  constructor <;> intro h <;> nlinarith [h]

theorem eik_poly (n : Nat) (T : ℝ) :
    (coeffs m s n).1 * T ^ 2 + (coeffs m s n).2.1 * T + (coeffs m s n).2.2 = eik m s n T := by
  rw [coeffs_up, accUp_poly, accUp_poly]
  unfold eik; simp

theorem updateV_real (cp : Nat → ℝ) (n : Nat) :
    updateV m cp s n =
      if 0 < (coeffs m s n).2.1 * (coeffs m s n).2.1 - 4 * (coeffs m s n).1 * ((coeffs m s n).2.2 - 1) then
        if doubleEpsilon < cp n then
          (-(coeffs m s n).2.1 + Real.sqrt ((coeffs m s n).2.1 * (coeffs m s n).2.1 -
            4 * (coeffs m s n).1 * ((coeffs m s n).2.2 - 1))) / (2 * (coeffs m s n).1)
        else
          (-(coeffs m s n).2.1 - Real.sqrt ((coeffs m s n).2.1 * (coeffs m s n).2.1 -
            4 * (coeffs m s n).1 * ((coeffs m s n).2.2 - 1))) / (2 * (coeffs m s n).1)
      else s.sd n := by
  unfold updateV rootV
  simp only [FP.nat_real, FP.sub_real, FP.mul_real, FP.add_real, FP.neg_real, FP.sqrt_real, FP.div_real, FP.lt_real]
  norm_num

/-- either no upwind value at all, or a genuine quadratic -/
theorem coeffs_cases (n : Nat) :
    (0 < (coeffs m s n).1) ∨ ((coeffs m s n) = (0, 0, 0) ∧ axisCode m s n 0 = none ∧ axisCode m s n 1 = none) := by
  rw [coeffs_up]
  by_cases h0 : axisCode m s n 0 = none
  · by_cases h1 : axisCode m s n 1 = none
    · right; rw [h0, h1]; simp [accUp]
    · left
      have := (accUp_fst (axisCode m s n 1) (accUp (axisCode m s n 0) (0, 0, 0))).2 h1
      have h2 := (accUp_fst (axisCode m s n 0) (0, 0, 0)).1
      simp only at h2
      linarith
  · left
    have := (accUp_fst (axisCode m s n 1) (accUp (axisCode m s n 0) (0, 0, 0))).1
    have h2 := (accUp_fst (axisCode m s n 0) (0, 0, 0)).2 h0
    simp only at h2
    linarith

theorem updateV_solves (cp : Nat → ℝ) (n : Nat)
    (h2 : ∃ T1 T2, T1 ≠ T2 ∧ eik m s n T1 = 1 ∧ eik m s n T2 = 1) :
    eik m s n (updateV m cp s n) = 1 ∧
      (doubleEpsilon < cp n → ∀ T, eik m s n T = 1 → T ≤ updateV m cp s n) ∧
      (¬ doubleEpsilon < cp n → ∀ T, eik m s n T = 1 → updateV m cp s n ≤ T) := by
  obtain ⟨T1, T2, hne, e1, e2⟩ := h2
  have poly := eik_poly (m := m) (s := s) n
  rw [updateV_real]
  rcases coeffs_cases (m := m) n with ha | ⟨h0, a0, a1⟩
  · generalize (coeffs m s n).1 = a at *
    generalize (coeffs m s n).2.1 = b at *
    generalize (coeffs m s n).2.2 = c at *
    have p1 := poly T1
    have p2 := poly T2
    rw [e1] at p1
    rw [e2] at p2
    have hD : 0 < b * b - 4 * a * (c - 1) := by
      have hb : a * (T1 + T2) + b = 0 := by
        have : (T1 - T2) * (a * (T1 + T2) + b) = 0 := by linear_combination p1 - p2
        rcases mul_eq_zero.1 this with h | h
        · exact absurd (sub_eq_zero.1 h) hne
        · exact h
      have hbb : b = -(a * (T1 + T2)) := by linarith
      have hc : c - 1 = a * (T1 * T2) := by
        have : c = 1 - a * T1 ^ 2 - b * T1 := by linarith
        rw [this, hbb]; ring
      rw [hc, hbb]
      have : 0 < a ^ 2 * (T1 - T2) ^ 2 := by
        have := sub_ne_zero.2 hne
        positivity
      nlinarith
    have hs : 0 < Real.sqrt (b * b - 4 * a * (c - 1)) := Real.sqrt_pos.2 hD
    have hroot := fun T => quad_root (a := a) (b := b) (c := c - 1) ha hD T
    have heik : ∀ T, eik m s n T = 1 ↔ a * T ^ 2 + b * T + (c - 1) = 0 := by
      intro T; rw [← poly T]; constructor <;> intro h <;> linarith
    have hle : (-b - Real.sqrt (b * b - 4 * a * (c - 1))) / (2 * a) ≤ (-b + Real.sqrt (b * b - 4 * a * (c - 1))) / (2 * a) := by
      apply div_le_div_of_nonneg_right _ (by linarith)
      linarith
    rw [if_pos hD]
    refine ⟨?_, fun hc T hT => ?_, fun hc T hT => ?_⟩
    · rw [heik, hroot]
      split_ifs
      · exact .inl rfl
      · exact .inr rfl
    · rw [if_pos hc]
      rcases (hroot T).1 ((heik T).1 hT) with rfl | rfl
      · exact le_refl _
      · exact hle
    · rw [if_neg hc]
      rcases (hroot T).1 ((heik T).1 hT) with rfl | rfl
      · exact hle
      · exact le_refl _
  · exfalso
    unfold eik at e1
    rw [a0, a1] at e1
    simp [diffSq] at e1

theorem updateV_keeps (cp : Nat → ℝ) (n : Nat)
    (h2 : ¬ ∃ T1 T2, T1 ≠ T2 ∧ eik m s n T1 = 1 ∧ eik m s n T2 = 1) : updateV m cp s n = s.sd n := by
  have poly := eik_poly (m := m) (s := s) n
  rw [updateV_real]
  rw [if_neg]
  intro hD
  rcases coeffs_cases (m := m) n with ha | ⟨h0, a0, a1⟩
  · generalize (coeffs m s n).1 = a at *
    generalize (coeffs m s n).2.1 = b at *
    generalize (coeffs m s n).2.2 = c at *
    have hs : 0 < Real.sqrt (b * b - 4 * a * (c - 1)) := Real.sqrt_pos.2 hD
    refine h2 ⟨(-b + Real.sqrt (b * b - 4 * a * (c - 1))) / (2 * a), (-b - Real.sqrt (b * b - 4 * a * (c - 1))) / (2 * a),
      ?_, ?_, ?_⟩
    · intro h
      have := (div_left_inj' (show (2 * a) ≠ 0 by linarith)).1 h
      linarith
    · have := (quad_root (a := a) (b := b) (c := c - 1) ha hD _).2 (.inl rfl)
      rw [← poly]; linarith
    · have := (quad_root (a := a) (b := b) (c := c - 1) ha hD _).2 (.inr rfl)
      rw [← poly]; linarith
  · rw [h0] at hD
    norm_num at hD

/-! ### side of the updated value -/

/-- upwind values that pull towards the positive side -/
def PosUp : Upwind → Prop
  | none => True
  | some (d1, none) => 0 ≤ d1
  | some (d1, some d2) => d2 ≤ 4 * d1

/-- upwind values that pull towards the negative side -/
def NegUp : Upwind → Prop
  | none => True
  | some (d1, none) => d1 ≤ 0
  | some (d1, some d2) => 4 * d1 ≤ d2

theorem accUp_snd_pos (u : Upwind) (hu : PosUp u) (c : ℝ × ℝ × ℝ) (hc : c.2.1 ≤ 0) : (accUp u c).2.1 ≤ 0 := by
  match u with
  | none => exact hc
  | some (d1, none) => simp only [accUp, PosUp] at *; linarith
  | some (d1, some d2) => simp only [accUp, PosUp] at *; linarith

theorem accUp_snd_neg (u : Upwind) (hu : NegUp u) (c : ℝ × ℝ × ℝ) (hc : 0 ≤ c.2.1) : 0 ≤ (accUp u c).2.1 := by
  match u with
  | none => exact hc
  | some (d1, none) => simp only [accUp, NegUp] at *; linarith
  | some (d1, some d2) => simp only [accUp, NegUp] at *; linarith

theorem updateV_pos (cp : Nat → ℝ) (n : Nat)
    (h0 : PosUp (axisCode m s n 0)) (h1 : PosUp (axisCode m s n 1)) (hcp : doubleEpsilon < cp n) (hsd : 0 < s.sd n) :
    0 < updateV m cp s n := by
  rw [updateV_real, if_pos hcp]
  split_ifs with hD
  · have hb : (coeffs m s n).2.1 ≤ 0 := by
      rw [coeffs_up]
      exact accUp_snd_pos _ h1 _ (accUp_snd_pos _ h0 _ (le_refl _))
    rcases coeffs_cases (m := m) n with ha | ⟨hz, -, -⟩
    · have := Real.sqrt_pos.2 hD
      apply div_pos <;> linarith
    · rw [hz] at hD; norm_num at hD
  · exact hsd

theorem updateV_neg (cp : Nat → ℝ) (n : Nat)
    (h0 : NegUp (axisCode m s n 0)) (h1 : NegUp (axisCode m s n 1)) (hcp : ¬ doubleEpsilon < cp n) (hsd : s.sd n < 0) :
    updateV m cp s n < 0 := by
  rw [updateV_real, if_neg hcp]
  split_ifs with hD
  · have hb : 0 ≤ (coeffs m s n).2.1 := by
      rw [coeffs_up]
      exact accUp_snd_neg _ h1 _ (accUp_snd_neg _ h0 _ (le_refl _))
    rcases coeffs_cases (m := m) n with ha | ⟨hz, -, -⟩
    · have := Real.sqrt_pos.2 hD
      apply div_neg_of_neg_of_pos <;> linarith
    · rw [hz] at hD; norm_num at hD
  · exact hsd

end

end FMM

end Slsm
