import Mathlib.MeasureTheory.Measure.Lebesgue.EqHaar
import Mathlib.MeasureTheory.Integral.IntervalIntegral.Basic
import Mathlib.Analysis.SpecialFunctions.Integrals.Basic
import Mathlib.Analysis.Convex.Join
import Mathlib.Analysis.Convex.Topology
import Mathlib.Data.List.Rotate

/-! # The area of a convex polygon is its Lebesgue measure -/

namespace Slsm.Polygon

open MeasureTheory Set
open scoped Pointwise

/-- Twice the signed area of a triangle. -/
def cr (a b c : ℝ × ℝ) : ℝ := (b.1 - a.1) * (c.2 - a.2) - (b.2 - a.2) * (c.1 - a.1)

/-! ### Triangles -/

def unitTriangle : Set (ℝ × ℝ) := {p | 0 ≤ p.1 ∧ 0 ≤ p.2 ∧ p.1 + p.2 ≤ 1}

theorem unitTriangle_hull : convexHull ℝ {((0 : ℝ), (0 : ℝ)), (1, 0), (0, 1)} = unitTriangle := by
  apply Subset.antisymm
  · refine convexHull_min ?_ ?_
    · rintro p (rfl | rfl | rfl) <;> norm_num [unitTriangle]
    · rintro ⟨a, b⟩ ⟨h1, h2, h3⟩ ⟨c, d⟩ ⟨h4, h5, h6⟩ s t hs ht hst
      simp only [unitTriangle, mem_setOf_eq, Prod.fst_add, Prod.snd_add, Prod.smul_fst, Prod.smul_snd, smul_eq_mul] at *
      refine ⟨by positivity, by positivity, ?_⟩
      nlinarith
  · rintro ⟨x, y⟩ ⟨h1, h2, h3⟩
    dsimp only at h1 h2 h3
    have key := (convex_convexHull ℝ {((0 : ℝ), (0 : ℝ)), (1, 0), (0, 1)}).sum_mem (t := Finset.univ) (w := ![1 - x - y, x, y]) (z := ![(0, 0), (1, 0), (0, 1)])
      (by intro i _; fin_cases i <;> simp <;> linarith) (by simp [Fin.sum_univ_three]; ring) (by
        intro i _
        apply subset_convexHull
        fin_cases i <;> simp)
    convert key using 1
    simp [Fin.sum_univ_three]

theorem volume_unitTriangle : volume unitTriangle = ENNReal.ofReal (1 / 2) := by
  have hm : MeasurableSet unitTriangle := by
    rw [← unitTriangle_hull]
    have : ({((0 : ℝ), (0 : ℝ)), (1, 0), (0, 1)} : Set (ℝ × ℝ)).Finite := by simp
    exact (this.isClosed_convexHull ℝ).measurableSet
  rw [Measure.volume_eq_prod, Measure.prod_apply hm]
  have : ∀ x : ℝ, volume (Prod.mk x ⁻¹' unitTriangle) = (Icc (0 : ℝ) 1).indicator (fun x => ENNReal.ofReal (1 - x)) x := by
    intro x
    by_cases hx : x ∈ Icc (0 : ℝ) 1
    · rw [indicator_of_mem hx]
      have : Prod.mk x ⁻¹' unitTriangle = Icc 0 (1 - x) := by
        ext y
        simp only [unitTriangle, mem_preimage, mem_setOf_eq, mem_Icc]
        constructor
        · rintro ⟨-, h2, h3⟩; exact ⟨h2, by linarith⟩
        · rintro ⟨h2, h3⟩; exact ⟨hx.1, h2, by linarith⟩
      rw [this, Real.volume_Icc, sub_zero]
    · rw [indicator_of_notMem hx]
      have : Prod.mk x ⁻¹' unitTriangle = ∅ := by
        ext y
        simp only [unitTriangle, mem_preimage, mem_setOf_eq, mem_empty_iff_false, iff_false]
        rintro ⟨h1, h2, h3⟩
        exact hx ⟨h1, by linarith⟩
      rw [this, measure_empty]
  simp_rw [this]
  rw [lintegral_indicator measurableSet_Icc, ← ofReal_integral_eq_lintegral_ofReal]
  · congr 1
    rw [integral_Icc_eq_integral_Ioc, ← intervalIntegral.integral_of_le (by norm_num)]
    rw [intervalIntegral.integral_sub (by simp) (by simp)]
    simp
    norm_num
  · exact (continuous_const.sub continuous_id).integrableOn_Icc
  · filter_upwards [ae_restrict_mem measurableSet_Icc] with x hx
    simp only [Pi.zero_apply]
    linarith [hx.2]

theorem volume_triangle (a b c : ℝ × ℝ) : volume (convexHull ℝ {a, b, c}) = ENNReal.ofReal (|cr a b c| / 2) := by
  let f := Matrix.toLin (Module.Basis.finTwoProd ℝ) (Module.Basis.finTwoProd ℝ) !![b.1 - a.1, c.1 - a.1; b.2 - a.2, c.2 - a.2]
  have hf : ∀ p, f p = ((b.1 - a.1) * p.1 + (c.1 - a.1) * p.2, (b.2 - a.2) * p.1 + (c.2 - a.2) * p.2) := Matrix.toLin_finTwoProd_apply _ _ _ _
  have h1 : convexHull ℝ {a, b, c} = a +ᵥ (f '' unitTriangle) := by
    rw [← unitTriangle_hull, f.image_convexHull, ← convexHull_vadd]
    congr 1
    rw [image_insert_eq, image_insert_eq, image_singleton, hf, hf, hf]
    simp only [← image_vadd, image_insert_eq, image_singleton, vadd_eq_add]
    congr 1
    · ext <;> simp
    · congr 1
      · ext <;> simp
      · congr 1
        ext <;> simp
  haveI : (volume : Measure (ℝ × ℝ)).IsAddHaarMeasure := by rw [Measure.volume_eq_prod]; infer_instance
  have h2 : volume (a +ᵥ (f '' unitTriangle)) = volume (f '' unitTriangle) := by
    rw [← image_vadd]
    simp only [vadd_eq_add]
    rw [image_add_left, measure_preimage_add]
  rw [h1, h2, Measure.addHaar_image_linearMap, volume_unitTriangle, LinearMap.det_toLin, Matrix.det_fin_two_of, ← ENNReal.ofReal_mul (abs_nonneg _)]
  congr 1
  have : cr a b c = (b.1 - a.1) * (c.2 - a.2) - (c.1 - a.1) * (b.2 - a.2) := by unfold cr; ring
  rw [this]
  ring

theorem volume_segment (a b : ℝ × ℝ) : volume (convexHull ℝ {a, b}) = 0 := by
  have := volume_triangle a b b
  rw [show ({a, b, b} : Set (ℝ × ℝ)) = {a, b} by ext; simp] at this
  rw [this]
  have : cr a b b = 0 := by unfold cr; ring
  simp [this]

/-! ### Polygons -/

/-- Every three vertices in the order of the list turn to the left. -/
def LeftTurns (l : List (ℝ × ℝ)) : Prop := ∀ a b c, [a, b, c].Sublist l → 0 < cr a b c

def hull (l : List (ℝ × ℝ)) : Set (ℝ × ℝ) := convexHull ℝ {p | p ∈ l}

/-- Twice the area, by the shoelace formula. -/
def lace (l : List (ℝ × ℝ)) : ℝ := (List.zipWith (fun p q => p.1 * q.2 - q.1 * p.2) l (l.rotate 1)).sum

theorem lace_fan (a b c : ℝ × ℝ) (l : List (ℝ × ℝ)) : lace (a :: b :: c :: l) = cr a b c + lace (a :: c :: l) := by
  unfold lace
  have h : ∀ (p : ℝ × ℝ) (m : List (ℝ × ℝ)), (p :: m).rotate 1 = m ++ [p] := fun p m => by simp
  rw [h, h]
  simp only [List.cons_append, List.zipWith_cons_cons, List.sum_cons]
  unfold cr
  ring

theorem cr_affine (a b p q : ℝ × ℝ) {s t : ℝ} (h : s + t = 1) : cr a b (s • p + t • q) = s * cr a b p + t * cr a b q := by
  simp only [cr, Prod.fst_add, Prod.snd_add, Prod.smul_fst, Prod.smul_snd, smul_eq_mul]
  linear_combination ((b.1 - a.1) * a.2 - (b.2 - a.2) * a.1) * h

theorem convex_side (a b : ℝ × ℝ) : Convex ℝ {p | 0 ≤ cr a b p} := by
  intro p hp q hq s t hs ht hst
  simp only [mem_setOf_eq] at *
  rw [cr_affine _ _ _ _ hst]
  positivity

/-- Points of the hull on the line through the first and the third vertex are between them. -/
theorem on_diagonal {a b c : ℝ × ℝ} {S : Set (ℝ × ℝ)} (h0 : 0 < cr a b c) (h1 : ∀ p ∈ S, 0 ≤ cr a b p) (h2 : ∀ p ∈ S, 0 ≤ cr b c p) {z : ℝ × ℝ}
    (hz : z ∈ convexHull ℝ S) (hc : cr a c z = 0) : z ∈ convexHull ℝ {a, c} := by
  have k1 : 0 ≤ cr a b z := convexHull_min h1 (convex_side a b) hz
  have k2 : 0 ≤ cr b c z := convexHull_min h2 (convex_side b c) hz
  rw [convexHull_pair, segment_eq_image]
  refine ⟨cr a b z / cr a b c, ⟨by positivity, ?_⟩, ?_⟩
  · rw [div_le_one h0]
    have : cr a b z + cr b c z - cr a c z = cr a b c := by unfold cr; ring
    linarith
  · unfold cr at h0 hc
    have e1 : (c.1 - a.1) * cr a b z = (z.1 - a.1) * cr a b c := by
      unfold cr
      linear_combination (b.1 - a.1) * hc
    have e2 : (c.2 - a.2) * cr a b z = (z.2 - a.2) * cr a b c := by
      unfold cr
      linear_combination (b.2 - a.2) * hc
    have hne : cr a b c ≠ 0 := by unfold cr; exact h0.ne'
    ext
    · simp only [Prod.fst_add, Prod.smul_fst, smul_eq_mul]
      field_simp
      linear_combination e1
    · simp only [Prod.snd_add, Prod.smul_snd, smul_eq_mul]
      field_simp
      linear_combination e2

/-- Cutting off the second vertex. -/
theorem hull_fan {a b c : ℝ × ℝ} {S : Set (ℝ × ℝ)} (ha : a ∈ S) (hc : c ∈ S) (h0 : 0 < cr a b c) (h1 : ∀ p ∈ S, 0 ≤ cr a b p) (h2 : ∀ p ∈ S, 0 ≤ cr b c p)
    (h3 : ∀ p ∈ S, 0 ≤ cr a c p) :
    convexHull ℝ (insert b S) = convexHull ℝ {a, b, c} ∪ convexHull ℝ S ∧ convexHull ℝ {a, b, c} ∩ convexHull ℝ S ⊆ convexHull ℝ {a, c} := by
  have hb : cr a c b < 0 := by
    have : cr a c b = -cr a b c := by unfold cr; ring
    linarith
  have sub : convexHull ℝ {a, c} ⊆ convexHull ℝ S := convexHull_mono (by rintro p (rfl | rfl) <;> assumption)
  have i1 : ∀ p ∈ insert b S, 0 ≤ cr a b p := by
    rintro p (rfl | hp)
    · have : cr a p p = 0 := by unfold cr; ring
      exact this.ge
    · exact h1 p hp
  have i2 : ∀ p ∈ insert b S, 0 ≤ cr b c p := by
    rintro p (rfl | hp)
    · have : cr p c p = 0 := by unfold cr; ring
      exact this.ge
    · exact h2 p hp
  refine ⟨Subset.antisymm ?_ (union_subset (convexHull_mono ?_) (convexHull_mono (subset_insert _ _))), ?_⟩
  · intro q hq
    have hq0 := hq
    rw [convexHull_insert ⟨a, ha⟩, convexJoin_singleton_left, mem_iUnion₂] at hq
    obtain ⟨r, hr, hq⟩ := hq
    have gr : 0 ≤ cr a c r := convexHull_min h3 (convex_side a c) hr
    obtain ⟨s, t, hs, ht, hst, rfl⟩ := hq
    -- the point of the segment on the diagonal
    have hd : 0 < cr a c r - cr a c b := by linarith
    obtain ⟨k, hk0, hk1, hkk⟩ : ∃ k, 0 ≤ k ∧ k ≤ 1 ∧ k * (cr a c r - cr a c b) = cr a c r :=
      ⟨cr a c r / (cr a c r - cr a c b), by positivity, by rw [div_le_one hd]; linarith, div_mul_cancel₀ _ hd.ne'⟩
    have hz : k • b + (1 - k) • r ∈ convexHull ℝ (insert b S) := (convex_convexHull ℝ _) (subset_convexHull ℝ _ (mem_insert _ _))
      (convexHull_mono (subset_insert _ _) hr) hk0 (by linarith) (by ring)
    have hz := on_diagonal h0 i1 i2 hz (by
      rw [cr_affine _ _ _ _ (by ring)]
      linear_combination -hkk)
    rcases le_total s k with hsk | hsk
    · right
      rcases eq_or_lt_of_le hk0 with hk | hk
      · have : s = 0 := le_antisymm (by rw [hk]; exact hsk) hs
        subst this
        have : t = 1 := by linarith
        subst this
        simpa using hr
      have hzS := sub hz
      have := (convex_convexHull ℝ S) hzS hr (a := s / k) (b := 1 - s / k) (by positivity) (by rw [sub_nonneg, div_le_one hk]; exact hsk) (by ring)
      convert this using 1
      rw [smul_add, smul_smul, smul_smul, add_assoc, ← add_smul]
      have e1 : s / k * k = s := div_mul_cancel₀ _ hk.ne'
      congr 1
      · rw [e1]
      · congr 1
        linear_combination hst + e1
    · left
      have hT : k • b + (1 - k) • r ∈ convexHull ℝ {a, b, c} := convexHull_mono (by rintro p (rfl | rfl) <;> simp) hz
      have hbT : b ∈ convexHull ℝ {a, b, c} := subset_convexHull ℝ _ (by simp)
      rcases eq_or_lt_of_le hk1 with hk | hk
      · have : s = 1 := le_antisymm (by linarith) (by rw [← hk]; exact hsk)
        subst this
        have : t = 0 := by linarith
        subst this
        simpa using hbT
      have hk' : 0 < 1 - k := by linarith
      have := (convex_convexHull ℝ {a, b, c}) hbT hT (a := 1 - t / (1 - k)) (b := t / (1 - k)) (by rw [sub_nonneg, div_le_one hk']; linarith) (by positivity) (by ring)
      convert this using 1
      have e1 : t / (1 - k) * (1 - k) = t := div_mul_cancel₀ _ hk'.ne'
      rw [smul_add, smul_smul, smul_smul, ← add_assoc, ← add_smul]
      congr 1
      · congr 1
        linear_combination hst + e1
      · rw [e1]
  · rintro p (rfl | rfl | rfl)
    · exact mem_insert_of_mem _ ha
    · exact mem_insert _ _
    · exact mem_insert_of_mem _ hc
  · rintro z ⟨z1, z2⟩
    refine on_diagonal h0 h1 h2 z2 (le_antisymm ?_ (convexHull_min h3 (convex_side a c) z2))
    have : 0 ≤ cr c a z := by
      refine convexHull_min ?_ (convex_side c a) z1
      rintro p (rfl | rfl | rfl)
      · have : cr c p p = 0 := by unfold cr; ring
        exact this.ge
      · have : cr c a p = cr a p c := by unfold cr; ring
        rw [mem_setOf_eq, this]; exact h0.le
      · have : cr p a p = 0 := by unfold cr; ring
        exact this.ge
    have e : cr c a z = -cr a c z := by unfold cr; ring
    linarith

/-- The measure of a convex polygon is given by the shoelace formula. -/
theorem volume_hull : ∀ {l : List (ℝ × ℝ)}, LeftTurns l → 0 ≤ lace l ∧ volume (hull l) = ENNReal.ofReal (lace l / 2)
  | [], _ => by simp [hull, lace]
  | [a], _ => by
    have : hull [a] = convexHull ℝ {a, a} := by unfold hull; congr 1; ext; simp
    have h : lace [a] = 0 := by simp [lace]
    rw [this, volume_segment, h]
    simp
  | [a, b], _ => by
    have : hull [a, b] = convexHull ℝ {a, b} := by unfold hull; congr 1; ext; simp
    have h : lace [a, b] = 0 := by simp [lace]
    rw [this, volume_segment, h]
    simp
  | a :: b :: c :: l, hl => by
    have hl' : LeftTurns (a :: c :: l) := fun x y z h => hl x y z (h.trans (by simp))
    obtain ⟨i1, i2⟩ := volume_hull hl'
    have h0 : 0 < cr a b c := hl _ _ _ (by simp)
    rw [lace_fan]
    refine ⟨by linarith, ?_⟩
    have z1 : ∀ p q : ℝ × ℝ, cr p q p = 0 := fun p q => by unfold cr; ring
    have z2 : ∀ p q : ℝ × ℝ, cr p q q = 0 := fun p q => by unfold cr; ring
    have m1 : ∀ p ∈ {p | p ∈ a :: c :: l}, 0 ≤ cr a b p := by
      intro p hp
      rcases List.mem_cons.1 hp with rfl | hp
      · exact (z1 _ _).ge
      · refine (hl a b p ?_).le
        exact (List.Sublist.cons₂ a (List.Sublist.cons₂ b (List.singleton_sublist.2 hp)))
    have m2 : ∀ p ∈ {p | p ∈ a :: c :: l}, 0 ≤ cr b c p := by
      intro p hp
      rcases List.mem_cons.1 hp with rfl | hp
      · have : cr b c p = cr p b c := by unfold cr; ring
        rw [this]; exact h0.le
      · rcases List.mem_cons.1 hp with rfl | hp
        · exact (z2 _ _).ge
        · exact (hl b c p (.cons a (.cons₂ b (.cons₂ c (List.singleton_sublist.2 hp))))).le
    have m3 : ∀ p ∈ {p | p ∈ a :: c :: l}, 0 ≤ cr a c p := by
      intro p hp
      rcases List.mem_cons.1 hp with rfl | hp
      · exact (z1 _ _).ge
      · rcases List.mem_cons.1 hp with rfl | hp
        · exact (z2 _ _).ge
        · exact (hl a c p (.cons₂ a (.cons b (.cons₂ c (List.singleton_sublist.2 hp))))).le
    obtain ⟨f1, f2⟩ := hull_fan (S := {p | p ∈ a :: c :: l}) (by simp) (by simp) h0 m1 m2 m3
    have e : hull (a :: b :: c :: l) = convexHull ℝ (insert b {p | p ∈ a :: c :: l}) := by
      unfold hull
      congr 1
      ext p
      simp only [List.mem_cons, mem_setOf_eq, mem_insert_iff]
      tauto
    have fin : ({p | p ∈ a :: c :: l} : Set (ℝ × ℝ)).Finite := List.finite_toSet _
    rw [e, f1, measure_union₀ (fin.isClosed_convexHull ℝ).measurableSet.nullMeasurableSet (measure_mono_null f2 (volume_segment _ _)), volume_triangle,
      show volume (convexHull ℝ {p | p ∈ a :: c :: l}) = _ from i2, ← ENNReal.ofReal_add (by positivity) (by positivity), abs_of_pos h0]
    congr 1
    ring

end Slsm.Polygon
