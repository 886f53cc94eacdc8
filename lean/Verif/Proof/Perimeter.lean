import Verif.Proof.Frontier
import Mathlib.MeasureTheory.Measure.Hausdorff
import Mathlib.Analysis.Normed.Lp.MeasurableSpace
import Mathlib.Analysis.Normed.Lp.ProdLp

/-! # The length of the boundary is a Hausdorff measure -/

namespace Slsm.Front

open Set Boundary Area Polygon Region MeasureTheory
open scoped MeasureTheory ENNReal

/-- The Euclidean plane. -/
abbrev E2 := WithLp 2 (ℝ × ℝ)

abbrev up (A : Set (ℝ × ℝ)) : Set E2 := WithLp.toLp 2 '' A

theorem up_segment (p q : ℝ × ℝ) : up (segment ℝ p q) = segment ℝ (WithLp.toLp 2 p : E2) (WithLp.toLp 2 q) :=
  image_segment ℝ (WithLp.linearEquiv 2 ℝ (ℝ × ℝ)).symm.toLinearMap.toAffineMap p q

theorem up_inj : Function.Injective (WithLp.toLp 2 : ℝ × ℝ → E2) := WithLp.toLp_injective 2

theorem measure_segment (p q : ℝ × ℝ) : μH[1] (up (segment ℝ p q)) = ENNReal.ofReal (Real.sqrt ((p.1 - q.1) * (p.1 - q.1) + (p.2 - q.2) * (p.2 - q.2))) := by
  rw [up_segment, hausdorffMeasure_segment, edist_dist, WithLp.prod_dist_eq_of_L2]
  congr 2
  simp only [Real.dist_eq, sq_abs]
  change (p.1 - q.1) ^ 2 + (p.2 - q.2) ^ 2 = _
  ring

theorem segment_measurable (p q : ℝ × ℝ) : MeasurableSet (up (segment ℝ p q)) := by
  rw [up_segment]
  have : IsCompact (segment ℝ (WithLp.toLp 2 p : E2) (WithLp.toLp 2 q)) := by
    rw [segment_eq_image]
    exact isCompact_Icc.image (by fun_prop)
  exact this.isClosed.measurableSet

section
variable {X Y : ℝ} {τ : Nat → ℝ}

theorem opposite_disjoint (hτ : ∀ j, 0 < τ j ∧ τ j < 1) : Disjoint (chord X Y τ (kEnds 0)) (chord X Y τ (kEnds 2)) ∧
    Disjoint (chord X Y τ (kEnds 1)) (chord X Y τ (kEnds 3)) := by
  constructor
  · refine disjoint_left.2 fun z h1 h2 => ?_
    obtain ⟨hz, e1⟩ := (kap_zero hτ 0).2 h1
    obtain ⟨_, e2⟩ := (kap_zero hτ 2).2 h2
    have := (kap_sum hτ hz).1
    linarith
  · refine disjoint_left.2 fun z h1 h2 => ?_
    obtain ⟨hz, e1⟩ := (kap_zero hτ 1).2 h1
    obtain ⟨_, e2⟩ := (kap_zero hτ 3).2 h2
    have := (kap_sum hτ hz).2
    linarith

theorem cuts_disjoint (hτ : ∀ j, 0 < τ j ∧ τ j < 1) (pos b0 b1 b2 b3 : Bool) :
    (cutsOf pos b0 b1 b2 b3).Pairwise fun a c => Disjoint (chord X Y τ a) (chord X Y τ c) := by
  obtain ⟨d0, d1⟩ := opposite_disjoint (X := X) (Y := Y) hτ
  cases b0 <;> cases b1 <;> cases b2 <;> cases b3 <;> cases pos <;>
    first
    | exact List.Pairwise.nil
    | exact List.pairwise_singleton _ _
    | exact List.pairwise_pair.2 d0
    | exact List.pairwise_pair.2 d1

end

theorem measure_list {α : Type} {l : List α} {S : α → Set (ℝ × ℝ)} (hm : ∀ a ∈ l, MeasurableSet (up (S a))) (hd : l.Pairwise fun a c => Disjoint (S a) (S c)) :
    MeasurableSet (up {z | ∃ a ∈ l, z ∈ S a}) ∧ μH[1] (up {z | ∃ a ∈ l, z ∈ S a}) = (l.map fun a => μH[1] (up (S a))).sum := by
  induction l with
  | nil => simp
  | cons a l ih =>
    rw [List.pairwise_cons] at hd
    obtain ⟨i1, i2⟩ := ih (fun c hc => hm c (by simp [hc])) hd.2
    have e : up {z | ∃ c ∈ a :: l, z ∈ S c} = up (S a) ∪ up {z | ∃ c ∈ l, z ∈ S c} := by
      rw [← image_union]
      congr 1
      ext z
      simp
    have hdis : Disjoint (up (S a)) (up {z | ∃ c ∈ l, z ∈ S c}) := by
      rw [disjoint_image_iff up_inj, disjoint_left]
      rintro z hz ⟨c, hc, hz'⟩
      exact disjoint_left.1 (hd.1 c hc) hz hz'
    rw [e]
    refine ⟨(hm a (by simp)).union i1, ?_⟩
    rw [measure_union hdis i1, i2, List.map_cons, List.sum_cons]

theorem upTo_map_sum {α M : Type} [AddCommMonoid M] (g : Nat → List α) (F : α → M) (n : Nat) : ((upTo g n).map F).sum = ∑ i ∈ Finset.range n, ((g i).map F).sum := by
  induction n with
  | zero => rfl
  | succ n ih => rw [upTo, List.map_append, List.sum_append, ih, Finset.sum_range_succ]

section
variable {f : Nat → Nat → ℝ} {pos : Nat → Nat → Bool} {x y x' y' w h : Nat}

theorem edge_zero {p q t t' : ℝ} (hp : p ≠ 0) (h1 : p * (1 - t) + q * t = 0) (h2 : p * (1 - t') + q * t' = 0) : t = t' := by
  have h3 : (q - p) * (t - t') = 0 := by linear_combination h1 - h2
  rcases mul_eq_zero.1 h3 with h | h
  · exfalso
    have : q = p := by linarith
    subst this
    apply hp
    linear_combination h1
  · linarith

theorem side_ne {j : Nat} (hg : ∀ j, cellSide f x y j ≠ .boundary) : f (cornerAt x y j).1 (cornerAt x y j).2 ≠ 0 := by
  intro h
  refine hg j ?_
  unfold cellSide
  rw [h, nodeSide_boundary]
  norm_num

/-- Different cells have at most one point of the boundary in common. -/
theorem common_point (hg : ∀ j, cellSide f x y j ≠ .boundary) (hne : ¬ (x = x' ∧ y = y')) {z z' : ℝ × ℝ}
    (h1 : z ∈ cellSquare x y ∧ sgc f pos x y z = 0) (h2 : z ∈ cellSquare x' y') (h1' : z' ∈ cellSquare x y ∧ sgc f pos x y z' = 0) (h2' : z' ∈ cellSquare x' y') : z = z' := by
  have ver : ∀ i, (i = x ∨ i = x + 1) → z.1 = i → z'.1 = i → z = z' := by
    intro i hi e e'
    have t := (trace_ver (pos := pos) hg h1.1 hi e).zero.1 h1.2
    have t' := (trace_ver (pos := pos) hg h1'.1 hi e').zero.1 h1'.2
    have hp : f i y ≠ 0 := by
      rcases hi with rfl | rfl
      · exact side_ne (j := 0) hg
      · exact side_ne (j := 1) hg
    have := edge_zero hp t t'
    exact Prod.ext (by rw [e, e']) (by linarith)
  have hor : ∀ i, (i = y ∨ i = y + 1) → z.2 = i → z'.2 = i → z = z' := by
    intro i hi e e'
    have t := (trace_hor (pos := pos) hg h1.1 hi e).zero.1 h1.2
    have t' := (trace_hor (pos := pos) hg h1'.1 hi e').zero.1 h1'.2
    have hp : f x i ≠ 0 := by
      rcases hi with rfl | rfl
      · exact side_ne (j := 0) hg
      · exact side_ne (j := 3) hg
    have := edge_zero hp t t'
    exact Prod.ext (by linarith) (by rw [e, e'])
  rcases Nat.lt_trichotomy x x' with hx | hx | hx
  · obtain ⟨e1, e2⟩ := next_cell h1.1.1 h2.1 hx
    exact ver x' (.inr e1) e2 (next_cell h1'.1.1 h2'.1 hx).2
  · rcases Nat.lt_trichotomy y y' with hy | hy | hy
    · obtain ⟨e1, e2⟩ := next_cell h1.1.2 h2.2 hy
      exact hor y' (.inr e1) e2 (next_cell h1'.1.2 h2'.2 hy).2
    · exact absurd ⟨hx, hy⟩ hne
    · exact hor y (.inl rfl) (next_cell h2.2 h1.1.2 hy).2 (next_cell h2'.2 h1'.1.2 hy).2
  · exact ver x (.inl rfl) (next_cell h2.1 h1.1.1 hx).2 (next_cell h2'.1 h1'.1.1 hx).2

end

section
variable {w h : Nat} {L L' : LevelSet ℝ} {sd : List ℝ} {isTarget : Bool} {b : Boundary ℝ} {x y : Nat}

theorem measure_cell (Vs : Vis w h L.mesh sd isTarget) (G : Generic w h (onGrid w sd)) (hx : x < w) (hy : y < h) :
    MeasurableSet (up {z | z ∈ cellSquare x y ∧ sgc (onGrid w sd) (wayC w sd) x y z = 0}) ∧
    μH[1] (up {z | z ∈ cellSquare x y ∧ sgc (onGrid w sd) (wayC w sd) x y z = 0}) =
      ENNReal.ofReal ((cellArcs w L.mesh sd isTarget x y).map fun a => arcLen (onGrid w sd) (a.1.place x y) (a.2.place x y)).sum := by
  have e : {z | z ∈ cellSquare x y ∧ sgc (onGrid w sd) (wayC w sd) x y z = 0} = {z | ∃ a ∈ cellArcs w L.mesh sd isTarget x y,
      z ∈ segment ℝ (pt ((a.1.place x y).coord (onGrid w sd))) (pt ((a.2.place x y).coord (onGrid w sd)))} := by
    ext z
    exact cell_segments Vs G hx hy
  rw [e]
  obtain ⟨m1, m2⟩ := measure_list (l := cellArcs w L.mesh sd isTarget x y)
    (S := fun a => segment ℝ (pt ((a.1.place x y).coord (onGrid w sd))) (pt ((a.2.place x y).coord (onGrid w sd)))) (fun a _ => segment_measurable _ _) (by
      have := cuts_disjoint (X := x) (Y := y) (crossing_in (onGrid w sd) x y) (wayC w sd x y) (bt (onGrid w sd) x y 0) (bt (onGrid w sd) x y 1) (bt (onGrid w sd) x y 2)
        (bt (onGrid w sd) x y 3)
      rw [← cellArcs_cuts Vs G hx hy] at this
      refine this.imp_of_mem fun {a c} ha hc h => ?_
      rw [cuts_place Vs G hx hy ha (p := a.1) (by simp), cuts_place Vs G hx hy ha (p := a.2) (by simp), cuts_place Vs G hx hy hc (p := c.1) (by simp),
        cuts_place Vs G hx hy hc (p := c.2) (by simp)]
      exact h)
  refine ⟨m1, m2.trans ?_⟩
  generalize cellArcs w L.mesh sd isTarget x y = l
  induction l with
  | nil => simp
  | cons a l ih =>
    have h1 : 0 ≤ arcLen (onGrid w sd) (a.1.place x y) (a.2.place x y) := Real.sqrt_nonneg _
    have h2 : 0 ≤ (l.map fun a => arcLen (onGrid w sd) (a.1.place x y) (a.2.place x y)).sum :=
      List.sum_nonneg (by intro t ht; obtain ⟨c, _, rfl⟩ := List.mem_map.1 ht; exact Real.sqrt_nonneg _)
    rw [List.map_cons, List.sum_cons, List.map_cons, List.sum_cons, ENNReal.ofReal_add h1 h2, ih, measure_segment]
    rfl

/-- The length of the boundary, cell by cell. -/
theorem boundary_length (E : Exact w h L sd isTarget b L') :
    b.length = ∑ i ∈ Finset.range (w * h), ((cellArcs w L.mesh sd isTarget (i % w) (i / w)).map fun a =>
      arcLen (onGrid w sd) (a.1.place (i % w) (i / w)) (a.2.place (i % w) (i / w))).sum := by
  obtain ⟨W, R, _, hb, _, _⟩ := E.rep
  rw [hb]
  change W.bnd.length = _
  rw [R.length]
  change ((upTo _ _).map _).sum = _
  rw [upTo_map_sum]
  refine Finset.sum_congr rfl fun i _ => ?_
  rw [List.map_map]
  rfl

/-- The length of the boundary is its one-dimensional measure. -/
theorem measure_boundary (E : Exact w h L sd isTarget b L') (Vs : Vis w h L.mesh sd isTarget) (G : Generic w h (onGrid w sd)) :
    0 ≤ b.length ∧ μH[1] (up (boundarySet b)) = ENNReal.ofReal b.length := by
  have hlen := boundary_length E
  have hnn : ∀ i, 0 ≤ ((cellArcs w L.mesh sd isTarget (i % w) (i / w)).map fun a =>
      arcLen (onGrid w sd) (a.1.place (i % w) (i / w)) (a.2.place (i % w) (i / w))).sum := fun i =>
    List.sum_nonneg (by intro t ht; obtain ⟨c, _, rfl⟩ := List.mem_map.1 ht; exact Real.sqrt_nonneg _)
  have e : up (boundarySet b) = ⋃ i ∈ Finset.range (w * h), up {z | z ∈ cellSquare (i % w) (i / w) ∧ sgc (onGrid w sd) (wayC w sd) (i % w) (i / w) z = 0} := by
    rw [← image_iUnion₂]
    congr 1
    ext z
    rw [boundary_cuts E Vs G]
    simp only [mem_iUnion, Finset.mem_range, exists_prop, mem_setOf_eq]
    constructor
    · rintro ⟨x, y, hx, hy, hz⟩
      refine ⟨x + y * w, idx_lt hx hy, ?_⟩
      rw [idx_mod hx, idx_div hx]
      exact hz
    · rintro ⟨i, hi, hz⟩
      exact ⟨i % w, i / w, idx_mod_lt hi, idx_div_lt hi, hz⟩
  refine ⟨by rw [hlen]; exact Finset.sum_nonneg fun i _ => hnn i, ?_⟩
  rw [e, measure_biUnion_finset₀]
  · rw [hlen, ENNReal.ofReal_sum_of_nonneg fun i _ => hnn i]
    refine Finset.sum_congr rfl fun i hi => ?_
    rw [Finset.mem_range] at hi
    exact (measure_cell Vs G (idx_mod_lt hi) (idx_div_lt hi)).2
  · intro i hi j hj hij
    have hi := Finset.mem_range.1 (Finset.mem_coe.1 hi)
    haveI : NullSingletonClass (μH[1] : Measure E2) := Measure.nullSingletonClass_hausdorff _ one_pos
    refine Set.Subsingleton.measure_zero ?_ _
    rintro _ ⟨⟨z, hz, rfl⟩, z1, hz1, e1⟩ _ ⟨⟨z', hz', rfl⟩, z1', hz1', e1'⟩
    have e1 := up_inj e1
    have e1' := up_inj e1'
    subst e1 e1'
    congr 1
    refine common_point (generic_cell G (idx_mod_lt hi) (idx_div_lt hi)) (fun hc => hij ?_) hz hz1.1 hz' hz1'.1
    rw [← Nat.mod_add_div i w, ← Nat.mod_add_div j w, hc.1, hc.2]
  · intro i hi
    rw [Finset.mem_range] at hi
    exact (measure_cell Vs G (idx_mod_lt hi) (idx_div_lt hi)).1.nullMeasurableSet

end

end Slsm.Front
