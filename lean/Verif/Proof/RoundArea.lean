import Verif.Proof.RoundPoly

/-! Rounded arithmetic: collecting the vertices of a cell, and the dependence of the area on the points. -/

namespace Slsm

open FP Rounding Boundary

namespace Area

/-! ### the area depends on the points continuously -/

theorem zip_near {α : Type} {F G : α → α → ℝ} {ε : ℝ} {l m : List α} (hε : 0 ≤ ε) (h : ∀ a ∈ l, ∀ b ∈ m, |F a b - G a b| ≤ ε) :
    |(List.zipWith F l m).sum - (List.zipWith G l m).sum| ≤ l.length * ε := by
  induction l generalizing m with
  | nil => simp
  | cons a l ih =>
    cases m with
    | nil => simp; positivity
    | cons b m =>
      have h1 := h a (by simp) b (by simp)
      have h2 := ih (m := m) fun a ha b hb => h a (by simp [ha]) b (by simp [hb])
      rw [List.zipWith_cons_cons, List.zipWith_cons_cons, List.sum_cons, List.sum_cons, List.length_cons]
      push_cast
      have e : F a b + (List.zipWith F l m).sum - (G a b + (List.zipWith G l m).sum) =
        (F a b - G a b) + ((List.zipWith F l m).sum - (List.zipWith G l m).sum) := by ring
      rw [e]
      refine (abs_add_le _ _).trans ?_
      linarith

theorem ringSum_map {α : Type} (g : α → Coord ℝ) (l : List α) :
    ringSum (l.map g) = (List.zipWith (fun a b => cross (g a) (g b)) l (l.rotate 1)).sum := by
  unfold ringSum
  rw [← List.map_rotate, List.zipWith_map]

theorem prod_near {a b a' b' δ : ℝ} (ha : |a| ≤ 1) (hb' : |b'| ≤ 1) (h1 : |a - a'| ≤ δ) (h2 : |b - b'| ≤ δ) : |a * b - a' * b'| ≤ 2 * δ := by
  have e : a * b - a' * b' = a * (b - b') + (a - a') * b' := by ring
  rw [e]
  refine (abs_add_le _ _).trans ?_
  rw [abs_mul, abs_mul]
  have h0 : 0 ≤ δ := (abs_nonneg _).trans h1
  have := mul_le_mul ha h2 (abs_nonneg _) zero_le_one
  have := mul_le_mul h1 hb' (abs_nonneg _) h0
  linarith

theorem unit_box {τ : Nat → ℝ} (hτ : ∀ j, 0 < τ j ∧ τ j < 1) {p : LP} (hp : p ∈ walkLP) : |(cellPoint 0 0 τ p).x| ≤ 1 ∧ |(cellPoint 0 0 τ p).y| ≤ 1 := by
  have := cellPoint_box (m := 0) le_rfl (fun j => ⟨(hτ j).1.le, by linarith [(hτ j).2]⟩) le_rfl le_rfl (X := 0) (Y := 0) hp
  constructor <;> rw [abs_le] <;> constructor <;> linarith [this.1, this.2.1, this.2.2.1, this.2.2.2]

theorem unit_near {τ σ : Nat → ℝ} {δ : ℝ} (hδ : 0 ≤ δ) {p : LP} (hp : p ∈ walkLP) (h : ∀ j, p = .e j → |τ j - σ j| ≤ δ) :
    |(cellPoint 0 0 τ p).x - (cellPoint 0 0 σ p).x| ≤ δ ∧ |(cellPoint 0 0 τ p).y - (cellPoint 0 0 σ p).y| ≤ δ := by
  simp only [walkLP, List.mem_cons, List.not_mem_nil, or_false] at hp
  rcases hp with rfl | rfl | rfl | rfl | rfl | rfl | rfl | rfl <;> simp only [cellPoint, sub_self, abs_zero, zero_add, hδ, true_and, and_true]
  · exact h 0 rfl
  · exact h 1 rfl
  · exact h 2 rfl
  · exact h 3 rfl

theorem ring_near {τ σ : Nat → ℝ} {δ : ℝ} (hδ : 0 ≤ δ) (hτ : ∀ j, 0 < τ j ∧ τ j < 1) (hσ : ∀ j, 0 < σ j ∧ σ j < 1) {l : List LP}
    (hl : ∀ p ∈ l, p ∈ walkLP) (h8 : l.length ≤ 8) (h : ∀ j, LP.e j ∈ l → |τ j - σ j| ≤ δ) (X Y : ℝ) :
    |ringSum (l.map (cellPoint X Y τ)) - ringSum (l.map (cellPoint X Y σ))| ≤ 32 * δ := by
  rw [shift_points X Y, shift_points X Y, ringSum_map, ringSum_map]
  refine (zip_near (ε := 4 * δ) (by linarith) fun p hp q hq => ?_).trans ?_
  · have hq : q ∈ l := List.mem_rotate.1 hq
    have np := unit_near hδ (hl p hp) (fun j e => h j (e ▸ hp))
    have nq := unit_near hδ (hl q hq) (fun j e => h j (e ▸ hq))
    have h1 := prod_near (unit_box hτ (hl p hp)).1 (unit_box hσ (hl q hq)).2 np.1 nq.2
    have h2 := prod_near (unit_box hτ (hl q hq)).1 (unit_box hσ (hl p hp)).2 nq.1 np.2
    unfold cross
    rw [abs_le] at h1 h2 ⊢
    constructor <;> linarith [h1.1, h1.2, h2.1, h2.2]
  · have : (l.length : ℝ) ≤ 8 := by exact_mod_cast h8
    nlinarith

theorem abs_half_near {a b ε : ℝ} (h : |a - b| ≤ ε) : |(|a / 2|) - (|b / 2|)| ≤ ε / 2 := by
  refine (abs_abs_sub_abs_le _ _).trans ?_
  rw [← sub_div, abs_div]
  norm_num
  linarith

/-! ### collecting vertices -/

section
variable {D : Type} [FP D]

/-- `l` are the vertices collected so far. -/
structure Have (l : List (Coord D)) (s : List (Coord D) × Nat) : Prop where
  len : s.1.length = 6
  count : s.2 = l.length
  take : s.1.take s.2 = l

theorem Have.push {l : List (Coord D)} {s : List (Coord D) × Nat} (C : Have l s) (c : Coord D) (hl : l.length < 6) :
    ∃ t, pushVertex c s = .ok t ∧ Have (l ++ [c]) t := by
  have h : s.2 < s.1.length := by rw [C.len, C.count]; exact hl
  unfold pushVertex
  rw [wr_eq _ h]
  refine ⟨_, rfl, by simp [C.len], by simp [C.count], ?_⟩
  dsimp only
  rw [List.take_succ_eq_append_getElem (by simpa using h)]
  simp [List.take_set_of_le, C.take]

/-- The loops of `cutArea` collect the corners and the ends of the segments. -/
theorem collect {m : Mesh D} {b : Boundary D} {el : Element D} {V : LP → Coord D} {s : Nat → NodeStatus} {A : List (LP × LP)} {o : NodeStatus}
    (ho : soughtSide el = o)
    (hnode : ∀ j, j < 4 → ∃ n nd, el.nodes[j]? = some n ∧ m.nodes[n]? = some nd ∧ nd.coord = V (.c j) ∧ nd.status = s j)
    (hnb : el.nBoundarySegments = A.length)
    (hseg : ∀ (i : Nat) (a : LP × LP), A[i]? = some a → ∃ (k : Nat) (g : BoundarySegment D) (p q : BoundaryPoint D), el.boundarySegments[i]? = some k ∧
      b.segments[k]? = some g ∧ b.points[g.start]? = some p ∧ p.coord = V a.1 ∧ b.points[g.stop]? = some q ∧ q.coord = V a.2)
    (h6 : (upTo (cornerV s o) 4 ++ arcV A).length ≤ 6) :
    ∃ s1 s2, forN 4 (List.replicate 6 (⟨nat 0, nat 0⟩ : Coord D), 0) (nodeVertex m el) = .ok s1 ∧
      forN el.nBoundarySegments s1 (segmentVertices b el) = .ok s2 ∧ Have ((upTo (cornerV s o) 4 ++ arcV A).map V) s2 := by
  have haf : ∀ j, j < 4 → after j < 4 ∧ before j < 4 := by decide
  rw [List.length_append] at h6
  have loop1 : wp (forN 4 (List.replicate 6 (⟨nat 0, nat 0⟩ : Coord D), 0) (nodeVertex m el)) (fun t => Have ((upTo (cornerV s o) 4).map V) t) noErr := by
    refine wp_forN (fun i t => Have ((upTo (cornerV s o) i).map V) t) ⟨rfl, rfl, rfl⟩ ?_
    intro i hi t C
    have hroom : (upTo (cornerV s o) (i + 1)).length ≤ 6 := by
      have := upTo_le (cornerV s o) (show i + 1 ≤ 4 by omega)
      omega
    change (upTo _ i ++ cornerV _ _ i).length ≤ 6 at hroom
    change wp _ (fun t => Have ((upTo (cornerV s o) i ++ cornerV s o i).map V) t) _
    rw [List.length_append] at hroom
    rw [List.map_append]
    obtain ⟨n, nd, e1, e2, e3, e4⟩ := hnode i hi
    obtain ⟨n1, nd1, f1, f2, -, f4⟩ := hnode _ (haf i hi).1
    obtain ⟨n2, nd2, g1, g2, -, g4⟩ := hnode _ (haf i hi).2
    unfold nodeVertex
    rw [rd_of_getElem? e1, wp_bind, wp_ok, rd_of_getElem? e2, wp_bind, wp_ok, ho, e4]
    generalize upTo (cornerV s o) i = u at C hroom ⊢
    unfold cornerV at hroom ⊢
    by_cases c1 : s i = o
    · rw [if_pos c1] at hroom ⊢
      rw [if_pos c1]
      obtain ⟨t', h1, h2⟩ := C.push nd.coord (by rw [List.length_map]; simp at hroom; omega)
      rw [h1, wp_ok]
      rw [e3] at h2
      exact h2
    · rw [if_neg c1] at hroom ⊢
      rw [if_neg c1]
      by_cases c2 : s i = .boundary
      · rw [if_pos c2] at hroom ⊢
        rw [if_pos c2, rd_of_getElem? f1, wp_bind, wp_ok, rd_of_getElem? g1, wp_bind, wp_ok, rd_of_getElem? f2, wp_bind, wp_ok,
          rd_of_getElem? g2, wp_bind, wp_ok, f4, g4]
        by_cases c3 : s (after i) = .inside ∧ s (before i) = .inside
        · rw [if_pos c3] at hroom ⊢
          rw [if_pos c3]
          obtain ⟨t', h1, h2⟩ := C.push nd.coord (by rw [List.length_map]; simp at hroom; omega)
          rw [h1, wp_ok]
          rw [e3] at h2
          exact h2
        · rw [if_neg c3, if_neg c3]
          show Have _ t
          simpa using C
      · rw [if_neg c2, if_neg c2]
        show Have _ t
        simpa using C
  obtain ⟨s1, q1, C1⟩ := wp_noErr_iff.1 loop1
  have loop2 : wp (forN el.nBoundarySegments s1 (segmentVertices b el))
      (fun t => Have ((upTo (cornerV s o) 4 ++ arcV (A.take el.nBoundarySegments)).map V) t) noErr := by
    refine wp_forN (fun i t => Have ((upTo (cornerV s o) 4 ++ arcV (A.take i)).map V) t) (by simpa [arcV] using C1) ?_
    intro i hi t C
    have hi' : i < A.length := by omega
    have ha := List.getElem?_eq_getElem hi'
    generalize A[i] = a at ha
    obtain ⟨k, g, p, q, r1, r2, r3, r4, r5, r6⟩ := hseg i a ha
    have hroom := arcV_take_le A (i + 1)
    rw [arcV_take ha] at hroom ⊢
    rw [List.length_append] at hroom
    simp only [List.length_cons, List.length_nil] at hroom
    unfold segmentVertices
    obtain ⟨t1, h1, h2⟩ := C.push p.coord (by rw [List.length_map, List.length_append]; omega)
    obtain ⟨t', h1', h2'⟩ := h2.push q.coord (by rw [List.length_append, List.length_map, List.length_append, List.length_singleton]; omega)
    rw [rd_of_getElem? r1, wp_bind, wp_ok, rd_of_getElem? r2, wp_bind, wp_ok, rd_of_getElem? r3, wp_bind, wp_ok, h1, wp_bind, wp_ok,
      rd_of_getElem? r5, wp_bind, wp_ok, h1', wp_ok]
    rw [r4, r6] at h2'
    simpa [List.append_assoc] using h2'
  obtain ⟨s2, q2, C2⟩ := wp_noErr_iff.1 loop2
  rw [hnb, List.take_length] at C2
  exact ⟨s1, s2, q1, q2, C2⟩

end

/-! ### one cell -/

variable {R : Rounding}

/-- The area of a cut cell. -/
theorem cut_rnd {mh : Mesh R.Num} {b : Boundary R.Num} {el : Element R.Num} {V : LP → Coord R.Num} {s : Nat → NodeStatus} {A : List (LP × LP)} {o : NodeStatus}
    (ho : soughtSide el = o)
    (hnode : ∀ j, j < 4 → ∃ n nd, el.nodes[j]? = some n ∧ mh.nodes[n]? = some nd ∧ nd.coord = V (.c j) ∧ nd.status = s j)
    (hnb : el.nBoundarySegments = A.length)
    (hseg : ∀ (i : Nat) (a : LP × LP), A[i]? = some a → ∃ (k : Nat) (g : BoundarySegment R.Num) (p q : BoundaryPoint R.Num), el.boundarySegments[i]? = some k ∧
      b.segments[k]? = some g ∧ b.points[g.start]? = some p ∧ p.coord = V a.1 ∧ b.points[g.stop]? = some q ∧ q.coord = V a.2)
    {l : List LP} (hl0 : upTo (cornerV s o) 4 ++ arcV A = l) (h6 : l.length ≤ 6)
    {m : ℝ} (hm : 1 / 2 ^ 39 ≤ m) (hm1 : m ≤ 1 / 2) {τ σ : Nat → ℝ} (hτ : ∀ j, m ≤ τ j ∧ τ j ≤ 1 - m) (hσ : ∀ j, 0 < σ j ∧ σ j < 1) {x y w h : Nat}
    (hx : x < w) (hy : y < h) (hl : ∀ p ∈ l, p ∈ walkLP) (hV : ∀ p ∈ l, valC (V p) = cellPoint x y τ p)
    (hτσ : ∀ j, LP.e j ∈ l → |τ j - σ j| ≤ (w + h + 4) / 2 ^ 52) (hc : valC el.coord = ⟨x + 1 / 2, y + 1 / 2⟩) :
    ∃ a : R.Num, cutArea mh b el = .ok a ∧
      |a.val - (let S := |ringSum ((walkLP.filter fun p => decide (p ∈ l)).map (cellPoint x y σ)) / 2|
        if el.status = .centreOutside then 1 - S else S)| ≤ w * h / 2 ^ 44 := by
  subst hl0
  obtain ⟨s1, s2, q1, q2, C⟩ := collect ho hnode hnb hseg h6
  generalize upTo (cornerV s o) 4 ++ arcV A = l at *
  have hx1 : (x : ℝ) + 1 ≤ w := by exact_mod_cast hx
  have hy1 : (y : ℝ) + 1 ≤ h := by exact_mod_cast hy
  have hw1 : (1 : ℝ) ≤ w := by have : (0 : ℝ) ≤ x := by positivity
                               linarith
  have hh1 : (1 : ℝ) ≤ h := by have : (0 : ℝ) ≤ y := by positivity
                               linarith
  have hK : ((x : ℝ) + 1) * (y + 1) ≤ w * h := mul_le_mul hx1 hy1 (by positivity) (by linarith)
  have hK1 : (1 : ℝ) ≤ w * h := by nlinarith
  have hm0 : 0 < m := lt_of_lt_of_le (by positivity) hm
  have hτ' : ∀ j, 0 < τ j ∧ τ j < 1 := fun j => ⟨by linarith [(hτ j).1], by linarith [(hτ j).2]⟩
  have hcount : s2.2 = l.length := by rw [C.count, List.length_map]
  obtain ⟨a, ea, ha⟩ := polygon_rnd hm hm1 hτ hK hl h6 hV hc (v := s2.1) (by rw [C.len]; exact h6) (by rw [← hcount]; exact C.take)
  have hN := abs_half_near (ring_near (δ := (w + h + 4) / 2 ^ 52) (by positivity) hτ' hσ (l := walkLP.filter fun p => decide (p ∈ l))
    (fun p hp => (List.mem_filter.1 hp).1) ((List.length_filter_le _ _).trans (by decide)) (fun j hj => hτσ j (by simpa using (List.mem_filter.1 hj).2)) (x : ℝ) y)
  have hb : |ringSum ((walkLP.filter fun p => decide (p ∈ l)).map (cellPoint x y σ))| ≤ 8 := by
    have := ring_near (τ := σ) (σ := σ) (δ := 0) le_rfl hσ hσ (l := walkLP.filter fun p => decide (p ∈ l)) (fun p hp => (List.mem_filter.1 hp).1)
      ((List.length_filter_le _ _).trans (by decide)) (fun j _ => by simp) (x : ℝ) y
    rw [shift_points, ringSum_map]
    have hz := zip_near (F := fun p q => cross (cellPoint 0 0 σ p) (cellPoint 0 0 σ q)) (G := fun _ _ => 0) (ε := 1) (by norm_num)
      (l := walkLP.filter fun p => decide (p ∈ l)) (m := (walkLP.filter fun p => decide (p ∈ l)).rotate 1) (by
        intro p hp q hq
        rw [sub_zero]
        have bx : ∀ r ∈ walkLP, 0 ≤ (cellPoint 0 0 σ r).x ∧ (cellPoint 0 0 σ r).x ≤ 1 ∧ 0 ≤ (cellPoint 0 0 σ r).y ∧ (cellPoint 0 0 σ r).y ≤ 1 := by
          intro r hr
          have := cellPoint_box (m := 0) le_rfl (fun j => ⟨(hσ j).1.le, by linarith [(hσ j).2]⟩) le_rfl le_rfl (X := 0) (Y := 0) hr
          simpa using this
        exact (cross_le (W := 1) (H := 1) (by norm_num) (bx p (List.mem_filter.1 hp).1) (bx q (List.mem_filter.1 (List.mem_rotate.1 hq)).1)).2.2)
    have hzero : ∀ l m : List LP, (List.zipWith (fun _ _ => (0 : ℝ)) l m).sum = 0 := by
      intro l
      induction l with
      | nil => simp
      | cons a l ih =>
        intro m
        cases m with
        | nil => simp
        | cons b m => simp [ih]
    rw [hzero, sub_zero] at hz
    refine hz.trans ?_
    have : (walkLP.filter fun p => decide (p ∈ l)).length ≤ 8 := (List.length_filter_le _ _).trans (by decide)
    have : ((walkLP.filter fun p => decide (p ∈ l)).length : ℝ) ≤ 8 := by exact_mod_cast this
    linarith
  generalize ringSum ((walkLP.filter fun p => decide (p ∈ l)).map (cellPoint x y σ)) = T at hN hb ⊢
  generalize ringSum ((walkLP.filter fun p => decide (p ∈ l)).map (cellPoint x y τ)) = T' at hN ha
  have hwh : (w : ℝ) + h + 4 ≤ 6 * (w * h) := by nlinarith
  have hd : ((w : ℝ) + h + 4) / 2 ^ 52 ≤ 6 * (w * h / 2 ^ 52) := by
    rw [← mul_div_assoc]
    exact div_le_div_of_nonneg_right hwh (by positivity)
  have h1 : |a.val - (|T / 2|)| ≤ 198 * (w * h / 2 ^ 52) := by
    rw [abs_le] at ha hN ⊢
    constructor <;> linarith [ha.1, ha.2, hN.1, hN.2]
  have hfin : ((w : ℝ) * h) / 2 ^ 44 = 256 * (w * h / 2 ^ 52) := by ring
  have hS : |T / 2| ≤ 4 := by rw [abs_div]; norm_num; linarith
  unfold cutArea
  rw [q1]
  simp only [bind, Except.bind]
  rw [q2]
  dsimp only
  rw [hcount, ea]
  simp only [pure, Except.pure]
  refine ⟨_, rfl, ?_⟩
  have hsm := small_part hK1
  have hK0 : (0 : ℝ) ≤ w * h / 2 ^ 52 := by positivity
  rw [hfin]
  split
  · show |R.rnd ((nat 1 : R.Num).val - a.val) - _| ≤ _
    rw [val_one]
    have hS0 := abs_nonneg (T / 2)
    rw [abs_le] at h1
    have e := rnd_bound (R := R) (B := 6) hK1 (x := 1 - a.val) (by
      rw [abs_le]
      constructor <;> linarith [h1.1, h1.2])
    rw [abs_le] at e ⊢
    constructor <;> linarith [e.1, e.2, h1.1, h1.2]
  · linarith

end Area

end Slsm
