import Verif.Proof.RoundPerim
import Verif.Props.RoundNormalDisc
import Verif.Proof.RoundMesh

/-! # Property C111: perimeter, curvature and drift correction in rounded arithmetic -/

namespace Slsm

open FP Rounding Sensitivity

namespace Rounding

variable {R : Rounding} {b : Boundary R.Num} {p : BoundaryPoint R.Num}

theorem distance_lip (a c q : Coord ℝ) : |Boundary.distance a q - Boundary.distance c q| ≤ |a.x - c.x| + |a.y - c.y| := by
  have := Boundary.norm_near (a := c.x - q.x) (b := c.y - q.y) (a' := a.x - q.x) (b' := a.y - q.y)
  rw [sub_sub_sub_cancel_right, sub_sub_sub_cancel_right] at this
  exact this

theorem ring_lip (nbrs : List Nat) (a c : Coord ℝ) : |ringAt b nbrs a - ringAt b nbrs c| ≤ nbrs.length * (|a.x - c.x| + |a.y - c.y|) := by
  induction nbrs with
  | nil => simp [ringAt]
  | cons j l ih =>
    unfold ringAt at *
    simp only [List.map_cons, List.sum_cons, List.length_cons]
    push_cast
    have h0 : 0 ≤ |a.x - c.x| + |a.y - c.y| := by positivity
    have : |(b.points[j]?).elim 0 (fun q => Boundary.distance a (placeOf q.coord)) - (b.points[j]?).elim 0 (fun q => Boundary.distance c (placeOf q.coord))| ≤
        |a.x - c.x| + |a.y - c.y| := by
      cases b.points[j]? with
      | none => simpa using h0
      | some q => exact distance_lip _ _ _
    rw [abs_le] at *
    constructor <;> linarith [this.1, this.2, ih.1, ih.2]

/-- The computed perimeter near a place. -/
theorem ring_moved (H : Tied b p) {q : Coord R.Num} {c : Coord ℝ} {e B : ℝ} (he : 0 ≤ e) (h : |q.x.val - c.x| + |q.y.val - c.y| ≤ e)
    (hB : ringAt b (p.neighbours.take p.nNeighbours) c ≤ B) : ∃ v, b.computePerimeter { p with coord := q } = .ok v ∧
    |v.val - ringAt b (p.neighbours.take p.nNeighbours) c| ≤ B / 2 ^ 47 + 5 * e + 1 / 2 ^ 490 := by
  obtain ⟨v, h1, -, h2⟩ := ring_close H q
  have h3 := ring_lip (b := b) (p.neighbours.take p.nNeighbours) (placeOf q) c
  have hl : ((p.neighbours.take p.nNeighbours).length : ℝ) ≤ 4 := by
    have := H.few
    rw [List.length_take]
    exact_mod_cast (min_le_left _ _).trans this
  change _ ≤ _ * (|q.x.val - c.x| + |q.y.val - c.y|) at h3
  have h4 := h3.trans (mul_le_mul hl h (by positivity) (by norm_num))
  refine ⟨v, h1, ?_⟩
  generalize (1 : ℝ) / 2 ^ 490 = κ at *
  rw [abs_le] at *
  obtain ⟨a1, a2⟩ := h2
  obtain ⟨a3, a4⟩ := h4
  constructor <;> linarith

/-- One quotient `T c / (2 l)`, subtracted. -/
theorem drift_near {T c l s0 : R.Num} {κ Δ : ℝ} (hl : 1 / 2 ^ 50 ≤ l.val) (hc : |c.val - κ| ≤ Δ) :
    |(s0 -. (T *. c) /. (FP.nat 2 *. l)).val - (s0.val - T.val * κ / (2 * l.val))| ≤
      |s0.val| / 2 ^ 52 + |T.val| / (2 * l.val) * (2 * Δ + |κ| / 2 ^ 48) + 1 / 2 ^ 900 := by
  have l0 : 0 < l.val := lt_of_lt_of_le (by positivity) hl
  have hΔ : 0 ≤ Δ := (abs_nonneg _).trans hc
  rw [val_sub, val_div, val_mul, val_mul, val_nat (n := 2) (by norm_num), Nat.cast_ofNat]
  have e1 := R.err (T.val * c.val)
  have e2 := R.err (2 * l.val)
  rw [abs_of_pos (show 0 < 2 * l.val by positivity)] at e2
  have hη : (1 : ℝ) / 2 ^ 1074 ≤ 1 / 2 ^ 1000 := one_div_le_one_div_of_le (by positivity) (pow_le_pow_right₀ (by norm_num) (by norm_num))
  have hη' : (1 : ℝ) / 2 ^ 1074 / (2 * l.val) ≤ 1 / 2 ^ 1000 := by
    rw [div_div]
    apply one_div_le_one_div_of_le (by positivity)
    calc (2 : ℝ) ^ 1000 ≤ 2 ^ 1074 * (1 / 2 ^ 50) := by
          rw [show (2 : ℝ) ^ 1074 = 2 ^ 1024 * 2 ^ 50 by rw [← pow_add], mul_assoc, mul_one_div_cancel (by positivity), mul_one]
          exact pow_le_pow_right₀ (by norm_num) (by norm_num)
      _ ≤ 2 ^ 1074 * (2 * l.val) := by gcongr; linarith
  have hη2 : (1 : ℝ) / 2 ^ 1074 ≤ 1 / 2 ^ 200 := one_div_le_one_div_of_le (by positivity) (pow_le_pow_right₀ (by norm_num) (by norm_num))
  have h900 : (1 : ℝ) / 2 ^ 900 = 2 ^ 100 * (1 / 2 ^ 1000) := by
    rw [show (2 : ℝ) ^ 1000 = 2 ^ 100 * 2 ^ 900 by rw [← pow_add]]
    field_simp
  have η0 : (0 : ℝ) ≤ 1 / 2 ^ 1074 := by positivity
  have herr := R.err
  rw [h900]
  clear h900
  generalize (1 : ℝ) / 2 ^ 1074 = η at *
  generalize (1 : ℝ) / 2 ^ 1000 = ζ at *
  generalize hden : R.rnd (2 * l.val) = den at *
  generalize hr1 : R.rnd (T.val * c.val) = r1 at *
  have d1 : |den - 2 * l.val| ≤ 2 * l.val / 2 ^ 51 := by
    refine e2.trans ?_
    have : (1 : ℝ) / 2 ^ 200 ≤ 1 / 2 ^ 50 / 2 ^ 51 := by norm_num
    have : (1 : ℝ) / 2 ^ 50 / 2 ^ 51 ≤ l.val / 2 ^ 51 := by gcongr
    linarith
  rw [abs_le] at d1
  have dpos : 0 < den := by
    have : 2 * l.val / 2 ^ 51 < 2 * l.val := by
      rw [div_lt_iff₀ (by positivity)]
      nlinarith
    linarith [d1.1]
  -- the quotient by the exact denominator
  obtain ⟨A, hA⟩ : ∃ A, A = |T.val| / (2 * l.val) := ⟨_, rfl⟩
  have A0 : 0 ≤ A := by rw [hA]; positivity
  have hX : |T.val * κ / (2 * l.val)| = A * |κ| := by
    rw [hA, abs_div, abs_mul, abs_of_pos (show 0 < 2 * l.val by positivity)]
    ring
  have hcκ : |c.val| ≤ |κ| + Δ := by
    have := abs_add_le (c.val - κ) κ
    rw [sub_add_cancel] at this
    linarith
  have y1 : |r1 / (2 * l.val) - T.val * κ / (2 * l.val)| ≤ A * (Δ + (|κ| + Δ) / 2 ^ 52) + ζ := by
    have : |r1 - T.val * κ| ≤ |T.val| * (Δ + (|κ| + Δ) / 2 ^ 52) + η := by
      have t1 : |T.val * c.val - T.val * κ| ≤ |T.val| * Δ := by
        rw [← mul_sub, abs_mul]
        gcongr
      have t2 : |T.val * c.val| ≤ |T.val| * (|κ| + Δ) := by
        rw [abs_mul]
        gcongr
      have t3 := abs_add_le (r1 - T.val * c.val) (T.val * c.val - T.val * κ)
      rw [sub_add_sub_cancel] at t3
      have t4 : |T.val * c.val| / 2 ^ 52 ≤ |T.val| * (|κ| + Δ) / 2 ^ 52 := by gcongr
      linarith
    rw [← sub_div, abs_div, abs_of_pos (show 0 < 2 * l.val by positivity), hA]
    calc |r1 - T.val * κ| / (2 * l.val) ≤ (|T.val| * (Δ + (|κ| + Δ) / 2 ^ 52) + η) / (2 * l.val) := by gcongr
      _ = |T.val| / (2 * l.val) * (Δ + (|κ| + Δ) / 2 ^ 52) + η / (2 * l.val) := by ring
      _ ≤ _ := by gcongr
  generalize T.val * κ / (2 * l.val) = X at *
  have y2 : |r1 / den - r1 / (2 * l.val)| ≤ |r1 / (2 * l.val)| / 2 ^ 50 := by
    rw [show r1 / den - r1 / (2 * l.val) = r1 / (2 * l.val) * ((2 * l.val - den) / den) by field_simp, abs_mul, div_eq_mul_one_div |r1 / (2 * l.val)|]
    gcongr
    rw [abs_div, abs_of_pos dpos, div_le_div_iff₀ dpos (by positivity)]
    have : |2 * l.val - den| ≤ 2 * l.val / 2 ^ 51 := by rw [abs_le]; constructor <;> linarith [d1.1, d1.2]
    have h2 : 2 * l.val / 2 ^ 51 * 2 ^ 50 = l.val := by ring
    have h3 : 2 * l.val / 2 ^ 51 ≤ l.val := by
      rw [div_le_iff₀ (by positivity)]
      nlinarith
    nlinarith [d1.1]
  generalize r1 / (2 * l.val) = Y at *
  have e3 := herr (r1 / den)
  generalize r1 / den = Z at *
  have e4 := herr (s0.val - R.rnd Z)
  generalize R.rnd Z = q at *
  have aY : |Y| ≤ A * |κ| + (A * (Δ + (|κ| + Δ) / 2 ^ 52) + ζ) := by
    have := abs_add_le (Y - X) X
    rw [sub_add_cancel] at this
    linarith
  have aZ : |Z| ≤ |Y| + |Y| / 2 ^ 50 := by
    have := abs_add_le (Z - Y) Y
    rw [sub_add_cancel] at this
    linarith
  have aq : |q| ≤ |Z| + (|Z| / 2 ^ 52 + η) := by
    have := abs_add_le (q - Z) Z
    rw [sub_add_cancel] at this
    linarith
  have as : |s0.val - q| ≤ |s0.val| + |q| := abs_sub _ _
  have hAK : 0 ≤ A * |κ| := by positivity
  have hAD : 0 ≤ A * Δ := by positivity
  have t5 : |R.rnd (s0.val - q) - (s0.val - X)| ≤ |R.rnd (s0.val - q) - (s0.val - q)| + (|q - Z| + (|Z - Y| + |Y - X|)) := by
    have u1 := abs_sub (R.rnd (s0.val - q) - (s0.val - q)) (q - X)
    have u2 := abs_add_le (q - Z) (Z - X)
    have u3 := abs_add_le (Z - Y) (Y - X)
    rw [sub_add_sub_cancel] at u2 u3
    rw [show R.rnd (s0.val - q) - (s0.val - q) - (q - X) = R.rnd (s0.val - q) - (s0.val - X) by ring] at u1
    linarith
  have ζ0 : 0 ≤ ζ := η0.trans hη
  refine t5.trans ?_
  have s1 : |s0.val - q| / 2 ^ 52 ≤ (|s0.val| + |q|) / 2 ^ 52 := by gcongr
  rw [← hA]
  have ex : A * (Δ + (|κ| + Δ) / 2 ^ 52) = A * Δ + A * |κ| / 2 ^ 52 + A * Δ / 2 ^ 52 := by ring
  rw [ex] at y1 aY
  rw [show A * (2 * Δ + |κ| / 2 ^ 48) = 2 * (A * Δ) + A * |κ| / 2 ^ 48 by ring]
  generalize A * |κ| = K at *
  generalize A * Δ = G at *
  clear ex hX
  linarith

theorem distance_symm (a c : Coord ℝ) : Boundary.distance a c = Boundary.distance c a := by
  unfold Boundary.distance
  congr 1
  ring

/-- The lengths of the segments at a point. -/
theorem lens_ring {k : Nat} {pt : BoundaryPoint R.Num} (hk : b.points[k]? = some pt) (segs : List (BoundarySegment R.Num))
    (hs : ∀ s ∈ segs, ∃ a c, b.points[s.start]? = some a ∧ b.points[s.stop]? = some c ∧ s.length = Boundary.chord a.coord c.coord)
    (ls : List R.Num) (hls : ls = segs.flatMap fun g => (if k = g.start then [g.length] else []) ++ if k = g.stop then [g.length] else [])
    (nb : List Nat) (hnb : nb = segs.flatMap fun g => (if k = g.start then [g.stop] else []) ++ if k = g.stop then [g.start] else []) :
    ls.length = nb.length ∧ (∀ v ∈ ls, 0 ≤ v.val) ∧
    |(ls.map Num.val).sum - ringAt b nb (placeOf pt.coord)| ≤ ringAt b nb (placeOf pt.coord) / 2 ^ 49 + nb.length * (1 / 2 ^ 500) := by
  have add : ∀ (l1 l2 : List Nat) (c : Coord ℝ), ringAt b (l1 ++ l2) c = ringAt b l1 c + ringAt b l2 c := by
    intro l1 l2 c
    unfold ringAt
    rw [List.map_append, List.sum_append]
  have one : ∀ (j : Nat) (q : BoundaryPoint R.Num) (c : Coord ℝ), b.points[j]? = some q → ringAt b [j] c = Boundary.distance c (placeOf q.coord) := by
    intro j q c hq
    unfold ringAt
    simp [hq]
  have nil : ∀ c : Coord ℝ, ringAt b [] c = 0 := fun c => rfl
  induction segs generalizing ls nb with
  | nil =>
    rw [hls, hnb]
    simp [ringAt]
  | cons g l ih =>
    obtain ⟨i1, i2, i3⟩ := ih (fun s h => hs s (List.mem_cons_of_mem _ h)) _ rfl _ rfl
    obtain ⟨a, c, ha, hc, hl⟩ := hs g List.mem_cons_self
    rw [hls, hnb, List.flatMap_cons, List.flatMap_cons]
    generalize (l.flatMap fun g => (if k = g.start then [g.length] else []) ++ if k = g.stop then [g.length] else []) = L1 at *
    generalize (l.flatMap fun g => (if k = g.start then [g.stop] else []) ++ if k = g.stop then [g.start] else []) = N1 at *
    have n0 : 0 ≤ g.length.val := by rw [hl]; exact Boundary.chord_nonneg _ _
    have err := Boundary.chord_err a.coord c.coord
    rw [← hl] at err
    change |g.length.val - Boundary.distance (placeOf a.coord) (placeOf c.coord)| ≤ Boundary.distance (placeOf a.coord) (placeOf c.coord) / 2 ^ 49 + _ at err
    have p1 : k = g.start → |g.length.val - ringAt b [g.stop] (placeOf pt.coord)| ≤ ringAt b [g.stop] (placeOf pt.coord) / 2 ^ 49 + 1 / 2 ^ 500 := by
      intro h
      rw [← h, hk] at ha
      cases ha
      rw [one _ _ _ hc]
      exact err
    have p2 : k = g.stop → |g.length.val - ringAt b [g.start] (placeOf pt.coord)| ≤ ringAt b [g.start] (placeOf pt.coord) / 2 ^ 49 + 1 / 2 ^ 500 := by
      intro h
      rw [← h, hk] at hc
      cases hc
      rw [one _ _ _ ha, distance_symm]
      exact err
    generalize (1 : ℝ) / 2 ^ 500 = κ at *
    refine ⟨?_, ?_, ?_⟩
    · simp only [List.length_append, i1]
      split_ifs <;> rfl
    · intro v hv
      rcases List.mem_append.1 hv with h | h
      · rcases List.mem_append.1 h with h | h <;> split at h
        · rw [List.mem_singleton] at h; rw [h]; exact n0
        · cases h
        · rw [List.mem_singleton] at h; rw [h]; exact n0
        · cases h
      · exact i2 v h
    · rw [add, add, List.map_append, List.map_append, List.sum_append, List.sum_append, List.length_append, List.length_append]
      push_cast
      by_cases h1 : k = g.start <;> by_cases h2 : k = g.stop
      · have q1 := p1 h1
        have q2 := p2 h2
        rw [if_pos h1, if_pos h1, if_pos h2, if_pos h2]
        simp only [List.map_cons, List.map_nil, List.sum_cons, List.sum_nil, List.length_cons, List.length_nil, add_zero, Nat.cast_one, zero_add]
        rw [abs_le] at *
        constructor <;> linarith [q1.1, q1.2, q2.1, q2.2, i3.1, i3.2]
      · have q1 := p1 h1
        rw [if_pos h1, if_pos h1, if_neg h2, if_neg h2, nil]
        simp only [List.map_cons, List.map_nil, List.sum_cons, List.sum_nil, List.length_cons, List.length_nil, add_zero, Nat.cast_one, Nat.cast_zero, zero_add]
        rw [abs_le] at *
        constructor <;> linarith [q1.1, q1.2, i3.1, i3.2]
      · have q2 := p2 h2
        rw [if_neg h1, if_neg h1, if_pos h2, if_pos h2, nil]
        simp only [List.map_cons, List.map_nil, List.sum_cons, List.sum_nil, List.length_cons, List.length_nil, add_zero, Nat.cast_one, Nat.cast_zero, zero_add]
        rw [abs_le] at *
        constructor <;> linarith [q2.1, q2.2, i3.1, i3.2]
      · rw [if_neg h1, if_neg h1, if_neg h2, if_neg h2, nil]
        simp only [List.map_nil, List.sum_nil, List.length_nil, add_zero, Nat.cast_zero, zero_add]
        exact i3

/-- The sum of halves. -/
theorem halves_near (l : List R.Num) (hl : ∀ v ∈ l, 0 ≤ v.val) (hn : l.length ≤ 2) :
    0 ≤ (l.foldl (fun s v => s +. lit 1 2 *. v) (FP.nat 0)).val ∧
    |2 * (l.foldl (fun s v => s +. lit 1 2 *. v) (FP.nat 0)).val - (l.map Num.val).sum| ≤ (l.map Num.val).sum / 2 ^ 49 + 1 / 2 ^ 1000 := by
  have h0 := Boundary.fold_half l hl (FP.nat 0) (by rw [val_zero])
  rw [val_zero] at h0
  refine ⟨h0, ?_⟩
  have half : ∀ v : R.Num, 0 ≤ v.val → 0 ≤ (lit 1 2 *. v : R.Num).val ∧ |(lit 1 2 *. v : R.Num).val - v.val / 2| ≤ v.val / 2 ^ 53 + 1 / 2 ^ 1074 := by
    intro v hv
    rw [val_mul, val_lit_half]
    have h1 := R.err (1 / 2 * v.val)
    rw [abs_of_nonneg (show 0 ≤ 1 / 2 * v.val by positivity)] at h1
    refine ⟨rnd_nonneg (by positivity), ?_⟩
    generalize (1 : ℝ) / 2 ^ 1074 = η at *
    rw [show v.val / 2 = 1 / 2 * v.val by ring]
    linarith
  have hfold : l.foldl (fun s v => s +. lit 1 2 *. v) (FP.nat 0) = (l.map fun v => (lit 1 2 *. v : R.Num)).foldl (fun s v => s +. v) (FP.nat 0) := by
    rw [List.foldl_map]
  have h1 := Boundary.fold_err (l.map fun v => (lit 1 2 *. v : R.Num)) (by
    intro v hv
    obtain ⟨u, hu, rfl⟩ := List.mem_map.1 hv
    exact (half u (hl u hu)).1) (FP.nat 0) (by rw [val_zero])
  rw [← hfold, val_zero, zero_add, List.length_map] at h1
  have h2 : ∀ m : List R.Num, (∀ v ∈ m, 0 ≤ v.val) → 0 ≤ (m.map Num.val).sum ∧ |((m.map fun v => (lit 1 2 *. v : R.Num)).map Num.val).sum - (m.map Num.val).sum / 2| ≤
      (m.map Num.val).sum / 2 ^ 53 + m.length * (1 / 2 ^ 1074) := by
    intro m
    induction m with
    | nil => intro _; simp
    | cons v m ih =>
      intro hm
      obtain ⟨a0, a1⟩ := ih fun u hu => hm u (List.mem_cons_of_mem _ hu)
      obtain ⟨-, a2⟩ := half v (hm v List.mem_cons_self)
      have a3 := hm v List.mem_cons_self
      simp only [List.map_cons, List.sum_cons, List.length_cons]
      push_cast
      refine ⟨by linarith, ?_⟩
      generalize (1 : ℝ) / 2 ^ 1074 = η at *
      rw [abs_le] at *
      constructor <;> linarith [a1.1, a1.2, a2.1, a2.2]
  obtain ⟨s0, h3⟩ := h2 l hl
  have hn' : (l.length : ℝ) ≤ 2 := by exact_mod_cast hn
  have hη : 2 ^ 10 * ((1 : ℝ) / 2 ^ 1074) ≤ 1 / 2 ^ 1000 := by
    rw [show (2 : ℝ) ^ 1074 = 2 ^ 10 * 2 ^ 1064 by rw [← pow_add], mul_one_div, div_mul_eq_div_div, div_self (by positivity)]
    exact one_div_le_one_div_of_le (by positivity) (pow_le_pow_right₀ (by norm_num) (by norm_num))
  have η0 : (0 : ℝ) ≤ 1 / 2 ^ 1074 := by positivity
  generalize (1 : ℝ) / 2 ^ 1000 = ζ at *
  generalize (1 : ℝ) / 2 ^ 1074 = η at *
  generalize l.foldl (fun s v => s +. lit 1 2 *. v) (FP.nat 0) = F at *
  generalize ((l.map fun v => (lit 1 2 *. v : R.Num)).map Num.val).sum = H at *
  generalize (l.map Num.val).sum = S at *
  have b1 : (l.length : ℝ) * (F.val / 2 ^ 51 + η) ≤ 2 * (F.val / 2 ^ 51 + η) := by
    have : 0 ≤ F.val / 2 ^ 51 := by positivity
    gcongr
  have b2 : (l.length : ℝ) * η ≤ 2 * η := by gcongr
  have h1' := h1.trans b1
  have h3' : |H - S / 2| ≤ S / 2 ^ 53 + 2 * η := h3.trans (by linarith)
  clear h1 h3 b1 b2
  rw [abs_le] at *
  constructor <;> linarith [h1'.1, h1'.2, h3'.1, h3'.2]

end Rounding

variable {R : Rounding} {b : Boundary R.Num} {p : BoundaryPoint R.Num}

/-- **C111** (perimeter, rounded arithmetic): `computePerimeter` is the sum of the distances to the neighbours, up to a relative `2⁻⁴⁷`. -/
theorem C111_perimeter (H : Tied b p) : ∃ v, b.computePerimeter p = .ok v ∧ 0 ≤ v.val ∧
    |v.val - ringAt b (p.neighbours.take p.nNeighbours) (placeOf p.coord)| ≤
      ringAt b (p.neighbours.take p.nNeighbours) (placeOf p.coord) / 2 ^ 47 + 1 / 2 ^ 490 := ring_close H p.coord

/-- **C111** (curvature, rounded arithmetic): the finite difference sensitivity of the perimeter is the exact central difference along the normal
per unit length, up to the error of the perimeters (at most `B`) and of the displaced place divided by the step. -/
theorem C111_curvature (H : Tied b p) {delta : R.Num} {B : ℝ} (hδ : 1 / 2 ^ 50 ≤ delta.val) (hl : 1 / 2 ^ 50 ≤ p.length.val)
    (hnx : |p.normal.x.val| ≤ 2) (hny : |p.normal.y.val| ≤ 2)
    (h1 : ringAt b (p.neighbours.take p.nNeighbours) (slid p delta.val) ≤ B)
    (h2 : ringAt b (p.neighbours.take p.nNeighbours) (slid p (-delta.val)) ≤ B) :
    ∃ s, computeSensitivity delta p b.computePerimeter = .ok (s, p) ∧ |s.val - bend delta.val b p| ≤
      (2 * (B / 2 ^ 47 + (|p.coord.x.val| + |p.coord.y.val| + 12 * delta.val) / 2 ^ 49 + 1 / 2 ^ 400) / delta.val) / p.length.val +
        |bend delta.val b p| / 2 ^ 48 + 1 / 2 ^ 140 := by
  have h0 : 0 < delta.val := lt_of_lt_of_le (by positivity) hδ
  have hl0 : 0 < p.length.val := lt_of_lt_of_le (by positivity) hl
  have mx := moved_near (R := R) (x := p.coord.x.val) hδ hnx
  have my := moved_near (R := R) (x := p.coord.y.val) hδ hny
  have bx := moved_back_near (R := R) (x := p.coord.x.val) hδ hnx
  have b_y := moved_back_near (R := R) (x := p.coord.y.val) hδ hny
  have hB : 0 ≤ B := (ringAt_nonneg _ _).trans h1
  obtain ⟨e, he⟩ : ∃ e, e = (|p.coord.x.val| + |p.coord.y.val| + 12 * delta.val) / 2 ^ 52 := ⟨_, rfl⟩
  have e0 : 0 ≤ e := by rw [he]; positivity
  obtain ⟨f1, g1, k1⟩ := ring_moved H (q := ⟨p.coord.x +. delta *. p.normal.x, p.coord.y +. delta *. p.normal.y⟩) (c := slid p delta.val) e0 (by
    rw [he]
    simp only [slid, val_add, val_mul]
    linarith) h1
  obtain ⟨f2, g2, k2⟩ := ring_moved H (q := ⟨p.coord.x -. delta *. p.normal.x, p.coord.y -. delta *. p.normal.y⟩) (c := slid p (-delta.val)) e0 (by
    rw [he]
    simp only [slid, val_sub, val_mul, neg_mul, ← sub_eq_add_neg]
    linarith) h2
  refine ⟨_, (C54_restores delta p b.computePerimeter).1 f1 f2 g1 g2, ?_⟩
  have hE : |(f1.val - f2.val) - 2 * ((ringAt b (p.neighbours.take p.nNeighbours) (slid p delta.val) -
      ringAt b (p.neighbours.take p.nNeighbours) (slid p (-delta.val))) / (2 * delta.val)) * delta.val| ≤ 2 * (B / 2 ^ 47 + 5 * e + 1 / 2 ^ 490) := by
    rw [show ∀ z : ℝ, 2 * (z / (2 * delta.val)) * delta.val = z from fun z => by field_simp]
    generalize (1 : ℝ) / 2 ^ 490 = κ at *
    rw [abs_le] at *
    constructor <;> linarith [k1.1, k1.2, k2.1, k2.2]
  have key := slope_near hδ hl (by positivity) hE
  have hK : (1 : ℝ) / 2 ^ 490 ≤ 1 / 2 ^ 400 := one_div_le_one_div_of_le (by positivity) (pow_le_pow_right₀ (by norm_num) (by norm_num))
  have hb : ∀ z : ℝ, |z| / p.length.val = |z / p.length.val| := fun z => by rw [abs_div, abs_of_pos hl0]
  refine key.trans ?_
  unfold bend
  rw [add_div, show ∀ z : ℝ, |z| / 2 ^ 48 / p.length.val = |z| / p.length.val / 2 ^ 48 from fun z => by ring, hb]
  gcongr
  rw [he]
  linarith

/-- **C111** (drift correction, rounded arithmetic): the objective sensitivity of a point is reduced by `T κ / (2 length)`, with the exact curvature
`κ`, up to the error of the curvature and rounding; nothing else changes. -/
theorem C111_drift {delta T : R.Num} {b' : Boundary R.Num} (hT : T.val ≠ 0) (e : itoCorrection delta b T = .ok b') (hδ : 1 / 2 ^ 50 ≤ delta.val) :
    b' = { b with points := b'.points } ∧ b'.points.length = b.points.length ∧
    ∀ (k : Nat) (p : BoundaryPoint R.Num) (B : ℝ), b.points[k]? = some p → Tied b p → 1 / 2 ^ 50 ≤ p.length.val →
      |p.normal.x.val| ≤ 2 → |p.normal.y.val| ≤ 2 →
      ringAt b (p.neighbours.take p.nNeighbours) (slid p delta.val) ≤ B → ringAt b (p.neighbours.take p.nNeighbours) (slid p (-delta.val)) ≤ B →
      ∃ s0 s1, p.sensitivities[0]? = some s0 ∧ b'.points[k]? = some { p with sensitivities := p.sensitivities.set 0 s1 } ∧
        |s1.val - (s0.val - T.val * bend delta.val b p / (2 * p.length.val))| ≤ |s0.val| / 2 ^ 52 + |T.val| / (2 * p.length.val) *
          (2 * ((2 * (B / 2 ^ 47 + (|p.coord.x.val| + |p.coord.y.val| + 12 * delta.val) / 2 ^ 49 + 1 / 2 ^ 400) / delta.val) / p.length.val +
            |bend delta.val b p| / 2 ^ 48 + 1 / 2 ^ 140) + |bend delta.val b p| / 2 ^ 48) + 1 / 2 ^ 900 := by
  have hT' : (T =. (FP.nat 0 : R.Num)) = false := by
    rw [Bool.eq_false_iff]
    intro h
    rw [eq_iff, val_zero] at h
    exact hT h
  obtain ⟨h1, h2, h3⟩ := C55_local hT' e
  refine ⟨h1, h2, fun k p B hk H hl hnx hny hB1 hB2 => ?_⟩
  obtain ⟨f1, f2, s0, g1, g2, g3, g4⟩ := h3 k p hk
  obtain ⟨s, k1, k2⟩ := C111_curvature H hδ hl hnx hny hB1 hB2
  rw [(C54_restores delta p b.computePerimeter).1 f1 f2 g1 g2] at k1
  have hs := congrArg Prod.fst (Except.ok.inj k1)
  dsimp only at hs
  rw [hs] at g4
  exact ⟨s0, _, g3, g4, drift_near hl k2⟩

/-- **C111** (safety, rounded arithmetic): on a boundary whose neighbour lists are sound the drift correction returns. -/
theorem C111_safe {delta T : R.Num} (hT : T.val ≠ 0) (H : ∀ p ∈ b.points, Tied b p ∧ p.sensitivities ≠ []) : ∃ b', itoCorrection delta b T = .ok b' := by
  have hT' : ¬ (T =. (FP.nat 0 : R.Num)) = true := by
    intro h
    rw [eq_iff, val_zero] at h
    exact hT h
  have safe : ∀ p ∈ b.points, ∃ p', itoPoint delta T b.computePerimeter p = .ok p' := by
    intro p hp
    obtain ⟨f1, g1, -⟩ := ring_close (H p hp).1 ⟨p.coord.x +. delta *. p.normal.x, p.coord.y +. delta *. p.normal.y⟩
    obtain ⟨f2, g2, -⟩ := ring_close (H p hp).1 ⟨p.coord.x -. delta *. p.normal.x, p.coord.y -. delta *. p.normal.y⟩
    have h1 := (C54_restores delta p b.computePerimeter).1 _ _ g1 g2
    unfold itoPoint
    rw [h1]
    simp only [bind, Except.bind]
    have h2 : 0 < p.sensitivities.length := List.length_pos_of_ne_nil (H p hp).2
    rw [rd_eq h2]
    dsimp only
    rw [wr_eq _ h2]
    exact ⟨_, rfl⟩
  have key := wp_forN (E := noErr) (n := b.points.length) (s := b.points)
    (f := fun i l => modAt l i (itoPoint delta T b.computePerimeter))
    (fun i v => v.length = b.points.length ∧ ∀ k, i ≤ k → v[k]? = b.points[k]?)
    ⟨rfl, fun k _ => rfl⟩ (fun i hi v ⟨hl, hv⟩ => ?_)
  · obtain ⟨v, hv, -⟩ := wp_noErr_iff.1 key
    refine ⟨{ b with points := v }, ?_⟩
    unfold itoCorrection
    rw [if_neg hT', hv]
    rfl
  · refine wp_modAt (hl.symm ▸ hi) ?_
    have h0 := hv i le_rfl
    rw [List.getElem?_eq_getElem (hl.symm ▸ hi), List.getElem?_eq_getElem hi] at h0
    rw [Option.some.inj h0]
    obtain ⟨p', e'⟩ := safe _ (List.getElem_mem hi)
    rw [e']
    refine ⟨by rw [List.length_set, hl], fun k hk => ?_⟩
    rw [List.getElem?_set_ne (by omega)]
    exact hv k (by omega)

/-- **C111** (discretised boundaries, rounded arithmetic): whenever the discretisation of a level set reached from the constructors returns,
`computePerimeter` of each of the points is the sum of the distances to the other ends of its segments, up to a relative `2⁻⁴⁷`, and with any normal
vectors the drift correction returns. -/
theorem C111_discretised {w h : Nat} {L L' : LevelSet R.Num} {isTarget : Bool} (hr : LevelSet.Reachable w h L)
    (ht' : isTarget = true → L.target.length = L.mesh.nNodes) (e : Boundary.discretise L isTarget = .ok (b, L')) :
    (∀ (k : Nat) (pt : BoundaryPoint R.Num), b.points[k]? = some pt → Tied b pt ∧
      pt.neighbours.take pt.nNeighbours = (b.segments.flatMap fun g => (if k = g.start then [g.stop] else []) ++ if k = g.stop then [g.start] else []) ∧
      ∃ v, b.computePerimeter pt = .ok v ∧ 0 ≤ v.val ∧ |v.val - ringAt b (pt.neighbours.take pt.nNeighbours) (placeOf pt.coord)| ≤
        ringAt b (pt.neighbours.take pt.nNeighbours) (placeOf pt.coord) / 2 ^ 47 + 1 / 2 ^ 490) ∧
    ∀ (delta T : R.Num) (normals : BoundaryPoint R.Num → Coord R.Num), T.val ≠ 0 →
      ∃ b', itoCorrection delta { b with points := b.points.map fun p => { p with normal := normals p } } T = .ok b' := by
  obtain ⟨W, F, -, hb, Lk⟩ := (Boundary.drawn hr ht' e).fit
  have hs : W.bnd.segments = b.segments := by rw [hb]
  have key : ∀ (k : Nat) (pt : BoundaryPoint R.Num), b.points[k]? = some pt → Tied b pt ∧
      pt.neighbours.take pt.nNeighbours = (b.segments.flatMap fun g => (if k = g.start then [g.stop] else []) ++ if k = g.stop then [g.start] else []) ∧
      pt.sensitivities ≠ [] := by
    intro k pt hk
    have hk' : k < W.bnd.points.length := by rw [← Lk.len]; exact (List.getElem?_eq_some_iff.1 hk).1
    obtain ⟨p, hp, l⟩ := Lk.pt k _ (List.getElem?_eq_getElem hk')
    rw [hk] at hp
    cases hp
    have hn : pt.nNeighbours = (Boundary.upTo (Boundary.nbrsAt W.bnd.segments k) W.bnd.segments.length).length := by rw [l.eq]
    have ht := l.ntake
    rw [← hn, Boundary.nbrs_eq, hs] at ht
    have hle := l.nle
    refine ⟨⟨by omega, by rw [l.nlen]; omega, fun j hj => ?_⟩, ht, ?_⟩
    · rw [ht, List.mem_flatMap] at hj
      obtain ⟨s, hsm, hj⟩ := hj
      obtain ⟨-, a0, c0, h1, h2, -⟩ := F.segs s (hs ▸ hsm)
      rw [Lk.len]
      rcases List.mem_append.1 hj with h | h
      · split at h
        · rw [List.mem_singleton] at h; subst h; exact (List.getElem?_eq_some_iff.1 h2).1
        · cases h
      · split at h
        · rw [List.mem_singleton] at h; subst h; exact (List.getElem?_eq_some_iff.1 h1).1
        · cases h
    · obtain ⟨x, y, c, p0, ls, sg, nb, -, -, -, hi, hl, -⟩ := Boundary.point_made hr ht' e (List.mem_of_getElem? hk)
      obtain ⟨n, nd, -, -, hp0⟩ := Boundary.initialisePoint_at hi
      rw [hl.eq, hp0]
      simp [Boundary.emptyPoint]
  refine ⟨fun k pt hk => ⟨(key k pt hk).1, (key k pt hk).2.1, C111_perimeter (key k pt hk).1⟩, fun delta T normals hT => C111_safe hT fun p hp => ?_⟩
  obtain ⟨q, hq, rfl⟩ := List.mem_map.1 hp
  obtain ⟨k, hk⟩ := List.mem_iff_getElem?.1 hq
  obtain ⟨h1, -, h2⟩ := key k q hk
  exact ⟨⟨h1.few, h1.size, fun j hj => by rw [List.length_map]; exact h1.inside j hj⟩, h2⟩

/-- **C111** (lengths of points, rounded arithmetic): the length of each point made by the discretisation is half the sum of the distances to the
other ends of its segments, up to a relative `2⁻⁴⁷`. -/
theorem C111_length {w h : Nat} {L L' : LevelSet R.Num} {isTarget : Bool} (hr : LevelSet.Reachable w h L)
    (ht' : isTarget = true → L.target.length = L.mesh.nNodes) (e : Boundary.discretise L isTarget = .ok (b, L')) {pt : BoundaryPoint R.Num}
    (hp : pt ∈ b.points) : 0 ≤ pt.length.val ∧ |2 * pt.length.val - ringAt b (pt.neighbours.take pt.nNeighbours) (placeOf pt.coord)| ≤
      ringAt b (pt.neighbours.take pt.nNeighbours) (placeOf pt.coord) / 2 ^ 47 + 1 / 2 ^ 490 := by
  obtain ⟨k, hk⟩ := List.mem_iff_getElem?.1 hp
  obtain ⟨W, F, -, hb, Lk⟩ := (Boundary.drawn hr ht' e).fit
  have hs : W.bnd.segments = b.segments := by rw [hb]
  have hk' : k < W.bnd.points.length := by rw [← Lk.len]; exact (List.getElem?_eq_some_iff.1 hk).1
  obtain ⟨p, hp', l⟩ := Lk.pt k _ (List.getElem?_eq_getElem hk')
  rw [hk] at hp'
  cases hp'
  have hn : pt.nNeighbours = (Boundary.upTo (Boundary.nbrsAt W.bnd.segments k) W.bnd.segments.length).length := by rw [l.eq]
  have ht := l.ntake
  rw [← hn] at ht
  have hle := l.nle
  have hlen : pt.length = (Boundary.upTo (Boundary.lensAt W.bnd.segments k) W.bnd.segments.length).foldl (fun a l => a +. lit 1 2 *. l) (W.bnd.points[k]).length := by
    rw [l.eq]
  have h0 : (W.bnd.points[k]).length = FP.nat 0 := by
    obtain ⟨x, y, c, -, -, -, hi⟩ := F.pts k _ (List.getElem?_eq_getElem hk')
    obtain ⟨n, nd, -, -, hp0⟩ := Boundary.initialisePoint_at hi
    rw [hp0]
    rfl
  obtain ⟨i1, i2, i3⟩ := lens_ring hk b.segments (by
    intro s hsm
    obtain ⟨-, a0, c0, h1, h2, h3⟩ := F.segs s (hs ▸ hsm)
    obtain ⟨a, ga, la⟩ := Lk.pt _ _ h1
    obtain ⟨c, gc, lc⟩ := Lk.pt _ _ h2
    have ea : a.coord = a0.coord := by rw [la.eq]
    have ec : c.coord = c0.coord := by rw [lc.eq]
    exact ⟨a, c, ga, gc, by rw [h3, ea, ec]⟩) _ (by rw [← Boundary.lens_eq]) _ (by rw [← Boundary.nbrs_eq])
  rw [← hs] at i1 i2 i3
  rw [h0] at hlen
  rw [hlen, ht]
  obtain ⟨j1, j2⟩ := halves_near _ i2 (i1 ▸ hle)
  refine ⟨j1, ?_⟩
  have n2 : ((Boundary.upTo (Boundary.nbrsAt W.bnd.segments k) W.bnd.segments.length).length : ℝ) ≤ 2 := by exact_mod_cast hle
  have P0 := ringAt_nonneg (b := b) (Boundary.upTo (Boundary.nbrsAt W.bnd.segments k) W.bnd.segments.length) (placeOf pt.coord)
  have hκ : (1 : ℝ) / 2 ^ 1000 ≤ 1 / 2 ^ 500 := one_div_le_one_div_of_le (by positivity) (pow_le_pow_right₀ (by norm_num) (by norm_num))
  have hK : (1 : ℝ) / 2 ^ 490 = 2 ^ 10 * (1 / 2 ^ 500) := by
    rw [show (2 : ℝ) ^ 500 = 2 ^ 10 * 2 ^ 490 by rw [← pow_add]]
    field_simp
  have κ0 : (0 : ℝ) ≤ 1 / 2 ^ 500 := by positivity
  rw [hK]
  generalize (1 : ℝ) / 2 ^ 500 = κ at *
  generalize (1 : ℝ) / 2 ^ 1000 = ζ at *
  generalize (Boundary.upTo (Boundary.lensAt W.bnd.segments k) W.bnd.segments.length).foldl (fun a l => a +. lit 1 2 *. l) (FP.nat 0) = X at *
  generalize ((Boundary.upTo (Boundary.lensAt W.bnd.segments k) W.bnd.segments.length).map Num.val).sum = S at *
  generalize ringAt b (Boundary.upTo (Boundary.nbrsAt W.bnd.segments k) W.bnd.segments.length) (placeOf pt.coord) = P at *
  generalize ((Boundary.upTo (Boundary.nbrsAt W.bnd.segments k) W.bnd.segments.length).length : ℝ) = n at *
  have b2 : n * κ ≤ 2 * κ := by gcongr
  have i3' : |S - P| ≤ P / 2 ^ 49 + 2 * κ := i3.trans (by linarith)
  clear i3 b2 hK
  rw [abs_le] at *
  constructor <;> linarith [i3'.1, i3'.2, j2.1, j2.2]

/-- The hypotheses are met in every rounding: a point at `(1, 0)` with one neighbour at the origin and the normal `(1, 0)`, moved by a half to
either side; the curvature is one, and at unit temperature the sensitivity one becomes a half. -/
example (R : Rounding) : ∃ (b b' : Boundary R.Num) (p : BoundaryPoint R.Num) (s s1 : R.Num), b.points[0]? = some p ∧ Tied b p ∧
    computeSensitivity (RoundRun.hf R) p b.computePerimeter = .ok (s, p) ∧ |s.val - 1| ≤ 1 / 2 ^ 40 ∧
    itoCorrection (RoundRun.hf R) b (FP.nat 1) = .ok b' ∧ b'.points[0]? = some { p with sensitivities := [s1] } ∧ |s1.val - 1 / 2| ≤ 1 / 2 ^ 38 := by
  obtain ⟨p, hp⟩ : ∃ p : BoundaryPoint R.Num, p = { RoundRun.spot R (FP.nat 0) with coord := ⟨FP.nat 1, FP.nat 0⟩, nNeighbours := 1, neighbours := [1] } := ⟨_, rfl⟩
  obtain ⟨b, hb⟩ : ∃ b : Boundary R.Num, b = { Boundary.new with points := [p, RoundRun.spot R (FP.nat 0)] } := ⟨_, rfl⟩
  have h0 : b.points[0]? = some p := by rw [hb]; rfl
  have hn : p.neighbours.take p.nNeighbours = [1] := by rw [hp]; rfl
  have H : Tied b p := by
    refine ⟨by rw [hp]; show 1 ≤ 4; norm_num, by rw [hp]; exact le_rfl, fun j hj => ?_⟩
    rw [hn, List.mem_singleton] at hj
    rw [hj, hb]
    exact Nat.lt_succ_self 1
  have hv : (RoundRun.hf R).val = 1 / 2 := RoundRun.hf_val
  have ring : ∀ t : ℝ, 0 ≤ 1 + t → ringAt b (p.neighbours.take p.nNeighbours) (slid p t) = 1 + t := by
    intro t ht
    rw [hn]
    unfold ringAt
    rw [hb]
    simp only [List.map_cons, List.map_nil, List.sum_cons, List.sum_nil, add_zero]
    show Boundary.distance (slid p t) (placeOf (RoundRun.spot R (FP.nat 0)).coord) = 1 + t
    rw [hp]
    unfold Boundary.distance slid placeOf
    simp only [RoundRun.spot, val_one, val_zero, mul_one, mul_zero, add_zero, sub_zero]
    exact Real.sqrt_mul_self ht
  have r1 := ring (1 / 2) (by norm_num)
  have r2 := ring (-(1 / 2)) (by norm_num)
  have hl : p.length.val = 1 := by rw [hp]; exact val_one
  have hbend : bend (1 / 2) b p = 1 := by
    unfold bend
    rw [r1, r2, hl]
    norm_num
  have hx : |p.normal.x.val| = 1 := by rw [hp]; simp [RoundRun.spot]
  have hy : |p.normal.y.val| = 0 := by rw [hp]; simp [RoundRun.spot]
  have cx : |p.coord.x.val| = 1 := by rw [hp]; simp
  have cy : |p.coord.y.val| = 0 := by rw [hp]; simp
  have hs0 : p.sensitivities = [FP.nat 1] := by rw [hp]; rfl
  have hδ : 1 / 2 ^ 50 ≤ (RoundRun.hf R).val := by rw [hv]; norm_num
  have q1 : ringAt b (p.neighbours.take p.nNeighbours) (slid p (RoundRun.hf R).val) ≤ 3 / 2 := by rw [hv, r1]; norm_num
  have q2 : ringAt b (p.neighbours.take p.nNeighbours) (slid p (-(RoundRun.hf R).val)) ≤ 3 / 2 := by rw [hv, r2]; norm_num
  have hT : (FP.nat 1 : R.Num).val ≠ 0 := by rw [val_one]; norm_num
  have tiny : (1 : ℝ) / 2 ^ 900 ≤ 1 / 2 ^ 100 := one_div_le_one_div_of_le (by positivity) (pow_le_pow_right₀ (by norm_num) (by norm_num))
  have tiny' : (1 : ℝ) / 2 ^ 400 ≤ 1 / 2 ^ 100 := one_div_le_one_div_of_le (by positivity) (pow_le_pow_right₀ (by norm_num) (by norm_num))
  obtain ⟨s, k1, k2⟩ := C111_curvature H hδ (by rw [hl]; norm_num) (by rw [hx]; norm_num) (by rw [hy]; norm_num) q1 q2
  obtain ⟨b', e⟩ := C111_safe (delta := RoundRun.hf R) hT (b := b) (by
    intro q hq
    rw [hb] at hq
    rcases List.mem_cons.1 hq with rfl | hq
    · exact ⟨H, by rw [hs0]; simp⟩
    · rw [List.mem_singleton] at hq
      rw [hq]
      exact ⟨⟨Nat.zero_le _, Nat.zero_le _, fun j hj => by cases hj⟩, by simp [RoundRun.spot]⟩)
  obtain ⟨-, -, h3⟩ := C111_drift hT e hδ
  obtain ⟨s0, s1, g1, g2, g3⟩ := h3 0 p _ h0 H (by rw [hl]; norm_num) (by rw [hx]; norm_num) (by rw [hy]; norm_num) q1 q2
  rw [hs0] at g1 g2
  have hs : s0 = FP.nat 1 := (Option.some.inj g1).symm
  rw [hs] at g3
  rw [hv, hbend, hl, cx, cy, abs_one] at k2 g3
  rw [val_one, abs_one] at g3
  refine ⟨b, b', p, s, s1, h0, H, k1, ?_, e, g2, ?_⟩
  · generalize (1 : ℝ) / 2 ^ 400 = κ at *
    refine k2.trans ?_
    norm_num at tiny' ⊢
    linarith
  · generalize (1 : ℝ) / 2 ^ 400 = κ at *
    generalize (1 : ℝ) / 2 ^ 900 = κ' at *
    rw [show (1 : ℝ) - 1 * 1 / (2 * 1) = 1 / 2 by norm_num] at g3
    refine g3.trans ?_
    norm_num at tiny tiny' ⊢
    linarith

/-- The hypotheses of `C111_discretised` and `C111_length` are met in binary64, by a plane on a five by five grid: its boundary has a point, whose
perimeter is computed and is twice its length up to rounding. -/
theorem plane_lengths : ∃ (L L' : LevelSet binary64.Num) (b : Boundary binary64.Num) (pt : BoundaryPoint binary64.Num) (v : binary64.Num), LevelSet.Reachable 5 5 L ∧
    Boundary.discretise L false = .ok (b, L') ∧ pt ∈ b.points ∧ Tied b pt ∧ b.computePerimeter pt = .ok v ∧
    |v.val - 2 * pt.length.val| ≤ ringAt b (pt.neighbours.take pt.nNeighbours) (placeOf pt.coord) / 2 ^ 46 + 1 / 2 ^ 489 := by
  obtain ⟨L, hr, hv, hb⟩ := plane_level
  have C := plane_clear hr hv hb
  obtain ⟨b, L', e⟩ := Boundary.C94_safe C
  have h0 : lay 5 L.signedDistance 0 2 = -(1 / 2) := by rw [hv 0 2 (by norm_num) (by norm_num)]; norm_num
  have h1 : lay 5 L.signedDistance (0 + 1) 2 = 1 / 2 := by rw [hv (0 + 1) 2 (by norm_num) (by norm_num)]; norm_num
  have ht := binary64.tol_bounds.2
  norm_num at ht
  have hcut : CutEdge 5 5 (binary64.sides (lay 5 (Boundary.values L false))) (.hor 0 2) := by
    refine ⟨?_, Boundary.meets_onContour.1 (.inr ?_), fun x y h => by cases h⟩
    · intro q hq
      simp only [Place.ends, List.mem_cons, List.not_mem_nil, or_false] at hq
      rcases hq with rfl | rfl <;> norm_num
    · change lay 5 L.signedDistance 0 2 ≤ -binary64.tol ∧ binary64.tol ≤ lay 5 L.signedDistance (0 + 1) 2
      rw [h0, h1]
      constructor <;> linarith
  obtain ⟨k, pt, hk, -⟩ := Boundary.C94_watertight C e hcut
  have hp := List.mem_of_getElem? hk
  obtain ⟨H, -, v, g1, -, g2⟩ := (C111_discretised hr (fun h => by cases h) e).1 k pt hk
  obtain ⟨-, g3⟩ := C111_length hr (fun h => by cases h) e hp
  refine ⟨L, L', b, pt, v, hr, e, hp, H, g1, ?_⟩
  have hK : (1 : ℝ) / 2 ^ 489 = 2 * (1 / 2 ^ 490) := by
    rw [show (2 : ℝ) ^ 490 = 2 * 2 ^ 489 by rw [← pow_succ']]
    field_simp
  rw [hK]
  generalize (1 : ℝ) / 2 ^ 490 = κ at *
  rw [abs_le] at *
  constructor <;> linarith [g2.1, g2.2, g3.1, g3.2]

end Slsm
