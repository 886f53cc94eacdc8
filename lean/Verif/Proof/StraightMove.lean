import Verif.Proof.StraightBnd
import Verif.Props.Straight

/-! # A straight boundary: its motion -/

namespace Slsm

variable {w h : Nat} {a b d : ℝ} {φ : Nat → ℝ}

/-- Values after the line has been moved: on the side of the moved line, or zero (on the edge of the domain), and exact next to the moved line. -/
structure MovedLine (w h : Nat) (φ : Nat → ℝ) (a b d : ℝ) : Prop where
  side : ∀ x y, x ≤ w → y ≤ h → ¬ onEdge w h x y → SameSide (φ (nodeNo w x y)) (a * x + b * y - d)
  weak : ∀ x y, x ≤ w → y ≤ h → φ (nodeNo w x y) = 0 ∨ SameSide (φ (nodeNo w x y)) (a * x + b * y - d)
  near : ∀ x y, x ≤ w → y ≤ h → φ (nodeNo w x y) ≠ 0 → |a * (x : ℝ) + b * y - d| < 1 → φ (nodeNo w x y) = a * x + b * y - d

theorem both_near {u v : ℝ} (h0 : u * v < 0) (h1 : |u - v| ≤ 1) : |u| < 1 ∧ |v| < 1 := by
  rw [abs_le] at h1
  rw [abs_lt, abs_lt]
  rcases mul_neg_iff.1 h0 with ⟨p, q⟩ | ⟨p, q⟩ <;> constructor <;> constructor <;> linarith

theorem cut_on_line {f : Nat → Nat → ℝ} {p : Place} (hc : p.cut (fun x y => a * x + b * y - d)) (he : ∀ q ∈ p.ends, f q.1 q.2 = a * q.1 + b * q.2 - d) :
    p.cut f ∧ a * (p.coord f).x + b * (p.coord f).y = d := by
  have key : ∀ (x y : ℝ), x * y < 0 → x - y ≠ 0 := fun x y hxy h0 => by
    have : x = y := by linarith
    rw [this] at hxy
    exact absurd hxy (not_lt.2 (mul_self_nonneg y))
  cases p with
  | node x y => exact absurd hc id
  | hor x y =>
    have h1 := he (x, y) (by simp [Place.ends])
    have h2 := he (x + 1, y) (by simp [Place.ends])
    have h0 := key _ _ hc
    simp only at h1 h2
    refine ⟨?_, ?_⟩
    · show f x y * f (x + 1) y < 0
      rw [h1, h2]; exact hc
    · simp only [Place.coord]
      rw [h1, h2]
      push_cast at h0 ⊢
      have e : a * x + b * y - d - (a * (x + 1) + b * y - d) = -a := by ring
      rw [e] at h0 ⊢
      have ha := neg_ne_zero.1 h0
      field_simp
      ring
  | ver x y =>
    have h1 := he (x, y) (by simp [Place.ends])
    have h2 := he (x, y + 1) (by simp [Place.ends])
    have h0 := key _ _ hc
    simp only at h1 h2
    refine ⟨?_, ?_⟩
    · show f x y * f x (y + 1) < 0
      rw [h1, h2]; exact hc
    · simp only [Place.coord]
      rw [h1, h2]
      push_cast at h0 ⊢
      have e : a * x + b * y - d - (a * x + b * (y + 1) - d) = -b := by ring
      rw [e] at h0 ⊢
      have ha := neg_ne_zero.1 h0
      field_simp
      ring

theorem axis_le (hax : (|a| = 1 ∧ b = 0) ∨ (a = 0 ∧ |b| = 1)) : |a| ≤ 1 ∧ |b| ≤ 1 := by
  rcases hax with ⟨h1, rfl⟩ | ⟨rfl, h1⟩ <;> simp [h1]

/-- Ends of an edge across the line are next to it. -/
theorem cut_near (hax : (|a| = 1 ∧ b = 0) ∨ (a = 0 ∧ |b| = 1)) {p : Place} (hc : p.cut (fun x y => a * x + b * y - d)) :
    ∀ q ∈ p.ends, |a * (q.1 : ℝ) + b * q.2 - d| < 1 ∧ a * (q.1 : ℝ) + b * q.2 - d ≠ 0 := by
  obtain ⟨h1, h2⟩ := axis_le hax
  have nz : ∀ u v : ℝ, u * v < 0 → u ≠ 0 ∧ v ≠ 0 := fun u v h => ⟨fun h0 => by rw [h0] at h; simp at h, fun h0 => by rw [h0] at h; simp at h⟩
  cases p with
  | node x y => exact absurd hc id
  | hor x y =>
    have hc : (a * (x : ℝ) + b * y - d) * (a * ((x + 1 : ℕ) : ℝ) + b * y - d) < 0 := hc
    obtain ⟨g1, g2⟩ := both_near hc (by
      rw [show a * (x : ℝ) + b * y - d - (a * ((x + 1 : ℕ) : ℝ) + b * y - d) = -a by push_cast; ring, abs_neg]; exact h1)
    obtain ⟨n1, n2⟩ := nz _ _ hc
    intro q hq
    simp only [Place.ends, List.mem_cons, List.not_mem_nil, or_false] at hq
    rcases hq with rfl | rfl
    · exact ⟨g1, n1⟩
    · exact ⟨g2, n2⟩
  | ver x y =>
    have hc : (a * (x : ℝ) + b * y - d) * (a * (x : ℝ) + b * ((y + 1 : ℕ) : ℝ) - d) < 0 := hc
    obtain ⟨g1, g2⟩ := both_near hc (by
      rw [show a * (x : ℝ) + b * y - d - (a * (x : ℝ) + b * ((y + 1 : ℕ) : ℝ) - d) = -b by push_cast; ring, abs_neg]; exact h2)
    obtain ⟨n1, n2⟩ := nz _ _ hc
    intro q hq
    simp only [Place.ends, List.mem_cons, List.not_mem_nil, or_false] at hq
    rcases hq with rfl | rfl
    · exact ⟨g1, n1⟩
    · exact ⟨g2, n2⟩

theorem MovedLine.inner (M : MovedLine w h φ a b d) {x y : Nat} (hx : x ≤ w) (hy : y ≤ h) (he : ¬ onEdge w h x y) (hn : |a * (x : ℝ) + b * y - d| < 1) :
    φ (nodeNo w x y) = a * x + b * y - d := by
  by_cases h0 : φ (nodeNo w x y) = 0
  · rw [h0, (FMM.sameSide_eq (M.side x y hx hy he)).2.2.1 h0]
  · exact M.near x y hx hy h0 hn

theorem MovedLine.contains (M : MovedLine w h φ a b d) (hax : (|a| = 1 ∧ b = 0) ∨ (a = 0 ∧ |b| = 1)) : ContainsLine w h (fun x y => φ (nodeNo w x y)) a b d := by
  refine ⟨fun p hg hq hc => cut_on_line hc fun q hm => M.inner (hg q hm).1 (hg q hm).2 (hq q hm) (cut_near hax hc q hm).1, fun x y hx hy he hl => ?_⟩
  have := M.inner hx hy he (by rw [hl]; simp)
  show φ _ = 0
  rw [this]; linarith

/-- Next to the moved line the march gives inner nodes their exact distance. -/
theorem MovedLine.march (M : MovedLine w h φ a b d) (hax : (|a| = 1 ∧ b = 0) ∨ (a = 0 ∧ |b| = 1)) {m : Mesh ℝ} (G : IsGrid w h m) {sd : List ℝ} (hsd : sd.length = m.nNodes)
    (hf : vals sd = φ) {t : Bool} {F : FMM ℝ} (hok : FMM.marchDistance m sd (FMM.new m t) = .ok F) {i j : Nat} (ha : Adj w h i j)
    (hi : φ i = FMM.lineG w a b d i) (hj : φ j = FMM.lineG w a b d j) (hs : FMM.lineG w a b d i * FMM.lineG w a b d j < 0) :
    vals F.sd i = FMM.lineG w a b d i := by
  obtain ⟨ha1, hb1⟩ := axis_le hax
  have hpos : ∀ n, Adj w h i n → φ i * φ n < 0 → ∀ c : ℝ, (FMM.lineG w a b d n = FMM.lineG w a b d i + c ∨ FMM.lineG w a b d n = FMM.lineG w a b d i - c) → |c| ≤ 1 →
      c ≠ 0 ∧ φ i / (φ i - φ n) = |FMM.lineG w a b d i| / |c| := by
    intro n hn ho c hc hc1
    have hlt := (FMM.adj_lt hn).2
    rw [← G.nNodes] at hlt
    obtain ⟨x, y, hx, hy, rfl⟩ := G.node_index hlt
    have hn0 : φ (nodeNo w x y) ≠ 0 := fun h0 => by rw [h0] at ho; simp at ho
    have hS : SameSide (φ (nodeNo w x y)) (FMM.lineG w a b d (nodeNo w x y)) := by
      rw [FMM.lineG_node hx]; exact (M.weak x y hx hy).resolve_left hn0
    have ho' : FMM.lineG w a b d i * FMM.lineG w a b d (nodeNo w x y) < 0 := by
      have hSi : SameSide (φ i) (FMM.lineG w a b d i) := by
        rw [hi]
        rcases lt_trichotomy (FMM.lineG w a b d i) 0 with h | h | h
        · exact .inr (.inl ⟨h, h⟩)
        · exact .inr (.inr ⟨h, h⟩)
        · exact .inl ⟨h, h⟩
      exact (LevelSet.sameSide_mul hSi hS).1 ho
    have hdiff : |FMM.lineG w a b d i - FMM.lineG w a b d (nodeNo w x y)| = |c| := by
      rcases hc with e | e <;> rw [e]
      · rw [show ∀ x : ℝ, x - (x + c) = -c by intro x; ring, abs_neg]
      · rw [show ∀ x : ℝ, x - (x - c) = c by intro x; ring]
    have hnear := (both_near ho' (by rw [hdiff]; exact hc1)).2
    have hne : φ (nodeNo w x y) = FMM.lineG w a b d (nodeNo w x y) := by
      rw [FMM.lineG_node hx] at hnear ⊢
      exact M.near x y hx hy hn0 hnear
    have hc0 : c ≠ 0 := by
      rintro rfl
      have : FMM.lineG w a b d (nodeNo w x y) = FMM.lineG w a b d i := by rcases hc with e | e <;> rw [e] <;> ring
      rw [this] at ho'
      exact absurd ho' (not_lt.2 (mul_self_nonneg _))
    refine ⟨hc0, ?_⟩
    have hp : 0 < φ i / (φ i - φ (nodeNo w x y)) := by
      rcases mul_neg_iff.1 ho with ⟨p, q⟩ | ⟨p, q⟩
      · exact div_pos p (by linarith)
      · exact div_pos_of_neg_of_neg p (by linarith)
    rw [← abs_of_pos hp, hi, hne, abs_div, hdiff]
  have hs' : vals sd i * vals sd j < 0 := by rw [hf, hi, hj]; exact hs
  have stepH : ∀ {n}, HAdj w h i n → FMM.lineG w a b d n = FMM.lineG w a b d i + a ∨ FMM.lineG w a b d n = FMM.lineG w a b d i - a := by
    rintro n ⟨x, x', y, hx, hx', hy, rfl, rfl, e⟩
    rw [FMM.lineG_node hx, FMM.lineG_node hx']
    rcases e with rfl | rfl
    · left; push_cast; ring
    · right; push_cast; ring
  have stepV : ∀ {n}, VAdj w h i n → FMM.lineG w a b d n = FMM.lineG w a b d i + b ∨ FMM.lineG w a b d n = FMM.lineG w a b d i - b := by
    rintro n ⟨x, y, y', hx, hy, hy', rfl, rfl, e⟩
    rw [FMM.lineG_node hx, FMM.lineG_node hx]
    rcases e with rfl | rfl
    · left; push_cast; ring
    · right; push_cast; ring
  have ho : φ i * φ j < 0 := by rw [hi, hj]; exact hs
  rw [C16_value G hsd hok ha hs', hf]
  have e1 : invSq (crossings (HAdj w h) φ i) = a ^ 2 / FMM.lineG w a b d i ^ 2 := by
    apply invSq_line
    · intro ha0
      rcases ha with ha | ha
      · exact ⟨_, j, ha, ho, rfl⟩
      · have := (hpos j (.inr ha) ho b (stepV ha) hb1).1
        rcases hax with ⟨-, h⟩ | ⟨h, -⟩
        · exact absurd h this
        · exact absurd h ha0
    · rintro _ ⟨n, hn, hon, rfl⟩
      exact hpos n (.inl hn) hon a (stepH hn) ha1
  have e2 : invSq (crossings (VAdj w h) φ i) = b ^ 2 / FMM.lineG w a b d i ^ 2 := by
    apply invSq_line
    · intro hb0
      rcases ha with ha | ha
      · have := (hpos j (.inl ha) ho a (stepH ha) ha1).1
        rcases hax with ⟨-, h⟩ | ⟨h, -⟩
        · exact absurd h hb0
        · exact absurd h this
      · exact ⟨_, j, ha, ho, rfl⟩
    · rintro _ ⟨n, hn, hon, rfl⟩
      exact hpos n (.inr hn) hon b (stepV hn) hb1
  have hab : a ^ 2 + b ^ 2 = 1 := by
    rcases hax with ⟨h1, h2⟩ | ⟨h1, h2⟩
    · rw [h2, ← sq_abs a, h1]; norm_num
    · rw [h1, ← sq_abs b, h2]; norm_num
  rw [e1, e2, ← add_div, hab, Real.sqrt_div zero_le_one, Real.sqrt_one, Real.sqrt_sq_eq_abs, one_div_one_div, hi]
  have hne : FMM.lineG w a b d i ≠ 0 := fun h0 => by rw [h0] at hs; simp at hs
  split_ifs with hneg
  · rw [abs_of_neg hneg]; ring
  · rw [abs_of_pos (lt_of_le_of_ne (not_lt.1 hneg) (Ne.symm hne)), one_mul]

theorem MovedLine.march_contains (M : MovedLine w h φ a b d) (hax : (|a| = 1 ∧ b = 0) ∨ (a = 0 ∧ |b| = 1)) {m : Mesh ℝ} (G : IsGrid w h m) {sd : List ℝ}
    (hsd : sd.length = m.nNodes) (hf : vals sd = φ) {t : Bool} {F : FMM ℝ} (hok : FMM.marchDistance m sd (FMM.new m t) = .ok F) :
    ContainsLine w h (fun x y => vals F.sd (nodeNo w x y)) a b d := by
  refine ⟨fun p hg hq hc => cut_on_line hc ?_, fun x y hx hy he hl => ?_⟩
  · have hn := cut_near hax hc
    have hv : ∀ q ∈ p.ends, φ (nodeNo w q.1 q.2) = FMM.lineG w a b d (nodeNo w q.1 q.2) := fun q hm => by
      rw [FMM.lineG_node (hg q hm).1]; exact M.inner (hg q hm).1 (hg q hm).2 (hq q hm) (hn q hm).1
    have fin : ∀ {x y u v : Nat}, x ≤ w → u ≤ w → Adj w h (nodeNo w x y) (nodeNo w u v) → φ (nodeNo w x y) = FMM.lineG w a b d (nodeNo w x y) →
        φ (nodeNo w u v) = FMM.lineG w a b d (nodeNo w u v) → (a * (x : ℝ) + b * y - d) * (a * (u : ℝ) + b * v - d) < 0 → vals F.sd (nodeNo w x y) = a * x + b * y - d := by
      intro x y u v hx hu ha h1 h2 h3
      rw [M.march hax G hsd hf hok ha h1 h2 (by rw [FMM.lineG_node hx, FMM.lineG_node hu]; exact h3), FMM.lineG_node hx]
    cases p with
    | node x y => exact absurd hc id
    | hor x y =>
      have m1 : (x, y) ∈ (Place.hor x y).ends := by simp [Place.ends]
      have m2 : (x + 1, y) ∈ (Place.hor x y).ends := by simp [Place.ends]
      have a1 : Adj w h (nodeNo w x y) (nodeNo w (x + 1) y) := .inl ⟨x, x + 1, y, (hg _ m1).1, (hg _ m2).1, (hg _ m1).2, rfl, rfl, .inl rfl⟩
      have a2 : Adj w h (nodeNo w (x + 1) y) (nodeNo w x y) := .inl ⟨x + 1, x, y, (hg _ m2).1, (hg _ m1).1, (hg _ m1).2, rfl, rfl, .inr rfl⟩
      have hc' : (a * (x : ℝ) + b * y - d) * (a * ((x + 1 : ℕ) : ℝ) + b * y - d) < 0 := hc
      intro q hm
      simp only [Place.ends, List.mem_cons, List.not_mem_nil, or_false] at hm
      rcases hm with rfl | rfl
      · exact fin (hg _ m1).1 (hg _ m2).1 a1 (hv _ m1) (hv _ m2) hc'
      · exact fin (hg _ m2).1 (hg _ m1).1 a2 (hv _ m2) (hv _ m1) (by rw [mul_comm]; exact hc')
    | ver x y =>
      have m1 : (x, y) ∈ (Place.ver x y).ends := by simp [Place.ends]
      have m2 : (x, y + 1) ∈ (Place.ver x y).ends := by simp [Place.ends]
      have a1 : Adj w h (nodeNo w x y) (nodeNo w x (y + 1)) := .inr ⟨x, y, y + 1, (hg _ m1).1, (hg _ m1).2, (hg _ m2).2, rfl, rfl, .inl rfl⟩
      have a2 : Adj w h (nodeNo w x (y + 1)) (nodeNo w x y) := .inr ⟨x, y + 1, y, (hg _ m1).1, (hg _ m2).2, (hg _ m1).2, rfl, rfl, .inr rfl⟩
      have hc' : (a * (x : ℝ) + b * y - d) * (a * (x : ℝ) + b * ((y + 1 : ℕ) : ℝ) - d) < 0 := hc
      intro q hm
      simp only [Place.ends, List.mem_cons, List.not_mem_nil, or_false] at hm
      rcases hm with rfl | rfl
      · exact fin (hg _ m1).1 (hg _ m2).1 a1 (hv _ m1) (hv _ m2) hc'
      · exact fin (hg _ m2).1 (hg _ m1).1 a2 (hv _ m2) (hv _ m1) (by rw [mul_comm]; exact hc')
  · refine C16_zero G hsd hok (by rw [G.nNodes]; exact nodeNo_lt hx hy) ?_
    rw [hf, M.inner hx hy he (by rw [hl]; simp)]
    linarith

end Slsm
