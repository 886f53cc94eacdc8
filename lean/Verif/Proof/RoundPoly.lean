import Verif.Proof.RoundTurn

/-! Rounded arithmetic: the area of the polygon of a cell. -/

namespace Slsm

open FP Rounding Boundary

namespace Area

variable {R : Rounding}

theorem rnd_bound {B K x : ℝ} (hK : 1 ≤ K) (h : |x| ≤ B * K) : |R.rnd x - x| ≤ (B + 1) * (K / 2 ^ 52) := by
  refine (err_le (R := R) x).trans ?_
  have h1 : |x| / 2 ^ 52 ≤ B * K / 2 ^ 52 := div_le_div_of_nonneg_right h (by positivity)
  have h2 : (1 : ℝ) / 2 ^ 80 ≤ K / 2 ^ 52 := by
    rw [div_le_div_iff₀ (by positivity) (by positivity)]
    nlinarith
  have h3 : (B + 1) * (K / 2 ^ 52) = B * K / 2 ^ 52 + K / 2 ^ 52 := by ring
  rw [h3]
  linarith

theorem small_part {K : ℝ} (hK : 1 ≤ K) : K / 2 ^ 52 ≤ K / 1000 := div_le_div_of_nonneg_left (by linarith) (by norm_num) (by norm_num)

/-- One step of the sum over the sides. -/
theorem shoelace_err {K T : ℝ} (hK : 1 ≤ K) {a px py qx qy : R.Num} (hT : |T| ≤ 6 * K) (ha : |a.val - T| ≤ 192 * (K / 2 ^ 52))
    (h1 : |px.val * qy.val| ≤ K) (h2 : |qx.val * py.val| ≤ K) :
    |((a +. px *. qy) -. qx *. py).val - (T + (px.val * qy.val - qx.val * py.val))| ≤ |a.val - T| + 32 * (K / 2 ^ 52) := by
  have hs := small_part hK
  have hK0 : 0 ≤ K / 2 ^ 52 := by positivity
  have e1 := rnd_bound (R := R) (B := 1) hK (x := px.val * qy.val) (by linarith)
  have e2 := rnd_bound (R := R) (B := 1) hK (x := qx.val * py.val) (by linarith)
  have ha' := ha
  rw [abs_le] at h1 h2 e1 e2 hT ha'
  have e3 := rnd_bound (R := R) (B := 8) hK (x := a.val + R.rnd (px.val * qy.val)) (by
    rw [abs_le]
    constructor <;> linarith [e1.1, e1.2, hT.1, hT.2, ha'.1, ha'.2, h1.1, h1.2])
  rw [abs_le] at e3
  have e4 := rnd_bound (R := R) (B := 10) hK (x := R.rnd (a.val + R.rnd (px.val * qy.val)) - R.rnd (qx.val * py.val)) (by
    rw [abs_le]
    constructor <;> linarith [e1.1, e1.2, e2.1, e2.2, e3.1, e3.2, hT.1, hT.2, ha'.1, ha'.2, h1.1, h1.2, h2.1, h2.2])
  rw [abs_le] at e4
  show |R.rnd (R.rnd (a.val + R.rnd (px.val * qy.val)) - R.rnd (qx.val * py.val)) - _| ≤ _
  have l1 := le_abs_self (a.val - T)
  have l2 := neg_abs_le (a.val - T)
  rw [abs_le]
  constructor <;> linarith [e1.1, e1.2, e2.1, e2.2, e3.1, e3.2, e4.1, e4.2]

theorem cross_le {K W H : ℝ} (hWH : W * H ≤ K) {p q : Coord ℝ} (hp : 0 ≤ p.x ∧ p.x ≤ W ∧ 0 ≤ p.y ∧ p.y ≤ H) (hq : 0 ≤ q.x ∧ q.x ≤ W ∧ 0 ≤ q.y ∧ q.y ≤ H) :
    |p.x * q.y| ≤ K ∧ |q.x * p.y| ≤ K ∧ |cross p q| ≤ K := by
  obtain ⟨p1, p2, p3, p4⟩ := hp
  obtain ⟨q1, q2, q3, q4⟩ := hq
  have a0 : 0 ≤ p.x * q.y := mul_nonneg p1 q3
  have a1 : p.x * q.y ≤ K := (mul_le_mul p2 q4 q3 (p1.trans p2)).trans hWH
  have b0 : 0 ≤ q.x * p.y := mul_nonneg q1 p3
  have b1 : q.x * p.y ≤ K := (mul_le_mul q2 p4 p3 (q1.trans q2)).trans hWH
  unfold cross
  refine ⟨by rw [abs_of_nonneg a0]; exact a1, by rw [abs_of_nonneg b0]; exact b1, ?_⟩
  rw [abs_le]
  constructor <;> linarith

theorem take_sum_le {K : ℝ} (hK : 0 ≤ K) {l : List ℝ} (h : ∀ x ∈ l, |x| ≤ K) (i : Nat) : |(l.take i).sum| ≤ i * K := by
  induction i with
  | zero => simp
  | succ i ih =>
    rcases Nat.lt_or_ge i l.length with hi | hi
    · rw [List.take_succ_eq_append_getElem hi, List.sum_append, List.sum_singleton]
      have := abs_add_le (l.take i).sum l[i]
      have := h _ (List.getElem_mem hi)
      push_cast
      linarith
    · rw [List.take_of_length_le (by omega)]
      rw [List.take_of_length_le hi] at ih
      push_cast
      linarith

/-- The sum over the sides of a polygon with at most six vertices. -/
theorem shoelace_rnd {K W H : ℝ} (hK : 1 ≤ K) (hWH : W * H ≤ K) {s r : List (Coord R.Num)} (h6 : s.length ≤ 6)
    (hs : ∀ p ∈ s, 0 ≤ p.x.val ∧ p.x.val ≤ W ∧ 0 ≤ p.y.val ∧ p.y.val ≤ H) :
    ∃ a : R.Num, forN s.length (nat 0) (shoelaceStep (s ++ r) s.length) = .ok a ∧ |a.val - ringSum (s.map valC)| ≤ 192 * (K / 2 ^ 52) ∧
      |ringSum (s.map valC)| ≤ 6 * K := by
  set z := List.zipWith cross (s.map valC) ((s.map valC).rotate 1) with hz
  have hzl : z.length = s.length := by simp [hz]
  have hzK : ∀ x ∈ z, |x| ≤ K := by
    intro x hx
    obtain ⟨i, hi, rfl⟩ := List.mem_iff_getElem.1 hx
    rw [hzl] at hi
    simp only [hz, List.getElem_zipWith, List.getElem_rotate, List.getElem_map]
    exact (cross_le hWH (hs _ (List.getElem_mem _)) (hs _ (List.getElem_mem _))).2.2
  have hT : ∀ i, i ≤ s.length → |(z.take i).sum| ≤ 6 * K := by
    intro i hi
    refine (take_sum_le (by linarith) hzK i).trans ?_
    have : (i : ℝ) ≤ 6 := by exact_mod_cast hi.trans h6
    nlinarith
  have loop : wp (forN s.length (nat 0) (shoelaceStep (s ++ r) s.length))
      (fun a : R.Num => |a.val - (z.take s.length).sum| ≤ s.length * (32 * (K / 2 ^ 52))) noErr := by
    refine wp_forN (fun i (a : R.Num) => |a.val - (z.take i).sum| ≤ i * (32 * (K / 2 ^ 52))) (by simp) ?_
    intro i hi a ha
    have hj : (if i = LevelSet.sub32 s.length 1 then 0 else u32 (i + 1)) = (i + 1) % s.length := by
      rw [sub32_eq (by omega) (by omega)]
      by_cases h : i = s.length - 1
      · rw [if_pos h]
        have : i + 1 = s.length := by omega
        rw [this, Nat.mod_self]
      · rw [if_neg h, u32_of_lt (by omega), Nat.mod_eq_of_lt (by omega)]
    have hj' : (i + 1) % s.length < s.length := Nat.mod_lt _ (by omega)
    unfold shoelaceStep
    rw [hj]
    dsimp only
    rw [rd_of_getElem? (by rw [List.getElem?_append_left hi, List.getElem?_eq_getElem hi]),
      rd_of_getElem? (by rw [List.getElem?_append_left hj', List.getElem?_eq_getElem hj'])]
    rw [wp_bind, wp_ok, wp_bind, wp_ok]
    have hzi : i < z.length := by omega
    rw [List.take_succ_eq_append_getElem hzi, List.sum_append, List.sum_singleton]
    have hzv : z[i] = s[i].x.val * s[(i + 1) % s.length].y.val - s[(i + 1) % s.length].x.val * s[i].y.val := by
      simp only [hz, List.getElem_zipWith, List.getElem_rotate, List.getElem_map, List.length_map]
      rfl
    rw [hzv]
    have hc := cross_le hWH (p := valC s[i]) (q := valC s[(i + 1) % s.length]) (hs _ (List.getElem_mem _)) (hs _ (List.getElem_mem _))
    have hi6 : (i : ℝ) ≤ 6 := by exact_mod_cast (hi.le.trans h6)
    have hK0 : 0 ≤ K / 2 ^ 52 := by positivity
    have := shoelace_err hK (hT i hi.le) (ha.trans (by nlinarith)) hc.1 hc.2.1
    refine le_trans this ?_
    push_cast
    linarith
  obtain ⟨a, e, h⟩ := wp_noErr_iff.1 loop
  have hring : (z.take s.length).sum = ringSum (s.map valC) := by
    rw [List.take_of_length_le (by omega)]
    rfl
  have h6' : (s.length : ℝ) ≤ 6 := by exact_mod_cast h6
  have hK0 : 0 ≤ K / 2 ^ 52 := by positivity
  rw [hring] at h
  refine ⟨a, e, h.trans (by nlinarith), ?_⟩
  rw [← hring]
  exact hT _ le_rfl

theorem half_rnd {K T : ℝ} (hK : 1 ≤ K) (hT : |T| ≤ 6 * K) {a : R.Num} (ha : |a.val - T| ≤ 192 * (K / 2 ^ 52)) :
    |(FP.abs (a *. lit 1 2)).val - (|T / 2|)| ≤ 102 * (K / 2 ^ 52) := by
  have hs := small_part hK
  have hl : (lit 1 2 : R.Num).val = 1 / 2 := by
    show R.rnd (R.rnd (1 : ℕ) / R.rnd (2 : ℕ)) = _
    rw [R.nat 1 (by norm_num), R.nat 2 (by norm_num)]
    have := R.half 1 (by norm_num)
    push_cast at this ⊢
    exact this
  rw [val_abs]
  refine (abs_abs_sub_abs_le _ _).trans ?_
  show |R.rnd (a.val * (lit 1 2 : R.Num).val) - _| ≤ _
  rw [hl]
  rw [abs_le] at hT ha
  have e := rnd_bound (R := R) (B := 5) hK (x := a.val * (1 / 2)) (by
    rw [abs_le]
    constructor <;> linarith [hT.1, hT.2, ha.1, ha.2])
  rw [abs_le] at e
  rw [abs_le]
  constructor <;> linarith [e.1, e.2, ha.1, ha.2]

/-! ### the points of a cell -/

theorem abs_half_cases {m t : ℝ} (h : m ≤ t ∧ t ≤ 1 - m) : |t - 1 / 2| ≤ 1 / 2 - m := by
  rw [abs_le]; constructor <;> linarith [h.1, h.2]

/-- Seen from the centre. -/
noncomputable def offX (τ : Nat → ℝ) : LP → ℝ
  | .c 0 => -1 / 2
  | .c 1 => 1 / 2
  | .c 2 => 1 / 2
  | .c _ => -1 / 2
  | .e 0 => τ 0 - 1 / 2
  | .e 1 => 1 / 2
  | .e 2 => τ 2 - 1 / 2
  | .e _ => -1 / 2

noncomputable def offY (τ : Nat → ℝ) : LP → ℝ
  | .c 0 => -1 / 2
  | .c 1 => -1 / 2
  | .c 2 => 1 / 2
  | .c _ => 1 / 2
  | .e 0 => -1 / 2
  | .e 1 => τ 1 - 1 / 2
  | .e 2 => 1 / 2
  | .e _ => τ 3 - 1 / 2

theorem cellPoint_off (X Y : ℝ) (τ : Nat → ℝ) {p : LP} (hp : p ∈ walkLP) :
    (cellPoint X Y τ p).x - (X + 1 / 2) = offX τ p ∧ (cellPoint X Y τ p).y - (Y + 1 / 2) = offY τ p := by
  simp only [walkLP, List.mem_cons, List.not_mem_nil, or_false] at hp
  rcases hp with rfl | rfl | rfl | rfl | rfl | rfl | rfl | rfl <;> simp only [cellPoint, offX, offY] <;> constructor <;> ring

theorem off_rim {m : ℝ} {τ : Nat → ℝ} (hτ : ∀ j, m ≤ τ j ∧ τ j ≤ 1 - m) {p : LP} (hp : p ∈ walkLP) : OnRim m (offX τ p) (offY τ p) := by
  have h1 : |(1 / 2 : ℝ)| = 1 / 2 := by norm_num
  have h2 : |(-1 / 2 : ℝ)| = 1 / 2 := by norm_num [abs_div]
  have h3 := fun j => abs_half_cases (hτ j)
  simp only [walkLP, List.mem_cons, List.not_mem_nil, or_false] at hp
  rcases hp with rfl | rfl | rfl | rfl | rfl | rfl | rfl | rfl <;> simp only [OnRim, offX, offY, h1, h2, true_or, or_true, true_and, and_true] <;>
    exact .inr (h3 _)

theorem off_apart {m : ℝ} (hm : 0 < m) (hm1 : m ≤ 1 / 2) {τ : Nat → ℝ} (hτ : ∀ j, m ≤ τ j ∧ τ j ≤ 1 - m) {p q : LP} (hp : p ∈ walkLP) (hq : q ∈ walkLP) :
    Apart m (offX τ p) (offY τ p) (offX τ q) (offY τ q) := by
  have h0 := hτ 0
  have h1 := hτ 1
  have h2 := hτ 2
  have h3 := hτ 3
  simp only [walkLP, List.mem_cons, List.not_mem_nil, or_false] at hp hq
  rcases hp with rfl | rfl | rfl | rfl | rfl | rfl | rfl | rfl <;> rcases hq with rfl | rfl | rfl | rfl | rfl | rfl | rfl | rfl <;>
    simp only [Apart, offX, offY] <;> constructor <;> intro g1 g2 <;>
    first
    | (left; rfl)
    | (left; trivial)
    | (right; rw [le_abs]; first | (left; linarith) | (right; linarith))
    | (exfalso; linarith)

theorem cellPoint_box {m : ℝ} (hm : 0 ≤ m) {τ : Nat → ℝ} (hτ : ∀ j, m ≤ τ j ∧ τ j ≤ 1 - m) {X Y : ℝ} (hX : 0 ≤ X) (hY : 0 ≤ Y) {p : LP}
    (hp : p ∈ walkLP) : 0 ≤ (cellPoint X Y τ p).x ∧ (cellPoint X Y τ p).x ≤ X + 1 ∧ 0 ≤ (cellPoint X Y τ p).y ∧ (cellPoint X Y τ p).y ≤ Y + 1 := by
  have h0 := hτ 0
  have h1 := hτ 1
  have h2 := hτ 2
  have h3 := hτ 3
  simp only [walkLP, List.mem_cons, List.not_mem_nil, or_false] at hp
  rcases hp with rfl | rfl | rfl | rfl | rfl | rfl | rfl | rfl <;> simp only [cellPoint] <;> refine ⟨?_, ?_, ?_, ?_⟩ <;> linarith

/-- The area of the polygon. -/
theorem polygon_rnd {m : ℝ} (hm : 1 / 2 ^ 39 ≤ m) (hm1 : m ≤ 1 / 2) {τ : Nat → ℝ} (hτ : ∀ j, m ≤ τ j ∧ τ j ≤ 1 - m) {x y : Nat} {K : ℝ}
    (hK : ((x : ℝ) + 1) * (y + 1) ≤ K) {l : List LP} (hl : ∀ p ∈ l, p ∈ walkLP) (h6 : l.length ≤ 6) {V : LP → Coord R.Num}
    (hV : ∀ p ∈ l, valC (V p) = cellPoint x y τ p) {c : Coord R.Num} (hc : valC c = ⟨x + 1 / 2, y + 1 / 2⟩)
    {v : List (Coord R.Num)} (hn : l.length ≤ v.length) (hv : v.take l.length = l.map V) :
    ∃ a : R.Num, polygonArea v l.length c = .ok a ∧
      |a.val - (|ringSum ((walkLP.filter fun p => decide (p ∈ l)).map (cellPoint x y τ)) / 2|)| ≤ 102 * (K / 2 ^ 52) := by
  have hx0 : (0 : ℝ) ≤ x := by positivity
  have hy0 : (0 : ℝ) ≤ y := by positivity
  have hm0 : 0 < m := lt_of_lt_of_le (by positivity) hm
  have hK1 : 1 ≤ K := le_trans (by nlinarith) hK
  have cx : c.x.val = x + 1 / 2 := congrArg Coord.x hc
  have cy : c.y.val = y + 1 / 2 := congrArg Coord.y hc
  have vx : ∀ p ∈ l, (V p).x.val = (cellPoint x y τ p).x := fun p hp => congrArg Coord.x (hV p hp)
  have vy : ∀ p ∈ l, (V p).y.val = (cellPoint x y τ p).y := fun p hp => congrArg Coord.y (hV p hp)
  have hτ' : ∀ j, 0 < τ j ∧ τ j < 1 := fun j => ⟨by linarith [(hτ j).1], by linarith [(hτ j).2]⟩
  set le : LP → LP → Bool := fun p q => isClockwise ⟨(x : ℝ) + 1 / 2, (y : ℝ) + 1 / 2⟩ (cellPoint x y τ p) (cellPoint x y τ q) with hle
  have s1 : sort (isClockwise c) (l.map V) = (sort le l).map V := by
    refine sort_map V fun p hp q hq => ?_
    have rp := off_rim hτ (hl p hp)
    have rq := off_rim hτ (hl q hq)
    have ap := off_apart hm0 hm1 hτ (hl p hp) (hl q hq)
    obtain ⟨p1, p2⟩ := cellPoint_off (x : ℝ) y τ (hl p hp)
    obtain ⟨q1, q2⟩ := cellPoint_off (x : ℝ) y τ (hl q hq)
    rw [← p1, ← p2] at rp
    rw [← q1, ← q2] at rq
    rw [← p1, ← p2, ← q1, ← q2] at ap
    rw [← vx p hp, ← vy p hp, ← cx, ← cy] at rp
    rw [← vx q hq, ← vy q hq, ← cx, ← cy] at rq
    rw [← vx p hp, ← vy p hp, ← vx q hq, ← vy q hq, ← cx, ← cy] at ap
    rw [isClockwise_rnd hm (by rw [cx, abs_of_nonneg (by positivity)]; linarith) (by rw [cy, abs_of_nonneg (by positivity)]; linarith) rp rq ap,
      hc, hV p hp, hV q hq]
  have s2 : sort (isClockwise ⟨(x : ℝ) + 1 / 2, (y : ℝ) + 1 / 2⟩) (l.map (cellPoint x y τ)) = (sort le l).map (cellPoint x y τ) :=
    sort_map _ fun p _ q _ => rfl
  have hperm := sort_perm le l
  have hring : ringSum (((sort le l).map V).map valC) = ringSum ((walkLP.filter fun p => decide (p ∈ l)).map (cellPoint x y τ)) := by
    rw [← ringSum_sort hτ' hl, s2, List.map_map]
    congr 1
    exact List.map_congr_left fun p hp => hV p (hperm.mem_iff.1 hp)
  have hlen : ((sort le l).map V).length = l.length := by rw [List.length_map, hperm.length_eq]
  obtain ⟨a, e, h1, h2⟩ := shoelace_rnd (r := v.drop l.length) hK1 hK (s := (sort le l).map V) (by rw [hlen]; exact h6) (by
    intro p hp
    obtain ⟨q, hq, rfl⟩ := List.mem_map.1 hp
    have hq' := hperm.mem_iff.1 hq
    rw [vx q hq', vy q hq']
    exact cellPoint_box hm0.le hτ hx0 hy0 (hl q hq'))
  rw [hring] at h1 h2
  rw [hlen] at e
  refine ⟨FP.abs (a *. lit 1 2), ?_, half_rnd hK1 h2 h1⟩
  unfold polygonArea
  rw [if_neg (Nat.not_lt.2 hn), hv, s1]
  dsimp only
  rw [e]
  rfl

end Area

end Slsm
