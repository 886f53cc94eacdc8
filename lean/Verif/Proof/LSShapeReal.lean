import Verif.Proof.LSShape
import Verif.Spec.Shape
import Mathlib.Tactic.Positivity
import Mathlib.Tactic.Linarith
import Mathlib.Tactic.FieldSimp
import Mathlib.Tactic.Ring

/-! Initial shapes over the reals. -/

namespace Slsm

set_option linter.unusedSectionVars false

namespace LevelSet

variable {w h : Nat}

theorem distance_comm (a b : Coord ℝ) : distance a b = distance b a := by
  unfold distance; congr 1; ring

theorem distance_nonneg (a b : Coord ℝ) : 0 ≤ distance a b := Real.sqrt_nonneg _

theorem centreDist_real (c p : Coord ℝ) : centreDist c p = distance c p := by
  unfold centreDist distance; simp [sq]

theorem floor_min (x w : Nat) (hx : x ≤ w) : ⌊min (x : ℝ) ((w : ℝ) - x)⌋₊ = Nat.min x (w - x) := by
  have : (w : ℝ) - x = ((w - x : ℕ) : ℝ) := by rw [Nat.cast_sub hx]
  rw [this, ← Nat.cast_min, Nat.floor_natCast]

theorem edgeVal_real {m : Mesh ℝ} (G : IsGrid w h m) {x y : Nat} (hx : x ≤ w) (hy : y ≤ h) :
    edgeVal m (nodeOf m (nodeNo w x y)) = edgeDist w h x y := by
  have hlt : nodeNo w x y < m.nodes.length := by rw [G.nodes_length]; exact nodeNo_lt hx hy
  have hc := G.coord x y _ hx hy (get_node hlt)
  unfold edgeVal edgeDist
  rw [hc, G.width, G.height]
  simp only [FP.nat_real, FP.floor_real, FP.min_real, FP.sub_real, floor_min x w hx, floor_min y h hy]

theorem node_coord {m : Mesh ℝ} (G : IsGrid w h m) {x y : Nat} (hx : x ≤ w) (hy : y ≤ h) :
    (nodeOf m (nodeNo w x y)).coord = lattice x y := by
  have hlt : nodeNo w x y < m.nodes.length := by rw [G.nodes_length]; exact nodeNo_lt hx hy
  exact G.coord x y _ hx hy (get_node hlt)

theorem holesVal_least (p : Coord ℝ) (holes : List (Hole ℝ)) (v : ℝ) :
    IsLeast ({v} ∪ {d | ∃ hole ∈ holes, d = distance hole.coord p - hole.r}) (holesVal p holes v) := by
  induction holes generalizing v with
  | nil => simp [holesVal, IsLeast, lowerBounds]
  | cons c l ih =>
    have := ih (if FP.lt (FP.sub (centreDist c.coord p) c.r) v then FP.sub (centreDist c.coord p) c.r else v)
    have e : holesVal p (c :: l) v =
        holesVal p l (if FP.lt (FP.sub (centreDist c.coord p) c.r) v then FP.sub (centreDist c.coord p) c.r else v) := rfl
    rw [e]
    simp only [FP.sub_real, FP.lt_real, centreDist_real] at this ⊢
    set d0 := distance c.coord p - c.r with hd0
    have hmin : (if d0 < v then d0 else v) = min d0 v := by
      split
      · rw [min_eq_left (le_of_lt ‹_›)]
      · rw [min_eq_right (not_lt.1 ‹_›)]
    rw [hmin] at this ⊢
    obtain ⟨h1, h2⟩ := this
    constructor
    · rcases h1 with h1 | ⟨hole, hm, h1⟩
      · simp only [Set.mem_singleton_iff] at h1
        rw [h1]
        rcases min_choice d0 v with h | h
        · right; exact ⟨c, by simp, h⟩
        · left; exact h
      · right; exact ⟨hole, by simp [hm], h1⟩
    · intro d hd
      have hm0 := h2 (Set.mem_union_left _ rfl)
      rcases hd with hd | ⟨hole, hm, hd⟩
      · simp only [Set.mem_singleton_iff] at hd
        rw [hd]; exact le_trans hm0 (min_le_right _ _)
      · rcases List.mem_cons.1 hm with rfl | hm
        · rw [hd]; exact le_trans hm0 (min_le_left _ _)
        · exact h2 (Set.mem_union_right _ ⟨hole, hm, hd⟩)

/-- Distance to a segment as computed. -/
theorem pointToLine_long {a b p : Coord ℝ} (hlen : 1 / 1000000 ≤ (b.x - a.x) ^ 2 + (b.y - a.y) ^ 2) :
    IsLeast (segDistances p a b) (pointToLineDistance a b p) := by
  have hr : (0 : ℝ) < (b.x - a.x) * (b.x - a.x) + (b.y - a.y) * (b.y - a.y) := by nlinarith
  have hn : ¬ (b.x - a.x) * (b.x - a.x) + (b.y - a.y) * (b.y - a.y) < 1 / 1000000 := by
    rw [not_lt]; nlinarith
  unfold pointToLineDistance
  simp only [FP.sub_real, FP.mul_real, FP.add_real, FP.div_real, FP.lt_real, FP.lit_real, FP.max_real, FP.min_real,
    FP.nat_real, FP.sqrt_real, Nat.cast_one, Nat.cast_ofNat, Nat.cast_zero]
  rw [if_neg hn]
  set r := (b.x - a.x) * (b.x - a.x) + (b.y - a.y) * (b.y - a.y) with hrdef
  set s := ((p.x - a.x) * (b.x - a.x) + (p.y - a.y) * (b.y - a.y)) / r with hs
  have hsr : s * r = (p.x - a.x) * (b.x - a.x) + (p.y - a.y) * (b.y - a.y) := by
    rw [hs]; field_simp
  constructor
  · refine ⟨max 0 (min 1 s), le_max_left _ _, max_le (by norm_num) (min_le_left _ _), ?_⟩
    unfold distance along
    congr 1; ring
  · rintro d ⟨t, h0, h1, rfl⟩
    unfold distance along
    apply Real.sqrt_le_sqrt
    simp only
    set q := max 0 (min 1 s) with hq
    -- f(t) = |a + t (b - a) - p|^2 = r t^2 - 2 r s t + const
    have key : (q - s) ^ 2 ≤ (t - s) ^ 2 := by
      rcases le_total s 0 with h | h
      · have : q = 0 := by rw [hq, min_eq_right (by linarith), max_eq_left h]
        rw [this]; nlinarith
      · rcases le_total s 1 with h' | h'
        · have : q = s := by rw [hq, min_eq_right h', max_eq_right h]
          rw [this]; nlinarith [sq_nonneg (t - s)]
        · have : q = 1 := by rw [hq, min_eq_left h', max_eq_right (by norm_num)]
          rw [this]; nlinarith
    have e : ∀ u : ℝ, (a.x + u * (b.x - a.x) - p.x) * (a.x + u * (b.x - a.x) - p.x) +
        (a.y + u * (b.y - a.y) - p.y) * (a.y + u * (b.y - a.y) - p.y) =
        r * (u - s) ^ 2 + ((a.x - p.x) ^ 2 + (a.y - p.y) ^ 2 - r * s ^ 2) := by
      intro u
      have : r * (u - s) ^ 2 = r * u ^ 2 - 2 * u * (s * r) + r * s ^ 2 := by ring
      rw [this, hsr, hrdef]; ring
    have e2 : (p.x - (a.x + t * (b.x - a.x))) ^ 2 + (p.y - (a.y + t * (b.y - a.y))) ^ 2 =
        r * (t - s) ^ 2 + ((a.x - p.x) ^ 2 + (a.y - p.y) ^ 2 - r * s ^ 2) := by rw [← e]; ring
    rw [e2, e]
    have := mul_le_mul_of_nonneg_left key hr.le
    linarith

theorem distance_triangle (a b c : Coord ℝ) : distance a c ≤ distance a b + distance b c := by
  unfold distance
  rw [Real.sqrt_le_left (by positivity)]
  set u := Real.sqrt ((a.x - b.x) ^ 2 + (a.y - b.y) ^ 2)
  set v := Real.sqrt ((b.x - c.x) ^ 2 + (b.y - c.y) ^ 2)
  have hu : u ^ 2 = (a.x - b.x) ^ 2 + (a.y - b.y) ^ 2 := Real.sq_sqrt (by positivity)
  have hv : v ^ 2 = (b.x - c.x) ^ 2 + (b.y - c.y) ^ 2 := Real.sq_sqrt (by positivity)
  have hu0 : 0 ≤ u := Real.sqrt_nonneg _
  have hv0 : 0 ≤ v := Real.sqrt_nonneg _
  have hcs : (a.x - b.x) * (b.x - c.x) + (a.y - b.y) * (b.y - c.y) ≤ u * v := by
    apply le_of_sq_le_sq _ (by positivity)
    rw [mul_pow, hu, hv]
    nlinarith [sq_nonneg ((a.x - b.x) * (b.y - c.y) - (a.y - b.y) * (b.x - c.x))]
  nlinarith

theorem pointToLine_short {a b p : Coord ℝ} (hlen : (b.x - a.x) ^ 2 + (b.y - a.y) ^ 2 < 1 / 1000000) :
    pointToLineDistance a b p = distance p a ∧
      ∀ d ∈ segDistances p a b, |pointToLineDistance a b p - d| ≤ 1 / 1000 := by
  have e : pointToLineDistance a b p = distance p a := by
    unfold pointToLineDistance distance
    simp only [FP.sub_real, FP.mul_real, FP.add_real, FP.lt_real, FP.lit_real, FP.sqrt_real, Nat.cast_one, Nat.cast_ofNat]
    rw [if_pos (by nlinarith)]
    congr 1; ring
  refine ⟨e, ?_⟩
  rintro d ⟨t, h0, h1, rfl⟩
  rw [e]
  have hsmall : distance a (along a b t) ≤ 1 / 1000 := by
    unfold distance along
    rw [Real.sqrt_le_left (by norm_num)]
    have h2 : (a.x - (a.x + t * (b.x - a.x))) ^ 2 + (a.y - (a.y + t * (b.y - a.y))) ^ 2 =
        t ^ 2 * ((b.x - a.x) ^ 2 + (b.y - a.y) ^ 2) := by ring
    simp only
    rw [h2]
    have h3 : t ^ 2 ≤ 1 := by nlinarith
    have h4 : 0 ≤ (b.x - a.x) ^ 2 + (b.y - a.y) ^ 2 := by positivity
    nlinarith
  rw [abs_le]
  have t1 := distance_triangle p (along a b t) a
  have t2 := distance_triangle p a (along a b t)
  rw [distance_comm (along a b t) a] at t1
  constructor <;> linarith

theorem pointToLine_nonneg (a b p : Coord ℝ) : 0 ≤ pointToLineDistance a b p := by
  unfold pointToLineDistance
  simp only
  split <;> exact Real.sqrt_nonneg _

theorem polyVal_least (p : Coord ℝ) (vs : List (Coord ℝ)) (v : ℝ) :
    IsLeast ({v} ∪ {d | ∃ s ∈ sides vs, d = pointToLineDistance s.1 s.2 p}) (polyVal p vs v) := by
  match vs with
  | [] => simp [polyVal, IsLeast, lowerBounds, sides]
  | [a] => simp [polyVal, IsLeast, lowerBounds, sides]
  | a :: b :: l =>
    have := polyVal_least p (b :: l) (if FP.lt (pointToLineDistance a b p) v then pointToLineDistance a b p else v)
    rw [polyVal]
    simp only [FP.lt_real] at this ⊢
    have hmin : (if pointToLineDistance a b p < v then pointToLineDistance a b p else v) = min (pointToLineDistance a b p) v := by
      split
      · rw [min_eq_left (le_of_lt ‹_›)]
      · rw [min_eq_right (not_lt.1 ‹_›)]
    rw [hmin] at this ⊢
    have hside : sides (a :: b :: l) = (a, b) :: sides (b :: l) := rfl
    obtain ⟨h1, h2⟩ := this
    constructor
    · rcases h1 with h1 | ⟨s, hm, h1⟩
      · simp only [Set.mem_singleton_iff] at h1
        rw [h1]
        rcases min_choice (pointToLineDistance a b p) v with h | h
        · right; exact ⟨(a, b), by rw [hside]; simp, h⟩
        · left; exact h
      · right; exact ⟨s, by rw [hside]; simp [hm], h1⟩
    · intro d hd
      have hm0 := h2 (Set.mem_union_left _ rfl)
      rcases hd with hd | ⟨s, hm, hd⟩
      · simp only [Set.mem_singleton_iff] at hd
        rw [hd]; exact le_trans hm0 (min_le_right _ _)
      · rw [hside] at hm
        rcases List.mem_cons.1 hm with rfl | hm
        · rw [hd]; exact le_trans hm0 (min_le_left _ _)
        · exact h2 (Set.mem_union_right _ ⟨s, hm, hd⟩)

/-! ### winding -/

/-- The truncation to `int` keeps the sign. -/
def KeepsSign (c : ℝ) : Prop := c = 0 ∨ 1 ≤ |c|

theorem trunc_sign {c : ℝ} (hk : KeepsSign c) : (0 < FP.trunc c ↔ 0 < c) ∧ (FP.trunc c < 0 ↔ c < 0) := by
  rw [FP.trunc_real]
  rcases hk with rfl | hk
  · simp
  · split
    · rename_i h
      rw [abs_of_nonneg h] at hk
      have : 1 ≤ ⌊c⌋ := by rw [Int.le_floor]; simpa using hk
      constructor <;> constructor <;> intro _ <;> first | omega | linarith
    · rename_i h
      rw [not_le] at h
      rw [abs_of_neg h] at hk
      have : ⌈c⌉ ≤ -1 := by rw [Int.ceil_le]; push_cast; linarith
      constructor <;> constructor <;> intro _ <;> first | omega | linarith

theorem isLeft_real (a b p : Coord ℝ) : isLeftOfLine a b p = FP.trunc (cross p a b) := rfl

theorem windStep_real {p a b : Coord ℝ} (hk : (a.y ≤ p.y ↔ p.y < b.y) → KeepsSign (cross p a b)) (n : ℤ) :
    windStep p a b n = n + crossingSign p a b := by
  classical
  unfold windStep crossingSign MeetsRay
  simp only [FP.le_real, FP.lt_real]
  by_cases h1 : a.y ≤ p.y
  · rw [if_pos h1]
    by_cases h2 : p.y < b.y
    · rw [if_pos h2]
      have hs := isLeft_real a b p ▸ trunc_sign (hk (by simp [h1, h2]))
      have hab : a.y < b.y := lt_of_le_of_lt h1 h2
      have hiff : p.x < a.x + (p.y - a.y) / (b.y - a.y) * (b.x - a.x) ↔ 0 < cross p a b := by
        have hpos : 0 < b.y - a.y := by linarith
        have : a.x + (p.y - a.y) / (b.y - a.y) * (b.x - a.x) - p.x = cross p a b / (b.y - a.y) := by
          unfold cross; field_simp; ring
        rw [← sub_pos, this]
        exact div_pos_iff_of_pos_right hpos
      by_cases h3 : 0 < cross p a b
      · rw [if_pos (hs.1.2 h3), if_pos ⟨.inl ⟨h1, h2⟩, hiff.2 h3⟩, if_pos hab]
      · rw [if_neg (fun h => h3 (hs.1.1 h)), if_neg (fun h => h3 (hiff.1 h.2)), add_zero]
    · rw [if_neg h2, if_neg, add_zero]
      rintro ⟨h | h, -⟩
      · exact h2 h.2
      · exact absurd h.2 (not_lt.2 h1)
  · rw [if_neg h1]
    by_cases h2 : b.y ≤ p.y
    · rw [if_pos h2]
      have hs := isLeft_real a b p ▸ trunc_sign (hk (by simp only [h1, false_iff, not_lt]; exact h2))
      rw [not_le] at h1
      have hab : b.y < a.y := lt_of_le_of_lt h2 h1
      have hiff : p.x < a.x + (p.y - a.y) / (b.y - a.y) * (b.x - a.x) ↔ cross p a b < 0 := by
        have hneg : b.y - a.y < 0 := by linarith
        have hne : b.y - a.y ≠ 0 := hneg.ne
        have : a.x + (p.y - a.y) / (b.y - a.y) * (b.x - a.x) - p.x = cross p a b / (b.y - a.y) := by
          unfold cross; field_simp; ring
        rw [← sub_pos, this]
        constructor
        · intro h
          rcases div_pos_iff.1 h with h | h
          · linarith [h.2]
          · exact h.1
        · intro h; exact div_pos_of_neg_of_neg h hneg
      by_cases h3 : cross p a b < 0
      · rw [if_pos (hs.2.2 h3), if_pos ⟨.inr ⟨h2, h1⟩, hiff.2 h3⟩, if_neg (not_lt.2 hab.le)]; rfl
      · rw [if_neg (fun h => h3 (hs.2.1 h)), if_neg (fun h => h3 (hiff.1 h.2)), add_zero]
    · rw [if_neg h2, if_neg, add_zero]
      rintro ⟨h | h, -⟩
      · exact h1 h.1
      · exact h2 h.1

theorem winding_real {p : Coord ℝ} {vs : List (Coord ℝ)}
    (hk : ∀ s ∈ sides vs, (s.1.y ≤ p.y ↔ p.y < s.2.y) → KeepsSign (cross p s.1 s.2)) (n : ℤ) :
    winding p vs n = n + crossingNumber p vs := by
  match vs with
  | [] => simp [winding, crossingNumber, sides]
  | [a] => simp [winding, crossingNumber, sides]
  | a :: b :: l =>
    have hside : sides (a :: b :: l) = (a, b) :: sides (b :: l) := rfl
    rw [winding, windStep_real (hk (a, b) (by rw [hside]; simp)),
      winding_real (vs := b :: l) (fun s hs => hk s (by rw [hside]; simp [hs]))]
    unfold crossingNumber
    rw [hside, List.map_cons, List.sum_cons]
    ring

end LevelSet

end Slsm
