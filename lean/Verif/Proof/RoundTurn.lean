import Verif.Proof.RoundTame
import Verif.Proof.AreaSpec

/-! Rounded arithmetic: the comparison of the area fractions decides like exact arithmetic, and the sum over the sides of a polygon. -/

namespace Slsm

open FP Rounding

namespace Area

/-! ### signs survive -/

/-- `y` is `x` up to a relative error. -/
def Rel (u x y : ℝ) : Prop := |y - x| ≤ |x| * u

theorem Rel.zero {u y : ℝ} (h : Rel u 0 y) : y = 0 := by
  unfold Rel at h
  rw [abs_zero, zero_mul, sub_zero] at h
  exact abs_eq_zero.1 (le_antisymm h (abs_nonneg _))

theorem Rel.pos {u x y : ℝ} (h : Rel u x y) (hu : u ≤ 1 / 2) (hx : 0 < x) : x / 2 ≤ y := by
  unfold Rel at h
  rw [abs_of_pos hx, abs_le] at h
  nlinarith [h.1]

theorem Rel.neg {u x y : ℝ} (h : Rel u x y) (hu : u ≤ 1 / 2) (hx : x < 0) : y ≤ x / 2 := by
  unfold Rel at h
  rw [abs_of_neg hx, abs_le] at h
  nlinarith [h.2]

theorem Rel.lt_zero {u x y : ℝ} (h : Rel u x y) (hu : u ≤ 1 / 2) : y < 0 ↔ x < 0 := by
  rcases lt_trichotomy x 0 with hx | rfl | hx
  · exact ⟨fun _ => hx, fun _ => by have := h.neg hu hx; linarith⟩
  · rw [h.zero]
  · have := h.pos hu hx
    constructor <;> intro <;> linarith

theorem Rel.eq_zero {u x y : ℝ} (h : Rel u x y) (hu : u ≤ 1 / 2) : y = 0 ↔ x = 0 := by
  rcases lt_trichotomy x 0 with hx | rfl | hx
  · have := h.neg hu hx
    constructor <;> intro <;> linarith
  · rw [h.zero]
  · have := h.pos hu hx
    constructor <;> intro <;> linarith

theorem Rel.mul {u v x y x' y' : ℝ} (h : Rel u x x') (k : Rel v y y') (hu : 0 ≤ u) (hv : 0 ≤ v) : Rel (u + v + u * v) (x * y) (x' * y') := by
  unfold Rel at *
  have e : x' * y' - x * y = (x' - x) * y + x * (y' - y) + (x' - x) * (y' - y) := by ring
  rw [e, abs_mul x y]
  have h1 := abs_add_le ((x' - x) * y + x * (y' - y)) ((x' - x) * (y' - y))
  have h2 := abs_add_le ((x' - x) * y) (x * (y' - y))
  rw [abs_mul, abs_mul] at h2
  rw [abs_mul (x' - x) (y' - y)] at h1
  have a1 : |x' - x| * |y| ≤ |x| * u * |y| := mul_le_mul_of_nonneg_right h (abs_nonneg _)
  have a2 : |x| * |y' - y| ≤ |x| * (|y| * v) := mul_le_mul_of_nonneg_left k (abs_nonneg _)
  have a3 : |x' - x| * |y' - y| ≤ (|x| * u) * (|y| * v) := mul_le_mul h k (abs_nonneg _) (by positivity)
  nlinarith

variable {R : Rounding}

theorem rnd_zero : R.rnd 0 = 0 := by
  have := R.nat 0 (by norm_num)
  simpa using this

/-- Rounding of a number that is zero or not tiny. -/
theorem rnd_rel {x : ℝ} (h : x = 0 ∨ 1 / 2 ^ 200 ≤ |x|) : Rel (1 / 2 ^ 51) x (R.rnd x) := by
  unfold Rel
  rcases h with rfl | h
  · rw [rnd_zero]; simp
  · refine (R.err x).trans ?_
    have : (1 : ℝ) / 2 ^ 1074 ≤ 1 / 2 ^ 252 := div_le_div_of_nonneg_left (by norm_num) (by positivity) (pow_le_pow_right₀ (by norm_num) (by norm_num))
    have h2 : (1 : ℝ) / 2 ^ 252 = (1 / 2 ^ 200) / 2 ^ 52 := by norm_num
    have h3 : (1 : ℝ) / 2 ^ 200 / 2 ^ 52 ≤ |x| / 2 ^ 52 := div_le_div_of_nonneg_right h (by positivity)
    have h4 : |x| * (1 / 2 ^ 51) = |x| / 2 ^ 52 + |x| / 2 ^ 52 := by rw [pow_succ (2 : ℝ) 51]; ring
    rw [h4]
    linarith

theorem Rel.trans {u v x y z : ℝ} (h : Rel u x y) (k : Rel v y z) (hv : 0 ≤ v) : Rel (u + v + u * v) x z := by
  unfold Rel at *
  have e : z - x = (z - y) + (y - x) := by ring
  rw [e]
  have h1 := abs_add_le (z - y) (y - x)
  have h2 : |y| ≤ |x| + |x| * u := by
    have := abs_add_le (y - x) x
    rw [sub_add_cancel] at this
    linarith
  have h3 : |y| * v ≤ (|x| + |x| * u) * v := mul_le_mul_of_nonneg_right h2 hv
  nlinarith

theorem Rel.weaken {u v x y : ℝ} (h : Rel u x y) (huv : u ≤ v) : Rel v x y := by
  unfold Rel at *
  exact h.trans (mul_le_mul_of_nonneg_left huv (abs_nonneg _))

/-- The difference of a coordinate and the centre of a cell. -/
theorem diff_rel {a c : R.Num} (hc : 1 / 4 ≤ |c.val|) :
    (a.val - c.val = 0 ∨ 1 / 2 ^ 60 ≤ |a.val - c.val|) ∧ Rel (1 / 2 ^ 51) (a.val - c.val) (a -. c).val := by
  have h : a.val - c.val = 0 ∨ 1 / 2 ^ 60 ≤ |a.val - c.val| := by
    by_cases e : c.val = a.val
    · left; rw [e, sub_self]
    · right
      rw [abs_sub_comm]
      exact R.gap _ _ c.fix a.fix hc e
  refine ⟨h, rnd_rel (h.imp_right fun h => le_trans ?_ h)⟩
  exact div_le_div_of_nonneg_left (by norm_num) (by positivity) (pow_le_pow_right₀ (by norm_num) (by norm_num))

/-- A product of two such differences. -/
theorem prod_rel {a b : R.Num} {x y : ℝ} (hx : x = 0 ∨ 1 / 2 ^ 60 ≤ |x|) (hy : y = 0 ∨ 1 / 2 ^ 60 ≤ |y|) (ha : Rel (1 / 2 ^ 51) x a.val)
    (hb : Rel (1 / 2 ^ 51) y b.val) : (x * y = 0 ∨ 1 / 2 ^ 120 ≤ |x * y|) ∧ Rel (1 / 2 ^ 49) (x * y) (a *. b).val := by
  have hm : Rel (1 / 2 ^ 51 + 1 / 2 ^ 51 + 1 / 2 ^ 51 * (1 / 2 ^ 51)) (x * y) (a.val * b.val) := ha.mul hb (by positivity) (by positivity)
  have h : x * y = 0 ∨ 1 / 2 ^ 120 ≤ |x * y| := by
    rcases hx with rfl | hx
    · left; ring
    rcases hy with rfl | hy
    · left; ring
    right
    rw [abs_mul, show (1 : ℝ) / 2 ^ 120 = 1 / 2 ^ 60 * (1 / 2 ^ 60) by norm_num]
    exact mul_le_mul hx hy (by positivity) (abs_nonneg _)
  refine ⟨h, ?_⟩
  have hr : Rel (1 / 2 ^ 51) (a.val * b.val) (a *. b).val := by
    refine rnd_rel ?_
    rcases h with h | h
    · left
      rw [h] at hm
      exact hm.zero
    · right
      unfold Rel at hm
      have h1 := abs_sub_abs_le_abs_sub (x * y) (a.val * b.val)
      rw [abs_sub_comm] at h1
      have h2 : |x * y| * (1 / 2 ^ 51 + 1 / 2 ^ 51 + 1 / 2 ^ 51 * (1 / 2 ^ 51)) ≤ |x * y| * (1 / 2) :=
        mul_le_mul_of_nonneg_left (by norm_num) (abs_nonneg _)
      have h3 : (1 : ℝ) / 2 ^ 200 ≤ 1 / 2 ^ 120 / 2 := by norm_num
      have h4 : (1 : ℝ) / 2 ^ 120 / 2 ≤ |x * y| / 2 := by linarith
      linarith
  refine (hm.trans hr (by positivity)).weaken ?_
  norm_num

theorem abs_half_pos {x : ℝ} (h : x = 0 ∨ 1 / 2 ^ 120 ≤ |x|) (hx : 0 < x) : 1 / 2 ^ 120 ≤ x := by
  rcases h with h | h
  · linarith
  · rwa [abs_of_pos hx] at h

/-- The sign of the determinant. -/
theorem det_sign {a b : R.Num} {A B : ℝ} (hA : A = 0 ∨ 1 / 2 ^ 120 ≤ |A|) (hB : B = 0 ∨ 1 / 2 ^ 120 ≤ |B|) (ha : Rel (1 / 2 ^ 49) A a.val)
    (hb : Rel (1 / 2 ^ 49) B b.val) (bA : |A| ≤ 1) (bB : |B| ≤ 1) (hg : 0 < A * B → (A = B ∧ a = b) ∨ 1 / 2 ^ 40 ≤ |A - B|) :
    (a -. b).val < 0 ↔ A - B < 0 := by
  have hu : (1 : ℝ) / 2 ^ 49 ≤ 1 / 2 := by norm_num
  show R.rnd (a.val - b.val) < 0 ↔ _
  rcases le_or_gt (A * B) 0 with hs | hs
  · constructor
    · intro h
      by_contra hn
      rw [not_lt] at hn
      have h1 : 0 ≤ A := by nlinarith
      have h2 : B ≤ 0 := by nlinarith
      have a1 : 0 ≤ a.val := by
        by_contra h'
        have := (ha.lt_zero hu).1 (not_le.1 h')
        linarith
      have b1 : b.val ≤ 0 := by
        rcases h2.lt_or_eq with h2 | h2
        · exact ((hb.lt_zero hu).2 h2).le
        · rw [h2] at hb; exact hb.zero.le
      have := Rounding.rnd_nonneg (R := R) (x := a.val - b.val) (by linarith)
      linarith
    · intro h
      have h1 : A ≤ 0 := by nlinarith
      have h2 : 0 ≤ B := by nlinarith
      have a1 : a.val ≤ A / 2 := by
        rcases h1.lt_or_eq with h1 | h1
        · exact ha.neg hu h1
        · rw [h1] at ha ⊢; rw [ha.zero]; norm_num
      have b1 : B / 2 ≤ b.val := by
        rcases h2.lt_or_eq with h2 | h2
        · exact hb.pos hu h2
        · rw [← h2] at hb ⊢; rw [hb.zero]; norm_num
      have h3 : 1 / 2 ^ 120 ≤ B - A := by
        rcases h1.lt_or_eq with h1 | h1
        · rcases hA with hA | hA
          · linarith
          · rw [abs_of_neg h1] at hA; linarith
        · have hB' : 0 < B := by linarith
          rcases hB with hB | hB
          · linarith
          · rw [abs_of_pos hB'] at hB; linarith
      have h4 : a.val - b.val ≤ -(1 / 2 ^ 121) := by
        have : (1 : ℝ) / 2 ^ 121 = 1 / 2 ^ 120 / 2 := by norm_num
        rw [this]; linarith
      have hr := rnd_rel (R := R) (x := a.val - b.val) (.inr (by
        rw [abs_of_nonpos (by have : (0 : ℝ) ≤ 1 / 2 ^ 121 := by positivity
                              linarith)]
        have : (1 : ℝ) / 2 ^ 200 ≤ 1 / 2 ^ 121 := by norm_num
        linarith))
      exact (hr.lt_zero (by norm_num)).2 (by have : (0 : ℝ) < 1 / 2 ^ 121 := by positivity
                                             linarith)
  · rcases hg hs with ⟨h1, h2⟩ | hg
    · rw [h1, h2, sub_self, sub_self, rnd_zero]
    · unfold Rel at ha hb
      have e1 : |a.val - A| ≤ 1 / 2 ^ 49 := ha.trans (by nlinarith [abs_nonneg A, (by positivity : (0 : ℝ) ≤ 1 / 2 ^ 49)])
      have e2 : |b.val - B| ≤ 1 / 2 ^ 49 := hb.trans (by nlinarith [abs_nonneg B, (by positivity : (0 : ℝ) ≤ 1 / 2 ^ 49)])
      have e3 := err_le (R := R) (a.val - b.val)
      rw [abs_le] at e1 e2 bA bB
      have e4 : |a.val - b.val| ≤ 4 := by
        rw [abs_le]
        have : (1 : ℝ) / 2 ^ 49 ≤ 1 := by norm_num
        constructor <;> linarith [e1.1, e1.2, e2.1, e2.2, bA.1, bA.2, bB.1, bB.2]
      have e5 : |a.val - b.val| / 2 ^ 52 ≤ 4 / 2 ^ 52 := div_le_div_of_nonneg_right e4 (by positivity)
      have e6 : |R.rnd (a.val - b.val) - (a.val - b.val)| ≤ 4 / 2 ^ 52 + 1 / 2 ^ 80 := by linarith
      rw [abs_le] at e6
      have k1 : (4 : ℝ) / 2 ^ 52 + 1 / 2 ^ 80 + 1 / 2 ^ 49 + 1 / 2 ^ 49 < 1 / 2 ^ 40 := by norm_num
      rw [le_abs] at hg
      constructor
      · intro h
        rcases hg with hg | hg
        · linarith [e6.1, e1.1, e2.2]
        · have : (0 : ℝ) < 1 / 2 ^ 40 := by positivity
          linarith
      · intro h
        rcases hg with hg | hg
        · have : (0 : ℝ) < 1 / 2 ^ 40 := by positivity
          linarith
        · linarith [e6.2, e1.2, e2.1]

/-! ### points of the rim of a cell -/

/-- Seen from the centre of a cell, a corner or a point on an edge that keeps `m` away from the corners. -/
def OnRim (m a b : ℝ) : Prop :=
  (|a| = 1 / 2 ∨ |a| ≤ 1 / 2 - m) ∧ (|b| = 1 / 2 ∨ |b| ≤ 1 / 2 - m) ∧ (|a| = 1 / 2 ∨ |b| = 1 / 2)

/-- Two points of the rim that are equal or, if they are on the same side of the cell, at least `m` apart. -/
def Apart (m a b c d : ℝ) : Prop :=
  (a = c → |a| = 1 / 2 → b = d ∨ m ≤ |b - d|) ∧ (b = d → |b| = 1 / 2 → a = c ∨ m ≤ |a - c|)

theorem abs_mul_cases {a c : ℝ} (h : 0 < a * c) : (0 < a ∧ 0 < c) ∨ (a < 0 ∧ c < 0) := mul_pos_iff.1 h

theorem rim_gap_pos {m a b c d : ℝ} (hm : 0 < m) (hp : OnRim m a b) (hq : OnRim m c d) (hg : Apart m a b c d) (a0 : 0 < a) (b0 : 0 < b)
    (c0 : 0 < c) (d0 : 0 < d) : (a = c ∧ b = d) ∨ m / 2 ≤ |a * d - c * b| := by
  obtain ⟨p1, p2, p3⟩ := hp
  obtain ⟨q1, q2, q3⟩ := hq
  obtain ⟨g1, g2⟩ := hg
  rw [abs_of_pos a0] at p1 p3 g1
  rw [abs_of_pos b0] at p2 p3 g2
  rw [abs_of_pos c0] at q1 q3
  rw [abs_of_pos d0] at q2 q3
  have ale : a ≤ 1 / 2 := by rcases p1 with h | h <;> linarith
  have ble : b ≤ 1 / 2 := by rcases p2 with h | h <;> linarith
  have cle : c ≤ 1 / 2 := by rcases q1 with h | h <;> linarith
  have dle : d ≤ 1 / 2 := by rcases q2 with h | h <;> linarith
  have same1 : a = 1 / 2 → c = 1 / 2 → (a = c ∧ b = d) ∨ m / 2 ≤ |a * d - c * b| := by
    intro e1 e2
    rcases g1 (by rw [e1, e2]) e1 with h | h
    · exact .inl ⟨by rw [e1, e2], h⟩
    · right
      rw [e1, e2, show (1 / 2 : ℝ) * d - 1 / 2 * b = -(1 / 2) * (b - d) by ring, abs_mul]
      norm_num
      linarith
  have same2 : b = 1 / 2 → d = 1 / 2 → (a = c ∧ b = d) ∨ m / 2 ≤ |a * d - c * b| := by
    intro e1 e2
    rcases g2 (by rw [e1, e2]) e1 with h | h
    · exact .inl ⟨h, by rw [e1, e2]⟩
    · right
      rw [e1, e2, show a * (1 / 2 : ℝ) - c * (1 / 2) = 1 / 2 * (a - c) by ring, abs_mul]
      norm_num
      linarith
  rcases p3 with e1 | e1 <;> rcases q3 with e2 | e2
  · exact same1 e1 e2
  · rcases q1 with h | h
    · exact same1 e1 h
    · right
      refine le_trans ?_ (le_abs_self _)
      rw [e1, e2]
      nlinarith
  · rcases p1 with h | h
    · exact same1 h e2
    · right
      refine le_trans ?_ (neg_le_abs _)
      rw [e1, e2]
      nlinarith
  · exact same2 e1 e2

/-- Different points of the rim in the same quarter of the cell have a determinant that is not small. -/
theorem rim_gap {m a b c d : ℝ} (hm : 0 < m) (hp : OnRim m a b) (hq : OnRim m c d) (hg : Apart m a b c d) (hac : 0 < a * c) (hbd : 0 < b * d) :
    (a = c ∧ b = d) ∨ m / 2 ≤ |a * d - c * b| := by
  have na : ∀ {a b}, OnRim m a b → OnRim m (-a) b := fun h => by unfold OnRim at *; rwa [abs_neg]
  have nb : ∀ {a b}, OnRim m a b → OnRim m a (-b) := fun h => by unfold OnRim at *; rwa [abs_neg]
  have ga : ∀ {a b c d}, Apart m a b c d → Apart m (-a) b (-c) d := fun h => by
    unfold Apart at *
    rw [abs_neg, neg_inj, show ∀ x y : ℝ, -x - -y = -(x - y) from fun x y => by ring, abs_neg]
    exact h
  have gb : ∀ {a b c d}, Apart m a b c d → Apart m a (-b) c (-d) := fun h => by
    unfold Apart at *
    rw [abs_neg, neg_inj, show ∀ x y : ℝ, -x - -y = -(x - y) from fun x y => by ring, abs_neg]
    exact h
  rcases abs_mul_cases hac with ⟨h1, h2⟩ | ⟨h1, h2⟩ <;> rcases abs_mul_cases hbd with ⟨h3, h4⟩ | ⟨h3, h4⟩
  · exact rim_gap_pos hm hp hq hg h1 h3 h2 h4
  · rcases rim_gap_pos hm (nb hp) (nb hq) (gb hg) h1 (neg_pos.2 h3) h2 (neg_pos.2 h4) with ⟨e1, e2⟩ | h
    · exact .inl ⟨e1, neg_inj.1 e2⟩
    · right
      rw [show a * -d - c * -b = -(a * d - c * b) by ring, abs_neg] at h
      exact h
  · rcases rim_gap_pos hm (na hp) (na hq) (ga hg) (neg_pos.2 h1) h3 (neg_pos.2 h2) h4 with ⟨e1, e2⟩ | h
    · exact .inl ⟨neg_inj.1 e1, e2⟩
    · right
      rw [show -a * d - -c * b = -(a * d - c * b) by ring, abs_neg] at h
      exact h
  · rcases rim_gap_pos hm (na (nb hp)) (na (nb hq)) (ga (gb hg)) (neg_pos.2 h1) (neg_pos.2 h3) (neg_pos.2 h2) (neg_pos.2 h4) with ⟨e1, e2⟩ | h
    · exact .inl ⟨neg_inj.1 e1, neg_inj.1 e2⟩
    · right
      rw [show -a * -d - -c * -b = a * d - c * b by ring] at h
      exact h

/-- The values of coordinates. -/
def valC (c : Coord R.Num) : Coord ℝ := ⟨c.x.val, c.y.val⟩

/-- The comparison decides like exact arithmetic on points of the rim of a cell. -/
theorem isClockwise_rnd {m : ℝ} (hm : 1 / 2 ^ 39 ≤ m) {c p q : Coord R.Num} (hx : 1 / 4 ≤ |c.x.val|) (hy : 1 / 4 ≤ |c.y.val|)
    (hp : OnRim m (p.x.val - c.x.val) (p.y.val - c.y.val)) (hq : OnRim m (q.x.val - c.x.val) (q.y.val - c.y.val))
    (hg : Apart m (p.x.val - c.x.val) (p.y.val - c.y.val) (q.x.val - c.x.val) (q.y.val - c.y.val)) :
    isClockwise c p q = isClockwise (valC c) (valC p) (valC q) := by
  have hm0 : 0 < m := lt_of_lt_of_le (by positivity) hm
  have hu : (1 : ℝ) / 2 ^ 51 ≤ 1 / 2 := by norm_num
  obtain ⟨zpx, rpx⟩ := diff_rel (a := p.x) hx
  obtain ⟨zpy, rpy⟩ := diff_rel (a := p.y) hy
  obtain ⟨zqx, rqx⟩ := diff_rel (a := q.x) hx
  obtain ⟨zqy, rqy⟩ := diff_rel (a := q.y) hy
  obtain ⟨zA, rA⟩ := prod_rel zpx zqy rpx rqy
  obtain ⟨zB, rB⟩ := prod_rel zqx zpy rqx rpy
  have one : ∀ {a b : ℝ}, OnRim m a b → |a| ≤ 1 / 2 ∧ |b| ≤ 1 / 2 := by
    rintro a b ⟨h1, h2, -⟩
    exact ⟨by rcases h1 with h | h <;> linarith, by rcases h2 with h | h <;> linarith⟩
  have bA : |(p.x.val - c.x.val) * (q.y.val - c.y.val)| ≤ 1 := by
    rw [abs_mul]
    have h1 := (one hp).1
    have h2 := (one hq).2
    nlinarith [abs_nonneg (p.x.val - c.x.val), abs_nonneg (q.y.val - c.y.val)]
  have bB : |(q.x.val - c.x.val) * (p.y.val - c.y.val)| ≤ 1 := by
    rw [abs_mul]
    have h1 := (one hq).1
    have h2 := (one hp).2
    nlinarith [abs_nonneg (q.x.val - c.x.val), abs_nonneg (p.y.val - c.y.val)]
  have det : ((p.x.val - c.x.val < 0 ∧ q.x.val - c.x.val < 0) ∨ (0 ≤ p.x.val - c.x.val ∧ 0 ≤ q.x.val - c.x.val)) →
      (((p.x -. c.x) *. (q.y -. c.y) -. (q.x -. c.x) *. (p.y -. c.y)).val < 0 ↔
        (p.x.val - c.x.val) * (q.y.val - c.y.val) - (q.x.val - c.x.val) * (p.y.val - c.y.val) < 0) := by
    intro hh
    refine det_sign zA zB rA rB bA bB fun hs => ?_
    have hac : 0 ≤ (p.x.val - c.x.val) * (q.x.val - c.x.val) := by
      rcases hh with ⟨h1, h2⟩ | ⟨h1, h2⟩ <;> nlinarith
    have hprod : 0 < ((p.x.val - c.x.val) * (q.x.val - c.x.val)) * ((p.y.val - c.y.val) * (q.y.val - c.y.val)) := by
      rw [show ((p.x.val - c.x.val) * (q.x.val - c.x.val)) * ((p.y.val - c.y.val) * (q.y.val - c.y.val)) =
        (p.x.val - c.x.val) * (q.y.val - c.y.val) * ((q.x.val - c.x.val) * (p.y.val - c.y.val)) by ring]
      exact hs
    have hac' : 0 < (p.x.val - c.x.val) * (q.x.val - c.x.val) := lt_of_le_of_ne hac fun h => by rw [← h, zero_mul] at hprod; exact lt_irrefl _ hprod
    have hbd' : 0 < (p.y.val - c.y.val) * (q.y.val - c.y.val) := (mul_pos_iff_of_pos_left hac').1 hprod
    rcases rim_gap hm0 hp hq hg hac' hbd' with ⟨e1, e2⟩ | h
    · left
      have f1 : p.x = q.x := num_ext (by linarith)
      have f2 : p.y = q.y := num_ext (by linarith)
      rw [f1, f2]
      exact ⟨rfl, rfl⟩
    · right
      refine le_trans ?_ h
      refine le_trans ?_ (div_le_div_of_nonneg_right hm (by norm_num))
      norm_num
  have lt0 : ∀ (a : R.Num) (x : ℝ), Rel (1 / 2 ^ 51) x a.val → (a <. nat 0) = decide (x < 0) := by
    intro a x h
    rw [Bool.eq_iff_iff, lt_iff, decide_eq_true_iff, val_zero]
    exact h.lt_zero hu
  have le0 : ∀ (a : R.Num) (x : ℝ), Rel (1 / 2 ^ 51) x a.val → (nat 0 ≤. a) = decide (0 ≤ x) := by
    intro a x h
    rw [Bool.eq_iff_iff, le_iff, decide_eq_true_iff, val_zero, ← not_lt, ← not_lt, h.lt_zero hu]
  have eq0 : ∀ (a : R.Num) (x : ℝ), Rel (1 / 2 ^ 51) x a.val → (a =. nat 0) = decide (x = 0) := by
    intro a x h
    rw [Bool.eq_iff_iff, eq_iff, decide_eq_true_iff, val_zero]
    exact h.eq_zero hu
  rw [Bool.eq_iff_iff, isClockwise_iff]
  unfold isClockwise valC
  rw [lt0 _ _ rpx, lt0 _ _ rqx, le0 _ _ rpx, le0 _ _ rqx, eq0 _ _ rpx, eq0 _ _ rqx, le0 _ _ rpy, le0 _ _ rqy]
  dsimp only
  by_cases h1 : 0 ≤ p.x.val - c.x.val ∧ q.x.val - c.x.val < 0
  · rw [if_pos (by simpa using h1)]; simp [h1]
  rw [if_neg (by simpa using h1)]
  by_cases h2 : p.x.val - c.x.val < 0 ∧ 0 ≤ q.x.val - c.x.val
  · rw [if_pos (by simpa using h2)]; exact ⟨fun _ => ⟨h1, .inl h2⟩, fun _ => rfl⟩
  rw [if_neg (by simpa using h2)]
  by_cases h3 : p.x.val - c.x.val = 0 ∧ q.x.val - c.x.val = 0
  · rw [if_pos (by simpa using h3)]
    by_cases h4 : 0 ≤ p.y.val - c.y.val ∨ 0 ≤ q.y.val - c.y.val
    · rw [if_pos (by simpa using h4), Bool.not_eq_true', lt_false]
      refine ⟨fun h => ⟨h1, .inr (.inl ⟨h3.1, h3.2, .inl ⟨h4, h⟩⟩)⟩, ?_⟩
      rintro ⟨-, h | ⟨-, -, h | h⟩ | ⟨h, -⟩⟩
      · exact absurd h h2
      · exact h.2
      · exact absurd h4 h.1
      · exact absurd h3 h
    · rw [if_neg (by simpa using h4), Bool.not_eq_true', lt_false]
      refine ⟨fun h => ⟨h1, .inr (.inl ⟨h3.1, h3.2, .inr ⟨h4, h⟩⟩)⟩, ?_⟩
      rintro ⟨-, h | ⟨-, -, h | h⟩ | ⟨h, -⟩⟩
      · exact absurd h h2
      · exact absurd h.1 h4
      · exact h.2
      · exact absurd h3 h
  · rw [if_neg (by simpa using h3), Bool.not_eq_true', Bool.eq_false_iff, Ne, lt_iff, val_zero, det, not_lt]
    · refine ⟨fun h => ⟨h1, .inr (.inr ⟨h3, h⟩)⟩, ?_⟩
      rintro ⟨-, h | ⟨h, h', -⟩ | ⟨-, h⟩⟩
      · exact absurd h h2
      · exact absurd ⟨h, h'⟩ h3
      · exact h
    · rcases lt_or_ge (p.x.val - c.x.val) 0 with g1 | g1 <;> rcases lt_or_ge (q.x.val - c.x.val) 0 with g2 | g2
      · exact .inl ⟨g1, g2⟩
      · exact absurd ⟨g1, g2⟩ h2
      · exact absurd ⟨g1, g2⟩ h1
      · exact .inr ⟨g1, g2⟩

end Area

end Slsm
