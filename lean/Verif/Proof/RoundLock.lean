import Verif.Proof.RoundBnd
import Verif.Proof.Lock
import Verif.Proof.BndRep

/-! Rounded arithmetic decides like exact arithmetic when the contour keeps away from the ends of cut edges. -/

namespace Slsm

open FP

/-- The lattice point, or a point of the edge at least `m` away from its ends. -/
def Place.within (m a b : ℝ) : Place → Prop
  | .node x y => a = x ∧ b = y
  | .hor x y => x + m ≤ a ∧ a ≤ x + 1 - m ∧ b = y
  | .ver x y => a = x ∧ y + m ≤ b ∧ b ≤ y + 1 - m

theorem int_gap {m a : ℝ} {x u : ℕ} (h1 : x + m ≤ a) (h2 : a ≤ x + 1 - m) : m ≤ |a - u| := by
  rcases Nat.lt_or_ge x u with h | h
  · have : (x : ℝ) + 1 ≤ u := by exact_mod_cast h
    exact le_trans (by linarith) (neg_le_abs _)
  · have : (u : ℝ) ≤ x := by exact_mod_cast h
    exact le_trans (by linarith) (le_abs_self _)

theorem gap_int {m a : ℝ} {x u : ℕ} (h1 : x + m ≤ a) (h2 : a ≤ x + 1 - m) : m ≤ |u - a| := by
  rw [abs_sub_comm]; exact int_gap h1 h2

theorem ints_gap {m : ℝ} (hm : m ≤ 1) {x u : ℕ} (h : x ≠ u) : m ≤ |(x : ℝ) - u| := by
  rcases Nat.lt_or_ge x u with h' | h'
  · have : (x : ℝ) + 1 ≤ u := by exact_mod_cast h'
    exact le_trans (by linarith) (neg_le_abs _)
  · have : (u : ℝ) + 1 ≤ x := by exact_mod_cast (by omega : u + 1 ≤ x)
    exact le_trans (by linarith) (le_abs_self _)

theorem gaps {m a a' : ℝ} (hm : 0 ≤ m) {x u : ℕ} (h1 : x + m ≤ a) (h2 : a ≤ x + 1 - m) (h3 : u + m ≤ a') (h4 : a' ≤ u + 1 - m) (h : x ≠ u) :
    m ≤ |a - a'| := by
  rcases Nat.lt_or_ge x u with h' | h'
  · have : (x : ℝ) + 1 ≤ u := by exact_mod_cast h'
    exact le_trans (by linarith) (neg_le_abs _)
  · have : (u : ℝ) + 1 ≤ x := by exact_mod_cast (by omega : u + 1 ≤ x)
    exact le_trans (by linarith) (le_abs_self _)

/-- Points of different places are apart. -/
theorem Place.apart {m a b a' b' : ℝ} (hm : 0 ≤ m) (hm1 : m ≤ 1) {p q : Place} (hp : p.within m a b) (hq : q.within m a' b') (hne : p ≠ q) :
    m ≤ |a - a'| ∨ m ≤ |b - b'| := by
  cases p with
  | node x y =>
    obtain ⟨rfl, rfl⟩ := hp
    cases q with
    | node u v =>
      obtain ⟨rfl, rfl⟩ := hq
      by_cases h : x = u
      · exact .inr (ints_gap hm1 fun e => hne (by rw [h, e]))
      · exact .inl (ints_gap hm1 h)
    | hor u v => exact .inl (gap_int hq.1 hq.2.1)
    | ver u v => exact .inr (gap_int hq.2.1 hq.2.2)
  | hor x y =>
    obtain ⟨h1, h2, rfl⟩ := hp
    cases q with
    | node u v =>
      obtain ⟨rfl, rfl⟩ := hq
      exact .inl (int_gap h1 h2)
    | hor u v =>
      obtain ⟨h3, h4, rfl⟩ := hq
      by_cases h : x = u
      · exact .inr (ints_gap hm1 fun e => hne (by rw [h, e]))
      · exact .inl (gaps hm h1 h2 h3 h4 h)
    | ver u v =>
      obtain ⟨rfl, -, -⟩ := hq
      exact .inl (int_gap h1 h2)
  | ver x y =>
    obtain ⟨rfl, h1, h2⟩ := hp
    cases q with
    | node u v =>
      obtain ⟨rfl, rfl⟩ := hq
      exact .inr (int_gap h1 h2)
    | hor u v =>
      obtain ⟨-, -, rfl⟩ := hq
      exact .inr (int_gap h1 h2)
    | ver u v =>
      obtain ⟨rfl, h3, h4⟩ := hq
      by_cases h : y = v
      · exact .inl (ints_gap hm1 fun e => hne (by rw [h, e]))
      · exact .inr (gaps hm h1 h2 h3 h4 h)

theorem Place.within_has {m a b : ℝ} (hm : 0 ≤ m) {p : Place} (hp : p.within m a b) : p.has a b := by
  cases p with
  | node x y => exact hp
  | hor x y => exact ⟨by linarith [hp.1], by linarith [hp.2.1], hp.2.2⟩
  | ver x y => exact ⟨hp.1, by linarith [hp.2.1], by linarith [hp.2.2]⟩

/-- The zero of the interpolant keeps the distance from the ends. -/
theorem frac_away {δ a b : ℝ} (hc : (0 < a ∧ b < 0) ∨ (a < 0 ∧ 0 < b)) (h1 : δ * |a - b| ≤ |a|) (h2 : δ * |a - b| ≤ |b|) :
    δ ≤ a / (a - b) ∧ a / (a - b) ≤ 1 - δ := by
  rcases hc with ⟨ha, hb⟩ | ⟨ha, hb⟩
  · have hd : 0 < a - b := by linarith
    rw [abs_of_pos hd, abs_of_pos ha] at h1
    rw [abs_of_pos hd, abs_of_neg hb] at h2
    rw [le_div_iff₀ hd, div_le_iff₀ hd]
    constructor <;> linarith
  · have hd : a - b < 0 := by linarith
    rw [abs_of_neg hd, abs_of_neg ha] at h1
    rw [abs_of_neg hd, abs_of_pos hb] at h2
    rw [← neg_div_neg_eq, le_div_iff₀ (by linarith), div_le_iff₀ (by linarith)]
    constructor <;> linarith

theorem Place.within_coord {δ tol : ℝ} (ht : 0 < tol) {f : Nat → Nat → ℝ} {p : Place} (hc : p.meets tol f) (ha : p.away δ f) :
    p.within δ (p.coord f).x (p.coord f).y := by
  cases p with
  | node x y => exact ⟨rfl, rfl⟩
  | hor x y =>
    have := frac_away (hc.imp (fun h => ⟨ht.trans_le h.1, h.2.trans_lt (by linarith)⟩)
      (fun h => ⟨h.1.trans_lt (by linarith), ht.trans_le h.2⟩)) ha.1 ha.2
    exact ⟨by show (x : ℝ) + δ ≤ x + _; linarith [this.1], by show (x : ℝ) + _ ≤ x + 1 - δ; linarith [this.2], rfl⟩
  | ver x y =>
    have := frac_away (hc.imp (fun h => ⟨ht.trans_le h.1, h.2.trans_lt (by linarith)⟩)
      (fun h => ⟨h.1.trans_lt (by linarith), ht.trans_le h.2⟩)) ha.1 ha.2
    exact ⟨rfl, by show (y : ℝ) + δ ≤ y + _; linarith [this.1], by show (y : ℝ) + _ ≤ y + 1 - δ; linarith [this.2]⟩

/-- A point near another one of the same place. -/
theorem Place.within_near {δ e a b a' b' : ℝ} {p : Place} (hw : p.within δ a' b') (hh : p.has a b) (h1 : |a - a'| ≤ e) (h2 : |b - b'| ≤ e) :
    p.within (δ - e) a b := by
  rw [abs_le] at h1 h2
  cases p with
  | node x y => exact hh
  | hor x y => exact ⟨by linarith [hw.1], by linarith [hw.2.1], hh.2.2⟩
  | ver x y => exact ⟨hh.1, by linarith [hw.2.1], by linarith [hw.2.2]⟩

theorem onContour_iff_meets (f : Nat → Nat → ℝ) (p : Place) : p.onContour f ↔ p.meets (1 / 10 ^ 6) f := by
  have b : ∀ v, nodeSide v = .boundary ↔ |v| < 1 / 10 ^ 6 := by
    intro v; unfold nodeSide; split_ifs <;> simp_all
  have o : ∀ v, nodeSide v = .outside ↔ v ≤ -(1 / 10 ^ 6) := by
    intro v
    unfold nodeSide
    split_ifs with h1 h2
    · rw [abs_lt] at h1; simp only [reduceCtorEq, false_iff, not_le]; exact h1.1
    · rw [not_lt, le_abs] at h1
      simp only [true_iff]
      rcases h1 with h | h <;> [(have : (0 : ℝ) < 1 / 10 ^ 6 := by norm_num); skip] <;> linarith
    · simp only [reduceCtorEq, false_iff, not_le]
      have : (0 : ℝ) < 1 / 10 ^ 6 := by norm_num
      linarith
  have i : ∀ v, nodeSide v = .inside ↔ 1 / 10 ^ 6 ≤ v := by
    intro v
    have : (0 : ℝ) < 1 / 10 ^ 6 := by norm_num
    unfold nodeSide
    split_ifs with h1 h2
    · rw [abs_lt] at h1; simp only [reduceCtorEq, false_iff, not_le]; exact h1.2
    · simp only [reduceCtorEq, false_iff, not_le]; linarith
    · rw [not_lt, le_abs] at h1
      simp only [true_iff]
      rcases h1 with h | h
      · exact h
      · linarith
  cases p with
  | node x y => exact b _
  | hor x y => simp only [Place.onContour, Place.meets, Crossed, i, o]
  | ver x y => simp only [Place.onContour, Place.meets, Crossed, i, o]

namespace Boundary

open Rounding

section
variable {R : Rounding} {w h : Nat}

theorem tol_near : 999 / 10 ^ 9 < R.tol ∧ R.tol < 1001 / 10 ^ 9 := by
  have := err_le (R := R) (1 / 10 ^ 6)
  change |R.tol - _| ≤ _ at this
  rw [abs_le, abs_of_nonneg (by positivity)] at this
  constructor
  · have h1 := this.1
    norm_num at h1 ⊢
    linarith
  · have h1 := this.2
    norm_num at h1 ⊢
    linarith

theorem error_small (hfit : (w + 1) * (h + 1) < 2 ^ 31) : ((w : ℝ) + h + 4) / 2 ^ 52 ≤ 48 / 10 ^ 8 := by
  have : w + h + 4 ≤ 2 ^ 31 + 4 := by nlinarith
  have h' : (w : ℝ) + h + 4 ≤ 2 ^ 31 + 4 := by exact_mod_cast this
  rw [div_le_iff₀ (by positivity)]
  refine h'.trans ?_
  norm_num

/-- The cell index that `getElement` computes along one axis. -/
theorem cellIndex_rnd {n : Nat} (hn : 1 ≤ n) (hn2 : n < 2 ^ 31) {x : R.Num} (h0 : 0 ≤ x.val) (h1 : x.val ≤ n) :
    floor (if x -. lit 1 1000000 <. nat 0 then nat 0 else x -. lit 1 1000000 : R.Num) < n := by
  show ⌊(if x -. R.tolNum <. nat 0 then nat 0 else x -. R.tolNum : R.Num).val⌋₊ < n
  have hn' : (1 : ℝ) ≤ n := by exact_mod_cast hn
  have hn2' : (n : ℝ) ≤ 2 ^ 31 := by exact_mod_cast hn2.le
  split
  · rw [val_zero, Nat.floor_zero]; omega
  · rename_i hlt
    rw [lt_iff, val_zero, not_lt] at hlt
    rw [Nat.floor_lt hlt]
    show R.rnd (x.val - R.tolNum.val) < n
    rw [tolNum_val]
    have ht := tol_near (R := R)
    have he := err_le (R := R) (x.val - R.tol)
    rw [abs_le] at he
    have ha : |x.val - R.tol| ≤ 2 ^ 31 := by
      rw [abs_le]
      constructor
      · have := ht.2; norm_num at this ⊢; linarith
      · have := ht.1; have := h1.trans hn2'; norm_num at *; linarith
    have : |x.val - R.tol| / 2 ^ 52 ≤ 2 ^ 31 / 2 ^ 52 := div_le_div_of_nonneg_right ha (by positivity)
    have := he.2
    have := ht.1
    norm_num at *
    linarith

theorem initialise_rnd {m : Mesh R.Num} (G : IsGrid w h m) (hfit : (w + 1) * (h + 1) < 2 ^ 31) (ml : R.Num) {c : Coord R.Num}
    (h0 : 0 ≤ c.x.val) (h1 : c.x.val ≤ w) (h2 : 0 ≤ c.y.val) (h3 : c.y.val ≤ h) : ∃ pt, initialisePoint ml m c = .ok pt := by
  have a1 := cellIndex_rnd G.w_pos (by nlinarith) h0 h1
  have b1 := cellIndex_rnd G.h_pos (by nlinarith) h2 h3
  obtain ⟨-, -, f3⟩ := fits (w := w) (h := h) (by omega)
  have hlt := idx_lt a1 b1
  have he : m.getElement c = cellNo w (floor (if c.x -. lit 1 1000000 <. nat 0 then nat 0 else c.x -. lit 1 1000000 : R.Num))
      (floor (if c.y -. lit 1 1000000 <. nat 0 then nat 0 else c.y -. lit 1 1000000 : R.Num)) := by
    unfold Mesh.getElement
    dsimp only
    rw [G.width, u32_of_lt (n := _ * w) (by omega), u32_of_lt (by omega), Nat.add_comm]
    rfl
  generalize floor (if c.x -. lit 1 1000000 <. nat 0 then nat 0 else c.x -. lit 1 1000000 : R.Num) = u at a1 he
  generalize floor (if c.y -. lit 1 1000000 <. nat 0 then nat 0 else c.y -. lit 1 1000000 : R.Num) = v at b1 he
  obtain ⟨el, hel⟩ := G.elem_exists a1 b1
  have hc := G.corner _ _ el a1 b1 hel
  have hk : ∀ k, k < 4 → ∃ n nd, rd el.nodes k = .ok n ∧ m.nodes[n]? = some nd := by
    intro k hk
    rw [hc]
    match k, hk with
    | 0, _ => obtain ⟨nd, h⟩ := G.node_exists (x := u) (y := v) (by omega) (by omega); exact ⟨_, nd, rfl, h⟩
    | 1, _ => obtain ⟨nd, h⟩ := G.node_exists (x := u + 1) (y := v) (by omega) (by omega); exact ⟨_, nd, rfl, h⟩
    | 2, _ => obtain ⟨nd, h⟩ := G.node_exists (x := u + 1) (y := v + 1) (by omega) (by omega); exact ⟨_, nd, rfl, h⟩
    | 3, _ => obtain ⟨nd, h⟩ := G.node_exists (x := u) (y := v + 1) (by omega) (by omega); exact ⟨_, nd, rfl, h⟩
  have hn : ∃ n nd, m.getClosestNode c = .ok n ∧ m.nodes[n]? = some nd := by
    unfold Mesh.getClosestNode
    rw [he, rd_of_getElem? hel]
    simp only [bind, Except.bind]
    split
    · split
      · exact hk 0 (by omega)
      · exact hk 3 (by omega)
    · split
      · exact hk 1 (by omega)
      · exact hk 2 (by omega)
  obtain ⟨n, nd, e1, e2⟩ := hn
  unfold initialisePoint
  rw [e1]
  simp only [bind, Except.bind]
  rw [rd_of_getElem? e2]
  exact ⟨_, rfl⟩

/-- The same place in rounded and in exact arithmetic. -/
def Pos (w h : Nat) (sd : List R.Num) (g : Nat → Nat → ℝ) (c : Coord R.Num) (c' : Coord ℝ) : Prop :=
  ∃ p : Place, p.inGrid w h ∧ Sits w h sd p c ∧ p.within (3 / 2 / 10 ^ 6) c.x.val c.y.val ∧ c' = p.coord g ∧ p.within (1 / 10 ^ 6) c'.x c'.y

theorem isClose_rnd (c d : Coord R.Num) : isClose c d = true ↔
    |R.rnd (c.x.val - d.x.val)| < R.tol ∧ |R.rnd (c.y.val - d.y.val)| < R.tol := by
  unfold isClose
  rw [show (lit 1 1000000 : R.Num) = R.tolNum from rfl, Bool.and_eq_true, lt_iff, lt_iff, val_abs, val_abs, tolNum_val]
  rfl

theorem isClose_exact (c d : Coord ℝ) : isClose c d = true ↔ |c.x - d.x| < 1 / 10 ^ 6 ∧ |c.y - d.y| < 1 / 10 ^ 6 := by
  unfold isClose
  rw [Bool.and_eq_true]
  simp only [FP.lt_real, FP.abs_real, FP.sub_real, FP.lit_real]
  norm_num

theorem rnd_small {x : ℝ} (hx : |x| ≤ 96 / 10 ^ 8) : |R.rnd x| < R.tol := by
  have he := err_le (R := R) x
  have ht := (tol_near (R := R)).1
  have : |x| / 2 ^ 52 ≤ 96 / 10 ^ 8 / 2 ^ 52 := div_le_div_of_nonneg_right hx (by positivity)
  have h3 : |R.rnd x| ≤ |R.rnd x - x| + |x| := by
    have := abs_add_le (R.rnd x - x) x
    rwa [sub_add_cancel] at this
  norm_num at *
  linarith

theorem near_same {a b t e : ℝ} (h1 : |a - t| ≤ e) (h2 : |b - t| ≤ e) : |a - b| ≤ 2 * e := by
  rw [abs_le] at *
  constructor <;> linarith [h1.1, h1.2, h2.1, h2.2]

theorem pos_close (hfit : (w + 1) * (h + 1) < 2 ^ 31) {sd : List R.Num} {g : Nat → Nat → ℝ} {c d : Coord R.Num} {c' d' : Coord ℝ}
    (hc : Pos w h sd g c c') (hd : Pos w h sd g d d') : isClose c d = isClose c' d' := by
  obtain ⟨p, _, sp, wp, ep, vp⟩ := hc
  obtain ⟨q, _, sq, wq, eq, vq⟩ := hd
  have hs := error_small hfit
  rw [Bool.eq_iff_iff, isClose_rnd, isClose_exact]
  by_cases h : p = q
  · subst h
    rw [ep, eq]
    have k1 := (near_same sp.2.2.1 sq.2.2.1).trans (by linarith : _ ≤ (96 : ℝ) / 10 ^ 8)
    have k2 := (near_same sp.2.2.2 sq.2.2.2).trans (by linarith : _ ≤ (96 : ℝ) / 10 ^ 8)
    simp only [sub_self, abs_zero]
    exact ⟨fun _ => by norm_num, fun _ => ⟨rnd_small k1, rnd_small k2⟩⟩
  · have ht := (tol_near (R := R)).2
    have g1 := Place.apart (by norm_num) (by norm_num) wp wq h
    have g2 := Place.apart (by norm_num) (by norm_num) vp vq h
    constructor
    · rintro ⟨h1, h2⟩
      have := close_lt h1
      have := close_lt h2
      rcases g1 with g | g <;> norm_num at g ht <;> linarith
    · rintro ⟨h1, h2⟩
      rcases g2 with g | g <;> linarith

end

theorem sides_side {R : Rounding} {w : Nat} (sd : List R.Num) (x y : Nat) :
    nodeSide (R.sides (lay w sd) x y) = nodeStatus (vals sd (nodeNo w x y)) := by
  unfold Rounding.sides
  split_ifs with h1 h2
  · rw [(status_boundary _).2 h1]; unfold nodeSide; norm_num
  · have : lay w sd x y ≤ -R.tol := by
      rw [not_lt, le_abs] at h1
      have := tol_pos (R := R)
      rcases h1 with h | h <;> linarith
    rw [(status_outside _).2 this]; unfold nodeSide; norm_num
  · have : R.tol ≤ lay w sd x y := by
      rw [not_lt, le_abs] at h1
      have := tol_pos (R := R)
      rcases h1 with h | h <;> linarith
    rw [(status_inside _).2 this]; unfold nodeSide; norm_num

theorem edge_on {g : Nat → Nat → ℝ} {x y j : Nat} (hj : j < 4) (hc : Crossed (nodeSide (g (cornerAt x y j).1 (cornerAt x y j).2))
    (nodeSide (g (cornerAt x y (after j)).1 (cornerAt x y (after j)).2))) : (edgeAt x y j).onContour g := by
  match j, hj with
  | 0, _ => exact hc
  | 1, _ => exact hc
  | 2, _ => exact hc.symm
  | 3, _ => exact hc.symm

/-- The conditions under which the two arithmetics decide alike. -/
theorem alike {R : Rounding} {w h : Nat} {L : LevelSet R.Num} {M : LevelSet ℝ} {isTarget : Bool} (T : Distinct w h L isTarget) (hg' : IsGrid w h M.mesh)
    (hlen' : M.mesh.nNodes ≤ (values M isTarget).length)
    (hside : ∀ x y, x ≤ w → y ≤ h → nodeStatus (vals (values L isTarget) (nodeNo w x y)) = nodeSide (level w M isTarget x y))
    (hflags : ∀ (i : Nat) (a : Node R.Num) (b : Node ℝ), L.mesh.nodes[i]? = some a → M.mesh.nodes[i]? = some b →
      a.isActive = b.isActive ∧ a.isMasked = b.isMasked)
    (hsum : ∀ x y, x < w → y < h → Alternating w (values L isTarget) x y →
      (nat 0 <. sumAt w (values L isTarget) x y) = (nat 0 <. sumAt w (values M isTarget) x y) ∧
      (sumAt w (values L isTarget) x y <. nat 0) = (sumAt w (values M isTarget) x y <. nat 0))
    (hcoord : ∀ p : Place, p.inGrid w h → p.onContour (level w M isTarget) →
      p.within (1 / 10 ^ 6) (p.coord (level w M isTarget)).x (p.coord (level w M isTarget)).y) :
    Alike w h L.moveLimit L.mesh (values L isTarget) M.moveLimit M.mesh (values M isTarget)
      (Pos w h (values L isTarget) (level w M isTarget)) := by
  have hfit53 : (w + 1) * (h + 1) < 2 ^ 53 := lt_trans T.fit (by norm_num)
  have hcs : ∀ x y j, x < w → y < h → cornerSide w (values L isTarget) x y j = nodeSide (level w M isTarget (cornerAt x y j).1 (cornerAt x y j).2) :=
    fun x y j hx hy => hside _ _ (cornerAt_le hx hy j).1 (cornerAt_le hx hy j).2
  have hs := error_small T.fit
  refine ⟨T.grid, hg', T.len, hlen', fun i hi => ?_, hflags, hsum, ?_, ?_, fun _ _ _ _ => pos_close T.fit, ?_⟩
  · have e : i = nodeNo w (i % (w + 1)) (i / (w + 1)) := (idx_eq _ _).symm
    have hx : i % (w + 1) ≤ w := Nat.lt_succ_iff.1 (Nat.mod_lt _ (by omega))
    have hy : i / (w + 1) ≤ h := by
      rw [← Nat.lt_succ_iff]
      exact Nat.div_lt_of_lt_mul hi
    have := hside _ _ hx hy
    rw [e, this, nodeStatus_real]
    rfl
  · intro x y j hx hy hj hcut
    have S := cut_sits hfit53 hx hy hj hcut
    have hcr : Crossed (nodeSide (level w M isTarget (cornerAt x y j).1 (cornerAt x y j).2))
        (nodeSide (level w M isTarget (cornerAt x y (after j)).1 (cornerAt x y (after j)).2)) := by
      rw [← hcs x y j hx hy, ← hcs x y (after j) hx hy]
      exact cutPair_iff.1 hcut
    have hin := edgeAt_inGrid hx hy hj
    have hon := edge_on hj hcr
    have hne : ∀ u v, edgeAt x y j ≠ .node u v := by
      intro u v
      match j, hj with
      | 0, _ => simp [edgeAt]
      | 1, _ => simp [edgeAt]
      | 2, _ => simp [edgeAt]
      | 3, _ => simp [edgeAt]
    have hcd : edgePoint (cornerCoord x y j) j (cornerVal w (values M isTarget) x y j /. (cornerVal w (values M isTarget) x y j -.
        cornerVal w (values M isTarget) x y (after j))) = (edgeAt x y j).coord (level w M isTarget) :=
      edgePoint_coord hj hcr
    have haw := T.away (edgeAt x y j) ⟨hin, ?_, hne⟩
    · refine ⟨edgeAt x y j, hin, S, ?_, hcd, ?_⟩
      · have := Place.within_near (Place.within_coord tol_pos S.1 haw) S.2.1 (S.2.2.1.trans hs) (S.2.2.2.trans hs)
        have lower : ∀ {m n a b : ℝ} {p : Place}, n ≤ m → p.within m a b → p.within n a b := by
          intro m n a b p hmn hp
          cases p with
          | node x y => exact hp
          | hor x y => exact ⟨by linarith [hp.1], by linarith [hp.2.1], hp.2.2⟩
          | ver x y => exact ⟨hp.1, by linarith [hp.2.1], by linarith [hp.2.2]⟩
        exact lower (by norm_num) this
      · rw [hcd]; exact hcoord _ hin hon
    · refine edge_on hj ?_
      rw [sides_side, sides_side]
      exact cutPair_iff.1 hcut
  · intro x y j hx hy hj hb
    refine ⟨.node (cornerAt x y j).1 (cornerAt x y j).2, ?_, corner_sits hfit53 hx hy hb, (corner_sits hfit53 hx hy hb).2.1, ?_, ?_⟩
    · intro q hq
      rw [Place.ends, List.mem_singleton] at hq
      subst hq
      exact cornerAt_le hx hy j
    · unfold edgePoint cornerCoord Place.coord
      simp
    · unfold edgePoint cornerCoord
      exact ⟨by simp, rfl⟩
  · rintro c c' ⟨p, h1, h2, h3, rfl, h4⟩
    obtain ⟨i1, i2, i3, i4⟩ := has_in h1 h2.2.1
    obtain ⟨k1, k2, k3, k4⟩ := has_in h1 (Place.within_has (by norm_num) h4)
    exact ⟨initialise_rnd T.grid T.fit _ i1 i2 i3 i4, initialisePoint_ok hg' (lt_trans T.fit (by norm_num)) _ k1 k2 k3 k4⟩

end Boundary

end Slsm
