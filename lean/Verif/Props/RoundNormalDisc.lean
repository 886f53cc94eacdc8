import Verif.Props.RoundNormal
import Verif.Proof.RoundListed

/-! # C109: normal vectors of a boundary just discretised, in rounded arithmetic -/

namespace Slsm

open FP Rounding LevelSet Boundary

section
variable {R : Rounding} {w h : Nat} {L L' : LevelSet R.Num} {b : Boundary R.Num} {isTarget : Bool}

/-- **C109** (after discretising): in every rounding of real arithmetic, for a boundary just discretised from values whose contour keeps `2·10⁻⁶` away
from the ends of the edges that it cuts, `computeNormalVectors` returns.  Every point belongs to a place where the values cross zero; if the point
is not on the domain edge, some end of its edge is in the narrow band, and the gradients at such ends are not tiny and lie in a cone around the
unit vector `d`, its vector has length one and lies in this cone, up to rounding. -/
theorem C109_discretised (hr : Reachable w h L) (C : Clear w h L isTarget) (e : discretise L isTarget = .ok (b, L')) :
    ∃ b', computeNormalVectors b L' = .ok b' ∧ ∀ (k : Nat) (pt : BoundaryPoint R.Num), b.points[k]? = some pt →
      ∃ p : Place, p.inGrid w h ∧ p.meets R.tol (lay w (values L isTarget)) ∧ p.has pt.coord.x.val pt.coord.y.val ∧
        ∀ (c : ℝ) (d : Coord ℝ), pt.isDomain = false → d.x ^ 2 + d.y ^ 2 = 1 → 1 / 2 ^ 10 ≤ c → c ≤ 1 →
          (∃ q ∈ p.ends, nodeNo w q.1 q.2 ∈ L.band) →
          (∀ q ∈ p.ends, nodeNo w q.1 q.2 ∈ L.band → InCone c d (nodalGradient w h (lay w L.signedDistance) q)) →
          ∃ n : Coord R.Num, b'.points[k]? = some { pt with normal := n } ∧ |n.x.val ^ 2 + n.y.val ^ 2 - 1| ≤ 1 / 2 ^ 42 ∧
            c - 3 / 2 ^ 42 ≤ dot ⟨n.x.val, n.y.val⟩ d ∧ (n.x.val - d.x) ^ 2 + (n.y.val - d.y) ^ 2 ≤ 2 * (1 - c) + 7 / 2 ^ 42 := by
  classical
  obtain ⟨keys, k1, k2, k3, k4, k5⟩ := clear_places C e
  have D := clear_drawn C e
  have hr' := clear_reachable hr C e
  have hband : L'.band = L.band := by rw [D.level]; rfl
  have hsd : L'.signedDistance = L.signedDistance := by rw [D.level]
  obtain ⟨b', e'⟩ := C109_returns (b := b) hr' k2 fun n hn nd hnd => by
    refine ⟨k4 n nd hnd, fun k hk => ?_⟩
    obtain ⟨x, y, hx, hy, rfl⟩ := hr'.core.grid.node_index (hr'.core.band_free _ hn).1
    rw [k3 x y hx hy, mem_slotsOf] at hk
    obtain ⟨p, hp, -⟩ := hk
    rw [← k1]
    exact (List.getElem?_eq_some_iff.1 hp).1
  refine ⟨b', e', fun k pt hk => ?_⟩
  obtain ⟨p, p1, p2, p3⟩ := k5 k pt hk
  refine ⟨p, p2, p3.1, p3.2.1, fun c d hdom hd hc hc1 hne hg => ?_⟩
  have hrec : recorded L' k = (p.ends.filter fun q => decide (nodeNo w q.1 q.2 ∈ L.band)).length := by
    rw [← (listed_ends hr.core p1 p2).length_eq, ← recorded_ends hr.core k3 k]
    exact congrArg (recorded · k) D.level
  have hle : recorded L' k ≤ 2 := by
    rw [hrec]
    refine (List.length_filter_le _ _).trans ?_
    cases p <;> simp [Place.ends]
  have h0 : recorded L' k ≠ 0 := by
    obtain ⟨q, hq, hb⟩ := hne
    rw [hrec]
    intro h
    have := List.eq_nil_of_length_eq_zero h
    exact absurd (List.mem_filter.2 ⟨hq, decide_eq_true hb⟩) (by rw [this]; simp)
  have hgr : ∀ x y, x ≤ w → y ≤ h → nodeNo w x y ∈ L'.band → k ∈ pointsAt L'.mesh (nodeNo w x y) →
      InCone c d (nodalGradient w h (lay w L'.signedDistance) (x, y)) := by
    intro x y hx hy hb hm
    rw [k3 x y hx hy, mem_slotsOf] at hm
    obtain ⟨p', hp', hq⟩ := hm
    rw [p1] at hp'
    cases hp'
    rw [hband] at hb
    rw [hsd]
    exact hg (x, y) hq hb
  have hin : InDomainR w h pt.coord := has_in p2 p3.2.1
  have hle' : (recorded L' k : ℝ) ≤ 2 := by exact_mod_cast hle
  obtain ⟨n, h1, h2, h3⟩ := C109_cone hr' k2 e' hk hin hdom hd hc hc1 h0 (by omega) hgr
  obtain ⟨n', h1', h4⟩ := C109_direction hr' k2 e' hk hin hdom hd hc hc1 h0 (by omega) hgr
  have hn : n' = n := by
    rw [h1] at h1'
    exact (congrArg BoundaryPoint.normal (Option.some.inj h1')).symm
  subst hn
  refine ⟨n', h1, h2, ?_, ?_⟩
  · refine le_trans ?_ h3
    have : ((recorded L' k : ℝ) + 1) / 2 ^ 42 ≤ 3 / 2 ^ 42 := by
      apply div_le_div_of_nonneg_right _ (by positivity)
      linarith
    linarith
  · refine h4.trans ?_
    have : (2 * (recorded L' k : ℝ) + 3) / 2 ^ 42 ≤ 7 / 2 ^ 42 := by
      apply div_le_div_of_nonneg_right _ (by positivity)
      linarith
    linarith

/-- **C109** (planes): if the values are `a x + c y + s`, with a gradient that is not tiny, the vectors of the points off the domain edge with an end of
their edge in the narrow band are the unit vector in the direction `(a, c)`, up to rounding. -/
theorem C109_plane (hr : Reachable w h L) (C : Clear w h L isTarget) (e : discretise L isTarget = .ok (b, L')) {a c s : ℝ}
    (hac : 1 / 2 ^ 100 ≤ vnorm ⟨a, c⟩) (hL : ∀ x y, x ≤ w → y ≤ h → lay w L.signedDistance x y = a * x + c * y + s) :
    ∃ b', computeNormalVectors b L' = .ok b' ∧ ∀ (k : Nat) (pt : BoundaryPoint R.Num), b.points[k]? = some pt → pt.isDomain = false →
      ∃ p : Place, p.inGrid w h ∧ p.meets R.tol (lay w (values L isTarget)) ∧ p.has pt.coord.x.val pt.coord.y.val ∧
        ((∃ q ∈ p.ends, nodeNo w q.1 q.2 ∈ L.band) → ∃ n : Coord R.Num, b'.points[k]? = some { pt with normal := n } ∧
          (n.x.val - (unitVec ⟨a, c⟩).x) ^ 2 + (n.y.val - (unitVec ⟨a, c⟩).y) ^ 2 ≤ 7 / 2 ^ 42) := by
  obtain ⟨b', h1, h2⟩ := C109_discretised hr C e
  refine ⟨b', h1, fun k pt hk hdom => ?_⟩
  obtain ⟨p, p1, p2, p3, h3⟩ := h2 k pt hk
  refine ⟨p, p1, p2, p3, fun hne => ?_⟩
  have hpos : 0 < vnorm ⟨a, c⟩ := lt_of_lt_of_le (by positivity) hac
  have hsq : vnorm ⟨a, c⟩ ^ 2 = a ^ 2 + c ^ 2 := by
    unfold vnorm
    exact Real.sq_sqrt (by positivity)
  have hd : (unitVec ⟨a, c⟩).x ^ 2 + (unitVec ⟨a, c⟩).y ^ 2 = 1 := by
    unfold unitVec
    dsimp only
    rw [div_pow, div_pow, ← add_div, ← hsq]
    exact div_self (by positivity)
  obtain ⟨n, n1, -, -, n2⟩ := h3 1 (unitVec ⟨a, c⟩) hdom hd (by norm_num) le_rfl hne fun q hq _ => by
    obtain ⟨hx, hy⟩ := p1 q hq
    have hgr : nodalGradient w h (lay w L.signedDistance) q = ⟨a, c⟩ := by
      unfold nodalGradient
      rw [lineSlope_linear (a := a) (c := c * q.2 + s) hr.core.grid.w_pos hx (fun k hk => by rw [hL k q.2 hk hy]; ring),
        lineSlope_linear (a := c) (c := a * q.1 + s) hr.core.grid.h_pos hy (fun k hk => by rw [hL q.1 k hx hk]; ring)]
    rw [hgr]
    refine ⟨hac, ?_⟩
    unfold dot unitVec
    dsimp only
    rw [one_mul, ← mul_div_assoc, ← mul_div_assoc, ← add_div, le_div_iff₀ hpos]
    nlinarith
  refine ⟨n, n1, n2.trans ?_⟩
  norm_num

end

/-- A level set with the values `x - 1/2` in binary64, with every node in the narrow band. -/
theorem plane_level : ∃ L : LevelSet binary64.Num, Reachable 5 5 L ∧ (∀ x y, x ≤ 5 → y ≤ 5 → lay 5 L.signedDistance x y = x - 1 / 2) ∧
    (∀ i, i < 36 → i ∈ L.band) := by
  obtain ⟨L, hL⟩ := (C22_accepts_iff (D := binary64.Num) (w := 5) (h := 5) (by norm_num) (by norm_num) (by norm_num)
    (.holes []) (by simp) (Boundary.halfNum 1 (by norm_num)) 6 (by norm_num) false).2.2
    ⟨by norm_num, by rw [lt_iff, val_zero]; simp [Boundary.halfNum], by rw [lt_iff, val_one]; simp only [Boundary.halfNum]; norm_num, fun h => by cases h⟩
  have hr : Reachable 5 5 L := .new (by norm_num) (by norm_num) (by norm_num) (by norm_num) hL
  have B := built (by norm_num) (by norm_num) (by norm_num) (by norm_num) hL
  have C := hr.core
  have hN : L.mesh.nNodes = 36 := C.grid.nNodes
  refine ⟨_, .call hr (.assign ((List.range 36).map slopeVal) L.velocity L.gradient L.target (by simp [hN]) C.velocity C.gradient), ?_, ?_⟩
  · intro x y hx hy
    unfold lay
    dsimp only
    have : nodeNo 5 x y < 36 := by unfold nodeNo; omega
    rw [vals_map_range _ this, slopeVal_val, show nodeNo 5 x y % 6 = x by unfold nodeNo; omega]
  · intro i hi
    show i ∈ L.band
    obtain ⟨x, y, hx, hy, rfl⟩ := C.grid.node_index (i := i) (by rw [hN]; exact hi)
    rw [B.band.band_mem]
    refine ⟨⟨by rw [hN]; exact hi, B.unmasked _, by rw [B.params.2.2]; simp⟩, ?_⟩
    obtain ⟨m, hm, hv⟩ := B.value
    have G := new_grid ⟨by norm_num, by norm_num, by norm_num⟩ hm
    rw [hv, vals_map_range _ (by rw [G.nNodes]; exact hi), B.params.2.1, lt_iff]
    have := edgeVal_rnd G (by norm_num) (by norm_num) hx hy
    simp only [shapeVal, holesVal, List.foldl_nil]
    rw [val_abs, this, val_nat (by norm_num)]
    have : edgeDist 5 5 x y ≤ 5 := ((Nat.min_le_left _ _).trans (Nat.min_le_left _ _)).trans hx
    have h5 : (edgeDist 5 5 x y : ℝ) ≤ 5 := by exact_mod_cast this
    rw [abs_of_nonneg (by positivity)]
    push_cast
    linarith

theorem plane_meets {L : LevelSet binary64.Num} (hv : ∀ x y, x ≤ 5 → y ≤ 5 → lay 5 L.signedDistance x y = x - 1 / 2) {p : Place} (hp : p.inGrid 5 5)
    (hm : p.meets binary64.tol (lay 5 L.signedDistance)) : ∃ y, y ≤ 5 ∧ p = .hor 0 y := by
  have ht := binary64.tol_bounds.2
  have ht0 := binary64.tol_bounds.1
  norm_num at ht ht0
  cases p with
  | node x y =>
    exfalso
    obtain ⟨hx, hy⟩ := hp (x, y) (by simp [Place.ends])
    have hm' : |lay 5 L.signedDistance x y| < binary64.tol := hm
    rw [hv x y hx hy] at hm'
    obtain ⟨h1, h2⟩ := abs_lt.1 hm'
    rcases Nat.eq_zero_or_pos x with rfl | h0
    · norm_num at h1; linarith
    · have : (1 : ℝ) ≤ x := by exact_mod_cast h0
      linarith
  | hor x y =>
    obtain ⟨hx, hy⟩ := hp (x, y) (by simp [Place.ends])
    obtain ⟨hx1, -⟩ := hp (x + 1, y) (by simp [Place.ends])
    have hm' : (binary64.tol ≤ lay 5 L.signedDistance x y ∧ lay 5 L.signedDistance (x + 1) y ≤ -binary64.tol) ∨
      (lay 5 L.signedDistance x y ≤ -binary64.tol ∧ binary64.tol ≤ lay 5 L.signedDistance (x + 1) y) := hm
    rw [hv x y hx hy, hv (x + 1) y hx1 hy] at hm'
    refine ⟨y, hy, ?_⟩
    rcases Nat.eq_zero_or_pos x with rfl | h0
    · rfl
    · exfalso
      have : (1 : ℝ) ≤ x := by exact_mod_cast h0
      push_cast at hm'
      rcases hm' with ⟨-, h⟩ | ⟨h, -⟩ <;> linarith
  | ver x y =>
    exfalso
    obtain ⟨hx, hy⟩ := hp (x, y) (by simp [Place.ends])
    obtain ⟨-, hy1⟩ := hp (x, y + 1) (by simp [Place.ends])
    have hm' : (binary64.tol ≤ lay 5 L.signedDistance x y ∧ lay 5 L.signedDistance x (y + 1) ≤ -binary64.tol) ∨
      (lay 5 L.signedDistance x y ≤ -binary64.tol ∧ binary64.tol ≤ lay 5 L.signedDistance x (y + 1)) := hm
    rw [hv x y hx hy, hv x (y + 1) hx hy1] at hm'
    rcases hm' with ⟨h, h'⟩ | ⟨h, h'⟩ <;> linarith

theorem plane_clear {L : LevelSet binary64.Num} (hr : Reachable 5 5 L) (hv : ∀ x y, x ≤ 5 → y ≤ 5 → lay 5 L.signedDistance x y = x - 1 / 2)
    (hb : ∀ i, i < 36 → i ∈ L.band) : Clear 5 5 L false := by
  have hc := hr.core
  have ht := binary64.tol_bounds.2
  norm_num at ht
  refine ⟨⟨hc.grid, le_of_eq hc.sd.symm, by norm_num, fun p hp => ?_⟩, .inr fun p hp => ?_, ?_⟩
  · obtain ⟨y, hy, rfl⟩ := plane_meets hv hp.1 (meets_onContour.2 hp.2.1)
    show 2 / 10 ^ 6 * |lay 5 L.signedDistance 0 y - lay 5 L.signedDistance (0 + 1) y| ≤ |lay 5 L.signedDistance 0 y| ∧
      2 / 10 ^ 6 * |lay 5 L.signedDistance 0 y - lay 5 L.signedDistance (0 + 1) y| ≤ |lay 5 L.signedDistance (0 + 1) y|
    rw [hv 0 y (by norm_num) hy, hv (0 + 1) y (by norm_num) hy]
    norm_num
  · obtain ⟨y, hy, rfl⟩ := plane_meets hv hp.1 (meets_onContour.2 hp.2.1)
    refine ⟨(0, y), by simp [Place.ends], ?_⟩
    obtain ⟨nd, h1, h2⟩ := (hc.active (nodeNo 5 0 y)).2 (hb _ (by unfold nodeNo; omega))
    exact ⟨nd, h1, .inl h2⟩
  · refine Generic.tidy fun x y hx hy h => ?_
    obtain ⟨y', -, h'⟩ := plane_meets (p := .node x y) hv (by
      intro q hq
      simp only [Place.ends, List.mem_singleton] at hq
      subst hq
      exact ⟨hx, hy⟩) (meets_onContour.2 h)
    cases h'

/-- The hypotheses can be met, in binary64: the plane `x - 1/2`, discretised; the boundary point on the edge between `(0, 2)` and `(1, 2)` gets the
normal `(1, 0)` up to rounding. -/
example : ∃ (L L' : LevelSet binary64.Num) (b b' : Boundary binary64.Num) (pt : BoundaryPoint binary64.Num), Reachable 5 5 L ∧ Clear 5 5 L false ∧
    discretise L false = .ok (b, L') ∧ computeNormalVectors b L' = .ok b' ∧ pt ∈ b'.points ∧ pt.isDomain = false ∧ pt.coord.y.val = 2 ∧
    (pt.normal.x.val - 1) ^ 2 + pt.normal.y.val ^ 2 ≤ 7 / 2 ^ 42 := by
  obtain ⟨L, hr, hv, hb⟩ := plane_level
  have C := plane_clear hr hv hb
  obtain ⟨b, L', e⟩ := C94_safe C
  have h0 : lay 5 L.signedDistance 0 2 = -(1 / 2) := by rw [hv 0 2 (by norm_num) (by norm_num)]; norm_num
  have h1 : lay 5 L.signedDistance (0 + 1) 2 = 1 / 2 := by rw [hv (0 + 1) 2 (by norm_num) (by norm_num)]; norm_num
  have ht := binary64.tol_bounds.2
  norm_num at ht
  have hcut : CutEdge 5 5 (binary64.sides (lay 5 (values L false))) (.hor 0 2) := by
    refine ⟨?_, meets_onContour.1 (.inr ?_), fun x y h => by cases h⟩
    · intro q hq
      simp only [Place.ends, List.mem_cons, List.not_mem_nil, or_false] at hq
      rcases hq with rfl | rfl <;> norm_num
    · change lay 5 L.signedDistance 0 2 ≤ -binary64.tol ∧ binary64.tol ≤ lay 5 L.signedDistance (0 + 1) 2
      rw [h0, h1]
      constructor <;> linarith
  obtain ⟨k, pt, hk, hh, hx, -⟩ := C94_watertight C e hcut
  obtain ⟨b', e', H⟩ := C109_plane (a := 1) (c := 0) (s := -(1 / 2)) hr C e (by unfold vnorm; norm_num) fun x y hx hy => by rw [hv x y hx hy]; ring
  have hy : pt.coord.y.val = 2 := by
    have := hh.2.2
    exact_mod_cast this
  have hxc : |pt.coord.x.val - 1 / 2| ≤ 14 / 2 ^ 52 := by
    have : (Place.coord (lay 5 (values L false)) (.hor 0 2)).x = 1 / 2 := by
      show ((0 : ℕ) : ℝ) + lay 5 L.signedDistance 0 2 / (lay 5 L.signedDistance 0 2 - lay 5 L.signedDistance (0 + 1) 2) = 1 / 2
      rw [h0, h1]
      norm_num
    rw [this] at hx
    refine hx.trans (le_of_eq ?_)
    norm_num
  have hdom : pt.isDomain = false := by
    obtain ⟨x, y, c, p0, ls, sg, nb, -, -, -, hi, hl, -⟩ := point_made hr (fun h => by cases h) e (List.mem_of_getElem? hk)
    obtain ⟨n, nd, -, -, hp0⟩ := initialisePoint_at hi
    have ec : pt.coord = c := by rw [hl.eq, hp0]
    have ed : pt.isDomain = (edgeLimit L.moveLimit L.mesh.width L.mesh.height c).2 := by rw [hl.eq, hp0]
    rw [ed, ← ec, hr.core.grid.width, hr.core.grid.height]
    unfold edgeLimit
    dsimp only
    split
    · obtain ⟨x1, x2⟩ := abs_le.1 hxc
      norm_num at x1 x2
      have far : ∀ v : ℝ, 1 / 10 ^ 6 ≤ v → binary64.tol ≤ binary64.rnd v := fun v hv => binary64.mono hv
      rw [Bool.eq_false_iff, ne_eq, lt_iff, show (lit 1 1000000 : binary64.Num) = binary64.tolNum from rfl, tolNum_val, val_min, val_min, val_min,
        val_sub, val_sub, val_nat (by norm_num), hy, not_lt]
      refine le_min (le_min ?_ (far _ ?_)) (le_min ?_ (far _ ?_))
      · linarith
      · push_cast; norm_num; linarith
      · linarith
      · push_cast; norm_num
    · rfl
  obtain ⟨p, p1, p2, p3, H'⟩ := H k pt hk hdom
  obtain ⟨y, hy5, rfl⟩ := plane_meets hv p1 p2
  obtain ⟨n, n1, n2⟩ := H' ⟨(0, y), by simp [Place.ends], hb _ (by unfold nodeNo; omega)⟩
  refine ⟨L, L', b, b', _, hr, C, e, e', List.mem_of_getElem? n1, hdom, hy, ?_⟩
  unfold unitVec vnorm at n2
  norm_num at n2 ⊢
  exact n2

end Slsm
