import Verif.Proof.RoundTame
import Verif.Proof.RoundLen

/-! Level sets constructed from holes in rounded arithmetic. -/

namespace Slsm

open FP LevelSet Rounding

variable {R : Rounding} {w h : Nat}

namespace LevelSet

theorem edgeVal_rnd {m : Mesh R.Num} (G : IsGrid w h m) (hw : w ≤ 2 ^ 53) (hh : h ≤ 2 ^ 53) {x y : Nat} (hx : x ≤ w) (hy : y ≤ h) :
    (edgeVal m (nodeOf m (nodeNo w x y))).val = edgeDist w h x y := by
  have hlt : nodeNo w x y < m.nodes.length := by rw [G.nodes_length]; exact nodeNo_lt hx hy
  have hc := G.coord x y _ hx hy (get_node hlt)
  have fl : ∀ {a b : ℕ}, a ≤ b → b ≤ 2 ^ 53 → FP.floor (FP.min (FP.nat a) (FP.sub (FP.nat b) (FP.nat a)) : R.Num) = Nat.min a (b - a) := by
    intro a b hab hb
    show ⌊(FP.min (FP.nat a) (FP.sub (FP.nat b) (FP.nat a)) : R.Num).val⌋₊ = _
    rw [val_min, val_sub, val_nat hb, val_nat (by omega), ← Nat.cast_sub hab, R.nat _ (by omega), ← Nat.cast_min, Nat.floor_natCast]
  unfold edgeVal edgeDist
  rw [hc, G.width, G.height]
  dsimp only
  rw [fl hx hw, fl hy hh]
  refine val_nat ((Nat.min_le_left _ _).trans ((Nat.min_le_left _ _).trans (by omega)))

theorem distance_forms (a b : Coord ℝ) : Boundary.distance a b = distance a b := by
  unfold Boundary.distance distance
  rw [sq, sq]

/-- The computed distance from a hole. -/
theorem hole_err (c : Hole R.Num) (p : Coord R.Num) : |(FP.sub (centreDist c.coord p) c.r).val -
    (distance (holeVal c).coord ⟨p.x.val, p.y.val⟩ - (holeVal c).r)| ≤
      (distance (holeVal c).coord ⟨p.x.val, p.y.val⟩ + |(holeVal c).r|) / 2 ^ 48 + 1 / 2 ^ 79 := by
  have h1 := Boundary.chord_err c.coord p
  rw [distance_forms] at h1
  change |(centreDist c.coord p).val - _| ≤ _ at h1
  have h2 := err_le (R := R) ((centreDist c.coord p).val - c.r.val)
  change |(FP.sub (centreDist c.coord p) c.r).val - ((centreDist c.coord p).val - c.r.val)| ≤ _ at h2
  have d0 := distance_nonneg (⟨c.coord.x.val, c.coord.y.val⟩ : Coord ℝ) ⟨p.x.val, p.y.val⟩
  change |_ - (distance ⟨c.coord.x.val, c.coord.y.val⟩ _ - c.r.val)| ≤ (distance ⟨c.coord.x.val, c.coord.y.val⟩ _ + |c.r.val|) / _ + _
  generalize distance (⟨c.coord.x.val, c.coord.y.val⟩ : Coord ℝ) ⟨p.x.val, p.y.val⟩ = d at *
  generalize (centreDist c.coord p).val = e at *
  generalize (FP.sub (centreDist c.coord p) c.r).val = v at *
  generalize c.r.val = r at *
  have t : (1 : ℝ) / 2 ^ 500 ≤ 1 / 2 ^ 81 := one_div_le_one_div_of_le (by positivity) (pow_le_pow_right₀ (by norm_num) (by norm_num))
  have h3 : |e - r| ≤ |e - d| + d + |r| := by
    have := abs_add_le (e - d) (d - r)
    rw [sub_add_sub_cancel] at this
    have h4 := abs_sub d r
    rw [abs_of_nonneg d0] at h4
    linarith
  have h5 : |v - (d - r)| ≤ |v - (e - r)| + |e - d| := by
    have := abs_add_le (v - (e - r)) (e - d)
    rwa [show v - (e - r) + (e - d) = v - (d - r) by ring] at this
  have r0 := abs_nonneg r
  have h6 : |e - d| ≤ d / 2 ^ 49 + 1 / 2 ^ 81 := h1.trans (by linarith)
  norm_num at h2 h6 ⊢
  linarith

theorem holesVal_err (p : Coord R.Num) (holes : List (Hole R.Num)) {E : ℝ}
    (hE : ∀ c ∈ holes, (distance (holeVal c).coord ⟨p.x.val, p.y.val⟩ + |(holeVal c).r|) / 2 ^ 48 + 1 / 2 ^ 79 ≤ E) (v : R.Num) (v' : ℝ)
    (hv : |v.val - v'| ≤ E) : |(holesVal p holes v).val - holesVal ⟨p.x.val, p.y.val⟩ (holes.map holeVal) v'| ≤ E := by
  induction holes generalizing v v' with
  | nil => exact hv
  | cons c l ih =>
    refine ih (fun c' hc' => hE c' (List.mem_cons_of_mem _ hc')) _ _ ?_
    have h1 := (hole_err c p).trans (hE c List.mem_cons_self)
    simp only [FP.sub_real, FP.lt_real, centreDist_real, lt_iff]
    generalize FP.sub (centreDist c.coord p) c.r = a at h1 ⊢
    generalize distance (holeVal c).coord ⟨p.x.val, p.y.val⟩ - (holeVal c).r = a' at h1 ⊢
    rw [abs_le] at hv h1 ⊢
    split_ifs <;> constructor <;> linarith [hv.1, hv.2, h1.1, h1.2]

end LevelSet

namespace Boundary

variable {holes : List (Hole R.Num)} {moveLimit : R.Num} {bandWidth : Nat} {f : Bool} {L : LevelSet R.Num}

/-- The level set from the same holes in exact arithmetic. -/
theorem exact_holes (hw : 1 ≤ w) (hh : 1 ≤ h) (hN : (w + 1) * (h + 1) < 2 ^ 31) (holes : List (Hole R.Num)) (f : Bool) :
    ∃ M : LevelSet ℝ, LevelSet.new w h (.holes (holes.map holeVal)) (1 / 2 : ℝ) 3 f = .ok M :=
  (C22_accepts_iff (D := ℝ) hw hh hN (.holes (holes.map holeVal)) (by simp) (1 / 2) 3 (by norm_num) f).2.2
    ⟨by norm_num, by norm_num, by norm_num, fun h => by cases h⟩

/-- Values from holes in both arithmetics. -/
theorem holes_near (hw : 1 ≤ w) (hh : 1 ≤ h) (hN : (w + 1) * (h + 1) < 2 ^ 31) (hb : bandWidth < 2 ^ 32)
    (e : LevelSet.new w h (.holes holes) moveLimit bandWidth f = .ok L) {M : LevelSet ℝ} {ml : ℝ} {bw : Nat} {g : Bool} (hbw : bw < 2 ^ 32)
    (e' : LevelSet.new w h (.holes (holes.map holeVal)) ml bw g = .ok M) {x y : Nat} (hx : x ≤ w) (hy : y ≤ h) {E : ℝ} (h0 : 0 ≤ E)
    (hE : ∀ c ∈ holes, (Slsm.distance (holeVal c).coord (lattice x y) + |(holeVal c).r|) / 2 ^ 48 + 1 / 2 ^ 79 ≤ E) :
    |lay w L.signedDistance x y - level w M false x y| ≤ E := by
  have w53 : w < 2 ^ 53 := by nlinarith
  have h53 : h < 2 ^ 53 := by nlinarith
  obtain ⟨m, hm, hv⟩ := (built hw hh hN hb e).value
  have G := new_grid ⟨hw, hh, by norm_num at hN ⊢; omega⟩ hm
  obtain ⟨m', hm', hv'⟩ := (built hw hh hN hbw e').value
  have G' := new_grid ⟨hw, hh, by norm_num at hN ⊢; omega⟩ hm'
  unfold lay level values
  rw [hv, if_neg (by simp), hv', vals_map_range _ (by rw [G.nNodes]; exact nodeNo_lt hx hy), vals_map_range _ (by rw [G'.nNodes]; exact nodeNo_lt hx hy)]
  unfold shapeVal
  dsimp only
  have hlt : nodeNo w x y < m.nodes.length := by rw [G.nodes_length]; exact nodeNo_lt hx hy
  have hc := G.coord x y _ hx hy (get_node hlt)
  rw [node_coord G' hx hy, hc, edgeVal_real G' hx hy]
  have hp : lattice x y = ⟨(FP.nat x : R.Num).val, (FP.nat y : R.Num).val⟩ := by
    rw [val_nat (by omega), val_nat (by omega)]; rfl
  rw [hp]
  refine holesVal_err _ holes ?_ _ _ ?_
  · rw [← hp]; exact hE
  · rw [edgeVal_rnd G w53.le h53.le hx hy, sub_self, abs_zero]; exact h0

section
variable (hw : 2 ≤ w) (hh : 2 ≤ h) (hw2 : w ≤ 2 ^ 20) (hh2 : h ≤ 2 ^ 20) (hN : (w + 1) * (h + 1) < 2 ^ 31) (hb : bandWidth < 2 ^ 32)
  (e : LevelSet.new w h (.holes holes) moveLimit bandWidth f = .ok L) (S : Separate w h (holes.map holeVal))
include hw hh hw2 hh2 hN hb e S

theorem separate_near {M : LevelSet ℝ} {ml : ℝ} {bw : Nat} {g : Bool} (hbw : bw < 2 ^ 32)
    (e' : LevelSet.new w h (.holes (holes.map holeVal)) ml bw g = .ok M) {x y : Nat} (hx : x ≤ w) (hy : y ≤ h) :
    |lay w L.signedDistance x y - level w M false x y| ≤ 1 / 10 ^ 7 := by
  refine holes_near (by omega) (by omega) hN hb e hbw e' hx hy (by norm_num) fun c hc => ?_
  have hm : holeVal c ∈ holes.map holeVal := List.mem_map_of_mem hc
  have p := S.pos _ hm
  obtain ⟨i1, i2, i3, i4⟩ := S.inside _ hm
  generalize holeVal c = q at *
  have wr : (w : ℝ) ≤ 2 ^ 20 := by exact_mod_cast hw2
  have hr : (h : ℝ) ≤ 2 ^ 20 := by exact_mod_cast hh2
  have xr : (x : ℝ) ≤ w := by exact_mod_cast hx
  have yr : (y : ℝ) ≤ h := by exact_mod_cast hy
  have x0 : (0 : ℝ) ≤ x := by positivity
  have y0 : (0 : ℝ) ≤ y := by positivity
  have hd : Slsm.distance q.coord (lattice x y) ≤ 2 ^ 21 := by
    unfold Slsm.distance lattice
    dsimp only
    refine Real.sqrt_le_iff.2 ⟨by positivity, ?_⟩
    have a1 : |q.coord.x - x| ≤ 2 ^ 20 := by rw [abs_le]; constructor <;> linarith
    have a2 : |q.coord.y - y| ≤ 2 ^ 20 := by rw [abs_le]; constructor <;> linarith
    have b1 : (q.coord.x - x) ^ 2 ≤ (2 ^ 20) ^ 2 := sq_le_sq' (by linarith [(abs_le.1 a1).1]) (abs_le.1 a1).2
    have b2 : (q.coord.y - y) ^ 2 ≤ (2 ^ 20) ^ 2 := sq_le_sq' (by linarith [(abs_le.1 a2).1]) (abs_le.1 a2).2
    norm_num at b1 b2 ⊢
    linarith
  rw [abs_of_pos p]
  norm_num at hd wr ⊢
  linarith

/-- The value is that of a hole or zero (on the domain edge). -/
theorem separate_value {M : LevelSet ℝ} {ml : ℝ} {bw : Nat} {g : Bool} (hbw : bw < 2 ^ 32)
    (e' : LevelSet.new w h (.holes (holes.map holeVal)) ml bw g = .ok M) {x y : Nat} (hx : x ≤ w) (hy : y ≤ h) :
    level w M false x y = 0 ∨ 4 / 10 ^ 6 ≤ |level w M false x y| := by
  rcases (C23_holes_exact (by omega) (by omega) hN hbw e' hx hy).1 with h1 | ⟨c, hc, h1⟩
  · rw [Set.mem_singleton_iff] at h1
    change level w M false x y = _ at h1
    rcases Nat.eq_zero_or_pos (edgeDist w h x y) with h0 | h0
    · left; rw [h1, h0, Nat.cast_zero]
    · right
      have : (1 : ℝ) ≤ edgeDist w h x y := by exact_mod_cast h0
      rw [h1, abs_of_pos (by linarith)]
      norm_num
      linarith
  · change level w M false x y = _ at h1
    right
    rw [h1]
    exact S.generic c hc x y hx hy

theorem separate_sides {M : LevelSet ℝ} {ml : ℝ} {bw : Nat} {g : Bool} (hbw : bw < 2 ^ 32)
    (e' : LevelSet.new w h (.holes (holes.map holeVal)) ml bw g = .ok M) : SameSides w h (R.sides (lay w L.signedDistance)) (level w M false) := by
  intro x y hx hy
  have h1 := separate_near hw hh hw2 hh2 hN hb e S hbw e' hx hy
  have h2 := separate_value hw hh hw2 hh2 hN hb e S hbw e' hx hy
  have ht := tol_near (R := R)
  norm_num at h1 h2 ht
  generalize level w M false x y = v at *
  unfold Rounding.sides
  generalize lay w L.signedDistance x y = u at *
  rw [abs_le] at h1
  rcases h2 with rfl | h2
  · rw [if_pos (by rw [abs_lt]; constructor <;> linarith)]
  · rcases le_abs.1 h2 with h3 | h3
    · rw [if_neg (by rw [abs_lt]; intro hc; linarith [hc.2]), if_neg (by linarith), nodeSide_inside.2 (by norm_num), nodeSide_inside.2 (by norm_num; linarith)]
    · rw [if_neg (by rw [abs_lt]; intro hc; linarith [hc.1]), if_pos (by linarith), nodeSide_outside.2 (by norm_num), nodeSide_outside.2 (by norm_num; linarith)]

/-- Discretisation of the boundary of separate holes in rounded arithmetic. -/
theorem separate_clear : Clear w h L false ∧ (f = false → Shown w h L false) := by
  obtain ⟨M, e'⟩ := exact_holes (R := R) (by omega : 1 ≤ w) (by omega : 1 ≤ h) hN holes f
  have b3 : 3 < 2 ^ 32 := by norm_num
  have SS := separate_sides hw hh hw2 hh2 hN hb e S b3 e'
  have NR := fun {x y : Nat} => separate_near hw hh hw2 hh2 hN hb e S b3 e' (x := x) (y := y)
  have VA := fun {x y : Nat} => separate_value hw hh hw2 hh2 hN hb e S b3 e' (x := x) (y := y)
  have hr : Reachable w h L := .new (by omega) (by omega) hN hb e
  have B := built (by omega : 1 ≤ w) (by omega : 1 ≤ h) hN hb e
  have Gt := holes_gentle (by omega) (by omega) hN b3 e'
  have hbw : (2 : ℝ) < L.bandWidth := by exact_mod_cast hr.core.bandWidth.1
  have hbv : (FP.nat L.bandWidth : R.Num).val = L.bandWidth := val_nat (by
    have : L.bandWidth = bandWidth := B.params.2.1
    rw [this]
    norm_num at hb ⊢
    omega)
  have look : ∀ {x y : Nat}, x ≤ w → y ≤ h → |lay w L.signedDistance x y| ≤ 2 → (L.isFixedDomain = true → ¬ onEdge w h x y) → Looked w L x y := by
    intro x y hx hy hv hd
    have : L.InBand (nodeNo w x y) := by
      refine ⟨⟨by rw [hr.core.grid.nNodes]; exact nodeNo_lt hx hy, B.unmasked _, fun hf hE => hd hf ((C31_edge hr hx hy).1 hE)⟩, ?_⟩
      rw [lt_iff, val_abs, hbv]
      exact lt_of_le_of_lt hv hbw
    obtain ⟨nd, h4, h5⟩ := (B.band.active _).2 this
    exact ⟨nd, h4, .inl h5⟩
  -- values at the ends of cut edges
  have ends : ∀ {p : Place}, CutEdge w h (R.sides (lay w L.signedDistance)) p → ∀ q ∈ p.ends, |lay w L.signedDistance q.1 q.2| ≤ 2 ∧
      (nodeSide (level w M false q.1 q.2) = .inside ∨ nodeSide (level w M false q.1 q.2) = .outside) ∧ q.1 ≤ w ∧ q.2 ≤ h := by
    intro p hp q hq
    have hp' := SS.cutEdge.1 hp
    have hg := hp.1 q hq
    have key : ∀ {u v : ℝ}, Crossed (nodeSide u) (nodeSide v) → |u - v| ≤ 1 → |u| ≤ 1 ∧ |v| ≤ 1 ∧ (nodeSide u = .inside ∨ nodeSide u = .outside) ∧
        (nodeSide v = .inside ∨ nodeSide v = .outside) := by
      intro u v hc hd
      rw [abs_le] at hd
      rcases hc with ⟨h1, h2⟩ | ⟨h1, h2⟩
      · refine ⟨?_, ?_, .inl h1, .inr h2⟩ <;> rw [nodeSide_inside] at h1 <;> rw [nodeSide_outside] at h2 <;> norm_num at h1 h2 <;> rw [abs_le] <;>
          constructor <;> linarith
      · refine ⟨?_, ?_, .inr h1, .inl h2⟩ <;> rw [nodeSide_outside] at h1 <;> rw [nodeSide_inside] at h2 <;> norm_num at h1 h2 <;> rw [abs_le] <;>
          constructor <;> linarith
    have hn := NR hg.1 hg.2
    have small : |level w M false q.1 q.2| ≤ 1 → |lay w L.signedDistance q.1 q.2| ≤ 2 := by
      intro h1
      norm_num at hn
      rw [abs_le] at hn h1 ⊢
      constructor <;> linarith [hn.1, hn.2, h1.1, h1.2]
    obtain ⟨hpg, hc, hnn⟩ := hp'
    cases p with
    | node x y => exact absurd rfl (hnn x y)
    | hor x y =>
      have g2 := hpg (x + 1, y) (by simp [Place.ends])
      obtain ⟨k1, k2, k3, k4⟩ := key hc (Gt.1 x y g2.1 g2.2 hc)
      simp only [Place.ends, List.mem_cons, List.not_mem_nil, or_false] at hq
      rcases hq with rfl | rfl
      · exact ⟨small k1, k3, hg⟩
      · exact ⟨small k2, k4, hg⟩
    | ver x y =>
      have g2 := hpg (x, y + 1) (by simp [Place.ends])
      obtain ⟨k1, k2, k3, k4⟩ := key hc (Gt.2 x y g2.1 g2.2 hc)
      simp only [Place.ends, List.mem_cons, List.not_mem_nil, or_false] at hq
      rcases hq with rfl | rfl
      · exact ⟨small k1, k3, hg⟩
      · exact ⟨small k2, k4, hg⟩
  have away : ∀ {u v u' v' : ℝ}, Crossed (nodeSide u') (nodeSide v') → |u' - v'| ≤ 1 → |u - u'| ≤ 1 / 10 ^ 7 → |v - v'| ≤ 1 / 10 ^ 7 →
      (u' = 0 ∨ 4 / 10 ^ 6 ≤ |u'|) → (v' = 0 ∨ 4 / 10 ^ 6 ≤ |v'|) → 2 / 10 ^ 6 * |u - v| ≤ |u| ∧ 2 / 10 ^ 6 * |u - v| ≤ |v| := by
    intro u v u' v' hc h1 h2 h3 h4 h5
    have nz : ∀ {a : ℝ}, a = 0 → nodeSide a = .boundary := by rintro a rfl; rw [nodeSide_boundary]; norm_num
    have h4' : 4 / 10 ^ 6 ≤ |u'| := h4.resolve_left fun h => (crossed_off hc).1 (nz h)
    have h5' : 4 / 10 ^ 6 ≤ |v'| := h5.resolve_left fun h => (crossed_off hc).2 (nz h)
    have a1 : |u - v| ≤ 1 + 2 / 10 ^ 7 := by
      rw [abs_le] at *
      constructor <;> linarith [h1.1, h1.2, h2.1, h2.2, h3.1, h3.2]
    have a2 : |u'| ≤ |u| + |u - u'| := by
      have := abs_sub u (u - u'); rwa [sub_sub_cancel] at this
    have a3 : |v'| ≤ |v| + |v - v'| := by
      have := abs_sub v (v - v'); rwa [sub_sub_cancel] at this
    norm_num at *
    constructor <;> linarith
  have D : Distinct w h L false := by
    refine ⟨hr.core.grid, le_of_eq hr.core.sd.symm, hN, fun p hp => ?_⟩
    have hp' := SS.cutEdge.1 hp
    obtain ⟨hpg, hc, hnn⟩ := hp'
    cases p with
    | node x y => exact absurd rfl (hnn x y)
    | hor x y =>
      have g1 := hpg (x, y) (by simp [Place.ends])
      have g2 := hpg (x + 1, y) (by simp [Place.ends])
      exact away hc (Gt.1 x y g2.1 g2.2 hc) (NR g1.1 g1.2) (NR g2.1 g2.2) (VA g1.1 g1.2) (VA g2.1 g2.2)
    | ver x y =>
      have g1 := hpg (x, y) (by simp [Place.ends])
      have g2 := hpg (x, y + 1) (by simp [Place.ends])
      exact away hc (Gt.2 x y g2.1 g2.2 hc) (NR g1.1 g1.2) (NR g2.1 g2.2) (VA g1.1 g1.2) (VA g2.1 g2.2)
  -- nodes on the domain edge are not inside
  have edge : ∀ {x y : Nat}, x ≤ w → y ≤ h → nodeSide (level w M false x y) = .inside → ¬ onEdge w h x y := by
    intro x y hx hy hi hE
    have hle := (C23_holes_exact (by omega) (by omega) hN b3 e' hx hy).2 (.inl rfl)
    change level w M false x y ≤ _ at hle
    have h0 : edgeDist w h x y = 0 := by
      unfold onEdge at hE
      unfold edgeDist
      simp only [Nat.min_def]
      split_ifs <;> omega
    rw [h0, Nat.cast_zero] at hle
    rw [nodeSide_inside] at hi
    norm_num at hi
    linarith
  have T : Tidy w h (R.sides (lay w L.signedDistance)) :=
    SS.symm.tidy (holes_rim hw hh hN b3 e' S.inside fun c hc x y hx hy => le_trans (by norm_num) (S.generic c hc x y hx hy)).tidy
  refine ⟨⟨D, .inr fun p hp => ?_, T⟩, fun hf => ⟨fun x y hx hy hs => ?_, fun p hp q hq => ?_⟩⟩
  · have hp' := SS.cutEdge.1 hp
    obtain ⟨q, hq, hi⟩ : ∃ q ∈ p.ends, nodeSide (level w M false q.1 q.2) = .inside := by
      obtain ⟨hpg, hc, hnn⟩ := hp'
      cases p with
      | node x y => exact absurd rfl (hnn x y)
      | hor x y =>
        rcases hc with ⟨h1, -⟩ | ⟨-, h1⟩
        · exact ⟨(x, y), by simp [Place.ends], h1⟩
        · exact ⟨(x + 1, y), by simp [Place.ends], h1⟩
      | ver x y =>
        rcases hc with ⟨h1, -⟩ | ⟨-, h1⟩
        · exact ⟨(x, y), by simp [Place.ends], h1⟩
        · exact ⟨(x, y + 1), by simp [Place.ends], h1⟩
    obtain ⟨v, -, gx, gy⟩ := ends hp q hq
    exact ⟨q, hq, look gx gy v fun _ => edge gx gy hi⟩
  · refine look hx hy ?_ fun h => ?_
    · have h1 : |lay w L.signedDistance x y| < R.tol := by
        change R.sides (lay w L.signedDistance) x y = 0 at hs
        unfold Rounding.sides at hs
        split_ifs at hs with h1 h2
        · exact h1
        · norm_num at hs
        · norm_num at hs
      have := (tol_near (R := R)).2
      norm_num at this
      linarith
    · rw [B.params.2.2, hf] at h; cases h
  · obtain ⟨v, -, gx, gy⟩ := ends hp q hq
    exact look gx gy v fun h => by rw [B.params.2.2, hf] at h; cases h

end

end Boundary

end Slsm
