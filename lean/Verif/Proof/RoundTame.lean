import Verif.Proof.RoundStand
import Verif.Props.Boundary

/-! Transfer of the results on discretised boundaries from exact to rounded arithmetic. -/

namespace Slsm

open FP

/-! ### Only the sides matter -/

section congr
variable {w h : Nat} {f g : Nat → Nat → ℝ}

/-- The same sides on the grid. -/
def SameSides (w h : Nat) (f g : Nat → Nat → ℝ) : Prop := ∀ x y, x ≤ w → y ≤ h → nodeSide (f x y) = nodeSide (g x y)

theorem SameSides.symm (H : SameSides w h f g) : SameSides w h g f := fun x y hx hy => (H x y hx hy).symm

theorem SameSides.onContour (H : SameSides w h f g) {p : Place} (hp : p.inGrid w h) : p.onContour f ↔ p.onContour g := by
  cases p with
  | node x y =>
    have := hp (x, y) (by simp [Place.ends])
    unfold Place.onContour
    dsimp only
    rw [H x y this.1 this.2]
  | hor x y =>
    have h1 := hp (x, y) (by simp [Place.ends])
    have h2 := hp (x + 1, y) (by simp [Place.ends])
    unfold Place.onContour
    dsimp only
    rw [H x y h1.1 h1.2, H (x + 1) y h2.1 h2.2]
  | ver x y =>
    have h1 := hp (x, y) (by simp [Place.ends])
    have h2 := hp (x, y + 1) (by simp [Place.ends])
    unfold Place.onContour
    dsimp only
    rw [H x y h1.1 h1.2, H x (y + 1) h2.1 h2.2]

theorem SameSides.cutEdge (H : SameSides w h f g) {p : Place} : CutEdge w h f p ↔ CutEdge w h g p :=
  ⟨fun ⟨a, b, c⟩ => ⟨a, (H.onContour a).1 b, c⟩, fun ⟨a, b, c⟩ => ⟨a, (H.onContour a).2 b, c⟩⟩

theorem SameSides.generic (H : SameSides w h f g) : Generic w h f ↔ Generic w h g :=
  ⟨fun G x y hx hy => by rw [← H x y hx hy]; exact G x y hx hy, fun G x y hx hy => by rw [H x y hx hy]; exact G x y hx hy⟩

theorem SameSides.latticeEnds (H : SameSides w h f g) {x y : Nat} (hx : x ≤ w) (hy : y ≤ h) : latticeEnds w h f x y = latticeEnds w h g x y := by
  unfold Slsm.latticeEnds
  congr 1
  congr 1
  congr 1
  · split_ifs with c
    · rw [H _ _ (by omega) (by omega), H _ _ (by omega) (by omega), H _ _ (by omega) (by omega)]
    · rfl
  · split_ifs with c
    · rw [H _ _ (by omega) (by omega), H _ _ (by omega) (by omega), H _ _ (by omega) (by omega)]
    · rfl
  · split_ifs with c
    · rw [H _ _ (by omega) (by omega), H _ _ (by omega) (by omega), H _ _ (by omega) (by omega)]
    · rfl
  · split_ifs with c
    · rw [H _ _ (by omega) (by omega), H _ _ (by omega) (by omega), H _ _ (by omega) (by omega)]
    · rfl

theorem SameSides.tidy (H : SameSides w h f g) (T : Tidy w h f) : Tidy w h g := by
  refine ⟨fun x y hx hy => ?_, fun x y hx hy hb => ?_⟩
  · obtain ⟨q, hq, hn⟩ := T.flat x y hx hy
    refine ⟨q, hq, ?_⟩
    have : q.1 ≤ w ∧ q.2 ≤ h := by
      simp only [List.mem_cons, List.not_mem_nil, or_false] at hq
      rcases hq with rfl | rfl | rfl | rfl <;> dsimp only <;> omega
    rw [← H _ _ this.1 this.2]
    exact hn
  · rw [← H.latticeEnds hx hy]
    exact T.ends x y hx hy (by rw [H x y hx hy]; exact hb)

theorem SameSides.tidy_iff (H : SameSides w h f g) : Tidy w h f ↔ Tidy w h g := ⟨H.tidy, H.symm.tidy⟩

end congr

namespace Boundary

open Rounding

section
variable {R : Rounding} {w h : Nat} {L : LevelSet R.Num} {isTarget : Bool} {far : Nat → Nat → Prop}

/-- The sides of the values in rounded arithmetic. -/
noncomputable abbrev sideMap (w : Nat) (L : LevelSet R.Num) (isTarget : Bool) : Nat → Nat → ℝ := R.sides (lay w (values L isTarget))

/-- The stand-in. -/
noncomputable abbrev stand (w h : Nat) (L : LevelSet R.Num) (isTarget : Bool) (far : Nat → Nat → Prop) : LevelSet ℝ :=
  standIn w L isTarget (standVal w h (values L isTarget) far)

theorem stand_level (G : IsGrid w h L.mesh) {x y : Nat} (hx : x ≤ w) (hy : y ≤ h) :
    level w (stand w h L isTarget far) isTarget x y = standVal w h (values L isTarget) far x y := standIn_level G _ _ hx hy

theorem stand_sides (G : IsGrid w h L.mesh) : SameSides w h (sideMap w L isTarget) (level w (stand w h L isTarget far) isTarget) := by
  intro x y hx hy
  rw [stand_level G hx hy, standVal_side hx hy]

theorem standVal_far {sd : List R.Num} {x y : Nat} (hx : x ≤ w) (hy : y ≤ h) (hs : nodeSide (R.sides (lay w sd) x y) ≠ .boundary) :
    1 / 8 ≤ |standVal w h sd far x y| := by
  have h1 : |R.sides (lay w sd) x y| = 1 := by
    rcases sides_cases (R := R) (lay w sd) x y with e | e | e
    · exact absurd (by rw [e]; unfold nodeSide; norm_num) hs
    · rw [e]; norm_num
    · rw [e]; norm_num
  unfold standVal
  split
  · rw [abs_mul, h1]; norm_num
  · have := (factor_bounds (sd := sd) hx hy).1
    rw [abs_mul, h1, abs_of_nonneg (by linarith), one_mul]
    exact this

theorem crossed_off {a b : NodeStatus} (hc : Crossed a b) : a ≠ .boundary ∧ b ≠ .boundary := by
  rcases hc with ⟨rfl, rfl⟩ | ⟨rfl, rfl⟩ <;> simp

theorem stand_within (G : IsGrid w h L.mesh) (hF : FarOk w h (sideMap w L isTarget) far) (p : Place) (hp : p.inGrid w h)
    (hc : p.onContour (level w (stand w h L isTarget far) isTarget)) :
    p.within (1 / 10 ^ 6) (p.coord (level w (stand w h L isTarget far) isTarget)).x (p.coord (level w (stand w h L isTarget far) isTarget)).y := by
  refine Place.within_coord (by norm_num) ((onContour_iff_meets _ _).1 hc) ?_
  have hc' := (stand_sides G).onContour hp |>.2 hc
  have key : ∀ a b : ℝ, 1 / 8 ≤ |a| → 1 / 8 ≤ |b| → |a| ≤ 3 / 8 → |b| ≤ 3 / 8 → 1 / 10 ^ 6 * |a - b| ≤ |a| ∧ 1 / 10 ^ 6 * |a - b| ≤ |b| := by
    intro a b h1 h2 h3 h4
    have := abs_sub a b
    constructor <;> linarith
  cases p with
  | node x y => trivial
  | hor x y =>
    have h1 := hp (x, y) (by simp [Place.ends])
    have h2 := hp (x + 1, y) (by simp [Place.ends])
    have hE : CutEdge w h (sideMap w L isTarget) (.hor x y) := ⟨hp, hc', by simp⟩
    have ho := crossed_off (show Crossed _ _ from hc')
    unfold Place.away
    dsimp only at h1 h2 ⊢
    rw [stand_level G h1.1 h1.2, stand_level G h2.1 h2.2]
    exact key _ _ (standVal_far h1.1 h1.2 ho.1) (standVal_far h2.1 h2.2 ho.2)
      (standVal_near h1.1 h1.2 (hF _ hE (x, y) (by simp [Place.ends]))) (standVal_near h2.1 h2.2 (hF _ hE (x + 1, y) (by simp [Place.ends])))
  | ver x y =>
    have h1 := hp (x, y) (by simp [Place.ends])
    have h2 := hp (x, y + 1) (by simp [Place.ends])
    have hE : CutEdge w h (sideMap w L isTarget) (.ver x y) := ⟨hp, hc', by simp⟩
    have ho := crossed_off (show Crossed _ _ from hc')
    unfold Place.away
    dsimp only at h1 h2 ⊢
    rw [stand_level G h1.1 h1.2, stand_level G h2.1 h2.2]
    exact key _ _ (standVal_far h1.1 h1.2 ho.1) (standVal_far h2.1 h2.2 ho.2)
      (standVal_near h1.1 h1.2 (hF _ hE (x, y) (by simp [Place.ends]))) (standVal_near h2.1 h2.2 (hF _ hE (x, y + 1) (by simp [Place.ends])))

theorem sumAt_real (sd : List ℝ) (x y : Nat) : sumAt w sd x y =
    vals sd (nodeNo w x y) + vals sd (nodeNo w (x + 1) y) + vals sd (nodeNo w (x + 1) (y + 1)) + vals sd (nodeNo w x (y + 1)) := by
  unfold sumAt
  simp only [FP.add_real, FP.nat_real]
  norm_num
  rfl

theorem alternating_far {sd : List R.Num} {x y : Nat} (hx : x < w) (hy : y < h) (ha : Alternating w sd x y) (hF : FarOk w h (R.sides (lay w sd)) far) :
    ¬ far x y ∧ ¬ far (x + 1) y ∧ ¬ far (x + 1) (y + 1) ∧ ¬ far x (y + 1) := by
  obtain ⟨s, hs, e0, e1, e2, e3⟩ := alternating_sides ha
  have n1 : nodeSide (1 : ℝ) = .inside := by unfold nodeSide; norm_num
  have n2 : nodeSide (-1 : ℝ) = .outside := by unfold nodeSide; norm_num
  have c1 : CutEdge w h (R.sides (lay w sd)) (.hor x y) := by
    refine ⟨fun q hq => ?_, ?_, by simp⟩
    · simp only [Place.ends, List.mem_cons, List.not_mem_nil, or_false] at hq
      rcases hq with rfl | rfl <;> dsimp only <;> omega
    · show Crossed _ _
      rw [e0, e1]
      rcases hs with rfl | rfl <;> simp [n1, n2, Crossed]
  have c2 : CutEdge w h (R.sides (lay w sd)) (.hor x (y + 1)) := by
    refine ⟨fun q hq => ?_, ?_, by simp⟩
    · simp only [Place.ends, List.mem_cons, List.not_mem_nil, or_false] at hq
      rcases hq with rfl | rfl <;> dsimp only <;> omega
    · show Crossed _ _
      rw [e2, e3]
      rcases hs with rfl | rfl <;> simp [n1, n2, Crossed]
  exact ⟨hF _ c1 (x, y) (by simp [Place.ends]), hF _ c1 (x + 1, y) (by simp [Place.ends]), hF _ c2 (x + 1, y + 1) (by simp [Place.ends]),
    hF _ c2 (x, y + 1) (by simp [Place.ends])⟩

theorem sgn_pos (s : R.Num) {c : ℝ} (hc : 0 < c) : (0 < sgn s / c ↔ 0 < s.val) ∧ (sgn s / c < 0 ↔ s.val < 0) := by
  unfold sgn
  split_ifs with h1 h2
  · have : 0 < 1 / c := by positivity
    exact ⟨⟨fun _ => h1, fun _ => this⟩, ⟨fun h => absurd h (by linarith), fun h => absurd h (by linarith)⟩⟩
  · have : 0 < 1 / c := by positivity
    rw [show -1 / c = -(1 / c) by ring]
    exact ⟨⟨fun h => absurd h (by linarith), fun h => absurd h h1⟩, ⟨fun _ => h2, fun _ => by linarith⟩⟩
  · rw [zero_div]
    exact ⟨⟨fun h => absurd h (lt_irrefl _), fun h => absurd h h1⟩, ⟨fun h => absurd h (lt_irrefl _), fun h => absurd h h2⟩⟩

/-- The stand-in decides like the values in rounded arithmetic. -/
theorem stand_alike (T : Distinct w h L isTarget) (hF : FarOk w h (sideMap w L isTarget) far) :
    Alike w h L.moveLimit L.mesh (values L isTarget) (stand w h L isTarget far).moveLimit (stand w h L isTarget far).mesh
      (values (stand w h L isTarget far) isTarget) (Pos w h (values L isTarget) (level w (stand w h L isTarget far) isTarget)) := by
  have G := T.grid
  refine alike T ?_ ?_ ?_ ?_ ?_ (stand_within G hF)
  · rw [standIn_mesh]; exact exact_grid G T.fit
  · rw [standIn_values, standIn_mesh, List.length_map, List.length_range]
    exact le_refl _
  · intro x y hx hy
    rw [← sides_side]
    exact stand_sides G x y hx hy
  · intro i a b ha hb
    rw [standIn_mesh] at hb
    exact exact_node _ ha hb
  · intro x y hx hy ha
    have hf := alternating_far hx hy ha hF
    have hs := standVal_sum (h := h) ha hf
    have e : sumAt w (values (stand w h L isTarget far) isTarget) x y = sgn (sumAt w (values L isTarget) x y) / (8 * (w * h + 1)) := by
      rw [sumAt_real, ← hs, ← stand_level G (by omega) (by omega), ← stand_level G (by omega) (by omega), ← stand_level G (by omega) (by omega),
        ← stand_level G (by omega) (by omega)]
      rfl
    have hp : (0 : ℝ) < 8 * (w * h + 1) := by positivity
    have := sgn_pos (sumAt w (values L isTarget) x y) hp
    rw [e]
    constructor
    · rw [Bool.eq_iff_iff, lt_iff, val_zero, FP.lt_real, FP.nat_real, Nat.cast_zero]
      exact this.1.symm
    · rw [Bool.eq_iff_iff, lt_iff, val_zero, FP.lt_real, FP.nat_real, Nat.cast_zero]
      exact this.2.symm

theorem stand_lock (T : Distinct w h L isTarget) (hF : FarOk w h (sideMap w L isTarget) far) :
    Lock (OutSim (Pos w h (values L isTarget) (level w (stand w h L isTarget far) isTarget))) (discretise L isTarget)
      (discretise (stand w h L isTarget far) isTarget) := discretise_lock (stand_alike T hF)

theorem stand_ready (T : Distinct w h L isTarget) : Ready w h (stand w h L isTarget far) isTarget := by
  refine ⟨?_, ?_, lt_trans T.fit (by norm_num)⟩
  · rw [standIn_mesh]; exact exact_grid T.grid T.fit
  · rw [standIn_values, standIn_mesh, List.length_map, List.length_range]
    exact le_refl _

theorem stand_looked {x y : Nat} (hl : Looked w L x y) : Looked w (stand w h L isTarget far) x y := by
  obtain ⟨nd, h1, h2⟩ := hl
  unfold Looked
  rw [standIn_mesh]
  unfold Mesh.map
  dsimp only
  rw [List.getElem?_map, h1]
  exact ⟨_, rfl, h2⟩

theorem stand_gentle (G : IsGrid w h L.mesh) (hF : FarOk w h (sideMap w L isTarget) far) :
    Gentle w h (level w (stand w h L isTarget far) isTarget) := by
  have := standVal_gentle hF
  constructor
  · intro x y hx hy
    rw [stand_level G (by omega) hy, stand_level G hx hy]
    exact this.1 x y hx hy
  · intro x y hx hy
    rw [stand_level G hx (by omega), stand_level G hx hy]
    exact this.2 x y hx hy

/-- Nothing is far. -/
def nowhere : Nat → Nat → Prop := fun _ _ => False

theorem nowhere_ok {s : Nat → Nat → ℝ} : FarOk w h s nowhere := fun _ _ _ _ h => h

/-- Nodes that are not looked at, unless the target is discretised. -/
def unseen (w : Nat) (L : LevelSet R.Num) (isTarget : Bool) (x y : Nat) : Prop := isTarget = false ∧ ¬ Looked w L x y

theorem unseen_ok (hS : isTarget = true ∨ Shown w h L isTarget) : FarOk w h (sideMap w L isTarget) (unseen w L isTarget) := by
  intro p hp q hq hf
  rcases hS with h1 | h1
  · rw [h1] at hf; cases hf.1
  · exact hf.2 (h1.2 p hp q hq)

theorem stand_near (G : IsGrid w h L.mesh) (hS : isTarget = true ∨ Shown w h L isTarget) :
    isTarget = true ∨ NearSeen w h (stand w h L isTarget (unseen w L isTarget)) isTarget := by
  rcases hS with h1 | h1
  · exact .inl h1
  · cases isTarget with
    | true => exact .inl rfl
    | false =>
      right
      intro x y hx hy hv
      rw [stand_level G hx hy] at hv
      by_cases hl : Looked w L x y
      · exact stand_looked hl
      · exfalso
        unfold standVal at hv
        rw [if_pos ⟨rfl, hl⟩, abs_mul] at hv
        rcases sides_cases (R := R) (lay w (values L false)) x y with e | e | e
        · exact hl (h1.1 x y hx hy e)
        · rw [e] at hv; norm_num at hv
        · rw [e] at hv; norm_num at hv

theorem stand_tame (C : Clear w h L isTarget) (hF : FarOk w h (sideMap w L isTarget) far) : Tame w h (stand w h L isTarget far) isTarget := by
  refine ⟨stand_ready C.toDistinct, stand_gentle C.grid hF, ?_, (stand_sides C.grid).tidy C.tidy⟩
  rcases C.seen with h1 | h1
  · exact .inl h1
  · right
    intro p hp
    obtain ⟨q, hq, hl⟩ := h1 p ((stand_sides C.grid).cutEdge.2 hp)
    exact ⟨q, hq, stand_looked hl⟩

/-! ### Results in the two arithmetics -/

theorem Lock.ok_left {α β : Type} {P : α → β → Prop} {r : Res α} {s : Res β} (H : Lock P r s) {a : α} (e : r = .ok a) : ∃ b, s = .ok b ∧ P a b := by
  subst e
  cases s with
  | ok b => exact ⟨b, rfl, H⟩
  | error e => exact H.elim

theorem Lock.ok_right {α β : Type} {P : α → β → Prop} {r : Res α} {s : Res β} (H : Lock P r s) {b : β} (e : s = .ok b) : ∃ a, r = .ok a ∧ P a b := by
  subst e
  cases r with
  | ok a => exact ⟨a, rfl, H⟩
  | error e => exact H.elim

theorem Lock.error_right {α β : Type} {P : α → β → Prop} {r : Res α} {s : Res β} (H : Lock P r s) {x : Err} (e : s = .error x) : r = .error x := by
  subst e
  cases r with
  | ok a => exact H.elim
  | error e => exact congrArg _ H

theorem sim_segmentsOf {D E : Type} {b : Boundary D} {b' : Boundary E} (hs : List.Forall₂ SegSim b.segments b'.segments) (k : Nat) :
    segmentsOf b k = segmentsOf b' k := by
  unfold segmentsOf
  rw [hs.length_eq]
  refine List.filter_congr fun i _ => ?_
  rcases pairs_get hs i with ⟨h1, h2⟩ | ⟨a, c, h1, h2, h3⟩
  · rw [h1, h2]
    rfl
  · rw [h1, h2]
    simp only [Option.any_some, h3.start, h3.stop]

theorem sim_neighboursOf {D E : Type} {b : Boundary D} {b' : Boundary E} (hs : List.Forall₂ SegSim b.segments b'.segments) (k : Nat) :
    neighboursOf b k = neighboursOf b' k := by
  unfold neighboursOf
  rw [sim_segmentsOf hs]
  refine List.filterMap_congr fun i _ => ?_
  rcases pairs_get hs i with ⟨h1, h2⟩ | ⟨a, c, h1, h2, h3⟩
  · rw [h1, h2]
    rfl
  · rw [h1, h2]
    simp only [Option.map_some, h3.start, h3.stop]

/-- A place is determined by a point in it. -/
theorem Place.within_unique {m a b : ℝ} (hm : 0 < m) (hm1 : m ≤ 1) {p q : Place} (hp : p.within m a b) (hq : q.within m a b) : p = q := by
  by_contra hne
  rcases Place.apart hm.le hm1 hp hq hne with h | h <;> rw [sub_self, abs_zero] at h <;> linarith

/-- A point of a place on the contour that lies on a cut edge is a point of that edge. -/
theorem edge_unique {s : Nat → Nat → ℝ} {m a b : ℝ} (hm : 0 < m) {p q : Place} (hp : CutEdge w h s p)
    (ha : p.has a b) (hq : q.onContour s) (hw : q.within m a b) : q = p := by
  obtain ⟨-, hc, hn⟩ := hp
  have lt1 : ∀ {x u : ℕ}, (x : ℝ) < u + 1 → x ≤ u := fun h => Nat.lt_succ_iff.1 (by exact_mod_cast h)
  cases p with
  | node x y => exact absurd rfl (hn x y)
  | hor x y =>
    obtain ⟨h1, h2, rfl⟩ := ha
    have ho := crossed_off (show Crossed _ _ from hc)
    cases q with
    | node u v =>
      obtain ⟨rfl, hv⟩ := hw
      have hv : y = v := by exact_mod_cast hv
      subst hv
      have e1 : x ≤ u := by exact_mod_cast h1
      have e2 : u ≤ x + 1 := by exact_mod_cast h2
      rcases (by omega : u = x ∨ u = x + 1) with rfl | rfl
      · exact absurd hq ho.1
      · exact absurd hq ho.2
    | hor u v =>
      obtain ⟨g1, g2, hv⟩ := hw
      have hv : y = v := by exact_mod_cast hv
      have e1 : x ≤ u := lt1 (by linarith)
      have e2 : u ≤ x := lt1 (by linarith)
      rw [hv, le_antisymm e1 e2]
    | ver u v =>
      obtain ⟨-, g1, g2⟩ := hw
      have e1 : y ≤ v := lt1 (by linarith)
      have e2 : v < y := by
        have : (v : ℝ) < y := by linarith
        exact_mod_cast this
      omega
  | ver x y =>
    obtain ⟨rfl, h1, h2⟩ := ha
    have ho := crossed_off (show Crossed _ _ from hc)
    cases q with
    | node u v =>
      obtain ⟨hu, rfl⟩ := hw
      have hu : x = u := by exact_mod_cast hu
      subst hu
      have e1 : y ≤ v := by exact_mod_cast h1
      have e2 : v ≤ y + 1 := by exact_mod_cast h2
      rcases (by omega : v = y ∨ v = y + 1) with rfl | rfl
      · exact absurd hq ho.1
      · exact absurd hq ho.2
    | ver u v =>
      obtain ⟨hu, g1, g2⟩ := hw
      have hu : x = u := by exact_mod_cast hu
      have e1 : y ≤ v := lt1 (by linarith)
      have e2 : v ≤ y := lt1 (by linarith)
      rw [hu, le_antisymm e1 e2]
    | hor u v =>
      obtain ⟨g1, g2, -⟩ := hw
      have e1 : x ≤ u := lt1 (by linarith)
      have e2 : u < x := by
        have : (u : ℝ) < x := by linarith
        exact_mod_cast this
      omega

/-- Places on the contour in rounded arithmetic. -/
theorem meets_onContour {sd : List R.Num} {p : Place} : p.meets R.tol (lay w sd) ↔ p.onContour (R.sides (lay w sd)) := by
  have hb : ∀ x y, nodeSide (R.sides (lay w sd) x y) = .boundary ↔ |lay w sd x y| < R.tol := fun x y => by
    rw [sides_side]; exact status_boundary _
  have ho : ∀ x y, nodeSide (R.sides (lay w sd) x y) = .outside ↔ lay w sd x y ≤ -R.tol := fun x y => by
    rw [sides_side]; exact status_outside _
  have hi : ∀ x y, nodeSide (R.sides (lay w sd) x y) = .inside ↔ R.tol ≤ lay w sd x y := fun x y => by
    rw [sides_side]; exact status_inside _
  cases p with
  | node x y => exact (hb x y).symm
  | hor x y =>
    unfold Place.meets Place.onContour Crossed
    dsimp only
    rw [hi, hi, ho, ho]
  | ver x y =>
    unfold Place.meets Place.onContour Crossed
    dsimp only
    rw [hi, hi, ho, ho]

/-- A point on an edge of the grid, away from the ends of the edge, is on the edge of the domain iff the edge is. -/
theorem rim_iff {m a b : ℝ} (hm : 0 < m) {p : Place} (hg : p.inGrid w h) (hn : ∀ x y, p ≠ .node x y) (hw : p.within m a b) :
    distToEdge w h ⟨a, b⟩ = 0 ↔ p.onRim w h := by
  unfold distToEdge
  dsimp only
  cases p with
  | node x y => exact absurd rfl (hn x y)
  | hor x y =>
    obtain ⟨h1, h2, rfl⟩ := hw
    have g := hg (x + 1, y) (by simp [Place.ends])
    have gx : (x : ℝ) + 1 ≤ w := by exact_mod_cast g.1
    have gy : (y : ℝ) ≤ h := by exact_mod_cast g.2
    have x0 : (0 : ℝ) ≤ x := by positivity
    have y0 : (0 : ℝ) ≤ y := by positivity
    have p1 : 0 < Min.min a (w - a) := lt_min (by linarith) (by linarith)
    constructor
    · intro e
      rcases min_choice (Min.min a ((w : ℝ) - a)) (Min.min (y : ℝ) (h - y)) with c | c
      · rw [c] at e; linarith
      · rw [c] at e
        rcases min_choice (y : ℝ) ((h : ℝ) - y) with c' | c'
        · left; rw [c'] at e; exact_mod_cast e
        · right
          rw [c'] at e
          have : (y : ℝ) = h := by linarith
          exact_mod_cast this
    · rintro (rfl | rfl)
      · rw [Nat.cast_zero, sub_zero, min_eq_left (by positivity : (0 : ℝ) ≤ h), min_eq_right p1.le]
      · rw [sub_self, min_eq_right y0, min_eq_right p1.le]
  | ver x y =>
    obtain ⟨rfl, h1, h2⟩ := hw
    have g := hg (x, y + 1) (by simp [Place.ends])
    have gx : (x : ℝ) ≤ w := by exact_mod_cast g.1
    have gy : (y : ℝ) + 1 ≤ h := by exact_mod_cast g.2
    have x0 : (0 : ℝ) ≤ x := by positivity
    have y0 : (0 : ℝ) ≤ y := by positivity
    have p1 : 0 < Min.min b (h - b) := lt_min (by linarith) (by linarith)
    constructor
    · intro e
      rcases min_choice (Min.min (x : ℝ) ((w : ℝ) - x)) (Min.min b (h - b)) with c | c
      · rw [c] at e
        rcases min_choice (x : ℝ) ((w : ℝ) - x) with c' | c'
        · left; rw [c'] at e; exact_mod_cast e
        · right
          rw [c'] at e
          have : (x : ℝ) = w := by linarith
          exact_mod_cast this
      · rw [c] at e; linarith
    · rintro (rfl | rfl)
      · rw [Nat.cast_zero, sub_zero, min_eq_left (by positivity : (0 : ℝ) ≤ w), min_eq_left p1.le]
      · rw [sub_self, min_eq_right x0, min_eq_left p1.le]

/-! ### The same numbers in exact arithmetic -/

theorem pairs_map {α β γ : Type} {P : α → β → Prop} {l : List α} {m : List β} {f : α → γ} {g : β → γ} (hp : List.Forall₂ P l m)
    (hf : ∀ a b, P a b → f a = g b) : l.map f = m.map g := by
  induction hp with
  | nil => rfl
  | cons h1 _ ih => rw [List.map_cons, List.map_cons, hf _ _ h1, ih]

theorem exact_values (L : LevelSet R.Num) (isTarget : Bool) : values (exact L) isTarget = (values L isTarget).map Num.val := by
  unfold values exact LevelSet.map
  cases isTarget <;> rfl

theorem exact_vals (l : List R.Num) (i : Nat) : vals (l.map Num.val) i = (vals l i).val := by
  unfold vals
  rw [List.getD_eq_getElem?_getD, List.getD_eq_getElem?_getD, List.getElem?_map]
  cases l[i]? with
  | some a => rfl
  | none => show (FP.nat 0 : ℝ) = (FP.nat 0 : R.Num).val; rw [val_zero, FP.nat_real, Nat.cast_zero]

theorem exact_level (L : LevelSet R.Num) (isTarget : Bool) : level w (exact L) isTarget = lay w (values L isTarget) := by
  funext x y
  unfold level lay
  rw [exact_values, exact_vals]

theorem exact_coord (p : Place) : p.coord (level w (exact L) isTarget) = p.coord (lay w (values L isTarget)) := by rw [exact_level]

theorem three_sums {a b c d : ℝ} (ha : R.rnd a = a) (hbig : 1 / 10 ^ 7 ≤ |a|) :
    |R.rnd (R.rnd (R.rnd (R.rnd (0 + a) + b) + c) + d) - (a + b + c + d)| ≤ (|a| + |b| + |c| + |d|) / 2 ^ 50 := by
  rw [zero_add, ha]
  have e1 := err_le (R := R) (a + b)
  have e2 := err_le (R := R) (R.rnd (a + b) + c)
  have e3 := err_le (R := R) (R.rnd (R.rnd (a + b) + c) + d)
  have t1 := abs_add_le a b
  have t2 := abs_add_le (R.rnd (a + b)) c
  have t3 := abs_add_le (R.rnd (R.rnd (a + b) + c)) d
  have u1 : |R.rnd (a + b)| ≤ |R.rnd (a + b) - (a + b)| + |a + b| := by
    have := abs_add_le (R.rnd (a + b) - (a + b)) (a + b); rwa [sub_add_cancel] at this
  have u2 : |R.rnd (R.rnd (a + b) + c)| ≤ |R.rnd (R.rnd (a + b) + c) - (R.rnd (a + b) + c)| + |R.rnd (a + b) + c| := by
    have := abs_add_le (R.rnd (R.rnd (a + b) + c) - (R.rnd (a + b) + c)) (R.rnd (a + b) + c); rwa [sub_add_cancel] at this
  have n1 := abs_nonneg b
  have n2 := abs_nonneg c
  have n3 := abs_nonneg d
  generalize hS1 : R.rnd (a + b) = S1 at *
  generalize hS2 : R.rnd (S1 + c) = S2 at *
  generalize hS3 : R.rnd (S2 + d) = S3 at *
  have tot : |S3 - (a + b + c + d)| ≤ |S3 - (S2 + d)| + |S2 - (S1 + c)| + |S1 - (a + b)| := by
    rw [show S3 - (a + b + c + d) = (S3 - (S2 + d)) + (S2 - (S1 + c)) + (S1 - (a + b)) by ring]
    exact (abs_add_le _ _).trans (add_le_add_left (abs_add_le _ _) _)
  norm_num at e1 e2 e3 hbig ⊢
  linarith

theorem saddle_of_alternating {sd : List R.Num} {x y : Nat} (ha : Alternating w sd x y) : saddle (R := R) (lay w sd) x y := by
  obtain ⟨s, hs, e0, e1, e2, e3⟩ := alternating_sides ha
  have pos : ∀ {x y : Nat}, R.sides (lay w sd) x y = 1 → R.tol ≤ lay w sd x y := by
    intro x y h
    refine (status_inside _).1 ?_
    rw [← sides_side, h]; unfold nodeSide; norm_num
  have neg : ∀ {x y : Nat}, R.sides (lay w sd) x y = -1 → lay w sd x y ≤ -R.tol := by
    intro x y h
    refine (status_outside _).1 ?_
    rw [← sides_side, h]; unfold nodeSide; norm_num
  rcases hs with rfl | rfl
  · exact .inl ⟨pos e0, neg e1, pos e2, neg e3⟩
  · exact .inr ⟨neg e0, pos (by rw [e1]; norm_num), neg e2, pos (by rw [e3]; norm_num)⟩

theorem exact_sides (hv : ∀ x y, x ≤ w → y ≤ h → (|lay w (values L isTarget) x y| < R.tol ↔ |lay w (values L isTarget) x y| < 1 / 10 ^ 6)) :
    SameSides w h (R.sides (lay w (values L isTarget))) (level w (exact L) isTarget) := by
  intro x y hx hy
  rw [exact_level]
  have := hv x y hx hy
  unfold Rounding.sides
  split_ifs with h1 h2
  · unfold nodeSide
    rw [if_pos (this.1 h1)]
    norm_num
  · unfold nodeSide
    rw [if_neg fun h => h1 (this.2 h), if_pos h2]
    norm_num
  · unfold nodeSide
    rw [if_neg fun h => h1 (this.2 h), if_neg h2]
    norm_num

/-- The sum of the corner values of a saddle has the right sign. -/
theorem sum_sign {sd : List R.Num} {x y : Nat} (ha : Alternating w sd x y)
    (h1 : (|lay w sd x y| + |lay w sd (x + 1) y| + |lay w sd (x + 1) (y + 1)| + |lay w sd x (y + 1)|) / 2 ^ 50 <
      |lay w sd x y + lay w sd (x + 1) y + lay w sd (x + 1) (y + 1) + lay w sd x (y + 1)|) :
    (0 < (sumAt w sd x y).val ↔ 0 < lay w sd x y + lay w sd (x + 1) y + lay w sd (x + 1) (y + 1) + lay w sd x (y + 1)) ∧
    ((sumAt w sd x y).val < 0 ↔ lay w sd x y + lay w sd (x + 1) y + lay w sd (x + 1) (y + 1) + lay w sd x (y + 1) < 0) := by
  have hbig : 1 / 10 ^ 7 ≤ |lay w sd x y| := by
    have t := (tol_near (R := R)).1
    norm_num at t ⊢
    rcases saddle_of_alternating ha with ⟨h, -⟩ | ⟨h, -⟩
    · exact (le_trans (by linarith) h).trans (le_abs_self _)
    · exact (by linarith : _ ≤ -lay w sd x y).trans (neg_le_abs _)
  have h2 := three_sums (R := R) (b := lay w sd (x + 1) y) (c := lay w sd (x + 1) (y + 1)) (d := lay w sd x (y + 1)) (vals sd (nodeNo w x y)).fix hbig
  have e1 : (sumAt w sd x y).val = R.rnd (R.rnd (R.rnd (R.rnd (0 + lay w sd x y) + lay w sd (x + 1) y) + lay w sd (x + 1) (y + 1)) + lay w sd x (y + 1)) := by
    unfold sumAt
    simp only [val_add, val_zero]
    rfl
  change |R.rnd (R.rnd (R.rnd (R.rnd (0 + lay w sd x y) + lay w sd (x + 1) y) + lay w sd (x + 1) (y + 1)) + lay w sd x (y + 1)) -
    (lay w sd x y + _ + _ + _)| ≤ _ at h2
  rw [← e1] at h2
  have h3 := h2.trans_lt h1
  generalize lay w sd x y + lay w sd (x + 1) y + lay w sd (x + 1) (y + 1) + lay w sd x (y + 1) = A at h3 ⊢
  generalize (sumAt w sd x y).val = B at h3
  rw [abs_lt] at h3
  rcases abs_cases A with ⟨q1, q2⟩ | ⟨q1, q2⟩ <;> rw [q1] at h3 <;>
    refine ⟨⟨fun _ => ?_, fun _ => ?_⟩, ⟨fun _ => ?_, fun _ => ?_⟩⟩ <;> linarith [h3.1, h3.2]

theorem exact_alike (D : Distinct w h L isTarget)
    (hv : ∀ x y, x ≤ w → y ≤ h → (|lay w (values L isTarget) x y| < R.tol ↔ |lay w (values L isTarget) x y| < 1 / 10 ^ 6))
    (hs : ∀ x y, x < w → y < h → saddle (R := R) (lay w (values L isTarget)) x y →
      let f := lay w (values L isTarget)
      (|f x y| + |f (x + 1) y| + |f (x + 1) (y + 1)| + |f x (y + 1)|) / 2 ^ 50 < |f x y + f (x + 1) y + f (x + 1) (y + 1) + f x (y + 1)|) :
    Alike w h L.moveLimit L.mesh (values L isTarget) (exact L).moveLimit (exact L).mesh (values (exact L) isTarget)
      (Pos w h (values L isTarget) (level w (exact L) isTarget)) := by
  have SS := exact_sides hv
  refine alike D (exact_grid D.grid D.fit) ?_ ?_ (fun i a b ha hb => exact_node _ ha hb) ?_ ?_
  · rw [exact_values, List.length_map]; exact D.len
  · intro x y hx hy
    rw [← sides_side]
    exact SS x y hx hy
  · intro x y hx hy ha
    have key := sum_sign ha (hs x y hx hy (saddle_of_alternating ha))
    have e2 : sumAt w (values (exact L) isTarget) x y = lay w (values L isTarget) x y + lay w (values L isTarget) (x + 1) y +
        lay w (values L isTarget) (x + 1) (y + 1) + lay w (values L isTarget) x (y + 1) := by
      rw [sumAt_real, exact_values, exact_vals, exact_vals, exact_vals, exact_vals]
      rfl
    rw [e2]
    constructor
    · rw [Bool.eq_iff_iff, lt_iff, val_zero, FP.lt_real, FP.nat_real, Nat.cast_zero]
      exact key.1
    · rw [Bool.eq_iff_iff, lt_iff, val_zero, FP.lt_real, FP.nat_real, Nat.cast_zero]
      exact key.2
  · intro p hp hc
    have hc' := (SS.onContour hp).2 hc
    rw [exact_level] at hc ⊢
    refine Place.within_coord (by norm_num) ((onContour_iff_meets _ _).1 hc) ?_
    have weak : ∀ {a d : ℝ}, 2 / 10 ^ 6 * |a| ≤ d → 1 / 10 ^ 6 * |a| ≤ d := fun {a d} h => by
      have := abs_nonneg a
      linarith
    cases p with
    | node x y => trivial
    | hor x y =>
      have := D.away (.hor x y) ⟨hp, hc', by simp⟩
      exact ⟨weak this.1, weak this.2⟩
    | ver x y =>
      have := D.away (.ver x y) ⟨hp, hc', by simp⟩
      exact ⟨weak this.1, weak this.2⟩

end

end Boundary

end Slsm
