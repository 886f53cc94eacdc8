import Verif.Proof.FlipCell
import Verif.Proof.Perimeter

/-! # Mirror images of the discretised boundary -/

namespace Slsm

open Flip Boundary Set

namespace Flip

/-- The corner or edge of the image of a cell that is the image of a corner or edge. -/
def lp : Flip → LP → LP
  | leftRight, .c j => .c (pick 1 0 3 2 j)
  | leftRight, .e j => .e (pick 0 3 2 1 j)
  | upDown, .c j => .c (pick 3 2 1 0 j)
  | upDown, .e j => .e (pick 2 1 0 3 j)
  | .diagonal, .c j => .c (pick 0 3 2 1 j)
  | .diagonal, .e j => .e (pick 3 2 1 0 j)

/-- Whether the choice made for four cut edges is the other one in the image. -/
def swaps : Flip → Bool
  | .diagonal => false
  | _ => true

theorem lp_eight (σ : Flip) {p : LP} (hp : p ∈ eight) : σ.lp p ∈ eight := by
  simp only [eight, List.mem_cons, List.not_mem_nil, or_false] at hp ⊢
  cases σ <;> rcases hp with rfl | rfl | rfl | rfl | rfl | rfl | rfl | rfl <;> simp [lp, pick]

theorem lp_place (σ : Flip) {w h x y : Nat} (hx : x < w) (hy : y < h) {p : LP} (hp : p ∈ eight) :
    (σ.lp p).place (σ.cell w h x y).1 (σ.cell w h x y).2 = σ.place w h (p.place x y) := by
  simp only [eight, List.mem_cons, List.not_mem_nil, or_false] at hp
  cases σ <;> rcases hp with rfl | rfl | rfl | rfl | rfl | rfl | rfl | rfl <;>
    simp only [lp, pick, LP.place, cornerAt, edgeAt, place, cell, Place.node.injEq, Place.hor.injEq, Place.ver.injEq, and_true, true_and] <;> omega

end Flip

/-- An order on corners and edges. -/
def rank : LP → Nat
  | .c j => j
  | .e j => 4 + j

/-- A segment without its direction. -/
def canon (a : LP × LP) : LP × LP := if rank a.1 ≤ rank a.2 then a else (a.2, a.1)

/-- Four cut edges. -/
def fourCut (s : Nat → NodeStatus) : Bool := (List.range 4).all fun j => cutPair (s j) (s (after j))

def flips : List Flip := [.leftRight, .upDown, .diagonal]

theorem arcs_table : ∀ σ ∈ flips, ∀ a ∈ sts, ∀ b ∈ sts, ∀ c ∈ sts, ∀ d ∈ sts, ∀ first ∈ [false, true], ∀ first' ∈ [false, true],
    (fourCut (pick a b c d) = true → first' = xor first σ.swaps) →
    ((arcs (σ.turn pick a b c d) (fun _ => true) first').map canon).isPerm ((arcs (pick a b c d) (fun _ => true) first).map fun g => canon (σ.lp g.1, σ.lp g.2)) = true := by
  decide +kernel

theorem marks_table : ∀ σ ∈ flips, ∀ a ∈ sts, ∀ b ∈ sts, ∀ c ∈ sts, ∀ d ∈ sts, ∀ p ∈ eight,
    p ∈ marks (pick a b c d) (fun _ => true) → σ.lp p ∈ marks (σ.turn pick a b c d) (fun _ => true) := by
  decide +kernel

/-- Only visible edges matter. -/
theorem cuts_all {s : Nat → NodeStatus} {v : Nat → Bool} (h1 : ∀ j, j < 4 → Crossed (s j) (s (after j)) → v j = true)
    (h2 : ∀ j, j < 4 → s j = .boundary → v j = true) (first : Bool) :
    arcs s v first = arcs s (fun _ => true) first ∧ marks s v = marks s fun _ => true := by
  have ec : upTo (edgeCuts s v) 4 = upTo (edgeCuts s fun _ => true) 4 := upTo_congr fun j hj => by
    unfold edgeCuts
    by_cases hc : cutPair (s j) (s (after j)) = true
    · rw [h1 j hj (cutPair_iff.1 hc)]
    · simp [hc]
  have ea : upTo (edgeArcs s v) 4 = upTo (edgeArcs s fun _ => true) 4 := upTo_congr fun j hj => by
    unfold edgeArcs
    by_cases hc : cutPair (s j) (s (after j)) = true
    · simp [hc]
    · by_cases hb : s j = .boundary
      · rw [h2 j hj hb]
      · simp [hc, hb]
  have ek : upTo (edgeKeys s v) 4 = upTo (edgeKeys s fun _ => true) 4 := upTo_congr fun j hj => by
    unfold edgeKeys
    by_cases hc : cutPair (s j) (s (after j)) = true
    · rw [h1 j hj (cutPair_iff.1 hc)]
    · by_cases hb : s j = .boundary
      · rw [h2 j hj hb]
      · simp [hc, hb]
  constructor
  · unfold arcs joins
    rw [ec, ea]
  · unfold marks joinKeys
    rw [ec, ek]

/-- The functions of the sides of the corners see only the four corners. -/
theorem arcs_pick (s : Nat → NodeStatus) (first : Bool) :
    arcs (pick (s 0) (s 1) (s 2) (s 3)) (fun _ => true) first = arcs s (fun _ => true) first ∧
      marks (pick (s 0) (s 1) (s 2) (s 3)) (fun _ => true) = marks s fun _ => true := by
  constructor <;> rfl

section
variable {σ : Flip} {w h : Nat} {x y : Nat} {sd sd' : List ℝ} {m m' : Mesh ℝ} {t t' : Bool}

/-- Everything that matters is looked at. -/
def Full (w h : Nat) (m : Mesh ℝ) (sd : List ℝ) (t : Bool) : Prop :=
  Vis w h m sd t ∧ ∀ x y j, x < w → y < h → j < 4 → side w sd x y j = .boundary → look w m t x y j = true

theorem full_cell (F : Full w h m sd t) (hx : x < w) (hy : y < h) :
    cellArcs w m sd t x y = arcs (side w sd x y) (fun _ => true) (firstWay w sd x y) ∧ cellMarks w m sd t x y = marks (side w sd x y) fun _ => true :=
  cuts_all (fun j hj hc => F.1 x y j hx hy hj hc) (fun j hj hc => F.2 x y j hx hy hj hc) _

theorem side_flip (I : σ.Image w h (onGrid w sd) (onGrid (σ.width w h) sd')) (hx : x < w) (hy : y < h) :
    pick (side (σ.width w h) sd' (σ.cell w h x y).1 (σ.cell w h x y).2 0) (side (σ.width w h) sd' (σ.cell w h x y).1 (σ.cell w h x y).2 1)
      (side (σ.width w h) sd' (σ.cell w h x y).1 (σ.cell w h x y).2 2) (side (σ.width w h) sd' (σ.cell w h x y).1 (σ.cell w h x y).2 3) =
      σ.turn pick (side w sd x y 0) (side w sd x y 1) (side w sd x y 2) (side w sd x y 3) := by
  refine (cell_values I hx hy fun a b c d => pick (nodeSide a) (nodeSide b) (nodeSide c) (nodeSide d) = σ.turn pick (side w sd x y 0) (side w sd x y 1) (side w sd x y 2) (side w sd x y 3)).2 ?_
  cases σ <;> rfl

theorem mem_flips (σ : Flip) : σ ∈ flips := by cases σ <;> simp [flips]

theorem four_saddle : fourCut (pick (side w sd x y 0) (side w sd x y 1) (side w sd x y 2) (side w sd x y 3)) = true ↔ Saddle (onGrid w sd) x y := by
  unfold fourCut Saddle
  simp only [List.all_eq_true, List.mem_range, cutPair_iff]
  constructor
  · intro H
    exact ⟨H 0 (by norm_num), H 1 (by norm_num), H 2 (by norm_num), H 3 (by norm_num)⟩
  · rintro ⟨h0, h1, h2, h3⟩ j hj
    match j, hj with
    | 0, _ => exact h0
    | 1, _ => exact h1
    | 2, _ => exact h2
    | 3, _ => exact h3

/-- The choice made in the image of a saddle. -/
theorem firstWay_flip (I : σ.Image w h (onGrid w sd) (onGrid (σ.width w h) sd')) (hx : x < w) (hy : y < h) (hs : Saddle (onGrid w sd) x y)
    (ht : σ = .diagonal ∨ centreValue (onGrid w sd) x y ≠ 0) :
    firstWay (σ.width w h) sd' (σ.cell w h x y).1 (σ.cell w h x y).2 = xor (firstWay w sd x y) σ.swaps := by
  have hc := centre_flip I hx hy
  have h0 := congrFun (side_flip I hx hy) 0
  have e1 : ∀ (w : Nat) (sd : List ℝ) (x y : Nat), centreSum w sd x y = 4 * centreValue (onGrid w sd) x y := fun w sd x y => by
    unfold centreSum centreValue; ring
  unfold firstWay
  rw [e1, e1, hc]
  change side (σ.width w h) sd' (σ.cell w h x y).1 (σ.cell w h x y).2 0 = _ at h0
  rw [h0]
  obtain ⟨s0, s1, s2, s3⟩ := hs
  change Crossed (side w sd x y 0) (side w sd x y 1) at s0
  change Crossed (side w sd x y 3) (side w sd x y 0) at s3
  replace ht : σ = .diagonal ∨ 4 * centreValue (onGrid w sd) x y ≠ 0 := ht.imp id fun H => mul_ne_zero (by norm_num) H
  generalize 4 * centreValue (onGrid w sd) x y = v at ht ⊢
  cases σ with
  | leftRight =>
    have hv : v < 0 ∨ 0 < v := lt_or_gt_of_ne (ht.resolve_left (by simp))
    simp only [turn, pick, swaps, Bool.xor_true]
    rcases hv with hv | hv <;> rcases s0 with ⟨a, b⟩ | ⟨a, b⟩ <;> rw [a, b] <;> simp [hv, not_lt.2 hv.le]
  | upDown =>
    have hv : v < 0 ∨ 0 < v := lt_or_gt_of_ne (ht.resolve_left (by simp))
    simp only [turn, pick, swaps, Bool.xor_true]
    rcases hv with hv | hv <;> rcases s3 with ⟨a, b⟩ | ⟨a, b⟩ <;> rw [a, b] <;> simp [hv, not_lt.2 hv.le]
  | diagonal => simp only [turn, pick, swaps, Bool.xor_false]

/-- The segments of the image of a cell. -/
theorem arcs_flip (F : Full w h m sd t) (F' : Full (σ.width w h) (σ.height w h) m' sd' t') (I : σ.Image w h (onGrid w sd) (onGrid (σ.width w h) sd'))
    (ht : σ = .diagonal ∨ NoTie w h (onGrid w sd)) (hx : x < w) (hy : y < h) :
    ((cellArcs (σ.width w h) m' sd' t' (σ.cell w h x y).1 (σ.cell w h x y).2).map canon).Perm
      ((cellArcs w m sd t x y).map fun g => canon (σ.lp g.1, σ.lp g.2)) := by
  obtain ⟨hX, hY⟩ := σ.cell_lt hx hy
  rw [(full_cell F hx hy).1, (full_cell F' hX hY).1, ← (arcs_pick _ _).1, ← (arcs_pick (side w sd x y) _).1, side_flip I hx hy]
  refine List.isPerm_iff.1 (arcs_table σ (mem_flips σ) _ (side_mem _ _ _ _ _) _ (side_mem _ _ _ _ _) _ (side_mem _ _ _ _ _) _ (side_mem _ _ _ _ _) _ ?_ _ ?_ fun h4 => ?_)
  · cases firstWay w sd x y <;> simp
  · cases firstWay (σ.width w h) sd' (σ.cell w h x y).1 (σ.cell w h x y).2 <;> simp
  · have hs := four_saddle.1 h4
    exact firstWay_flip I hx hy hs (ht.imp id fun H => H x y hx hy hs)

/-- Sums over the segments of the image of a cell. -/
theorem arcs_sum {M : Type} [AddCommMonoid M] (P : (LP × LP → M)) (hP : ∀ a b, P (a, b) = P (b, a))
    (F : Full w h m sd t) (F' : Full (σ.width w h) (σ.height w h) m' sd' t') (I : σ.Image w h (onGrid w sd) (onGrid (σ.width w h) sd'))
    (ht : σ = .diagonal ∨ NoTie w h (onGrid w sd)) (hx : x < w) (hy : y < h) :
    ((cellArcs (σ.width w h) m' sd' t' (σ.cell w h x y).1 (σ.cell w h x y).2).map P).sum = ((cellArcs w m sd t x y).map fun g => P (σ.lp g.1, σ.lp g.2)).sum := by
  have hc : ∀ a, P (canon a) = P a := by
    rintro ⟨a, b⟩
    unfold canon
    split
    · rfl
    · exact hP b a
  have := ((arcs_flip F F' I ht hx hy).map P).sum_eq
  simpa only [List.map_map, Function.comp_def, hc] using this

theorem arc_eight {a : LP × LP} (ha : a ∈ cellArcs w m sd t x y) : a.1 ∈ eight ∧ a.2 ∈ eight := by
  obtain ⟨h1, h2, -⟩ := cell_fair w m sd t x y
  exact ⟨fair_eight (h1 _ (h2 a ha).1), fair_eight (h1 _ (h2 a ha).2.1)⟩

/-- Membership, without direction. -/
theorem arc_mem (F : Full w h m sd t) (F' : Full (σ.width w h) (σ.height w h) m' sd' t') (I : σ.Image w h (onGrid w sd) (onGrid (σ.width w h) sd'))
    (ht : σ = .diagonal ∨ NoTie w h (onGrid w sd)) (hx : x < w) (hy : y < h) :
    (∀ a ∈ cellArcs w m sd t x y, (σ.lp a.1, σ.lp a.2) ∈ cellArcs (σ.width w h) m' sd' t' (σ.cell w h x y).1 (σ.cell w h x y).2 ∨
      (σ.lp a.2, σ.lp a.1) ∈ cellArcs (σ.width w h) m' sd' t' (σ.cell w h x y).1 (σ.cell w h x y).2) ∧
    ∀ a' ∈ cellArcs (σ.width w h) m' sd' t' (σ.cell w h x y).1 (σ.cell w h x y).2, ∃ a ∈ cellArcs w m sd t x y, a' = (σ.lp a.1, σ.lp a.2) ∨ a' = (σ.lp a.2, σ.lp a.1) := by
  have hp := arcs_flip F F' I ht hx hy
  have hc : ∀ {a b : LP × LP}, canon a = canon b → a = b ∨ a = (b.2, b.1) := by
    rintro ⟨a1, a2⟩ ⟨b1, b2⟩ he
    unfold canon at he
    dsimp only at he ⊢
    split_ifs at he <;> simp only [Prod.mk.injEq] at he ⊢ <;> tauto
  constructor
  · intro a ha
    have : canon (σ.lp a.1, σ.lp a.2) ∈ (cellArcs (σ.width w h) m' sd' t' (σ.cell w h x y).1 (σ.cell w h x y).2).map canon :=
      hp.mem_iff.2 (List.mem_map.2 ⟨a, ha, rfl⟩)
    obtain ⟨a', h1, h2⟩ := List.mem_map.1 this
    rcases hc h2 with rfl | rfl
    · exact .inl h1
    · exact .inr h1
  · intro a' ha
    obtain ⟨a, h1, h2⟩ := List.mem_map.1 (hp.mem_iff.1 (List.mem_map.2 ⟨a', ha, rfl⟩))
    exact ⟨a, h1, hc h2.symm⟩

theorem mark_mem (F : Full w h m sd t) (F' : Full (σ.width w h) (σ.height w h) m' sd' t') (I : σ.Image w h (onGrid w sd) (onGrid (σ.width w h) sd'))
    (hx : x < w) (hy : y < h) {p : LP} (hp : p ∈ cellMarks w m sd t x y) :
    σ.lp p ∈ cellMarks (σ.width w h) m' sd' t' (σ.cell w h x y).1 (σ.cell w h x y).2 := by
  obtain ⟨hX, hY⟩ := σ.cell_lt hx hy
  have h8 := fair_eight ((cell_fair w m sd t x y).1 p hp)
  rw [(full_cell F hx hy).2, ← (arcs_pick (side w sd x y) true).2] at hp
  rw [(full_cell F' hX hY).2, ← (arcs_pick _ true).2, side_flip I hx hy]
  exact marks_table σ (mem_flips σ) _ (side_mem _ _ _ _ _) _ (side_mem _ _ _ _ _) _ (side_mem _ _ _ _ _) _ (side_mem _ _ _ _ _) p h8 hp

theorem key_iff {P : Place} : P ∈ (run w m sd t (w * h)).keys ↔ ∃ x y, x < w ∧ y < h ∧ ∃ p ∈ cellMarks w m sd t x y, P = p.place x y := by
  show P ∈ addKeys [] (allMarks w m sd t (w * h)) ↔ _
  rw [mem_addKeys_iff]
  unfold allMarks
  rw [upTo_mem]
  constructor
  · rintro (hP | ⟨e, he, hP⟩)
    · cases hP
    · obtain ⟨p, hp, rfl⟩ := List.mem_map.1 hP
      exact ⟨_, _, idx_mod_lt he, idx_div_lt he, p, hp, rfl⟩
  · rintro ⟨x, y, hx, hy, p, hp, rfl⟩
    refine .inr ⟨x + y * w, idx_lt hx hy, ?_⟩
    rw [idx_mod hx, idx_div hx]
    exact List.mem_map.2 ⟨p, hp, rfl⟩

theorem key_flip (F : Full w h m sd t) (F' : Full (σ.width w h) (σ.height w h) m' sd' t') (I : σ.Image w h (onGrid w sd) (onGrid (σ.width w h) sd'))
    {P : Place} (hP : P ∈ (run w m sd t (w * h)).keys) : σ.place w h P ∈ (run (σ.width w h) m' sd' t' (σ.width w h * σ.height w h)).keys := by
  obtain ⟨x, y, hx, hy, p, hp, rfl⟩ := key_iff.1 hP
  have hc := σ.cell_lt hx hy
  exact key_iff.2 ⟨_, _, hc.1, hc.2, _, mark_mem F F' I hx hy hp, (σ.lp_place hx hy (fair_eight ((cell_fair w m sd t x y).1 p hp))).symm⟩

/-- Total of a quantity over all segments. -/
theorem total_flip {M : Type} [AddCommMonoid M] (Q Q' : Place → Place → M) (hQ' : ∀ p q, Q' p q = Q' q p)
    (hQ : ∀ p q, p ∈ (run w m sd t (w * h)).keys → q ∈ (run w m sd t (w * h)).keys → Q' (σ.place w h p) (σ.place w h q) = Q p q)
    (F : Full w h m sd t) (F' : Full (σ.width w h) (σ.height w h) m' sd' t') (I : σ.Image w h (onGrid w sd) (onGrid (σ.width w h) sd'))
    (ht : σ = .diagonal ∨ NoTie w h (onGrid w sd)) :
    ∑ i ∈ Finset.range (σ.width w h * σ.height w h), ((cellArcs (σ.width w h) m' sd' t' (i % σ.width w h) (i / σ.width w h)).map fun a =>
        Q' (a.1.place (i % σ.width w h) (i / σ.width w h)) (a.2.place (i % σ.width w h) (i / σ.width w h))).sum =
      ∑ i ∈ Finset.range (w * h), ((cellArcs w m sd t (i % w) (i / w)).map fun a => Q (a.1.place (i % w) (i / w)) (a.2.place (i % w) (i / w))).sum := by
  refine cells_sum σ (fun x y => ((cellArcs w m sd t x y).map fun a => Q (a.1.place x y) (a.2.place x y)).sum)
    (fun x y => ((cellArcs (σ.width w h) m' sd' t' x y).map fun a => Q' (a.1.place x y) (a.2.place x y)).sum) fun x y hx hy => ?_
  rw [arcs_sum (fun a => Q' (a.1.place (σ.cell w h x y).1 (σ.cell w h x y).2) (a.2.place (σ.cell w h x y).1 (σ.cell w h x y).2)) (fun a b => hQ' _ _) F F' I ht hx hy]
  congr 1
  refine List.map_congr_left fun a ha => ?_
  have h8 := arc_eight ha
  have hm := (cell_fair w m sd t x y).2.1 a ha
  dsimp only
  rw [σ.lp_place hx hy h8.1, σ.lp_place hx hy h8.2]
  exact hQ _ _ (key_iff.2 ⟨x, y, hx, hy, _, hm.1, rfl⟩) (key_iff.2 ⟨x, y, hx, hy, _, hm.2.1, rfl⟩)

variable {L L' M M' : LevelSet ℝ} {b b' : Boundary ℝ}

theorem key_contour (E : Exact w h L sd t b L') {P : Place} (hP : P ∈ (run w L.mesh sd t (w * h)).keys) : P.inGrid w h ∧ P.onContour (onGrid w sd) := by
  obtain ⟨W, R, _⟩ := E.rep
  exact R.contour P hP

theorem dist_flip (σ : Flip) (w h : Nat) (c d : Coord ℝ) :
    ((σ.coord w h c).x - (σ.coord w h d).x) * ((σ.coord w h c).x - (σ.coord w h d).x) + ((σ.coord w h c).y - (σ.coord w h d).y) * ((σ.coord w h c).y - (σ.coord w h d).y) =
      (c.x - d.x) * (c.x - d.x) + (c.y - d.y) * (c.y - d.y) := by
  cases σ <;> simp only [Flip.coord, point] <;> ring

theorem arcLen_flip {f g : Nat → Nat → ℝ} (I : σ.Image w h f g) {p q : Place} (hp : p.inGrid w h ∧ p.onContour f) (hq : q.inGrid w h ∧ q.onContour f) :
    arcLen g (σ.place w h p) (σ.place w h q) = arcLen f p q := by
  unfold arcLen
  rw [place_coord I hp.1 hp.2, place_coord I hq.1 hq.2, dist_flip]

theorem arcLen_comm (f : Nat → Nat → ℝ) (p q : Place) : arcLen f p q = arcLen f q p := by
  unfold arcLen
  congr 1
  ring

/-- The length of the image. -/
theorem length_flip (E : Exact w h L sd t b L') (E' : Exact (σ.width w h) (σ.height w h) M sd' t' b' M') (F : Full w h L.mesh sd t)
    (F' : Full (σ.width w h) (σ.height w h) M.mesh sd' t') (I : σ.Image w h (onGrid w sd) (onGrid (σ.width w h) sd'))
    (ht : σ = .diagonal ∨ NoTie w h (onGrid w sd)) : b'.length = b.length := by
  rw [Front.boundary_length E, Front.boundary_length E']
  exact total_flip (arcLen (onGrid w sd)) (arcLen (onGrid (σ.width w h) sd')) (arcLen_comm _)
    (fun p q hp hq => arcLen_flip I (key_contour E hp) (key_contour E hq)) F F' I ht

theorem segments_count (E : Exact w h L sd t b L') : b.segments.length = b.nSegments ∧
    b.nSegments = ∑ i ∈ Finset.range (w * h), ((cellArcs w L.mesh sd t (i % w) (i / w)).map fun _ => 1).sum := by
  obtain ⟨W, R, _, hb, _, _⟩ := E.rep
  rw [hb]
  change W.bnd.segments.length = W.bnd.nSegments ∧ W.bnd.nSegments = _
  rw [R.segs, R.nSegments, List.length_map]
  refine ⟨rfl, ?_⟩
  show (upTo _ _).length = _
  have := Front.upTo_map_sum (fun e => (cellArcs w L.mesh sd t (e % w) (e / w)).map (arcAt (e % w) (e / w) e)) (fun _ => 1) (w * h)
  simp only [List.map_const', List.sum_replicate, smul_eq_mul, mul_one, List.length_map] at this ⊢
  exact this

theorem nSegments_flip (E : Exact w h L sd t b L') (E' : Exact (σ.width w h) (σ.height w h) M sd' t' b' M') (F : Full w h L.mesh sd t)
    (F' : Full (σ.width w h) (σ.height w h) M.mesh sd' t') (I : σ.Image w h (onGrid w sd) (onGrid (σ.width w h) sd'))
    (ht : σ = .diagonal ∨ NoTie w h (onGrid w sd)) : b'.nSegments = b.nSegments := by
  rw [(segments_count E).2, (segments_count E').2]
  exact total_flip (fun _ _ => 1) (fun _ _ => 1) (fun _ _ => rfl) (fun p q hp hq => rfl) F F' I ht

theorem place_eq {p q : Place} (hp : p.inGrid w h) (hq : q.inGrid w h) : σ.place w h p = σ.place w h q ↔ p = q :=
  ⟨fun h => by rw [← place_place σ hp, ← place_place σ hq, h], fun h => by rw [h]⟩

/-- The length of a boundary point from the segments. -/
theorem point_len (E : Exact w h L sd t b L') {k : Nat} {pt : BoundaryPoint ℝ} (Md : Made w h L sd b L') (hk : b.points[k]? = some pt) {P : Place}
    (hP : (run w L.mesh sd t (w * h)).keys[k]? = some P) :
    pt.length = 1 / 2 * ∑ i ∈ Finset.range (w * h), ((cellArcs w L.mesh sd t (i % w) (i / w)).map fun a =>
      (if a.1.place (i % w) (i / w) = P then arcLen (onGrid w sd) (a.1.place (i % w) (i / w)) (a.2.place (i % w) (i / w)) else 0) +
      (if a.2.place (i % w) (i / w) = P then arcLen (onGrid w sd) (a.1.place (i % w) (i / w)) (a.2.place (i % w) (i / w)) else 0)).sum := by
  rw [point_length Md hk, lens_sum]
  obtain ⟨W, R, _, hb, _, _⟩ := E.rep
  rw [hb]
  change 1 / 2 * (W.bnd.segments.map _).sum = _
  rw [R.segs, List.map_map]
  have hkey : ∀ {q : Place}, q ∈ (run w L.mesh sd t (w * h)).keys → (k = (run w L.mesh sd t (w * h)).keys.idxOf q ↔ q = P) := by
    intro q hq
    constructor
    · rintro rfl
      rw [List.getElem?_idxOf hq] at hP
      exact Option.some.inj hP
    · rintro rfl
      have h1 := List.getElem?_idxOf hq
      exact (List.getElem?_inj (List.getElem?_eq_some_iff.1 hP).1 R.nodup).1 (hP.trans h1.symm)
  congr 1
  have := Front.upTo_map_sum (fun e => (cellArcs w L.mesh sd t (e % w) (e / w)).map (arcAt (e % w) (e / w) e))
    (fun g => (if g.a = P then arcLen (onGrid w sd) g.a g.b else 0) + if g.b = P then arcLen (onGrid w sd) g.a g.b else 0) (w * h)
  simp only [List.map_map] at this
  refine Eq.trans ?_ this
  congr 1
  refine List.map_congr_left fun g hg => ?_
  have hm := R.arcMem g hg
  exact congrArg₂ (· + ·) (if_congr (hkey hm.1) rfl rfl) (if_congr (hkey hm.2) rfl rfl)

/-- The image of a boundary point. -/
theorem point_flip (E : Exact w h L sd t b L') (E' : Exact (σ.width w h) (σ.height w h) M sd' t' b' M') (F : Full w h L.mesh sd t)
    (Md : Made w h L sd b L') (Md' : Made (σ.width w h) (σ.height w h) M sd' b' M')
    (F' : Full (σ.width w h) (σ.height w h) M.mesh sd' t') (I : σ.Image w h (onGrid w sd) (onGrid (σ.width w h) sd')) {pt : BoundaryPoint ℝ}
    (hp : pt ∈ b.points) : ∃ pt' ∈ b'.points, pt'.coord = σ.coord w h pt.coord ∧
      (σ = .diagonal ∨ NoTie w h (onGrid w sd) → pt'.length = pt.length ∧ pt'.nSegments = pt.nSegments) := by
  obtain ⟨k, hk⟩ := List.mem_iff_getElem?.1 hp
  obtain ⟨P, h1, h2, h3, h4, h5, -⟩ := E.point hk
  have hP := List.mem_iff_getElem?.2 ⟨k, h1⟩
  obtain ⟨k', pt', g1, g2, g3⟩ := E'.ofKey (key_flip F F' I hP)
  refine ⟨pt', List.mem_iff_getElem?.2 ⟨k', g2⟩, ?_, fun ht => ⟨?_, ?_⟩⟩
  · rw [g3, h4, place_coord I h2 h3]
  · rw [point_len E Md hk h1, point_len E' Md' g2 g1]
    congr 1
    refine total_flip (fun p q => (if p = P then arcLen (onGrid w sd) p q else 0) + if q = P then arcLen (onGrid w sd) p q else 0)
      (fun p q => (if p = σ.place w h P then arcLen (onGrid (σ.width w h) sd') p q else 0) + if q = σ.place w h P then arcLen (onGrid (σ.width w h) sd') p q else 0)
      (fun p q => ?_) (fun p q hp hq => ?_) F F' I ht
    · rw [arcLen_comm _ p q, add_comm]
    · have hp := key_contour E hp
      have hq := key_contour E hq
      rw [arcLen_flip I hp hq, if_congr (place_eq hp.1 h2) rfl rfl, if_congr (place_eq hq.1 h2) rfl rfl]
  · obtain ⟨P', i1, -, -, -, i5, -⟩ := E'.point g2
    rw [g1] at i1
    cases i1
    rw [h5, i5, run_occ, run_occ]
    simp only [occ, List.map_map, Function.comp_def]
    refine total_flip (fun p q => (if p = P then 1 else 0) + if q = P then 1 else 0)
      (fun p q => (if p = σ.place w h P then 1 else 0) + if q = σ.place w h P then 1 else 0)
      (fun p q => add_comm _ _) (fun p q hp hq => ?_) F F' I ht
    rw [if_congr (place_eq (key_contour E hp).1 h2) rfl rfl, if_congr (place_eq (key_contour E hq).1 h2) rfl rfl]

theorem points_nodup (E : Exact w h L sd t b L') : (b.points.map fun pt => pt.coord).Nodup := by
  rw [List.nodup_iff_injective_getElem]
  intro i j hij
  simp only [List.getElem_map] at hij
  have hi : i.1 < b.points.length := lt_of_lt_of_eq i.2 (List.length_map _)
  have hj : j.1 < b.points.length := lt_of_lt_of_eq j.2 (List.length_map _)
  exact Fin.ext (E.unique (List.getElem?_eq_getElem hi) (List.getElem?_eq_getElem hj) hij)

theorem coord_inj' (σ : Flip) (w h : Nat) : Function.Injective (σ.coord w h) := by
  intro c d hcd
  have : σ.point w h (c.x, c.y) = σ.point w h (d.x, d.y) := by
    unfold Flip.coord at hcd
    simp only [Coord.mk.injEq] at hcd
    exact Prod.ext hcd.1 hcd.2
  have := σ.point_inj w h this
  simp only [Prod.mk.injEq] at this
  cases c; cases d; simp_all

theorem nPoints_le (E : Exact w h L sd t b L') (H : ∀ pt ∈ b.points, ∃ pt' ∈ b'.points, pt'.coord = σ.coord w h pt.coord) : b.points.length ≤ b'.points.length := by
  have hn := (points_nodup E).map (coord_inj' σ w h)
  have hs : (b.points.map fun pt => pt.coord).map (σ.coord w h) ⊆ b'.points.map fun pt => pt.coord := by
    intro c hc
    obtain ⟨d, hd, rfl⟩ := List.mem_map.1 hc
    obtain ⟨pt, hp, rfl⟩ := List.mem_map.1 hd
    obtain ⟨pt', h1, h2⟩ := H pt hp
    exact List.mem_map.2 ⟨pt', h1, h2⟩
  have := (hn.subperm hs).length_le
  simpa using this

/-- The points of the plane on the image. -/
theorem boundarySet_flip (E : Exact w h L sd t b L') (E' : Exact (σ.width w h) (σ.height w h) M sd' t' b' M') (F : Full w h L.mesh sd t)
    (F' : Full (σ.width w h) (σ.height w h) M.mesh sd' t') (I : σ.Image w h (onGrid w sd) (onGrid (σ.width w h) sd'))
    (ht : σ = .diagonal ∨ NoTie w h (onGrid w sd)) : boundarySet b' = σ.point w h '' boundarySet b := by
  have key : ∀ {x y : Nat} {a : LP × LP}, x < w → y < h → a ∈ cellArcs w L.mesh sd t x y →
      segment ℝ (Region.pt (((σ.lp a.1).place (σ.cell w h x y).1 (σ.cell w h x y).2).coord (onGrid (σ.width w h) sd')))
        (Region.pt (((σ.lp a.2).place (σ.cell w h x y).1 (σ.cell w h x y).2).coord (onGrid (σ.width w h) sd'))) =
      σ.point w h '' segment ℝ (Region.pt ((a.1.place x y).coord (onGrid w sd))) (Region.pt ((a.2.place x y).coord (onGrid w sd))) := by
    intro x y a hx hy ha
    have h8 := arc_eight ha
    have hm := (cell_fair w L.mesh sd t x y).2.1 a ha
    have k1 := key_contour E (key_iff.2 ⟨x, y, hx, hy, _, hm.1, rfl⟩)
    have k2 := key_contour E (key_iff.2 ⟨x, y, hx, hy, _, hm.2.1, rfl⟩)
    rw [σ.lp_place hx hy h8.1, σ.lp_place hx hy h8.2, place_coord I k1.1 k1.2, place_coord I k2.1 k2.2]
    exact (image_segment ℝ (σ.aff w h) _ _).symm
  ext z
  rw [Front.boundary_arcs E']
  constructor
  · rintro ⟨X, Y, hX, hY, a', ha', hz⟩
    have hc := σ.cell_lt hX hY
    have hcc := σ.cell_cell hX hY
    rw [width_width, height_height] at hc hcc
    rw [show X = (X, Y).1 from rfl, show Y = (X, Y).2 from rfl, ← hcc] at ha' hz
    obtain ⟨a, h1, h2⟩ := (arc_mem F F' I ht hc.1 hc.2).2 a' ha'
    have hk := key hc.1 hc.2 h1
    have hz' : z ∈ σ.point w h '' _ := hk ▸ (show z ∈ segment ℝ _ _ by
      rcases h2 with rfl | rfl
      · exact hz
      · rw [segment_symm]; exact hz)
    obtain ⟨z0, h3, rfl⟩ := hz'
    exact ⟨z0, (Front.boundary_arcs E).2 ⟨_, _, hc.1, hc.2, a, h1, h3⟩, rfl⟩
  · rintro ⟨z0, hz0, rfl⟩
    obtain ⟨x, y, hx, hy, a, ha, hz⟩ := (Front.boundary_arcs E).1 hz0
    have hc := σ.cell_lt hx hy
    have hz' : σ.point w h z0 ∈ σ.point w h '' _ := ⟨z0, hz, rfl⟩
    rw [← key hx hy ha] at hz'
    rcases (arc_mem F F' I ht hx hy).1 a ha with h1 | h1
    · exact ⟨_, _, hc.1, hc.2, _, h1, hz'⟩
    · refine ⟨_, _, hc.1, hc.2, _, h1, ?_⟩
      rw [segment_symm]
      exact hz'

/-! ### conditions -/

theorem cornerEnds_comm (a o b : NodeStatus) : cornerEnds a o b = cornerEnds b o a := by
  cases a <;> cases o <;> cases b <;> rfl

variable {f g : Nat → Nat → ℝ}

theorem gentle_flip (I : σ.Image w h f g) (G : Gentle w h f) : Gentle (σ.width w h) (σ.height w h) g := by
  have J := image_symm I
  cases σ with
  | leftRight =>
    simp only [Flip.Image, node, width, height] at *
    refine ⟨fun x y hx hy hc => ?_, fun x y hx hy hc => ?_⟩
    · rw [← J x y (by omega) hy, ← J (x + 1) y hx hy, show w - x = w - (x + 1) + 1 by omega] at hc ⊢
      rw [abs_sub_comm]
      exact G.1 _ _ (by omega) hy hc.symm
    · rw [← J x y hx (by omega), ← J x (y + 1) hx hy] at hc ⊢
      exact G.2 _ _ (by omega) hy hc
  | upDown =>
    simp only [Flip.Image, node, width, height] at *
    refine ⟨fun x y hx hy hc => ?_, fun x y hx hy hc => ?_⟩
    · rw [← J x y (by omega) hy, ← J (x + 1) y hx hy] at hc ⊢
      exact G.1 _ _ hx (by omega) hc
    · rw [← J x y hx (by omega), ← J x (y + 1) hx hy, show h - y = h - (y + 1) + 1 by omega] at hc ⊢
      rw [abs_sub_comm]
      exact G.2 _ _ hx (by omega) hc.symm
  | diagonal =>
    simp only [Flip.Image, node, width, height] at *
    refine ⟨fun x y hx hy hc => ?_, fun x y hx hy hc => ?_⟩
    · rw [← J x y (by omega) hy, ← J (x + 1) y hx hy] at hc ⊢
      exact G.2 _ _ hy hx hc
    · rw [← J x y hx (by omega), ← J x (y + 1) hx hy] at hc ⊢
      exact G.1 _ _ hy hx hc

theorem ite_flip {p q : Prop} [Decidable p] [Decidable q] {u v : Nat} (h : p ↔ q) (e : q → u = v) : (if p then u else 0) = if q then v else 0 := by
  by_cases hq : q
  · rw [if_pos hq, if_pos (h.2 hq), e hq]
  · rw [if_neg hq, if_neg fun hp => hq (h.1 hp)]

theorem lattice_flip (I : σ.Image w h f g) (hx : x ≤ w) (hy : y ≤ h) :
    latticeEnds (σ.width w h) (σ.height w h) g (σ.node w h x y).1 (σ.node w h x y).2 = latticeEnds w h f x y := by
  unfold latticeEnds
  cases σ with
  | leftRight =>
    simp only [Flip.Image, node, width, height] at *
    have h1 : ∀ y', y' ≤ h → x < w → g (w - x - 1) y' = f (x + 1) y' := fun y' hy' hxw => by rw [← I (x + 1) y' hxw hy']; congr 1
    have h2 : ∀ y', y' ≤ h → 0 < x → g (w - x + 1) y' = f (x - 1) y' := fun y' hy' hx0 => by rw [← I (x - 1) y' (by omega) hy']; congr 1; omega
    have h3 : ∀ y', y' ≤ h → g (w - x) y' = f x y' := fun y' hy' => I x y' hx hy'
    have r : ∀ a b c d : Nat, b + a + d + c = a + b + c + d := by omega
    refine Eq.trans ?_ (r _ _ _ _)
    refine congrArg₂ (· + ·) (congrArg₂ (· + ·) (congrArg₂ (· + ·) ?_ ?_) ?_) ?_
    · exact ite_flip (by omega) fun hq => by rw [h3 _ (by omega), h2 _ (by omega) hq.1, h2 _ (by omega) hq.1, cornerEnds_comm]
    · exact ite_flip (by omega) fun hq => by rw [h3 _ (by omega), h1 _ (by omega) hq.1, h1 _ (by omega) hq.1, cornerEnds_comm]
    · exact ite_flip (by omega) fun hq => by rw [h3 _ (by omega), h1 _ (by omega) hq.1, h1 _ (by omega) hq.1, cornerEnds_comm]
    · exact ite_flip (by omega) fun hq => by rw [h3 _ (by omega), h2 _ (by omega) hq.1, h2 _ (by omega) hq.1, cornerEnds_comm]
  | upDown =>
    simp only [Flip.Image, node, width, height] at *
    have h1 : ∀ x', x' ≤ w → y < h → g x' (h - y - 1) = f x' (y + 1) := fun x' hx' hyh => by rw [← I x' (y + 1) hx' hyh]; congr 1
    have h2 : ∀ x', x' ≤ w → 0 < y → g x' (h - y + 1) = f x' (y - 1) := fun x' hx' hy0 => by rw [← I x' (y - 1) hx' (by omega)]; congr 1; omega
    have h3 : ∀ x', x' ≤ w → g x' (h - y) = f x' y := fun x' hx' => I x' y hx' hy
    have r : ∀ a b c d : Nat, d + c + b + a = a + b + c + d := by omega
    refine Eq.trans ?_ (r _ _ _ _)
    refine congrArg₂ (· + ·) (congrArg₂ (· + ·) (congrArg₂ (· + ·) ?_ ?_) ?_) ?_
    · exact ite_flip (by omega) fun hq => by rw [h3 _ (by omega), h2 _ (by omega) hq.2, h2 _ (by omega) hq.2, cornerEnds_comm]
    · exact ite_flip (by omega) fun hq => by rw [h3 _ (by omega), h2 _ (by omega) hq.2, h2 _ (by omega) hq.2, cornerEnds_comm]
    · exact ite_flip (by omega) fun hq => by rw [h3 _ (by omega), h1 _ (by omega) hq.2, h1 _ (by omega) hq.2, cornerEnds_comm]
    · exact ite_flip (by omega) fun hq => by rw [h3 _ (by omega), h1 _ (by omega) hq.2, h1 _ (by omega) hq.2, cornerEnds_comm]
  | diagonal =>
    simp only [Flip.Image, node, width, height] at *
    have r : ∀ a b c d : Nat, a + d + c + b = a + b + c + d := by omega
    refine Eq.trans ?_ (r _ _ _ _)
    refine congrArg₂ (· + ·) (congrArg₂ (· + ·) (congrArg₂ (· + ·) ?_ ?_) ?_) ?_
    · exact ite_flip (by omega) fun hq => by rw [I _ _ (by omega) (by omega), I _ _ (by omega) (by omega), I _ _ (by omega) (by omega), cornerEnds_comm]
    · exact ite_flip (by omega) fun hq => by rw [I _ _ (by omega) (by omega), I _ _ (by omega) (by omega), I _ _ (by omega) (by omega), cornerEnds_comm]
    · exact ite_flip (by omega) fun hq => by rw [I _ _ (by omega) (by omega), I _ _ (by omega) (by omega), I _ _ (by omega) (by omega), cornerEnds_comm]
    · exact ite_flip (by omega) fun hq => by rw [I _ _ (by omega) (by omega), I _ _ (by omega) (by omega), I _ _ (by omega) (by omega), cornerEnds_comm]

theorem tidy_flip (I : σ.Image w h f g) (T : Tidy w h f) : Tidy (σ.width w h) (σ.height w h) g := by
  have J := image_symm I
  constructor
  · intro X Y hX hY
    have hc := σ.cell_lt hX hY
    have hcc := σ.cell_cell hX hY
    rw [width_width, height_height] at hc hcc
    by_contra hn
    push Not at hn
    have := (corners_flip I hc.1 hc.2 fun v => nodeSide v = .boundary).1 (by rw [hcc]; exact hn)
    obtain ⟨q, hq, hq'⟩ := T.flat _ _ hc.1 hc.2
    exact hq' (this q hq)
  · intro X Y hX hY hb
    have hn := node_le σ hX hY
    have hnn := σ.node_node hX hY
    rw [width_width, height_height] at hn hnn
    have := lattice_flip I hn.1 hn.2
    rw [hnn] at this
    rw [this]
    refine T.ends _ _ hn.1 hn.2 ?_
    rw [← I _ _ hn.1 hn.2, hnn]
    exact hb

end

end Slsm
