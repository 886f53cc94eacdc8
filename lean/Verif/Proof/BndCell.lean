import Verif.Proof.BndBase
import Verif.Proof.MeshGeom
import Mathlib.Tactic.FieldSimp
import Mathlib.Tactic.Linarith
import Mathlib.Tactic.Positivity
import Mathlib.Tactic.Ring

/-! Discretisation of one cell, in terms of its corners and edges; geometry of the places. -/

namespace Slsm

open FP

theorem nodeStatus_real (v : ℝ) : Boundary.nodeStatus v = nodeSide v := by
  unfold Boundary.nodeStatus nodeSide
  simp only [FP.lit_real, FP.lt_real, FP.abs_real, FP.nat_real]
  norm_num

theorem nodeSide_cases (v : ℝ) : nodeSide v = .inside ∨ nodeSide v = .outside ∨ nodeSide v = .boundary := by
  unfold nodeSide
  split
  · exact .inr (.inr rfl)
  · split
    · exact .inr (.inl rfl)
    · exact .inl rfl

theorem nodeSide_inside {v : ℝ} : nodeSide v = .inside ↔ 1 / 10 ^ 6 ≤ v := by
  unfold nodeSide
  split
  · rename_i h
    constructor
    · intro h'; cases h'
    · intro h'; rw [abs_lt] at h; linarith [h.2]
  · rename_i h
    rw [not_lt, le_abs] at h
    split
    · constructor
      · intro h'; cases h'
      · intro h'; norm_num at *; linarith
    · constructor
      · intro _; rcases h with h | h
        · exact h
        · norm_num at *; linarith
      · intro _; rfl

theorem nodeSide_outside {v : ℝ} : nodeSide v = .outside ↔ v ≤ -(1 / 10 ^ 6) := by
  unfold nodeSide
  split
  · rename_i h
    constructor
    · intro h'; cases h'
    · intro h'; rw [abs_lt] at h; linarith [h.1]
  · rename_i h
    rw [not_lt, le_abs] at h
    split
    · constructor
      · intro _; rcases h with h | h
        · norm_num at *; linarith
        · linarith
      · intro _; rfl
    · constructor
      · intro h'; cases h'
      · intro h'; norm_num at *; linarith

theorem nodeSide_boundary {v : ℝ} : nodeSide v = .boundary ↔ |v| < 1 / 10 ^ 6 := by
  unfold nodeSide
  split
  · rename_i h; exact ⟨fun _ => h, fun _ => rfl⟩
  · rename_i h
    refine ⟨fun h' => ?_, fun h' => absurd h' h⟩
    split at h' <;> cases h'

theorem cutPair_iff {a b : NodeStatus} : Boundary.cutPair a b = true ↔ Crossed a b := by
  cases a <;> cases b <;> simp [Boundary.cutPair, Crossed] <;> decide

theorem Crossed.symm {a b : NodeStatus} (h : Crossed a b) : Crossed b a := by
  rcases h with ⟨h1, h2⟩ | ⟨h1, h2⟩
  · exact .inr ⟨h2, h1⟩
  · exact .inl ⟨h2, h1⟩

theorem Crossed.left {a b : NodeStatus} (h : Crossed a b) : a ≠ .boundary := by
  rintro rfl
  rcases h with ⟨h1, h2⟩ | ⟨h1, h2⟩ <;> cases h1

/-- Position of the crossing on an edge. -/
theorem cross_pos {a b : ℝ} (h : Crossed (nodeSide a) (nodeSide b)) : 0 < a / (a - b) ∧ a / (a - b) < 1 ∧ a - b ≠ 0 := by
  rcases h with ⟨h1, h2⟩ | ⟨h1, h2⟩
  · rw [nodeSide_inside] at h1
    rw [nodeSide_outside] at h2
    have ha : 0 < a := by norm_num at *; linarith
    have hb : b < 0 := by norm_num at *; linarith
    have : 0 < a - b := by linarith
    exact ⟨by positivity, by rw [div_lt_one this]; linarith, this.ne'⟩
  · rw [nodeSide_outside] at h1
    rw [nodeSide_inside] at h2
    have ha : a < 0 := by norm_num at *; linarith
    have hb : 0 < b := by norm_num at *; linarith
    have : 0 < b - a := by linarith
    have e : a / (a - b) = (-a) / (b - a) := by rw [← neg_div_neg_eq]; congr 1; ring
    rw [e]
    have : 0 < -a := by linarith
    exact ⟨by positivity, by rw [div_lt_one (by linarith)]; linarith, by intro h; linarith⟩

theorem cross_swap {a b : ℝ} (h : a - b ≠ 0) : 1 - b / (b - a) = a / (a - b) := by
  have : b - a ≠ 0 := fun h' => h (by linarith)
  field_simp
  ring

theorem cross_ge {a b : ℝ} (h : Crossed (nodeSide a) (nodeSide b)) (hs : |a - b| ≤ 1) : 1 / 10 ^ 6 ≤ a / (a - b) := by
  rcases h with ⟨h1, h2⟩ | ⟨h1, h2⟩
  · rw [nodeSide_inside] at h1
    rw [nodeSide_outside] at h2
    have ha : 0 < a := by norm_num at *; linarith
    have hb : b < 0 := by norm_num at *; linarith
    have : 0 < a - b := by linarith
    have h1' : a - b ≤ 1 := (abs_le.1 hs).2
    rw [le_div_iff₀ this]
    have : (1 : ℝ) / 10 ^ 6 * (a - b) ≤ 1 / 10 ^ 6 * 1 := mul_le_mul_of_nonneg_left h1' (by positivity)
    linarith
  · rw [nodeSide_outside] at h1
    rw [nodeSide_inside] at h2
    have ha : a < 0 := by norm_num at *; linarith
    have hb : 0 < b := by norm_num at *; linarith
    have : 0 < b - a := by linarith
    have h1' : b - a ≤ 1 := by have := (abs_le.1 hs).1; linarith
    have e : a / (a - b) = (-a) / (b - a) := by rw [← neg_div_neg_eq]; congr 1; ring
    rw [e, le_div_iff₀ this]
    have : (1 : ℝ) / 10 ^ 6 * (b - a) ≤ 1 / 10 ^ 6 * 1 := mul_le_mul_of_nonneg_left h1' (by positivity)
    linarith

namespace Boundary

/-! ### corners and edges of a cell -/

/-- Corner `j` of the cell `(x, y)`. -/
def cornerAt (x y : Nat) : Nat → Nat × Nat
  | 0 => (x, y)
  | 1 => (x + 1, y)
  | 2 => (x + 1, y + 1)
  | _ => (x, y + 1)

/-- Edge `j` of the cell `(x, y)`. -/
def edgeAt (x y : Nat) : Nat → Place
  | 0 => .hor x y
  | 1 => .ver (x + 1) y
  | 2 => .hor x (y + 1)
  | _ => .ver x y

/-- A corner or an edge of a cell. -/
inductive LP where
  | c (j : Nat)
  | e (j : Nat)
  deriving DecidableEq

def LP.place (x y : Nat) : LP → Place
  | .c j => .node (cornerAt x y j).1 (cornerAt x y j).2
  | .e j => edgeAt x y j

section
variable (s : Nat → NodeStatus) (v : Nat → Bool) (first : Bool)

def edgeCuts (j : Nat) : List LP := if v j = true then if cutPair (s j) (s (after j)) = true then [.e j] else [] else []

def edgeArcs (j : Nat) : List (LP × LP) :=
  if v j = true then if cutPair (s j) (s (after j)) = true then [] else
    if s j = .boundary ∧ s (after j) = .boundary then [(.c j, .c (after j))] else [] else []

def edgeKeys (j : Nat) : List LP :=
  if v j = true then if cutPair (s j) (s (after j)) = true then [.e j] else
    if s j = .boundary ∧ s (after j) = .boundary then [.c j, .c (after j)] else [] else []

/-- The first `n` edges together. -/
def upTo {α : Type} (g : Nat → List α) : Nat → List α
  | 0 => []
  | n + 1 => upTo g n ++ g n

def cornerArcs (p : LP) (j : Nat) : List (LP × LP) :=
  if s j = .boundary then if s (after j) = .outside ∨ s (before j) = .outside then [(p, .c j)] else [] else []

def cornerKeys (j : Nat) : List LP :=
  if s j = .boundary then if s (after j) = .outside ∨ s (before j) = .outside then [.c j] else [] else []

def borderC (j : Nat) : List LP := if s j = .boundary then [.c j] else []

def stat : ElementStatus := elemStatus [s 0, s 1, s 2, s 3]

def joinsFour (a b c d : LP) : List (LP × LP) := if first then [(a, b), (c, d)] else [(a, d), (b, c)]

def joins : List (LP × LP) :=
  match upTo (edgeCuts s v) 4 with
  | [a, b] => [(a, b)]
  | [a] => upTo (cornerArcs s a) 4
  | [a, b, c, d] => joinsFour first a b c d
  | [] => if stat s = .inside then [] else
      match upTo (borderC s) 4 with
      | a :: b :: _ => [(a, b)]
      | _ => []
  | _ => []

def joinKeys : List LP :=
  match upTo (edgeCuts s v) 4 with
  | [_] => upTo (cornerKeys s) 4
  | [] => if stat s = .inside then [] else
      match upTo (borderC s) 4 with
      | a :: b :: _ => [a, b]
      | _ => []
  | _ => []

/-- No uninitialised entry is read. -/
def defined : Bool :=
  match upTo (edgeCuts s v) 4 with
  | [] => decide (stat s = .inside) || decide (2 ≤ (upTo (borderC s) 4).length)
  | _ => true

/-- Segments of a cell. -/
def arcs : List (LP × LP) := if stat s = .outside then [] else upTo (edgeArcs s v) 4 ++ joins s v first

/-- Points of a cell, in the order of creation. -/
def marks : List LP := if stat s = .outside then [] else upTo (edgeKeys s v) 4 ++ joinKeys s v

end

/-! ### finite tables -/

def sts : List NodeStatus := [.inside, .outside, .boundary]

def pick {α : Type} (a b c d : α) : Nat → α
  | 0 => a
  | 1 => b
  | 2 => c
  | _ => d

/-- occurrences of a place in a list of segments -/
def occ {α : Type} [DecidableEq α] (p : α) (l : List (α × α)) : Nat := (l.map fun g => (if g.1 = p then 1 else 0) + (if g.2 = p then 1 else 0)).sum

/-! ### geometry -/

section
variable {w h : Nat} {f : Nat → Nat → ℝ}

theorem after_lt {j : Nat} (hj : j < 4) : after j < 4 := by unfold after; split <;> omega
theorem before_lt {j : Nat} (hj : j < 4) : before j < 4 := by unfold before; split <;> omega

theorem cornerAt_le {x y : Nat} (hx : x < w) (hy : y < h) (j : Nat) : (cornerAt x y j).1 ≤ w ∧ (cornerAt x y j).2 ≤ h := by
  unfold cornerAt
  split <;> constructor <;> dsimp only <;> omega

theorem edgeAt_ends {x y j : Nat} (hj : j < 4) (q : Nat × Nat) :
    q ∈ (edgeAt x y j).ends ↔ q = cornerAt x y j ∨ q = cornerAt x y (after j) := by
  match j, hj with
  | 0, _ => simp [edgeAt, Place.ends, cornerAt, after]
  | 1, _ => simp [edgeAt, Place.ends, cornerAt, after]
  | 2, _ => simp [edgeAt, Place.ends, cornerAt, after, or_comm]
  | 3, _ => simp [edgeAt, Place.ends, cornerAt, after, or_comm]

theorem edgeAt_inGrid {x y j : Nat} (hx : x < w) (hy : y < h) (hj : j < 4) : (edgeAt x y j).inGrid w h := by
  intro q hq
  rcases (edgeAt_ends hj q).1 hq with rfl | rfl
  · exact cornerAt_le hx hy _
  · exact cornerAt_le hx hy _

theorem edgeAt_onContour {x y j : Nat} (hj : j < 4) : (edgeAt x y j).onContour f ↔
    Crossed (nodeSide (f (cornerAt x y j).1 (cornerAt x y j).2)) (nodeSide (f (cornerAt x y (after j)).1 (cornerAt x y (after j)).2)) := by
  match j, hj with
  | 0, _ => simp [edgeAt, Place.onContour, cornerAt, after]
  | 1, _ => simp [edgeAt, Place.onContour, cornerAt, after]
  | 2, _ => simp only [edgeAt, Place.onContour, cornerAt, after]; exact ⟨Crossed.symm, Crossed.symm⟩
  | 3, _ => simp only [edgeAt, Place.onContour, cornerAt, after]; exact ⟨Crossed.symm, Crossed.symm⟩

/-- The coordinates worked out from corner `j`. -/
theorem edgePoint_coord {x y j : Nat} (hj : j < 4)
    (hc : Crossed (nodeSide (f (cornerAt x y j).1 (cornerAt x y j).2)) (nodeSide (f (cornerAt x y (after j)).1 (cornerAt x y (after j)).2))) :
    edgePoint (⟨((cornerAt x y j).1 : ℕ), ((cornerAt x y j).2 : ℕ)⟩ : Coord ℝ) j
      (f (cornerAt x y j).1 (cornerAt x y j).2 / (f (cornerAt x y j).1 (cornerAt x y j).2 - f (cornerAt x y (after j)).1 (cornerAt x y (after j)).2)) =
      (edgeAt x y j).coord f := by
  match j, hj with
  | 0, _ => simp [edgeAt, Place.coord, cornerAt, after, edgePoint]
  | 1, _ => simp [edgeAt, Place.coord, cornerAt, after, edgePoint]
  | 2, _ =>
    change Crossed (nodeSide (f (x + 1) (y + 1))) (nodeSide (f x (y + 1))) at hc
    have := cross_swap (cross_pos hc.symm).2.2
    show (⟨((x + 1 : ℕ) : ℝ) - f (x + 1) (y + 1) / (f (x + 1) (y + 1) - f x (y + 1)), ((y + 1 : ℕ) : ℝ)⟩ : Coord ℝ) =
      ⟨x + f x (y + 1) / (f x (y + 1) - f (x + 1) (y + 1)), ((y + 1 : ℕ) : ℝ)⟩
    rw [← this]
    push_cast
    congr 1
    ring
  | 3, _ =>
    change Crossed (nodeSide (f x (y + 1))) (nodeSide (f x y)) at hc
    have := cross_swap (cross_pos hc.symm).2.2
    show (⟨(x : ℝ), ((y + 1 : ℕ) : ℝ) - f x (y + 1) / (f x (y + 1) - f x y)⟩ : Coord ℝ) =
      ⟨x, y + f x y / (f x y - f x (y + 1))⟩
    rw [← this]
    push_cast
    congr 1
    ring

/-- Points on the contour are in the domain. -/
theorem coord_in {p : Place} (hg : p.inGrid w h) (hc : p.onContour f) :
    0 ≤ (p.coord f).x ∧ (p.coord f).x ≤ w ∧ 0 ≤ (p.coord f).y ∧ (p.coord f).y ≤ h := by
  cases p with
  | node x y =>
    have := hg (x, y) (by simp [Place.ends])
    simp only [Place.coord]
    exact ⟨by positivity, by exact_mod_cast this.1, by positivity, by exact_mod_cast this.2⟩
  | hor x y =>
    have h1 := (hg (x + 1, y) (by simp [Place.ends]))
    have h2 := cross_pos hc
    have h3 : (x : ℝ) + 1 ≤ w := by exact_mod_cast h1.1
    simp only [Place.coord]
    have h4 : (0 : ℝ) ≤ x := by positivity
    exact ⟨by linarith, by linarith, by positivity, by exact_mod_cast h1.2⟩
  | ver x y =>
    have h1 := (hg (x, y + 1) (by simp [Place.ends]))
    have h2 := cross_pos hc
    have h3 : (y : ℝ) + 1 ≤ h := by exact_mod_cast h1.2
    simp only [Place.coord]
    have h4 : (0 : ℝ) ≤ y := by positivity
    exact ⟨by positivity, by exact_mod_cast h1.1, by linarith, by linarith⟩

theorem isClose_real (p q : Coord ℝ) : isClose p q = true ↔ |p.x - q.x| < 1 / 10 ^ 6 ∧ |p.y - q.y| < 1 / 10 ^ 6 := by
  unfold isClose
  simp only [Bool.and_eq_true, FP.lt_real, FP.abs_real, FP.sub_real, FP.lit_real]
  norm_num

theorem isClose_self (p : Coord ℝ) : isClose p p = true := by
  rw [isClose_real]; simp

/-- the contour passes at `d` from `q` in direction `dir` -/
inductive Dir where
  | right | left | up | down
  deriving DecidableEq

def Dir.dx : Dir → ℝ
  | .right => 1
  | .left => -1
  | _ => 0

def Dir.dy : Dir → ℝ
  | .up => 1
  | .down => -1
  | _ => 0

/-- An edge at the lattice point `q` in a direction. -/
inductive EdgeFrom (q : Nat × Nat) : Dir → Place → Prop
  | right : EdgeFrom q .right (.hor q.1 q.2)
  | up : EdgeFrom q .up (.ver q.1 q.2)
  | left {x : Nat} (hx : q.1 = x + 1) : EdgeFrom q .left (.hor x q.2)
  | down {y : Nat} (hy : q.2 = y + 1) : EdgeFrom q .down (.ver q.1 y)

theorem EdgeFrom.unique {q : Nat × Nat} {d : Dir} {p p' : Place} (a : EdgeFrom q d p) (b : EdgeFrom q d p') : p = p' := by
  cases a with
  | right => cases b; rfl
  | up => cases b; rfl
  | left hx => cases b with | left hx' => have := hx.symm.trans hx'; simp_all
  | down hy => cases b with | down hy' => have := hy.symm.trans hy'; simp_all

theorem place_at {q : Nat × Nat} {p : Place} (hq : q ∈ p.ends) : p = .node q.1 q.2 ∨ ∃ d, EdgeFrom q d p := by
  obtain ⟨qx, qy⟩ := q
  cases p with
  | node x y => simp [Place.ends] at hq; left; simp [hq]
  | hor x y =>
    right
    simp only [Place.ends, List.mem_cons, Prod.mk.injEq, List.not_mem_nil, or_false] at hq
    rcases hq with ⟨rfl, rfl⟩ | ⟨rfl, rfl⟩
    · exact ⟨.right, .right⟩
    · exact ⟨.left, .left rfl⟩
  | ver x y =>
    right
    simp only [Place.ends, List.mem_cons, Prod.mk.injEq, List.not_mem_nil, or_false] at hq
    rcases hq with ⟨rfl, rfl⟩ | ⟨rfl, rfl⟩
    · exact ⟨.up, .up⟩
    · exact ⟨.down, .down rfl⟩

/-- Where the contour crosses an edge, seen from one end. -/
theorem coord_from {q : Nat × Nat} {d : Dir} {p : Place} (e : EdgeFrom q d p) (G : Gentle w h f) (hg : p.inGrid w h)
    (hc : p.onContour f) : ∃ t : ℝ, 1 / 10 ^ 6 ≤ t ∧ p.coord f = ⟨q.1 + t * d.dx, q.2 + t * d.dy⟩ := by
  obtain ⟨qx, qy⟩ := q
  cases e with
  | right =>
    have h1 := (hg (qx + 1, qy) (by simp [Place.ends]))
    exact ⟨_, cross_ge hc (G.1 qx qy h1.1 h1.2 hc), by simp [Place.coord, Dir.dx, Dir.dy]⟩
  | up =>
    have h1 := (hg (qx, qy + 1) (by simp [Place.ends]))
    exact ⟨_, cross_ge hc (G.2 qx qy h1.1 h1.2 hc), by simp [Place.coord, Dir.dx, Dir.dy]⟩
  | @left x hx =>
    simp only at hx
    subst hx
    have h1 := (hg (x + 1, qy) (by simp [Place.ends]))
    have hs := G.1 x qy h1.1 h1.2 hc
    rw [abs_sub_comm] at hs
    refine ⟨_, cross_ge (Crossed.symm hc) hs, ?_⟩
    have := cross_swap (cross_pos hc).2.2
    simp only [Place.coord, Dir.dx, Dir.dy, Coord.mk.injEq]
    push_cast
    constructor <;> linarith
  | @down y hy =>
    simp only at hy
    subst hy
    have h1 := (hg (qx, y + 1) (by simp [Place.ends]))
    have hs := G.2 qx y h1.1 h1.2 hc
    rw [abs_sub_comm] at hs
    refine ⟨_, cross_ge (Crossed.symm hc) hs, ?_⟩
    have := cross_swap (cross_pos hc).2.2
    simp only [Place.coord, Dir.dx, Dir.dy, Coord.mk.injEq]
    push_cast
    constructor <;> linarith

theorem EdgeFrom.not_boundary {q : Nat × Nat} {d : Dir} {p : Place} (e : EdgeFrom q d p) (hc : p.onContour f) :
    nodeSide (f q.1 q.2) ≠ .boundary := by
  cases e with
  | right => exact Crossed.left hc
  | up => exact Crossed.left hc
  | left hx => rw [hx]; exact Crossed.left (Crossed.symm hc)
  | down hy => rw [hy]; exact Crossed.left (Crossed.symm hc)

/-- Different places at the same lattice point are never taken for each other. -/
theorem isClose_iff {q : Nat × Nat} {p p' : Place} (G : Gentle w h f) (hg : p.inGrid w h) (hg' : p'.inGrid w h)
    (hc : p.onContour f) (hc' : p'.onContour f) (hq : q ∈ p.ends) (hq' : q ∈ p'.ends) :
    isClose (p.coord f) (p'.coord f) = true ↔ p = p' := by
  refine ⟨fun hcl => ?_, fun e => by rw [e]; exact isClose_self _⟩
  rw [isClose_real] at hcl
  rcases place_at hq with e | ⟨d, e⟩ <;> rcases place_at hq' with e' | ⟨d', e'⟩
  · rw [e, e']
  · rw [e] at hc; exact absurd hc (e'.not_boundary hc')
  · rw [e'] at hc'; exact absurd hc' (e.not_boundary hc)
  · obtain ⟨t, ht, hp⟩ := coord_from e G hg hc
    obtain ⟨t', ht', hp'⟩ := coord_from e' G hg' hc'
    rw [hp, hp'] at hcl
    simp only [add_sub_add_left_eq_sub] at hcl
    by_cases hd : d = d'
    · subst hd; exact e.unique e'
    · exfalso
      obtain ⟨h1, h2⟩ := hcl
      rw [abs_lt] at h1 h2
      obtain ⟨a1, a2⟩ := h1
      obtain ⟨b1, b2⟩ := h2
      cases d <;> cases d' <;> simp only [Dir.dx, Dir.dy] at a1 a2 b1 b2 <;> first | exact hd rfl | linarith

/-- All places at a lattice point. -/
def around (q : Nat × Nat) : List Place := [.hor q.1 q.2, .ver q.1 q.2, .hor (q.1 - 1) q.2, .ver q.1 (q.2 - 1)]

theorem EdgeFrom.mem_around {q : Nat × Nat} {d : Dir} {p : Place} (e : EdgeFrom q d p) : p ∈ around q := by
  cases e with
  | right => simp [around]
  | up => simp [around]
  | left hx => simp [around, hx]
  | down hy => simp [around, hy]

/-- At most four points at a lattice point. -/
theorem at_most_four {q : Nat × Nat} {l : List Place} (hn : l.Nodup) (hl : ∀ p ∈ l, p.onContour f ∧ q ∈ p.ends) : l.length ≤ 4 := by
  by_cases hb : nodeSide (f q.1 q.2) = .boundary
  · have : l ⊆ [Place.node q.1 q.2] := by
      intro p hp
      rcases place_at (hl p hp).2 with e | ⟨d, e⟩
      · simp [e]
      · exact absurd hb (e.not_boundary (hl p hp).1)
    have := (List.subperm_of_subset hn this).length_le
    simp at this
    omega
  · have : l ⊆ around q := by
      intro p hp
      rcases place_at (hl p hp).2 with e | ⟨d, e⟩
      · have := (hl p hp).1
        rw [e] at this
        exact absurd this hb
      · exact e.mem_around
    exact (List.subperm_of_subset hn this).length_le

end

end Boundary

end Slsm
