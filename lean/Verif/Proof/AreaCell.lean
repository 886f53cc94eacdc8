import Verif.Proof.AreaRim
import Verif.Proof.BndTable

/-! Area fractions: the polygon of one cell. -/

namespace Slsm

open Boundary

namespace Area

/-- Corners and edges of a cell, anticlockwise. -/
def walkLP : List LP := [.c 0, .e 0, .c 1, .e 1, .c 2, .e 2, .c 3, .e 3]

/-- Coordinates of corners and points on edges of the unit cell with lower left corner `(X, Y)`. -/
def cellPoint (X Y : ℝ) (τ : Nat → ℝ) : LP → Coord ℝ
  | .c 0 => ⟨X, Y⟩
  | .c 1 => ⟨X + 1, Y⟩
  | .c 2 => ⟨X + 1, Y + 1⟩
  | .c _ => ⟨X, Y + 1⟩
  | .e 0 => ⟨X + τ 0, Y⟩
  | .e 1 => ⟨X + 1, Y + τ 1⟩
  | .e 2 => ⟨X + τ 2, Y + 1⟩
  | .e _ => ⟨X, Y + τ 3⟩

/-- Place along the rim. -/
noncomputable def rimKey (τ : Nat → ℝ) : LP → ℝ
  | .c 0 => 0
  | .c 1 => 1
  | .c 2 => 2
  | .c _ => -1
  | .e 0 => τ 0
  | .e 1 => 1 + τ 1
  | .e 2 => if 1/2 ≤ τ 2 then 3 - τ 2 else -1 - τ 2
  | .e _ => - τ 3

theorem cellPoint_rim {X Y : ℝ} {τ : Nat → ℝ} (hτ : ∀ j, 0 < τ j ∧ τ j < 1) {p : LP} :
    Rim ⟨X + 1/2, Y + 1/2⟩ (cellPoint X Y τ p) (rimKey τ p) := by
  have h0 := hτ 0
  have h1 := hτ 1
  have h2 := hτ 2
  have h3 := hτ 3
  unfold Rim
  unfold cellPoint rimKey
  split
  · refine .inr (.inr (.inl ⟨?_, ?_, ?_, ?_⟩)) <;> norm_num
  · refine .inr (.inr (.inl ⟨?_, ?_, ?_, ?_⟩)) <;> norm_num
  · refine .inr (.inr (.inr (.inl ⟨?_, ?_, ?_, ?_⟩))) <;> norm_num
  · refine .inr (.inl ⟨?_, ?_, ?_, ?_⟩) <;> norm_num
  · refine .inr (.inr (.inl ⟨?_, ?_, ?_, ?_⟩)) <;> (try dsimp only) <;> linarith
  · refine .inr (.inr (.inr (.inl ⟨?_, ?_, ?_, ?_⟩))) <;> (try dsimp only) <;> linarith
  · dsimp only
    by_cases h : 1/2 ≤ τ 2
    · rw [if_pos h]
      refine .inr (.inr (.inr (.inr ⟨?_, ?_, ?_, ?_⟩))) <;> linarith
    · rw [if_neg h]
      rw [not_le] at h
      refine .inl ⟨?_, ?_, ?_, ?_⟩ <;> linarith
  · refine .inr (.inl ⟨?_, ?_, ?_, ?_⟩) <;> (try dsimp only) <;> linarith

/-- The sorted vertices give the same sum as the walk around the cell. -/
theorem ringSum_sort {X Y : ℝ} {τ : Nat → ℝ} (hτ : ∀ j, 0 < τ j ∧ τ j < 1) {l : List LP} (hl : ∀ p ∈ l, p ∈ walkLP) :
    ringSum (sort (isClockwise ⟨X + 1/2, Y + 1/2⟩) (l.map (cellPoint X Y τ))) =
      ringSum ((walkLP.filter fun p => decide (p ∈ l)).map (cellPoint X Y τ)) := by
  classical
  have h0 := hτ 0
  have h1 := hτ 1
  have h2 := hτ 2
  have h3 := hτ 3
  rw [sort_map (cellPoint X Y τ) (le := fun p q => decide (rimKey τ p ≤ rimKey τ q)) fun a _ b _ => by
    rw [Bool.eq_iff_iff, decide_eq_true_iff]; exact (cellPoint_rim hτ).order (cellPoint_rim hτ)]
  have hs := sort_sorted (le := fun p q => decide (rimKey τ p ≤ rimKey τ q)) (key := rimKey τ) (fun a b => decide_eq_true_iff) l
  have hp := sort_perm (fun p q => decide (rimKey τ p ≤ rimKey τ q)) l
  have fin : ∀ A B : List LP, walkLP = A ++ B → ((B ++ A).Pairwise fun p q => rimKey τ p < rimKey τ q) →
      ringSum ((sort (fun p q => decide (rimKey τ p ≤ rimKey τ q)) l).map (cellPoint X Y τ)) =
      ringSum ((walkLP.filter fun p => decide (p ∈ l)).map (cellPoint X Y τ)) := by
    intro A B hAB ho
    rw [sorted_unique ho (fun a ha => by have := hl a ha; rw [hAB] at this; simpa [or_comm] using this) hp hs, List.map_flatMap]
    simp only [List.map_replicate]
    rw [ringSum_flat (cellPoint X Y τ) (fun p => l.count p), List.filter_append, List.map_append, ringSum_rotate, ← List.map_append,
      ← List.filter_append, ← hAB]
    simp only [List.count_pos_iff]
  by_cases h : 1/2 ≤ τ 2
  · refine fin [.c 0, .e 0, .c 1, .e 1, .c 2, .e 2] [.c 3, .e 3] rfl ?_
    simp only [List.cons_append, List.nil_append, List.pairwise_cons, List.forall_mem_cons, List.not_mem_nil, false_imp_iff, implies_true,
      List.Pairwise.nil, and_true, rimKey, if_pos h]
    refine ⟨⟨?_, ?_, ?_, ?_, ?_, ?_, ?_⟩, ⟨?_, ?_, ?_, ?_, ?_, ?_⟩, ⟨?_, ?_, ?_, ?_, ?_⟩, ⟨?_, ?_, ?_, ?_⟩, ⟨?_, ?_, ?_⟩, ⟨?_, ?_⟩, ?_⟩ <;> linarith
  · refine fin [.c 0, .e 0, .c 1, .e 1, .c 2] [.e 2, .c 3, .e 3] rfl ?_
    simp only [List.cons_append, List.nil_append, List.pairwise_cons, List.forall_mem_cons, List.not_mem_nil, false_imp_iff, implies_true,
      List.Pairwise.nil, and_true, rimKey, if_neg h]
    rw [not_le] at h
    refine ⟨⟨?_, ?_, ?_, ?_, ?_, ?_, ?_⟩, ⟨?_, ?_, ?_, ?_, ?_, ?_⟩, ⟨?_, ?_, ?_, ?_, ?_⟩, ⟨?_, ?_, ?_, ?_⟩, ⟨?_, ?_, ?_⟩, ⟨?_, ?_⟩, ?_⟩ <;> linarith

/-! ### the symbolic polygon -/

/-- Vertices of the structure. -/
def structLP (s : Nat → NodeStatus) : LP → Bool
  | .c j => decide (s j = .inside) || (decide (s j = .boundary) && !(decide (s (after j) = .outside) && decide (s (before j) = .outside)))
  | .e j => cutPair (s j) (s (after j))

/-- Vertices of the outside. -/
def voidLP (s : Nat → NodeStatus) : LP → Bool
  | .c j => decide (s j = .outside)
  | .e j => cutPair (s j) (s (after j))

set_option maxHeartbeats 4000000 in
theorem structure_bounds {τ : Nat → ℝ} (hτ : ∀ j, 0 < τ j ∧ τ j < 1) : ∀ s0 ∈ sts, ∀ s1 ∈ sts, ∀ s2 ∈ sts, ∀ s3 ∈ sts,
    stat (pick s0 s1 s2 s3) = .none →
    0 < ringSum ((walkLP.filter (structLP (pick s0 s1 s2 s3))).map (cellPoint 0 0 τ)) ∧
    ringSum ((walkLP.filter (structLP (pick s0 s1 s2 s3))).map (cellPoint 0 0 τ)) < 2 := by
  have h0 := hτ 0
  have h1 := hτ 1
  have h2 := hτ 2
  have h3 := hτ 3
  generalize hτ0 : τ 0 = a at h0
  generalize hτ1 : τ 1 = b at h1
  generalize hτ2 : τ 2 = c at h2
  generalize hτ3 : τ 3 = d at h3
  intro s0 m0 s1 m1 s2 m2 s3 m3
  simp only [sts, List.mem_cons, List.not_mem_nil, or_false] at m0 m1 m2 m3
  have p01 := mul_pos h0.1 h1.1
  have p12 := mul_pos h1.1 h2.1
  have p23 := mul_pos h2.1 h3.1
  have p30 := mul_pos h3.1 h0.1
  have q01 := mul_pos (sub_pos.2 h0.2) h1.1
  have q12 := mul_pos (sub_pos.2 h1.2) h2.1
  have q23 := mul_pos (sub_pos.2 h2.2) h3.1
  have q30 := mul_pos (sub_pos.2 h3.2) h0.1
  have r01 := mul_pos h0.1 (sub_pos.2 h1.2)
  have r12 := mul_pos h1.1 (sub_pos.2 h2.2)
  have r23 := mul_pos h2.1 (sub_pos.2 h3.2)
  have r30 := mul_pos h3.1 (sub_pos.2 h0.2)
  have t01 := mul_pos (sub_pos.2 h0.2) (sub_pos.2 h1.2)
  have t12 := mul_pos (sub_pos.2 h1.2) (sub_pos.2 h2.2)
  have t23 := mul_pos (sub_pos.2 h2.2) (sub_pos.2 h3.2)
  have t30 := mul_pos (sub_pos.2 h3.2) (sub_pos.2 h0.2)
  rcases m0 with rfl | rfl | rfl <;> rcases m1 with rfl | rfl | rfl <;> rcases m2 with rfl | rfl | rfl <;> rcases m3 with rfl | rfl | rfl <;>
    intro hs <;> first
      | (exact absurd hs (by decide))
      | (simp [walkLP, structLP, pick, after, before, cutPair, ringSum, cross, cellPoint, hτ0, hτ1, hτ2, hτ3] <;>
         constructor <;> linarith)

/-- Exchange inside and outside. -/
def flip : NodeStatus → NodeStatus
  | .inside => .outside
  | .outside => .inside
  | s => s

def isSaddle (s : Nat → NodeStatus) : Bool :=
  cutPair (s 0) (s 1) && cutPair (s 1) (s 2) && cutPair (s 2) (s 3) && cutPair (s 3) (s 0)

theorem void_flip : ∀ s0 ∈ sts, ∀ s1 ∈ sts, ∀ s2 ∈ sts, ∀ s3 ∈ sts, isSaddle (pick s0 s1 s2 s3) = true →
    walkLP.filter (voidLP (pick s0 s1 s2 s3)) = walkLP.filter (structLP (pick (flip s0) (flip s1) (flip s2) (flip s3))) := by
  decide +kernel

set_option maxHeartbeats 4000000 in
/-- The polygons of the two sides fill the cell, if no two neighbouring corners are on the contour. -/
theorem structure_complement (τ : Nat → ℝ) : ∀ s0 ∈ sts, ∀ s1 ∈ sts, ∀ s2 ∈ sts, ∀ s3 ∈ sts,
    stat (pick s0 s1 s2 s3) = .none → isSaddle (pick s0 s1 s2 s3) = false →
    (∀ j ∈ List.range 4, pick s0 s1 s2 s3 j = .boundary → pick s0 s1 s2 s3 (after j) ≠ .boundary) →
    ringSum ((walkLP.filter (structLP (pick s0 s1 s2 s3))).map (cellPoint 0 0 τ)) +
    ringSum ((walkLP.filter (structLP (pick (flip s0) (flip s1) (flip s2) (flip s3)))).map (cellPoint 0 0 τ)) = 2 := by
  intro s0 m0 s1 m1 s2 m2 s3 m3
  simp only [sts, List.mem_cons, List.not_mem_nil, or_false] at m0 m1 m2 m3
  rcases m0 with rfl | rfl | rfl <;> rcases m1 with rfl | rfl | rfl <;> rcases m2 with rfl | rfl | rfl <;> rcases m3 with rfl | rfl | rfl <;>
    intro hs hd hb <;> first
      | (exact absurd hs (by decide))
      | (exact absurd hd (by decide))
      | (exact absurd hb (by decide))
      | (simp [walkLP, structLP, flip, pick, after, before, cutPair, ringSum, cross, cellPoint] <;> ring)

/-! ### the vertices collected by the code -/

/-- Corners that `cutArea` adds. -/
def cornerV (s : Nat → NodeStatus) (sought : NodeStatus) (j : Nat) : List LP :=
  if s j = sought then [.c j] else if s j = .boundary then if s (after j) = .inside ∧ s (before j) = .inside then [.c j] else [] else []

/-- Ends of segments. -/
def arcV (l : List (LP × LP)) : List LP := l.flatMap fun g => [g.1, g.2]

def verts (s : Nat → NodeStatus) (v : Nat → Bool) (first : Bool) (sought : NodeStatus) : List LP :=
  upTo (cornerV s sought) 4 ++ arcV (arcs s v first)

theorem verts_pick (s : Nat → NodeStatus) (v : Nat → Bool) (f : Bool) (o : NodeStatus) :
    verts s v f o = verts (pick (s 0) (s 1) (s 2) (s 3)) (pick (v 0) (v 1) (v 2) (v 3)) f o := rfl

set_option maxRecDepth 100000 in
/-- There are at most six. -/
theorem table_six : ∀ s0 ∈ sts, ∀ s1 ∈ sts, ∀ s2 ∈ sts, ∀ s3 ∈ sts, ∀ v0 v1 v2 v3 f : Bool,
    (∀ j ∈ List.range 4, cutPair (pick s0 s1 s2 s3 j) (pick s0 s1 s2 s3 (after j)) = true → pick v0 v1 v2 v3 j = true) →
    stat (pick s0 s1 s2 s3) = .none →
    (verts (pick s0 s1 s2 s3) (pick v0 v1 v2 v3) f .inside).length ≤ 6 ∧
    (isSaddle (pick s0 s1 s2 s3) = true → (verts (pick s0 s1 s2 s3) (pick v0 v1 v2 v3) f .outside).length ≤ 6) := by
  decide +kernel

set_option maxRecDepth 100000 in
theorem table_walk : ∀ s0 ∈ sts, ∀ s1 ∈ sts, ∀ s2 ∈ sts, ∀ s3 ∈ sts, ∀ v0 v1 v2 v3 f : Bool,
    (∀ p ∈ verts (pick s0 s1 s2 s3) (pick v0 v1 v2 v3) f .inside, p ∈ walkLP) ∧
    (∀ p ∈ verts (pick s0 s1 s2 s3) (pick v0 v1 v2 v3) f .outside, p ∈ walkLP) := by
  decide +kernel

set_option maxRecDepth 100000 in
/-- They are the vertices of the polygon. -/
theorem table_verts : ∀ s0 ∈ sts, ∀ s1 ∈ sts, ∀ s2 ∈ sts, ∀ s3 ∈ sts, ∀ v0 v1 v2 v3 f : Bool,
    (∀ j ∈ List.range 4, cutPair (pick s0 s1 s2 s3 j) (pick s0 s1 s2 s3 (after j)) = true ∨
      pick s0 s1 s2 s3 j = .boundary → pick v0 v1 v2 v3 j = true) →
    stat (pick s0 s1 s2 s3) = .none →
    (walkLP.filter (fun p => decide (p ∈ verts (pick s0 s1 s2 s3) (pick v0 v1 v2 v3) f .inside)) = walkLP.filter (structLP (pick s0 s1 s2 s3))) ∧
    (isSaddle (pick s0 s1 s2 s3) = true →
      walkLP.filter (fun p => decide (p ∈ verts (pick s0 s1 s2 s3) (pick v0 v1 v2 v3) f .outside)) = walkLP.filter (voidLP (pick s0 s1 s2 s3))) := by
  decide +kernel

end Area

end Slsm
