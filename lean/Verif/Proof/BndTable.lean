import Verif.Proof.BndCell

/-! Finite tables about one cell: all combinations of sides, edges looked at and choice for four cuts. -/

namespace Slsm

namespace Boundary

theorem arcs_pick (s : Nat → NodeStatus) (v : Nat → Bool) (f : Bool) :
    arcs s v f = arcs (pick (s 0) (s 1) (s 2) (s 3)) (pick (v 0) (v 1) (v 2) (v 3)) f := rfl

theorem marks_pick (s : Nat → NodeStatus) (v : Nat → Bool) :
    marks s v = marks (pick (s 0) (s 1) (s 2) (s 3)) (pick (v 0) (v 1) (v 2) (v 3)) := rfl

theorem defined_pick (s : Nat → NodeStatus) (v : Nat → Bool) :
    defined s v = defined (pick (s 0) (s 1) (s 2) (s 3)) (pick (v 0) (v 1) (v 2) (v 3)) := rfl

theorem sts_mem {a : NodeStatus} (h : a ≠ .none) : a ∈ sts := by
  cases a <;> simp_all [sts]

set_option maxRecDepth 100000 in
theorem table_cut : ∀ s0 ∈ sts, ∀ s1 ∈ sts, ∀ s2 ∈ sts, ∀ s3 ∈ sts, ∀ v0 v1 v2 v3 f : Bool,
    (∀ j ∈ List.range 4, cutPair (pick s0 s1 s2 s3 j) (pick s0 s1 s2 s3 (after j)) = true → pick v0 v1 v2 v3 j = true) →
    ∀ j ∈ List.range 4, cutPair (pick s0 s1 s2 s3 j) (pick s0 s1 s2 s3 (after j)) = true →
      occ (.e j) (arcs (pick s0 s1 s2 s3) (pick v0 v1 v2 v3) f) = 1 := by
  decide +kernel

theorem upTo_mem {α : Type} {g : Nat → List α} {a : α} {n : Nat} : a ∈ upTo g n ↔ ∃ j, j < n ∧ a ∈ g j := by
  induction n with
  | zero => simp [upTo]
  | succ n ih =>
    show a ∈ upTo g n ++ g n ↔ _
    rw [List.mem_append, ih]
    constructor
    · rintro (⟨j, h1, h2⟩ | h)
      · exact ⟨j, by omega, h2⟩
      · exact ⟨n, by omega, h⟩
    · rintro ⟨j, h1, h2⟩
      rcases Nat.lt_or_ge j n with h | h
      · exact .inl ⟨j, h, h2⟩
      · have : j = n := by omega
        subst this
        exact .inr h2

/-- a place of the cell that the contour passes -/
def fair (s : Nat → NodeStatus) : LP → Bool
  | .c j => decide (j < 4) && decide (s j = .boundary)
  | .e j => decide (j < 4) && cutPair (s j) (s (after j))

set_option maxRecDepth 100000 in
theorem table_fair : ∀ s0 ∈ sts, ∀ s1 ∈ sts, ∀ s2 ∈ sts, ∀ s3 ∈ sts, ∀ v0 v1 v2 v3 f : Bool,
    (∀ p ∈ marks (pick s0 s1 s2 s3) (pick v0 v1 v2 v3), fair (pick s0 s1 s2 s3) p = true) ∧
    (∀ g ∈ arcs (pick s0 s1 s2 s3) (pick v0 v1 v2 v3) f,
      g.1 ∈ marks (pick s0 s1 s2 s3) (pick v0 v1 v2 v3) ∧ g.2 ∈ marks (pick s0 s1 s2 s3) (pick v0 v1 v2 v3) ∧ g.1 ≠ g.2) ∧
    (∀ j ∈ List.range 4, cutPair (pick s0 s1 s2 s3 j) (pick s0 s1 s2 s3 (after j)) = true → pick v0 v1 v2 v3 j = true →
      LP.e j ∈ marks (pick s0 s1 s2 s3) (pick v0 v1 v2 v3)) := by
  decide +kernel

set_option maxRecDepth 100000 in
theorem table_defined : ∀ s0 ∈ sts, ∀ s1 ∈ sts, ∀ s2 ∈ sts, ∀ s3 ∈ sts, ∀ v0 v1 v2 v3 : Bool,
    (∀ j ∈ List.range 4, cutPair (pick s0 s1 s2 s3 j) (pick s0 s1 s2 s3 (after j)) = true → pick v0 v1 v2 v3 j = true) →
    stat (pick s0 s1 s2 s3) ≠ .outside → defined (pick s0 s1 s2 s3) (pick v0 v1 v2 v3) = true := by
  decide +kernel

set_option maxRecDepth 100000 in
theorem table_two : ∀ s0 ∈ sts, ∀ s1 ∈ sts, ∀ s2 ∈ sts, ∀ s3 ∈ sts, ∀ v0 v1 v2 v3 f : Bool,
    (∃ j ∈ List.range 4, pick s0 s1 s2 s3 j ≠ .boundary) →
    (arcs (pick s0 s1 s2 s3) (pick v0 v1 v2 v3) f).length ≤ 2 := by
  decide +kernel

set_option maxRecDepth 100000 in
theorem table_corner : ∀ s0 ∈ sts, ∀ s1 ∈ sts, ∀ s2 ∈ sts, ∀ s3 ∈ sts, ∀ v0 v1 v2 v3 f : Bool,
    (∀ j ∈ List.range 4, pick s0 s1 s2 s3 j ≠ .outside) →
    ∀ j ∈ List.range 4, occ (.c j) (arcs (pick s0 s1 s2 s3) (pick v0 v1 v2 v3) f) =
      (if pick s0 s1 s2 s3 j = .boundary ∧ pick s0 s1 s2 s3 (after j) = .boundary ∧ pick v0 v1 v2 v3 j = true then 1 else 0) +
      (if pick s0 s1 s2 s3 j = .boundary ∧ pick s0 s1 s2 s3 (before j) = .boundary ∧ pick v0 v1 v2 v3 (before j) = true then 1 else 0) := by
  decide +kernel

set_option maxRecDepth 100000 in
theorem table_ends_le : ∀ s0 ∈ sts, ∀ s1 ∈ sts, ∀ s2 ∈ sts, ∀ s3 ∈ sts, ∀ v0 v1 v2 v3 f : Bool,
    (∀ j ∈ List.range 4, cutPair (pick s0 s1 s2 s3 j) (pick s0 s1 s2 s3 (after j)) = true → pick v0 v1 v2 v3 j = true) →
    ∀ j ∈ List.range 4, pick s0 s1 s2 s3 j = .boundary → occ (.c j) (arcs (pick s0 s1 s2 s3) (pick v0 v1 v2 v3) f) ≤
      cornerEnds (pick s0 s1 s2 s3 (before j)) (pick s0 s1 s2 s3 (after (after j))) (pick s0 s1 s2 s3 (after j)) := by
  decide +kernel

set_option maxRecDepth 100000 in
theorem table_ends : ∀ s0 ∈ sts, ∀ s1 ∈ sts, ∀ s2 ∈ sts, ∀ s3 ∈ sts, ∀ v0 v1 v2 v3 f : Bool,
    (∀ j ∈ List.range 4, cutPair (pick s0 s1 s2 s3 j) (pick s0 s1 s2 s3 (after j)) = true ∨
      pick s0 s1 s2 s3 j = .boundary → pick v0 v1 v2 v3 j = true) →
    ∀ j ∈ List.range 4, pick s0 s1 s2 s3 j = .boundary → occ (.c j) (arcs (pick s0 s1 s2 s3) (pick v0 v1 v2 v3) f) =
      cornerEnds (pick s0 s1 s2 s3 (before j)) (pick s0 s1 s2 s3 (after (after j))) (pick s0 s1 s2 s3 (after j)) := by
  decide +kernel

set_option maxRecDepth 100000 in
theorem table_marked : ∀ s0 ∈ sts, ∀ s1 ∈ sts, ∀ s2 ∈ sts, ∀ s3 ∈ sts, ∀ v0 v1 v2 v3 f : Bool,
    ∀ j ∈ List.range 4, LP.c j ∈ marks (pick s0 s1 s2 s3) (pick v0 v1 v2 v3) →
      0 < occ (.c j) (arcs (pick s0 s1 s2 s3) (pick v0 v1 v2 v3) f) := by
  decide +kernel

set_option maxRecDepth 100000 in
/-- Cells without a corner on the boundary: exchanging inside and outside changes nothing. -/
theorem table_swap : ∀ s0 ∈ [NodeStatus.inside, .outside], ∀ s1 ∈ [NodeStatus.inside, .outside], ∀ s2 ∈ [NodeStatus.inside, .outside],
    ∀ s3 ∈ [NodeStatus.inside, .outside], ∀ v0 v1 v2 v3 f : Bool,
    (∀ j ∈ List.range 4, cutPair (pick s0 s1 s2 s3 j) (pick s0 s1 s2 s3 (after j)) = true → pick v0 v1 v2 v3 j = true) →
    let t := fun s : NodeStatus => if s = .inside then NodeStatus.outside else .inside
    arcs (pick s0 s1 s2 s3) (pick v0 v1 v2 v3) f = arcs (pick (t s0) (t s1) (t s2) (t s3)) (pick v0 v1 v2 v3) f ∧
    marks (pick s0 s1 s2 s3) (pick v0 v1 v2 v3) = marks (pick (t s0) (t s1) (t s2) (t s3)) (pick v0 v1 v2 v3) := by
  decide +kernel

end Boundary

end Slsm
