import Verif.Proof.Region
import Verif.Proof.FlipGrad
import Mathlib.MeasureTheory.Measure.Haar.Unique

/-! # Mirror images of cells and of the structure -/

namespace Slsm

open Flip MeasureTheory Set

namespace Flip

/-- The image of a place. -/
def place (w h : Nat) : Flip → Place → Place
  | leftRight, .node x y => .node (w - x) y
  | leftRight, .hor x y => .hor (w - 1 - x) y
  | leftRight, .ver x y => .ver (w - x) y
  | upDown, .node x y => .node x (h - y)
  | upDown, .hor x y => .hor x (h - y)
  | upDown, .ver x y => .ver x (h - 1 - y)
  | diagonal, .node x y => .node y x
  | diagonal, .hor x y => .ver y x
  | diagonal, .ver x y => .hor y x

/-- The corners of a cell (anticlockwise from the lower left one) in the order of the image of the cell. -/
def turn {α β : Type} : Flip → (α → α → α → α → β) → α → α → α → α → β
  | leftRight, F, a, b, c, d => F b a d c
  | upDown, F, a, b, c, d => F d c b a
  | diagonal, F, a, b, c, d => F a d c b

/-- The flip as a linear map. -/
def lin : Flip → (ℝ × ℝ →ₗ[ℝ] ℝ × ℝ)
  | leftRight => LinearMap.prodMap (-LinearMap.id) LinearMap.id
  | upDown => LinearMap.prodMap LinearMap.id (-LinearMap.id)
  | diagonal => LinearMap.prod (LinearMap.snd ℝ ℝ ℝ) (LinearMap.fst ℝ ℝ ℝ)

/-- The flip as an affine map. -/
def aff (w h : Nat) (σ : Flip) : ℝ × ℝ →ᵃ[ℝ] ℝ × ℝ where
  toFun := σ.point w h
  linear := σ.lin
  map_vadd' p v := by
    cases σ <;> simp [point, lin, Prod.ext_iff] <;> ring

theorem width_width (σ : Flip) (w h : Nat) : σ.width (σ.width w h) (σ.height w h) = w := by cases σ <;> rfl
theorem height_height (σ : Flip) (w h : Nat) : σ.height (σ.width w h) (σ.height w h) = h := by cases σ <;> rfl

theorem node_node (σ : Flip) {w h x y : Nat} (hx : x ≤ w) (hy : y ≤ h) :
    σ.node (σ.width w h) (σ.height w h) (σ.node w h x y).1 (σ.node w h x y).2 = (x, y) := by
  cases σ <;> simp only [node, width, height, Prod.mk.injEq, and_true, true_and] <;> omega

theorem cell_cell (σ : Flip) {w h x y : Nat} (hx : x < w) (hy : y < h) :
    σ.cell (σ.width w h) (σ.height w h) (σ.cell w h x y).1 (σ.cell w h x y).2 = (x, y) := by
  cases σ <;> simp only [cell, width, height, Prod.mk.injEq, and_true, true_and] <;> omega

theorem cell_lt (σ : Flip) {w h x y : Nat} (hx : x < w) (hy : y < h) : (σ.cell w h x y).1 < σ.width w h ∧ (σ.cell w h x y).2 < σ.height w h := by
  cases σ <;> simp only [cell, width, height] <;> omega

theorem point_point (σ : Flip) (w h : Nat) (z : ℝ × ℝ) : σ.point (σ.width w h) (σ.height w h) (σ.point w h z) = z := by
  cases σ <;> simp [point, width, height]

theorem point_inj (σ : Flip) (w h : Nat) : Function.Injective (σ.point w h) := Function.LeftInverse.injective (σ.point_point w h)

theorem image_symm {α : Type} {σ : Flip} {w h : Nat} {f g : Nat → Nat → α} (I : σ.Image w h f g) : σ.Image (σ.width w h) (σ.height w h) g f := by
  intro x y hx hy
  cases σ with
  | leftRight => have := I (w - x) y (by omega) hy; simp only [node, width] at *; rw [← this]; congr 1; omega
  | upDown => have := I x (h - y) hx (by omega); simp only [node, height] at *; rw [← this]; congr 1; omega
  | diagonal => exact (I y x hy hx).symm

theorem measure_point (σ : Flip) (w h : Nat) : MeasurePreserving (σ.point w h) volume volume := by
  cases σ with
  | leftRight => exact (Measure.measurePreserving_sub_left volume (w : ℝ)).prod (MeasurePreserving.id volume)
  | upDown => exact (MeasurePreserving.id volume).prod (Measure.measurePreserving_sub_left volume (h : ℝ))
  | diagonal => exact Measure.measurePreserving_swap

theorem point_continuous (σ : Flip) (w h : Nat) : Continuous (σ.point w h) := by
  cases σ <;> unfold point <;> fun_prop

theorem image_point (σ : Flip) (w h : Nat) (S : Set (ℝ × ℝ)) : σ.point w h '' S = σ.point (σ.width w h) (σ.height w h) ⁻¹' S := by
  refine congrFun (Set.image_eq_preimage_of_inverse (σ.point_point w h) fun z => ?_) S
  have := σ.point_point (σ.width w h) (σ.height w h) z
  rwa [width_width, height_height] at this

theorem volume_image (σ : Flip) (w h : Nat) {S : Set (ℝ × ℝ)} (hS : MeasurableSet S) : volume (σ.point w h '' S) = volume S := by
  rw [image_point]
  exact (measure_point σ _ _).measure_preimage hS.nullMeasurableSet

theorem hull_image (σ : Flip) (w h : Nat) (S : Set (ℝ × ℝ)) : σ.point w h '' convexHull ℝ S = convexHull ℝ (σ.point w h '' S) :=
  (σ.aff w h).image_convexHull S

end Flip

section
variable {σ : Flip} {w h : Nat} {f g : Nat → Nat → ℝ} {x y : Nat}

/-- Values at the corners of the image of a cell. -/
theorem cell_values (I : σ.Image w h f g) (hx : x < w) (hy : y < h) (P : ℝ → ℝ → ℝ → ℝ → Prop) :
    P (g (σ.cell w h x y).1 (σ.cell w h x y).2) (g ((σ.cell w h x y).1 + 1) (σ.cell w h x y).2) (g ((σ.cell w h x y).1 + 1) ((σ.cell w h x y).2 + 1))
      (g (σ.cell w h x y).1 ((σ.cell w h x y).2 + 1)) ↔
    σ.turn P (f x y) (f (x + 1) y) (f (x + 1) (y + 1)) (f x (y + 1)) := by
  have a := I x y (by omega) (by omega)
  have b := I (x + 1) y (by omega) (by omega)
  have c := I (x + 1) (y + 1) (by omega) (by omega)
  have d := I x (y + 1) (by omega) (by omega)
  cases σ with
  | leftRight =>
    simp only [node, cell, turn] at *
    rw [show w - 1 - x + 1 = w - x by omega, show w - 1 - x = w - (x + 1) by omega, a, b, c, d]
  | upDown =>
    simp only [node, cell, turn] at *
    rw [show h - 1 - y + 1 = h - y by omega, show h - 1 - y = h - (y + 1) by omega, a, b, c, d]
  | diagonal =>
    simp only [node, cell, turn] at *
    rw [a, b, c, d]

theorem corners_flip (I : σ.Image w h f g) (hx : x < w) (hy : y < h) (P : ℝ → Prop) :
    (∀ q ∈ cellCorners (σ.cell w h x y).1 (σ.cell w h x y).2, P (g q.1 q.2)) ↔ ∀ q ∈ cellCorners x y, P (f q.1 q.2) := by
  have := cell_values I hx hy fun a b c d => P a ∧ P b ∧ P c ∧ P d
  simp only [cellCorners, List.mem_cons, List.not_mem_nil, or_false, forall_eq_or_imp, forall_eq]
  rw [this]
  cases σ <;> dsimp only [turn] <;> tauto

theorem saddle_flip (I : σ.Image w h f g) (hx : x < w) (hy : y < h) : Saddle g (σ.cell w h x y).1 (σ.cell w h x y).2 ↔ Saddle f x y := by
  have := cell_values I hx hy fun a b c d => Crossed (nodeSide a) (nodeSide b) ∧ Crossed (nodeSide b) (nodeSide c) ∧ Crossed (nodeSide c) (nodeSide d) ∧
    Crossed (nodeSide d) (nodeSide a)
  unfold Saddle
  rw [this]
  have cc := fun a b => (Area.crossed_comm a b).1
  cases σ <;> dsimp only [turn] <;> constructor <;> rintro ⟨h1, h2, h3, h4⟩ <;>
    exact ⟨by first | assumption | exact cc _ _ (by assumption), by first | assumption | exact cc _ _ (by assumption), by first | assumption | exact cc _ _ (by assumption),
      by first | assumption | exact cc _ _ (by assumption)⟩

theorem centre_flip (I : σ.Image w h f g) (hx : x < w) (hy : y < h) : centreValue g (σ.cell w h x y).1 (σ.cell w h x y).2 = centreValue f x y := by
  have := cell_values I hx hy fun a b c d => (a + b + c + d) / 4 = centreValue f x y
  refine this.2 ?_
  unfold centreValue
  cases σ <;> dsimp only [turn] <;> ring

theorem inGrid_walk (hx : x < w) (hy : y < h) {p : Place} (hp : p ∈ cellWalk x y) : p.inGrid w h := by
  intro q hq
  simp only [cellWalk, List.mem_cons, List.not_mem_nil, or_false] at hp
  rcases hp with rfl | rfl | rfl | rfl | rfl | rfl | rfl | rfl <;> simp only [Place.ends, List.mem_cons, List.not_mem_nil, or_false] at hq <;>
    first
      | (subst hq; dsimp only; omega)
      | (rcases hq with rfl | rfl <;> dsimp only <;> omega)

theorem place_walk (hx : x < w) (hy : y < h) {p : Place} (hp : p ∈ cellWalk x y) : σ.place w h p ∈ cellWalk (σ.cell w h x y).1 (σ.cell w h x y).2 := by
  simp only [cellWalk, List.mem_cons, List.not_mem_nil, or_false] at hp ⊢
  cases σ <;> rcases hp with rfl | rfl | rfl | rfl | rfl | rfl | rfl | rfl <;>
    simp only [place, cell, Place.node.injEq, Place.hor.injEq, Place.ver.injEq, reduceCtorEq, false_or, or_false, true_and, and_true, true_or, or_true] <;> omega

theorem place_contour (I : σ.Image w h f g) {p : Place} (hp : p.inGrid w h) : (σ.place w h p).onContour g ↔ p.onContour f := by
  have hc := fun a b => Area.crossed_comm a b
  cases p with
  | node x y =>
    have h1 := hp (x, y) (by simp [Place.ends])
    have a := I x y h1.1 h1.2
    cases σ <;> simp only [node, place, Place.onContour] at * <;> rw [a]
  | hor x y =>
    have h1 := hp (x, y) (by simp [Place.ends])
    have h2 := hp (x + 1, y) (by simp [Place.ends])
    dsimp only at h1 h2
    have a := I x y h1.1 h1.2
    have b := I (x + 1) y h2.1 h2.2
    cases σ <;> simp only [node, place, Place.onContour] at *
    · rw [show w - 1 - x + 1 = w - x by omega, show w - 1 - x = w - (x + 1) by omega, a, b, hc]
    · rw [a, b]
    · rw [a, b]
  | ver x y =>
    have h1 := hp (x, y) (by simp [Place.ends])
    have h2 := hp (x, y + 1) (by simp [Place.ends])
    dsimp only at h1 h2
    have a := I x y h1.1 h1.2
    have b := I x (y + 1) h2.1 h2.2
    cases σ <;> simp only [node, place, Place.onContour] at *
    · rw [a, b]
    · rw [show h - 1 - y + 1 = h - y by omega, show h - 1 - y = h - (y + 1) by omega, a, b, hc]
    · rw [a, b]

theorem back_cross {a b : ℝ} (h : a - b ≠ 0) : b / (b - a) = 1 - a / (a - b) := by
  have h' : b - a ≠ 0 := fun hc => h (by linarith)
  field_simp
  ring

theorem place_coord (I : σ.Image w h f g) {p : Place} (hp : p.inGrid w h) (hc : p.onContour f) : (σ.place w h p).coord g = σ.coord w h (p.coord f) := by
  cases p with
  | node x y =>
    have h1 := hp (x, y) (by simp [Place.ends])
    dsimp only at h1
    cases σ <;> simp only [place, Place.coord, Flip.coord, point]
    · rw [Nat.cast_sub h1.1]
    · rw [Nat.cast_sub h1.2]
  | hor x y =>
    have h1 := hp (x, y) (by simp [Place.ends])
    have h2 := hp (x + 1, y) (by simp [Place.ends])
    dsimp only at h1 h2
    have a := I x y h1.1 h1.2
    have b := I (x + 1) y h2.1 h2.2
    have hne := (Slsm.cross_pos hc).2.2
    cases σ <;> simp only [node, place, Place.coord, Flip.coord, point] at *
    · rw [show w - 1 - x + 1 = w - x by omega, show w - 1 - x = w - (x + 1) by omega, a, b, back_cross hne, Nat.cast_sub h2.1]
      push_cast
      congr 1
      ring
    · rw [a, b, Nat.cast_sub h1.2]
    · rw [a, b]
  | ver x y =>
    have h1 := hp (x, y) (by simp [Place.ends])
    have h2 := hp (x, y + 1) (by simp [Place.ends])
    dsimp only at h1 h2
    have a := I x y h1.1 h1.2
    have b := I x (y + 1) h2.1 h2.2
    have hne := (Slsm.cross_pos hc).2.2
    cases σ <;> simp only [node, place, Place.coord, Flip.coord, point] at *
    · rw [a, b, Nat.cast_sub h1.1]
    · rw [show h - 1 - y + 1 = h - y by omega, show h - 1 - y = h - (y + 1) by omega, a, b, back_cross hne, Nat.cast_sub h2.2]
      push_cast
      congr 1
      ring
    · rw [a, b]

theorem place_node (σ : Flip) (w h : Nat) (x y : Nat) : σ.place w h (.node x y) = .node (σ.node w h x y).1 (σ.node w h x y).2 := by
  cases σ <;> rfl

theorem place_place (σ : Flip) {p : Place} (hp : p.inGrid w h) : σ.place (σ.width w h) (σ.height w h) (σ.place w h p) = p := by
  cases p with
  | node x y =>
    have h1 := hp (x, y) (by simp [Place.ends])
    dsimp only at h1
    cases σ <;> simp only [place, width, height, Place.node.injEq, and_true, true_and] <;> omega
  | hor x y =>
    have h2 := hp (x + 1, y) (by simp [Place.ends])
    dsimp only at h2
    cases σ <;> simp only [place, width, height, Place.hor.injEq, and_true, true_and] <;> omega
  | ver x y =>
    have h2 := hp (x, y + 1) (by simp [Place.ends])
    dsimp only at h2
    cases σ <;> simp only [place, width, height, Place.ver.injEq, and_true, true_and] <;> omega

theorem place_inGrid (σ : Flip) {p : Place} (hp : p.inGrid w h) : (σ.place w h p).inGrid (σ.width w h) (σ.height w h) := by
  cases p with
  | node x y =>
    have h1 := hp (x, y) (by simp [Place.ends])
    dsimp only at h1
    cases σ <;> simp only [Place.inGrid, Place.ends, place, width, height, List.mem_cons, List.not_mem_nil, or_false, forall_eq] <;> omega
  | hor x y =>
    have h1 := hp (x, y) (by simp [Place.ends])
    have h2 := hp (x + 1, y) (by simp [Place.ends])
    dsimp only at h1 h2
    cases σ <;> simp only [Place.inGrid, Place.ends, place, width, height, List.mem_cons, List.not_mem_nil, or_false, forall_eq_or_imp, forall_eq] <;> omega
  | ver x y =>
    have h1 := hp (x, y) (by simp [Place.ends])
    have h2 := hp (x, y + 1) (by simp [Place.ends])
    dsimp only at h1 h2
    cases σ <;> simp only [Place.inGrid, Place.ends, place, width, height, List.mem_cons, List.not_mem_nil, or_false, forall_eq_or_imp, forall_eq] <;> omega

theorem vertex_edge {p : Place} (hn : ∀ a b, p ≠ .node a b) : (StructureVertex f x y p ↔ p.onContour f) ∧ (VoidVertex f p ↔ p.onContour f) := by
  cases p with
  | node a b => exact absurd rfl (hn a b)
  | hor a b => exact ⟨Iff.rfl, Iff.rfl⟩
  | ver a b => exact ⟨Iff.rfl, Iff.rfl⟩

theorem place_ne_node (σ : Flip) {p : Place} (hn : ∀ a b, p ≠ .node a b) : ∀ a b, σ.place w h p ≠ .node a b := by
  cases p with
  | node a b => exact absurd rfl (hn a b)
  | hor a b => intro c d; cases σ <;> simp [place]
  | ver a b => intro c d; cases σ <;> simp [place]

theorem vertex_flip (I : σ.Image w h f g) (hx : x < w) (hy : y < h) {p : Place} (hp : p ∈ cellWalk x y) :
    (StructureVertex g (σ.cell w h x y).1 (σ.cell w h x y).2 (σ.place w h p) ↔ StructureVertex f x y p) ∧ (VoidVertex g (σ.place w h p) ↔ VoidVertex f p) := by
  have hg := inGrid_walk hx hy hp
  by_cases hn : ∃ a b, p = .node a b
  · obtain ⟨a, b, rfl⟩ := hn
    have ha : (a = x ∨ a = x + 1) ∧ (b = y ∨ b = y + 1) := by
      simp only [cellWalk, List.mem_cons, List.not_mem_nil, or_false, Place.node.injEq, reduceCtorEq, false_or] at hp
      omega
    have e0 := I a b (by omega) (by omega)
    have e1 := I a (2 * y + 1 - b) (by omega) (by omega)
    have e2 := I (2 * x + 1 - a) b (by omega) (by omega)
    rw [place_node]
    unfold StructureVertex VoidVertex
    dsimp only
    rw [e0]
    refine ⟨?_, Iff.rfl⟩
    cases σ <;> simp only [node, cell] at *
    · rw [e1, show 2 * (w - 1 - x) + 1 - (w - a) = w - (2 * x + 1 - a) by omega, e2]
    · rw [show 2 * (h - 1 - y) + 1 - (h - b) = h - (2 * y + 1 - b) by omega, e1, e2]
    · rw [e1, e2]; tauto
  · push Not at hn
    rw [(vertex_edge hn).1, (vertex_edge (x := x) (y := y) hn).2, (vertex_edge (place_ne_node σ hn)).1, (vertex_edge (x := x) (y := y) (place_ne_node σ hn)).2]
    exact ⟨place_contour I hg, place_contour I hg⟩

theorem node_coord (σ : Flip) {a b : Nat} (ha : a ≤ w) (hb : b ≤ h) : (σ.place w h (.node a b)).coord g = σ.coord w h (Place.coord f (.node a b)) := by
  cases σ <;> simp only [place, Place.coord, Flip.coord, point]
  · rw [Nat.cast_sub ha]
  · rw [Nat.cast_sub hb]

theorem vertices_sub {P Q : Place → Prop} (I : σ.Image w h f g) (hx : x < w) (hy : y < h) (hPQ : ∀ p ∈ cellWalk x y, P p → Q (σ.place w h p))
    (hP : ∀ p, (∀ a b, p ≠ .node a b) → P p → p.onContour f) :
    σ.point w h '' cellVertices f x y P ⊆ cellVertices g (σ.cell w h x y).1 (σ.cell w h x y).2 Q := by
  rintro _ ⟨_, ⟨p, hp, h1, rfl⟩, rfl⟩
  refine ⟨σ.place w h p, place_walk hx hy hp, hPQ p hp h1, ?_⟩
  have hg := inGrid_walk hx hy hp
  have : (σ.place w h p).coord g = σ.coord w h (p.coord f) := by
    by_cases hn : ∃ a b, p = .node a b
    · obtain ⟨a, b, rfl⟩ := hn
      have := hg (a, b) (by simp [Place.ends])
      exact node_coord σ this.1 this.2
    · push Not at hn
      exact place_coord I hg (hP p hn h1)
  rw [this]
  rfl

theorem vertices_flip (I : σ.Image w h f g) (hx : x < w) (hy : y < h) :
    cellVertices g (σ.cell w h x y).1 (σ.cell w h x y).2 (StructureVertex g (σ.cell w h x y).1 (σ.cell w h x y).2) =
      σ.point w h '' cellVertices f x y (StructureVertex f x y) ∧
    cellVertices g (σ.cell w h x y).1 (σ.cell w h x y).2 (VoidVertex g) = σ.point w h '' cellVertices f x y (VoidVertex f) := by
  obtain ⟨hX, hY⟩ := σ.cell_lt hx hy
  have I' := image_symm I
  have hback : ∀ {S T : Set (ℝ × ℝ)}, σ.point (σ.width w h) (σ.height w h) '' T ⊆ S → T ⊆ σ.point w h '' S := by
    intro S T hT z hz
    refine ⟨_, hT ⟨z, hz, rfl⟩, ?_⟩
    have := σ.point_point (σ.width w h) (σ.height w h) z
    rwa [width_width, height_height] at this
  have ec := σ.cell_cell hx hy
  constructor
  · refine Subset.antisymm (hback ?_) (vertices_sub I hx hy (fun p hp h => (vertex_flip I hx hy hp).1.2 h) fun p hn h => (vertex_edge hn).1.1 h)
    have := vertices_sub (P := StructureVertex g (σ.cell w h x y).1 (σ.cell w h x y).2) (Q := StructureVertex f x y) I' hX hY
      (fun p hp h => by
        have := (vertex_flip I' hX hY hp).1.2 h
        rwa [ec] at this) fun p hn h => (vertex_edge hn).1.1 h
    rwa [ec] at this
  · refine Subset.antisymm (hback ?_) (vertices_sub I hx hy (fun p hp h => (vertex_flip I hx hy hp).2.2 h) fun p hn h => (vertex_edge (x := x) (y := y) hn).2.1 h)
    have := vertices_sub (P := VoidVertex g) (Q := VoidVertex f) I' hX hY
      (fun p hp h => (vertex_flip I' hX hY hp).2.2 h) fun p hn h => (vertex_edge (x := x) (y := y) hn).2.1 h
    rwa [ec] at this

theorem square_flip (σ : Flip) (hx : x < w) (hy : y < h) : cellSquare (σ.cell w h x y).1 (σ.cell w h x y).2 = σ.point w h '' cellSquare x y := by
  rw [image_point]
  ext z
  have cx : ((w - 1 - x : ℕ) : ℝ) = w - 1 - x := by push_cast [show x ≤ w - 1 by omega, show 1 ≤ w by omega]; ring
  have cy : ((h - 1 - y : ℕ) : ℝ) = h - 1 - y := by push_cast [show y ≤ h - 1 by omega, show 1 ≤ h by omega]; ring
  cases σ <;> simp only [cellSquare, cell, point, width, height, mem_prod, mem_Icc, mem_preimage, cx, cy] <;>
    constructor <;> rintro ⟨⟨h1, h2⟩, h3, h4⟩ <;> refine ⟨⟨?_, ?_⟩, ?_, ?_⟩ <;> linarith

open Classical in
/-- The structure in the image of a cell. -/
theorem structureIn_flip (I : σ.Image w h f g) (hx : x < w) (hy : y < h) :
    structureIn g (σ.cell w h x y).1 (σ.cell w h x y).2 = σ.point w h '' structureIn f x y := by
  unfold structureIn
  rw [apply_ite (σ.point w h '' ·), apply_ite (σ.point w h '' ·), apply_ite (σ.point w h '' ·)]
  refine if_congr (corners_flip I hx hy fun v => nodeSide v ≠ .outside) (square_flip σ hx hy) ?_
  refine if_congr (corners_flip I hx hy fun v => nodeSide v ≠ .inside) (image_empty _).symm ?_
  have hp : Saddle g (σ.cell w h x y).1 (σ.cell w h x y).2 ∧ centreValue g (σ.cell w h x y).1 (σ.cell w h x y).2 < 0 ↔
      Saddle f x y ∧ centreValue f x y < 0 := by rw [saddle_flip I hx hy, centre_flip I hx hy]
  refine if_congr hp ?_ ?_
  · rw [square_flip σ hx hy, (vertices_flip I hx hy).2, ← hull_image, ← image_sdiff (σ.point_inj w h)]
  · rw [(vertices_flip I hx hy).1, ← hull_image]

theorem structureSet_flip (I : σ.Image w h f g) : structureSet (σ.width w h) (σ.height w h) g = σ.point w h '' structureSet w h f := by
  ext z
  constructor
  · rintro ⟨X, Y, hX, hY, hz⟩
    have := structureIn_flip (image_symm I) hX hY
    have hc := σ.cell_lt hX hY
    rw [width_width, height_height] at hc
    refine ⟨σ.point (σ.width w h) (σ.height w h) z, ⟨_, _, hc.1, hc.2, ?_⟩, ?_⟩
    · rw [this]; exact ⟨z, hz, rfl⟩
    · have := σ.point_point (σ.width w h) (σ.height w h) z
      rwa [width_width, height_height] at this
  · rintro ⟨z, ⟨x, y, hx, hy, hz⟩, rfl⟩
    have hc := σ.cell_lt hx hy
    exact ⟨_, _, hc.1, hc.2, by rw [structureIn_flip I hx hy]; exact ⟨z, hz, rfl⟩⟩

open Classical in
/-- The area fraction of the image of a cell. -/
theorem cellArea_flip (I : σ.Image w h f g) (hx : x < w) (hy : y < h) : cellArea g (σ.cell w h x y).1 (σ.cell w h x y).2 = cellArea f x y := by
  have hs : polyArea (structurePolygon g (σ.cell w h x y).1 (σ.cell w h x y).2) = polyArea (structurePolygon f x y) := by
    obtain ⟨a1, a2⟩ := Region.volume_structure (f := g) (x := (σ.cell w h x y).1) (y := (σ.cell w h x y).2)
    obtain ⟨b1, b2⟩ := Region.volume_structure (f := f) (x := x) (y := y)
    rw [(vertices_flip I hx hy).1, ← hull_image, volume_image σ w h (Region.hull_measurable _), b2] at a2
    exact ((ENNReal.ofReal_eq_ofReal_iff b1 a1).1 a2).symm
  have hv : polyArea (voidPolygon g (σ.cell w h x y).1 (σ.cell w h x y).2) = polyArea (voidPolygon f x y) := by
    obtain ⟨a1, a2⟩ := Region.volume_void (f := g) (x := (σ.cell w h x y).1) (y := (σ.cell w h x y).2)
    obtain ⟨b1, b2⟩ := Region.volume_void (f := f) (x := x) (y := y)
    rw [(vertices_flip I hx hy).2, ← hull_image, volume_image σ w h (Region.hull_measurable _), b2] at a2
    exact ((ENNReal.ofReal_eq_ofReal_iff b1 a1).1 a2).symm
  unfold cellArea
  refine if_congr (corners_flip I hx hy fun v => nodeSide v ≠ .outside) rfl ?_
  refine if_congr (corners_flip I hx hy fun v => nodeSide v ≠ .inside) rfl ?_
  have hp : Saddle g (σ.cell w h x y).1 (σ.cell w h x y).2 ∧ centreValue g (σ.cell w h x y).1 (σ.cell w h x y).2 ≤ 0 ↔
      Saddle f x y ∧ centreValue f x y ≤ 0 := by rw [saddle_flip I hx hy, centre_flip I hx hy]
  exact if_congr hp (by rw [hv]) hs

/-- Sums over cells. -/
theorem cells_sum (σ : Flip) {M : Type} [AddCommMonoid M] (F G : Nat → Nat → M) (hFG : ∀ x y, x < w → y < h → G (σ.cell w h x y).1 (σ.cell w h x y).2 = F x y) :
    ∑ i ∈ Finset.range (σ.width w h * σ.height w h), G (i % σ.width w h) (i / σ.width w h) = ∑ i ∈ Finset.range (w * h), F (i % w) (i / w) := by
  have hl : ∀ {w h i : Nat}, i < w * h → 0 < w ∧ i % w < w ∧ i / w < h := by
    intro w h i hi
    have hw : 0 < w := Nat.pos_of_ne_zero fun hc => by subst hc; omega
    exact ⟨hw, Nat.mod_lt _ hw, (Nat.div_lt_iff_lt_mul hw).2 (by rwa [Nat.mul_comm])⟩
  have hj : ∀ {w h a b : Nat}, a < w → b < h → a + w * b < w * h ∧ (a + w * b) % w = a ∧ (a + w * b) / w = b := by
    intro w h a b ha hb
    refine ⟨by nlinarith, ?_, ?_⟩
    · rw [Nat.add_mul_mod_self_left, Nat.mod_eq_of_lt ha]
    · rw [Nat.add_mul_div_left _ _ (by omega), Nat.div_eq_of_lt ha, Nat.zero_add]
  symm
  refine Finset.sum_bij' (fun i _ => (σ.cell w h (i % w) (i / w)).1 + σ.width w h * (σ.cell w h (i % w) (i / w)).2)
    (fun j _ => (σ.cell (σ.width w h) (σ.height w h) (j % σ.width w h) (j / σ.width w h)).1 +
      w * (σ.cell (σ.width w h) (σ.height w h) (j % σ.width w h) (j / σ.width w h)).2) ?_ ?_ ?_ ?_ ?_
  · intro i hi
    obtain ⟨_, h1, h2⟩ := hl (Finset.mem_range.1 hi)
    have hc := σ.cell_lt h1 h2
    exact Finset.mem_range.2 (hj hc.1 hc.2).1
  · intro j hi
    obtain ⟨_, h1, h2⟩ := hl (Finset.mem_range.1 hi)
    have hc := σ.cell_lt h1 h2
    rw [width_width, height_height] at hc
    exact Finset.mem_range.2 (hj hc.1 hc.2).1
  · intro i hi
    obtain ⟨_, h1, h2⟩ := hl (Finset.mem_range.1 hi)
    have hc := σ.cell_lt h1 h2
    rw [(hj hc.1 hc.2).2.1, (hj hc.1 hc.2).2.2, σ.cell_cell h1 h2]
    exact Nat.mod_add_div i w
  · intro j hi
    obtain ⟨_, h1, h2⟩ := hl (Finset.mem_range.1 hi)
    have hc := σ.cell_lt h1 h2
    have hcc := σ.cell_cell h1 h2
    rw [width_width, height_height] at hc hcc
    rw [(hj hc.1 hc.2).2.1, (hj hc.1 hc.2).2.2, hcc]
    exact Nat.mod_add_div j _
  · intro i hi
    obtain ⟨_, h1, h2⟩ := hl (Finset.mem_range.1 hi)
    have hc := σ.cell_lt h1 h2
    rw [(hj hc.1 hc.2).2.1, (hj hc.1 hc.2).2.2, hFG _ _ h1 h2]

end

end Slsm
