import Verif.Spec.Gradient
import Verif.Spec.Boundary
import Verif.Spec.LevelSet

/-! # Symmetries of the grid

The mirror images of a rectangle of cells and its reflection in the diagonal; every symmetry of the grid is a composition of these. -/

namespace Slsm

/-- Exchange left and right, exchange top and bottom, or exchange the two axes. -/
inductive Flip where
  | leftRight
  | upDown
  | diagonal
  deriving DecidableEq

namespace Flip

/-- Number of cells in a row of the image of a grid with `w × h` cells. -/
def width : Flip → Nat → Nat → Nat
  | diagonal, _, h => h
  | _, w, _ => w

/-- Number of cells in a column of the image of a grid with `w × h` cells. -/
def height : Flip → Nat → Nat → Nat
  | diagonal, w, _ => w
  | _, _, h => h

/-- The image of a lattice point. -/
def node (w h : Nat) : Flip → Nat → Nat → Nat × Nat
  | leftRight, x, y => (w - x, y)
  | upDown, x, y => (x, h - y)
  | diagonal, x, y => (y, x)

/-- The lower left corner of the image of the cell with lower left corner `(x, y)`. -/
def cell (w h : Nat) : Flip → Nat → Nat → Nat × Nat
  | leftRight, x, y => (w - 1 - x, y)
  | upDown, x, y => (x, h - 1 - y)
  | diagonal, x, y => (y, x)

/-- The image of a point of the plane. -/
def point (w h : Nat) : Flip → ℝ × ℝ → ℝ × ℝ
  | leftRight, z => (w - z.1, z.2)
  | upDown, z => (z.1, h - z.2)
  | diagonal, z => (z.2, z.1)

/-- The image of coordinates. -/
def coord (w h : Nat) (σ : Flip) (c : Coord ℝ) : Coord ℝ := ⟨(σ.point w h (c.x, c.y)).1, (σ.point w h (c.x, c.y)).2⟩

/-- The values `g` are the image of the values `f` on the `w × h` grid. -/
def Image {α : Type} (σ : Flip) (w h : Nat) (f g : Nat → Nat → α) : Prop :=
  ∀ x y, x ≤ w → y ≤ h → g (σ.node w h x y).1 (σ.node w h x y).2 = f x y

end Flip

/-- A list with one entry per node as a function of the lattice point. -/
def lay {D : Type} [FP D] (w : Nat) (l : List D) (x y : Nat) : D := vals l (nodeNo w x y)

/-- The image of a hole. -/
def Flip.hole (w h : Nat) (σ : Flip) (c : Hole ℝ) : Hole ℝ := ⟨σ.coord w h c.coord, c.r⟩

/-- The nodes with property `q` are the images of the nodes with property `p`. -/
def Flip.Nodes (σ : Flip) (w h : Nat) (p q : Nat → Prop) : Prop :=
  ∀ x y, x ≤ w → y ≤ h → (q (nodeNo (σ.width w h) (σ.node w h x y).1 (σ.node w h x y).2) ↔ p (nodeNo w x y))

/-- The level set `M` is the image of `L`, which has `w × h` cells: values, velocities, gradients, narrow band and mines. -/
structure LevelSet.IsImage (σ : Flip) (w h : Nat) (L M : LevelSet ℝ) : Prop where
  distance : σ.Image w h (lay w L.signedDistance) (lay (σ.width w h) M.signedDistance)
  velocity : σ.Image w h (lay w L.velocity) (lay (σ.width w h) M.velocity)
  gradient : σ.Image w h (lay w L.gradient) (lay (σ.width w h) M.gradient)
  band : σ.Nodes w h (· ∈ L.band) (· ∈ M.band)
  mines : σ.Nodes w h (· ∈ L.mineList) (· ∈ M.mineList)

end Slsm
