import Verif.Model.LevelSet
import Verif.Spec.Interface

/-! # Specification vocabulary for level sets -/

namespace Slsm

variable {D : Type} [FP D]

namespace LevelSet

/-- Node `i` is masked. -/
def Masked (L : LevelSet D) (i : Nat) : Prop := ∃ nd, L.mesh.nodes[i]? = some nd ∧ nd.isMasked = true

/-- Node `i` is on the edge of the domain. -/
def OnDomainEdge (L : LevelSet D) (i : Nat) : Prop := ∃ nd, L.mesh.nodes[i]? = some nd ∧ nd.isDomain = true

/-- Node `i` is flagged as active. -/
def FlagActive (L : LevelSet D) (i : Nat) : Prop := ∃ nd, L.mesh.nodes[i]? = some nd ∧ nd.isActive = true

/-- Node `i` is flagged as a mine. -/
def FlagMine (L : LevelSet D) (i : Nat) : Prop := ∃ nd, L.mesh.nodes[i]? = some nd ∧ nd.isMine = true

/-- Node `i` may move: it is not masked, and not on the domain edge if the domain is fixed. -/
def Free (L : LevelSet D) (i : Nat) : Prop :=
  i < L.mesh.nNodes ∧ ¬ L.Masked i ∧ (L.isFixedDomain = true → ¬ L.OnDomainEdge i)

/-- Node `i` belongs to the narrow band: it may move and its distance from the interface is below the band width. -/
def InBand (L : LevelSet D) (i : Nat) : Prop :=
  L.Free i ∧ FP.lt (FP.abs (vals L.signedDistance i)) (FP.nat L.bandWidth) = true

/-- Node `i` is at the outer rim (last grid unit) of the band. -/
def AtRim (L : LevelSet D) (i : Nat) : Prop :=
  L.InBand i ∧ FP.lt (FP.nat (L.bandWidth - 1)) (FP.abs (vals L.signedDistance i)) = true

/-- The nodes listed in the narrow band. -/
def band (L : LevelSet D) : List Nat := L.narrowBand.take L.nNarrowBand

/-- The nodes listed as mines. -/
def mineList (L : LevelSet D) : List Nat := L.mines.take L.nMines

/-- The mesh data fixed at construction, the sizes of the vectors, the list lengths: what every operation relies on and
preserves. -/
structure WF (w h : Nat) (L : LevelSet D) : Prop where
  grid : IsGrid w h L.mesh
  sd : L.signedDistance.length = L.mesh.nNodes
  velocity : L.velocity.length = L.mesh.nNodes
  gradient : L.gradient.length = L.mesh.nNodes
  narrowBand : L.narrowBand.length = L.mesh.nNodes
  mines : 0 < L.mines.length
  bandWidth : 2 < L.bandWidth ∧ L.bandWidth < 4294967296

/-- The two lists are what the values, masks and flags require. -/
structure BandOk (L : LevelSet D) : Prop where
  band_mem : ∀ i, i ∈ L.band ↔ L.InBand i
  band_sorted : L.band.Pairwise (· < ·)
  band_count : L.band.length = L.nNarrowBand
  mine_mem : ∀ i, i ∈ L.mineList ↔ L.AtRim i
  mine_sorted : L.mineList.Pairwise (· < ·)
  mine_count : L.mineList.length = L.nMines
  active : ∀ i, L.FlagActive i ↔ L.InBand i

/-- Data of a node other than the narrow band flags are equal. -/
def SameNode (a b : Node D) : Prop :=
  a.coord = b.coord ∧ a.neighbours = b.neighbours ∧ a.elements = b.elements ∧ a.nElements = b.nElements ∧
    a.boundaryPoints = b.boundaryPoints ∧ a.nBoundaryPoints = b.nBoundaryPoints ∧ a.isDomain = b.isDomain ∧
    a.isMasked = b.isMasked ∧ a.status = b.status

end LevelSet

end Slsm
