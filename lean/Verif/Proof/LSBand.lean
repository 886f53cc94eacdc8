import Verif.Spec.LevelSet
import Verif.Proof.MeshGeom
import Verif.Proof.FMMInit

/-! The narrow band. -/

namespace Slsm

set_option linter.unusedSectionVars false

variable {D : Type} [FP D] {w h : Nat}

/-- The data of a node used by `IsGrid`. -/
def StaticNode (a b : Node D) : Prop :=
  a.coord = b.coord ∧ a.neighbours = b.neighbours ∧ a.elements = b.elements ∧ a.nElements = b.nElements ∧
    a.boundaryPoints.length = b.boundaryPoints.length ∧ a.isDomain = b.isDomain

theorem IsGrid.congr_nodes {m : Mesh D} (G : IsGrid w h m) {nodes : List (Node D)}
    (hlen : nodes.length = m.nodes.length)
    (hn : ∀ (i : Nat) (nd : Node D), nodes[i]? = some nd → ∃ nd0, m.nodes[i]? = some nd0 ∧ StaticNode nd nd0) :
    IsGrid w h { m with nodes := nodes } := by
  constructor
  · exact G.w_pos
  · exact G.h_pos
  · exact G.width
  · exact G.height
  · exact G.nNodes
  · exact G.nElements
  · rw [← G.nodes_length, ← hlen]
  · exact G.elements_length
  · intro x y nd hx hy e
    obtain ⟨nd0, h0, hs⟩ := hn _ _ e
    rw [hs.1]; exact G.coord x y nd0 hx hy h0
  · intro x y nd hx hy e
    obtain ⟨nd0, h0, hs⟩ := hn _ _ e
    rw [hs.2.1]; exact G.neighbours x y nd0 hx hy h0
  · intro x y nd hx hy e
    obtain ⟨nd0, h0, hs⟩ := hn _ _ e
    rw [hs.2.2.2.2.2]; exact G.isDomain x y nd0 hx hy h0
  · intro n nd e
    obtain ⟨nd0, h0, hs⟩ := hn _ _ e
    rw [hs.2.2.1, hs.2.2.2.1]; exact G.cells n nd0 h0
  · intro n nd e
    obtain ⟨nd0, h0, hs⟩ := hn _ _ e
    rw [hs.2.2.2.2.1]; exact G.slots n nd0 h0
  · exact G.centre
  · exact G.corner
  · exact G.segSlots
  · exact G.xy_length
  · exact G.xy_col
  · exact G.xy

namespace LevelSet

variable {L L0 : LevelSet D}

/-- `InBand` as a decision of the code. -/
def inb (L : LevelSet D) (i : Nat) : Bool :=
  match L.mesh.nodes[i]? with
  | some nd => (!nd.isMasked && (!nd.isDomain || !L.isFixedDomain)) &&
      FP.lt (FP.abs (vals L.signedDistance i)) (FP.nat L.bandWidth)
  | none => false

/-- `AtRim` as a decision of the code. -/
def rim (L : LevelSet D) (i : Nat) : Bool :=
  inb L i && FP.lt (FP.nat (u32 (L.bandWidth + 4294967295))) (FP.abs (vals L.signedDistance i))

/-- New flags of node `i`. -/
def reflag (L : LevelSet D) (i : Nat) (nd : Node D) : Node D :=
  { nd with isActive := inb L i, isMine := nd.isMine || rim L i }

/-- Loop invariant of `initialiseNarrowBand`. -/
structure BInv (L0 : LevelSet D) (k : Nat) (L : LevelSet D) : Prop where
  frame : L = { L0 with mesh := { L0.mesh with nodes := L.mesh.nodes }, narrowBand := L.narrowBand,
                        nNarrowBand := L.nNarrowBand, mines := L.mines, nMines := L.nMines }
  nodesLen : L.mesh.nodes.length = L0.mesh.nodes.length
  nodes : ∀ i : Nat, L.mesh.nodes[i]? = (L0.mesh.nodes[i]?).map fun nd => if i < k then reflag L0 i nd else nd
  nbLen : L.narrowBand.length = L0.mesh.nNodes
  nb : L.narrowBand.take L.nNarrowBand = (List.range k).filter (inb L0)
  nbN : L.nNarrowBand = ((List.range k).filter (inb L0)).length
  mn : L.mines.take L.nMines = (List.range k).filter (rim L0)
  mnN : L.nMines = ((List.range k).filter (rim L0)).length
  room : L.nMines < L.mines.length ∨ L.nMines = L0.mesh.nNodes
  grow : L0.mines.length ≤ L.mines.length

theorem filter_range_le (p : Nat → Bool) (k : Nat) : ((List.range k).filter p).length ≤ k := by
  simpa using List.length_filter_le p (List.range k)

theorem filter_range_succ (p : Nat → Bool) (k : Nat) :
    (List.range (k + 1)).filter p = (List.range k).filter p ++ if p k then [k] else [] := by
  rw [List.range_succ, List.filter_append]
  congr 1
  by_cases h : p k <;> simp [h]

theorem take_set_succ (l : List Nat) (n a : Nat) (h : n < l.length) : (l.set n a).take (n + 1) = l.take n ++ [a] := by
  rw [List.take_succ_eq_append_getElem (by simpa using h)]
  simp [List.take_set_of_le]

theorem resize_length (v : List Nat) (n : Nat) : (resize v n).length = n := by
  unfold resize; simp; omega

theorem resize_take (v : List Nat) {n k : Nat} (h : k ≤ v.length) (hn : k ≤ n) : (resize v n).take k = v.take k := by
  unfold resize
  rw [List.take_append_of_le_length (by simp; omega), List.take_take, Nat.min_eq_left hn]

/-- Result of `addMine`. -/
def mineStep (i : Nat) (L : LevelSet D) : LevelSet D :=
  { L with
    mesh := { L.mesh with nodes := L.mesh.nodes.modify i fun nd => { nd with isMine := true } }
    mines := if L.nMines + 1 = L.mines.length then
      resize (L.mines.set L.nMines i) (Nat.min (u32 (2 * (L.nMines + 1))) L.mesh.nNodes) else L.mines.set L.nMines i
    nMines := L.nMines + 1 }

theorem modAt_modify {α : Type} {v : List α} {i : Nat} (f : α → α) (h : i < v.length) :
    modAt v i (fun a => pure (f a)) = .ok (v.modify i f) := by
  rw [modAt_eq h (b := f v[i]) rfl]
  congr 1
  apply List.ext_getElem?
  intro j
  rw [List.getElem?_modify, List.getElem?_set]
  by_cases e : i = j
  · subst e; simp [h]
  · simp [e]

theorem addMine_eq {i : Nat} (hi : i < L.mesh.nodes.length) (hr : L.nMines < L.mines.length) :
    addMine i L = .ok (mineStep i L) := by
  unfold addMine mineStep
  rw [modAt_modify _ hi]
  simp only [bind, Except.bind, wr_eq i hr, List.length_set]
  rfl

/-- Result of `addBand` before the test for mines. -/
def bandStep (i : Nat) (L : LevelSet D) : LevelSet D :=
  { L with
    mesh := { L.mesh with nodes := L.mesh.nodes.modify i fun nd => { nd with isActive := true } }
    narrowBand := L.narrowBand.set L.nNarrowBand i
    nNarrowBand := L.nNarrowBand + 1 }

theorem addBand_eq {i : Nat} {s : D} (hi : i < L.mesh.nodes.length) (hr : L.nNarrowBand < L.narrowBand.length)
    (hm : L.nMines < L.mines.length) :
    addBand i s L = .ok (if FP.lt (FP.nat (u32 (L.bandWidth + 4294967295))) s then mineStep i (bandStep i L)
      else bandStep i L) := by
  unfold addBand
  rw [modAt_modify _ hi]
  simp only [bind, Except.bind, wr_eq i hr]
  split
  · exact addMine_eq (L := bandStep i L) (by simpa [bandStep] using hi) hm
  · rfl

/-- The node flags reset. -/
def deactivate (i : Nat) (L : LevelSet D) : LevelSet D :=
  { L with mesh := { L.mesh with nodes := L.mesh.nodes.modify i fun nd => { nd with isActive := false } } }

/-- Result of `bandNode`. -/
def nodeStep (b r : Bool) (i : Nat) (L : LevelSet D) : LevelSet D :=
  if b then if r then mineStep i (bandStep i (deactivate i L)) else bandStep i (deactivate i L) else deactivate i L

theorem bandNode_eq {i : Nat} (hi : i < L.mesh.nodes.length) (hs : i < L.signedDistance.length)
    (hr : L.nNarrowBand < L.narrowBand.length) (hm : L.nMines < L.mines.length) :
    bandNode i L = .ok (nodeStep (inb L i) (rim L i) i L) := by
  unfold bandNode
  rw [modAt_modify _ hi]
  have e : rd (L.mesh.nodes.modify i fun nd => { nd with isActive := false }) i =
      .ok { L.mesh.nodes[i] with isActive := false } := by
    apply rd_of_getElem?
    rw [List.getElem?_modify]
    simp [hi]
  have ev : vals L.signedDistance i = L.signedDistance[i] := by simp [vals, hs]
  simp only [bind, Except.bind, e, rd_eq hs]
  have hin : inb L i = ((!L.mesh.nodes[i].isMasked && (!L.mesh.nodes[i].isDomain || !L.isFixedDomain)) &&
      FP.lt (FP.abs L.signedDistance[i]) (FP.nat L.bandWidth)) := by
    unfold inb
    rw [List.getElem?_eq_getElem hi, ev]
  cases hc : (!L.mesh.nodes[i].isMasked && (!L.mesh.nodes[i].isDomain || !L.isFixedDomain))
  · rw [if_neg (by simp)]
    rw [hc, Bool.false_and] at hin
    rw [hin]; rfl
  · rw [if_pos rfl]
    rw [hc, Bool.true_and] at hin
    rw [hin]
    cases hb : FP.lt (FP.abs L.signedDistance[i]) (FP.nat L.bandWidth)
    · rfl
    · rw [if_pos rfl]
      have := addBand_eq (L := deactivate i L) (i := i) (s := FP.abs L.signedDistance[i]) (by simpa [deactivate] using hi) hr hm
      unfold deactivate at this
      rw [this]
      unfold nodeStep rim deactivate
      rw [hin, hb, ev]
      rfl

theorem mines_eq (k : Nat) (L : LevelSet D) : (mineStep k (bandStep k (deactivate k L))).mines =
    if L.nMines + 1 = L.mines.length then
      resize (L.mines.set L.nMines k) (Nat.min (u32 (2 * (L.nMines + 1))) L.mesh.nNodes) else L.mines.set L.nMines k := rfl

theorem inb_congr {L L' : LevelSet D} {i : Nat} (hn : ∀ nd', L'.mesh.nodes[i]? = some nd' → ∃ nd, L.mesh.nodes[i]? = some nd ∧
    nd'.isMasked = nd.isMasked ∧ nd'.isDomain = nd.isDomain) (hnone : L'.mesh.nodes[i]? = none → L.mesh.nodes[i]? = none)
    (hsd : L'.signedDistance = L.signedDistance)
    (hb : L'.bandWidth = L.bandWidth) (hf : L'.isFixedDomain = L.isFixedDomain) : inb L' i = inb L i := by
  unfold inb
  cases h : L'.mesh.nodes[i]? with
  | none => rw [hnone h]
  | some nd' =>
    obtain ⟨nd, h1, h2, h3⟩ := hn nd' h
    rw [h1, hsd, hb, hf]; dsimp only; rw [h2, h3]

theorem bandNode_inv (G : L0.mesh.nodes.length = L0.mesh.nNodes) (hsd : L0.signedDistance.length = L0.mesh.nNodes)
    (hN : L0.mesh.nNodes < 2147483648) {k : Nat} (hk : k < L0.mesh.nNodes) (I : BInv L0 k L) :
    wp (bandNode k L) (BInv L0 (k + 1)) noErr := by
  have hnn : L.mesh.nNodes = L0.mesh.nNodes := by rw [I.frame]
  have hs : L.signedDistance = L0.signedDistance := by rw [I.frame]
  have hb : L.bandWidth = L0.bandWidth := by rw [I.frame]
  have hf : L.isFixedDomain = L0.isFixedDomain := by rw [I.frame]
  have hlen : L.mesh.nodes.length = L0.mesh.nodes.length := I.nodesLen
  have hk' : k < L.mesh.nodes.length := by rw [hlen, G]; exact hk
  have hb1 := filter_range_le (inb L0) k
  have hb2 := filter_range_le (rim L0) k
  have hin : inb L k = inb L0 k := by
    apply inb_congr _ _ hs hb hf
    · intro nd' h'
      rw [I.nodes] at h'
      simp at h'
      exact ⟨nd', h', rfl, rfl⟩
    · intro h'
      rw [I.nodes] at h'
      simpa using h'
  have hrim : rim L k = rim L0 k := by unfold rim; rw [hin, hs, hb]
  have hroom : L.nMines < L.mines.length := by
    rcases I.room with h | h
    · exact h
    · have := I.mnN; omega
  rw [bandNode_eq hk' (by rw [hs, hsd]; exact hk) (by rw [I.nbN, I.nbLen]; omega) hroom, wp_ok, hin, hrim]
  have hnd : ∀ (b : Bool) (r : Bool) (i : Nat), (nodeStep b r k L).mesh.nodes[i]? =
      L.mesh.nodes[i]?.map fun nd => if i = k then { nd with isActive := b, isMine := nd.isMine || (b && r) } else nd := by
    intro b r i
    by_cases e : i = k
    · subst e
      rw [List.getElem?_eq_getElem hk']
      cases b <;> cases r <;> simp [nodeStep, mineStep, bandStep, deactivate, List.getElem?_modify, hk']
    · have e' : ¬ k = i := fun h => e h.symm
      cases b <;> cases r <;> simp [nodeStep, mineStep, bandStep, deactivate, List.getElem?_modify, e, e']
  have hrb : (inb L0 k && rim L0 k) = rim L0 k := by
    unfold rim; cases inb L0 k <;> simp
  have nodes : ∀ i : Nat, (nodeStep (inb L0 k) (rim L0 k) k L).mesh.nodes[i]? =
      (L0.mesh.nodes[i]?).map fun nd => if i < k + 1 then reflag L0 i nd else nd := by
    intro i
    rw [hnd, I.nodes, hrb, Option.map_map]
    congr 1
    funext nd
    dsimp only [Function.comp_apply]
    by_cases e : i = k
    · subst e
      rw [if_pos rfl, if_neg (Nat.lt_irrefl _), if_pos (Nat.lt_succ_self _)]; rfl
    · rw [if_neg e]
      by_cases e2 : i < k
      · rw [if_pos e2, if_pos (by omega)]
      · rw [if_neg e2, if_neg (by omega)]
  have nodesLen : (nodeStep (inb L0 k) (rim L0 k) k L).mesh.nodes.length = L0.mesh.nodes.length := by
    rw [← hlen]
    cases inb L0 k <;> cases rim L0 k <;> simp [nodeStep, mineStep, bandStep, deactivate]
  have nbroom : L.nNarrowBand < L.narrowBand.length := by rw [I.nbN, I.nbLen]; omega
  have hfr := I.frame
  refine ⟨?_, nodesLen, nodes, ?_, ?_, ?_, ?_, ?_, ?_, ?_⟩
  · cases inb L0 k <;> cases rim L0 k <;> simp only [nodeStep, mineStep, bandStep, deactivate] <;>
      (rw [hfr]; rfl)
  · rw [← I.nbLen]
    cases inb L0 k <;> cases rim L0 k <;> simp [nodeStep, mineStep, bandStep, deactivate]
  · rw [filter_range_succ, ← I.nb]
    have := take_set_succ L.narrowBand L.nNarrowBand k nbroom
    cases inb L0 k <;> cases rim L0 k <;> simp [nodeStep, mineStep, bandStep, deactivate, this]
  · rw [filter_range_succ, List.length_append, ← I.nbN]
    cases inb L0 k <;> cases rim L0 k <;> simp [nodeStep, mineStep, bandStep, deactivate]
  · have hnr : inb L0 k = false → rim L0 k = false := by intro h; unfold rim; rw [h]; rfl
    rw [filter_range_succ, ← I.mn]
    have := take_set_succ L.mines L.nMines k hroom
    cases h1 : inb L0 k
    · rw [hnr h1]; simp [nodeStep, deactivate]
    · cases rim L0 k
      · simp [nodeStep, bandStep, deactivate]
      · have key : (mineStep k (bandStep k (deactivate k L))).mines.take (L.nMines + 1) = L.mines.take L.nMines ++ [k] := by
          rw [← this]
          rw [mines_eq]
          by_cases h2 : L.nMines + 1 = L.mines.length
          · rw [if_pos h2]
            apply resize_take
            · simp; omega
            · have : L.nMines + 1 ≤ L0.mesh.nNodes := by have := I.mnN; omega
              rw [hnn, u32_of_lt (by omega)]
              exact Nat.le_min.2 ⟨by omega, this⟩
          · rw [if_neg h2]
        exact key
  · have hnr : inb L0 k = false → rim L0 k = false := by intro h; unfold rim; rw [h]; rfl
    rw [filter_range_succ, List.length_append, ← I.mnN]
    cases h1 : inb L0 k
    · rw [hnr h1]; simp [nodeStep, deactivate]
    · cases rim L0 k <;> simp [nodeStep, mineStep, bandStep, deactivate]
  · cases inb L0 k
    · simpa [nodeStep, deactivate] using I.room
    · cases rim L0 k
      · simpa [nodeStep, bandStep, deactivate] using I.room
      · show L.nMines + 1 < (mineStep k (bandStep k (deactivate k L))).mines.length ∨ L.nMines + 1 = L0.mesh.nNodes
        rw [mines_eq]
        have : L.nMines + 1 ≤ L0.mesh.nNodes := by have := I.mnN; omega
        by_cases h2 : L.nMines + 1 = L.mines.length
        · rw [if_pos h2, resize_length, hnn, u32_of_lt (by omega)]
          rcases Nat.lt_or_ge (L.nMines + 1) L0.mesh.nNodes with h | h
          · left; exact Nat.lt_min.2 ⟨by omega, h⟩
          · right; omega
        · rw [if_neg h2]; left; simp; omega
  · cases inb L0 k
    · simpa [nodeStep, deactivate] using I.grow
    · cases rim L0 k
      · simpa [nodeStep, bandStep, deactivate] using I.grow
      · show L0.mines.length ≤ (mineStep k (bandStep k (deactivate k L))).mines.length
        rw [mines_eq]
        have : L.nMines + 1 ≤ L0.mesh.nNodes := by have := I.mnN; omega
        by_cases h2 : L.nMines + 1 = L.mines.length
        · rw [if_pos h2, resize_length, hnn, u32_of_lt (by omega)]
          exact Nat.le_trans I.grow (Nat.le_min.2 ⟨by omega, by omega⟩)
        · rw [if_neg h2]; simpa using I.grow

theorem initialiseNarrowBand_inv (W : WF w h L) (hN : L.mesh.nNodes < 2147483648) :
    wp (initialiseNarrowBand L) (BInv L L.mesh.nNodes) noErr := by
  unfold initialiseNarrowBand
  have hnodes : L.mesh.nodes.length = L.mesh.nNodes := by rw [W.grid.nodes_length, W.grid.nNodes]
  refine wp_forN (BInv L) ?_ fun i hi t ht => bandNode_inv hnodes W.sd hN hi ht
  refine ⟨rfl, rfl, ?_, W.narrowBand, by simp, by simp, by simp, by simp, .inl W.mines, Nat.le_refl _⟩
  intro i; simp

theorem inb_iff (W : WF w h L) (i : Nat) : inb L i = true ↔ L.InBand i := by
  unfold inb InBand Free Masked OnDomainEdge
  have hnodes : L.mesh.nodes.length = L.mesh.nNodes := by rw [W.grid.nodes_length, W.grid.nNodes]
  cases hd : L.mesh.nodes[i]? with
  | none =>
    have : ¬ i < L.mesh.nNodes := by rw [← hnodes]; simpa using hd
    simp [this]
  | some nd =>
    have : i < L.mesh.nNodes := by
      rw [← hnodes]; by_contra hc
      rw [List.getElem?_eq_none (by omega)] at hd; cases hd
    cases h1 : nd.isMasked <;> cases h2 : nd.isDomain <;> cases h3 : L.isFixedDomain <;> simp [this, h1, h2]

theorem rim_iff (W : WF w h L) (i : Nat) : rim L i = true ↔ L.AtRim i := by
  unfold rim AtRim
  have : u32 (L.bandWidth + 4294967295) = L.bandWidth - 1 := dec32_pos (by have := W.bandWidth.1; omega) W.bandWidth.2
  rw [Bool.and_eq_true, inb_iff W, this]

/-- What `initialiseNarrowBand` does and what it leaves alone. -/
structure Banded (L L' : LevelSet D) : Prop where
  frame : L' = { L with mesh := { L.mesh with nodes := L'.mesh.nodes }, narrowBand := L'.narrowBand,
                        nNarrowBand := L'.nNarrowBand, mines := L'.mines, nMines := L'.nMines }
  nodes : ∀ i : Nat, L'.mesh.nodes[i]? = (L.mesh.nodes[i]?).map (reflag L i)
  mines : L'.mineList = (List.range L.mesh.nNodes).filter (rim L)

theorem reflag_static (L : LevelSet D) (i : Nat) (nd : Node D) : StaticNode (reflag L i nd) nd := ⟨rfl, rfl, rfl, rfl, rfl, rfl⟩

theorem BInv.inb (B : BInv L0 L0.mesh.nNodes L) (i : Nat) : inb L i = inb L0 i := by
  apply inb_congr
  · intro nd' h'
    rw [B.nodes] at h'
    cases h0 : L0.mesh.nodes[i]? with
    | none => rw [h0] at h'; simp at h'
    | some nd =>
      rw [h0] at h'
      refine ⟨nd, rfl, ?_⟩
      simp only [Option.map_some, Option.some.injEq] at h'
      rw [← h']
      split <;> exact ⟨rfl, rfl⟩
  · intro h'
    rw [B.nodes] at h'
    simpa using h'
  · rw [B.frame]
  · rw [B.frame]
  · rw [B.frame]

theorem initialiseNarrowBand_spec (W : WF w h L) (hN : L.mesh.nNodes < 2147483648) :
    wp (initialiseNarrowBand L) (fun L' => WF w h L' ∧ BandOk L' ∧ Banded L L') noErr := by
  refine wp_imp (initialiseNarrowBand_inv W hN) fun L' B => ?_
  have hnodes : L.mesh.nodes.length = L.mesh.nNodes := by rw [W.grid.nodes_length, W.grid.nNodes]
  have hnn : L'.mesh.nNodes = L.mesh.nNodes := by rw [B.frame]
  have hnd : ∀ i : Nat, L'.mesh.nodes[i]? = (L.mesh.nodes[i]?).map (reflag L i) := by
    intro i
    rw [B.nodes]
    cases hd : L.mesh.nodes[i]? with
    | none => rfl
    | some nd =>
      have : i < L.mesh.nNodes := by
        rw [← hnodes]; by_contra hc
        rw [List.getElem?_eq_none (by omega)] at hd; cases hd
      simp [this]
  have hb : L'.bandWidth = L.bandWidth := by rw [B.frame]
  have W' : WF w h L' := by
    refine ⟨?_, ?_, ?_, ?_, ?_, ?_, ?_⟩
    · have : L'.mesh = { L.mesh with nodes := L'.mesh.nodes } := by rw [B.frame]
      rw [this]
      refine W.grid.congr_nodes B.nodesLen fun i nd e => ?_
      rw [hnd] at e
      obtain ⟨nd0, h0, rfl⟩ := Option.map_eq_some_iff.1 e
      exact ⟨nd0, h0, reflag_static _ _ _⟩
    · rw [hnn, ← W.sd, B.frame]
    · rw [hnn, ← W.velocity, B.frame]
    · rw [hnn, ← W.gradient, B.frame]
    · rw [hnn, B.nbLen]
    · exact Nat.lt_of_lt_of_le W.mines B.grow
    · rw [hb]; exact W.bandWidth
  have hin := B.inb
  have hrim : ∀ i, rim L' i = rim L i := by intro i; unfold rim; rw [hin, hb]; rw [show L'.signedDistance = L.signedDistance by rw [B.frame]]
  have e1 : L'.band = (List.range L.mesh.nNodes).filter (inb L) := B.nb
  have e2 : L'.mineList = (List.range L.mesh.nNodes).filter (rim L) := B.mn
  have lt_of : ∀ i, inb L i = true → i < L.mesh.nNodes := fun i hi => ((inb_iff W i).1 hi).1.1
  refine ⟨W', ⟨?_, ?_, ?_, ?_, ?_, ?_, ?_⟩, ⟨B.frame, hnd, e2⟩⟩
  · intro i
    rw [e1, List.mem_filter, List.mem_range, ← inb_iff W', hin]
    exact ⟨fun h => h.2, fun h => ⟨lt_of i h, h⟩⟩
  · rw [e1]; exact List.Pairwise.filter _ List.pairwise_lt_range
  · rw [e1, B.nbN]
  · intro i
    rw [e2, List.mem_filter, List.mem_range, ← rim_iff W', hrim]
    refine ⟨fun h => h.2, fun h => ⟨lt_of i ?_, h⟩⟩
    unfold rim at h; simp only [Bool.and_eq_true] at h; exact h.1
  · rw [e2]; exact List.Pairwise.filter _ List.pairwise_lt_range
  · rw [e2, B.mnN]
  · intro i
    rw [← inb_iff W', hin]
    unfold FlagActive
    constructor
    · rintro ⟨nd, h1, h2⟩
      rw [hnd] at h1
      obtain ⟨nd0, h0, rfl⟩ := Option.map_eq_some_iff.1 h1
      exact h2
    · intro hi
      obtain ⟨nd0, h0⟩ : ∃ nd0, L.mesh.nodes[i]? = some nd0 := ⟨L.mesh.nodes[i]'(by rw [hnodes]; exact lt_of i hi), by simp⟩
      exact ⟨reflag L i nd0, by rw [hnd, h0]; rfl, hi⟩

end LevelSet

end Slsm
