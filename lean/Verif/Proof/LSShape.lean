import Verif.Proof.LSBand

/-! Initial shapes. -/

namespace Slsm

set_option linter.unusedSectionVars false

variable {D : Type} [FP D] {w h : Nat}

/-- A loop that assigns entry `i` in iteration `i`. -/
theorem forN_assign {α : Type} {n : Nat} {l : List α} (hl : l.length = n) {f : Nat → List α → Res (List α)} (g : Nat → α)
    (hf : ∀ i t, i < n → t.length = n → (∀ j, i ≤ j → t[j]? = l[j]?) → f i t = .ok (t.set i (g i))) :
    forN n l f = .ok ((List.range n).map g) := by
  have key : ∀ k, k ≤ n → forN k l f = .ok ((List.range k).map g ++ l.drop k) := by
    intro k
    induction k with
    | zero => intro _; simp [forN_zero]
    | succ k ih =>
      intro hk
      have hlen : ((List.range k).map g ++ l.drop k).length = n := by simp; omega
      rw [forN_succ, ih (by omega)]
      show f k _ = _
      rw [hf k _ (by omega) hlen]
      · congr 1
        apply List.ext_getElem?
        intro j
        rw [List.getElem?_set, List.getElem?_append, List.getElem?_append]
        simp only [List.length_map, List.length_range, List.getElem?_map, List.getElem?_range', List.getElem?_drop]
        by_cases e : k = j
        · subst e
          simp; omega
        · by_cases e2 : j < k
          · simp [e, e2, show j < k + 1 by omega]
          · have : k + (j - k) = j := by omega
            have h2 : k + 1 + (j - (k + 1)) = j := by omega
            simp [e, e2, show ¬ j < k + 1 by omega, this, h2]
      · intro j hj
        rw [List.getElem?_append_right (by simpa using hj)]
        simp
        congr 1; omega
  rw [key n (Nat.le_refl _), List.drop_of_length_le (by omega), List.append_nil]

/-- A loop that repeatedly overwrites one entry. -/
theorem forN_entry {α : Type} {n i : Nat} {l : List α} (hi : i < l.length) {f : Nat → List α → Res (List α)} (step : Nat → α → α)
    (hf : ∀ k a, k < n → f k (l.set i a) = .ok (l.set i (step k a))) :
    forN n l f = .ok (l.set i ((List.range n).foldl (fun a k => step k a) l[i])) := by
  induction n with
  | zero => simp [forN_zero]
  | succ n ih =>
    rw [forN_succ, ih fun k a hk => hf k a (by omega)]
    show f n _ = _
    rw [hf n _ (by omega), List.range_succ, List.foldl_append]
    rfl

theorem foldl_range_getElem {α β : Type} (l : List α) (step : β → α → β) (b : β) (g : Nat → β → β)
    (hg : ∀ k (hk : k < l.length) b, g k b = step b l[k]) :
    (List.range l.length).foldl (fun b k => g k b) b = l.foldl step b := by
  induction l using List.reverseRecOn generalizing b with
  | nil => rfl
  | append_singleton l a ih =>
    have h1 : (List.range l.length).foldl (fun b k => g k b) b = l.foldl step b := by
      apply ih
      intro k hk b
      rw [hg k (by simp; omega)]
      simp [List.getElem_append_left hk]
    rw [List.length_append, List.length_singleton, List.range_succ, List.foldl_append, h1, List.foldl_append]
    simp only [List.foldl_cons, List.foldl_nil]
    rw [hg l.length (by simp)]
    simp

namespace LevelSet

variable {L L0 : LevelSet D}

/-- Value assigned by `closestDomainBoundary`. -/
def edgeVal (m : Mesh D) (nd : Node D) : D :=
  FP.nat (Nat.min (FP.floor (FP.min nd.coord.x (FP.sub (FP.nat m.width) nd.coord.x)))
    (FP.floor (FP.min nd.coord.y (FP.sub (FP.nat m.height) nd.coord.y))))

/-- Node `i` of the mesh (used only for nodes that exist). -/
def nodeOf (m : Mesh D) (i : Nat) : Node D := m.nodes.getD i Node.new

theorem rd_node {m : Mesh D} {i : Nat} (hi : i < m.nodes.length) : rd m.nodes i = .ok (nodeOf m i) := by
  rw [rd_eq hi]; unfold nodeOf; simp [hi]

theorem get_node {m : Mesh D} {i : Nat} (hi : i < m.nodes.length) : m.nodes[i]? = some (nodeOf m i) := by
  unfold nodeOf; simp [hi]

theorem WF.nodes_len (W : WF w h L) : L.mesh.nodes.length = L.mesh.nNodes := by rw [W.grid.nodes_length, W.grid.nNodes]

theorem closestDomainBoundary_eq (hn : L.mesh.nodes.length = L.mesh.nNodes) (hsd : L.signedDistance.length = L.mesh.nNodes) :
    closestDomainBoundary L =
      .ok { L with signedDistance := (List.range L.mesh.nNodes).map fun i => edgeVal L.mesh (nodeOf L.mesh i) } := by
  unfold closestDomainBoundary
  rw [forN_assign hsd fun i => edgeVal L.mesh (nodeOf L.mesh i)]
  · rfl
  · intro i t hi ht _
    rw [rd_node (by omega)]
    simp only [bind, Except.bind]
    rw [wr_eq _ (by omega)]
    rfl

/-- Result of comparing a value with the signed distances from a list of holes. -/
def holesVal (p : Coord D) (holes : List (Hole D)) (v : D) : D :=
  holes.foldl (fun v hole =>
    if FP.lt (FP.sub (centreDist hole.coord p) hole.r) v then FP.sub (centreDist hole.coord p) hole.r else v) v

theorem initialiseHoles_eq (hn : L.mesh.nodes.length = L.mesh.nNodes) (hsd : L.signedDistance.length = L.mesh.nNodes)
    (holes : List (Hole D)) :
    initialiseHoles holes L = .ok { L with signedDistance := ((List.range L.mesh.nNodes).map fun i =>
      holesVal (nodeOf L.mesh i).coord holes (edgeVal L.mesh (nodeOf L.mesh i))) } := by
  unfold initialiseHoles
  rw [closestDomainBoundary_eq hn hsd]
  simp only [bind, Except.bind]
  rw [forN_assign (by simp) fun i => holesVal (nodeOf L.mesh i).coord holes (edgeVal L.mesh (nodeOf L.mesh i))]
  · rfl
  · intro i t hi ht hj
    have hti : t[i]'(by omega) = edgeVal L.mesh (nodeOf L.mesh i) := by
      have := hj i (Nat.le_refl _)
      rw [List.getElem?_eq_getElem (by omega)] at this
      simpa [hi] using this
    rw [forN_entry (i := i) (by omega) fun k a =>
      if FP.lt (FP.sub (centreDist (holes.getD k ⟨⟨FP.nat 0, FP.nat 0⟩, FP.nat 0⟩).coord (nodeOf L.mesh i).coord)
        (holes.getD k ⟨⟨FP.nat 0, FP.nat 0⟩, FP.nat 0⟩).r) a then
        FP.sub (centreDist (holes.getD k ⟨⟨FP.nat 0, FP.nat 0⟩, FP.nat 0⟩).coord (nodeOf L.mesh i).coord)
        (holes.getD k ⟨⟨FP.nat 0, FP.nat 0⟩, FP.nat 0⟩).r else a]
    · rw [hti]
      congr 2
      unfold holesVal
      apply foldl_range_getElem
      intro k hk b
      simp [hk]
    · intro k a hk
      rw [rd_eq hk, rd_node (by omega)]
      simp only [bind, Except.bind]
      rw [rd_eq (show i < (t.set i a).length by simp; omega)]
      simp only [List.getElem_set_self]
      have e : holes.getD k ⟨⟨FP.nat 0, FP.nat 0⟩, FP.nat 0⟩ = holes[k] := by simp [hk]
      rw [e]
      split
      · rw [wr_eq _ (by simp; omega)]; simp
      · rfl

/-- Winding number computed by `isInsidePolygon`. -/
def winding (p : Coord D) : List (Coord D) → Int → Int
  | a :: b :: l, n => winding p (b :: l) (windStep p a b n)
  | _, n => n

theorem isInsidePolygon_eq (p : Coord D) {vs : List (Coord D)} (h0 : vs ≠ []) :
    isInsidePolygon p vs = .ok (winding p vs 0 != 0) := by
  unfold isInsidePolygon
  have hl : 0 < vs.length := List.length_pos_iff.2 h0
  rw [if_neg (by omega)]
  have key : ∀ (vs : List (Coord D)) (n : Int), forN (vs.length - 1) n (fun i n => do
      let a ← rd vs i
      let b ← rd vs (i + 1)
      pure (windStep p a b n)) = .ok (winding p vs n) := by
    intro vs
    induction vs using List.reverseRecOn with
    | nil => intro n; rfl
    | append_singleton l b ih =>
      intro n
      rcases List.eq_nil_or_concat l with rfl | ⟨l', a, rfl⟩
      · rfl
      · rw [List.concat_eq_append] at *
        rw [show (l' ++ [a] ++ [b]).length - 1 = l'.length + 1 by simp, forN_succ]
        have hcong : forN l'.length n (fun i n => do
            let a' ← rd (l' ++ [a] ++ [b]) i
            let b' ← rd (l' ++ [a] ++ [b]) (i + 1)
            pure (windStep p a' b' n)) = forN l'.length n (fun i n => do
            let a' ← rd (l' ++ [a]) i
            let b' ← rd (l' ++ [a]) (i + 1)
            pure (windStep p a' b' n)) := by
          apply forN_congr
          intro i hi t
          rw [rd_eq (show i < (l' ++ [a] ++ [b]).length by simp; omega), rd_eq (show i < (l' ++ [a]).length by simp; omega),
            rd_eq (show i + 1 < (l' ++ [a] ++ [b]).length by simp; omega),
            rd_eq (show i + 1 < (l' ++ [a]).length by simp; omega),
            List.getElem_append_left (show i < (l' ++ [a]).length by simp; omega),
            List.getElem_append_left (show i + 1 < (l' ++ [a]).length by simp; omega)]
        have h1 := ih n
        rw [show (l' ++ [a]).length - 1 = l'.length by simp] at h1
        rw [hcong, h1]
        simp only [bind, Except.bind]
        rw [rd_eq (show l'.length < (l' ++ [a] ++ [b]).length by simp),
          rd_eq (show l'.length + 1 < (l' ++ [a] ++ [b]).length by simp)]
        have e1 : (l' ++ [a] ++ [b])[l'.length]'(by simp) = a := by simp
        have e2 : (l' ++ [a] ++ [b])[l'.length + 1]'(by simp) = b := by simp
        dsimp only
        rw [e1, e2]
        show Except.ok _ = _
        congr 1
        clear h1 ih hcong e1 e2
        induction l' generalizing n with
        | nil => rfl
        | cons c l' ih2 =>
          cases l' with
          | nil => rfl
          | cons d l' => exact ih2 (windStep p c d n)
  rw [key]
  rfl

/-- Distance of `p` from the polyline, or `v` if that is smaller. -/
def polyVal (p : Coord D) : List (Coord D) → D → D
  | a :: b :: l, v => polyVal p (b :: l) (if FP.lt (pointToLineDistance a b p) v then pointToLineDistance a b p else v)
  | _, v => v

theorem polyVal_snoc (p a b : Coord D) (l : List (Coord D)) (v : D) :
    polyVal p (l ++ [a] ++ [b]) v = (if FP.lt (pointToLineDistance a b p) (polyVal p (l ++ [a]) v) then
      pointToLineDistance a b p else polyVal p (l ++ [a]) v) := by
  induction l generalizing v with
  | nil => rfl
  | cons c l ih =>
    cases l with
    | nil => rfl
    | cons d l => exact ih _

theorem polyVal_range (p : Coord D) (o : Coord D) (vs : List (Coord D)) (v : D) :
    (List.range (vs.length - 1)).foldl (fun v k => if FP.lt (pointToLineDistance (vs.getD k o) (vs.getD (k + 1) o) p) v then
      pointToLineDistance (vs.getD k o) (vs.getD (k + 1) o) p else v) v = polyVal p vs v := by
  induction vs using List.reverseRecOn with
  | nil => rfl
  | append_singleton l b ih =>
    rcases List.eq_nil_or_concat l with rfl | ⟨l', a, rfl⟩
    · rfl
    · rw [List.concat_eq_append] at *
      rw [polyVal_snoc, ← ih]
      rw [show (l' ++ [a] ++ [b]).length - 1 = l'.length + 1 by simp, show (l' ++ [a]).length - 1 = l'.length by simp,
        List.range_succ, List.foldl_append]
      have e1 : (l' ++ [a] ++ [b]).getD l'.length o = a := by simp
      have e2 : (l' ++ [a] ++ [b]).getD (l'.length + 1) o = b := by simp
      have hc : (List.range l'.length).foldl (fun v k =>
          if FP.lt (pointToLineDistance ((l' ++ [a] ++ [b]).getD k o) ((l' ++ [a] ++ [b]).getD (k + 1) o) p) v then
          pointToLineDistance ((l' ++ [a] ++ [b]).getD k o) ((l' ++ [a] ++ [b]).getD (k + 1) o) p else v) v =
          (List.range l'.length).foldl (fun v k =>
          if FP.lt (pointToLineDistance ((l' ++ [a]).getD k o) ((l' ++ [a]).getD (k + 1) o) p) v then
          pointToLineDistance ((l' ++ [a]).getD k o) ((l' ++ [a]).getD (k + 1) o) p else v) v := by
        apply List.foldl_ext
        intro v k hk
        have hk : k < l'.length := by simpa using hk
        have g : ∀ j, j < l'.length + 1 → (l' ++ [a] ++ [b]).getD j o = (l' ++ [a]).getD j o := by
          intro j hj
          simp only [List.getD_eq_getElem?_getD]
          rw [List.getElem?_append_left (by simp; omega)]
        rw [g k (by omega), g (k + 1) (by omega)]
      rw [hc]
      simp only [List.foldl_cons, List.foldl_nil, e1, e2]

/-- Value assigned to a node by `initialise(points)`. -/
def pointsVal (p : Coord D) (vs : List (Coord D)) (v : D) : D :=
  if winding p vs 0 != 0 then FP.mul (polyVal p vs v) (FP.neg (FP.nat 1)) else polyVal p vs v

theorem initialisePoints_eq (hn : L.mesh.nodes.length = L.mesh.nNodes) (hsd : L.signedDistance.length = L.mesh.nNodes)
    {vs : List (Coord D)} (h0 : vs ≠ []) :
    initialisePoints vs L = .ok { L with signedDistance := ((List.range L.mesh.nNodes).map fun i =>
      pointsVal (nodeOf L.mesh i).coord vs (edgeVal L.mesh (nodeOf L.mesh i))) } := by
  unfold initialisePoints
  have hl : 0 < vs.length := List.length_pos_iff.2 h0
  rw [if_neg (by omega), closestDomainBoundary_eq hn hsd]
  simp only [bind, Except.bind]
  rw [forN_assign (by simp) fun i => pointsVal (nodeOf L.mesh i).coord vs (edgeVal L.mesh (nodeOf L.mesh i))]
  · rfl
  · intro i t hi ht hj
    have hti : t[i]'(by omega) = edgeVal L.mesh (nodeOf L.mesh i) := by
      have := hj i (Nat.le_refl _)
      rw [List.getElem?_eq_getElem (by omega)] at this
      simpa [hi] using this
    unfold polyNode
    dsimp only
    have o : Coord D := ⟨FP.nat 0, FP.nat 0⟩
    rw [forN_entry (i := i) (by omega) fun k v =>
      if FP.lt (pointToLineDistance (vs.getD k o) (vs.getD (k + 1) o) (nodeOf L.mesh i).coord) v then
      pointToLineDistance (vs.getD k o) (vs.getD (k + 1) o) (nodeOf L.mesh i).coord else v]
    · rw [polyVal_range, hti]
      simp only [bind, Except.bind]
      rw [rd_node (by omega)]
      dsimp only
      rw [isInsidePolygon_eq _ h0]
      dsimp only
      unfold pointsVal
      split
      · rw [rd_eq (by simp; omega)]
        dsimp only
        rw [wr_eq _ (by simp; omega)]
        simp
      · rfl
    · intro k a hk
      rw [rd_eq (show k < vs.length by omega), rd_eq (show k + 1 < vs.length by omega), rd_node (by omega)]
      simp only [bind, Except.bind]
      rw [rd_eq (show i < (t.set i a).length by simp; omega)]
      simp only [List.getElem_set_self]
      have e : vs.getD k o = vs[k] := by simp [show k < vs.length by omega]
      have e' : vs.getD (k + 1) o = vs[k + 1] := by simp [show k + 1 < vs.length by omega]
      rw [e, e']
      split
      · rw [wr_eq _ (by simp; omega)]; simp
      · rfl

end LevelSet

end Slsm
