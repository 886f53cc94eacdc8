import Verif.Spec.Grid
import Verif.Lib.WP
import Verif.Lib.Arith
import Mathlib.Data.List.Nodup
import Mathlib.Data.List.Perm.Subperm

/-! Correctness of the mesh constructor. -/

namespace Slsm

variable {D : Type} [FP D]

theorem u32_of_lt {n : Nat} (h : n < 4294967296) : u32 n = n := Nat.mod_eq_of_lt h

theorem dec32_pos {x : Nat} (h0 : 0 < x) (h : x < 4294967296) : dec32 x = x - 1 := by
  unfold dec32 u32; omega

/-- size facts following from the node count fitting into 32 bits -/
theorem fits {w h : Nat} (hfit : (w + 1) * (h + 1) < 4294967296) :
    w + 1 < 4294967296 ∧ h + 1 < 4294967296 ∧ w * h < 4294967296 := by
  have h1 : w + 1 ≤ (w + 1) * (h + 1) := Nat.le_mul_of_pos_right _ (by omega)
  have h2 : h + 1 ≤ (w + 1) * (h + 1) := Nat.le_mul_of_pos_left _ (by omega)
  have h3 : w * h ≤ (w + 1) * (h + 1) := Nat.mul_le_mul (by omega) (by omega)
  omega

theorem nbAux (W x : Nat) (hW : 2 ≤ W) (hx : x < W) (hb : W < 2147483648) :
    u32 (u32 (u32 (x + 1) + W)) % W = if x + 1 = W then 0 else x + 1 := by
  unfold u32
  have h1 : (x + 1) % 4294967296 = x + 1 := Nat.mod_eq_of_lt (by omega)
  rw [h1, Nat.mod_mod, Nat.mod_eq_of_lt (show x + 1 + W < 4294967296 by omega), Nat.add_mod_right]
  split
  · next h => rw [h, Nat.mod_self]
  · exact Nat.mod_eq_of_lt (by omega)

theorem neighboursOf_eq {w h x y : Nat} {nb : List Nat} (hw : 1 ≤ w) (hh : 1 ≤ h)
    (hfit : (w + 1) * (h + 1) < 4294967296) (hx : x ≤ w) (hy : y ≤ h) (hnb : nb.length = 4) :
    Mesh.neighboursOf w h ((w + 1) * (h + 1)) nb x y = .ok (neighbourhood w h x y) := by
  obtain ⟨a, b, c, d, rfl⟩ : ∃ a b c d, nb = [a, b, c, d] := by
    match nb, hnb with
    | [a, b, c, d], _ => exact ⟨a, b, c, d, rfl⟩
  obtain ⟨f1, f2, -⟩ := fits hfit
  -- both sides are below 2^31 since the other one is at least 2
  have f3 : 2 * (w + 1) ≤ (w + 1) * (h + 1) := by nlinarith
  have f4 : 2 * (h + 1) ≤ (w + 1) * (h + 1) := by nlinarith
  have hyw : ∀ y', y' ≤ h → y' * (w + 1) + w < (w + 1) * (h + 1) := by
    intro y' hy'; nlinarith
  have e1 : ∀ y', y' ≤ h → u32 (y' * (w + 1)) = y' * (w + 1) := fun y' hy' =>
    u32_of_lt (by have := hyw y' hy'; omega)
  have e1' : ∀ y', y' ≤ h → u32 ((w + 1) * y') = y' * (w + 1) := fun y' hy' => by
    rw [Nat.mul_comm]; exact e1 y' hy'
  have e2 : ∀ x' y', x' ≤ w → y' ≤ h → u32 (x' + y' * (w + 1)) = x' + y' * (w + 1) := fun x' y' hx' hy' =>
    u32_of_lt (by have := hyw y' hy'; omega)
  have m1 : ∀ W x, 1 ≤ x → x < W → W < 2147483648 → u32 (dec32 x + W) % W = x - 1 := by
    intro W x h1 h2 h3
    rw [dec32_pos h1 (by omega), u32_of_lt (by omega), Nat.add_mod_right]
    exact Nat.mod_eq_of_lt (by omega)
  have m2 : ∀ W x, x + 1 < W → W < 2147483648 → u32 (u32 (x + 1) + W) % W = x + 1 := by
    intro W x h2 h3
    rw [u32_of_lt (show x + 1 < _ by omega), u32_of_lt (by omega), Nat.add_mod_right]
    exact Nat.mod_eq_of_lt (by omega)
  have n1 : nodeNoOr w h ((x : Int) - 1) y = if x = 0 then (w + 1) * (h + 1) else (x - 1) + y * (w + 1) := by
    unfold nodeNoOr nodeNo
    by_cases h0 : x = 0
    · rw [if_neg (by omega), if_pos h0]
    · rw [if_pos (by omega), if_neg h0]; congr 1; omega
  have n2 : nodeNoOr w h ((x : Int) + 1) y = if x = w then (w + 1) * (h + 1) else (x + 1) + y * (w + 1) := by
    unfold nodeNoOr nodeNo
    by_cases h0 : x = w
    · rw [if_neg (by omega), if_pos h0]
    · rw [if_pos (by omega), if_neg h0]; congr 1
  have n3 : nodeNoOr w h (x : Int) ((y : Int) - 1) = if y = 0 then (w + 1) * (h + 1) else x + (y - 1) * (w + 1) := by
    unfold nodeNoOr nodeNo
    by_cases h0 : y = 0
    · rw [if_neg (by omega), if_pos h0]
    · rw [if_pos (by omega), if_neg h0]; congr 2; omega
  have n4 : nodeNoOr w h (x : Int) ((y : Int) + 1) = if y = h then (w + 1) * (h + 1) else x + (y + 1) * (w + 1) := by
    unfold nodeNoOr nodeNo
    by_cases h0 : y = h
    · rw [if_neg (by omega), if_pos h0]
    · rw [if_pos (by omega), if_neg h0]; congr 2
  have a0 : x ≠ 0 → u32 (u32 (dec32 x + (w + 1)) % (w + 1) + u32 (y * (w + 1))) = x - 1 + y * (w + 1) := by
    intro h0; rw [m1 (w + 1) x (by omega) (by omega) (by omega), e1 y hy, e2 (x - 1) y (by omega) hy]
  have a1 : x ≠ w → u32 (u32 (u32 (x + 1) + (w + 1)) % (w + 1) + u32 (y * (w + 1))) = x + 1 + y * (w + 1) := by
    intro h0; rw [m2 (w + 1) x (by omega) (by omega), e1 y hy, e2 (x + 1) y (by omega) hy]
  have a2 : y ≠ 0 → u32 (x + u32 ((w + 1) * (u32 (dec32 y + (h + 1)) % (h + 1)))) = x + (y - 1) * (w + 1) := by
    intro h0; rw [m1 (h + 1) y (by omega) (by omega) (by omega), e1' (y - 1) (by omega), e2 x (y - 1) hx (by omega)]
  have a3 : y ≠ h → u32 (x + u32 ((w + 1) * (u32 (u32 (y + 1) + (h + 1)) % (h + 1)))) = x + (y + 1) * (w + 1) := by
    intro h0; rw [m2 (h + 1) y (by omega) (by omega), e1' (y + 1) (by omega), e2 x (y + 1) hx (by omega)]
  unfold neighbourhood
  rw [n1, n2, n3, n4]
  unfold Mesh.neighboursOf
  simp only [wr, List.length_cons, List.length_nil, List.set, bind, Except.bind, pure, Except.pure, u32_of_lt f1,
    u32_of_lt f2]
  generalize u32 (u32 (dec32 x + (w + 1)) % (w + 1) + u32 (y * (w + 1))) = A0 at *
  generalize u32 (u32 (u32 (x + 1) + (w + 1)) % (w + 1) + u32 (y * (w + 1))) = A1 at *
  generalize u32 (x + u32 ((w + 1) * (u32 (dec32 y + (h + 1)) % (h + 1)))) = A2 at *
  generalize u32 (x + u32 ((w + 1) * (u32 (u32 (y + 1) + (h + 1)) % (h + 1)))) = A3 at *
  clear n1 n2 n3 n4 m1 m2 e1 e1' e2 hyw
  have e : ∀ {p : Prop} [Decidable p] {A B C : Nat}, (¬ p → A = B) → (if p then C else B) = if p then C else A := by
    intro p _ A B C hAB; by_cases hp : p <;> simp [hp, hAB]
  rw [e a0, e a1, e a2, e a3]
  clear a0 a1 a2 a3 e
  norm_num
  split_ifs <;> first | rfl | (exfalso; omega)

/-- node `i` after `initialiseNodes` -/
def node1 (w h i : Nat) : Node D :=
  { (Node.new : Node D) with
    isDomain := i % (w + 1) == 0 || i % (w + 1) == w || i / (w + 1) == 0 || i / (w + 1) == h
    coord := ⟨FP.nat (i % (w + 1)), FP.nat (i / (w + 1))⟩
    neighbours := neighbourhood w h (i % (w + 1) : Nat) (i / (w + 1) : Nat) }

/-- invariant of the loop of `initialiseNodes` -/
structure NInv (w h : Nat) (els : List (Element D)) (i : Nat) (m : Mesh D) : Prop where
  width : m.width = w
  height : m.height = h
  nNodes : m.nNodes = (w + 1) * (h + 1)
  nElements : m.nElements = w * h
  elements : m.elements = els
  len : m.nodes.length = (w + 1) * (h + 1)
  node : ∀ k, k < (w + 1) * (h + 1) → m.nodes[k]? = some (if k < i then node1 w h k else Node.new)
  xyl : m.xyToIndex.length = w + 1
  xyc : ∀ (x : Nat) (col : List Nat), m.xyToIndex[x]? = some col → col.length = h + 1
  xy : ∀ (x y : Nat) (col : List Nat), x ≤ w → y ≤ h → nodeNo w x y < i → m.xyToIndex[x]? = some col →
    col[y]? = some (nodeNo w x y)

theorem initialiseNode_spec {w h : Nat} (hw : 1 ≤ w) (hh : 1 ≤ h) (hfit : (w + 1) * (h + 1) < 4294967296)
    {els : List (Element D)} {i : Nat} (hi : i < (w + 1) * (h + 1)) {m : Mesh D} (I : NInv w h els i m) :
    wp (Mesh.initialiseNode i m) (NInv w h els (i + 1)) noErr := by
  obtain ⟨f1, f2, -⟩ := fits hfit
  have hxlt : i % (w + 1) < w + 1 := idx_mod_lt hi
  have hylt : i / (w + 1) < h + 1 := idx_div_lt hi
  have hlen : i < m.nodes.length := by rw [I.len]; exact hi
  have hnode : m.nodes[i] = Node.new := by
    have := I.node i hi
    rw [List.getElem?_eq_getElem hlen] at this
    simpa using this
  have hx : i % (w + 1) < m.xyToIndex.length := by rw [I.xyl]; exact hxlt
  have hcol : (m.xyToIndex[i % (w + 1)]).length = h + 1 := I.xyc _ _ (List.getElem?_eq_getElem hx)
  unfold Mesh.initialiseNode
  rw [I.width, I.height, I.nNodes, u32_of_lt f1]
  simp only [wp_bind]
  refine wp_modAt hlen ?_
  rw [hnode, wp_bind, neighboursOf_eq hw hh hfit (by omega) (by omega) (by simp [Node.new]), wp_ok, wp_pure]
  refine wp_modAt hx ?_
  refine wp_wr (by rw [hcol]; exact hylt) ?_
  rw [wp_pure]
  refine ⟨by simp, by simp, by simp, by simpa using I.nElements,
    by simpa using I.elements, by simpa using I.len, ?_, by simpa using I.xyl, ?_, ?_⟩
  · intro k hk
    simp only [List.getElem?_set]
    by_cases hki : i = k
    · subst hki
      simp only [if_true, hlen, Nat.lt_succ_self]
      rfl
    · rw [if_neg hki, I.node k hk]
      have : k < i + 1 ↔ k < i := by omega
      simp [this]
  · intro x col hc
    rw [List.getElem?_set] at hc
    by_cases hxi : i % (w + 1) = x
    · rw [if_pos hxi, if_pos (hxi ▸ hx)] at hc
      have := Option.some.inj hc
      rw [← this, List.length_set, hcol]
    · rw [if_neg hxi] at hc; exact I.xyc x col hc
  · intro x y col hxw hyh hlt hc
    rw [List.getElem?_set] at hc
    by_cases hxi : i % (w + 1) = x
    · rw [if_pos hxi, if_pos (hxi ▸ hx)] at hc
      have := Option.some.inj hc
      rw [← this, List.getElem?_set]
      by_cases hyi : i / (w + 1) = y
      · rw [if_pos hyi, if_pos (by rw [hcol]; exact hylt)]
        have := idx_eq (w + 1) i
        rw [hxi, hyi] at this
        rw [nodeNo, this]
      · rw [if_neg hyi]
        refine I.xy x y _ hxw hyh ?_ (by rw [← hxi]; exact List.getElem?_eq_getElem hx)
        have : nodeNo w x y ≠ i := by
          rintro rfl
          exact hyi (by rw [nodeNo, idx_div (by omega)])
        omega
    · rw [if_neg hxi] at hc
      refine I.xy x y col hxw hyh ?_ hc
      have : nodeNo w x y ≠ i := by
        rintro rfl
        exact hxi (by rw [nodeNo, idx_mod (by omega)])
      omega

theorem initialiseNodes_spec {w h : Nat} (hw : 1 ≤ w) (hh : 1 ≤ h) (hfit : (w + 1) * (h + 1) < 4294967296)
    {els : List (Element D)} {m : Mesh D} (I : NInv w h els 0 m) :
    wp (Mesh.initialiseNodes m) (NInv w h els ((w + 1) * (h + 1))) noErr := by
  unfold Mesh.initialiseNodes
  rw [I.nNodes]
  exact wp_forN (NInv w h els) I fun i hi t ht => initialiseNode_spec hw hh hfit hi ht

theorem mem_corners {w n x y : Nat} (hx : x < w) :
    n ∈ corners w x y ↔
      (n % (w + 1) = x ∨ n % (w + 1) = x + 1) ∧ (n / (w + 1) = y ∨ n / (w + 1) = y + 1) := by
  have hi := idx_eq (w + 1) n
  have hm : n % (w + 1) < w + 1 := Nat.mod_lt _ (by omega)
  simp only [corners, nodeNo, List.mem_cons, List.not_mem_nil, or_false]
  constructor
  · rintro (h | h | h | h) <;> subst h <;>
      rw [idx_mod (by omega), idx_div (by omega)] <;> simp
  · rintro ⟨h1 | h1, h2 | h2⟩ <;> rw [h1, h2] at hi <;> simp [hi]

theorem corners_nodup {w x y : Nat} (hw : 1 ≤ w) : (corners w x y).Nodup := by
  have h : (y + 1) * (w + 1) = y * (w + 1) + (w + 1) := by ring
  simp only [corners, nodeNo, List.nodup_cons, List.mem_cons, List.not_mem_nil, or_false, not_false_eq_true,
    List.nodup_nil, and_true, h]
  refine ⟨?_, ?_, ?_⟩ <;> omega

/-- the cells before `i` having node `k` as a corner -/
def pcells (w k i : Nat) : List Nat :=
  (List.range i).filter fun e => decide (k ∈ corners w (e % w) (e / w))

theorem pcells_succ (w k i : Nat) :
    pcells w k (i + 1) = pcells w k i ++ if k ∈ corners w (i % w) (i / w) then [i] else [] := by
  unfold pcells
  rw [List.range_succ, List.filter_append]
  by_cases h : k ∈ corners w (i % w) (i / w) <;> simp [h]

theorem pcells_length_le {w k i : Nat} (hw : 1 ≤ w) : (pcells w k i).length ≤ 4 := by
  set X := k % (w + 1)
  set Y := k / (w + 1)
  have hsub : pcells w k i ⊆
      [cellNo w (X - 1) (Y - 1), cellNo w X (Y - 1), cellNo w (X - 1) Y, cellNo w X Y] := by
    intro e he
    have he := (List.mem_filter.1 he).2
    rw [decide_eq_true_iff, mem_corners (Nat.mod_lt _ (by omega))] at he
    have hi := idx_eq w e
    simp only [List.mem_cons, List.not_mem_nil, or_false, cellNo]
    obtain ⟨h1 | h1, h2 | h2⟩ := he
    · right; right; right; rw [show X = e % w from h1, show Y = e / w from h2]; exact hi.symm
    · right; left; rw [show X = e % w from h1, show Y - 1 = e / w from by rw [show Y = e / w + 1 from h2]; rfl]; exact hi.symm
    · right; right; left; rw [show X - 1 = e % w from by rw [show X = e % w + 1 from h1]; rfl, show Y = e / w from h2]; exact hi.symm
    · left; rw [show X - 1 = e % w from by rw [show X = e % w + 1 from h1]; rfl, show Y - 1 = e / w from by rw [show Y = e / w + 1 from h2]; rfl]; exact hi.symm
  have hnd : (pcells w k i).Nodup := List.Nodup.filter _ List.nodup_range
  exact (hnd.subperm hsub).length_le

/-- element `e` after `initialiseElements` -/
def elem1 (w e : Nat) : Element D :=
  { (Element.new : Element D) with
    coord := ⟨FP.add (FP.nat (e % w)) (FP.lit 1 2), FP.add (FP.nat (e / w)) (FP.lit 1 2)⟩
    nodes := corners w (e % w) (e / w) }

/-- node `k` with the cells `l` recorded -/
def NodeHas (w h k : Nat) (l : List Nat) (nd : Node D) : Prop :=
  ∃ es n, nd = { (node1 w h k : Node D) with elements := es, nElements := n } ∧ es.length = 4 ∧ n = l.length ∧
    es.take n = l

/-- invariant of the loop of `initialiseElements` -/
structure EInv (w h : Nat) (xy : List (List Nat)) (i : Nat) (m : Mesh D) : Prop where
  width : m.width = w
  height : m.height = h
  nNodes : m.nNodes = (w + 1) * (h + 1)
  nElements : m.nElements = w * h
  xyEq : m.xyToIndex = xy
  elen : m.elements.length = w * h
  elem : ∀ e, e < w * h → m.elements[e]? = some (if e < i then elem1 w e else Element.new)
  len : m.nodes.length = (w + 1) * (h + 1)
  node : ∀ k, k < (w + 1) * (h + 1) → ∃ nd, m.nodes[k]? = some nd ∧ NodeHas w h k (pcells w k i) nd

theorem corners_lt {w h x y n : Nat} (hx : x < w) (hy : y < h) (hn : n ∈ corners w x y) : n < (w + 1) * (h + 1) := by
  simp only [corners, nodeNo, List.mem_cons, List.not_mem_nil, or_false] at hn
  obtain h | h | h | h := hn <;> rw [h] <;> exact idx_lt (by omega) (by omega)

theorem initialiseElement_spec {w h : Nat} (hw : 1 ≤ w) (hfit : (w + 1) * (h + 1) < 4294967296)
    {xy : List (List Nat)} {i : Nat} (hi : i < w * h) {m : Mesh D} (I : EInv w h xy i m) :
    wp (Mesh.initialiseElement i m) (EInv w h xy (i + 1)) noErr := by
  obtain ⟨f1, f2, -⟩ := fits hfit
  have hx : i % w < w := idx_mod_lt hi
  have hy : i / w < h := idx_div_lt hi
  have hlen : i < m.elements.length := by rw [I.elen]; exact hi
  have hel : m.elements[i] = Element.new := by
    have := I.elem i hi
    rw [List.getElem?_eq_getElem hlen] at this
    simpa using this
  have hyw : ∀ y', y' ≤ h → y' * (w + 1) + w < (w + 1) * (h + 1) := by
    intro y' hy'; nlinarith
  have e1 : ∀ y', y' ≤ h → u32 (y' * (w + 1)) = y' * (w + 1) := fun y' hy' =>
    u32_of_lt (by have := hyw y' hy'; omega)
  have e2 : ∀ x' y', x' ≤ w → y' ≤ h → u32 (x' + y' * (w + 1)) = x' + y' * (w + 1) := fun x' y' hx' hy' =>
    u32_of_lt (by have := hyw y' hy'; omega)
  unfold Mesh.initialiseElement
  simp only [wp_bind]
  refine wp_rd hlen ?_
  rw [hel, I.width, u32_of_lt f1, u32_of_lt (show i % w + 1 < _ by omega), u32_of_lt (show i / w + 1 < _ by omega),
    e1 _ (by omega), e1 _ (by omega), e2 _ _ (by omega) (by omega), e2 _ _ (by omega) (by omega),
    e2 _ _ (by omega) (by omega), e2 _ _ (by omega) (by omega)]
  refine wp_wr (by simp [Element.new]) ?_
  refine wp_wr (by simp [Element.new]) ?_
  refine wp_wr (by simp [Element.new]) ?_
  refine wp_wr (by simp [Element.new]) ?_
  have hc : ((((Element.new : Element D).nodes.set 0 (i % w + i / w * (w + 1))).set 1
      (i % w + 1 + i / w * (w + 1))).set 2 (i % w + 1 + (i / w + 1) * (w + 1))).set 3
      (i % w + (i / w + 1) * (w + 1)) = corners w (i % w) (i / w) := by
    simp [Element.new, corners, nodeNo, List.replicate]
  rw [hc]
  refine wp_wr hlen ?_
  set C := corners w (i % w) (i / w) with hC
  have hC4 : C.length = 4 := rfl
  -- inner loop
  refine wp_imp (wp_forN (fun j nodes => nodes.length = (w + 1) * (h + 1) ∧
      ∀ k, k < (w + 1) * (h + 1) → ∃ nd, nodes[k]? = some nd ∧
        NodeHas w h k (pcells w k i ++ if k ∈ C.take j then [i] else []) nd) ?_ ?_) ?_
  · refine ⟨I.len, fun k hk => ?_⟩
    simpa using I.node k hk
  · rintro j hj nodes ⟨hl, hn⟩
    rw [wp_bind]
    have hjl : j < C.length := by omega
    refine wp_rd hjl ?_
    have hk0 : C[j] < (w + 1) * (h + 1) := corners_lt hx hy (List.getElem_mem hjl)
    have hkn : C[j] < nodes.length := by rw [hl]; exact hk0
    have hnot : C[j] ∉ C.take j := by
      intro hmem
      obtain ⟨a, ha, hae⟩ := List.mem_iff_getElem.1 hmem
      rw [List.length_take] at ha
      rw [List.getElem_take] at hae
      have := (List.Nodup.getElem_inj_iff (corners_nodup (w := w) (x := i % w) (y := i / w) hw)).1 hae
      omega
    obtain ⟨nd, hnd, es, n, rfl, hes, hnl, htk⟩ := hn _ hk0
    rw [if_neg hnot, List.append_nil] at hnl htk
    have hnd' : nodes[C[j]] = { (node1 w h C[j] : Node D) with elements := es, nElements := n } := by
      rw [List.getElem?_eq_getElem hkn] at hnd; exact Option.some.inj hnd
    have hn4 : n < 4 := by
      have := pcells_length_le (w := w) (k := C[j]) (i := i + 1) hw
      rw [pcells_succ, if_pos (List.getElem_mem hjl), List.length_append] at this
      simp at this; omega
    refine wp_modAt hkn ?_
    rw [wp_bind, hnd']
    refine wp_wr (by simp [hes, hn4]) ?_
    rw [wp_pure]
    refine ⟨by simpa using hl, fun k hk => ?_⟩
    rw [List.getElem?_set]
    by_cases hkj : C[j] = k
    · refine ⟨_, by rw [if_pos hkj, if_pos (by rw [hl]; exact hk0)], es.set n i, n + 1, ?_, by simpa using hes, ?_, ?_⟩
      · simp [hkj]
      · rw [if_pos (by rw [← hkj]; exact List.mem_take_iff_getElem.2 ⟨j, by omega, rfl⟩), List.length_append, ← hkj]
        simp [hnl]
      · rw [if_pos (by rw [← hkj]; exact List.mem_take_iff_getElem.2 ⟨j, by omega, rfl⟩), ← hkj, ← htk]
        rw [List.take_succ_eq_append_getElem (by simp; omega), List.take_set_of_le (Nat.le_refl _)]
        simp
    · obtain ⟨nd, hnd, hh⟩ := hn k hk
      refine ⟨nd, by rw [if_neg hkj]; exact hnd, ?_⟩
      have : k ∈ C.take (j + 1) ↔ k ∈ C.take j := by
        rw [List.take_succ_eq_append_getElem hjl]
        rw [List.mem_append, List.mem_singleton]
        exact ⟨fun h => h.resolve_right (Ne.symm hkj), Or.inl⟩
      simpa [this] using hh
  · rintro nodes ⟨hl, hn⟩
    rw [wp_pure]
    refine ⟨rfl, I.height, I.nNodes, I.nElements, I.xyEq, by simpa using I.elen, ?_, hl, ?_⟩
    · intro e he
      rw [List.getElem?_set]
      by_cases hei : i = e
      · subst hei
        rw [if_pos rfl, if_pos hlen, if_pos (Nat.lt_succ_self _)]
        rfl
      · rw [if_neg hei, I.elem e he]
        have : e < i + 1 ↔ e < i := by omega
        simp [this]
    · intro k hk
      obtain ⟨nd, hnd, hh⟩ := hn k hk
      refine ⟨nd, hnd, ?_⟩
      rw [pcells_succ]
      simpa [List.take_of_length_le (show C.length ≤ 4 by omega)] using hh

theorem new_isGrid_aux {w h : Nat} (hw : 1 ≤ w) (hh : 1 ≤ h) (hfit : (w + 1) * (h + 1) < 4294967296) :
    wp (Mesh.new w h : Res (Mesh D)) (fun m => ∃ m1 : Mesh D, NInv w h (List.replicate (w * h) Element.new)
      ((w + 1) * (h + 1)) m1 ∧ EInv w h m1.xyToIndex (w * h) m) noErr := by
  obtain ⟨f1, f2, f3⟩ := fits hfit
  unfold Mesh.new
  rw [Nat.add_comm 1 w, Nat.add_comm 1 h, u32_of_lt f1, u32_of_lt f2, u32_of_lt f3, u32_of_lt hfit]
  rw [wp_bind]
  refine wp_imp (initialiseNodes_spec (els := List.replicate (w * h) Element.new) hw hh hfit ?_) ?_
  · refine ⟨rfl, rfl, rfl, rfl, rfl, by simp, ?_, by simp, ?_, ?_⟩
    · intro k hk; simp [hk]
    · intro x col hc
      rw [List.getElem?_replicate] at hc
      split at hc
      · rw [← Option.some.inj hc]; simp
      · simp at hc
    · intro x y col _ _ h; omega
  · intro m1 N
    unfold Mesh.initialiseElements
    rw [N.nElements]
    refine wp_imp (wp_forN (EInv w h m1.xyToIndex) ?_ fun i hi t ht => initialiseElement_spec hw hfit hi ht) ?_
    · refine ⟨N.width, N.height, N.nNodes, N.nElements, rfl, by simp [N.elements], ?_, N.len, ?_⟩
      · intro e he; rw [N.elements]; simp [he]
      · intro k hk
        refine ⟨_, N.node k hk, ?_⟩
        rw [if_pos hk]
        exact ⟨List.replicate 4 0, 0, rfl, rfl, by simp [pcells], by simp [pcells]⟩
    · intro m E
      exact ⟨m1, N, E⟩

/-- The constructor produces a grid, with all flags and slots in their initial state. -/
theorem new_isGrid {w h : Nat} (hw : 1 ≤ w) (hh : 1 ≤ h) (hfit : (w + 1) * (h + 1) < 4294967296) :
    ∃ m : Mesh D, Mesh.new w h = .ok m ∧ IsGrid w h m ∧
      (∀ (n : Nat) (nd : Node D), m.nodes[n]? = some nd → nd.isActive = false ∧ nd.isMasked = false ∧ nd.isMine = false ∧
        nd.nBoundaryPoints = 0) ∧
      (∀ (e : Nat) (el : Element D), m.elements[e]? = some el → el.area = FP.nat 0) := by
  obtain ⟨m, hm, m1, N, E⟩ := wp_noErr_iff.1 (new_isGrid_aux (D := D) hw hh hfit)
  have key : ∀ (n : Nat) (nd : Node D), m.nodes[n]? = some nd → n < (w + 1) * (h + 1) ∧ NodeHas w h n (pcells w n (w * h)) nd := by
    intro n nd hnd
    have hn : n < (w + 1) * (h + 1) := by
      rw [← E.len]; exact (List.getElem?_eq_some_iff.1 hnd).1
    obtain ⟨nd', h1, h2⟩ := E.node n hn
    rw [hnd] at h1
    exact ⟨hn, Option.some.inj h1 ▸ h2⟩
  have ekey : ∀ (e : Nat) (el : Element D), m.elements[e]? = some el → el = elem1 w e := by
    intro e el hel
    have he : e < w * h := by rw [← E.elen]; exact (List.getElem?_eq_some_iff.1 hel).1
    have := E.elem e he
    rw [hel, if_pos he] at this
    exact Option.some.inj this
  have xm : ∀ x y, x ≤ w → nodeNo w x y % (w + 1) = x := fun x y hx => idx_mod (by omega)
  have xd : ∀ x y, x ≤ w → nodeNo w x y / (w + 1) = y := fun x y hx => idx_div (by omega)
  refine ⟨m, hm, ?_, ?_, ?_⟩
  · refine ⟨hw, hh, E.width, E.height, E.nNodes, E.nElements, E.len, E.elen, ?_, ?_, ?_, ?_, ?_, ?_, ?_, ?_, ?_, ?_, ?_⟩
    · intro x y nd hx hy hnd
      obtain ⟨-, es, n, rfl, -⟩ := key _ _ hnd
      simp [node1, xm x y hx, xd x y hx]
    · intro x y nd hx hy hnd
      obtain ⟨-, es, n, rfl, -⟩ := key _ _ hnd
      simp only [node1, xm x y hx, xd x y hx]
    · intro x y nd hx hy hnd
      obtain ⟨-, es, n, rfl, -⟩ := key _ _ hnd
      simp [node1, xm x y hx, xd x y hx, onEdge, or_assoc]
    · intro n nd hnd
      obtain ⟨-, es, k, rfl, h1, h2, h3⟩ := key _ _ hnd
      refine ⟨h1, h3, ?_⟩
      show k ≤ 4
      rw [h2]; exact pcells_length_le hw
    · intro n nd hnd
      obtain ⟨-, es, k, rfl, -⟩ := key _ _ hnd
      rfl
    · intro x y el hx hy hel
      rw [ekey _ _ hel]
      simp [elem1, cellNo, idx_mod hx, idx_div hx]
    · intro x y el hx hy hel
      rw [ekey _ _ hel]
      simp [elem1, cellNo, idx_mod hx, idx_div hx]
    · intro e el hel
      rw [ekey _ _ hel]; rfl
    · rw [E.xyEq]; exact N.xyl
    · rw [E.xyEq]; exact N.xyc
    · rw [E.xyEq]; intro x y col hx hy hc
      exact N.xy x y col hx hy (idx_lt (by omega) (by omega)) hc
  · intro n nd hnd
    obtain ⟨-, es, k, rfl, -⟩ := key _ _ hnd
    exact ⟨rfl, rfl, rfl, rfl⟩
  · intro e el hel
    rw [ekey _ _ hel]; rfl

end Slsm
