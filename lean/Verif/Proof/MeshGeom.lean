import Verif.Proof.Mesh
import Verif.Lib.Real
import Mathlib.Data.List.ProdSigma

/-! Consequences of `IsGrid`. -/

namespace Slsm

section generic
variable {D : Type} [FP D] {w h : Nat} {m : Mesh D}

theorem IsGrid.node_exists (G : IsGrid w h m) {x y : Nat} (hx : x ≤ w) (hy : y ≤ h) :
    ∃ nd, m.nodes[nodeNo w x y]? = some nd := by
  have : nodeNo w x y < m.nodes.length := by
    rw [G.nodes_length]; exact idx_lt (by omega) (by omega)
  exact ⟨_, List.getElem?_eq_getElem this⟩

theorem IsGrid.elem_exists (G : IsGrid w h m) {x y : Nat} (hx : x < w) (hy : y < h) :
    ∃ el, m.elements[cellNo w x y]? = some el := by
  have : cellNo w x y < m.elements.length := by
    rw [G.elements_length]; exact idx_lt hx hy
  exact ⟨_, List.getElem?_eq_getElem this⟩

theorem IsGrid.node_index (G : IsGrid w h m) {i : Nat} (hi : i < m.nNodes) :
    ∃ x y, x ≤ w ∧ y ≤ h ∧ i = nodeNo w x y := by
  rw [G.nNodes] at hi
  refine ⟨i % (w + 1), i / (w + 1), ?_, ?_, (idx_eq _ _).symm⟩
  · have := idx_mod_lt hi; omega
  · have := idx_div_lt hi; omega

theorem IsGrid.elem_index (G : IsGrid w h m) {i : Nat} (hi : i < m.nElements) :
    ∃ x y, x < w ∧ y < h ∧ i = cellNo w x y := by
  rw [G.nElements] at hi
  exact ⟨i % w, i / w, idx_mod_lt hi, idx_div_lt hi, (idx_eq _ _).symm⟩

theorem IsGrid.lt_of_some (G : IsGrid w h m) {i : Nat} {nd : Node D} (h : m.nodes[i]? = some nd) : i < m.nNodes := by
  rw [G.nNodes, ← G.nodes_length]; exact (List.getElem?_eq_some_iff.1 h).1

theorem IsGrid.elt_of_some (G : IsGrid w h m) {i : Nat} {el : Element D} (h : m.elements[i]? = some el) :
    i < m.nElements := by
  rw [G.nElements, ← G.elements_length]; exact (List.getElem?_eq_some_iff.1 h).1

theorem nodeNo_inj {w x y x' y' : Nat} (hx : x ≤ w) (hx' : x' ≤ w) : nodeNo w x y = nodeNo w x' y' ↔ x = x' ∧ y = y' :=
  ⟨fun h => idx_inj (by omega) (by omega) h, by rintro ⟨rfl, rfl⟩; rfl⟩

theorem nodeNo_lt {w h x y : Nat} (hx : x ≤ w) (hy : y ≤ h) : nodeNo w x y < (w + 1) * (h + 1) :=
  idx_lt (by omega) (by omega)

/-- length of the list of cells around a node -/
theorem cellsAt_length {w h x y : Nat} (hx : x ≤ w) (hy : y ≤ h)   :
    (cellsAt w h (nodeNo w x y)).length =
      ((if 0 < x then 1 else 0) + (if x < w then 1 else 0)) * ((if 0 < y then 1 else 0) + (if y < h then 1 else 0)) := by
  let xs : List Nat := (if 0 < x then [x - 1] else []) ++ (if x < w then [x] else [])
  let ys : List Nat := (if 0 < y then [y - 1] else []) ++ (if y < h then [y] else [])
  have hxs : ∀ a, a ∈ xs ↔ a < w ∧ (x = a ∨ x = a + 1) := by
    intro a; simp only [xs, List.mem_append]; split_ifs <;> simp <;> omega
  have hys : ∀ a, a ∈ ys ↔ a < h ∧ (y = a ∨ y = a + 1) := by
    intro a; simp only [ys, List.mem_append]; split_ifs <;> simp <;> omega
  have nx : xs.Nodup := by simp only [xs]; split_ifs <;> simp; omega
  have ny : ys.Nodup := by simp only [ys]; split_ifs <;> simp; omega
  have lx : xs.length = (if 0 < x then 1 else 0) + (if x < w then 1 else 0) := by
    simp only [xs]; split_ifs <;> simp
  have ly : ys.length = (if 0 < y then 1 else 0) + (if y < h then 1 else 0) := by
    simp only [ys]; split_ifs <;> simp
  have hp : (cellsAt w h (nodeNo w x y)).Perm ((xs ×ˢ ys).map fun p => cellNo w p.1 p.2) := by
    unfold cellsAt
    rw [List.perm_ext_iff_of_nodup (List.Nodup.filter _ List.nodup_range)]
    · intro e
      simp only [List.mem_filter, List.mem_range, decide_eq_true_iff, List.mem_map, List.mem_product,
        Prod.exists]
      constructor
      · rintro ⟨he, hc⟩
        rw [mem_corners (idx_mod_lt he), nodeNo, idx_mod (by omega), idx_div (by omega)] at hc
        exact ⟨e % w, e / w, ⟨(hxs _).2 ⟨idx_mod_lt he, hc.1⟩, (hys _).2 ⟨idx_div_lt he, hc.2⟩⟩, idx_eq _ _⟩
      · rintro ⟨a, b, ⟨ha, hb⟩, rfl⟩
        have ha := (hxs _).1 ha
        have hb := (hys _).1 hb
        refine ⟨idx_lt ha.1 hb.1, ?_⟩
        rw [cellNo, idx_mod ha.1, idx_div ha.1, mem_corners ha.1, nodeNo, idx_mod (by omega), idx_div (by omega)]
        exact ⟨ha.2, hb.2⟩
    · refine List.Nodup.map_on ?_ (List.Nodup.product nx ny)
      rintro ⟨a, b⟩ hab ⟨c, d⟩ hcd he
      rw [List.mem_product] at hab hcd
      have := idx_inj ((hxs _).1 hab.1).1 ((hxs _).1 hcd.1).1 he
      exact Prod.ext this.1 this.2
  rw [hp.length_eq, List.length_map, List.length_product, lx, ly]

end generic

/-- the cell index computed by `getElement` along one axis -/
theorem cellIndex {w : Nat} (hw : 1 ≤ w) {x : ℝ} (h0 : 0 ≤ x) (h1 : x ≤ w) {t : ℝ}
    (ht : t = if x - 1 / 1000000 < 0 then 0 else x - 1 / 1000000) :
    ⌊t⌋₊ < w ∧ (⌊t⌋₊ : ℝ) ≤ x ∧ x < ⌊t⌋₊ + 1 + 1 / 1000000 ∧
      (⌊t⌋₊ = 0 ∨ (⌊t⌋₊ : ℝ) + 1 / 1000000 ≤ x) := by
  have hw' : (1 : ℝ) ≤ w := by exact_mod_cast hw
  have ht0 : 0 ≤ t := by rw [ht]; split_ifs <;> linarith
  have htw : t < w := by rw [ht]; split_ifs <;> linarith
  have htx : t ≤ x := by rw [ht]; split_ifs <;> linarith
  have hxt : x ≤ t + 1 / 1000000 := by rw [ht]; split_ifs <;> linarith
  have f1 := Nat.floor_le ht0
  have f2 := Nat.lt_floor_add_one t
  refine ⟨(Nat.floor_lt ht0).2 htw, by linarith, by linarith, ?_⟩
  by_cases h : x - 1 / 1000000 < 0
  · left; rw [ht, if_pos h]; simp
  · right; rw [if_neg h] at ht; linarith

theorem getElement_real {w h : Nat} {m : Mesh ℝ} (G : IsGrid w h m) (hfit : (w + 1) * (h + 1) < 4294967296)
    {p : Coord ℝ} (hx0 : 0 ≤ p.x) (hx1 : p.x ≤ w) (hy0 : 0 ≤ p.y) (hy1 : p.y ≤ h) :
    ∃ ex ey, ex < w ∧ ey < h ∧ m.getElement p = cellNo w ex ey ∧
      (ex : ℝ) ≤ p.x ∧ p.x < ex + 1 + 1 / 1000000 ∧ (ex = 0 ∨ (ex : ℝ) + 1 / 1000000 ≤ p.x) ∧
      (ey : ℝ) ≤ p.y ∧ p.y < ey + 1 + 1 / 1000000 ∧ (ey = 0 ∨ (ey : ℝ) + 1 / 1000000 ≤ p.y) := by
  obtain ⟨a1, a2, a3, a4⟩ := cellIndex G.w_pos hx0 hx1 rfl
  obtain ⟨b1, b2, b3, b4⟩ := cellIndex G.h_pos hy0 hy1 rfl
  refine ⟨_, _, a1, b1, ?_, a2, a3, a4, b2, b3, b4⟩
  have hlt := idx_lt a1 b1
  obtain ⟨-, -, f3⟩ := fits hfit
  unfold Mesh.getElement
  simp only [FP.sub_real, FP.lit_real, FP.lt_real, FP.nat_real, FP.floor_real, G.width]
  norm_num only at hlt ⊢
  rw [cellNo, u32_of_lt (n := _ * w) (by omega), u32_of_lt (by omega), Nat.add_comm]

theorem nearestInt {e n : ℕ} {x : ℝ} (h1 : (e : ℝ) ≤ x) (h2 : x < e + 1 + 1 / 1000000) (k : ℕ)
    (hn : n = if x - (e + 1 / 2) < 0 then e else e + 1) : (x - n) ^ 2 ≤ (x - k) ^ 2 := by
  rw [sq_le_sq]
  by_cases h : x - (e + 1 / 2) < 0
  · rw [if_pos h] at hn; subst hn
    rw [abs_of_nonneg (by linarith : (0:ℝ) ≤ x - n)]
    rcases Nat.lt_or_ge n k with hk | hk
    · have : (n : ℝ) + 1 ≤ k := by exact_mod_cast hk
      rw [abs_of_nonpos (by linarith)]; linarith
    · have : (k : ℝ) ≤ n := by exact_mod_cast hk
      rw [abs_of_nonneg (by linarith)]; linarith
  · rw [if_neg h] at hn; subst hn
    push_cast
    rcases Nat.lt_trichotomy k (e + 1) with hk | hk | hk
    · have : (k : ℝ) + 1 ≤ e + 1 := by exact_mod_cast hk
      rw [abs_of_nonneg (by linarith : (0:ℝ) ≤ x - k), abs_le]; constructor <;> linarith
    · subst hk; push_cast; exact le_refl _
    · have : (e : ℝ) + 1 + 1 ≤ k := by exact_mod_cast hk
      rw [abs_of_nonpos (by linarith : x - k ≤ (0:ℝ)), abs_le]; constructor <;> linarith

theorem getClosestNode_real {w h : Nat} {m : Mesh ℝ} (G : IsGrid w h m) (hfit : (w + 1) * (h + 1) < 4294967296)
    {p : Coord ℝ} (hx0 : 0 ≤ p.x) (hx1 : p.x ≤ w) (hy0 : 0 ≤ p.y) (hy1 : p.y ≤ h) :
    ∃ nx ny, nx ≤ w ∧ ny ≤ h ∧ m.getClosestNode p = .ok (nodeNo w nx ny) ∧
      ∀ kx ky : ℕ, (p.x - nx) ^ 2 + (p.y - ny) ^ 2 ≤ (p.x - kx) ^ 2 + (p.y - ky) ^ 2 := by
  obtain ⟨ex, ey, hex, hey, he, hx1, hx2, -, hy1, hy2, -⟩ := getElement_real G hfit hx0 hx1 hy0 hy1
  obtain ⟨el, hel⟩ := G.elem_exists hex hey
  have hc := G.centre _ _ _ hex hey hel
  have hn := G.corner _ _ _ hex hey hel
  refine ⟨if p.x - (ex + 1 / 2) < 0 then ex else ex + 1, if p.y - (ey + 1 / 2) < 0 then ey else ey + 1, ?_, ?_, ?_, ?_⟩
  · split_ifs <;> omega
  · split_ifs <;> omega
  · unfold Mesh.getClosestNode
    rw [he, rd_of_getElem? hel]
    simp only [bind, Except.bind, hc, hn, corners, FP.sub_real, FP.add_real, FP.nat_real, FP.lit_real, FP.lt_real,
      Nat.cast_one, Nat.cast_ofNat, Nat.cast_zero]
    split_ifs <;> rfl
  · intro kx ky
    exact add_le_add (nearestInt hx1 hx2 kx rfl) (nearestInt hy1 hy2 ky rfl)

end Slsm
