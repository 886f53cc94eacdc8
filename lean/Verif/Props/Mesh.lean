import Verif.Proof.MeshGeom

/-!
# Property theorems C01 – C05 (mesh)

Every theorem is about the mesh `m` returned by the constructor `Mesh.new w h`.
-/

namespace Slsm

variable {D : Type} [FP D]

/-- The meshes the library supports: at least one cell in each direction, node count below 2^32. -/
structure MeshSize (w h : Nat) : Prop where
  w_pos : 1 ≤ w
  h_pos : 1 ≤ h
  fits : (w + 1) * (h + 1) < 2 ^ 32

/-- A non-trivial size meets the hypothesis of the theorems below. -/
example : MeshSize 200 100 := ⟨by norm_num, by norm_num, by norm_num⟩

theorem new_grid {w h : Nat} {m : Mesh D} (S : MeshSize w h) (hm : Mesh.new w h = .ok m) : IsGrid w h m := by
  obtain ⟨m', h1, h2, -⟩ := new_isGrid (D := D) S.w_pos S.h_pos (by have := S.fits; norm_num at this; omega)
  rw [hm] at h1; injection h1 with h1; rwa [h1]

/-- **C01** (success): construction of every mesh succeeds: no out-of-range access, no exit. -/
theorem C01_new_succeeds {w h : Nat} (S : MeshSize w h) : ∃ m : Mesh D, Mesh.new w h = .ok m := by
  obtain ⟨m, h1, -⟩ := new_isGrid (D := D) S.w_pos S.h_pos (by have := S.fits; norm_num at this; omega)
  exact ⟨m, h1⟩

/-- **C01** (layout): node and element counts, position of node `i`, and `xyToIndex`. -/
theorem C01_layout {w h : Nat} {m : Mesh D} (S : MeshSize w h) (hm : Mesh.new w h = .ok m) :
    m.width = w ∧ m.height = h ∧
    m.nNodes = (w + 1) * (h + 1) ∧ m.nodes.length = m.nNodes ∧
    m.nElements = w * h ∧ m.elements.length = m.nElements ∧
    (∀ (i : Nat) (nd : Node D), m.nodes[i]? = some nd → nd.coord = ⟨FP.nat (i % (w + 1)), FP.nat (i / (w + 1))⟩) ∧
    (∀ x y, x ≤ w → y ≤ h → ∃ col i nd, m.xyToIndex[x]? = some col ∧ col[y]? = some i ∧ m.nodes[i]? = some nd ∧
      i = y * (w + 1) + x ∧ nd.coord = ⟨FP.nat x, FP.nat y⟩) := by
  have G := new_grid S hm
  refine ⟨G.width, G.height, G.nNodes, by rw [G.nodes_length, G.nNodes], G.nElements,
    by rw [G.elements_length, G.nElements], ?_, ?_⟩
  · intro i nd hnd
    obtain ⟨x, y, hx, hy, rfl⟩ := G.node_index (G.lt_of_some hnd)
    rw [G.coord _ _ _ hx hy hnd, nodeNo, idx_mod (by omega), idx_div (by omega)]
  · intro x y hx hy
    obtain ⟨nd, hnd⟩ := G.node_exists hx hy
    have hxl : x < m.xyToIndex.length := by rw [G.xy_length]; omega
    exact ⟨_, _, nd, List.getElem?_eq_getElem hxl, G.xy _ _ _ hx hy (List.getElem?_eq_getElem hxl), hnd,
      Nat.add_comm _ _, G.coord _ _ _ hx hy hnd⟩

/-- **C01** (bijection): `i ↦ (i mod (w+1), i div (w+1))` is a bijection from node indices to the lattice points. -/
theorem C01_bijection {w h : Nat} {m : Mesh D} (S : MeshSize w h) (hm : Mesh.new w h = .ok m) :
    (∀ i, i < m.nNodes → i % (w + 1) ≤ w ∧ i / (w + 1) ≤ h) ∧
    (∀ i j, i % (w + 1) = j % (w + 1) → i / (w + 1) = j / (w + 1) → i = j) ∧
    (∀ x y, x ≤ w → y ≤ h → ∃ i, i < m.nNodes ∧ i % (w + 1) = x ∧ i / (w + 1) = y) := by
  have G := new_grid S hm
  refine ⟨?_, ?_, ?_⟩
  · intro i hi
    rw [G.nNodes] at hi
    have h1 := idx_mod_lt hi
    have h2 := idx_div_lt hi
    omega
  · intro i j h1 h2
    rw [← idx_eq (w + 1) i, ← idx_eq (w + 1) j, h1, h2]
  · intro x y hx hy
    exact ⟨nodeNo w x y, by rw [G.nNodes]; exact nodeNo_lt hx hy, idx_mod (by omega), idx_div (by omega)⟩

/-- **C02** (neighbours): left, right, down, up, with `nNodes` standing for "outside the domain". -/
theorem C02_neighbours {w h : Nat} {m : Mesh D} (S : MeshSize w h) (hm : Mesh.new w h = .ok m)
    {x y : Nat} (hx : x ≤ w) (hy : y ≤ h) :
    ∃ nd, m.nodes[x + y * (w + 1)]? = some nd ∧ nd.neighbours.length = 4 ∧
      nd.neighbours[0]? = some (if x = 0 then m.nNodes else (x - 1) + y * (w + 1)) ∧
      nd.neighbours[1]? = some (if x = w then m.nNodes else (x + 1) + y * (w + 1)) ∧
      nd.neighbours[2]? = some (if y = 0 then m.nNodes else x + (y - 1) * (w + 1)) ∧
      nd.neighbours[3]? = some (if y = h then m.nNodes else x + (y + 1) * (w + 1)) ∧
      (nd.isDomain = true ↔ x = 0 ∨ x = w ∨ y = 0 ∨ y = h) := by
  have G := new_grid S hm
  obtain ⟨nd, hnd⟩ := G.node_exists hx hy
  refine ⟨nd, hnd, ?_⟩
  rw [G.neighbours _ _ _ hx hy hnd, G.isDomain _ _ _ hx hy hnd, G.nNodes]
  simp only [neighbourhood, onEdge, List.length_cons, List.length_nil, List.getElem?_cons_zero,
    List.getElem?_cons_succ, nodeNoOr, nodeNo, true_and, and_true, iff_self]
  refine ⟨?_, ?_, ?_, ?_⟩
  · by_cases h0 : x = 0
    · rw [if_neg (by omega), if_pos h0]
    · rw [if_pos (by omega), if_neg h0]; congr 2; omega
  · by_cases h0 : x = w
    · rw [if_neg (by omega), if_pos h0]
    · rw [if_pos (by omega), if_neg h0]; congr 2
  · by_cases h0 : y = 0
    · rw [if_neg (by omega), if_pos h0]
    · rw [if_pos (by omega), if_neg h0]; congr 3; omega
  · by_cases h0 : y = h
    · rw [if_neg (by omega), if_pos h0]
    · rw [if_pos (by omega), if_neg h0]; congr 3

/-- The direction opposite to left/right/down/up. -/
def oppositeDir : Nat → Nat
  | 0 => 1
  | 1 => 0
  | 2 => 3
  | _ => 2

/-- **C02** (symmetry): if `j` is the neighbour of `i` in direction `d`, then `i` is the neighbour of `j` in the
opposite direction; and a node is on the domain edge iff one of its neighbours is missing. -/
theorem C02_symmetric {w h : Nat} {m : Mesh D} (S : MeshSize w h) (hm : Mesh.new w h = .ok m)
    {i d j : Nat} {a : Node D} (ha : m.nodes[i]? = some a) (hd : a.neighbours[d]? = some j) (hj : j ≠ m.nNodes) :
    ∃ b, m.nodes[j]? = some b ∧ b.neighbours[oppositeDir d]? = some i := by
  have G := new_grid S hm
  obtain ⟨x, y, hx, hy, rfl⟩ := G.node_index (G.lt_of_some ha)
  obtain ⟨nd, h1, hl, n0, n1, n2, n3, -⟩ := C02_neighbours S hm hx hy
  have := ha.symm.trans h1
  obtain rfl := Option.some.inj this
  have hd4 : d < 4 := by rw [← hl]; exact (List.getElem?_eq_some_iff.1 hd).1
  have : d = 0 ∨ d = 1 ∨ d = 2 ∨ d = 3 := by omega
  obtain rfl | rfl | rfl | rfl := this
  · rw [n0] at hd
    have hx0 : x ≠ 0 := by rintro rfl; simp at hd; exact hj hd.symm
    rw [if_neg hx0] at hd
    obtain ⟨b, hb, -, -, b1, -⟩ := C02_neighbours S hm (show x - 1 ≤ w by omega) hy
    rw [← Option.some.inj hd]
    refine ⟨b, hb, ?_⟩
    rw [oppositeDir, b1, if_neg (by omega), show x - 1 + 1 = x by omega]; rfl
  · rw [n1] at hd
    have hx0 : x ≠ w := by rintro rfl; simp at hd; exact hj hd.symm
    rw [if_neg hx0] at hd
    obtain ⟨b, hb, -, b0, -⟩ := C02_neighbours S hm (show x + 1 ≤ w by omega) hy
    rw [← Option.some.inj hd]
    refine ⟨b, hb, ?_⟩
    rw [oppositeDir, b0, if_neg (by omega)]; rfl
  · rw [n2] at hd
    have hx0 : y ≠ 0 := by rintro rfl; simp at hd; exact hj hd.symm
    rw [if_neg hx0] at hd
    obtain ⟨b, hb, -, -, -, -, b3, -⟩ := C02_neighbours S hm hx (show y - 1 ≤ h by omega)
    rw [← Option.some.inj hd]
    refine ⟨b, hb, ?_⟩
    rw [oppositeDir, b3, if_neg (by omega), show y - 1 + 1 = y by omega]; rfl
  · rw [n3] at hd
    have hx0 : y ≠ h := by rintro rfl; simp at hd; exact hj hd.symm
    rw [if_neg hx0] at hd
    obtain ⟨b, hb, -, -, -, b2, -⟩ := C02_neighbours S hm hx (show y + 1 ≤ h by omega)
    rw [← Option.some.inj hd]
    refine ⟨b, hb, ?_⟩
    show b.neighbours[2]? = _
    rw [b2, if_neg (by omega)]; rfl

/-- **C02** (edge flag): `isDomain` holds exactly when some neighbour is missing. -/
theorem C02_isDomain_iff {w h : Nat} {m : Mesh D} (S : MeshSize w h) (hm : Mesh.new w h = .ok m)
    {i : Nat} {a : Node D} (ha : m.nodes[i]? = some a) :
    a.isDomain = true ↔ m.nNodes ∈ a.neighbours := by
  have G := new_grid S hm
  obtain ⟨x, y, hx, hy, rfl⟩ := G.node_index (G.lt_of_some ha)
  rw [G.isDomain _ _ _ hx hy ha, G.neighbours _ _ _ hx hy ha, G.nNodes]
  have key : ∀ x' y' : Int, (w + 1) * (h + 1) = nodeNoOr w h x' y' ↔ ¬ (0 ≤ x' ∧ x' ≤ w ∧ 0 ≤ y' ∧ y' ≤ h) := by
    intro x' y'
    unfold nodeNoOr
    split_ifs with hc
    · simp only [hc, and_self, not_true, iff_false]
      have : nodeNo w x'.toNat y'.toNat < (w + 1) * (h + 1) := nodeNo_lt (by omega) (by omega)
      omega
    · simp [hc]
  simp only [neighbourhood, List.mem_cons, List.not_mem_nil, or_false, key, onEdge]
  omega

/-- What goes wrong for a mesh of zero width, which the constructor accepts: node 0 of a `0 × 1` mesh is its own
right neighbour. -/
theorem C02_zero_width : ∃ m : Mesh Float, Mesh.new 0 1 = .ok m ∧
    ∃ nd, m.nodes[0]? = some nd ∧ nd.neighbours[1]? = some 0 := ⟨_, rfl, _, rfl, rfl⟩

/-- **C03** (element to node): corners anticlockwise from the bottom left, and centre. -/
theorem C03_corners {w h : Nat} {m : Mesh D} (S : MeshSize w h) (hm : Mesh.new w h = .ok m)
    {x y : Nat} (hx : x < w) (hy : y < h) :
    ∃ el, m.elements[x + y * w]? = some el ∧
      el.nodes = [x + y * (w + 1), (x + 1) + y * (w + 1), (x + 1) + (y + 1) * (w + 1), x + (y + 1) * (w + 1)] ∧
      el.coord = ⟨FP.add (FP.nat x) (FP.lit 1 2), FP.add (FP.nat y) (FP.lit 1 2)⟩ := by
  have G := new_grid S hm
  obtain ⟨el, hel⟩ := G.elem_exists hx hy
  exact ⟨el, hel, G.corner _ _ _ hx hy hel, G.centre _ _ _ hx hy hel⟩

/-- **C03** (node to element): the elements recorded at a node are exactly those having it as a corner, each once. -/
theorem C03_reverse {w h : Nat} {m : Mesh D} (S : MeshSize w h) (hm : Mesh.new w h = .ok m)
    {n : Nat} {nd : Node D} (hn : m.nodes[n]? = some nd) :
    nd.elements.length = 4 ∧ nd.nElements ≤ 4 ∧ (nd.elements.take nd.nElements).Nodup ∧
    ∀ e, e ∈ nd.elements.take nd.nElements ↔ ∃ el, m.elements[e]? = some el ∧ n ∈ el.nodes := by
  have G := new_grid S hm
  obtain ⟨h1, h2, h3⟩ := G.cells n nd hn
  refine ⟨h1, h3, ?_, ?_⟩
  · rw [h2]; exact List.Nodup.filter _ List.nodup_range
  · intro e
    rw [h2, cellsAt, List.mem_filter, List.mem_range, decide_eq_true_iff]
    constructor
    · rintro ⟨he, hc⟩
      obtain ⟨el, hel⟩ := G.elem_exists (idx_mod_lt he) (idx_div_lt he)
      have := G.corner _ _ _ (idx_mod_lt he) (idx_div_lt he) hel
      rw [cellNo, idx_eq] at hel
      exact ⟨el, hel, by rw [this]; exact hc⟩
    · rintro ⟨el, hel, hc⟩
      obtain ⟨x, y, hx, hy, rfl⟩ := G.elem_index (G.elt_of_some hel)
      rw [G.corner _ _ _ hx hy hel] at hc
      refine ⟨idx_lt hx hy, ?_⟩
      rw [cellNo, idx_mod hx, idx_div hx]; exact hc

/-- **C03** (counts): 1 element at the four corners of the domain, 2 on its edges, 4 in the bulk. -/
theorem C03_count {w h : Nat} {m : Mesh D} (S : MeshSize w h) (hm : Mesh.new w h = .ok m)
    {x y : Nat} (hx : x ≤ w) (hy : y ≤ h) {nd : Node D} (hn : m.nodes[x + y * (w + 1)]? = some nd) :
    nd.nElements = (if x = 0 ∨ x = w then 1 else 2) * (if y = 0 ∨ y = h then 1 else 2) := by
  have G := new_grid S hm
  obtain ⟨h1, h2, h3⟩ := G.cells _ nd hn
  have hl := cellsAt_length hx hy
  rw [nodeNo, ← h2, List.length_take, h1, Nat.min_eq_left h3] at hl
  rw [hl]
  have := S.w_pos
  have := S.h_pos
  congr 1 <;> split_ifs <;> omega

/-- **C04**: for every point of the closed domain `getElement` returns a valid element whose cell contains the point
up to 1e-6: exactly on the left/bottom, and exceeded by less than 1e-6 on the right/top. -/
theorem C04_getElement {w h : Nat} {m : Mesh ℝ} (S : MeshSize w h) (hm : Mesh.new w h = .ok m)
    {p : Coord ℝ} (hx0 : 0 ≤ p.x) (hx1 : p.x ≤ w) (hy0 : 0 ≤ p.y) (hy1 : p.y ≤ h) :
    ∃ ex ey, ex < w ∧ ey < h ∧ m.getElement p = ex + ey * w ∧ m.getElement p < m.elements.length ∧
      (ex : ℝ) ≤ p.x ∧ p.x < ex + 1 + 1 / 10 ^ 6 ∧ (ey : ℝ) ≤ p.y ∧ p.y < ey + 1 + 1 / 10 ^ 6 := by
  have G := new_grid S hm
  obtain ⟨ex, ey, a, b, c, d, e, -, f, g, -⟩ := getElement_real G (by have := S.fits; norm_num at this; omega)
    hx0 hx1 hy0 hy1
  refine ⟨ex, ey, a, b, c, ?_, d, by norm_num at e ⊢; exact e, f, by norm_num at g ⊢; exact g⟩
  rw [c, G.elements_length]; exact idx_lt a b

/-- **C04** (exact cell): unless the point is within 1e-6 to the right of a vertical grid line or above a horizontal
one, it lies in the closed cell returned. -/
theorem C04_getElement_exact {w h : Nat} {m : Mesh ℝ} (S : MeshSize w h) (hm : Mesh.new w h = .ok m)
    {p : Coord ℝ} (hx0 : 0 ≤ p.x) (hx1 : p.x ≤ w) (hy0 : 0 ≤ p.y) (hy1 : p.y ≤ h)
    (hvx : ∀ k : ℕ, ¬ ((k : ℝ) < p.x ∧ p.x < k + 1 / 10 ^ 6)) (hvy : ∀ k : ℕ, ¬ ((k : ℝ) < p.y ∧ p.y < k + 1 / 10 ^ 6)) :
    ∃ ex ey, ex < w ∧ ey < h ∧ m.getElement p = ex + ey * w ∧
      (ex : ℝ) ≤ p.x ∧ p.x ≤ ex + 1 ∧ (ey : ℝ) ≤ p.y ∧ p.y ≤ ey + 1 := by
  obtain ⟨ex, ey, a, b, c, -, d, e, f, g⟩ := C04_getElement S hm hx0 hx1 hy0 hy1
  refine ⟨ex, ey, a, b, c, d, ?_, f, ?_⟩
  · by_contra hc
    refine hvx (ex + 1) ⟨?_, ?_⟩ <;> push_cast <;> linarith
  · by_contra hc
    refine hvy (ey + 1) ⟨?_, ?_⟩ <;> push_cast <;> linarith

/-- The tolerance is really needed: the point `(1 + 5e-7, 1/2)` of a `2 × 1` mesh is put into cell 0. -/
theorem C04_tolerance_witness : ∃ m : Mesh ℝ, Mesh.new 2 1 = .ok m ∧
    m.getElement ⟨1 + 5 / 10 ^ 7, 1 / 2⟩ = 0 := by
  obtain ⟨m, hm⟩ := C01_new_succeeds (D := ℝ) (w := 2) (h := 1) ⟨by norm_num, by norm_num, by norm_num⟩
  have G := new_grid ⟨by norm_num, by norm_num, by norm_num⟩ hm
  refine ⟨m, hm, ?_⟩
  simp only [Mesh.getElement, G.width, FP.sub_real, FP.lit_real, FP.lt_real, FP.nat_real, FP.floor_real]
  rw [if_neg (by norm_num), if_neg (by norm_num), Nat.floor_eq_zero.2 (by norm_num), Nat.floor_eq_zero.2 (by norm_num)]
  rfl

/-- **C05**: for every point of the closed domain `getClosestNode` returns a node of the mesh, and no node is
strictly closer to the point. -/
theorem C05_getClosestNode {w h : Nat} {m : Mesh ℝ} (S : MeshSize w h) (hm : Mesh.new w h = .ok m)
    {p : Coord ℝ} (hx0 : 0 ≤ p.x) (hx1 : p.x ≤ w) (hy0 : 0 ≤ p.y) (hy1 : p.y ≤ h) :
    ∃ n nd, m.getClosestNode p = .ok n ∧ m.nodes[n]? = some nd ∧
      ∀ (n' : Nat) (nd' : Node ℝ), m.nodes[n']? = some nd' →
        (p.x - nd.coord.x) ^ 2 + (p.y - nd.coord.y) ^ 2 ≤ (p.x - nd'.coord.x) ^ 2 + (p.y - nd'.coord.y) ^ 2 := by
  have G := new_grid S hm
  obtain ⟨nx, ny, a, b, c, d⟩ := getClosestNode_real G (by have := S.fits; norm_num at this; omega) hx0 hx1 hy0 hy1
  obtain ⟨nd, hnd⟩ := G.node_exists a b
  refine ⟨_, nd, c, hnd, ?_⟩
  intro n' nd' hn'
  obtain ⟨x, y, hx, hy, rfl⟩ := G.node_index (G.lt_of_some hn')
  rw [G.coord _ _ _ a b hnd, G.coord _ _ _ hx hy hn']
  exact d x y

/-- The hypotheses of C04/C05 are met by an interior point of a real mesh. -/
example : ∃ m : Mesh ℝ, Mesh.new 10 10 = .ok m ∧
    ∃ n, m.getClosestNode ⟨3.7, 9.2⟩ = .ok n ∧ n < m.nodes.length := by
  obtain ⟨m, hm⟩ := C01_new_succeeds (D := ℝ) (w := 10) (h := 10) ⟨by norm_num, by norm_num, by norm_num⟩
  obtain ⟨n, nd, h1, h2, -⟩ := C05_getClosestNode (p := ⟨3.7, 9.2⟩) ⟨by norm_num, by norm_num, by norm_num⟩ hm
    (by norm_num) (by norm_num) (by norm_num) (by norm_num)
  exact ⟨m, hm, n, h1, (List.getElem?_eq_some_iff.1 h2).1⟩

end Slsm
