import Verif.Proof.Front

/-! # The frontier of the structure -/

namespace Slsm.Front

open Set Boundary Area Polygon Region

/-! ### The structure in a cell and the sign of the cell -/

def st (b : Bool) : NodeStatus := if b then .inside else .outside

section
variable {X Y : ℝ} {τ : Nat → ℝ}

theorem far_hull (hτ : ∀ j, 0 < τ j ∧ τ j < 1) (k : Nat) : convexHull ℝ (V X Y τ (farL k)) = sq X Y ∩ {z | 0 ≤ kap X Y τ k z} := (kap_hull hτ k).1

theorem near_hull (hτ : ∀ j, 0 < τ j ∧ τ j < 1) (k : Nat) : convexHull ℝ (V X Y τ (nearL k)) = sq X Y ∩ {z | 0 ≤ -kap X Y τ k z} := by
  rw [(kap_hull hτ k).2]; simp

theorem over_hull (hτ : ∀ j, 0 < τ j ∧ τ j < 1) (k : Nat) : convexHull ℝ (V X Y τ (overL k)) = sq X Y ∩ {z | 0 ≤ spl X Y τ k z} := (spl_hull hτ k).1

theorem under_hull (hτ : ∀ j, 0 < τ j ∧ τ j < 1) (k : Nat) : convexHull ℝ (V X Y τ (underL k)) = sq X Y ∩ {z | 0 ≤ -spl X Y τ k z} := by
  rw [(spl_hull hτ k).2]; simp

theorem hexa_hull (hτ : ∀ j, 0 < τ j ∧ τ j < 1) (k : Nat) (hk : k < 2) :
    convexHull ℝ (V X Y τ (hexL k)) = sq X Y ∩ {z | 0 ≤ min (kap X Y τ k z) (kap X Y τ (k + 2) z)} := by
  rw [hex_hull hτ k hk, inter_assoc]
  congr 1
  ext z
  simp

theorem hexn_hull (hτ : ∀ j, 0 < τ j ∧ τ j < 1) (k : Nat) (hk : k < 2) :
    convexHull ℝ (V X Y τ (hexL k)) = sq X Y ∩ {z | -min (kap X Y τ k z) (kap X Y τ (k + 2) z) ≤ 0} := by
  rw [hexa_hull hτ k hk]
  simp

theorem struct_sig (hτ : ∀ j, 0 < τ j ∧ τ j < 1) {pos b0 b1 b2 b3 : Bool} (hn : stat (pick (st b0) (st b1) (st b2) (st b3)) = .none)
    (hs : isSaddle (pick (st b0) (st b1) (st b2) (st b3)) = true → pos = true) :
    convexHull ℝ (V X Y τ (walkLP.filter (structLP (pick (st b0) (st b1) (st b2) (st b3))))) = sq X Y ∩ {z | 0 ≤ sig X Y τ pos b0 b1 b2 b3 z} := by
  cases b0 <;> cases b1 <;> cases b2 <;> cases b3 <;>
    first
    | (exfalso; revert hn; decide)
    | exact far_hull hτ 0
    | exact far_hull hτ 1
    | exact far_hull hτ 2
    | exact far_hull hτ 3
    | exact near_hull hτ 0
    | exact near_hull hτ 1
    | exact near_hull hτ 2
    | exact near_hull hτ 3
    | exact over_hull hτ 0
    | exact over_hull hτ 1
    | exact under_hull hτ 0
    | exact under_hull hτ 1
    | (cases hs (by decide)
       first
       | exact hexa_hull hτ 0 (by omega)
       | exact hexa_hull hτ 1 (by omega))

theorem void_sig (hτ : ∀ j, 0 < τ j ∧ τ j < 1) {b0 b1 b2 b3 : Bool} (hs : isSaddle (pick (st b0) (st b1) (st b2) (st b3)) = true) :
    convexHull ℝ (V X Y τ (walkLP.filter (voidLP (pick (st b0) (st b1) (st b2) (st b3))))) = sq X Y ∩ {z | sig X Y τ false b0 b1 b2 b3 z ≤ 0} := by
  cases b0 <;> cases b1 <;> cases b2 <;> cases b3 <;>
    first
    | (exfalso; revert hs; decide)
    | exact hexn_hull hτ 0 (by omega)
    | exact hexn_hull hτ 1 (by omega)

end

section
variable {f : Nat → Nat → ℝ} {pos : Nat → Nat → Bool} {x y w h : Nat}

noncomputable def bt (f : Nat → Nat → ℝ) (x y j : Nat) : Bool := decide (cellSide f x y j = .inside)

noncomputable def posC (f : Nat → Nat → ℝ) (x y : Nat) : Bool := decide (0 < centreValue f x y)

/-- The sign function of a cell. -/
noncomputable def sgc (f : Nat → Nat → ℝ) (pos : Nat → Nat → Bool) (x y : Nat) : ℝ × ℝ → ℝ :=
  sig x y (crossing f x y) (pos x y) (bt f x y 0) (bt f x y 1) (bt f x y 2) (bt f x y 3)

theorem side_st (hg : ∀ j, cellSide f x y j ≠ .boundary) (j : Nat) : cellSide f x y j = st (bt f x y j) := by
  unfold bt st
  rcases nodeSide_cases (f (cornerAt x y j).1 (cornerAt x y j).2) with h | h | h
  · change cellSide f x y j = _ at h
    simp [h]
  · change cellSide f x y j = _ at h
    simp [h]
  · exact absurd h (hg j)

theorem vertices_V {P : Place → Prop} {Q : LP → Bool} (h : ∀ p ∈ walkLP, P (p.place x y) ↔ Q p = true)
    (hQ : ∀ j, Q (.e j) = true → j < 4 → (edgeAt x y j).onContour f) :
    cellVertices f x y P = V x y (crossing f x y) (walkLP.filter Q) := by
  classical
  have := filter_points (f := f) (x := x) (y := y) P Q h hQ
  ext z
  unfold cellVertices V
  simp only [mem_setOf_eq]
  have h2 : (∃ p ∈ cellWalk x y, P p ∧ z = ((p.coord f).x, (p.coord f).y)) ↔ ∃ c ∈ ((cellWalk x y).filter fun p => decide (P p)).map (fun p => p.coord f), z = pt c := by
    simp only [List.mem_map, List.mem_filter, decide_eq_true_eq]
    constructor
    · rintro ⟨p, h1, h2, rfl⟩
      exact ⟨_, ⟨p, ⟨h1, h2⟩, rfl⟩, rfl⟩
    · rintro ⟨c, ⟨p, ⟨h1, h2⟩, rfl⟩, rfl⟩
      exact ⟨p, h1, h2, rfl⟩
  rw [h2, this]
  simp only [List.mem_map]
  constructor
  · rintro ⟨c, ⟨p, h1, rfl⟩, rfl⟩
    exact ⟨p, h1, rfl⟩
  · rintro ⟨p, h1, rfl⟩
    exact ⟨_, ⟨p, h1, rfl⟩, rfl⟩

theorem in_sig (hg : ∀ j, cellSide f x y j ≠ .boundary) (ht : Saddle f x y → centreValue f x y ≠ 0) :
    (∀ z ∈ structureIn f x y, 0 ≤ sgc f (posC f) x y z) ∧ ∀ z ∈ cellSquare x y, z ∉ structureIn f x y → sgc f (posC f) x y z ≤ 0 := by
  have hs := side_st hg
  have hpick : (∀ j, j < 4 → cellSide f x y j ≠ .outside) ↔ stat (pick (st (bt f x y 0)) (st (bt f x y 1)) (st (bt f x y 2)) (st (bt f x y 3))) = .inside := by
    rw [← stat_inside, stat_pick, hs 0, hs 1, hs 2, hs 3]
  have e1 : cellVertices f x y (StructureVertex f x y) =
      V x y (crossing f x y) (walkLP.filter (structLP (pick (st (bt f x y 0)) (st (bt f x y 1)) (st (bt f x y 2)) (st (bt f x y 3))))) := by
    rw [vertices_V (fun p hp => structure_iff hp) (fun j h hj => (edge_pair hj).2 h), structLP_pick, hs 0, hs 1, hs 2, hs 3]
  have e2 : cellVertices f x y (VoidVertex f) =
      V x y (crossing f x y) (walkLP.filter (voidLP (pick (st (bt f x y 0)) (st (bt f x y 1)) (st (bt f x y 2)) (st (bt f x y 3))))) := by
    rw [vertices_V (fun p hp => void_iff hp) (fun j h hj => (edge_pair hj).2 h), voidLP_pick, hs 0, hs 1, hs 2, hs 3]
  have hsad : Saddle f x y ↔ isSaddle (pick (st (bt f x y 0)) (st (bt f x y 1)) (st (bt f x y 2)) (st (bt f x y 3))) = true := by
    rw [saddle_iff, isSaddle_pick, hs 0, hs 1, hs 2, hs 3]
  unfold structureIn
  split
  · rename_i hall
    refine ⟨fun z _ => ?_, fun z h1 h2 => absurd h1 h2⟩
    have := hpick.1 ((corners_iff (· ≠ .outside)).1 hall)
    unfold sgc
    revert this
    generalize bt f x y 0 = b0
    generalize bt f x y 1 = b1
    generalize bt f x y 2 = b2
    generalize bt f x y 3 = b3
    cases b0 <;> cases b1 <;> cases b2 <;> cases b3 <;> intro this <;>
      first
      | (exfalso; revert this; decide)
      | exact zero_le_one (α := ℝ)
  · rename_i hn
    have hn' := fun h' => hn ((corners_iff (· ≠ .outside)).2 h')
    split
    · rename_i hall
      refine ⟨fun z h => absurd h (notMem_empty z), fun z h1 h2 => ?_⟩
      have := (stat_outside hn').2 ((corners_iff (· ≠ .inside)).1 hall)
      rw [stat_pick, hs 0, hs 1, hs 2, hs 3] at this
      unfold sgc
      revert this
      generalize bt f x y 0 = b0
      generalize bt f x y 1 = b1
      generalize bt f x y 2 = b2
      generalize bt f x y 3 = b3
      cases b0 <;> cases b1 <;> cases b2 <;> cases b3 <;> intro this <;>
        first
        | (exfalso; revert this; decide)
        | exact neg_nonpos.2 (zero_le_one (α := ℝ))
    · rename_i hn2
      have hnone : stat (pick (st (bt f x y 0)) (st (bt f x y 1)) (st (bt f x y 2)) (st (bt f x y 3))) = .none := by
        rcases stat_cases (cellSide f x y) with h | h | h
        · exact absurd (stat_inside.1 h) hn'
        · exact absurd ((corners_iff (· ≠ .inside)).2 ((stat_outside hn').1 h)) hn2
        · rw [stat_pick, hs 0, hs 1, hs 2, hs 3] at h
          exact h
      split
      · rename_i hsd
        have hp : posC f x y = false := by
          unfold posC
          rw [decide_eq_false_iff_not]
          linarith [hsd.2]
        rw [e2, void_sig (crossing_in f x y) (hsad.1 hsd.1)]
        unfold sgc
        rw [hp]
        refine ⟨fun z hz => ?_, fun z h1 h2 => ?_⟩
        · by_contra hc
          exact hz.2 ⟨hz.1, (not_le.1 hc).le⟩
        · by_contra hc
          exact h2 ⟨h1, fun h3 => hc h3.2⟩
      · rename_i hsd
        rw [e1, struct_sig (pos := posC f x y) (crossing_in f x y) hnone (fun h => by
          unfold posC
          rw [decide_eq_true_iff]
          have h1 := ht (hsad.2 h)
          have h2 : ¬ centreValue f x y < 0 := fun h3 => hsd ⟨hsad.2 h, h3⟩
          exact lt_of_le_of_ne (not_lt.1 h2) (Ne.symm h1))]
        refine ⟨fun z hz => hz.2, fun z h1 h2 => ?_⟩
        by_contra hc
        exact h2 ⟨h1, (not_le.1 hc).le⟩

/-! ### Neighbouring cells agree -/

theorem along_same {v d u t f0 f1 : ℝ} {a b : Bool} (ha : nodeSide f0 = st a) (hb : nodeSide f1 = st b) (A : Along v d a b) (hd : d = u - t) (h0 : 0 ≤ u) (h1 : u ≤ 1)
    (ht : Crossed (nodeSide f0) (nodeSide f1) → t = f0 / (f0 - f1)) : Same v (f0 * (1 - u) + f1 * u) := by
  have hin : ∀ {v : ℝ}, nodeSide v = .inside → 0 < v := fun {v} h => by have := nodeSide_inside.1 h; norm_num at this; linarith
  have hout : ∀ {v : ℝ}, nodeSide v = .outside → v < 0 := fun {v} h => by have := nodeSide_outside.1 h; norm_num at this; linarith
  have hpos : ∀ {p q : ℝ}, 0 < p → 0 < q → 0 < p * (1 - u) + q * u := by
    intro p q hp hq
    rcases eq_or_lt_of_le h0 with e | e
    · rw [← e]; simpa using hp
    · have := mul_pos hq e
      have := mul_nonneg hp.le (sub_nonneg.2 h1)
      linarith
  obtain ⟨A1, A2, A3, A4⟩ := A
  cases a <;> cases b
  · have p0 := hout ha
    have p1 := hout hb
    have := hpos (neg_pos.2 p0) (neg_pos.2 p1)
    have hv := A2 rfl rfl
    exact ⟨⟨fun h => by linarith, fun h => by linarith⟩, ⟨fun h => by linarith, fun h => hv⟩⟩
  · have p0 := hout ha
    have p1 := hin hb
    have e := ht (.inr ⟨ha, hb⟩)
    have hne : f0 - f1 ≠ 0 := by linarith
    have : f0 * (1 - u) + f1 * u = (f1 - f0) * d := by
      rw [hd, e]; field_simp; ring
    rw [this]
    exact (A4 rfl rfl).trans (Same.mul (by linarith)).symm
  · have p0 := hin ha
    have p1 := hout hb
    have e := ht (.inl ⟨ha, hb⟩)
    have hne : f0 - f1 ≠ 0 := by linarith
    have : f0 * (1 - u) + f1 * u = (f0 - f1) * -d := by
      rw [hd, e]; field_simp; ring
    rw [this]
    exact (A3 rfl rfl).trans (Same.mul (by linarith)).symm
  · have p0 := hin ha
    have p1 := hin hb
    have := hpos p0 p1
    have hv := A1 rfl rfl
    exact ⟨⟨fun h => this, fun h => hv⟩, ⟨fun h => by linarith, fun h => by linarith⟩⟩

theorem crossing_cut {j : Nat} (hc : (edgeAt x y j).onContour f) : crossing f x y j = crossAt f (edgeAt x y j) := by
  unfold crossing
  rw [if_pos hc]

theorem trace_ver (hg : ∀ j, cellSide f x y j ≠ .boundary) {z : ℝ × ℝ} (hz : z ∈ cellSquare x y) {i : Nat} (hi : i = x ∨ i = x + 1) (he : z.1 = i) :
    Same (sgc f pos x y z) (f i y * (1 - (z.2 - y)) + f i (y + 1) * (z.2 - y)) := by
  have hs := side_st hg
  have hb := hz.2
  rw [mem_Icc] at hb
  rcases hi with rfl | rfl
  · exact along_same (hs 0) (hs 3) (sig_left (crossing_in f i y) _ _ _ _ _ hz he) rfl (by linarith) (by linarith) fun hc => crossing_cut (j := 3) hc
  · exact along_same (hs 1) (hs 2) (sig_right (crossing_in f x y) _ _ _ _ _ hz (by rw [he]; push_cast; ring)) rfl (by linarith) (by linarith)
      fun hc => crossing_cut (j := 1) hc

theorem trace_hor (hg : ∀ j, cellSide f x y j ≠ .boundary) {z : ℝ × ℝ} (hz : z ∈ cellSquare x y) {i : Nat} (hi : i = y ∨ i = y + 1) (he : z.2 = i) :
    Same (sgc f pos x y z) (f x i * (1 - (z.1 - x)) + f (x + 1) i * (z.1 - x)) := by
  have hs := side_st hg
  have hb := hz.1
  rw [mem_Icc] at hb
  rcases hi with rfl | rfl
  · exact along_same (hs 0) (hs 1) (sig_bottom (crossing_in f x i) _ _ _ _ _ hz he) rfl (by linarith) (by linarith) fun hc => crossing_cut (j := 0) hc
  · exact along_same (hs 3) (hs 2) (sig_top (crossing_in f x y) _ _ _ _ _ hz (by rw [he]; push_cast; ring)) rfl (by linarith) (by linarith)
      fun hc => crossing_cut (j := 2) hc

/-- Cells that share a point. -/
theorem next_cell {a b : Nat} {t : ℝ} (h1 : t ∈ Icc (a : ℝ) (a + 1)) (h2 : t ∈ Icc (b : ℝ) (b + 1)) (hlt : a < b) : b = a + 1 ∧ t = b := by
  have h3 : (b : ℝ) ≤ (a + 1 : ℕ) := by push_cast; exact h2.1.trans h1.2
  have h4 : b ≤ a + 1 := by exact_mod_cast h3
  have h5 : b = a + 1 := by omega
  refine ⟨h5, le_antisymm ?_ h2.1⟩
  rw [h5]
  push_cast
  exact h1.2

theorem agree_lt {x' y' : Nat} (hg : ∀ j, cellSide f x y j ≠ .boundary) (hg' : ∀ j, cellSide f x' y' j ≠ .boundary) {z : ℝ × ℝ} (hz : z ∈ cellSquare x y)
    (hz' : z ∈ cellSquare x' y') (hlt : x < x') : Same (sgc f pos x y z) (sgc f pos x' y' z) := by
  obtain ⟨e1, e2⟩ := next_cell hz.1 hz'.1 hlt
  have t1 := trace_ver (pos := pos) hg hz (i := x') (.inr e1) e2
  have t2 := trace_ver (pos := pos) hg' hz' (i := x') (.inl rfl) e2
  refine t1.trans (Same.trans ?_ t2.symm)
  rcases Nat.lt_trichotomy y y' with hy | hy | hy
  · obtain ⟨e3, e4⟩ := next_cell hz.2 hz'.2 hy
    subst e3
    rw [e4]
    push_cast
    ring_nf
    exact ⟨Iff.rfl, Iff.rfl⟩
  · subst hy
    exact ⟨Iff.rfl, Iff.rfl⟩
  · obtain ⟨e3, e4⟩ := next_cell hz'.2 hz.2 hy
    subst e3
    rw [e4]
    push_cast
    ring_nf
    exact ⟨Iff.rfl, Iff.rfl⟩

theorem agree {x' y' : Nat} (hg : ∀ j, cellSide f x y j ≠ .boundary) (hg' : ∀ j, cellSide f x' y' j ≠ .boundary) {z : ℝ × ℝ} (hz : z ∈ cellSquare x y)
    (hz' : z ∈ cellSquare x' y') : Same (sgc f pos x y z) (sgc f pos x' y' z) := by
  rcases Nat.lt_trichotomy x x' with hx | hx | hx
  · exact agree_lt hg hg' hz hz' hx
  · subst hx
    rcases Nat.lt_trichotomy y y' with hy | hy | hy
    · obtain ⟨e1, e2⟩ := next_cell hz.2 hz'.2 hy
      exact (trace_hor hg hz (i := y') (.inr e1) e2).trans (trace_hor hg' hz' (i := y') (.inl rfl) e2).symm
    · subst hy
      exact ⟨Iff.rfl, Iff.rfl⟩
    · obtain ⟨e1, e2⟩ := next_cell hz'.2 hz.2 hy
      exact (trace_hor hg hz (i := y) (.inl rfl) e2).trans (trace_hor hg' hz' (i := y) (.inr e1) e2).symm
  · exact (agree_lt hg' hg hz' hz hx).symm

/-! ### The frontier -/

theorem generic_cell (G : Generic w h f) (hx : x < w) (hy : y < h) (j : Nat) : cellSide f x y j ≠ .boundary :=
  G _ _ (cornerAt_le hx hy j).1 (cornerAt_le hx hy j).2

theorem cell_of {z : ℝ × ℝ} (hw : 1 ≤ w) (hh : 1 ≤ h) (hz : z ∈ domainSet w h) : ∃ x y, x < w ∧ y < h ∧ z ∈ cellSquare x y := by
  have key : ∀ (n : Nat) (t : ℝ), 1 ≤ n → t ∈ Icc (0 : ℝ) n → ∃ x, x < n ∧ t ∈ Icc (x : ℝ) (x + 1) := by
    intro n t hn ht
    by_cases hlt : ⌊t⌋₊ < n
    · exact ⟨_, hlt, Nat.floor_le ht.1, (Nat.lt_floor_add_one t).le⟩
    · have h1 : (n : ℝ) ≤ t := (Nat.le_floor_iff ht.1).1 (not_lt.1 hlt)
      refine ⟨n - 1, by omega, ?_, ?_⟩
      · rw [Nat.cast_sub hn]; push_cast; linarith
      · rw [Nat.cast_sub hn]; push_cast; linarith [ht.2]
  obtain ⟨x, hx, h1⟩ := key w z.1 hw hz.1
  obtain ⟨y, hy, h2⟩ := key h z.2 hh hz.2
  exact ⟨x, y, hx, hy, h1, h2⟩

theorem cell_domain (hx : x < w) (hy : y < h) : cellSquare x y ⊆ domainSet w h := by
  intro z hz
  have h1 : ((x + 1 : ℕ) : ℝ) ≤ w := by exact_mod_cast hx
  have h2 : ((y + 1 : ℕ) : ℝ) ≤ h := by exact_mod_cast hy
  push_cast at h1 h2
  exact ⟨⟨(Nat.cast_nonneg x).trans hz.1.1, hz.1.2.trans h1⟩, (Nat.cast_nonneg y).trans hz.2.1, hz.2.2.trans h2⟩

theorem closed_cells {P : Nat → Nat → Set (ℝ × ℝ)} (hP : ∀ x y, IsClosed (P x y)) : IsClosed {z | ∃ x y, x < w ∧ y < h ∧ z ∈ P x y} := by
  have : {z | ∃ x y, x < w ∧ y < h ∧ z ∈ P x y} = ⋃ x ∈ Finset.range w, ⋃ y ∈ Finset.range h, P x y := by
    ext z
    simp only [mem_setOf_eq, mem_iUnion, Finset.mem_range, exists_prop]
    constructor
    · rintro ⟨x, y, h1, h2, h3⟩; exact ⟨x, h1, y, h2, h3⟩
    · rintro ⟨x, h1, y, h2, h3⟩; exact ⟨x, y, h1, h2, h3⟩
  rw [this]
  exact isClosed_biUnion_finset fun x _ => isClosed_biUnion_finset fun y _ => hP x y

theorem sgc_cont (f : Nat → Nat → ℝ) (pos : Nat → Nat → Bool) (x y : Nat) : Continuous (sgc f pos x y) := (sig_sgn (crossing_in f x y) _ _ _ _ _).cont

theorem square_closed (x y : Nat) : IsClosed (cellSquare x y) := isClosed_Icc.prod isClosed_Icc

theorem frontier_iff (hw : 1 ≤ w) (hh : 1 ≤ h) (G : Generic w h f) (ht : NoTie w h f) {z : ℝ × ℝ} :
    (z ∈ closure (structureSet w h f) ∧ z ∈ closure (domainSet w h \ structureSet w h f)) ↔
      ∃ x y, x < w ∧ y < h ∧ z ∈ cellSquare x y ∧ sgc f (posC f) x y z = 0 := by
  constructor
  · rintro ⟨h1, h2⟩
    have c1 : z ∈ {z | ∃ x y, x < w ∧ y < h ∧ z ∈ cellSquare x y ∩ {z | 0 ≤ sgc f (posC f) x y z}} := by
      refine closure_minimal ?_ (closed_cells fun x y => (square_closed x y).inter (isClosed_le continuous_const (sgc_cont f _ x y))) h1
      rintro z ⟨x, y, hx, hy, hz⟩
      exact ⟨x, y, hx, hy, in_square hz, (in_sig (generic_cell G hx hy) (ht x y hx hy)).1 z hz⟩
    have c2 : z ∈ {z | ∃ x y, x < w ∧ y < h ∧ z ∈ cellSquare x y ∩ {z | sgc f (posC f) x y z ≤ 0}} := by
      refine closure_minimal ?_ (closed_cells fun x y => (square_closed x y).inter (isClosed_le (sgc_cont f _ x y) continuous_const)) h2
      rintro z ⟨hz, hn⟩
      obtain ⟨x, y, hx, hy, hz⟩ := cell_of hw hh hz
      exact ⟨x, y, hx, hy, hz, (in_sig (generic_cell G hx hy) (ht x y hx hy)).2 z hz fun h => hn ⟨x, y, hx, hy, h⟩⟩
    obtain ⟨x, y, hx, hy, hz, h3⟩ := c1
    obtain ⟨x', y', hx', hy', hz', h4⟩ := c2
    have A := agree (pos := posC f) (generic_cell G hx hy) (generic_cell G hx' hy') hz hz'
    refine ⟨x, y, hx, hy, hz, le_antisymm ?_ h3⟩
    by_contra hc
    have := A.1.1 (not_le.1 hc)
    exact absurd h4 (not_le.2 this)
  · rintro ⟨x, y, hx, hy, hz, h0⟩
    have S := sig_sgn (X := x) (Y := y) (crossing_in f x y) (posC f x y) (bt f x y 0) (bt f x y 1) (bt f x y 2) (bt f x y 3)
    refine ⟨closure_mono ?_ (S.up z hz h0), closure_mono ?_ (S.dn z hz h0)⟩
    · rintro q ⟨h1, h2⟩
      refine ⟨x, y, hx, hy, ?_⟩
      by_contra hc
      exact absurd ((in_sig (generic_cell G hx hy) (ht x y hx hy)).2 q (interior_subset h1) hc) (not_le.2 h2)
    · rintro q ⟨h1, h2⟩
      refine ⟨cell_domain hx hy (interior_subset h1), ?_⟩
      rintro ⟨x', y', hx', hy', hq⟩
      have h3 := (in_sig (generic_cell G hx' hy') (ht x' y' hx' hy')).1 q hq
      have A := agree (pos := posC f) (generic_cell G hx hy) (generic_cell G hx' hy') (interior_subset h1) (in_square hq)
      exact absurd h3 (not_le.2 (A.2.1 h2))

/-- A connected set without points of sign zero has one sign. -/
theorem one_sign (hw : 1 ≤ w) (hh : 1 ≤ h) (G : Generic w h f) (pos : Nat → Nat → Bool) {A : Set (ℝ × ℝ)} (hA : IsPreconnected A) (hd : A ⊆ domainSet w h)
    (h0 : ∀ z ∈ A, ∀ x y, x < w → y < h → z ∈ cellSquare x y → sgc f pos x y z ≠ 0) {p q : ℝ × ℝ} (hp : p ∈ A) (hq : q ∈ A) {x y x' y' : Nat} (hx : x < w) (hy : y < h)
    (hx' : x' < w) (hy' : y' < h) (cp : p ∈ cellSquare x y) (cq : q ∈ cellSquare x' y') (hs : 0 < sgc f pos x y p) : 0 < sgc f pos x' y' q := by
  by_contra hc
  have hc := not_lt.1 hc
  have F1 := closed_cells (w := w) (h := h) (P := fun x y => cellSquare x y ∩ {z | 0 ≤ sgc f pos x y z}) fun x y => (square_closed x y).inter (isClosed_le continuous_const (sgc_cont f pos x y))
  have F2 := closed_cells (w := w) (h := h) (P := fun x y => cellSquare x y ∩ {z | sgc f pos x y z ≤ 0}) fun x y => (square_closed x y).inter (isClosed_le (sgc_cont f pos x y) continuous_const)
  obtain ⟨z, hz, ⟨a, b, ha, hb, hab, h1⟩, a', b', ha', hb', hab', h2⟩ := isPreconnected_closed_iff.1 hA _ _ F1 F2 (by
      intro z hz
      obtain ⟨a, b, ha, hb, hab⟩ := cell_of hw hh (hd hz)
      rcases le_total 0 (sgc f pos a b z) with h | h
      · exact .inl ⟨a, b, ha, hb, hab, h⟩
      · exact .inr ⟨a, b, ha, hb, hab, h⟩)
    ⟨p, hp, x, y, hx, hy, cp, hs.le⟩ ⟨q, hq, x', y', hx', hy', cq, hc⟩
  have A := agree (pos := pos) (generic_cell G ha hb) (generic_cell G ha' hb') hab hab'
  refine h0 z hz a b ha hb hab (le_antisymm ?_ h1)
  by_contra hc
  exact absurd h2 (not_le.2 (A.1.1 (not_le.1 hc)))

/-- The sign at a lattice point. -/
theorem node_sign (hw : 1 ≤ w) (hh : 1 ≤ h) (G : Generic w h f) (pos : Nat → Nat → Bool) {i j : Nat} (hi : i ≤ w) (hj : j ≤ h) :
    ∃ x y, x < w ∧ y < h ∧ ((i : ℝ), (j : ℝ)) ∈ cellSquare x y ∧ Same (sgc f pos x y (i, j)) (f i j) := by
  have key : ∀ n i : Nat, 1 ≤ n → i ≤ n → ∃ x, x < n ∧ (i : ℝ) ∈ Icc (x : ℝ) (x + 1) ∧ (i = x ∨ i = x + 1) := by
    intro n i hn hi
    by_cases h : i < n
    · exact ⟨i, h, ⟨le_refl _, by linarith⟩, .inl rfl⟩
    · refine ⟨n - 1, by omega, ?_, .inr (by omega)⟩
      have : i = n - 1 + 1 := by omega
      rw [this]
      push_cast
      exact ⟨by linarith, by linarith⟩
  obtain ⟨x, hx, h1, hix⟩ := key w i hw hi
  obtain ⟨y, hy, h2, hjy⟩ := key h j hh hj
  refine ⟨x, y, hx, hy, ⟨h1, h2⟩, ?_⟩
  have T := trace_ver (pos := pos) (generic_cell G hx hy) (z := ((i : ℝ), (j : ℝ))) ⟨h1, h2⟩ hix rfl
  refine T.trans ?_
  rcases hjy with rfl | rfl
  · simp [Same]
  · simp [Same]

/-! ### Segments of the boundary -/

theorem table_cuts : ∀ b0 b1 b2 b3 v0 v1 v2 v3 first : Bool,
    (∀ j ∈ List.range 4, cutPair (pick (st b0) (st b1) (st b2) (st b3) j) (pick (st b0) (st b1) (st b2) (st b3) (after j)) = true → pick v0 v1 v2 v3 j = true) →
    arcs (pick (st b0) (st b1) (st b2) (st b3)) (pick v0 v1 v2 v3) first = cutsOf (first == b0) b0 b1 b2 b3 := by decide +kernel

theorem table_ends : ∀ pos b0 b1 b2 b3 : Bool, ∀ a ∈ cutsOf pos b0 b1 b2 b3, ∀ p ∈ [a.1, a.2], p ∈ walkLP ∧ ∀ j ∈ List.range 4, p = .e j →
    cutPair (pick (st b0) (st b1) (st b2) (st b3) j) (pick (st b0) (st b1) (st b2) (st b3) (after j)) = true := by decide +kernel

theorem sig_pos {X Y : ℝ} {τ : Nat → ℝ} {z : ℝ × ℝ} {pos pos' b0 b1 b2 b3 : Bool} (hp : isSaddle (pick (st b0) (st b1) (st b2) (st b3)) = true → pos = pos') :
    sig X Y τ pos b0 b1 b2 b3 z = sig X Y τ pos' b0 b1 b2 b3 z := by
  cases b0 <;> cases b1 <;> cases b2 <;> cases b3 <;>
    first
    | rfl
    | rw [hp (by decide)]

end

section
variable {w h : Nat} {L L' : LevelSet ℝ} {sd : List ℝ} {isTarget : Bool} {b : Boundary ℝ} {x y : Nat}

/-- The choice made by the program. -/
noncomputable def wayC (w : Nat) (sd : List ℝ) (x y : Nat) : Bool := firstWay w sd x y == bt (onGrid w sd) x y 0

theorem cellArcs_cuts (Vs : Vis w h L.mesh sd isTarget) (G : Generic w h (onGrid w sd)) (hx : x < w) (hy : y < h) :
    cellArcs w L.mesh sd isTarget x y =
      cutsOf (wayC w sd x y) (bt (onGrid w sd) x y 0) (bt (onGrid w sd) x y 1) (bt (onGrid w sd) x y 2) (bt (onGrid w sd) x y 3) := by
  have hs := fun j => side_st (f := onGrid w sd) (generic_cell G hx hy) j
  have hv := Vs.pick hx hy
  unfold cellArcs
  rw [arcs_pick]
  change ∀ j ∈ List.range 4, cutPair (pick (cellSide (onGrid w sd) x y 0) (cellSide (onGrid w sd) x y 1) (cellSide (onGrid w sd) x y 2) (cellSide (onGrid w sd) x y 3) j)
    (pick (cellSide (onGrid w sd) x y 0) (cellSide (onGrid w sd) x y 1) (cellSide (onGrid w sd) x y 2) (cellSide (onGrid w sd) x y 3) (after j)) = true → _ at hv
  change arcs (pick (cellSide (onGrid w sd) x y 0) (cellSide (onGrid w sd) x y 1) (cellSide (onGrid w sd) x y 2) (cellSide (onGrid w sd) x y 3)) _ _ = _
  rw [hs 0, hs 1, hs 2, hs 3] at hv ⊢
  exact table_cuts _ _ _ _ _ _ _ _ _ hv

theorem way_pos (G : Generic w h (onGrid w sd)) (ht : NoTie w h (onGrid w sd)) (hx : x < w) (hy : y < h) (z : ℝ × ℝ) :
    sgc (onGrid w sd) (wayC w sd) x y z = sgc (onGrid w sd) (posC (onGrid w sd)) x y z := by
  have hs := fun j => side_st (f := onGrid w sd) (generic_cell G hx hy) j
  refine sig_pos fun hsad => ?_
  have hsd : Saddle (onGrid w sd) x y := by
    rw [saddle_iff, isSaddle_pick, hs 0, hs 1, hs 2, hs 3]
    exact hsad
  have hc := ht x y hx hy hsd
  have hsum : centreSum w sd x y = 4 * centreValue (onGrid w sd) x y := by
    unfold centreSum centreValue
    ring
  have hf : firstWay w sd x y = true ↔ (cellSide (onGrid w sd) x y 0 = .inside ∧ 0 < 4 * centreValue (onGrid w sd) x y) ∨
      (cellSide (onGrid w sd) x y 0 = .outside ∧ 4 * centreValue (onGrid w sd) x y < 0) := by
    unfold firstWay
    rw [decide_eq_true_iff, hsum]
    rfl
  have hp : posC (onGrid w sd) x y = true ↔ 0 < centreValue (onGrid w sd) x y := by
    unfold posC
    rw [decide_eq_true_iff]
  unfold wayC
  rw [hs 0] at hf
  rw [Bool.eq_iff_iff, beq_iff_eq, Bool.eq_iff_iff, hf, hp]
  cases bt (onGrid w sd) x y 0
  · simp only [st, Bool.false_eq_true, if_false, iff_false]
    rcases lt_or_gt_of_ne hc with h | h
    · exact ⟨fun h1 => absurd (.inr ⟨trivial, by linarith⟩) h1, fun h1 => by linarith⟩
    · exact ⟨fun _ => h, fun _ h1 => by rcases h1 with h1 | h1 <;> [cases h1.1; linarith [h1.2]]⟩
  · simp [st]

theorem cuts_place (Vs : Vis w h L.mesh sd isTarget) (G : Generic w h (onGrid w sd)) (hx : x < w) (hy : y < h) {a : LP × LP} (ha : a ∈ cellArcs w L.mesh sd isTarget x y)
    {p : LP} (hp : p ∈ [a.1, a.2]) : (p.place x y).coord (onGrid w sd) = cellPoint x y (crossing (onGrid w sd) x y) p := by
  rw [cellArcs_cuts Vs G hx hy] at ha
  obtain ⟨h1, h2⟩ := table_ends _ _ _ _ _ a ha p hp
  refine place_point h1 fun j hj => ?_
  subst hj
  have hj4 : j < 4 := by
    simp [walkLP] at h1
    omega
  have hs := fun j => side_st (f := onGrid w sd) (generic_cell G hx hy) j
  have := h2 j (List.mem_range.2 hj4) rfl
  rw [← hs 0, ← hs 1, ← hs 2, ← hs 3, pick_eq _ hj4, pick_eq _ (after_lt hj4)] at this
  exact (edge_pair hj4).2 this

/-- The part of a cell with sign zero consists of its segments. -/
theorem cell_segments (Vs : Vis w h L.mesh sd isTarget) (G : Generic w h (onGrid w sd)) (hx : x < w) (hy : y < h) {z : ℝ × ℝ} :
    (z ∈ cellSquare x y ∧ sgc (onGrid w sd) (wayC w sd) x y z = 0) ↔
      ∃ a ∈ cellArcs w L.mesh sd isTarget x y, z ∈ segment ℝ (pt ((a.1.place x y).coord (onGrid w sd))) (pt ((a.2.place x y).coord (onGrid w sd))) := by
  have S := sig_sgn (X := x) (Y := y) (crossing_in (onGrid w sd) x y) (wayC w sd x y) (bt (onGrid w sd) x y 0) (bt (onGrid w sd) x y 1) (bt (onGrid w sd) x y 2)
    (bt (onGrid w sd) x y 3)
  have h0 : (z ∈ cellSquare x y ∧ sgc (onGrid w sd) (wayC w sd) x y z = 0) ↔
      ∃ a ∈ cellArcs w L.mesh sd isTarget x y, z ∈ chord x y (crossing (onGrid w sd) x y) a := by
    rw [cellArcs_cuts Vs G hx hy]
    constructor
    · rintro ⟨h1, h2⟩
      exact (S.zero z h1).1 h2
    · rintro ⟨a, h1, h2⟩
      have h3 := S.inside a h1 h2
      exact ⟨h3, (S.zero z h3).2 ⟨a, h1, h2⟩⟩
  rw [h0]
  refine exists_congr fun a => and_congr_right fun ha => ?_
  rw [cuts_place Vs G hx hy ha (p := a.1) (by simp), cuts_place Vs G hx hy ha (p := a.2) (by simp)]

/-- The segments of the boundary are the segments of the cells. -/
theorem boundary_arcs (E : Exact w h L sd isTarget b L') {z : ℝ × ℝ} :
    z ∈ boundarySet b ↔ ∃ x y, x < w ∧ y < h ∧
      ∃ a ∈ cellArcs w L.mesh sd isTarget x y, z ∈ segment ℝ (pt ((a.1.place x y).coord (onGrid w sd))) (pt ((a.2.place x y).coord (onGrid w sd))) := by
  obtain ⟨W, R, _, hb, hl, _⟩ := E.rep
  have key : ∀ p ∈ (run w L.mesh sd isTarget (w * h)).keys, ∃ pt,
      b.points[(run w L.mesh sd isTarget (w * h)).keys.idxOf p]? = some pt ∧ pt.coord = p.coord (onGrid w sd) := by
    intro p hp
    obtain ⟨pt, h1, h2⟩ := R.pts _ p (List.getElem?_idxOf hp)
    obtain ⟨q, h3, h4⟩ := hl.pt _ _ h1
    exact ⟨q, h3, by rw [h4.coord, initialisePoint_coord h2]⟩
  constructor
  · rintro ⟨s, hs, p, q, hp, hq, hz⟩
    rw [hb] at hs
    change s ∈ W.bnd.segments at hs
    rw [R.segs] at hs
    obtain ⟨g, hg, rfl⟩ := List.mem_map.1 hs
    obtain ⟨ka, kb⟩ := R.arcMem g hg
    change g ∈ upTo _ _ at hg
    rw [upTo_mem] at hg
    obtain ⟨e, he, hg⟩ := hg
    obtain ⟨a, ha, rfl⟩ := List.mem_map.1 hg
    refine ⟨e % w, e / w, idx_mod_lt he, idx_div_lt he, a, ha, ?_⟩
    obtain ⟨p', hp', hpc⟩ := key _ ka
    obtain ⟨q', hq', hqc⟩ := key _ kb
    change b.points[(run w L.mesh sd isTarget (w * h)).keys.idxOf _]? = _ at hp hq
    rw [hp] at hp'
    rw [hq] at hq'
    cases hp'
    cases hq'
    rw [hpc, hqc] at hz
    exact hz
  · rintro ⟨x, y, hx, hy, a, ha, hz⟩
    have hg : arcAt x y (cellNo w x y) a ∈ (run w L.mesh sd isTarget (w * h)).arcs := by
      change _ ∈ upTo _ _
      rw [upTo_mem]
      refine ⟨cellNo w x y, idx_lt hx hy, ?_⟩
      have em : cellNo w x y % w = x := idx_mod hx
      have ed : cellNo w x y / w = y := idx_div hx
      rw [em, ed]
      exact List.mem_map.2 ⟨a, ha, rfl⟩
    obtain ⟨ka, kb⟩ := R.arcMem _ hg
    obtain ⟨p, hp, hpc⟩ := key _ ka
    obtain ⟨q, hq, hqc⟩ := key _ kb
    refine ⟨toSeg (onGrid w sd) (run w L.mesh sd isTarget (w * h)).keys (arcAt x y (cellNo w x y) a), ?_, p, q, hp, hq, ?_⟩
    · rw [hb]
      change _ ∈ W.bnd.segments
      rw [R.segs]
      exact List.mem_map.2 ⟨_, hg, rfl⟩
    · rw [hpc, hqc]
      exact hz

/-- The segments of the boundary are the cuts of the cells. -/
theorem boundary_cuts (E : Exact w h L sd isTarget b L') (Vs : Vis w h L.mesh sd isTarget) (G : Generic w h (onGrid w sd)) {z : ℝ × ℝ} :
    z ∈ boundarySet b ↔ ∃ x y, x < w ∧ y < h ∧ z ∈ cellSquare x y ∧ sgc (onGrid w sd) (wayC w sd) x y z = 0 := by
  rw [boundary_arcs E]
  constructor
  · rintro ⟨x, y, hx, hy, h0⟩
    exact ⟨x, y, hx, hy, (cell_segments Vs G hx hy).2 h0⟩
  · rintro ⟨x, y, hx, hy, h0⟩
    exact ⟨x, y, hx, hy, (cell_segments Vs G hx hy).1 h0⟩

theorem pos_of_inside {v : ℝ} (hv : nodeSide v = .inside) : 0 < v := by
  rw [nodeSide_inside] at hv
  exact lt_of_lt_of_le (by norm_num) hv

theorem neg_of_outside {v : ℝ} (hv : nodeSide v = .outside) : v < 0 := by
  rw [nodeSide_outside] at hv
  exact lt_of_le_of_lt hv (by norm_num)

theorem side_sign {v : ℝ} (hv : nodeSide v ≠ .boundary) : 0 < v ∨ v < 0 := by
  rcases nodeSide_cases v with h | h | h
  · exact .inl (pos_of_inside h)
  · exact .inr (neg_of_outside h)
  · exact absurd h hv

end

end Slsm.Front
