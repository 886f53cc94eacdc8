import Verif.Proof.BndTame

/-! When two discretisations give the same boundary: exchange of inside and outside, earlier annotations. -/

namespace Slsm

open FP

namespace Boundary

section
variable {w h : Nat} {L L' : LevelSet ℝ} {isTarget : Bool} {b : Boundary ℝ} {sd sd' : List ℝ} {f : Nat → Nat → ℝ} {ml : ℝ} {m m' : Mesh ℝ}

theorem Rep.bnd_eq {A A' : Abs} {W W' : Work ℝ} (R : Rep w h ml m sd A W) (R' : Rep w h ml m' sd' A' W') (hk : A'.keys = A.keys)
    (ha : A'.arcs = A.arcs) (hc : ∀ p ∈ A.keys, p.coord (onGrid w sd') = p.coord (onGrid w sd))
    (hi : ∀ c, initialisePoint ml m' c = initialisePoint ml m c) : W'.bnd = W.bnd := by
  have hp : W'.bnd.points = W.bnd.points := by
    refine List.ext_getElem? fun k => ?_
    by_cases hl : k < A.keys.length
    · obtain ⟨pt, h1, h2⟩ := R.pts k _ (List.getElem?_eq_getElem hl)
      obtain ⟨pt', h1', h2'⟩ := R'.pts k A.keys[k] (by rw [hk]; exact List.getElem?_eq_getElem hl)
      rw [hi, hc _ (List.getElem_mem hl), h2] at h2'
      cases h2'
      rw [h1, h1']
    · rw [List.getElem?_eq_none (by rw [R'.plen, hk]; omega), List.getElem?_eq_none (by rw [R.plen]; omega)]
  have hs : W'.bnd.segments = W.bnd.segments := by
    rw [R'.segs, R.segs, ha, hk]
    refine List.map_congr_left fun g hg => ?_
    obtain ⟨g1, g2⟩ := R.arcMem g hg
    simp only [toSeg, arcLen, hc _ g1, hc _ g2]
  have hn : W'.bnd.nPoints = W.bnd.nPoints := by rw [R'.nPoints, R.nPoints, hk]
  have hm : W'.bnd.nSegments = W.bnd.nSegments := by rw [R'.nSegments, R.nSegments, ha]
  have hl : W'.bnd.length = W.bnd.length := by
    rw [R'.length, R.length, ha]
    congr 1
    refine List.map_congr_left fun g hg => ?_
    obtain ⟨g1, g2⟩ := R.arcMem g hg
    simp only [arcLen, hc _ g1, hc _ g2]
  rcases hW : W.bnd with ⟨a1, a2, a3, a4, a5⟩
  rcases hW' : W'.bnd with ⟨b1, b2, b3, b4, b5⟩
  rw [hW, hW'] at hp hs hn hm hl
  dsimp only at hp hs hn hm hl
  rw [hp, hs, hn, hm, hl]

theorem Exact.bnd_eq {L2 L2' : LevelSet ℝ} {t : Bool} {b' : Boundary ℝ} (E : Exact w h L sd isTarget b L') (E' : Exact w h L2 sd' t b' L2') (hml : L2.moveLimit = L.moveLimit)
    (hk : (run w L2.mesh sd' t (w * h)).keys = (run w L.mesh sd isTarget (w * h)).keys)
    (ha : (run w L2.mesh sd' t (w * h)).arcs = (run w L.mesh sd isTarget (w * h)).arcs)
    (hc : ∀ p : Place, p.inGrid w h → p.onContour (onGrid w sd) → p.coord (onGrid w sd') = p.coord (onGrid w sd))
    (hi : ∀ c, initialisePoint L.moveLimit L2.mesh c = initialisePoint L.moveLimit L.mesh c) : b' = b := by
  obtain ⟨W, R, _, _, _, e⟩ := E.rep
  obtain ⟨W', R', _, _, _, e'⟩ := E'.rep
  rw [hml] at R'
  have := R.bnd_eq R' hk ha (fun p hp => hc p (R.contour p hp).1 (R.contour p hp).2) hi
  rw [this, e] at e'
  cases e'
  rfl

/-! ### exchange of inside and outside -/

theorem values_negated (L : LevelSet ℝ) (isTarget : Bool) : values (negated L isTarget) isTarget = (values L isTarget).map fun v => -v := by
  unfold values negated
  cases isTarget <;> rfl

theorem negated_mesh (L : LevelSet ℝ) (isTarget : Bool) : (negated L isTarget).mesh = L.mesh ∧ (negated L isTarget).moveLimit = L.moveLimit := by
  unfold negated
  cases isTarget <;> exact ⟨rfl, rfl⟩

theorem onGrid_neg (sd : List ℝ) (x y : Nat) : onGrid w (sd.map fun v => -v) x y = -(onGrid w sd x y) := by
  unfold onGrid vals
  rw [List.getD_eq_getElem?_getD, List.getD_eq_getElem?_getD, List.getElem?_map]
  rcases sd[nodeNo w x y]? with _ | v
  · simp
  · rfl

/-- The other side. -/
def swapSide (s : NodeStatus) : NodeStatus := if s = .inside then .outside else .inside

theorem nodeSide_neg {v : ℝ} (hv : nodeSide v ≠ .boundary) : nodeSide (-v) = swapSide (nodeSide v) ∧ nodeSide (-v) ≠ .boundary := by
  rcases nodeSide_cases v with e | e | e
  · have : nodeSide (-v) = .outside := by
      rw [nodeSide_outside]; rw [nodeSide_inside] at e; linarith
    rw [e, this]; exact ⟨rfl, by decide⟩
  · have : nodeSide (-v) = .inside := by
      rw [nodeSide_inside]; rw [nodeSide_outside] at e; linarith
    rw [e, this]; exact ⟨rfl, by decide⟩
  · exact absurd e hv

theorem crossed_neg {a c : ℝ} : Crossed (nodeSide (-a)) (nodeSide (-c)) ↔ Crossed (nodeSide a) (nodeSide c) := by
  have key : ∀ v : ℝ, (nodeSide (-v) = .inside ↔ nodeSide v = .outside) ∧ (nodeSide (-v) = .outside ↔ nodeSide v = .inside) := by
    intro v
    rw [nodeSide_inside, nodeSide_outside, nodeSide_outside, nodeSide_inside]
    constructor <;> constructor <;> intro <;> linarith
  unfold Crossed
  rw [(key a).1, (key a).2, (key c).1, (key c).2]
  tauto

theorem onContour_neg {f g : Nat → Nat → ℝ} (hfg : ∀ x y, g x y = -(f x y)) {p : Place} (hn : ∀ x y, p ≠ .node x y) : p.onContour g ↔ p.onContour f := by
  cases p with
  | node x y => exact absurd rfl (hn x y)
  | hor x y => simp only [Place.onContour, hfg]; exact crossed_neg
  | ver x y => simp only [Place.onContour, hfg]; exact crossed_neg

theorem coord_neg {f g : Nat → Nat → ℝ} (hfg : ∀ x y, g x y = -(f x y)) (p : Place) : p.coord g = p.coord f := by
  have key : ∀ a c : ℝ, -a / (-a - -c) = a / (a - c) := by
    intro a c
    rw [← neg_div_neg_eq a]
    congr 1
    ring
  cases p with
  | node x y => rfl
  | hor x y => simp only [Place.coord, hfg, key]
  | ver x y => simp only [Place.coord, hfg, key]

theorem tame_negated (T : Tame w h L isTarget) (G : Generic w h (level w L isTarget)) : Tame w h (negated L isTarget) isTarget := by
  have hl : ∀ x y, level w (negated L isTarget) isTarget x y = -(level w L isTarget x y) := by
    intro x y
    rw [level_eq, level_eq, values_negated, onGrid_neg]
  refine ⟨⟨?_, ?_, T.fit⟩, ⟨?_, ?_⟩, ?_, Generic.tidy ?_⟩
  · rw [(negated_mesh L isTarget).1]; exact T.grid
  · rw [(negated_mesh L isTarget).1, values_negated, List.length_map]; exact T.len
  · intro x y hx hy hc
    rw [hl, hl] at hc ⊢
    have := T.gentle.1 x y hx hy (crossed_neg.1 hc)
    rwa [← neg_sub', abs_neg]
  · intro x y hx hy hc
    rw [hl, hl] at hc ⊢
    have := T.gentle.2 x y hx hy (crossed_neg.1 hc)
    rwa [← neg_sub', abs_neg]
  · rcases T.seen with h1 | h1
    · exact .inl h1
    · right
      intro p hp
      rw [(negated_mesh L isTarget).1]
      exact h1 p ⟨hp.1, (onContour_neg hl hp.2.2).1 hp.2.1, hp.2.2⟩
  · intro x y hx hy
    rw [hl]
    exact (nodeSide_neg (G x y hx hy)).2

theorem side_neg (G : Generic w h (onGrid w sd)) {x y j : Nat} (hx : x < w) (hy : y < h) :
    side w (sd.map fun v => -v) x y j = swapSide (side w sd x y j) := by
  unfold side
  rw [onGrid_neg]
  exact (nodeSide_neg (G _ _ (cornerAt_le hx hy j).1 (cornerAt_le hx hy j).2)).1

theorem generic_mem (G : Generic w h (onGrid w sd)) {x y : Nat} (hx : x < w) (hy : y < h) (j : Nat) :
    side w sd x y j ∈ [NodeStatus.inside, .outside] := by
  have := G _ _ (cornerAt_le hx hy j).1 (cornerAt_le hx hy j).2
  unfold side
  rcases nodeSide_cases (onGrid w sd (cornerAt x y j).1 (cornerAt x y j).2) with e | e | e
  · rw [e]; simp
  · rw [e]; simp
  · exact absurd e this

theorem firstWay_neg (G : Generic w h (onGrid w sd)) {x y : Nat} (hx : x < w) (hy : y < h) :
    firstWay w (sd.map fun v => -v) x y = firstWay w sd x y := by
  have hs : centreSum w (sd.map fun v => -v) x y = -(centreSum w sd x y) := by
    unfold centreSum
    simp only [onGrid_neg]
    ring
  unfold firstWay
  rw [side_neg G hx hy, hs, decide_eq_decide]
  have := generic_mem G hx hy 0
  simp only [List.mem_cons, List.not_mem_nil, or_false] at this
  rcases this with e | e <;> rw [e] <;> simp [swapSide]

theorem cell_neg (V : Vis w h m sd isTarget) (G : Generic w h (onGrid w sd)) {x y : Nat} (hx : x < w) (hy : y < h) :
    cellArcs w m (sd.map fun v => -v) isTarget x y = cellArcs w m sd isTarget x y ∧
    cellMarks w m (sd.map fun v => -v) isTarget x y = cellMarks w m sd isTarget x y := by
  have T := table_swap _ (generic_mem G hx hy 0) _ (generic_mem G hx hy 1) _ (generic_mem G hx hy 2) _ (generic_mem G hx hy 3)
    (look w m isTarget x y 0) (look w m isTarget x y 1) (look w m isTarget x y 2) (look w m isTarget x y 3) (firstWay w sd x y) (V.pick hx hy)
  unfold cellArcs cellMarks
  rw [arcs_pick, marks_pick, arcs_pick (side w sd x y), marks_pick (side w sd x y), firstWay_neg G hx hy, side_neg G hx hy, side_neg G hx hy,
    side_neg G hx hy, side_neg G hx hy]
  exact ⟨T.1.symm, T.2.symm⟩

theorem run_congr (hw : 0 < w) (H : ∀ x y, x < w → y < h → cellArcs w m' sd' isTarget x y = cellArcs w m sd isTarget x y ∧
    cellMarks w m' sd' isTarget x y = cellMarks w m sd isTarget x y) :
    (run w m' sd' isTarget (w * h)).keys = (run w m sd isTarget (w * h)).keys ∧
    (run w m' sd' isTarget (w * h)).arcs = (run w m sd isTarget (w * h)).arcs := by
  have hd : ∀ e, e < w * h → e % w < w ∧ e / w < h := fun e he =>
    ⟨Nat.mod_lt _ hw, (Nat.div_lt_iff_lt_mul hw).2 (by rwa [Nat.mul_comm h w])⟩
  constructor
  · show addKeys [] (allMarks _ _ _ _ _) = addKeys [] (allMarks _ _ _ _ _)
    congr 1
    refine upTo_congr fun e he => ?_
    rw [(H _ _ (hd e he).1 (hd e he).2).2]
  · show allArcs _ _ _ _ _ = allArcs _ _ _ _ _
    refine upTo_congr fun e he => ?_
    rw [(H _ _ (hd e he).1 (hd e he).2).1]

theorem negated_same (T : Tame w h L isTarget) (G : Generic w h (level w L isTarget)) : ∃ b L1 L2, discretise L isTarget = .ok (b, L1) ∧
    discretise (negated L isTarget) isTarget = .ok (b, L2) := by
  obtain ⟨b, L1, e1, E1⟩ := tame_exact T
  obtain ⟨b', L2, e2, E2⟩ := tame_exact (tame_negated T G)
  rw [values_negated] at E2
  have hm := negated_mesh L isTarget
  have hr := run_congr (w := w) (h := h) (m := L.mesh) (m' := L.mesh) (isTarget := isTarget) (sd := values L isTarget)
    (sd' := (values L isTarget).map fun v => -v) T.grid.w_pos fun x y hx hy => cell_neg T.vis G hx hy
  have : b' = b := E1.bnd_eq E2 hm.2 (by rw [hm.1]; exact hr.1) (by rw [hm.1]; exact hr.2)
    (fun p _ _ => coord_neg (fun x y => onGrid_neg _ x y) p) (by rw [hm.1]; exact fun _ => rfl)
  subst this
  exact ⟨b', L1, L2, e1, e2⟩

/-! ### earlier annotations -/

theorem Annot.node' {D : Type} [FP D] {m0 m : Mesh D} (A : Annot m0 m) {i : Nat} {a : Node D} (ha : m0.nodes[i]? = some a) :
    ∃ c, m.nodes[i]? = some c ∧ SameNode a c := by
  have hl : i < m.nodes.length := by rw [A.nlen]; exact (List.getElem?_eq_some_iff.1 ha).1
  obtain ⟨a', h1, h2⟩ := A.node i _ (List.getElem?_eq_getElem hl)
  rw [ha] at h1
  cases h1
  exact ⟨_, List.getElem?_eq_getElem hl, h2⟩

theorem Annot.seen_eq {m0 m : Mesh ℝ} (A : Annot m0 m) (n : Nat) : Boundary.seen m n = Boundary.seen m0 n := by
  by_cases hn : n < m.nodes.length
  · have := Annot.seen A n (List.getElem?_eq_getElem hn)
    rw [← this]
    unfold Boundary.seen
    rw [List.getElem?_eq_getElem hn]
    rfl
  · unfold Boundary.seen
    rw [List.getElem?_eq_none (by omega), List.getElem?_eq_none (by rw [← A.nlen]; omega)]

theorem tame_annot (T : Tame w h L isTarget) (A : Annot L.mesh m) : Tame w h { L with mesh := m } isTarget := by
  refine ⟨⟨A.grid T.grid, ?_, T.fit⟩, T.gentle, ?_, T.tidy⟩
  · show m.nNodes ≤ _
    rw [A.nNodes]
    exact T.len
  · rcases T.seen with h1 | h1
    · exact .inl h1
    · right
      intro p hp
      obtain ⟨q, hq, nd, h2, h3⟩ := h1 p hp
      obtain ⟨c, h4, h5⟩ := Annot.node' A h2
      refine ⟨q, hq, c, h4, ?_⟩
      rw [h5.eq]
      exact h3

theorem annot_same (T : Tame w h L isTarget) (A : Annot L.mesh m) : ∃ b L1 L2, discretise L isTarget = .ok (b, L1) ∧
    discretise { L with mesh := m } isTarget = .ok (b, L2) := by
  obtain ⟨b, L1, e1, E1⟩ := tame_exact T
  obtain ⟨b', L2, e2, E2⟩ := tame_exact (tame_annot T A)
  have hr := run_congr (w := w) (h := h) (m := L.mesh) (m' := m) (isTarget := isTarget) (sd := values L isTarget) (sd' := values L isTarget)
    T.grid.w_pos fun x y hx hy => by
      have : look w m isTarget x y = look w L.mesh isTarget x y := by
        funext j
        unfold look
        rw [Annot.seen_eq A, Annot.seen_eq A]
      unfold cellArcs cellMarks
      rw [this]
      exact ⟨rfl, rfl⟩
  have : b' = b := E1.bnd_eq E2 rfl hr.1 hr.2 (fun _ _ _ => rfl) (fun c => Annot.initialisePoint A _ c)
  subst this
  exact ⟨b', L1, L2, e1, e2⟩

theorem Made.annot (M : Made w h L sd b L') : Annot L.mesh L'.mesh ∧ L' = { L with mesh := L'.mesh } := by
  obtain ⟨W, S, h1, _⟩ := M.sane
  rw [h1]
  exact ⟨S.annot, by rw [← h1]; exact M.level⟩

end

end Boundary

end Slsm
