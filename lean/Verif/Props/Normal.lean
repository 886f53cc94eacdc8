import Verif.Proof.BndNormal
import Verif.Proof.BndKink

/-! # C44: normal vectors of the discretised boundary -/

namespace Slsm

open FP LevelSet Boundary

section
variable {w h : Nat} {L L' : LevelSet ℝ} {b : Boundary ℝ} {isTarget : Bool}

/-- **C44** (partial): for a boundary just discretised from well behaved values, `computeNormalVectors` returns, changes nothing but the
normals, and gives every point not on the domain edge the unit vector in the direction of the blend (inverse square distance weights) of the
unit gradients at the narrow band nodes at the ends of its edge.  Missing: points without such nodes, or with nodes of zero gradient, or with
opposite gradients that cancel, where the code divides zero by zero. -/
theorem C44_normals_partial (hr : Reachable w h L) (T : Tame w h L isTarget) (e : discretise L isTarget = .ok (b, L')) :
    ∃ b', computeNormalVectors b L' = .ok b' ∧ b' = { b with points := b'.points } ∧ b'.points.length = b.points.length ∧
    ∀ (k : Nat) (pt : BoundaryPoint ℝ), b.points[k]? = some pt → ∃ n, b'.points[k]? = some { pt with normal := n } ∧
      ∀ p : Place, p.inGrid w h → p.onContour (level w L isTarget) → pt.coord = p.coord (level w L isTarget) → pt.isDomain = false →
        bandEnds w L p ≠ [] → (∀ q ∈ bandEnds w L p, nodalGradient w h (level w L false) q ≠ ⟨0, 0⟩) →
        let v := blend (fun q => unitVec (nodalGradient w h (level w L false) q)) pt.coord (bandEnds w L p)
        v ≠ ⟨0, 0⟩ → n = unitVec v ∧ vnorm n = 1 := by
  obtain ⟨b2, L2, e2, E⟩ := tame_exact T
  rw [e] at e2
  cases e2
  obtain ⟨b', h1, h2, h3, h4⟩ := computeNormalVectors_spec hr.core E
  refine ⟨b', h1, h2, h3, fun k pt hk => ?_⟩
  obtain ⟨p, hp, hn⟩ := h4 k pt hk
  dsimp only at hn
  rw [unitNormal_frame] at hn
  refine ⟨_, hn, fun p' hg hc hpc hd hne _ => ?_⟩
  intro v hv
  obtain ⟨p2, g1, g2, g3, g4, -⟩ := E.point hk
  rw [hp] at g1
  cases g1
  have : p' = p := coord_inj hc g3 (by rw [← hpc, g4]; rfl)
  subst this
  have P := listed_perm hr.core hp g2
  have U : ∀ q ∈ listed w (run w L.mesh (values L isTarget) isTarget (w * h)).keys k L.band,
      ∀ q' ∈ listed w (run w L.mesh (values L isTarget) isTarget (w * h)).keys k L.band,
      sqDist pt.coord q < 1 / 10 ^ 6 → sqDist pt.coord q' < 1 / 10 ^ 6 → q = q' := by
    intro q hq q' hq' a1 a2
    rw [g4] at a1 a2
    exact coord_between g3 (List.mem_filter.1 (P.mem_iff.1 hq)).1 (List.mem_filter.1 (P.mem_iff.1 hq')).1 a1 a2
  obtain ⟨q1, q2⟩ := accAll_blend (w := w) (h := h) (L := L) pt.coord P U
  have hpos := q2 (fun h0 => hne (by
    rw [h0] at P
    exact P.symm.eq_nil))
  have key : (unitNormal (accAll w h L pt.coord (listed w (run w L.mesh (values L isTarget) isTarget (w * h)).keys k L.band)).2.2
      { pt with normal := (accAll w h L pt.coord (listed w (run w L.mesh (values L isTarget) isTarget (w * h)).keys k L.band)).1 }).normal = unitVec v := by
    rw [unitNormal_eq hpos (p := { pt with normal := (accAll w h L pt.coord
      (listed w (run w L.mesh (values L isTarget) isTarget (w * h)).keys k L.band)).1 }) hd]
    dsimp only
    rw [q1]
    rfl
  rw [key]
  exact ⟨rfl, vnorm_unitVec hv⟩

/-- **C44** (planes): if the level set is `a x + c y + d` with `(a, c) ≠ 0`, every point off the domain edge with a narrow band node at an end
of its edge gets exactly the normal `(a, c) / |(a, c)|`. -/
theorem C44_plane (hr : Reachable w h L) (T : Tame w h L isTarget) (e : discretise L isTarget = .ok (b, L')) {a c d : ℝ}
    (hac : (⟨a, c⟩ : Coord ℝ) ≠ ⟨0, 0⟩) (hL : ∀ x y, x ≤ w → y ≤ h → level w L false x y = a * x + c * y + d) :
    ∃ b', computeNormalVectors b L' = .ok b' ∧ ∀ (k : Nat) (pt : BoundaryPoint ℝ), b.points[k]? = some pt → pt.isDomain = false →
      ∀ p : Place, p.inGrid w h → p.onContour (level w L isTarget) → pt.coord = p.coord (level w L isTarget) → bandEnds w L p ≠ [] →
      b'.points[k]? = some { pt with normal := ⟨a / Real.sqrt (a ^ 2 + c ^ 2), c / Real.sqrt (a ^ 2 + c ^ 2)⟩ } := by
  obtain ⟨b', h1, -, -, h4⟩ := C44_normals_partial hr T e
  refine ⟨b', h1, fun k pt hk hd p hg hc hpc hne => ?_⟩
  obtain ⟨n, h5, h6⟩ := h4 k pt hk
  have hgr : ∀ q ∈ bandEnds w L p, nodalGradient w h (level w L false) q = ⟨a, c⟩ := by
    intro q hq
    obtain ⟨hx, hy⟩ := hg q (List.mem_filter.1 hq).1
    unfold nodalGradient
    rw [lineSlope_linear (a := a) (c := c * q.2 + d) T.grid.w_pos hx (fun k hk => by rw [hL k q.2 hk hy]; ring),
      lineSlope_linear (a := c) (c := a * q.1 + d) T.grid.h_pos hy (fun k hk => by rw [hL q.1 k hx hk]; ring)]
  obtain ⟨t, ht, hb⟩ := blend_const (c := pt.coord) (u := fun q => unitVec (nodalGradient w h (level w L false) q)) (u0 := unitVec ⟨a, c⟩)
    (fun q hq => by rw [hgr q hq]) hne
  have hne0 := unitVec_ne_zero hac
  obtain ⟨h7, -⟩ := h6 p hg hc hpc hd hne (fun q hq => by rw [hgr q hq]; exact hac) (by
    rw [hb]
    intro h0
    have e1 := congrArg Coord.x h0
    have e2 := congrArg Coord.y h0
    dsimp only at e1 e2
    refine hne0 ?_
    have x0 := (mul_eq_zero.1 e1).resolve_left ht.ne'
    have y0 := (mul_eq_zero.1 e2).resolve_left ht.ne'
    cases hu : unitVec (⟨a, c⟩ : Coord ℝ) with
    | mk x y => rw [hu] at x0 y0; dsimp only at x0 y0; rw [x0, y0])
  rw [h5, h7, hb, unitVec_scale ht, unitVec_unitVec hac]
  rfl

/-- **C44** (which points have a band node): the level set being discretised, every crossed edge without a masked end has one. -/
theorem C44_touched (hr : Reachable w h L) (T : Tame w h L false) {p : Place} (hp : CutEdge w h (level w L false) p)
    (hm : ∀ q ∈ p.ends, ¬ L.Masked (nodeNo w q.1 q.2)) : bandEnds w L p ≠ [] := by
  obtain ⟨q, hq, nd, hnd, hs⟩ := T.seen.resolve_left (by simp) p hp
  have ha : nd.isActive = true := hs.resolve_right fun h0 => hm q hq ⟨nd, hnd, h0⟩
  have : q ∈ bandEnds w L p := List.mem_filter.2 ⟨hq, by simpa using (hr.core.active _).1 ⟨nd, hnd, ha⟩⟩
  exact List.ne_nil_of_mem this

/-- **C44** (cancelling): if the unit gradients at the ends of the edge are not opposite, the blend is not zero. -/
theorem C44_blend_ne_zero {f : Nat → Nat → ℝ} {p : Place} {c : Coord ℝ} (hne : bandEnds w L p ≠ [])
    (h0 : ∀ q ∈ bandEnds w L p, nodalGradient w h f q ≠ ⟨0, 0⟩)
    (ho : ∀ q ∈ bandEnds w L p, ∀ q' ∈ bandEnds w L p, unitVec (nodalGradient w h f q) ≠
      ⟨-(unitVec (nodalGradient w h f q')).x, -(unitVec (nodalGradient w h f q')).y⟩) :
    blend (fun q => unitVec (nodalGradient w h f q)) c (bandEnds w L p) ≠ ⟨0, 0⟩ := by
  have hl := ends_le_two (w := w) (L := L) p
  generalize bandEnds w L p = ns at *
  unfold blend
  cases hf : ns.find? fun q => decide (sqDist c q < 1 / 10 ^ 6) with
  | some q => exact unitVec_ne_zero (h0 q (List.mem_of_find?_eq_some hf))
  | none =>
    have hpos : ∀ q ∈ ns, 0 < sqDist c q := by
      intro q hq
      have := List.find?_eq_none.1 hf q hq
      rw [decide_eq_true_eq, not_lt] at this
      exact lt_of_lt_of_le (by norm_num) this
    dsimp only
    intro hz
    have e1 := congrArg Coord.x hz
    have e2 := congrArg Coord.y hz
    dsimp only at e1 e2
    match ns, hne, hl with
    | [q], _, _ =>
      simp only [List.map_cons, List.map_nil, List.sum_cons, List.sum_nil, add_zero] at e1 e2
      have hq := (hpos q (by simp)).ne'
      refine unitVec_ne_zero (h0 q (by simp)) ?_
      have x0 := (div_eq_zero_iff.1 e1).resolve_right hq
      have y0 := (div_eq_zero_iff.1 e2).resolve_right hq
      cases hu : unitVec (nodalGradient w h f q) with
      | mk x y => rw [hu] at x0 y0; dsimp only at x0 y0; rw [x0, y0]
    | [q, q'], _, _ =>
      simp only [List.map_cons, List.map_nil, List.sum_cons, List.sum_nil, add_zero] at e1 e2
      have hq := hpos q (by simp)
      have hq' := hpos q' (by simp)
      have n1 := vnorm_unitVec (h0 q (by simp))
      have n2 := vnorm_unitVec (h0 q' (by simp))
      refine ho q (by simp) q' (by simp) ?_
      generalize unitVec (nodalGradient w h f q) = u at *
      generalize unitVec (nodalGradient w h f q') = u' at *
      generalize sqDist c q = r at *
      generalize sqDist c q' = r' at *
      have hu : u.x ^ 2 + u.y ^ 2 = 1 := by
        unfold vnorm at n1; rwa [Real.sqrt_eq_one] at n1
      have hu' : u'.x ^ 2 + u'.y ^ 2 = 1 := by
        unfold vnorm at n2; rwa [Real.sqrt_eq_one] at n2
      rw [div_add_div _ _ hq.ne' hq'.ne', div_eq_zero_iff] at e1 e2
      have x0 := e1.resolve_right (by positivity)
      have y0 := e2.resolve_right (by positivity)
      have hrr : r' ^ 2 = r ^ 2 := by
        have a1 : r' ^ 2 * u.x ^ 2 = r ^ 2 * u'.x ^ 2 := by
          have : u.x * r' = -(r * u'.x) := by linarith
          calc r' ^ 2 * u.x ^ 2 = (u.x * r') ^ 2 := by ring
            _ = (r * u'.x) ^ 2 := by rw [this]; ring
            _ = _ := by ring
        have a2 : r' ^ 2 * u.y ^ 2 = r ^ 2 * u'.y ^ 2 := by
          have : u.y * r' = -(r * u'.y) := by linarith
          calc r' ^ 2 * u.y ^ 2 = (u.y * r') ^ 2 := by ring
            _ = (r * u'.y) ^ 2 := by rw [this]; ring
            _ = _ := by ring
        calc r' ^ 2 = r' ^ 2 * u.x ^ 2 + r' ^ 2 * u.y ^ 2 := by rw [← mul_add, hu, mul_one]
          _ = r ^ 2 * (u'.x ^ 2 + u'.y ^ 2) := by rw [a1, a2]; ring
          _ = r ^ 2 := by rw [hu', mul_one]
      have hr : r' = r := (pow_left_inj₀ hq'.le hq.le (by norm_num)).1 hrr
      subst hr
      have x1 : u.x = -u'.x := by
        have : r' * (u.x + u'.x) = 0 := by linarith
        linarith [(mul_eq_zero.1 this).resolve_left hq.ne']
      have y1 : u.y = -u'.y := by
        have : r' * (u.y + u'.y) = 0 := by linarith
        linarith [(mul_eq_zero.1 this).resolve_left hq.ne']
      cases u
      dsimp only at x1 y1
      rw [x1, y1]
    | _ :: _ :: _ :: _, _, hl => simp at hl

/-- **C44** (points near the edge of the domain): for points within the move limit of the edge the vector is left as it was summed up; it is
not a unit vector, see `C44_domain_not_unit`. -/
theorem C44_domain_sum (hr : Reachable w h L) (T : Tame w h L isTarget) (e : discretise L isTarget = .ok (b, L')) :
    ∃ b', computeNormalVectors b L' = .ok b' ∧ ∀ (k : Nat) (pt : BoundaryPoint ℝ), b.points[k]? = some pt → pt.isDomain = true →
      ∀ p : Place, p.inGrid w h → p.onContour (level w L isTarget) → pt.coord = p.coord (level w L isTarget) →
        b'.points[k]? = some { pt with normal := blend (fun q => unitVec (nodalGradient w h (level w L false) q)) pt.coord (bandEnds w L p) } := by
  obtain ⟨b2, L2, e2, E⟩ := tame_exact T
  rw [e] at e2
  cases e2
  obtain ⟨b', h1, h2, h3, h4⟩ := computeNormalVectors_spec hr.core E
  refine ⟨b', h1, fun k pt hk hd p' hg hc hpc => ?_⟩
  obtain ⟨p, hp, hn⟩ := h4 k pt hk
  dsimp only at hn
  obtain ⟨p2, g1, g2, g3, g4, -⟩ := E.point hk
  rw [hp] at g1
  cases g1
  have : p' = p := coord_inj hc g3 (by rw [← hpc, g4]; rfl)
  subst this
  have P := listed_perm hr.core hp g2
  have U : ∀ q ∈ listed w (run w L.mesh (values L isTarget) isTarget (w * h)).keys k L.band,
      ∀ q' ∈ listed w (run w L.mesh (values L isTarget) isTarget (w * h)).keys k L.band,
      sqDist pt.coord q < 1 / 10 ^ 6 → sqDist pt.coord q' < 1 / 10 ^ 6 → q = q' := by
    intro q hq q' hq' a1 a2
    rw [g4] at a1 a2
    exact coord_between g3 (List.mem_filter.1 (P.mem_iff.1 hq)).1 (List.mem_filter.1 (P.mem_iff.1 hq')).1 a1 a2
  obtain ⟨q1, -⟩ := accAll_blend (w := w) (h := h) (L := L) pt.coord P U
  rw [hn, unitNormal, if_pos (by exact hd), q1]
  rfl

/-- Normal vector of a point near the edge in the example of `BndKink`. -/
theorem kink_normal (hr : Reachable 5 5 L) (hf : Kinked (vals L.signedDistance)) (T : Tame 5 5 L false) (hm : ∀ i, ¬ L.Masked i)
    (hl : L.moveLimit = 1 / 2) (hb : ∀ x y, x ≤ 5 → y ≤ 5 → nodeNo 5 x y ∈ L.band) (e : discretise L false = .ok (b, L')) :
    ∃ (b' : Boundary ℝ) (k : Nat) (p : BoundaryPoint ℝ) (j : Nat) (q : BoundaryPoint ℝ), computeNormalVectors b L' = .ok b' ∧
      (∃ p0 q0, b.points[k]? = some p0 ∧ p = { p0 with normal := p.normal } ∧ b.points[j]? = some q0 ∧ q.coord = q0.coord) ∧
      b'.points[k]? = some p ∧ p.coord = ⟨1 / 2, 0⟩ ∧ p.isDomain = true ∧ p.isFixed = false ∧ p.neighbours.take p.nNeighbours = [j] ∧
      b'.points[j]? = some q ∧ (q.coord = ⟨0, 1 / 2⟩ ∨ q.coord = ⟨1, 1 / 2⟩ ∨ q.coord = ⟨1 / 2, 1⟩) ∧
      p.normal = ⟨-(4 / Real.sqrt 2), 4 - 4 / Real.sqrt 2⟩ := by
  obtain ⟨hcut, hcd, k, p, j, q, h1, h2, h3, h4, h5, h6, h7⟩ := kink_point hf T hm hl e
  obtain ⟨b', e1, -, -, f1⟩ := C44_normals_partial hr T e
  obtain ⟨b2, e2, f2⟩ := C44_domain_sum hr T e
  rw [e1] at e2
  cases e2
  obtain ⟨n, g1, -⟩ := f1 j q h6
  have g2 := f2 k p h1 h3 _ hcut.1 hcut.2.1 (h2.trans hcd.symm)
  refine ⟨b', k, _, j, { q with normal := n }, e1, ⟨p, q, h1, rfl, h6, rfl⟩, g2, h2, h3, h4, h5, g1, h7, ?_⟩
  dsimp only
  have V : ∀ x y, x ≤ 5 → y ≤ 5 → level 5 L false x y = kink x y := hf
  have hbe : bandEnds 5 L (.hor 0 0) = [(0, 0), (1, 0)] := by
    unfold bandEnds
    simp [Place.ends, hb 0 0 (by norm_num) (by norm_num), hb 1 0 (by norm_num) (by norm_num)]
  have hd : 0 < kinkDist 0 := lt_trans (by norm_num) (kinkDist_bounds 0).1
  have hd1 : kinkDist 1 = kinkDist 0 := rfl
  have k0 : kink 0 0 = kinkDist 0 := if_pos (by decide)
  have k1 : kink 1 0 = -kinkDist 0 := if_neg (by decide)
  have k2 : kink 2 0 = kinkDist 0 := if_pos (by decide)
  have k3 : kink 0 1 = -kinkDist 0 := if_neg (by decide)
  have k4 : kink 1 1 = kinkDist 0 := if_pos (by decide)
  have n0 : nodalGradient 5 5 (level 5 L false) (0, 0) = ⟨2 * kinkDist 0 * -1, 2 * kinkDist 0 * -1⟩ := by
    unfold nodalGradient lineSlope
    simp only [if_true]
    rw [V 0 0 (by norm_num) (by norm_num), V 1 0 (by norm_num) (by norm_num), V 0 1 (by norm_num) (by norm_num), k0, k1, k3]
    congr 1 <;> ring
  have n1 : nodalGradient 5 5 (level 5 L false) (1, 0) = ⟨2 * kinkDist 0 * 0, 2 * kinkDist 0 * 1⟩ := by
    unfold nodalGradient lineSlope
    simp only [if_true, one_ne_zero, if_false, show ¬ (1 = 5) by norm_num]
    rw [V 0 0 (by norm_num) (by norm_num), V (1 + 1) 0 (by norm_num) (by norm_num), V 1 1 (by norm_num) (by norm_num),
      V 1 0 (by norm_num) (by norm_num), k0, k1, k4, show kink (1 + 1) 0 = kinkDist 0 from k2]
    congr 1 <;> ring
  have u0 : unitVec ⟨-1, -1⟩ = ⟨-(1 / Real.sqrt 2), -(1 / Real.sqrt 2)⟩ := by
    unfold unitVec vnorm
    norm_num
    ring
  have u1 : unitVec ⟨0, 1⟩ = ⟨0, 1⟩ := by
    unfold unitVec vnorm
    norm_num
  rw [hbe, h2]
  have hs : ∀ x : Nat, x ≤ 1 → sqDist ⟨1 / 2, 0⟩ (x, 0) = 1 / 4 := by
    intro x hx
    have : x = 0 ∨ x = 1 := by omega
    unfold sqDist
    rcases this with rfl | rfl <;> norm_num
  unfold blend
  rw [List.find?_eq_none.2 (by
    intro r hr
    simp only [List.mem_cons, List.not_mem_nil, or_false] at hr
    rcases hr with rfl | rfl <;> rw [hs _ (by norm_num)] <;> norm_num)]
  simp only [List.map_cons, List.map_nil, List.sum_cons, List.sum_nil, hs 0 (by norm_num), hs 1 (by norm_num), n0, n1]
  rw [unitVec_scale (by linarith) ⟨-1, -1⟩, unitVec_scale (by linarith) ⟨0, 1⟩, u0, u1]
  dsimp only
  congr 1 <;> ring

/-- **C44** (points near the edge of the domain, negation): such a point can have a normal vector of length more than 3. -/
theorem C44_domain_not_unit : ∃ (L0 L L' : LevelSet ℝ) (b b' : Boundary ℝ) (k : Nat) (p : BoundaryPoint ℝ), Reachable 5 5 L0 ∧
    reinitialise L0 = .ok L ∧ discretise L false = .ok (b, L') ∧ computeNormalVectors b L' = .ok b' ∧ b'.points[k]? = some p ∧
    3 < vnorm p.normal := by
  obtain ⟨L0, hr, hf, hl, hx, hm⟩ := kink_level
  obtain ⟨L, e1, k1, T, -, k4, k5, k6⟩ := kink_reinitialise hr hf hx hm
  obtain ⟨b, L', e2⟩ := C41_safe_partial T
  obtain ⟨b', k, p, j, q, h1, -, h2, -, -, -, -, -, -, h8⟩ := kink_normal (.call hr (.reinitialise e1)) k1 T k5 (k4.trans hl) k6 e2
  refine ⟨L0, L, L', b, b', k, p, hr, e1, e2, h1, h2, ?_⟩
  rw [h8]
  unfold vnorm
  refine Real.lt_sqrt_of_sq_lt ?_
  have s2 : Real.sqrt 2 * Real.sqrt 2 = 2 := Real.mul_self_sqrt (by norm_num)
  have sp : 0 < Real.sqrt 2 := Real.sqrt_pos.2 (by norm_num)
  have e3 : 4 / Real.sqrt 2 = 2 * Real.sqrt 2 := by
    rw [div_eq_iff sp.ne']
    linarith
  have : Real.sqrt 2 < 1.42 := by rw [Real.sqrt_lt' (by norm_num)]; norm_num
  rw [e3]
  nlinarith

/-- The hypotheses are met by a straight front. -/
example : ∃ L : LevelSet ℝ, Reachable 5 5 L ∧ Tame 5 5 L false ∧ (∀ x y, x ≤ 5 → y ≤ 5 → level 5 L false x y = 1 * x + 0 * y + -(3 / 2)) ∧
    CutEdge 5 5 (level 5 L false) (.hor 1 2) ∧ bandEnds 5 L (.hor 1 2) ≠ [] := by
  obtain ⟨L, hr, hf, hb⟩ := example_plane 1 0 (-(3 / 2))
  have hf' : ∀ x y, x ≤ 5 → y ≤ 5 → level 5 L false x y = 1 * x + 0 * y + -(3 / 2) := hf
  have hI : ∀ x y, x ≤ 5 → y ≤ 5 → 2 ≤ x → nodeSide (level 5 L false x y) = .inside := by
    intro x y hx hy h2
    rw [nodeSide_inside, hf' x y hx hy]
    have : (2 : ℝ) ≤ x := by exact_mod_cast h2
    norm_num
    linarith
  have hO : ∀ x y, x ≤ 5 → y ≤ 5 → x ≤ 1 → nodeSide (level 5 L false x y) = .outside := by
    intro x y hx hy h2
    rw [nodeSide_outside, hf' x y hx hy]
    have : (x : ℝ) ≤ 1 := by exact_mod_cast h2
    norm_num
    linarith
  have T : Tame 5 5 L false := by
    refine ⟨ready_of_reachable hr, ⟨?_, ?_⟩, .inr fun p hp => ?_, Generic.tidy fun x y hx hy => ?_⟩
    · intro x y hx hy _
      rw [hf' x y (by omega) hy, hf' (x + 1) y hx hy, abs_le]
      push_cast
      constructor <;> linarith
    · intro x y hx hy _
      rw [hf' x y hx (by omega), hf' x (y + 1) hx hy]
      simp
    · cases he : p.ends with
      | nil => cases p <;> simp [Place.ends] at he
      | cons q l =>
        have hq : q ∈ p.ends := by rw [he]; simp
        obtain ⟨nd, hnd, ha⟩ := (hr.core.active _).2 (hb q.1 q.2 (hp.1 q hq).1 (hp.1 q hq).2)
        exact ⟨q, by rw [← he]; exact hq, nd, hnd, .inl ha⟩
    · rcases le_or_gt x 1 with hc | hc
      · rw [hO x y hx hy hc]; simp
      · rw [hI x y hx hy hc]; simp
  have hc : CutEdge 5 5 (level 5 L false) (.hor 1 2) := by
    refine ⟨?_, .inr ⟨hO _ _ (by norm_num) (by norm_num) (by norm_num), hI _ _ (by norm_num) (by norm_num) (by norm_num)⟩, fun x y hp => by cases hp⟩
    intro q hq
    simp only [Place.ends, List.mem_cons, List.not_mem_nil, or_false] at hq
    rcases hq with rfl | rfl <;> exact ⟨by norm_num, by norm_num⟩
  refine ⟨L, hr, T, hf', hc, C44_touched hr T hc fun q hq hm => ?_⟩
  exact (hr.core.band_free _ (hb q.1 q.2 (hc.1 q hq).1 (hc.1 q hq).2)).2.1 hm

/-- **C44** does not hold for all level sets: a single inside node has zero gradient, is in the narrow band and at the end of four crossed
edges, so that the code computes `0 / 0` for the normals of the points on these edges. -/
theorem C44_zero_gradient : ∃ L : LevelSet ℝ, Reachable 5 5 L ∧ Tame 5 5 L false ∧ CutEdge 5 5 (level 5 L false) (.hor 2 2) ∧
    (2, 2) ∈ bandEnds 5 L (.hor 2 2) ∧ nodalGradient 5 5 (level 5 L false) (2, 2) = ⟨0, 0⟩ := by
  obtain ⟨L0, hr0, -, hb0⟩ := example_plane 1 0 (-(3 / 2))
  have C := hr0.core
  have hN : L0.mesh.nNodes = 36 := C.grid.nNodes
  have hr := Reachable.call hr0 (.assign ((List.range 36).map fun i => if i = 14 then (1 / 2 : ℝ) else -(1 / 2)) L0.velocity L0.gradient L0.target
    (by simp [hN]) C.velocity C.gradient)
  generalize hLe : ({ L0 with signedDistance := _, velocity := _, gradient := _, target := _ } : LevelSet ℝ) = L at hr
  have hb : ∀ x y, x ≤ 5 → y ≤ 5 → nodeNo 5 x y ∈ L.band := by
    intro x y hx hy
    rw [← hLe]
    exact hb0 x y hx hy
  have V : ∀ x y, x ≤ 5 → y ≤ 5 → level 5 L false x y = if x = 2 ∧ y = 2 then 1 / 2 else -(1 / 2) := by
    intro x y hx hy
    rw [← hLe]
    change vals ((List.range 36).map fun i => if i = 14 then (1 / 2 : ℝ) else -(1 / 2)) (nodeNo 5 x y) = _
    rw [vals_map_range _ (nodeNo_lt (w := 5) (h := 5) hx hy)]
    refine if_congr ?_ rfl rfl
    unfold nodeNo
    omega
  have S : ∀ x y, x ≤ 5 → y ≤ 5 → nodeSide (level 5 L false x y) = if x = 2 ∧ y = 2 then .inside else .outside := by
    intro x y hx hy
    rw [V x y hx hy]
    split_ifs
    · rw [nodeSide_inside]; norm_num
    · rw [nodeSide_outside]; norm_num
  have T : Tame 5 5 L false := by
    refine ⟨ready_of_reachable hr, ⟨?_, ?_⟩, .inr fun p hp => ?_, Generic.tidy fun x y hx hy => ?_⟩
    · intro x y hx hy _
      rw [V x y (by omega) hy, V (x + 1) y hx hy]
      split_ifs <;> norm_num
    · intro x y hx hy _
      rw [V x y hx (by omega), V x (y + 1) hx hy]
      split_ifs <;> norm_num
    · cases he : p.ends with
      | nil => cases p <;> simp [Place.ends] at he
      | cons q l =>
        have hq : q ∈ p.ends := by rw [he]; simp
        obtain ⟨nd, hnd, ha⟩ := (hr.core.active _).2 (hb q.1 q.2 (hp.1 q hq).1 (hp.1 q hq).2)
        exact ⟨q, by rw [← he]; exact hq, nd, hnd, .inl ha⟩
    · rw [S x y hx hy]
      split_ifs <;> simp
  refine ⟨L, hr, T, ⟨?_, .inl ⟨?_, ?_⟩, fun x y hp => by cases hp⟩, ?_, ?_⟩
  · intro q hq
    simp only [Place.ends, List.mem_cons, List.not_mem_nil, or_false] at hq
    rcases hq with rfl | rfl <;> exact ⟨by norm_num, by norm_num⟩
  · rw [S 2 2 (by norm_num) (by norm_num)]; simp
  · rw [S (2 + 1) 2 (by norm_num) (by norm_num)]; simp
  · exact List.mem_filter.2 ⟨by simp [Place.ends], by simpa using hb 2 2 (by norm_num) (by norm_num)⟩
  · unfold nodalGradient lineSlope
    norm_num [V]

end

end Slsm
