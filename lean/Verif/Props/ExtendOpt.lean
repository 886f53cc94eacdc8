import Verif.Proof.ExtendNormal
import Verif.Proof.OptDemo
import Verif.Props.Boundary
import Verif.Props.Extend
import Verif.Props.Normal
import Verif.Props.Optimise

/-! # No division by zero and no root of a negative number: normal vectors and the optimiser (C102) -/

namespace Slsm

variable {E : Type} [FP E] {g : ℝ → E}

section
open LevelSet Boundary

variable {w h : Nat} {L L' : LevelSet ℝ} {b : Boundary ℝ} {isTarget : Bool}

/-- **C102** (normal vectors): where the level set is not flat (at the narrow band nodes with boundary points) and every point off the domain edge
has a blended gradient, normal vectors are the same in every number system. -/
theorem C102_normals (H : Extends g) (hr : Reachable w h L) (T : Tame w h L isTarget) (e : discretise L isTarget = .ok (b, L'))
    (hs : ∀ (x y : Nat) (nd : Node ℝ), x ≤ w → y ≤ h → nodeNo w x y ∈ L.band → L'.mesh.nodes[nodeNo w x y]? = some nd →
      0 < nd.nBoundaryPoints → nodalGradient w h (level w L false) (x, y) ≠ ⟨0, 0⟩)
    (hp : ∀ pt ∈ b.points, pt.isDomain = false → ∃ p : Place, p.inGrid w h ∧ p.onContour (level w L isTarget) ∧
      pt.coord = p.coord (level w L isTarget) ∧ bandEnds w L p ≠ [] ∧ (∀ q ∈ bandEnds w L p, nodalGradient w h (level w L false) q ≠ ⟨0, 0⟩) ∧
      blend (fun q => unitVec (nodalGradient w h (level w L false) q)) pt.coord (bandEnds w L p) ≠ ⟨0, 0⟩) :
    computeNormalVectors (b.map g) (L'.map g) = (computeNormalVectors b L').map (Boundary.map g) := by
  obtain ⟨b', h1, h2, h3, h4⟩ := C44_normals_partial hr T e
  obtain ⟨A, hL⟩ := (made T.toReady e).annot
  have hr' := C36_reachable hr T.toReady e
  rw [h1, map_ok']
  refine map_computeNormalVectors H (steep_of hr'.core fun x y nd hx hy hb hnd hpos => ?_) h1 fun p hpm hd h0 => ?_
  · rw [hL] at hb ⊢
    exact hs x y nd hx hy hb hnd hpos
  · obtain ⟨k, hk⟩ := List.mem_iff_getElem?.1 hpm
    have hkl : k < b.points.length := by
      rw [← h3]
      exact (List.getElem?_eq_some_iff.1 hk).1
    obtain ⟨n, h5, h6⟩ := h4 k _ (List.getElem?_eq_getElem hkl)
    rw [hk] at h5
    cases h5
    obtain ⟨pl, q1, q2, q3, q4, q5, q6⟩ := hp _ (List.getElem_mem hkl) hd
    have := (h6 pl q1 q2 q3 hd q4 q5 q6).2
    dsimp only at h0
    rw [h0] at this
    simp [vnorm] at this

/-- **C102** (normal vectors of a straight boundary): if the level set is `a x + c y + d` with `(a, c) ≠ 0` and every boundary point off the
domain edge has a narrow band node at an end of its edge. -/
theorem C102_normals_plane (H : Extends g) (hr : Reachable w h L) (T : Tame w h L isTarget) (e : discretise L isTarget = .ok (b, L')) {a c d : ℝ}
    (hac : (⟨a, c⟩ : Coord ℝ) ≠ ⟨0, 0⟩) (hL : ∀ x y, x ≤ w → y ≤ h → level w L false x y = a * x + c * y + d)
    (hp : ∀ pt ∈ b.points, pt.isDomain = false → ∃ p : Place, p.inGrid w h ∧ p.onContour (level w L isTarget) ∧
      pt.coord = p.coord (level w L isTarget) ∧ bandEnds w L p ≠ []) :
    computeNormalVectors (b.map g) (L'.map g) = (computeNormalVectors b L').map (Boundary.map g) := by
  have hgr : ∀ x y, x ≤ w → y ≤ h → nodalGradient w h (level w L false) (x, y) = ⟨a, c⟩ := by
    intro x y hx hy
    unfold nodalGradient
    rw [lineSlope_linear (a := a) (c := c * y + d) T.grid.w_pos hx (fun k hk => by rw [hL k y hk hy]; ring),
      lineSlope_linear (a := c) (c := a * x + d) T.grid.h_pos hy (fun k hk => by rw [hL x k hx hk]; ring)]
  refine C102_normals H hr T e (fun x y nd hx hy _ _ _ => by rw [hgr x y hx hy]; exact hac) fun pt hpt hd => ?_
  obtain ⟨p, q1, q2, q3, q4⟩ := hp pt hpt hd
  have hq : ∀ q ∈ bandEnds w L p, nodalGradient w h (level w L false) q = ⟨a, c⟩ := fun q hq => by
    obtain ⟨hx, hy⟩ := q1 q (List.mem_filter.1 hq).1
    exact hgr q.1 q.2 hx hy
  refine ⟨p, q1, q2, q3, q4, fun q hq' => by rw [hq q hq']; exact hac, ?_⟩
  obtain ⟨t, ht, hb⟩ := blend_const (c := pt.coord) (u := fun q => unitVec (nodalGradient w h (level w L false) q)) (u0 := unitVec ⟨a, c⟩)
    (fun q hq' => by rw [hq q hq']) q4
  rw [hb]
  intro h0
  have e1 := congrArg Coord.x h0
  have e2 := congrArg Coord.y h0
  dsimp only at e1 e2
  refine unitVec_ne_zero hac ?_
  have x0 := (mul_eq_zero.1 e1).resolve_left ht.ne'
  have y0 := (mul_eq_zero.1 e2).resolve_left ht.ne'
  cases hu : unitVec (⟨a, c⟩ : Coord ℝ) with
  | mk x y => rw [hu] at x0 y0; dsimp only at x0 y0; rw [x0, y0]

/-- A boundary to which `C102_normals_plane` applies: that of the plane `x - 3/2` on a 5 by 5 mesh. -/
example : ∃ (L L' : LevelSet ℝ) (b : Boundary ℝ), Reachable 5 5 L ∧ discretise L false = .ok (b, L') ∧
    computeNormalVectors (b.map some) (L'.map some) = (computeNormalVectors b L').map (Boundary.map some) := by
  obtain ⟨L, hr, hf, hb⟩ := example_plane 1 0 (-(3 / 2))
  have hf' : ∀ x y, x ≤ 5 → y ≤ 5 → level 5 L false x y = 1 * x + 0 * y + -(3 / 2) := hf
  have hI : ∀ x y, x ≤ 5 → y ≤ 5 → 2 ≤ x → nodeSide (level 5 L false x y) = .inside := by
    intro x y hx hy h2
    rw [nodeSide_inside, hf' x y hx hy]
    have : (2 : ℝ) ≤ x := by exact_mod_cast h2
    norm_num
    linarith
  have hO : ∀ x y, x ≤ 5 → y ≤ 5 → x ≤ 1 → nodeSide (level 5 L false x y) = .outside := by
    intro x y hx hy h2
    rw [nodeSide_outside, hf' x y hx hy]
    have : (x : ℝ) ≤ 1 := by exact_mod_cast h2
    norm_num
    linarith
  have T : Tame 5 5 L false := by
    refine ⟨ready_of_reachable hr, ⟨?_, ?_⟩, .inr fun p hp => ?_, Generic.tidy fun x y hx hy => ?_⟩
    · intro x y hx hy _
      rw [hf' x y (by omega) hy, hf' (x + 1) y hx hy, abs_le]
      push_cast
      constructor <;> linarith
    · intro x y hx hy _
      rw [hf' x y hx (by omega), hf' x (y + 1) hx hy]
      simp
    · cases he : p.ends with
      | nil => cases p <;> simp [Place.ends] at he
      | cons q l =>
        have hq : q ∈ p.ends := by rw [he]; simp
        obtain ⟨nd, hnd, ha⟩ := (hr.core.active _).2 (hb q.1 q.2 (hp.1 q hq).1 (hp.1 q hq).2)
        exact ⟨q, by rw [← he]; exact hq, nd, hnd, .inl ha⟩
    · rcases le_or_gt x 1 with hc | hc
      · rw [hO x y hx hy hc]; simp
      · rw [hI x y hx hy hc]; simp
  obtain ⟨b, L', e, -⟩ := tame_exact T
  refine ⟨L, L', b, hr, e, C102_normals_plane C102_checked hr T e (by simp) hf' fun pt hpt _ => ?_⟩
  obtain ⟨⟨p, q1, q2, q3⟩, -⟩ := C37_points_on_contour T.toReady e hpt
  refine ⟨p, q1, q2, q3, ?_⟩
  cases he : p.ends with
  | nil => cases p <;> simp [Place.ends] at he
  | cons q l =>
    have hq : q ∈ p.ends := by rw [he]; simp
    exact List.ne_nil_of_mem (List.mem_filter.2 ⟨hq, by simpa using hb q.1 q.2 (q1 q hq).1 (q1 q hq).2⟩)

end

namespace Optimise

/-- **C102** (optimiser, constructor): for all arguments. -/
theorem C102_optimise (H : Extends g) (points : List (BoundaryPoint ℝ)) (distances lambdas : List ℝ) (dt limit : ℝ) (isMax : Bool) (equality : List Bool) :
    new (points.map (BoundaryPoint.map g)) (distances.map g) (lambdas.map g) (g dt) (g limit) isMax equality =
      (new points distances lambdas dt limit isMax equality).map (Optimise.map g) := by
  have e0 : (FP.nat 0 : E) = g (FP.nat 0) := H.nat' 0
  have e1 : (FP.nat 1 : E) = g (FP.nat 1) := H.nat' 1
  unfold new
  simp only [e0, e1, H.lt_eq, List.length_map, List.isEmpty_map, LevelSet.map_bind']
  refine bind_congr fun _ => bind_congr fun _ => bind_congr fun _ => bind_congr fun _ => ?_
  show _ = Except.ok _
  unfold Optimise.map
  dsimp only
  simp only [List.map_replicate, List.map_nil]
  rfl

/-- **C102** (optimiser, before the solver is called: scale factors, removed constraints, limits of the multipliers, gradients): for every state in which
every function responds to some movable point. -/
theorem C102_prepare (H : Extends g) (fuel : Nat) (s : Optimise ℝ) (hR : ∀ k, k ≤ s.nConstraints → Responds s.points k) :
    prepare fuel (s.map g) = (prepare fuel s).map (Optimise.map g) :=
  map_prepare H fuel s hR

/-- **C102** (optimiser, the callback): what the solver is told, for every state, point and function. -/
theorem C102_callback (H : Extends g) (s : Optimise ℝ) (lambda : List ℝ) (wantGradient : Bool) (index : Nat) :
    callback (s.map g) (lambda.map g) wantGradient index = (callback s lambda wantGradient index).map (Prod.map (Optimise.map g) (Prod.map (Option.map (List.map g)) g)) :=
  map_callback H s lambda wantGradient index

/-- **C102** (optimiser): for every object a program can hold and every solver, a call of `solve` that ends with a time step other than zero has the same
result in every number system. -/
theorem C102_solve (H : Extends g) {nlopt : Optimise ℝ → NLoptRun ℝ} {nlopt' : Optimise E → NLoptRun E} (hn : ∀ t, nlopt' (t.map g) = (nlopt t).map g)
    {fuel : Nat} {s s' : Optimise ℝ} {obj : ℝ} (h : Reached s) (hR : ∀ k, k ≤ s.nConstraints → Responds s.points k)
    (e : solve nlopt fuel s = .ok (s', obj)) (ht : s'.timeStep ≠ 0) : solve nlopt' fuel (s.map g) = .ok (s'.map g, g obj) :=
  map_solve H hn h.ok.1 hR e ht

/-- The condition on the solver in `C102_solve` can always be met: every solver can be run in the other number system. -/
theorem C102_solver (H : Extends g) (nlopt : Optimise ℝ → NLoptRun ℝ) : ∃ nlopt' : Optimise E → NLoptRun E, ∀ t, nlopt' (t.map g) = (nlopt t).map g := by
  have hi : ∀ x, Function.invFun g (g x) = x := Function.leftInverse_invFun H.injective
  have hc : ∀ c : Coord ℝ, (c.map g).map (Function.invFun g) = c := fun c => by simp [Coord.map, hi]
  have hl : ∀ l : List ℝ, (l.map g).map (Function.invFun g) = l := fun l => by simp [List.map_map, Function.comp_def, hi]
  have hb : ∀ p : BoundaryPoint ℝ, (p.map g).map (Function.invFun g) = p := fun p => by simp only [BoundaryPoint.map, hc, hi, hl]
  refine ⟨fun t => (nlopt (t.map (Function.invFun g))).map g, fun t => ?_⟩
  have : (t.map g).map (Function.invFun g) = t := by
    have h1 : (t.points.map (BoundaryPoint.map g)).map (BoundaryPoint.map (Function.invFun g)) = t.points := by
      simp [List.map_map, Function.comp_def, hb]
    have h2 : (t.gradients.map (List.map g)).map (List.map (Function.invFun g)) = t.gradients := by
      rw [List.map_map]
      exact (List.map_congr_left fun l _ => hl l).trans (List.map_id _)
    simp only [Optimise.map, hi, hl, h1, h2]
  dsimp only
  rw [this]

/-- A call to which `C102_solve` applies: one point, one constraint, a solver that answers with the lower corner of the search box.  With the value
"undefined" in the number system nothing undefined appears in the result. -/
example : ∃ (s s' : Optimise ℝ) (fuel : Nat) (obj : ℝ) (nlopt' : Optimise (Option ℝ) → NLoptRun (Option ℝ)), Reached s ∧ s.nConstraints = 1 ∧
    solve (cornerSolver false) fuel s = .ok (s', obj) ∧ solve nlopt' fuel (s.map some) = .ok (s'.map some, some obj) := by
  have V := demo_valid
  obtain ⟨s, fuel, ⟨s', obj⟩, s0, s1, s2, s3, sc, h1, hs, F, -, h2, S⟩ := demo V false fun s s0 s1 hs R => by
    refine .inr (R.all_stay fun m hm => R.stays hm (.inr ?_))
    subst hs
    have : m = 0 := by simp only [made, List.length_singleton] at hm; omega
    subst this
    exact ⟨-1, rfl, by norm_num⟩
  have hn : s.nConstraints = 1 := by rw [hs]; rfl
  obtain ⟨nlopt', hn'⟩ := C102_solver C102_checked (cornerSolver false)
  refine ⟨s, s', fuel, obj, nlopt', .made h1, hn, h2, C102_solve C102_checked hn' (.made h1) F.responds h2 ?_⟩
  obtain ⟨t, t0, t1, -, v1, -⟩ := S.closed.value
  rw [S.closed.step, corner_step S (v1 0 (by omega) (.inr rfl))]
  simp only [Bool.false_eq_true, if_false]
  have hpts : s.points = [dot [1, 2] 1 false (-(1 / 2))] := by rw [hs]; rfl
  have := (peak_limits S.prep.lim (k := 0) (by omega) (F.responds 0 (by omega)) (M := 1) le_rfl
    (by rw [hpts]; intro p hp _; rw [List.mem_singleton] at hp; rw [hp]; simp [dot])
    ⟨_, by rw [hpts]; exact List.mem_singleton.2 rfl, rfl, by simp [dot]⟩).1
  rw [this, hs]
  simp only [made]
  rw [abs_ne_zero]
  have : t ≠ 0 := t0.ne'
  positivity

/-- The condition on the time step is needed: velocities are displacements divided by it. -/
example : FP.div (some 0) (some 0 : Option ℝ) = none := by
  show (if (0 : ℝ) = 0 then none else some (0 / 0)) = (none : Option ℝ)
  rw [if_pos rfl]

end Optimise

end Slsm
