import Verif.Spec.Sensitivity
import Verif.Props.Normal

/-! # C54, C55: finite-difference sensitivities and the Ito correction -/

namespace Slsm.Sensitivity

open FP LevelSet

section
variable {D : Type} [FP D]

/-! ### C54 -/

/-- **C54** (for every number type, in particular for doubles): the callback is called for the point displaced by `delta` along and against
its normal with everything else unchanged; if both calls return, the point ends up exactly as it was and the result is the central
difference divided by the length of the point; if a call fails, so does `computeSensitivity`. -/
theorem C54_restores (delta : D) (p : BoundaryPoint D) (f : BoundaryPoint D → Res D) :
    let plus := { p with coord := ⟨p.coord.x +. delta *. p.normal.x, p.coord.y +. delta *. p.normal.y⟩ }
    let minus := { p with coord := ⟨p.coord.x -. delta *. p.normal.x, p.coord.y -. delta *. p.normal.y⟩ }
    (∀ f1 f2, f plus = .ok f1 → f minus = .ok f2 →
      computeSensitivity delta p f = .ok ((f1 -. f2) /. (nat 2 *. delta) /. p.length, p)) ∧
    (∀ r, computeSensitivity delta p f = .ok r → r.2 = p ∧ ∃ f1 f2, f plus = .ok f1 ∧ f minus = .ok f2) := by
  intro plus minus
  have e : computeSensitivity delta p f = (f plus >>= fun f1 => f minus >>= fun f2 =>
      .ok ((f1 -. f2) /. (nat 2 *. delta) /. p.length, p)) := rfl
  rw [e]
  constructor
  · intro f1 f2 h1 h2
    rw [h1]
    simp only [bind, Except.bind]
    rw [h2]
  · intro r hr
    cases h1 : f plus with
    | error x => rw [h1] at hr; cases hr
    | ok f1 =>
      rw [h1] at hr
      simp only [bind, Except.bind] at hr
      cases h2 : f minus with
      | error x => rw [h2] at hr; cases hr
      | ok f2 =>
        rw [h2] at hr
        cases hr
        exact ⟨rfl, f1, f2, rfl, rfl⟩

end

theorem displaced_plus (delta : ℝ) (p : BoundaryPoint ℝ) :
    ({ p with coord := ⟨p.coord.x +. delta *. p.normal.x, p.coord.y +. delta *. p.normal.y⟩ } : BoundaryPoint ℝ) = displaced p delta := rfl

theorem displaced_minus (delta : ℝ) (p : BoundaryPoint ℝ) :
    ({ p with coord := ⟨p.coord.x -. delta *. p.normal.x, p.coord.y -. delta *. p.normal.y⟩ } : BoundaryPoint ℝ) = displaced p (-delta) := by
  unfold displaced
  simp only [FP.sub_real, FP.mul_real, neg_mul, sub_eq_add_neg]

/-- **C54** (accuracy): if along the normal the callback differs from a quadratic `a + b t + c t²` by at most `K |t|³`, the result differs
from the derivative per unit length, `b / length`, by at most `K delta² / length`; with `K = 0` it is exact. -/
theorem C54_accuracy {delta : ℝ} (hd : 0 < delta) {p : BoundaryPoint ℝ} (hl : 0 < p.length) {f : BoundaryPoint ℝ → Res ℝ} {g : ℝ → ℝ}
    (hf : ∀ t, |t| ≤ delta → f (displaced p t) = .ok (g t)) {a b c K : ℝ} (hg : ∀ t, |t| ≤ delta → |g t - (a + b * t + c * t ^ 2)| ≤ K * |t| ^ 3) :
    ∃ s, computeSensitivity delta p f = .ok (s, p) ∧ |s - b / p.length| ≤ K * delta ^ 2 / p.length := by
  have h1 := (C54_restores delta p f).1 (g delta) (g (-delta)) (by
    have := hf delta (by rw [abs_of_pos hd])
    exact this) (by
    have := hf (-delta) (by rw [abs_neg, abs_of_pos hd])
    rw [← this]
    exact congrArg f (displaced_minus delta p))
  refine ⟨_, h1, ?_⟩
  have g1 := hg delta (by rw [abs_of_pos hd])
  have g2 := hg (-delta) (by rw [abs_neg, abs_of_pos hd])
  rw [abs_neg, abs_of_pos hd] at g2
  rw [abs_of_pos hd] at g1
  have e : (g delta -. g (-delta)) /. (nat 2 *. delta) /. p.length - b / p.length =
      ((g delta - (a + b * delta + c * delta ^ 2)) - (g (-delta) - (a + b * -delta + c * (-delta) ^ 2))) / (2 * delta * p.length) := by
    simp only [FP.sub_real, FP.div_real, FP.mul_real, FP.nat_real, Nat.cast_ofNat]
    field_simp
    ring
  rw [e, abs_div, abs_of_pos (by positivity : 0 < 2 * delta * p.length), div_le_div_iff₀ (by positivity) hl]
  have h3 := abs_sub (g delta - (a + b * delta + c * delta ^ 2)) (g (-delta) - (a + b * -delta + c * (-delta) ^ 2))
  have h4 : K * delta ^ 2 * (2 * delta * p.length) = 2 * (K * delta ^ 3) * p.length := by ring
  rw [h4]
  exact mul_le_mul_of_nonneg_right (by linarith) hl.le

/-- **C54** (exactness): for a callback that is quadratic along the normal the result is the derivative per unit length. -/
theorem C54_quadratic {delta : ℝ} (hd : 0 < delta) {p : BoundaryPoint ℝ} (hl : 0 < p.length) {f : BoundaryPoint ℝ → Res ℝ} {a b c : ℝ}
    (hf : ∀ t, |t| ≤ delta → f (displaced p t) = .ok (a + b * t + c * t ^ 2)) :
    computeSensitivity delta p f = .ok (b / p.length, p) := by
  obtain ⟨s, h1, h2⟩ := C54_accuracy hd hl hf (a := a) (b := b) (c := c) (K := 0) (by intro t _; simp)
  rw [zero_mul, zero_div, abs_nonpos_iff, sub_eq_zero] at h2
  rw [h1, h2]

/-- The hypotheses are met: the square of the distance from the origin, at the point `(1, 0)` with normal `(1, 0)` and length 1/2, has
derivative 2 along the normal. -/
example : ∃ p : BoundaryPoint ℝ, computeSensitivity (1 / 10000) p (fun q => .ok (q.coord.x ^ 2 + q.coord.y ^ 2)) = .ok (2 / (1 / 2), p) := by
  refine ⟨{ Boundary.emptyPoint with coord := ⟨1, 0⟩, normal := ⟨1, 0⟩, length := 1 / 2 },
    C54_quadratic (a := 1) (c := 1) (by norm_num) (by norm_num) fun t _ => ?_⟩
  exact congrArg Except.ok (by simp only [displaced]; ring)

/-! ### C55 -/

section
variable {D : Type} [FP D] {delta T : D} {b b' : Boundary D}

/-- **C55** (for every number type): at zero temperature nothing changes. -/
theorem C55_zero (hT : T =. nat 0) (L : LevelSet D) : itoCorrection delta b T = .ok b ∧ itoCorrectionWith delta b L T = .ok b := by
  unfold itoCorrectionWith itoCorrection
  rw [if_pos hT, if_pos hT]
  exact ⟨rfl, rfl⟩

theorem itoPoint_spec {f : BoundaryPoint D → Res D} {p p' : BoundaryPoint D} (e : itoPoint delta T f p = .ok p') :
    ∃ f1 f2 s0, f { p with coord := ⟨p.coord.x +. delta *. p.normal.x, p.coord.y +. delta *. p.normal.y⟩ } = .ok f1 ∧
      f { p with coord := ⟨p.coord.x -. delta *. p.normal.x, p.coord.y -. delta *. p.normal.y⟩ } = .ok f2 ∧
      p.sensitivities[0]? = some s0 ∧
      p' = { p with sensitivities := p.sensitivities.set 0 (s0 -. (T *. ((f1 -. f2) /. (nat 2 *. delta) /. p.length)) /. (nat 2 *. p.length)) } := by
  unfold itoPoint at e
  cases h1 : computeSensitivity delta p f with
  | error x => rw [h1] at e; cases e
  | ok r =>
    obtain ⟨hp, f1, f2, e1, e2⟩ := (C54_restores delta p f).2 r h1
    have h2 := (C54_restores delta p f).1 f1 f2 e1 e2
    rw [h2] at e
    simp only [bind, Except.bind] at e
    cases h3 : rd p.sensitivities 0 with
    | error x => rw [h3] at e; cases e
    | ok s0 =>
      rw [h3] at e
      dsimp only at e
      have h4 := rd_eq_ok.1 h3
      rw [wr_eq _ (List.getElem?_eq_some_iff.1 h4).1] at e
      cases e
      exact ⟨f1, f2, s0, e1, e2, h4, rfl⟩

/-- **C55** (for every number type): whenever the correction returns, it has changed nothing but the first (objective) sensitivity of each
point, reduced by `T κ / (2 length)`, where `κ` is the central difference of the perimeter along the normal, per unit length, computed with
all other points (and all sensitivities) as they were before the call. -/
theorem C55_local (hT : (T =. nat 0) = false) (e : itoCorrection delta b T = .ok b') :
    b' = { b with points := b'.points } ∧ b'.points.length = b.points.length ∧
    ∀ (k : Nat) (p : BoundaryPoint D), b.points[k]? = some p → ∃ f1 f2 s0,
      b.computePerimeter { p with coord := ⟨p.coord.x +. delta *. p.normal.x, p.coord.y +. delta *. p.normal.y⟩ } = .ok f1 ∧
      b.computePerimeter { p with coord := ⟨p.coord.x -. delta *. p.normal.x, p.coord.y -. delta *. p.normal.y⟩ } = .ok f2 ∧
      p.sensitivities[0]? = some s0 ∧
      b'.points[k]? = some { p with sensitivities := p.sensitivities.set 0 (s0 -. (T *. ((f1 -. f2) /. (nat 2 *. delta) /. p.length)) /. (nat 2 *. p.length)) } := by
  unfold itoCorrection at e
  rw [if_neg (by simp [hT])] at e
  have key := wp_forN (E := fun _ => True) (n := b.points.length) (s := b.points)
    (f := fun i l => modAt l i (itoPoint delta T b.computePerimeter))
    (fun i v => v.length = b.points.length ∧ ∀ (k : Nat), if k < i then
      ∀ p, b.points[k]? = some p → ∃ p', itoPoint delta T b.computePerimeter p = .ok p' ∧ v[k]? = some p' else v[k]? = b.points[k]?)
    ⟨rfl, fun k => by rw [if_neg (Nat.not_lt_zero k)]⟩ (fun i hi v ⟨hl, hv⟩ => ?_)
  · cases h1 : forN b.points.length b.points (fun i l => modAt l i (itoPoint delta T b.computePerimeter)) with
    | error x => rw [h1] at e; cases e
    | ok v =>
      rw [h1] at e key
      cases e
      refine ⟨rfl, key.1, fun k p hk => ?_⟩
      have h2 := key.2 k
      rw [if_pos (List.getElem?_eq_some_iff.1 hk).1] at h2
      obtain ⟨p', e1, e2⟩ := h2 p hk
      obtain ⟨f1, f2, s0, a1, a2, a3, a4⟩ := itoPoint_spec e1
      exact ⟨f1, f2, s0, a1, a2, a3, by rw [← a4]; exact e2⟩
  · refine wp_modAt (hl.symm ▸ hi) ?_
    have h0 := hv i
    rw [if_neg (Nat.lt_irrefl i), List.getElem?_eq_getElem (hl.symm ▸ hi)] at h0
    generalize v[i]'(hl.symm ▸ hi) = p at *
    cases h1 : itoPoint delta T b.computePerimeter p with
    | error x => exact trivial
    | ok p' =>
      refine ⟨by rw [List.length_set, hl], fun k => ?_⟩
      by_cases hk : k = i
      · subst hk
        rw [if_pos (Nat.lt_succ_self k)]
        intro q hq
        rw [← h0] at hq
        cases hq
        exact ⟨p', h1, by rw [List.getElem?_set_self (hl.symm ▸ hi)]⟩
      · rw [List.getElem?_set_ne (Ne.symm hk)]
        have h2 := hv k
        by_cases hki : k < i
        · rw [if_pos hki] at h2
          rwa [if_pos (by omega)]
        · rw [if_neg hki] at h2
          rwa [if_neg (by omega)]

end

section
variable {delta T : ℝ} {b : Boundary ℝ}

theorem perimeter_real (H : Linked b) {p : BoundaryPoint ℝ} (hp : p ∈ b.points) (c : Coord ℝ) :
    b.computePerimeter { p with coord := c } = .ok (perimeterAt b (p.neighbours.take p.nNeighbours) c) := by
  have hn := H.size p hp
  unfold Boundary.computePerimeter
  refine forN_eq (fun i => perimeterAt b (p.neighbours.take i) c) (by simp [perimeterAt]) fun i hi => ?_
  dsimp only at hi
  have hi' : i < p.neighbours.length := by omega
  have hq : p.neighbours[i] < b.points.length := H.inside p hp _ (List.mem_iff_getElem?.2 ⟨i, by
    rw [List.getElem?_take, if_pos hi, List.getElem?_eq_getElem hi']⟩)
  dsimp only
  rw [rd_eq hi']
  simp only [bind, Except.bind]
  rw [rd_eq hq]
  unfold perimeterAt
  rw [List.take_succ, List.getElem?_eq_getElem hi', List.map_append, List.sum_append]
  simp only [Option.toList, List.map_cons, List.map_nil, List.sum_cons, List.sum_nil, add_zero]
  rw [List.getElem?_eq_getElem hq]
  rfl

/-- **C55** (formula and safety): on a boundary whose neighbour lists are sound the correction returns, and reduces the objective
sensitivity of each point by `T κ / (2 length)`; nothing else changes. -/
theorem C55_formula (H : Linked b) (hT : T ≠ 0) : ∃ b', itoCorrection delta b T = .ok b' ∧ b' = { b with points := b'.points } ∧
    b'.points.length = b.points.length ∧ ∀ (k : Nat) (p : BoundaryPoint ℝ), b.points[k]? = some p →
      ∃ s0, p.sensitivities[0]? = some s0 ∧
        b'.points[k]? = some { p with sensitivities := p.sensitivities.set 0 (s0 - T * curvature delta b p / (2 * p.length)) } := by
  have hT' : (T =. (nat 0 : ℝ)) = false := by simp [hT]
  have safe : ∀ p ∈ b.points, ∃ p', itoPoint delta T b.computePerimeter p = .ok p' := by
    intro p hp
    have h1 := (C54_restores delta p b.computePerimeter).1 _ _ (perimeter_real H hp _) (perimeter_real H hp _)
    unfold itoPoint
    rw [h1]
    simp only [bind, Except.bind]
    have h2 : 0 < p.sensitivities.length := List.length_pos_of_ne_nil (H.sens p hp)
    rw [rd_eq h2]
    dsimp only
    rw [wr_eq _ h2]
    exact ⟨_, rfl⟩
  have key := wp_forN (E := noErr) (n := b.points.length) (s := b.points)
    (f := fun i l => modAt l i (itoPoint delta T b.computePerimeter))
    (fun i v => v.length = b.points.length ∧ ∀ k, i ≤ k → v[k]? = b.points[k]?)
    ⟨rfl, fun k _ => rfl⟩ (fun i hi v ⟨hl, hv⟩ => ?_)
  · obtain ⟨v, hv, -⟩ := wp_noErr_iff.1 key
    have e : itoCorrection delta b T = .ok { b with points := v } := by
      unfold itoCorrection
      rw [if_neg (by simp [hT]), hv]
      rfl
    obtain ⟨h1, h2, h3⟩ := C55_local hT' e
    refine ⟨_, e, h1, h2, fun k p hk => ?_⟩
    obtain ⟨f1, f2, s0, a1, a2, a3, a4⟩ := h3 k p hk
    have hp := List.mem_of_getElem? hk
    rw [perimeter_real H hp] at a1 a2
    cases a1
    cases a2
    refine ⟨s0, a3, a4.trans ?_⟩
    unfold curvature displaced
    simp only [FP.sub_real, FP.add_real, FP.mul_real, FP.div_real, FP.nat_real, Nat.cast_ofNat, neg_mul, ← sub_eq_add_neg]
  · have hi' : i < v.length := hl.symm ▸ hi
    refine wp_modAt hi' ?_
    have h0 : v[i] = b.points[i] := by
      have := hv i le_rfl
      rwa [List.getElem?_eq_getElem hi', List.getElem?_eq_getElem hi, Option.some_inj] at this
    rw [h0]
    obtain ⟨p', hp'⟩ := safe b.points[i] (List.getElem_mem hi)
    rw [hp']
    refine ⟨by rw [List.length_set, hl], fun k hk => ?_⟩
    rw [List.getElem?_set_ne (by omega), hv k (by omega)]

end

section
variable {w h : Nat} {L L' : LevelSet ℝ} {b : Boundary ℝ} {isTarget : Bool} {delta T : ℝ}

theorem linked_of_discretise (R : Boundary.Ready w h L isTarget) (e : Boundary.discretise L isTarget = .ok (b, L')) : Linked b := by
  have M := Boundary.made R e
  refine ⟨fun p hp => ?_, fun p hp j hj => ?_, fun p hp => ?_⟩
  all_goals
    obtain ⟨k, hk⟩ := List.mem_iff_getElem?.1 hp
    obtain ⟨q, _, _, p0, h0, hl⟩ := M.point hk
    have hn : p.nNeighbours = (Boundary.upTo (Boundary.nbrsAt b.segments k) b.segments.length).length := by rw [hl.eq]
  · rw [hn, hl.nlen]; exact hl.nle
  · have ht := hl.ntake
    rw [← hn] at ht
    rw [ht] at hj
    obtain ⟨q', hq'⟩ := Boundary.mem_nbrs M hj
    exact (List.getElem?_eq_some_iff.1 hq').1
  · have h1 : p.sensitivities = p0.sensitivities := by rw [hl.eq]
    rw [h1]
    unfold Boundary.initialisePoint at h0
    cases h2 : L.mesh.getClosestNode (q.coord (onGrid w (Boundary.values L isTarget))) with
    | error x => rw [h2] at h0; cases h0
    | ok node =>
      rw [h2] at h0
      simp only [bind, Except.bind] at h0
      cases h3 : rd L.mesh.nodes node with
      | error x => rw [h3] at h0; cases h0
      | ok nd =>
        rw [h3] at h0
        cases h0
        simp [Boundary.emptyPoint]

/-- **C55** (discretised boundaries): for a boundary just discretised from well behaved values, the correction with fresh normals returns;
it computes the normals and then changes only the objective sensitivities, by `-T κ / (2 length)`. -/
theorem C55_discretised (hr : Reachable w h L) (Tm : Boundary.Tame w h L isTarget) (e : Boundary.discretise L isTarget = .ok (b, L')) (hT : T ≠ 0) :
    ∃ b1 b', Boundary.computeNormalVectors b L' = .ok b1 ∧ itoCorrectionWith delta b L' T = .ok b' ∧ b' = { b with points := b'.points } ∧
      b'.points.length = b.points.length ∧ ∀ (k : Nat) (p : BoundaryPoint ℝ), b.points[k]? = some p →
        ∃ n s0, b1.points[k]? = some { p with normal := n } ∧ p.sensitivities[0]? = some s0 ∧
          b'.points[k]? = some { p with normal := n, sensitivities := p.sensitivities.set 0 (s0 - T * curvature delta b { p with normal := n } / (2 * p.length)) } := by
  obtain ⟨b1, h1, h2, h3, h4⟩ := C44_normals_partial hr Tm e
  have H := linked_of_discretise Tm.toReady e
  have back : ∀ (k : Nat) (p1 : BoundaryPoint ℝ), b1.points[k]? = some p1 → ∃ p n, b.points[k]? = some p ∧ p1 = { p with normal := n } := by
    intro k p1 hk
    have hlt : k < b.points.length := h3 ▸ (List.getElem?_eq_some_iff.1 hk).1
    obtain ⟨n, hn, -⟩ := h4 k _ (List.getElem?_eq_getElem hlt)
    rw [hk] at hn
    exact ⟨_, n, List.getElem?_eq_getElem hlt, Option.some.inj hn⟩
  have H1 : Linked b1 := by
    refine ⟨fun p hp => ?_, fun p hp j hj => ?_, fun p hp => ?_⟩
    all_goals
      obtain ⟨k, hk⟩ := List.mem_iff_getElem?.1 hp
      obtain ⟨p0, n, hp0, rfl⟩ := back k p hk
      have hm := List.mem_of_getElem? hp0
    · exact H.size p0 hm
    · rw [h3]; exact H.inside p0 hm j hj
    · exact H.sens p0 hm
  obtain ⟨b', g1, g2, g3, g4⟩ := C55_formula (delta := delta) H1 hT
  have per : ∀ nbrs c, perimeterAt b1 nbrs c = perimeterAt b nbrs c := by
    intro nbrs c
    unfold perimeterAt
    congr 1
    refine List.map_congr_left fun j _ => ?_
    by_cases hj : j < b.points.length
    · obtain ⟨n, hn, -⟩ := h4 j _ (List.getElem?_eq_getElem hj)
      rw [hn, List.getElem?_eq_getElem hj]
      rfl
    · rw [List.getElem?_eq_none (by omega), List.getElem?_eq_none (by omega)]
  refine ⟨b1, b', h1, ?_, ?_, g3.trans h3, fun k p hk => ?_⟩
  · unfold itoCorrectionWith
    rw [if_neg (by simp [hT]), h1]
    exact g1
  · rw [g2, h2]
  · obtain ⟨n, hn, -⟩ := h4 k p hk
    obtain ⟨s0, q1, q2⟩ := g4 k _ hn
    refine ⟨n, s0, hn, q1, ?_⟩
    rw [q2]
    unfold curvature
    simp only [per]

/-- **C55** (straight boundaries): where the neighbours lie on a straight line through the point perpendicular to its normal the curvature,
and hence the correction, is zero. -/
theorem C55_flat {p : BoundaryPoint ℝ} (hp : ∀ j ∈ p.neighbours.take p.nNeighbours, ∀ q, b.points[j]? = some q →
      (q.coord.x - p.coord.x) * p.normal.x + (q.coord.y - p.coord.y) * p.normal.y = 0) : curvature delta b p = 0 := by
  have key : perimeterAt b (p.neighbours.take p.nNeighbours) (displaced p delta).coord =
      perimeterAt b (p.neighbours.take p.nNeighbours) (displaced p (-delta)).coord := by
    unfold perimeterAt
    congr 1
    refine List.map_congr_left fun j hj => ?_
    cases hq : b.points[j]? with
    | none => rfl
    | some q =>
      have := hp j hj q hq
      simp only [Option.elim]
      unfold Boundary.distance displaced
      congr 1
      dsimp only
      linear_combination (-4 * delta) * this
  unfold curvature
  rw [key, sub_self, zero_div, zero_div]

/-- **C55** (sign): on a corner that is bent towards the normal (both neighbours at `(±a, c)` relative to the point, with normal `(0, 1)`)
the curvature has the sign of `-c`. -/
theorem C55_bend {p q r : BoundaryPoint ℝ} {a c : ℝ} (hd : 0 < delta) (hl : 0 < p.length) (hn : p.normal = ⟨0, 1⟩)
    (hb : p.neighbours.take p.nNeighbours = [0, 1]) (hq : b.points[0]? = some q) (hr : b.points[1]? = some r)
    (hqc : q.coord = ⟨p.coord.x - a, p.coord.y + c⟩) (hrc : r.coord = ⟨p.coord.x + a, p.coord.y + c⟩) (hc : 0 < c) :
    curvature delta b p < 0 := by
  have e : ∀ t, perimeterAt b (p.neighbours.take p.nNeighbours) (displaced p t).coord = 2 * Real.sqrt (a ^ 2 + (t - c) ^ 2) := by
    intro t
    unfold perimeterAt
    rw [hb]
    simp only [List.map_cons, List.map_nil, List.sum_cons, List.sum_nil, hq, hr, Option.elim, add_zero]
    unfold Boundary.distance displaced
    rw [hqc, hrc, hn]
    dsimp only
    rw [two_mul]
    congr 1 <;> congr 1 <;> ring
  unfold curvature
  rw [e, e]
  refine div_neg_of_neg_of_pos (div_neg_of_neg_of_pos ?_ (by linarith)) hl
  have : Real.sqrt (a ^ 2 + (delta - c) ^ 2) < Real.sqrt (a ^ 2 + (-delta - c) ^ 2) :=
    Real.sqrt_lt_sqrt (by positivity) (by nlinarith)
  linarith

/-- The hypotheses of `C55_formula` and `C55_bend` are met by a bent boundary of three points. -/
example : ∃ b : Boundary ℝ, Linked b ∧ ∃ p ∈ b.points, curvature (1 / 10000) b p < 0 := by
  let q : BoundaryPoint ℝ := { Boundary.emptyPoint with coord := ⟨-1, 1⟩ }
  let r : BoundaryPoint ℝ := { Boundary.emptyPoint with coord := ⟨1, 1⟩ }
  let p : BoundaryPoint ℝ :=
    { Boundary.emptyPoint with coord := ⟨0, 0⟩, normal := ⟨0, 1⟩, length := 1, nNeighbours := 2, neighbours := [0, 1] }
  refine ⟨{ Boundary.new with points := [q, r, p] }, ⟨?_, ?_, ?_⟩, p, by simp, C55_bend (q := q) (r := r) (a := 1) (c := 1)
    (by norm_num) (by norm_num [p]) rfl rfl rfl rfl ?_ ?_ (by norm_num)⟩
  · intro x hx
    simp only [List.mem_cons, List.not_mem_nil, or_false] at hx
    rcases hx with rfl | rfl | rfl <;> simp [q, r, p, Boundary.emptyPoint]
  · intro x hx j hj
    simp only [List.mem_cons, List.not_mem_nil, or_false] at hx
    rcases hx with rfl | rfl | rfl <;> simp [q, r, p, Boundary.emptyPoint] at hj ⊢
    omega
  · intro x hx
    simp only [List.mem_cons, List.not_mem_nil, or_false] at hx
    rcases hx with rfl | rfl | rfl <;> simp [q, r, p, Boundary.emptyPoint]
  · simp [q, p]
  · simp [r, p]

end

end Slsm.Sensitivity
