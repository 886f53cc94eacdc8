import Verif.Proof.Scaling
import Verif.Props.Motion

/-! # Properties C83 and C84: velocities of the nodes as functions of the speeds of the boundary points -/

namespace Slsm

open LevelSet

section
variable {w h : Nat} {L : LevelSet ℝ} {points : List (BoundaryPoint ℝ)}

/-- **C83** (linear and monotone): whether `computeVelocities` succeeds depends on the positions of the boundary points only.  If it does, there is a
matrix without negative entries, given by the level set and those positions, that turns the speeds into the velocities of the nodes; nothing else about
the boundary points (lengths, limits, sensitivities, segments) matters and nothing else of the level set changes. -/
theorem C83_matrix (hr : Reachable w h L) (hp : ∀ p ∈ points, InDomain w h p.coord) :
    (∀ points' : List (BoundaryPoint ℝ), points'.map (·.coord) = points.map (·.coord) → computeVelocities points' L = .error .exit) ∨
    ∃ A : Nat → Nat → ℝ, (∀ i j, 0 ≤ A i j) ∧ ∀ points' : List (BoundaryPoint ℝ), points'.map (·.coord) = points.map (·.coord) →
      computeVelocities points' L = .ok { L with velocity := (List.range L.mesh.nNodes).map fun i => (points'.mapIdx fun j p => A i j * p.velocity).sum } := by
  rcases computeVelocities_matrix points hr.core.velocity with ⟨e, h⟩ | ⟨sd, A, hA, h⟩
  · left
    intro points' hp'
    rcases C32_safe hr hp with ⟨L', h'⟩ | h'
    · rw [h points rfl] at h'; cases h'
    · rw [h points rfl] at h'
      rw [h points' hp', ← h']
  · right
    refine ⟨A, hA, fun points' hp' => ?_⟩
    have hsd : sd = L.signedDistance := congrArg LevelSet.signedDistance (C32_frame hr hp (h points rfl)).1
    rw [h points' hp', hsd]

/-- The two cases of `C83_matrix` exclude each other. -/
example (A : Nat → Nat → ℝ) (h1 : computeVelocities points L = .error .exit)
    (h2 : computeVelocities points L = .ok { L with velocity := (List.range L.mesh.nNodes).map fun i => (points.mapIdx fun j p => A i j * p.velocity).sum }) :
    False := by
  rw [h1] at h2
  cases h2

/-- Case in which there is a matrix, and it is not zero: one boundary point in the 1 × 1 domain. -/
example : ∃ (L : LevelSet ℝ) (A : Nat → Nat → ℝ), Reachable 1 1 L ∧ (∀ i j, 0 ≤ A i j) ∧ A (nodeNo 1 0 0) 0 = 16 ∧
    ∀ v : ℝ, computeVelocities [{ onePoint with velocity := v }] L = .ok { L with velocity := (List.range L.mesh.nNodes).map fun i => A i 0 * v } := by
  obtain ⟨L, L', hr, e, hv⟩ := C32_unnormalised.2
  have hp : ∀ p ∈ [onePoint], InDomain 1 1 p.coord := by
    intro p hp
    rw [List.mem_singleton] at hp
    rw [hp]
    unfold InDomain onePoint
    norm_num
  rcases C83_matrix hr hp with h | ⟨A, hA, h⟩
  · rw [h [onePoint] rfl] at e; cases e
  · have h' : ∀ v : ℝ, computeVelocities [{ onePoint with velocity := v }] L = .ok { L with velocity := (List.range L.mesh.nNodes).map fun i => A i 0 * v } := by
      intro v
      rw [h [{ onePoint with velocity := v }] rfl]
      simp
    refine ⟨L, A, hr, hA, ?_, h'⟩
    have h1 : computeVelocities [onePoint] L = _ := h' 1
    rw [h1] at e
    have h2 : L' = { L with velocity := (List.range L.mesh.nNodes).map fun i => A i 0 * 1 } := (Except.ok.inj e).symm
    rw [h2] at hv
    have hn : nodeNo 1 0 0 < L.mesh.nNodes := by rw [hr.core.grid.nNodes]; exact nodeNo_lt (by omega) (by omega)
    simpa [vals, hn] using hv

/-- **C83** (superposition): the velocities for a sum of speeds are the sums of the velocities. -/
theorem C83_superposition (hr : Reachable w h L) (hp : ∀ p ∈ points, InDomain w h p.coord) {p1 p2 p3 : List (BoundaryPoint ℝ)} {L1 L2 : LevelSet ℝ} {a b : ℝ}
    (h1 : p1.map (·.coord) = points.map (·.coord)) (h2 : p2.map (·.coord) = points.map (·.coord)) (h3 : p3.map (·.coord) = points.map (·.coord))
    (hs : ∀ j, j < points.length → ∀ x y z, p1[j]? = some x → p2[j]? = some y → p3[j]? = some z → z.velocity = a * x.velocity + b * y.velocity)
    (e1 : computeVelocities p1 L = .ok L1) (e2 : computeVelocities p2 L = .ok L2) :
    ∃ L3, computeVelocities p3 L = .ok L3 ∧ ∀ i, i < L.mesh.nNodes → vals L3.velocity i = a * vals L1.velocity i + b * vals L2.velocity i := by
  rcases C83_matrix hr hp with h | ⟨A, -, h⟩
  · rw [h p1 h1] at e1; cases e1
  · refine ⟨_, h p3 h3, fun i hi => ?_⟩
    rw [h p1 h1] at e1
    rw [h p2 h2] at e2
    cases e1
    cases e2
    have l1 : p1.length = points.length := by simpa using congrArg List.length h1
    have l2 : p2.length = points.length := by simpa using congrArg List.length h2
    have l3 : p3.length = points.length := by simpa using congrArg List.length h3
    have hg : ∀ q : List (BoundaryPoint ℝ), vals ((List.range L.mesh.nNodes).map fun i => (q.mapIdx fun j p => A i j * p.velocity).sum) i =
        (q.mapIdx fun j p => A i j * p.velocity).sum := by
      intro q
      simp [vals, hi]
    rw [hg, hg, hg, sum_mapIdx, sum_mapIdx, sum_mapIdx, l1, l2, l3, Finset.mul_sum, Finset.mul_sum, ← Finset.sum_add_distrib]
    refine Finset.sum_congr rfl fun j hj => ?_
    have hj := Finset.mem_range.1 hj
    have := hs j hj _ _ _ (List.getElem?_eq_getElem (by omega)) (List.getElem?_eq_getElem (by omega)) (List.getElem?_eq_getElem (by omega))
    rw [List.getElem?_eq_getElem (by omega), List.getElem?_eq_getElem (by omega), List.getElem?_eq_getElem (by omega)]
    simp only [Option.map_some, Option.getD_some]
    rw [this]
    ring

/-- **C83** (order): faster boundary points never make a node slower. -/
theorem C83_monotone (hr : Reachable w h L) (hp : ∀ p ∈ points, InDomain w h p.coord) {p1 p2 : List (BoundaryPoint ℝ)} {L1 L2 : LevelSet ℝ}
    (h1 : p1.map (·.coord) = points.map (·.coord)) (h2 : p2.map (·.coord) = points.map (·.coord))
    (hs : ∀ j, j < points.length → ∀ x y, p1[j]? = some x → p2[j]? = some y → x.velocity ≤ y.velocity)
    (e1 : computeVelocities p1 L = .ok L1) (e2 : computeVelocities p2 L = .ok L2) {i : Nat} (hi : i < L.mesh.nNodes) :
    vals L1.velocity i ≤ vals L2.velocity i := by
  rcases C83_matrix hr hp with h | ⟨A, hA, h⟩
  · rw [h p1 h1] at e1; cases e1
  · rw [h p1 h1] at e1
    rw [h p2 h2] at e2
    cases e1
    cases e2
    have l1 : p1.length = points.length := by simpa using congrArg List.length h1
    have l2 : p2.length = points.length := by simpa using congrArg List.length h2
    have hg : ∀ q : List (BoundaryPoint ℝ), vals ((List.range L.mesh.nNodes).map fun i => (q.mapIdx fun j p => A i j * p.velocity).sum) i =
        (q.mapIdx fun j p => A i j * p.velocity).sum := by
      intro q
      simp [vals, hi]
    rw [hg, hg, sum_mapIdx, sum_mapIdx, l1, l2]
    refine Finset.sum_le_sum fun j hj => ?_
    have hj := Finset.mem_range.1 hj
    have := hs j hj _ _ (List.getElem?_eq_getElem (by omega)) (List.getElem?_eq_getElem (by omega))
    rw [List.getElem?_eq_getElem (by omega), List.getElem?_eq_getElem (by omega)]
    simp only [Option.map_some, Option.getD_some]
    exact mul_le_mul_of_nonneg_left this (hA i j)

/-- Case that meets the hypotheses of the two theorems above: one boundary point with the speeds 1, 2 and 5 = 1 + 2 · 2. -/
example : ∃ L L1 L2 : LevelSet ℝ, Reachable 1 1 L ∧ InDomain 1 1 onePoint.coord ∧ computeVelocities [onePoint] L = .ok L1 ∧
    computeVelocities [{ onePoint with velocity := 2 }] L = .ok L2 ∧ onePoint.velocity ≤ 2 ∧ (5 : ℝ) = 1 * onePoint.velocity + 2 * 2 := by
  obtain ⟨L, L', hr, e, hv⟩ := C32_unnormalised.2
  have hd : InDomain 1 1 onePoint.coord := by
    unfold InDomain onePoint
    norm_num
  have hp : ∀ p ∈ [onePoint], InDomain 1 1 p.coord := by
    intro p hp
    rw [List.mem_singleton] at hp
    rw [hp]
    exact hd
  rcases C83_matrix hr hp with h | ⟨A, hA, h⟩
  · rw [h [onePoint] rfl] at e; cases e
  · exact ⟨L, L', _, hr, hd, e, h [{ onePoint with velocity := 2 }] rfl, by norm_num [onePoint], by norm_num [onePoint]⟩

/-! ### C84 -/

/-- **C84**: only the product of speed and time step counts.  If all speeds are multiplied by a positive factor and the time step is divided by it, the
velocities, the gradients and the update give the same result, with all nodal velocities multiplied by the factor; in particular the signed distances, the
narrow band and the answer whether the level set was reinitialised are the same, and so is the error if there is one. -/
theorem C84_scaling (hr : Reachable w h L) {points' : List (BoundaryPoint ℝ)} {c : ℝ} (hc : 0 < c) (dt : ℝ)
    (h1 : points'.map (·.coord) = points.map (·.coord)) (h2 : points'.map (·.velocity) = points.map fun p => c * p.velocity) :
    (do
      let L1 ← computeVelocities points' L
      let L2 ← computeGradients L1
      update (dt / c) L2) =
    (do
      let L1 ← computeVelocities points L
      let L2 ← computeGradients L1
      let (b, L3) ← update dt L2
      pure (b, { L3 with velocity := L3.velocity.map fun v => c * v })) := by
  have hcv : computeVelocities points' L = (computeVelocities points L).map (speedUp c) := by
    rcases computeVelocities_matrix points hr.core.velocity with ⟨e, h⟩ | ⟨sd, A, -, h⟩
    · rw [h points' h1, h points rfl]; rfl
    · rw [h points' h1, h points rfl]
      change Except.ok _ = Except.ok _
      have l1 : points'.length = points.length := by simpa using congrArg List.length h1
      have : ∀ i, (points'.mapIdx fun j p => A i j * p.velocity).sum = c * (points.mapIdx fun j p => A i j * p.velocity).sum := by
        intro i
        rw [sum_mapIdx, sum_mapIdx, l1, Finset.mul_sum]
        refine Finset.sum_congr rfl fun j hj => ?_
        have hj := Finset.mem_range.1 hj
        have hv : (points'[j]'(by omega)).velocity = c * points[j].velocity := by
          have := congrArg (fun l => l[j]?) h2
          simpa [hj, l1] using this
        rw [List.getElem?_eq_getElem (by omega), List.getElem?_eq_getElem hj]
        simp only [Option.map_some, Option.getD_some]
        rw [hv]
        ring
      unfold speedUp
      simp only [this, List.map_map, Function.comp_def]
  rw [hcv, bind_map']
  refine bind_congr fun L1 => ?_
  rw [speedUp_computeGradients hc, bind_map']
  refine bind_congr fun L2 => ?_
  rw [speedUp_update hc]
  cases update dt L2 with
  | error e => rfl
  | ok r => rfl

/-- Case that meets the hypotheses. -/
example : ∃ (L : LevelSet ℝ) (points' : List (BoundaryPoint ℝ)), Reachable 1 1 L ∧ (0 : ℝ) < 2 ∧ points'.map (·.coord) = [onePoint].map (·.coord) ∧
    points'.map (·.velocity) = [onePoint].map (fun p => 2 * p.velocity) ∧ ∃ L1, computeVelocities [onePoint] L = .ok L1 := by
  obtain ⟨L, L', hr, e, hv⟩ := C32_unnormalised.2
  exact ⟨L, [{ onePoint with velocity := 2 }], hr, by norm_num, rfl, by norm_num [onePoint], L', e⟩

end

end Slsm
