import Verif.Proof.RoundMove
import Verif.Proof.RoundMesh
import Verif.Props.LevelSet
import Verif.Props.Round

/-! # Properties C97 and C98: cells, closest nodes and the direction of motion in rounded arithmetic -/

namespace Slsm

open FP Rounding LevelSet

section
variable {R : Rounding} {w h : Nat}

/-- The point lies in the closed domain. -/
def InDomainR (w h : Nat) (p : Coord R.Num) : Prop := 0 ≤ p.x.val ∧ p.x.val ≤ w ∧ 0 ≤ p.y.val ∧ p.y.val ≤ h

/-! ### C98 -/

/-- **C98** (cells): in rounded arithmetic `getElement` returns a cell of the mesh, and the point lies in it, up to the tolerance of the code to the right
and above. -/
theorem C98_getElement {m : Mesh R.Num} (S : MeshSize w h) (hm : Mesh.new w h = .ok m) (hfit : (w + 1) * (h + 1) < 2 ^ 31) {p : Coord R.Num}
    (hp : InDomainR w h p) :
    ∃ ex ey, ex < w ∧ ey < h ∧ m.getElement p = ex + ey * w ∧ m.getElement p < m.elements.length ∧
      (ex : ℝ) ≤ p.x.val ∧ p.x.val < ex + 1 + R.tol ∧ (ey : ℝ) ≤ p.y.val ∧ p.y.val < ey + 1 + R.tol := by
  have G := new_grid S hm
  obtain ⟨ex, ey, a, b, c, d⟩ := getElement_rnd G hfit hp.1 hp.2.1 hp.2.2.1 hp.2.2.2
  exact ⟨ex, ey, a, b, c, by rw [c, G.elements_length]; exact idx_lt a b, d⟩

/-- **C98** (nodes): in rounded arithmetic `getClosestNode` returns a node of the mesh, and no node is strictly closer to the point; rounding plays no
role. -/
theorem C98_getClosestNode {m : Mesh R.Num} (S : MeshSize w h) (hm : Mesh.new w h = .ok m) (hfit : (w + 1) * (h + 1) < 2 ^ 31) {p : Coord R.Num}
    (hp : InDomainR w h p) :
    ∃ n nd, m.getClosestNode p = .ok n ∧ m.nodes[n]? = some nd ∧
      ∀ (n' : Nat) (nd' : Node R.Num), m.nodes[n']? = some nd' →
        (p.x.val - nd.coord.x.val) ^ 2 + (p.y.val - nd.coord.y.val) ^ 2 ≤ (p.x.val - nd'.coord.x.val) ^ 2 + (p.y.val - nd'.coord.y.val) ^ 2 := by
  have G := new_grid S hm
  obtain ⟨nx, ny, a, b, c, d⟩ := getClosestNode_rnd G hfit hp.1 hp.2.1 hp.2.2.1 hp.2.2.2
  obtain ⟨nd, hnd⟩ := G.node_exists a b
  refine ⟨_, nd, c, hnd, ?_⟩
  intro n' nd' hn'
  obtain ⟨x, y, hx, hy, rfl⟩ := G.node_index (G.lt_of_some hn')
  have f : ∀ x, x ≤ w ∨ x ≤ h → x ≤ 2 ^ 53 := by
    intro x hx
    rcases hx with hx | hx <;> nlinarith
  rw [G.coord _ _ _ a b hnd, G.coord _ _ _ hx hy hn']
  dsimp only
  rw [val_nat (f nx (.inl a)), val_nat (f ny (.inr b)), val_nat (f x (.inl hx)), val_nat (f y (.inr hy))]
  exact d x y

/-! ### C97 -/

variable {L : LevelSet R.Num} {points points' : List (BoundaryPoint R.Num)}

theorem fit_rnd (hr : Reachable w h L) : (w + 1) * (h + 1) < 2 ^ 31 := by
  have := hr.core.small
  rw [hr.core.grid.nNodes] at this
  omega

/-- **C97** (safety): in rounded arithmetic, for boundary points in the domain, the computation of velocities returns with nothing but velocities
changed, or exits. -/
theorem C97_safe (hr : Reachable w h L) (hp : ∀ p ∈ points, InDomainR w h p.coord) :
    (∃ L', computeVelocities points L = .ok L' ∧ L' = { L with velocity := L'.velocity } ∧ L'.velocity.length = L.velocity.length) ∨
    computeVelocities points L = .error .exit := by
  have := computeVelocities_spec hr.core (pointsOk_rnd hr.core.grid (fit_rnd hr) hp)
  cases he : computeVelocities points L with
  | ok L' =>
    rw [he] at this
    exact .inl ⟨L', rfl, this.1, by rw [this.2.1, hr.core.velocity]⟩
  | error e => rw [he, wp_error] at this; exact .inr (by rw [this])

/-- The second boundary is the first with speeds that are nowhere smaller. -/
def Faster (points points' : List (BoundaryPoint R.Num)) : Prop :=
  points'.map (·.coord) = points.map (·.coord) ∧
  ∀ (j : Nat) (p p' : BoundaryPoint R.Num), points[j]? = some p → points'[j]? = some p' → p.velocity.val ≤ p'.velocity.val

theorem Faster.forall₂ (hf : Faster points points') :
    List.Forall₂ (fun p p' : BoundaryPoint R.Num => p'.coord = p.coord ∧ p.velocity.val ≤ p'.velocity.val) points points' := by
  obtain ⟨h1, h2⟩ := hf
  have hl : points.length = points'.length := by simpa using (congrArg List.length h1).symm
  refine List.forall₂_iff_get.2 ⟨hl, fun i hi hi' => ⟨?_, ?_⟩⟩
  · have := congrArg (fun l => l[i]?) h1
    simpa [hi, hi'] using this
  · exact h2 i _ _ (List.getElem?_eq_getElem hi) (List.getElem?_eq_getElem hi')

theorem Faster.inDomain (hf : Faster points points') (hp : ∀ p ∈ points, InDomainR w h p.coord) : ∀ p ∈ points', InDomainR w h p.coord := by
  intro p' hp'
  have : p'.coord ∈ points'.map (·.coord) := List.mem_map_of_mem hp'
  rw [hf.1] at this
  obtain ⟨p, hpm, e⟩ := List.mem_map.1 this
  rw [← e]
  exact hp p hpm

theorem vals_get {l : List R.Num} {i : Nat} (hi : i < l.length) : l[i]? = some (vals l i) := by
  unfold vals
  rw [List.getD_eq_getElem?_getD, List.getElem?_eq_getElem hi, Option.getD_some]

theorem vals_none {l : List R.Num} {i : Nat} (hi : ¬ i < l.length) : vals l i = FP.nat 0 := by
  unfold vals
  rw [List.getD_eq_getElem?_getD, List.getElem?_eq_none (by omega), Option.getD_none]

theorem vals_le {l l' : List R.Num} (hl : List.Forall₂ (fun a b : R.Num => a.val ≤ b.val) l l') (i : Nat) : (vals l i).val ≤ (vals l' i).val := by
  by_cases hi : i < l.length
  · have hi' : i < l'.length := by rw [← hl.length_eq]; exact hi
    have := hl.get hi hi'
    have e1 := vals_get hi
    have e2 := vals_get hi'
    rw [List.getElem?_eq_getElem hi, Option.some_inj] at e1
    rw [List.getElem?_eq_getElem hi', Option.some_inj] at e2
    rw [← e1, ← e2]
    exact this
  · rw [vals_none hi, vals_none (by rw [← hl.length_eq]; exact hi)]

/-- **C97** (velocities): whether velocities can be computed does not depend on the speeds, and faster boundary points never make a node slower, not even
by rounding. -/
theorem C97_velocities (hr : Reachable w h L) (hf : Faster points points') :
    (∃ e, computeVelocities points L = .error e ∧ computeVelocities points' L = .error e) ∨
    ∃ L1 L1', computeVelocities points L = .ok L1 ∧ computeVelocities points' L = .ok L1' ∧ L1' = { L1 with velocity := L1'.velocity } ∧
      ∀ i, (vals L1.velocity i).val ≤ (vals L1'.velocity i).val := by
  have := like_computeVelocities averages_le hr.core.velocity hf.forall₂
  cases h1 : computeVelocities points L with
  | error e =>
    cases h2 : computeVelocities points' L with
    | error e' =>
      rw [h1, h2] at this
      exact .inl ⟨e, rfl, by rw [show e = e' from this]⟩
    | ok _ => rw [h1, h2] at this; exact this.elim
  | ok L1 =>
    cases h2 : computeVelocities points' L with
    | error e' => rw [h1, h2] at this; exact this.elim
    | ok L1' =>
      rw [h1, h2] at this
      obtain ⟨v, rfl, hv⟩ := this
      exact .inr ⟨L1, _, rfl, rfl, rfl, vals_le hv⟩

/-- One motion of the boundary, as in every program: velocities, gradients, update. -/
noncomputable def motion (points : List (BoundaryPoint R.Num)) (dt : R.Num) (L : LevelSet R.Num) : Res (Bool × LevelSet R.Num) := do
  let L1 ← computeVelocities points L
  let L2 ← computeGradients L1
  update dt L2

/-- The values from which the new ones are taken: themselves, if there is no reinitialisation, else the fast marching method starts from them. -/
def NewFrom (w h : Nat) (L : LevelSet R.Num) (φ : List R.Num) (b : Bool) (L' : LevelSet R.Num) : Prop :=
  (b = false → L'.signedDistance = φ) ∧
  (b = true → ∃ m F, IsGrid w h m ∧ (∀ i, flags m i = flags L.mesh i) ∧ FMM.marchDistance m φ (FMM.new m false) = .ok F ∧ L'.signedDistance = F.sd)

theorem newFrom_update {L2 L' : LevelSet R.Num} {dt : R.Num} {b : Bool} (hr : Reachable w h L2) (e : update dt L2 = .ok (b, L')) :
    ∃ φ, MotionOf L2 dt φ ∧ NewFrom w h L2 φ b L' := by
  obtain ⟨φ, M, -, h1, h2, -⟩ := C29_update_effect hr e
  exact ⟨φ, M, fun hb => (h1 hb).1, fun hb => (h2 hb).2⟩

theorem bind_inv {β γ : Type} {r : Res β} {f : β → Res γ} {c : γ} (e : (r >>= f) = .ok c) : ∃ b, r = .ok b ∧ f b = .ok c := by
  cases r with
  | ok b => exact ⟨b, rfl, e⟩
  | error _ => cases e

theorem motion_steps {dt : R.Num} {b : Bool} {L' : LevelSet R.Num} (hr : Reachable w h L) (hp : ∀ p ∈ points, InDomainR w h p.coord)
    (e : motion points dt L = .ok (b, L')) : ∃ L1 L2, computeVelocities points L = .ok L1 ∧ computeGradients L1 = .ok L2 ∧ update dt L2 = .ok (b, L') ∧ Reachable w h L2 ∧
      L2 = { L with velocity := L1.velocity, gradient := L2.gradient } ∧ L2.velocity = L1.velocity := by
  unfold motion at e
  obtain ⟨L1, e1, e⟩ := bind_inv e
  obtain ⟨L2, e2, e⟩ := bind_inv e
  refine ⟨L1, L2, e1, e2, e, .call (.call hr (.velocities _ e1)) (.gradients e2), ?_⟩
  have h1 : L1 = { L with velocity := L1.velocity } := by
    rcases C97_safe hr hp with ⟨L1', e1', h1, -⟩ | e1'
    · rw [e1] at e1'; cases e1'; exact h1
    · rw [e1] at e1'; cases e1'
  unfold computeGradients at e2
  obtain ⟨g, -, e2⟩ := bind_inv e2
  cases e2
  refine ⟨?_, rfl⟩
  conv_lhs => rw [h1]

open Classical in
/-- Value of a node after the motion. -/
theorem moved_value {L2 : LevelSet R.Num} {dt : R.Num} {φ : List R.Num} (M : MotionOf L2 dt φ) {i : Nat} (hb : i ∈ L2.band) :
    vals φ i = if decide (L2.OnDomainEdge i) && (FP.nat 0 <. (vals L2.signedDistance i -. dt *. vals L2.gradient i *. vals L2.velocity i)) then FP.nat 0
      else vals L2.signedDistance i -. dt *. vals L2.gradient i *. vals L2.velocity i := by
  by_cases hc : L2.OnDomainEdge i ∧ (FP.nat 0 <. (vals L2.signedDistance i -. dt *. vals L2.gradient i *. vals L2.velocity i)) = true
  · rw [if_pos (by simp [hc.1, hc.2])]
    exact M.capped i hb hc.1 hc.2
  · rw [if_neg (by simpa using hc)]
    exact M.moved i hb hc

theorem likeG_vals {L2 L2' : LevelSet R.Num} (hr : Reachable w h L2) (hr' : Reachable w h L2') (hg : LikeGs L2.velocity L2'.velocity L2.gradient L2'.gradient)
    {i : Nat} (hi : i < (w + 1) * (h + 1)) : LikeG (vals L2.velocity i) (vals L2'.velocity i) (vals L2.gradient i) (vals L2'.gradient i) := by
  have n := hr.core.grid.nNodes
  have n' := hr'.core.grid.nNodes
  exact hg.2 i _ _ _ _ (vals_get (by rw [hr.core.velocity, n]; exact hi)) (vals_get (by rw [hr'.core.velocity, n']; exact hi))
    (vals_get (by rw [hr.core.gradient, n]; exact hi)) (vals_get (by rw [hr'.core.gradient, n']; exact hi))

theorem motion_le {L2 L2' : LevelSet R.Num} {dt : R.Num} {φ φ' : List R.Num} (hr : Reachable w h L2) (hr' : Reachable w h L2') (hV : LikeV L2 L2')
    (ht : 0 ≤ dt.val) (M : MotionOf L2 dt φ) (M' : MotionOf L2' dt φ') (i : Nat) : (vals φ' i).val ≤ (vals φ i).val := by
  obtain ⟨V', G', rfl, hv, hg⟩ := hV
  by_cases hb : i ∈ L2.band
  · have hi := (hr.core.band_free i hb).1
    rw [hr.core.grid.nNodes] at hi
    have hG := likeG_vals hr hr' hg hi
    rw [moved_value M hb, moved_value M' (i := i) hb]
    exact clamp_le _ (step_le ht (le_refl _) (vals_le hv i) hG)
  · rw [M.outside i hb, M'.outside i hb]

/-- **C97** (safety of a motion): for boundary points in the domain, on a domain with at least four cells in each direction, a motion returns or exits. -/
theorem C97_motion_safe (hr : Reachable w h L) (hw : 4 ≤ w) (hh : 4 ≤ h) (hp : ∀ p ∈ points, InDomainR w h p.coord) (dt : R.Num) :
    (∃ b L', motion points dt L = .ok (b, L')) ∨ motion points dt L = .error .exit := by
  unfold motion
  rcases C97_safe hr hp with ⟨L1, e1, -⟩ | e1
  · rw [e1]
    have hr1 : Reachable w h L1 := .call hr (.velocities _ e1)
    obtain ⟨L2, e2, -⟩ := wp_noErr_iff.1 (computeGradients_spec hr1.core hw hh)
    have hr2 : Reachable w h L2 := .call hr1 (.gradients e2)
    rcases C29_update_safe hr2 dt with ⟨b, L', e3⟩ | ⟨e3, -⟩
    · exact .inl ⟨b, L', by simp only [bind, Except.bind]; rw [e2]; exact e3⟩
    · exact .inr (by simp only [bind, Except.bind]; rw [e2]; exact e3)
  · rw [e1]
    exact .inr rfl

/-- **C97** (order): where every boundary point moves at least as fast, no node ends with a larger value, in rounded arithmetic and without any
tolerance: there are values before a possible reinitialisation, for the slower and for the faster boundary, and the latter are nowhere larger. -/
theorem C97_order (hr : Reachable w h L) (hp : ∀ p ∈ points, InDomainR w h p.coord) (hf : Faster points points') {dt : R.Num} (ht : 0 ≤ dt.val)
    {b b' : Bool} {L' L'' : LevelSet R.Num} (e : motion points dt L = .ok (b, L')) (e' : motion points' dt L = .ok (b', L'')) :
    ∃ φ φ', NewFrom w h L φ b L' ∧ NewFrom w h L φ' b' L'' ∧ ∀ i, (vals φ' i).val ≤ (vals φ i).val := by
  obtain ⟨L1, L2, e1, e2, e3, hr2, h2, -⟩ := motion_steps hr hp e
  obtain ⟨L1', L2', e1', e2', e3', hr2', h2', -⟩ := motion_steps hr (hf.inDomain hp) e'
  have B := like_computeVelocities averages_le hr.core.velocity hf.forall₂
  rw [e1, e1'] at B
  have B2 := like_computeGradients B
  rw [e2, e2'] at B2
  obtain ⟨φ, M, N⟩ := newFrom_update hr2 e3
  obtain ⟨φ', M', N'⟩ := newFrom_update hr2' e3'
  refine ⟨φ, φ', ?_, ?_, motion_le hr2 hr2' B2 ht M M'⟩
  · have : L2.mesh = L.mesh := by rw [h2]
    unfold NewFrom at N ⊢
    rwa [this] at N
  · have : L2'.mesh = L.mesh := by rw [h2']
    unfold NewFrom at N' ⊢
    rwa [this] at N'

/-- Without reinitialisation the distances themselves are ordered. -/
theorem C97_order_distances (hr : Reachable w h L) (hp : ∀ p ∈ points, InDomainR w h p.coord) (hf : Faster points points') {dt : R.Num} (ht : 0 ≤ dt.val)
    {L' L'' : LevelSet R.Num} (e : motion points dt L = .ok (false, L')) (e' : motion points' dt L = .ok (false, L'')) (i : Nat) :
    (vals L''.signedDistance i).val ≤ (vals L'.signedDistance i).val := by
  obtain ⟨φ, φ', N, N', hle⟩ := C97_order hr hp hf ht e e'
  rw [N.1 rfl, N'.1 rfl]
  exact hle i

/-- The boundary at rest. -/
noncomputable def atRest (points : List (BoundaryPoint R.Num)) : List (BoundaryPoint R.Num) := points.map fun p => { p with velocity := FP.nat 0 }

/-- Velocities have the sign of the speeds when those have one sign. -/
theorem velocity_signs {L1 : LevelSet R.Num} (hr : Reachable w h L) (e : computeVelocities points L = .ok L1) :
    ((∀ p ∈ points, 0 ≤ p.velocity.val) → ∀ i, 0 ≤ (vals L1.velocity i).val) ∧
    ((∀ p ∈ points, p.velocity.val ≤ 0) → ∀ i, (vals L1.velocity i).val ≤ 0) := by
  have rest : ∀ {L0}, computeVelocities (atRest points) L = .ok L0 → ∀ i, (vals L0.velocity i).val = 0 := by
    intro L0 e0 i
    have B := like_computeVelocities (averages_zero (R := R)) hr.core.velocity (points := atRest points) (points' := atRest points) (by
      refine List.forall₂_same.2 fun p hp => ⟨rfl, ?_⟩
      obtain ⟨q, -, rfl⟩ := List.mem_map.1 hp
      exact ⟨val_zero, val_zero⟩)
    rw [e0] at B
    obtain ⟨v, h1, h2⟩ := B
    by_cases hi : i < L0.velocity.length
    · have hm := List.mem_of_getElem? (vals_get hi)
      obtain ⟨j, hj, hj'⟩ := List.getElem_of_mem hm
      have := (h2.get hj (by rw [← h2.length_eq]; exact hj)).1
      rw [← hj']
      exact this
    · rw [vals_none hi, val_zero]
  constructor
  · intro hs i
    have hf : Faster (atRest points) points := by
      refine ⟨by simp [atRest, Function.comp_def], fun j p p' hp hp' => ?_⟩
      unfold atRest at hp
      rw [List.getElem?_map, hp'] at hp
      cases hp
      dsimp only
      rw [val_zero]
      exact hs _ (List.mem_of_getElem? hp')
    rcases C97_velocities hr hf with ⟨er, -, h2⟩ | ⟨L0, L1', h1, h2, -, h3⟩
    · rw [e] at h2; cases h2
    · rw [e] at h2; cases h2
      rw [← rest h1 i]
      exact h3 i
  · intro hs i
    have hf : Faster points (atRest points) := by
      refine ⟨by simp [atRest, Function.comp_def], fun j p p' hp hp' => ?_⟩
      unfold atRest at hp'
      rw [List.getElem?_map, hp] at hp'
      cases hp'
      dsimp only
      rw [val_zero]
      exact hs _ (List.mem_of_getElem? hp)
    rcases C97_velocities hr hf with ⟨er, h1, -⟩ | ⟨L1', L0, h1, h2, -, h3⟩
    · rw [e] at h1; cases h1
    · rw [e] at h1; cases h1
      rw [← rest h2 i]
      exact h3 i

/-- **C97** (no reversal): positive speeds never increase a value, so that nothing is added to the inside.  Negative speeds never decrease
one, except that positive values at the edge of the domain are set to zero.  Boundary points at rest change nothing else. -/
theorem C97_no_reversal (hr : Reachable w h L) (hp : ∀ p ∈ points, InDomainR w h p.coord) {dt : R.Num} (ht : 0 ≤ dt.val)
    {b : Bool} {L' : LevelSet R.Num} (e : motion points dt L = .ok (b, L')) :
    ∃ φ, NewFrom w h L φ b L' ∧
      ((∀ p ∈ points, 0 ≤ p.velocity.val) → ∀ i, (vals φ i).val ≤ (vals L.signedDistance i).val) ∧
      ((∀ p ∈ points, p.velocity.val ≤ 0) → ∀ i, (vals L.signedDistance i).val ≤ (vals φ i).val ∨
        L.OnDomainEdge i ∧ 0 < (vals L.signedDistance i).val ∧ (vals φ i).val = 0) ∧
      ((∀ p ∈ points, p.velocity.val = 0) → ∀ i, (vals φ i).val = (vals L.signedDistance i).val ∨
        L.OnDomainEdge i ∧ 0 < (vals L.signedDistance i).val ∧ (vals φ i).val = 0) := by
  obtain ⟨L1, L2, e1, e2, e3, hr2, h2, h2v⟩ := motion_steps hr hp e
  have hm : L2.mesh = L.mesh := by rw [h2]
  have hsd : L2.signedDistance = L.signedDistance := by rw [h2]
  have hedge : L2.OnDomainEdge = L.OnDomainEdge := by
    funext i
    unfold OnDomainEdge
    rw [hm]
  obtain ⟨s1, s2⟩ := velocity_signs hr e1
  rw [← h2v] at s1 s2
  have B2 := like_computeGradients (R := R) (L := L1) (L' := L1) ⟨L1.velocity, rfl, List.forall₂_same.2 fun _ _ => le_refl _⟩
  rw [e2] at B2
  obtain ⟨V, G, h3, -, h4⟩ := B2
  have hV : L2.velocity = V := congrArg LevelSet.velocity h3
  have hG : L2.gradient = G := congrArg LevelSet.gradient h3
  rw [← hV, ← hG] at h4
  obtain ⟨φ, M, N⟩ := newFrom_update hr2 e3
  have step : ∀ i ∈ L2.band, 0 ≤ (dt *. vals L2.gradient i).val := by
    intro i hb
    have hi := (hr2.core.band_free i hb).1
    rw [hr2.core.grid.nNodes] at hi
    exact rnd_nonneg (mul_nonneg ht (likeG_vals hr2 hr2 h4 hi).1)
  have down : (∀ p ∈ points, 0 ≤ p.velocity.val) → ∀ i, (vals φ i).val ≤ (vals L2.signedDistance i).val := by
    intro hs i
    by_cases hb : i ∈ L2.band
    · have h5 : (vals L2.signedDistance i -. dt *. vals L2.gradient i *. vals L2.velocity i).val ≤ (vals L2.signedDistance i).val := by
        have h6 : 0 ≤ (dt *. vals L2.gradient i *. vals L2.velocity i).val := rnd_nonneg (mul_nonneg (step i hb) (s1 hs i))
        rw [val_sub]
        calc R.rnd _ ≤ R.rnd (vals L2.signedDistance i).val := R.mono (by linarith)
          _ = _ := (vals L2.signedDistance i).fix
      rw [moved_value M hb]
      split_ifs with hc
      · rw [Bool.and_eq_true, lt_iff, val_zero] at hc
        rw [val_zero]
        linarith [hc.2]
      · exact h5
    · rw [M.outside i hb]
  have up : (∀ p ∈ points, p.velocity.val ≤ 0) → ∀ i, (vals L2.signedDistance i).val ≤ (vals φ i).val ∨
        L.OnDomainEdge i ∧ 0 < (vals L2.signedDistance i).val ∧ (vals φ i).val = 0 := by
    intro hs i
    by_cases hb : i ∈ L2.band
    · have h5 : (vals L2.signedDistance i).val ≤ (vals L2.signedDistance i -. dt *. vals L2.gradient i *. vals L2.velocity i).val := by
        have h6 : (dt *. vals L2.gradient i *. vals L2.velocity i).val ≤ 0 := rnd_nonpos (mul_nonpos_of_nonneg_of_nonpos (step i hb) (s2 hs i))
        rw [val_sub]
        calc (vals L2.signedDistance i).val = R.rnd (vals L2.signedDistance i).val := (vals L2.signedDistance i).fix.symm
          _ ≤ _ := R.mono (by linarith)
      rw [moved_value M hb]
      split_ifs with hc
      · rw [Bool.and_eq_true] at hc
        have hc1 : L.OnDomainEdge i := by
          rw [← hedge]
          exact (@decide_eq_true_iff _ (_)).1 hc.1
        rw [val_zero]
        by_cases hz : 0 < (vals L2.signedDistance i).val
        · exact .inr ⟨hc1, hz, rfl⟩
        · exact .inl (by linarith)
      · exact .inl h5
    · rw [M.outside i hb]
      exact .inl (le_refl _)
  rw [hsd] at down up
  refine ⟨φ, ?_, down, up, fun hs i => ?_⟩
  · unfold NewFrom at N ⊢
    rwa [hm] at N
  · have d := down (fun p hp => (hs p hp).ge) i
    rcases up (fun p hp => (hs p hp).le) i with u | u
    · exact .inl (le_antisymm d u)
    · exact .inr u

end

/-! ### Cases -/

section
variable {R : Rounding}

/-- A boundary point at `(5/2, 5/2)`. -/
noncomputable def midPoint (v : binary64.Num) : BoundaryPoint binary64.Num :=
  { coord := ⟨Boundary.halfNum 5 (by norm_num), Boundary.halfNum 5 (by norm_num)⟩, normal := ⟨FP.nat 0, FP.nat 0⟩, length := FP.nat 1, velocity := v,
    negativeLimit := FP.nat 0, positiveLimit := FP.nat 0, isDomain := false, isFixed := false, nSegments := 0, segments := [], nNeighbours := 0,
    neighbours := [], sensitivities := [] }

theorem midPoint_inDomain (v : binary64.Num) : ∀ p ∈ [midPoint v], InDomainR 5 5 p.coord := by
  intro p hp
  rw [List.mem_singleton] at hp
  rw [hp]
  simp only [InDomainR, midPoint, Boundary.halfNum]
  norm_num

/-- The hypotheses of C98: a point in the middle of a cell of the mesh of size `5×5`, in binary64. -/
example : ∃ m : Mesh binary64.Num, Mesh.new 5 5 = .ok m ∧ MeshSize 5 5 ∧ InDomainR 5 5 (midPoint (FP.nat 0)).coord ∧
    m.getElement (midPoint (FP.nat 0)).coord = 12 := by
  have S : MeshSize 5 5 := ⟨by norm_num, by norm_num, by norm_num⟩
  obtain ⟨m, hm⟩ := C01_new_succeeds (D := binary64.Num) S
  have hd := midPoint_inDomain (FP.nat 0) _ (List.mem_singleton.2 rfl)
  refine ⟨m, hm, S, hd, ?_⟩
  obtain ⟨ex, ey, h1, h2, h3, -, h4, h5, h6, h7⟩ := C98_getElement S hm (by norm_num) hd
  rw [h3]
  have ht : binary64.tol < 1 / 2 := binary64.tol_bounds.2.trans (by norm_num)
  simp only [midPoint, Boundary.halfNum] at h4 h5 h6 h7
  have : ex = 2 := by
    have a : (ex : ℝ) < 3 := by push_cast at h4; linarith
    have b : (1 : ℝ) < ex := by push_cast at h5; linarith
    have a' : ex < 3 := by exact_mod_cast a
    have b' : 1 < ex := by exact_mod_cast b
    omega
  have : ey = 2 := by
    have a : (ey : ℝ) < 3 := by push_cast at h6; linarith
    have b : (1 : ℝ) < ey := by push_cast at h7; linarith
    have a' : ey < 3 := by exact_mod_cast a
    have b' : 1 < ey := by exact_mod_cast b
    omega
  omega

/-- Values `-1/2` and `1/2` in the manner of a chessboard. -/
noncomputable def boardVal (i : Nat) : binary64.Num :=
  if (i % 6 + i / 6) % 2 = 0 then FP.neg (Boundary.halfNum 1 (by norm_num)) else Boundary.halfNum 1 (by norm_num)

theorem board_limit : ∃ L : LevelSet binary64.Num, Reachable 5 5 L ∧ (∀ i, i < 36 → vals L.signedDistance i = boardVal i) ∧ 1 ∈ L.band ∧ L.OnDomainEdge 1 ∧
    L.moveLimit.val = 1 / 2 := by
  obtain ⟨L, hL⟩ := (C22_accepts_iff (D := binary64.Num) (w := 5) (h := 5) (by norm_num) (by norm_num) (by norm_num)
    (.holes []) (by simp) (Boundary.halfNum 1 (by norm_num)) 3 (by norm_num) false).2.2
    ⟨by norm_num, by rw [lt_iff, val_zero]; simp [Boundary.halfNum], by rw [lt_iff, val_one]; simp only [Boundary.halfNum]; norm_num, fun h => by cases h⟩
  have hr : Reachable 5 5 L := .new (by norm_num) (by norm_num) (by norm_num) (by norm_num) hL
  have B := built (by norm_num) (by norm_num) (by norm_num) (by norm_num) hL
  have C := hr.core
  have hN : L.mesh.nNodes = 36 := C.grid.nNodes
  refine ⟨_, .call hr (.assign ((List.range 36).map boardVal) L.velocity L.gradient L.target (by simp [hN]) C.velocity C.gradient), ?_, ?_, ?_, ?_⟩
  · intro i hi
    exact vals_map_range _ hi
  · show 1 ∈ L.band
    rw [B.band.band_mem]
    refine ⟨⟨by rw [hN]; norm_num, B.unmasked _, by rw [B.params.2.2]; simp⟩, ?_⟩
    obtain ⟨m, hm, hv⟩ := B.value
    have G := new_grid ⟨by norm_num, by norm_num, by norm_num⟩ hm
    rw [hv, vals_map_range _ (by rw [G.nNodes]; norm_num), B.params.2.1, lt_iff]
    have := edgeVal_rnd G (by norm_num) (by norm_num) (x := 1) (y := 0) (by norm_num) (by norm_num)
    have e0 : (edgeVal m (nodeOf m 1)).val = 0 := this.trans (by simp [edgeDist])
    simp only [shapeVal, holesVal, List.foldl_nil]
    rw [val_abs, e0, val_nat (by norm_num)]
    norm_num
  · obtain ⟨nd, hnd⟩ := C.grid.node_exists (x := 1) (y := 0) (by norm_num) (by norm_num)
    exact ⟨nd, hnd, (C.grid.isDomain 1 0 nd (by norm_num) (by norm_num) hnd).2 (by simp [onEdge])⟩
  · show L.moveLimit.val = 1 / 2
    rw [B.params.1]
    simp [Boundary.halfNum]

theorem board_level : ∃ L : LevelSet binary64.Num, Reachable 5 5 L ∧ (∀ i, i < 36 → vals L.signedDistance i = boardVal i) ∧ 1 ∈ L.band ∧ L.OnDomainEdge 1 := by
  obtain ⟨L, h1, h2, h3, h4, -⟩ := board_limit
  exact ⟨L, h1, h2, h3, h4⟩

theorem board_opposite {i j : Nat} (h : (i % 6 + i / 6) % 2 ≠ (j % 6 + j / 6) % 2) : (boardVal i *. boardVal j <. FP.nat 0) = true := by
  have half : binary64.rnd (-(1 / 4)) < 0 := by
    have h1 : binary64.rnd (-(1 / 4)) ≤ binary64.rnd (-binary64.tol) := binary64.mono (by linarith [binary64.tol_bounds.2])
    have h2 : binary64.rnd (-binary64.tol) = -binary64.tol := by
      rw [binary64.neg]
      unfold tol
      rw [binary64.idem]
    linarith [binary64.tol_pos]
  rw [lt_iff, val_mul, val_zero]
  unfold boardVal
  have hm := Nat.mod_two_eq_zero_or_one (i % 6 + i / 6)
  have hm' := Nat.mod_two_eq_zero_or_one (j % 6 + j / 6)
  split_ifs with h1 h2 h2
  · omega
  · simp only [val_neg, Boundary.halfNum]
    convert half using 2
    norm_num
  · simp only [val_neg, Boundary.halfNum]
    convert half using 2
    norm_num
  · omega

/-- On the chessboard every node is on the interface. -/
theorem board_interface {L : LevelSet binary64.Num} (hr : Reachable 5 5 L) (hv : ∀ i, i < 36 → vals L.signedDistance i = boardVal i) :
    ∀ i, i < 36 → OnInterface 5 5 (vals L.signedDistance) i := by
  have C := hr.core
  intro i hi
  obtain ⟨x, y, hx, hy, rfl⟩ := C.grid.node_index (i := i) (by rw [C.grid.nNodes]; exact hi)
  right
  have key : ∀ x' , x' ≤ 5 → (x' = x + 1 ∨ x = x' + 1) → ∃ n, Adj 5 5 (nodeNo 5 x y) n ∧ Opposite (vals L.signedDistance) (nodeNo 5 x y) n := by
    intro x' hx' hc
    refine ⟨nodeNo 5 x' y, .inl ⟨x, x', y, hx, hx', hy, rfl, rfl, hc⟩, ?_⟩
    unfold Opposite
    have l1 : nodeNo 5 x y < 36 := nodeNo_lt (w := 5) (h := 5) hx hy
    have l2 : nodeNo 5 x' y < 36 := nodeNo_lt (w := 5) (h := 5) hx' hy
    rw [hv _ l1, hv _ l2]
    apply board_opposite
    unfold nodeNo
    omega
  rcases Nat.eq_zero_or_pos x with rfl | h
  · exact key 1 (by norm_num) (.inl rfl)
  · exact key (x - 1) (by omega) (.inr (by omega))

/-- On the chessboard the computation of velocities returns. -/
theorem board_velocities {L : LevelSet binary64.Num} (hr : Reachable 5 5 L) (hv : ∀ i, i < 36 → vals L.signedDistance i = boardVal i)
    {points : List (BoundaryPoint binary64.Num)} (hp : ∀ p ∈ points, InDomainR 5 5 p.coord) : ∃ L1, computeVelocities points L = .ok L1 := by
  have C := hr.core
  have hpo := pointsOk_rnd C.grid (fit_rnd hr) hp
  have hon := board_interface hr hv
  obtain ⟨L1, h1, h2, h3, -⟩ := wp_noErr_iff.1 (initialiseVelocities_spec (w := 5) (h := 5) C hpo)
  obtain ⟨F, hF⟩ := C18_nothing_to_extend (m := L.mesh) (sd := L.signedDistance) (vel := L1.velocity) false C.grid C.sd h3 ⟨0, by norm_num, hon 0 (by norm_num)⟩
    fun i hi _ => hon i (by rw [C.grid.nNodes] at hi; exact hi)
  unfold computeVelocities
  rw [h1, h2]
  simp only [bind, Except.bind]
  rw [hF]
  exact ⟨_, rfl⟩

/-- In binary64 a motion with negative or no speed returns: the hypotheses of C97 can be met, with different speeds. -/
theorem board_motion {L : LevelSet binary64.Num} (hr : Reachable 5 5 L) (hv : ∀ i, i < 36 → vals L.signedDistance i = boardVal i)
    (hb : 1 ∈ L.band) (he : L.OnDomainEdge 1) {v dt : binary64.Num} (h0 : v.val ≤ 0) (ht : 0 ≤ dt.val) :
    ∃ b L', motion [midPoint v] dt L = .ok (b, L') := by
  have C := hr.core
  have hp := midPoint_inDomain v
  obtain ⟨L1, e1⟩ := board_velocities hr hv hp
  have hr1 : Reachable 5 5 L1 := .call hr (.velocities _ e1)
  obtain ⟨L2, e2, h2, -⟩ := wp_noErr_iff.1 (computeGradients_spec hr1.core (by norm_num) (by norm_num))
  have hr2 : Reachable 5 5 L2 := .call hr1 (.gradients e2)
  have h1 : L1 = { L with velocity := L1.velocity } := by
    rcases C97_safe hr hp with ⟨L1', e1', h1, -⟩ | e1'
    · rw [e1] at e1'; cases e1'; exact h1
    · rw [e1] at e1'; cases e1'
  unfold motion
  rcases C29_update_safe hr2 dt with ⟨b, L', e3⟩ | ⟨-, φ, M, hn⟩
  · exact ⟨b, L', by rw [e1]; simp only [bind, Except.bind]; rw [e2]; exact e3⟩
  · exfalso
    apply hn
    refine ⟨1, by norm_num, .inl ?_⟩
    have hband : 1 ∈ L2.band := by
      have : L2.band = L.band := by rw [h2, h1]; rfl
      rw [this]; exact hb
    have hedge : L2.OnDomainEdge 1 := by
      have : L2.mesh = L.mesh := by rw [h2, h1]
      unfold OnDomainEdge
      rw [this]; exact he
    have hsd : L2.signedDistance = L.signedDistance := by rw [h2, h1]
    have B2 := like_computeGradients (L := L1) (L' := L1) ⟨L1.velocity, rfl, List.forall₂_same.2 fun _ _ => le_refl _⟩
    rw [e2] at B2
    obtain ⟨V, G, h3, -, h4⟩ := B2
    have hV : L2.velocity = V := congrArg LevelSet.velocity h3
    have hG : L2.gradient = G := congrArg LevelSet.gradient h3
    rw [← hV, ← hG] at h4
    have hg := (likeG_vals hr2 hr2 h4 (i := 1) (by norm_num)).1
    have hvel : (vals L2.velocity 1).val ≤ 0 := by
      have : L2.velocity = L1.velocity := by rw [h2]
      rw [this]
      refine (velocity_signs hr e1).2 (fun p hp => ?_) 1
      rw [List.mem_singleton] at hp
      rw [hp]
      exact h0
    rw [M.capped 1 hband hedge, eq_iff]
    rw [lt_iff, val_zero, hsd, hv 1 (by norm_num)]
    have h5 : (dt *. vals L2.gradient 1 *. vals L2.velocity 1).val ≤ 0 := by
      rw [val_mul, val_mul]
      exact rnd_nonpos (mul_nonpos_of_nonneg_of_nonpos (rnd_nonneg (mul_nonneg ht hg)) hvel)
    have h6 : (boardVal 1).val = 1 / 2 := by
      unfold boardVal
      rw [if_neg (by norm_num)]
      simp [Boundary.halfNum]
    have h7 : (boardVal 1).val ≤ (boardVal 1 -. dt *. vals L2.gradient 1 *. vals L2.velocity 1).val := by
      rw [val_sub]
      calc (boardVal 1).val = binary64.rnd (boardVal 1).val := (boardVal 1).fix.symm
        _ ≤ _ := binary64.mono (by linarith)
    exact lt_of_lt_of_le (by rw [h6]; norm_num) h7

/-- The hypotheses of C97 can be met: speeds `-1` and `0`, and a time step of `1/2`, in binary64. -/
example : ∃ (L : LevelSet binary64.Num) (points points' : List (BoundaryPoint binary64.Num)) (dt : binary64.Num) (b b' : Bool) (L' L'' : LevelSet binary64.Num),
    Reachable 5 5 L ∧ (∀ p ∈ points, InDomainR 5 5 p.coord) ∧ Faster points points' ∧ points ≠ points' ∧ 0 < dt.val ∧
    motion points dt L = .ok (b, L') ∧ motion points' dt L = .ok (b', L'') ∧ ∀ p ∈ points, p.velocity.val ≤ 0 := by
  obtain ⟨L, hr, hv, hb, he⟩ := board_level
  have ht : 0 < (Boundary.halfNum 1 (by norm_num)).val := by simp [Boundary.halfNum]
  have hneg : (FP.neg (FP.nat 1) : binary64.Num).val = -1 := by rw [val_neg, val_one]
  obtain ⟨b, L', e⟩ := board_motion hr hv hb he (v := FP.neg (FP.nat 1)) (by rw [hneg]; norm_num) ht.le
  obtain ⟨b', L'', e'⟩ := board_motion hr hv hb he (v := FP.nat 0) (by rw [val_zero]) ht.le
  refine ⟨L, [midPoint (FP.neg (FP.nat 1))], [midPoint (FP.nat 0)], _, b, b', L', L'', hr, midPoint_inDomain _, ⟨rfl, fun j p p' hp hp' => ?_⟩, fun h => ?_, ht, e, e', fun p hp => ?_⟩
  · rw [List.mem_singleton.1 (List.mem_of_getElem? hp), List.mem_singleton.1 (List.mem_of_getElem? hp')]
    show (FP.neg (FP.nat 1) : binary64.Num).val ≤ (FP.nat 0 : binary64.Num).val
    rw [hneg, val_zero]; norm_num
  · have h1 : (FP.neg (FP.nat 1) : binary64.Num) = FP.nat 0 := congrArg BoundaryPoint.velocity (List.cons.inj h).1
    have h2 := congrArg Num.val h1
    rw [hneg, val_zero] at h2
    norm_num at h2
  · rw [List.mem_singleton.1 hp]
    show (FP.neg (FP.nat 1) : binary64.Num).val ≤ 0
    rw [hneg]; norm_num

end

end Slsm
