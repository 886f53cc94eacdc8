import Verif.Proof.RoundGrad
import Verif.Proof.RoundMesh
import Verif.Props.RoundMove
import Verif.Props.Motion

/-! # Property C103: gradients and steps in rounded arithmetic -/

namespace Slsm

open FP Rounding LevelSet

section
variable {R : Rounding} {w h : Nat} {L L' : LevelSet R.Num}

/-- Along the two grid lines through the node `(x, y)`, up to three cells away, the values are those of the plane `a x + b y + c` up to `η`. -/
structure NearPlane (w h : Nat) (L : LevelSet R.Num) (a b c η : ℝ) (x y : Nat) : Prop where
  row : ∀ k, k ≤ w → k ≤ x + 3 → x ≤ k + 3 → |(lay w L.signedDistance k y) - (a * k + b * y + c)| ≤ η
  column : ∀ k, k ≤ h → k ≤ y + 3 → y ≤ k + 3 → |(lay w L.signedDistance x k) - (a * x + b * k + c)| ≤ η

/-- The node is not a corner of the domain, or one of the slopes is not tiny. -/
def Sloping (w h : Nat) (a b : ℝ) (x y : Nat) : Prop :=
  1 / 2 ^ 18 ≤ |a| ∨ 1 / 2 ^ 18 ≤ |b| ∨ (x ≠ 0 ∧ x ≠ w) ∨ (y ≠ 0 ∧ y ≠ h)

/-- **C103** (derivatives): in rounded arithmetic, where the five differences lie within `η` of `a`, so does the estimate of the derivative, up to a
factor and rounding.  Whatever the weights are, they do no harm. -/
theorem C103_derivative {v1 v2 v3 v4 v5 : R.Num} {a η : ℝ} (ha : |a| ≤ 2 ^ 20) (hη : η ≤ 1) (h1 : |v1.val - a| ≤ η) (h2 : |v2.val - a| ≤ η)
    (h3 : |v3.val - a| ≤ η) (h4 : |v4.val - a| ≤ η) (h5 : |v5.val - a| ≤ η) :
    |(gradHJWENO v1 v2 v3 v4 v5).val - a| ≤ 4 * η + (|a| + 1) / 2 ^ 42 := gradHJWENO_near ha hη h1 h2 h3 h4 h5

/-- **C103** (gradients): in rounded arithmetic, where the values around a node of the narrow band are those of a plane up to `η`, the gradient is the
slope of the plane up to `80 η` and rounding. -/
theorem C103_gradient (hr : Reachable w h L) (hw : 4 ≤ w) (hh : 4 ≤ h) (e : computeGradients L = .ok L') {a b c η : ℝ} (ha : |a| ≤ 2 ^ 20)
    (hb : |b| ≤ 2 ^ 20) (hη : η ≤ 1 / 2 ^ 20) {x y : Nat} (hx : x ≤ w) (hy : y ≤ h) (hp : NearPlane w h L a b c η x y) (hs : Sloping w h a b x y)
    (hband : nodeNo w x y ∈ L.band) :
    |lay w L'.gradient x y - Real.sqrt (a ^ 2 + b ^ 2)| ≤ 80 * η + (|a| + |b| + 1) / 2 ^ 38 := by
  obtain ⟨-, -, hv⟩ := wp_of_ok (computeGradients_spec hr.core hw hh) e
  unfold lay
  rw [hv x y hx hy, if_pos hband]
  exact gradVal_near (by omega) (by omega) ha hb hη hx hy hp.row hp.column hs

/-- **C103** (sign): in rounded arithmetic gradients are never negative, and zero outside the narrow band. -/
theorem C103_sign (hr : Reachable w h L) (hw : 4 ≤ w) (hh : 4 ≤ h) (e : computeGradients L = .ok L') {x y : Nat} (hx : x ≤ w) (hy : y ≤ h) :
    0 ≤ lay w L'.gradient x y ∧ (nodeNo w x y ∉ L.band → lay w L'.gradient x y = 0) := by
  obtain ⟨-, -, hv⟩ := wp_of_ok (computeGradients_spec hr.core hw hh) e
  unfold lay
  rw [hv x y hx hy]
  constructor
  · split
    · unfold gradVal
      split
      · next g hg =>
        unfold cornerVal at hg
        split at hg
        · cases hg
          exact rnd_nonneg (mul_nonneg (abs_nonneg _) (rnd_nonneg (Real.sqrt_nonneg _)))
        · cases hg
      · unfold upwindNorm
        exact rnd_nonneg (Real.sqrt_nonneg _)
    · rw [val_zero]
  · intro hb
    rw [if_neg hb, val_zero]

/-- What the plane becomes at the node: it is moved by the time step times the velocity, against its slope; positive values at the edge of the domain
become zero. -/
noncomputable def movedPlane (L : LevelSet R.Num) (dt : ℝ) (a b c : ℝ) (x y i : Nat) : ℝ :=
  open Classical in
  let t := a * x + b * y + c - dt * (vals L.velocity i).val * Real.sqrt (a ^ 2 + b ^ 2)
  if L.OnDomainEdge i then Min.min t 0 else t

/-- **C103** (steps): in rounded arithmetic, where the values around a node of the narrow band are those of a plane up to `η`, an update moves the plane
at the node by the time step times the velocity, up to `81 η` and rounding, as long as it does not move further than one cell.  (The new values are
those before a possible reinitialisation.) -/
theorem C103_step {L2 : LevelSet R.Num} (hr : Reachable w h L) (hw : 4 ≤ w) (hh : 4 ≤ h) (e : computeGradients L = .ok L2) {dt : R.Num} {bb : Bool}
    (e' : update dt L2 = .ok (bb, L')) : ∃ φ, NewFrom w h L φ bb L' ∧ (∀ i, i ∉ L.band → vals φ i = vals L.signedDistance i) ∧
      ∀ x y a b c η, x ≤ w → y ≤ h → |a| ≤ 2 ^ 15 → |b| ≤ 2 ^ 15 → η ≤ 1 / 2 ^ 20 → NearPlane w h L a b c η x y → Sloping w h a b x y →
        nodeNo w x y ∈ L.band → |(vals L.velocity (nodeNo w x y)).val| ≤ 2 ^ 20 → |dt.val * (vals L.velocity (nodeNo w x y)).val| ≤ 1 →
        |lay w φ x y - movedPlane L dt.val a b c x y (nodeNo w x y)| ≤ 81 * η + (|a| + |b| + 1) / 2 ^ 37 + |a * x + b * y + c| / 2 ^ 52 := by
  obtain ⟨hL2, -, -⟩ := wp_of_ok (computeGradients_spec hr.core hw hh) e
  have hr2 : Reachable w h L2 := .call hr (.gradients e)
  obtain ⟨φ, M, N⟩ := newFrom_update hr2 e'
  have hm : L2.mesh = L.mesh := by rw [hL2]
  have hB : L2.band = L.band := by rw [hL2]; rfl
  have hS : L2.signedDistance = L.signedDistance := by rw [hL2]
  have hV : L2.velocity = L.velocity := by rw [hL2]
  have hE : ∀ i, L2.OnDomainEdge i ↔ L.OnDomainEdge i := by intro i; unfold OnDomainEdge; rw [hm]
  refine ⟨φ, ?_, ?_, ?_⟩
  · unfold NewFrom at N ⊢
    rwa [hm] at N
  · intro i hi
    rw [M.outside i (by rwa [hB]), hS]
  · intro x y a b c η hx hy ha hb hη hp hs hband hv hd
    have G := C103_gradient hr hw hh e (ha.trans (by norm_num)) (hb.trans (by norm_num)) hη hx hy hp hs hband
    have η0 : 0 ≤ η := (abs_nonneg _).trans (hp.row x hx (by omega) (by omega))
    have a0 := abs_nonneg a
    have b0 := abs_nonneg b
    have ab : Real.sqrt (a ^ 2 + b ^ 2) ≤ |a| + |b| := by
      rw [Real.sqrt_le_left (by positivity)]
      nlinarith [sq_abs a, sq_abs b, mul_nonneg a0 b0]
    have hP := hp.row x hx (by omega) (by omega)
    have T := step_near (φ := vals L.signedDistance (nodeNo w x y)) (g := vals L2.gradient (nodeNo w x y)) (v := vals L.velocity (nodeNo w x y)) (dt := dt)
      hP G (Real.sqrt_nonneg _) (hη.trans (by norm_num)) (by norm_num at ha hb hη ⊢; linarith) hv hd
    have T' : |(vals L.signedDistance (nodeNo w x y) -. dt *. vals L2.gradient (nodeNo w x y) *. vals L.velocity (nodeNo w x y)).val -
        (a * x + b * y + c - dt.val * (vals L.velocity (nodeNo w x y)).val * Real.sqrt (a ^ 2 + b ^ 2))| ≤
        81 * η + (|a| + |b| + 1) / 2 ^ 37 + |a * x + b * y + c| / 2 ^ 52 := by
      refine T.trans ?_
      norm_num
      linarith
    unfold lay movedPlane
    dsimp only
    rw [moved_value M (by rwa [hB]), hS, hV]
    by_cases hedge : L.OnDomainEdge (nodeNo w x y)
    · rw [if_pos hedge]
      have hedge' := (hE _).2 hedge
      by_cases hpos : 0 < (vals L.signedDistance (nodeNo w x y) -. dt *. vals L2.gradient (nodeNo w x y) *. vals L.velocity (nodeNo w x y)).val
      · rw [if_pos (by rw [Bool.and_eq_true, lt_iff, val_zero]; exact ⟨by simpa using hedge', hpos⟩), val_zero]
        have := abs_min_sub_min_le_max (vals L.signedDistance (nodeNo w x y) -. dt *. vals L2.gradient (nodeNo w x y) *. vals L.velocity (nodeNo w x y)).val 0
          (a * x + b * y + c - dt.val * (vals L.velocity (nodeNo w x y)).val * Real.sqrt (a ^ 2 + b ^ 2)) 0
        rw [min_eq_right hpos.le, sub_zero, abs_zero, max_eq_left (abs_nonneg _)] at this
        exact this.trans T'
      · rw [if_neg (by rw [Bool.and_eq_true, lt_iff, val_zero]; exact fun hc => hpos hc.2)]
        have := abs_min_sub_min_le_max (vals L.signedDistance (nodeNo w x y) -. dt *. vals L2.gradient (nodeNo w x y) *. vals L.velocity (nodeNo w x y)).val 0
          (a * x + b * y + c - dt.val * (vals L.velocity (nodeNo w x y)).val * Real.sqrt (a ^ 2 + b ^ 2)) 0
        rw [min_eq_left (not_lt.1 hpos), sub_zero, abs_zero, max_eq_left (abs_nonneg _)] at this
        exact this.trans T'
    · rw [if_neg hedge, if_neg (by rw [Bool.and_eq_true]; exact fun hc => hedge ((hE _).1 (by simpa using hc.1)))]
      exact T'

end

/-! ### A case -/

/-- A level set in binary64 whose values are those of the plane `x / 2`, moving with speed `-1`. -/
theorem slope_level : ∃ L : LevelSet binary64.Num, Reachable 5 5 L ∧ (∀ x y, x ≤ 5 → y ≤ 5 → lay 5 L.signedDistance x y = x / 2) ∧
    (∀ i, i < 36 → (vals L.velocity i).val = -1) ∧ nodeNo 5 1 0 ∈ L.band ∧ L.OnDomainEdge (nodeNo 5 1 0) := by
  obtain ⟨L, hL⟩ := (C22_accepts_iff (D := binary64.Num) (w := 5) (h := 5) (by norm_num) (by norm_num) (by norm_num)
    (.holes []) (by simp) (Boundary.halfNum 1 (by norm_num)) 3 (by norm_num) false).2.2
    ⟨by norm_num, by rw [lt_iff, val_zero]; simp [Boundary.halfNum], by rw [lt_iff, val_one]; simp only [Boundary.halfNum]; norm_num, fun h => by cases h⟩
  have hr : Reachable 5 5 L := .new (by norm_num) (by norm_num) (by norm_num) (by norm_num) hL
  have B := built (by norm_num) (by norm_num) (by norm_num) (by norm_num) hL
  have C := hr.core
  have hN : L.mesh.nNodes = 36 := C.grid.nNodes
  refine ⟨_, .call hr (.assign ((List.range 36).map fun i => Boundary.halfNum (i % 6) (by omega)) ((List.range 36).map fun _ => FP.neg (FP.nat 1))
    L.gradient L.target (by simp [hN]) (by simp [hN]) C.gradient), ?_, ?_, ?_, ?_⟩
  · intro x y hx hy
    unfold lay
    have hlt : nodeNo 5 x y < 36 := nodeNo_lt (w := 5) (h := 5) hx hy
    rw [vals_map_range _ hlt]
    have e1 : nodeNo 5 x y % 6 = x := by unfold nodeNo; omega
    simp only [Boundary.halfNum, e1]
  · intro i hi
    rw [vals_map_range _ hi, val_neg, val_one]
  · show 1 ∈ L.band
    rw [B.band.band_mem]
    refine ⟨⟨by rw [hN]; norm_num, B.unmasked _, by rw [B.params.2.2]; simp⟩, ?_⟩
    obtain ⟨m, hm, hv⟩ := B.value
    have G := new_grid ⟨by norm_num, by norm_num, by norm_num⟩ hm
    rw [hv, vals_map_range _ (by rw [G.nNodes]; norm_num), B.params.2.1, lt_iff]
    have := edgeVal_rnd G (by norm_num) (by norm_num) (x := 1) (y := 0) (by norm_num) (by norm_num)
    have e0 : (edgeVal m (nodeOf m 1)).val = 0 := this.trans (by simp [edgeDist])
    simp only [shapeVal, holesVal, List.foldl_nil]
    rw [val_abs, e0, val_nat (by norm_num)]
    norm_num
  · obtain ⟨nd, hnd⟩ := C.grid.node_exists (x := 1) (y := 0) (by norm_num) (by norm_num)
    exact ⟨nd, hnd, (C.grid.isDomain 1 0 nd (by norm_num) (by norm_num) hnd).2 (by simp [onEdge])⟩

/-- The hypotheses of C103 can be met, in binary64: the gradient is `1/2` up to rounding, and an update with time step `1/2` returns. -/
example : ∃ (L L2 L' : LevelSet binary64.Num) (b : Bool), Reachable 5 5 L ∧ computeGradients L = .ok L2 ∧
    update (Boundary.halfNum 1 (by norm_num)) L2 = .ok (b, L') ∧ NearPlane 5 5 L (1 / 2) 0 0 0 1 0 ∧ Sloping 5 5 (1 / 2) 0 1 0 ∧
    nodeNo 5 1 0 ∈ L.band ∧ |(Boundary.halfNum 1 (by norm_num) : binary64.Num).val * (vals L.velocity (nodeNo 5 1 0)).val| ≤ 1 ∧
    |lay 5 L2.gradient 1 0 - 1 / 2| ≤ 1 / 2 ^ 37 := by
  obtain ⟨L, hr, hφ, hv, hb, he⟩ := slope_level
  have C := hr.core
  have NP : NearPlane 5 5 L (1 / 2) 0 0 0 1 0 := by
    constructor
    · intro k hk _ _
      rw [hφ k 0 hk (by norm_num)]
      apply le_of_eq
      rw [abs_eq_zero]
      push_cast; ring
    · intro k hk _ _
      rw [hφ 1 k (by norm_num) hk]
      apply le_of_eq
      rw [abs_eq_zero]
      push_cast; ring
  have SL : Sloping 5 5 (1 / 2) 0 1 0 := .inl (by norm_num [abs_of_pos])
  obtain ⟨L2, e2, h2, -⟩ := wp_noErr_iff.1 (computeGradients_spec C (by norm_num) (by norm_num))
  have hr2 : Reachable 5 5 L2 := .call hr (.gradients e2)
  have Gr := C103_gradient hr (by norm_num) (by norm_num) e2 (a := 1 / 2) (b := 0) (c := 0) (η := 0) (by norm_num [abs_of_pos]) (by norm_num)
    (by positivity) (by norm_num) (by norm_num) NP SL hb
  have hd : |(Boundary.halfNum 1 (by norm_num) : binary64.Num).val * (vals L.velocity (nodeNo 5 1 0)).val| ≤ 1 := by
    rw [hv _ (by decide)]
    simp only [Boundary.halfNum]
    norm_num [abs_of_pos]
  have G2 : |lay 5 L2.gradient 1 0 - 1 / 2| ≤ 1 / 2 ^ 37 := by
    rw [show ((1:ℝ) / 2) ^ 2 + 0 ^ 2 = (1 / 2) ^ 2 by ring, Real.sqrt_sq (by norm_num)] at Gr
    refine Gr.trans ?_
    rw [abs_of_pos (show (0:ℝ) < 1 / 2 by norm_num)]
    norm_num
  rcases C29_update_safe hr2 (Boundary.halfNum 1 (by norm_num)) with ⟨b, L', e3⟩ | ⟨-, φ, M, hn⟩
  · exact ⟨L, L2, L', b, hr, e2, e3, NP, SL, hb, hd, G2⟩
  · exfalso
    apply hn
    refine ⟨nodeNo 5 1 0, by decide, .inl ?_⟩
    have hband : nodeNo 5 1 0 ∈ L2.band := by
      have : L2.band = L.band := by rw [h2]; rfl
      rw [this]; exact hb
    have hedge : L2.OnDomainEdge (nodeNo 5 1 0) := by
      have : L2.mesh = L.mesh := by rw [h2]
      unfold OnDomainEdge
      rw [this]; exact he
    have hsd : L2.signedDistance = L.signedDistance := by rw [h2]
    have hvel : L2.velocity = L.velocity := by rw [h2]
    rw [M.capped _ hband hedge, eq_iff]
    rw [lt_iff, val_zero, hsd, hvel]
    have hg : 0 ≤ (vals L2.gradient (nodeNo 5 1 0)).val := (C103_sign hr (by norm_num) (by norm_num) e2 (x := 1) (y := 0) (by norm_num) (by norm_num)).1
    have h5 : ((Boundary.halfNum 1 (by norm_num)) *. vals L2.gradient (nodeNo 5 1 0) *. vals L.velocity (nodeNo 5 1 0)).val ≤ 0 := by
      rw [val_mul, val_mul]
      refine rnd_nonpos (mul_nonpos_of_nonneg_of_nonpos (rnd_nonneg (mul_nonneg (by simp [Boundary.halfNum]) hg)) ?_)
      rw [hv _ (by decide)]; norm_num
    have h6 : (vals L.signedDistance (nodeNo 5 1 0)).val = 1 / 2 := by
      have := hφ 1 0 (by norm_num) (by norm_num)
      unfold lay at this
      rw [this]; norm_num
    refine lt_of_lt_of_le (b := (vals L.signedDistance (nodeNo 5 1 0)).val) (by rw [h6]; norm_num) ?_
    rw [val_sub]
    calc (vals L.signedDistance (nodeNo 5 1 0)).val = binary64.rnd (vals L.signedDistance (nodeNo 5 1 0)).val := (vals L.signedDistance (nodeNo 5 1 0)).fix.symm
      _ ≤ _ := binary64.mono (by linarith)

end Slsm
