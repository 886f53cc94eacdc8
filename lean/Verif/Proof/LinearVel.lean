import Verif.Proof.Linear
import Mathlib.Algebra.BigOperators.Pi

/-! # The velocities of the nodes are linear in the speeds of the boundary points -/

namespace Slsm

/-- The boundary points with other speeds. -/
noncomputable def withSpeeds (points : List (BoundaryPoint ℝ)) (u : Nat → ℝ) : List (BoundaryPoint ℝ) :=
  points.mapIdx fun i p => { p with velocity := u i }

namespace LevelSet

variable {n : Nat} {m : Mesh ℝ} {W : Type} [AddCommGroup W] [Module ℝ W] [Preorder W]

/-- State of the deposit: flags and weights, and the velocities. -/
def putD (a : List Bool × List ℝ) (x : Fin n → ℝ) : List Bool × List ℝ × List ℝ := (a.1, a.2, List.ofFn x)

/-- Flags and weights of all nodes, no weight negative. -/
def Weights (n : Nat) (a : List Bool × List ℝ) : Prop := a.1.length = n ∧ a.2.length = n ∧ ∀ q ∈ a.2, 0 ≤ q

theorem weights_set {n node : Nat} {b : List Bool} {a : List Bool × List ℝ} (h : Weights n a) {q : ℝ} (hq : 0 ≤ q) (hb : b.length = n) :
    Weights n (b, a.2.set node q) := by
  refine ⟨hb, by simp [h.2.1], fun x hx => ?_⟩
  rcases List.mem_or_eq_of_mem_set hx with h' | h'
  · exact h.2.2 x h'
  · rw [h']; exact hq

theorem lin_deposit (node : Nat) {r : ℝ} (hr : 0 ≤ r) {a : List Bool × List ℝ} (ha : Weights n a) {M : W →ₗ[ℝ] (Fin n → ℝ)} (hM : Monotone M)
    {φ : W →ₗ[ℝ] ℝ} (hφ : Monotone φ) :
    Lin (V := W) (X := Fin n → ℝ) (Weights n) putD (fun w => deposit node (φ w) r (putD a (M w))) := by
  by_cases hn : node < n
  · have h1 : wr a.2 node (FP.nat 1) = .ok (a.2.set node (FP.nat 1)) := wr_eq _ (by rw [ha.2.1]; exact hn)
    have h2 : wr a.1 node true = .ok (a.1.set node true) := wr_eq _ (by rw [ha.1]; exact hn)
    refine Lin.ite (c := (FP.lt r (FP.lit 1 1000000)) = true) (fun _ => ?_) fun _ => ?_
    · refine Lin.wr (i := node) (M := M) (φ := φ) (f := fun vel _ => wr a.2 node (FP.nat 1) >>= fun weight => wr a.1 node true >>= fun isSet =>
        pure (isSet, weight, vel)) fun hi => ?_
      refine Lin.const (wr a.2 node (FP.nat 1)) fun q hq => Lin.const (wr a.1 node true) fun b hb => ?_
      refine Lin.mk (b, q) ?_ (setAt ⟨node, hi⟩ M φ) (setAt_mono hM hφ)
      rw [h1] at hq
      rw [h2] at hb
      cases hq
      cases hb
      exact weights_set ha (by simp [FP.nat_real]) (by simp [ha.1])
    · refine Lin.const (rd a.1 node) fun st _ => Lin.ite (c := st = true) (fun _ => Lin.mk a ha M hM) fun _ => ?_
      refine Lin.rd (i := node) (M := M) (f := fun u w => wr (List.ofFn (M w)) node (u +. φ w /. r) >>= fun vel => rd a.2 node >>= fun q =>
        wr a.2 node (q +. FP.nat 1 /. r) >>= fun weight => pure (a.1, weight, vel)) fun hi => ?_
      let ψ : W →ₗ[ℝ] ℝ := LinearMap.proj (⟨node, hi⟩ : Fin n) ∘ₗ M + (1 / r) • φ
      have hψ : Monotone ψ := fun u v h => add_le_add (hM h _) (mul_le_mul_of_nonneg_left (hφ h) (by positivity))
      refine Lin.congr (Lin.wr (i := node) (M := M) (φ := ψ) (f := fun vel _ => rd a.2 node >>= fun q =>
        wr a.2 node (q +. FP.nat 1 /. r) >>= fun weight => pure (a.1, weight, vel)) fun hi => ?_) ?_
      · refine Lin.const (rd a.2 node) fun q hq => Lin.const (wr a.2 node (q +. FP.nat 1 /. r)) fun b hb => ?_
        refine Lin.mk (a.1, b) ?_ (setAt ⟨node, hi⟩ M ψ) (setAt_mono hM hψ)
        rw [wr_eq _ (by rw [ha.2.1]; exact hn)] at hb
        cases hb
        refine weights_set ha ?_ ha.1
        have : 0 ≤ q := by
          rw [rd_of_getElem? (List.getElem?_eq_getElem (by rw [ha.2.1]; exact hn))] at hq
          cases hq
          exact ha.2.2 _ (List.getElem_mem _)
        change 0 ≤ q + ((1 : ℕ) : ℝ) / r
        positivity
      · intro w
        have : M w ⟨node, hi⟩ +. φ w /. r = ψ w := by
          change M w ⟨node, hi⟩ + φ w / r = M w ⟨node, hi⟩ + (1 / r) * φ w
          ring
        beta_reduce
        rw [this]
  · refine Lin.ite (c := (FP.lt r (FP.lit 1 1000000)) = true) (fun _ => .inl ⟨.ub, fun w => ?_⟩) fun _ => .inl ⟨.ub, fun w => ?_⟩
    · change wr (List.ofFn (M w)) node (φ w) >>= _ = _
      rw [wr_ub _ (by simp; omega)]
      rfl
    · change rd a.1 node >>= _ = _
      rw [rd_ub (by rw [ha.1]; omega)]
      rfl

theorem sqDist_nonneg (a b : Coord ℝ) : 0 ≤ sqDist a b := add_nonneg (mul_self_nonneg _) (mul_self_nonneg _)

theorem lin_depositNbr (node j : Nat) (p : BoundaryPoint ℝ) {a : List Bool × List ℝ} (ha : Weights n a) {M : W →ₗ[ℝ] (Fin n → ℝ)} (hM : Monotone M)
    {φ : W →ₗ[ℝ] ℝ} (hφ : Monotone φ) :
    Lin (V := W) (X := Fin n → ℝ) (Weights n) putD (fun w => depositNbr m node { p with velocity := φ w } j (putD a (M w))) := by
  refine Lin.const (nbr m node j) fun k _ => Lin.ite (fun _ => Lin.const (rd m.nodes k) fun nd _ =>
    Lin.ite (c := (FP.lt (sqDist nd.coord p.coord) (FP.lit 1 1000000) || FP.le (sqDist nd.coord p.coord) (FP.nat 1)) = true) (fun _ => ?_)
    fun _ => Lin.mk a ha M hM) fun _ => Lin.mk a ha M hM
  exact lin_deposit k (sqDist_nonneg _ _) ha hM hφ

theorem lin_depositPoint (p : BoundaryPoint ℝ) {a : List Bool × List ℝ} (ha : Weights n a) {M : W →ₗ[ℝ] (Fin n → ℝ)} (hM : Monotone M)
    {φ : W →ₗ[ℝ] ℝ} (hφ : Monotone φ) :
    Lin (V := W) (X := Fin n → ℝ) (Weights n) putD (fun w => depositPoint m { p with velocity := φ w } (putD a (M w))) := by
  refine Lin.const (m.getClosestNode p.coord) fun node _ => Lin.const (rd m.nodes node) fun nd _ => ?_
  refine Lin.bind (f := fun w s => forN 4 s (depositNbr m node { p with velocity := φ w })) (lin_deposit node (sqDist_nonneg nd.coord p.coord) ha hM hφ)
    fun b hb => ?_
  refine Lin.forN (f := fun (q : W × (Fin n → ℝ)) j s => depositNbr m node { p with velocity := φ q.1 } j s) hb
    (M := LinearMap.snd ℝ W (Fin n → ℝ)) (by intro u v h; exact h.2) (fun _ => rfl) 4 fun j _ c hc => ?_
  exact lin_depositNbr node j p hc (M := LinearMap.snd ℝ (W × (Fin n → ℝ)) (Fin n → ℝ)) (by intro u v h; exact h.2)
    (φ := φ ∘ₗ LinearMap.fst ℝ W (Fin n → ℝ) ∘ₗ LinearMap.fst ℝ (W × (Fin n → ℝ)) (Fin n → ℝ)) (by intro u v h; exact hφ h.1.1)

theorem lin_normaliseNode (narrowBand : List Nat) {weight : List ℝ} (hl : weight.length = n) (hw : ∀ q ∈ weight, 0 ≤ q) (i : Nat) :
    Lin (V := Fin n → ℝ) (X := Fin n → ℝ) (fun _ : Unit => True) (fun _ x => List.ofFn x)
      (fun v => normaliseNode narrowBand weight i (List.ofFn v)) := by
  refine Lin.const (rd narrowBand i) fun node _ => ?_
  refine Lin.rd (i := node) (M := LinearMap.id) (f := fun x v => if FP.eq x (FP.nat 0) then pure (List.ofFn v) else
    rd weight node >>= fun q => wr (List.ofFn v) node (x /. q)) fun hi => ?_
  let q := weight[node]'(by omega)
  have hq : 0 ≤ q := hw _ (List.getElem_mem _)
  let φ : (Fin n → ℝ) →ₗ[ℝ] ℝ := (1 / q) • LinearMap.proj (⟨node, hi⟩ : Fin n)
  have hφ : Monotone φ := fun u v h => mul_le_mul_of_nonneg_left (h _) (by positivity)
  refine Lin.congr (Lin.mk () trivial (setAt ⟨node, hi⟩ LinearMap.id φ) (setAt_mono monotone_id hφ)) fun v => ?_
  beta_reduce
  have hφv : φ v = v ⟨node, hi⟩ / q := by
    change 1 / q * v ⟨node, hi⟩ = _
    ring
  have hs : (List.ofFn v).set node (v ⟨node, hi⟩ / q) = List.ofFn (setAt ⟨node, hi⟩ LinearMap.id φ v) := by
    refine List.ext_getElem (by simp) fun j h1 h2 => ?_
    simp only [List.getElem_set, List.getElem_ofFn]
    change _ = Function.update v ⟨node, hi⟩ (φ v) ⟨j, _⟩
    by_cases h : node = j
    · subst h; simp [hφv]
    · rw [if_neg h, Function.update_of_ne]
      intro h'
      exact h (Fin.mk.inj_iff.1 h').symm
  rw [← hs, rd_of_getElem? (a := q) (List.getElem?_eq_getElem (by omega))]
  by_cases h0 : FP.eq (v ⟨node, hi⟩) (FP.nat 0) = true
  · have hz : v ⟨node, hi⟩ = 0 := by simpa [FP.nat_real] using h0
    change (if FP.eq (v ⟨node, hi⟩) (FP.nat 0) = true then _ else _) = _
    rw [if_pos h0]
    congr 1
    refine List.ext_getElem (by simp) fun j h1 h2 => ?_
    simp only [List.getElem_set, List.getElem_ofFn]
    by_cases h : node = j
    · subst h; simp [hz]
    · rw [if_neg h]
  · change (if FP.eq (v ⟨node, hi⟩) (FP.nat 0) = true then _ else _) = _
    rw [if_neg h0]
    exact wr_eq _ (by simpa using hi)

theorem lin_deposits (points : List (BoundaryPoint ℝ)) {a : List Bool × List ℝ} (ha : Weights n a) :
    Lin (V := Nat → ℝ) (X := Fin n → ℝ) (Weights n) putD
      (fun u => forN points.length (putD a (0 : Fin n → ℝ)) fun i s => rd points i >>= fun p => depositPoint m { p with velocity := u i } s) := by
  have hstep : ∀ i, i < points.length → ∀ b, Weights n b → Lin (V := (Nat → ℝ) × (Fin n → ℝ)) (X := Fin n → ℝ) (Weights n) putD
      (fun p => rd points i >>= fun q => depositPoint m { q with velocity := p.1 i } (putD b p.2)) := by
    intro i _ b hb
    refine Lin.const (rd points i) fun p _ => ?_
    have hφ : Monotone (LinearMap.proj (R := ℝ) (φ := fun _ : Nat => ℝ) i ∘ₗ LinearMap.fst ℝ (Nat → ℝ) (Fin n → ℝ)) := by
      intro u v h
      exact h.1 i
    have hM : Monotone (LinearMap.snd ℝ (Nat → ℝ) (Fin n → ℝ)) := by
      intro u v h
      exact h.2
    exact Lin.congr (lin_depositPoint (m := m) p hb hM hφ) fun _ => rfl
  have hM : Monotone (0 : (Nat → ℝ) →ₗ[ℝ] (Fin n → ℝ)) := by
    intro u v _
    rw [LinearMap.zero_apply, LinearMap.zero_apply]
  exact Lin.forN (V := Nat → ℝ) (X := Fin n → ℝ) (s := fun _ => putD a (0 : Fin n → ℝ))
    (f := fun (u : Nat → ℝ) i s => rd points i >>= fun p => depositPoint m { p with velocity := u i } s) ha (M := 0)
    hM (fun _ => by rw [LinearMap.zero_apply]) points.length hstep

/-- The velocities the boundary points give to the nodes. -/
theorem lin_initialiseVelocities (points : List (BoundaryPoint ℝ)) {L : LevelSet ℝ} (hl : L.velocity.length = L.mesh.nNodes) :
    Lin (V := Nat → ℝ) (X := Fin L.mesh.nNodes → ℝ) (fun _ : Unit => True) (fun _ x => { L with velocity := List.ofFn x })
      (fun u => initialiseVelocities (withSpeeds points u) L) := by
  have hz : forN L.mesh.nNodes L.velocity (fun i v => wr v i (FP.nat 0)) = .ok (List.ofFn (0 : Fin L.mesh.nNodes → ℝ)) := by
    rw [forN_assign hl (fun _ => FP.nat 0) (fun i t hi ht _ => wr_eq _ (by omega))]
    congr 1
    refine List.ext_getElem (by simp) fun j h1 h2 => ?_
    simp [FP.nat_real]
  have hW : Weights L.mesh.nNodes (List.replicate L.mesh.nNodes false, List.replicate L.mesh.nNodes (FP.nat 0)) :=
    ⟨by simp, by simp, fun q hq => by rw [List.eq_of_mem_replicate hq]; simp [FP.nat_real]⟩
  have hA := lin_deposits (m := L.mesh) points hW
  have hB : ∀ b, Weights L.mesh.nNodes b → Lin (V := Fin L.mesh.nNodes → ℝ) (X := Fin L.mesh.nNodes → ℝ) (fun _ : Unit => True)
      (fun _ x => { L with velocity := List.ofFn x })
      (fun x => forN L.nNarrowBand (putD b x).2.2 (normaliseNode L.narrowBand (putD b x).2.1) >>= fun vel => pure { L with velocity := vel }) := by
    intro b hb
    have h1 : Lin (V := Fin L.mesh.nNodes → ℝ) (X := Fin L.mesh.nNodes → ℝ) (fun _ : Unit => True) (fun _ x => List.ofFn x)
        (fun x => forN L.nNarrowBand (List.ofFn x) (normaliseNode L.narrowBand b.2)) :=
      Lin.forN' (P := fun _ : Unit => True) (put := fun _ x => List.ofFn x) (a := ()) trivial L.nNarrowBand
        fun i _ _ _ => lin_normaliseNode L.narrowBand hb.2.1 hb.2.2 i
    exact Lin.andThen h1 fun _ _ => Lin.leaf (P := fun _ : Unit => True) (put := fun _ (x : Fin L.mesh.nNodes → ℝ) => { L with velocity := List.ofFn x }) () trivial
  refine Lin.congr (Lin.andThen (f := fun s => forN L.nNarrowBand s.2.2 (normaliseNode L.narrowBand s.2.1) >>= fun vel => pure { L with velocity := vel }) hA hB) ?_
  · intro u
    change (forN L.mesh.nNodes L.velocity (fun i v => wr v i (FP.nat 0)) >>= _) = _
    rw [hz]
    change (forN (withSpeeds points u).length _ _ >>= _) = _
    have hlen : (withSpeeds points u).length = points.length := by simp [withSpeeds]
    rw [hlen, forN_congr (f' := fun i s => rd points i >>= fun p => depositPoint L.mesh { p with velocity := u i } s)]
    · rfl
    · intro i hi s
      rw [rd_of_getElem? (List.getElem?_eq_getElem (l := points) hi),
        rd_of_getElem? (a := { points[i] with velocity := u i }) (by simp [withSpeeds, hi])]
      rfl

/-- The velocities after the extension. -/
theorem lin_computeVelocities (points : List (BoundaryPoint ℝ)) {L : LevelSet ℝ} (hl : L.velocity.length = L.mesh.nNodes) :
    Lin (V := Nat → ℝ) (X := Fin L.mesh.nNodes → ℝ) (fun _ : List ℝ => True) (fun sd x => { L with signedDistance := sd, velocity := List.ofFn x })
      (fun u => computeVelocities (withSpeeds points u) L) := by
  have hB : Lin (V := Fin L.mesh.nNodes → ℝ) (X := Fin L.mesh.nNodes → ℝ) (fun _ : List ℝ => True)
      (fun sd x => { L with signedDistance := sd, velocity := List.ofFn x })
      (fun v => FMM.marchVelocity L.mesh L.signedDistance (List.ofFn v) (FMM.new L.mesh false) >>= fun F =>
        pure { L with signedDistance := F.sd, velocity := F.vel }) :=
    Lin.andThen (FMM.lin_marchVelocity (m := L.mesh) L.signedDistance (FMM.new L.mesh false)) fun F _ =>
      Lin.leaf (P := fun _ : List ℝ => True) (put := fun sd (x : Fin L.mesh.nNodes → ℝ) => { L with signedDistance := sd, velocity := List.ofFn x }) F.sd trivial
  exact Lin.congr (Lin.andThen (f := fun L1 => FMM.marchVelocity L1.mesh L1.signedDistance L1.velocity (FMM.new L1.mesh false) >>= fun F =>
    pure { L1 with signedDistance := F.sd, velocity := F.vel }) (lin_initialiseVelocities points hl) fun _ _ => hB) fun u => rfl

theorem depositPoint_congr {p q : BoundaryPoint ℝ} (h1 : p.coord = q.coord) (h2 : p.velocity = q.velocity) (s : List Bool × List ℝ × List ℝ) :
    depositPoint m p s = depositPoint m q s := by
  have : ∀ node, depositNbr m node p = depositNbr m node q := by
    intro node
    funext j s
    unfold depositNbr
    rw [h1, h2]
  unfold depositPoint
  simp only [this, h1, h2]

/-- Of the boundary points only positions and speeds count. -/
theorem computeVelocities_congr {points points' : List (BoundaryPoint ℝ)} (h1 : points'.map (·.coord) = points.map (·.coord)) (L : LevelSet ℝ) :
    computeVelocities points' L = computeVelocities (withSpeeds points fun j => ((points'[j]?).map (·.velocity)).getD 0) L := by
  have hlen : points'.length = points.length := by simpa using congrArg List.length h1
  have : initialiseVelocities points' L = initialiseVelocities (withSpeeds points fun j => ((points'[j]?).map (·.velocity)).getD 0) L := by
    unfold initialiseVelocities
    have hl : (withSpeeds points fun j => ((points'[j]?).map (·.velocity)).getD 0).length = points'.length := by simp [withSpeeds, hlen]
    rw [hl]
    have : ∀ s : List Bool × List ℝ × List ℝ, forN points'.length s (fun i s => rd points' i >>= fun p => depositPoint L.mesh p s) =
        forN points'.length s (fun i s => rd (withSpeeds points fun j => ((points'[j]?).map (·.velocity)).getD 0) i >>= fun p => depositPoint L.mesh p s) := by
      intro s
      refine forN_congr fun i hi t => ?_
      have hi' : i < points.length := by omega
      have hc : points'[i].coord = points[i].coord := by
        have := congrArg (fun l => l[i]?) h1
        simpa [hi, hi'] using this
      have hr : rd (withSpeeds points fun j => ((points'[j]?).map (·.velocity)).getD 0) i = .ok { points[i] with velocity := points'[i].velocity } :=
        rd_of_getElem? (by simp [withSpeeds, hi, hi'])
      rw [rd_of_getElem? (List.getElem?_eq_getElem hi), hr]
      exact depositPoint_congr (q := { points[i] with velocity := points'[i].velocity }) hc rfl t
    simp only [this]
  unfold computeVelocities
  rw [this]

theorem ofFn_eq_range {n : Nat} (f : Nat → ℝ) : List.ofFn (fun i : Fin n => f i) = (List.range n).map f := by
  refine List.ext_getElem (by simp) fun j h1 h2 => ?_
  simp

theorem sum_mapIdx (l : List (BoundaryPoint ℝ)) (a : Nat → ℝ) :
    (l.mapIdx fun j p => a j * p.velocity).sum = ∑ j ∈ Finset.range l.length, a j * ((l[j]?).map (·.velocity)).getD 0 := by
  induction l using List.reverseRecOn with
  | nil => simp
  | append_singleton l p ih =>
    rw [List.mapIdx_concat, List.sum_append, ih, List.length_append, List.length_singleton, Finset.sum_range_succ]
    congr 1
    · refine Finset.sum_congr rfl fun j hj => ?_
      rw [List.getElem?_append_left (Finset.mem_range.1 hj)]
    · simp

/-- The velocities of the nodes are combinations of the speeds with coefficients that are not negative. -/
theorem computeVelocities_matrix (points : List (BoundaryPoint ℝ)) {L : LevelSet ℝ} (hl : L.velocity.length = L.mesh.nNodes) :
    (∃ e, ∀ points' : List (BoundaryPoint ℝ), points'.map (·.coord) = points.map (·.coord) → computeVelocities points' L = .error e) ∨
    ∃ (sd : List ℝ) (A : Nat → Nat → ℝ), (∀ i j, 0 ≤ A i j) ∧ ∀ points' : List (BoundaryPoint ℝ), points'.map (·.coord) = points.map (·.coord) →
      computeVelocities points' L = .ok { L with signedDistance := sd, velocity := (List.range L.mesh.nNodes).map fun i =>
        (points'.mapIdx fun j p => A i j * p.velocity).sum } := by
  rcases lin_computeVelocities points hl with ⟨e, h⟩ | ⟨sd, -, M, hM, h⟩
  · exact .inl ⟨e, fun points' hp => by rw [computeVelocities_congr hp]; exact h _⟩
  · let A : Nat → Nat → ℝ := fun i j => if hi : i < L.mesh.nNodes then M (Pi.single j 1) ⟨i, hi⟩ else 0
    refine .inr ⟨sd, A, fun i j => ?_, fun points' hp => ?_⟩
    · by_cases hi : i < L.mesh.nNodes
      · simp only [A, dif_pos hi]
        have : (0 : Nat → ℝ) ≤ Pi.single j 1 := by
          intro k
          by_cases hk : k = j
          · subst hk; simp
          · simp [hk]
        have := hM this ⟨i, hi⟩
        rwa [map_zero] at this
      · simp only [A, dif_neg hi, le_refl]
    · have hlen : points'.length = points.length := by simpa using congrArg List.length hp
      rw [computeVelocities_congr hp]
      set u : Nat → ℝ := fun j => ((points'[j]?).map (·.velocity)).getD 0 with hu
      have hsum : u = ∑ j ∈ Finset.range points'.length, u j • (Pi.single j 1 : Nat → ℝ) := by
        funext k
        rw [Finset.sum_apply]
        simp only [Pi.smul_apply, smul_eq_mul, Pi.single_apply, mul_ite, mul_one, mul_zero]
        rw [Finset.sum_ite_eq (Finset.range points'.length) k u]
        by_cases hk : k < points'.length
        · simp [hk]
        · simp [hu, hk]
      rw [show computeVelocities (withSpeeds points u) L = _ from h u]
      have hv : ∀ i : Fin L.mesh.nNodes, M u i = (points'.mapIdx fun j p => A i j * p.velocity).sum := by
        intro i
        rw [sum_mapIdx]
        conv_lhs => rw [hsum]
        rw [map_sum, Finset.sum_apply]
        refine Finset.sum_congr rfl fun j _ => ?_
        rw [map_smul]
        simp only [A, dif_pos i.2, Pi.smul_apply, smul_eq_mul]
        rw [mul_comm]
      have hM' : List.ofFn (M u) = (List.range L.mesh.nNodes).map fun i => (points'.mapIdx fun j p => A i j * p.velocity).sum := by
        rw [← ofFn_eq_range]
        congr 1
        funext i
        exact hv i
      beta_reduce
      rw [hM']

end LevelSet

end Slsm
