import Verif.Proof.LSNew
import Verif.Spec.History

/-! Invariants of histories. -/

namespace Slsm

set_option linter.unusedSectionVars false

variable {D : Type} [FP D] {w h : Nat}

namespace LevelSet

variable {L L' : LevelSet D}

theorem wr_length {α : Type} (l : List α) (i : Nat) (a : α) : wp (wr l i a) (fun l' => l'.length = l.length) (fun _ => True) := by
  unfold wr
  split
  · rw [wp_ok]; simp
  · trivial

theorem wp_true {α : Type} (x : Res α) : wp x (fun _ => True) (fun _ => True) := by
  cases x <;> trivial

theorem deposit_len {n N : Nat} {v r : D} {s : List Bool × List D × List D} (hl : s.2.2.length = N) :
    wp (deposit n v r s) (fun s' => s'.2.2.length = N) (fun _ => True) := by
  obtain ⟨a, b, c⟩ := s
  unfold deposit
  dsimp only
  by_cases hc : FP.lt r (FP.lit 1 1000000) = true
  · rw [if_pos hc, wp_bind]
    refine wp_imp (wr_length _ _ _) fun c' hc' => ?_
    rw [wp_bind]; refine wp_imp (wp_true _) fun _ _ => ?_
    rw [wp_bind]; refine wp_imp (wp_true _) fun _ _ => ?_
    rw [wp_pure]; exact hc'.trans hl
  · rw [if_neg hc, wp_bind]
    refine wp_imp (wp_true _) fun st _ => ?_
    cases st
    · rw [if_neg (by simp), wp_bind]
      refine wp_imp (wp_true _) fun u _ => ?_
      rw [wp_bind]; refine wp_imp (wr_length _ _ _) fun c' hc' => ?_
      rw [wp_bind]; refine wp_imp (wp_true _) fun _ _ => ?_
      rw [wp_bind]; refine wp_imp (wp_true _) fun _ _ => ?_
      rw [wp_pure]; exact hc'.trans hl
    · rw [if_pos rfl, wp_pure]; exact hl

theorem depositPoint_len {m : Mesh D} {p : BoundaryPoint D} {N : Nat} {s : List Bool × List D × List D} (hl : s.2.2.length = N) :
    wp (depositPoint m p s) (fun s' => s'.2.2.length = N) (fun _ => True) := by
  unfold depositPoint
  rw [wp_bind]; refine wp_imp (wp_true _) fun node _ => ?_
  rw [wp_bind]; refine wp_imp (wp_true _) fun nd _ => ?_
  rw [wp_bind]; refine wp_imp (deposit_len hl) fun s1 h1 => ?_
  refine wp_forN (fun _ (s : List Bool × List D × List D) => s.2.2.length = N) h1 ?_
  intro k hk s hs
  unfold depositNbr
  rw [wp_bind]; refine wp_imp (wp_true _) fun n _ => ?_
  by_cases hn : n < m.nNodes
  · rw [if_pos hn, wp_bind]; refine wp_imp (wp_true _) fun nd _ => ?_
    dsimp only
    split
    · exact deposit_len hs
    · rw [wp_pure]; exact hs
  · rw [if_neg hn, wp_pure]; exact hs

theorem initialiseVelocities_len (points : List (BoundaryPoint D)) (L : LevelSet D) :
    wp (initialiseVelocities points L) (fun L' => L' = { L with velocity := L'.velocity } ∧
      L'.velocity.length = L.velocity.length) (fun _ => True) := by
  unfold initialiseVelocities
  dsimp only
  rw [wp_bind]
  refine wp_imp (wp_forN (fun _ (v : List D) => v.length = L.velocity.length) rfl ?_) fun v hv => ?_
  · intro k _ v hv
    exact wp_imp (wr_length _ _ _) fun v' h' => h'.trans hv
  rw [wp_bind]
  refine wp_imp (wp_forN (fun _ (s : List Bool × List D × List D) => s.2.2.length = L.velocity.length) hv ?_) fun s hs => ?_
  · intro k _ s hs
    rw [wp_bind]; refine wp_imp (wp_true _) fun p _ => ?_
    exact depositPoint_len hs
  obtain ⟨a, b, c⟩ := s
  dsimp only
  rw [wp_bind]
  refine wp_imp (wp_forN (fun _ (v : List D) => v.length = L.velocity.length) hs ?_) fun v hv => ?_
  · intro k _ v hv
    unfold normaliseNode
    rw [wp_bind]; refine wp_imp (wp_true _) fun p _ => ?_
    rw [wp_bind]; refine wp_imp (wp_true _) fun p _ => ?_
    split
    · rw [wp_pure]; exact hv
    · rw [wp_bind]; refine wp_imp (wp_true _) fun p _ => ?_
      exact wp_imp (wr_length _ _ _) fun v' h' => h'.trans hv
  rw [wp_pure]
  exact ⟨rfl, hv⟩

theorem computeVelocities_len (C : Core w h L) (points : List (BoundaryPoint D)) :
    wp (computeVelocities points L) (fun L' => L' = { L with velocity := L'.velocity } ∧
      L'.velocity.length = L.mesh.nNodes) (fun _ => True) := by
  unfold computeVelocities
  rw [wp_bind]
  refine wp_imp (initialiseVelocities_len points L) fun L1 h1 => ?_
  have hv1 : L1.velocity.length = L.mesh.nNodes := h1.2.trans C.velocity
  have es : L1.signedDistance = L.signedDistance := by rw [h1.1]
  have em : L1.mesh = L.mesh := by rw [h1.1]
  have hm := FMM.marchVelocity_spec C.grid L.signedDistance L1.velocity C.sd hv1 false
  rw [em, es, wp_bind]
  refine wp_mono hm ?_ fun e _ => trivial
  rintro F' ⟨k1, F, M, k3, -⟩
  rw [wp_pure]
  refine ⟨?_, by show F'.vel.length = _; rw [k3]; exact M.L.v M.isV⟩
  dsimp only; rw [k1, h1.1]

theorem computeGradients_len (L : LevelSet D) :
    wp (computeGradients L) (fun L' => L' = { L with gradient := L'.gradient } ∧
      L'.gradient.length = L.gradient.length) (fun _ => True) := by
  unfold computeGradients
  dsimp only
  rw [wp_bind]
  refine wp_imp (wp_forN (fun _ (v : List D) => v.length = L.gradient.length) (by simp) ?_) fun v hv => ?_
  · intro k _ v hv
    rw [wp_bind]; refine wp_imp (wp_true _) fun p _ => ?_
    rw [wp_bind]; refine wp_imp (wp_true _) fun p _ => ?_
    exact wp_imp (wr_length _ _ _) fun v' h' => h'.trans hv
  rw [wp_pure]
  exact ⟨rfl, hv⟩

/-- Relation between the states before and after a call that all histories preserve. -/
structure Evolves (w h : Nat) (L L' : LevelSet D) : Prop where
  core : Core w h L'
  masked : ∀ i, L.Masked i → L'.Masked i
  params : L'.moveLimit = L.moveLimit ∧ L'.bandWidth = L.bandWidth ∧ L'.isFixedDomain = L.isFixedDomain

theorem wp_of_ok {α : Type} {x : Res α} {a : α} {P : α → Prop} {E : Err → Prop} (h : wp x P E) (e : x = .ok a) : P a := by
  rw [e] at h; exact h

theorem Moved.masked {dt : D} {P : Nat → Prop} (M : Moved L dt P L') (i : Nat) : L'.Masked i ↔ L.Masked i :=
  flag_iff (fun nd => (nd.isMasked, nd.isDomain, nd.isActive, nd.isMine)) (fun t => t.1 = true) (M.node i)

theorem Banded.params (hB : Banded L L') :
    L'.moveLimit = L.moveLimit ∧ L'.bandWidth = L.bandWidth ∧ L'.isFixedDomain = L.isFixedDomain := by
  rw [hB.frame]; exact ⟨rfl, rfl, rfl⟩

theorem MaskResult.evolves {P : Nat → Prop} (C : Core w h L) (M : MaskResult w h L P L') : Evolves w h L L' := by
  obtain ⟨L1, F, M1, hF, hs, hB⟩ := M.mid
  have hN : L'.mesh.nNodes = L.mesh.nNodes := by rw [M.wf.grid.nNodes, C.grid.nNodes]
  refine ⟨M.band.core M.wf (by rw [hN]; exact C.small), fun i hi => ?_, ?_⟩
  · have : i < L.mesh.nNodes := by
      obtain ⟨nd, h1, -⟩ := hi
      rw [← C.nodes_len]
      by_contra hc
      rw [List.getElem?_eq_none (by omega)] at h1; cases h1
    exact (M.masked i this).2 (.inl hi)
  · rw [hB.params.1, hB.params.2.1, hB.params.2.2]
    show L1.moveLimit = _ ∧ L1.bandWidth = _ ∧ L1.isFixedDomain = _
    rw [M1.frame]; exact ⟨rfl, rfl, rfl⟩

theorem Updated.evolves {dt : D} {r : Bool × LevelSet D} (C : Core w h L) (U : Updated w h L dt r) : Evolves w h L r.2 := by
  cases U with
  | no M hn =>
    refine ⟨M.core C, fun i hi => (M.masked i).2 hi, ?_⟩
    dsimp only; rw [M.frame]; exact ⟨rfl, rfl, rfl⟩
  | @yes L1 L2 F M hn hF hB W B =>
    have C1 := M.core C
    refine ⟨B.core W ?_, fun i hi => (hB.masked i).2 ((M.masked i).2 hi), ?_⟩
    · rw [W.grid.nNodes, ← C.grid.nNodes]; exact C.small
    · dsimp only
      rw [hB.params.1, hB.params.2.1, hB.params.2.2]
      show L1.moveLimit = _ ∧ L1.bandWidth = _ ∧ L1.isFixedDomain = _
      rw [M.frame]; exact ⟨rfl, rfl, rfl⟩

theorem flags_iff {m m' : Mesh D} (hf : ∀ i, flags m' i = flags m i) (i : Nat) (g : Bool × Bool × Bool × Bool → Prop) :
    (∃ nd, m'.nodes[i]? = some nd ∧ g (nd.isMasked, nd.isDomain, nd.isActive, nd.isMine)) ↔
      ∃ nd, m.nodes[i]? = some nd ∧ g (nd.isMasked, nd.isDomain, nd.isActive, nd.isMine) := by
  have := hf i
  unfold flags at this
  cases h1 : m'.nodes[i]? <;> cases h2 : m.nodes[i]? <;> rw [h1, h2] at this <;> simp at this ⊢
  rw [this.1, this.2.1, this.2.2.1, this.2.2.2]

theorem maskPoints_ne (C : Core w h L) {points : List (Coord D)} (e : maskPoints points L = .ok L') : points ≠ [] := by
  rintro rfl
  unfold maskPoints at e
  have : ∃ k, L.mesh.nNodes = k + 1 := ⟨L.mesh.nNodes - 1, by
    have := C.grid.nNodes
    have : 0 < L.mesh.nNodes := by rw [this]; positivity
    omega⟩
  obtain ⟨k, hk⟩ := this
  have hpos : 0 < L.mesh.nodes.length := by rw [C.nodes_len, hk]; omega
  have herr : ∀ n, forN (n + 1) L (fun i L => do
      let nd ← rd L.mesh.nodes i
      let inside ← inRegion [] nd.coord
      if inside then maskNode i L else pure L) = .error .ub := by
    intro n
    induction n with
    | zero =>
      show (do
        let L ← forN 0 L _
        _) = _
      simp only [forN, bind, Except.bind]
      rw [rd_node hpos]
      rfl
    | succ n ih =>
      show (do
        let L ← forN (n + 1) L _
        _) = _
      rw [ih]; rfl
  rw [hk, herr k] at e
  cases e

theorem noise_calls {ρ : Type} {normal : ρ → D × ρ} {points points' : List (BoundaryPoint D)} {dt dt' T s : D} {g g' : ρ}
    (e : computeVelocitiesNoise normal points dt T g L = .ok (points', dt', s, g', L')) :
    ∃ q, computeVelocities q L = .ok L' := by
  unfold computeVelocitiesNoise at e
  generalize thermalStep L.moveLimit dt T = r at e
  obtain ⟨r1, r2⟩ := r
  dsimp only at e
  generalize addNoise normal _ points g = q at e
  obtain ⟨q1, q2⟩ := q
  dsimp only at e
  cases hv : computeVelocities q1 L with
  | error x => rw [hv] at e; cases e
  | ok L2 =>
    rw [hv] at e
    simp only [bind, Except.bind, pure, Except.pure, Except.ok.injEq, Prod.mk.injEq] at e
    exact ⟨q1, by rw [hv, e.2.2.2.2]⟩

theorem Call.evolves (C : Core w h L) (hc : Call w h L L') : Evolves w h L L' := by
  cases hc with
  | maskHoles holes e => exact (wp_of_ok (maskHoles_spec C.toWF C.small holes) e).evolves C
  | maskPoints points e =>
    have h0 : points ≠ [] := maskPoints_ne C e
    exact (wp_of_ok (maskPoints_spec C.toWF C.small h0) e).evolves C
  | reinitialise e =>
    obtain ⟨W, B, F, hF, -, hB⟩ := wp_of_ok (reinitialise_spec C.toWF C.small) e
    refine ⟨B.core W (by rw [hB.nNodes]; exact C.small), fun i hi => (hB.masked i).2 hi, ?_⟩
    exact hB.params
  | update dt b e => exact (wp_of_ok (update_spec C dt) e).evolves C
  | velocities points e =>
    have := wp_of_ok (computeVelocities_len C points) e
    refine ⟨velocity_core C this.1 this.2, fun i hi => ?_, ?_⟩
    · rw [this.1]; exact hi
    · rw [this.1]; exact ⟨rfl, rfl, rfl⟩
  | @noisyVelocities ρ _ _ normal points points' dt dt' T s g g' e =>
    obtain ⟨q, hq⟩ := noise_calls e
    have := wp_of_ok (computeVelocities_len C q) hq
    refine ⟨velocity_core C this.1 this.2, fun i hi => ?_, ?_⟩
    · rw [this.1]; exact hi
    · rw [this.1]; exact ⟨rfl, rfl, rfl⟩
  | gradients e =>
    have := wp_of_ok (computeGradients_len L) e
    refine ⟨gradient_core C this.1 (this.2.trans C.gradient), fun i hi => ?_, ?_⟩
    · rw [this.1]; exact hi
    · rw [this.1]; exact ⟨rfl, rfl, rfl⟩
  | assign sd vel grad target h1 h2 h3 =>
    refine ⟨?_, fun i hi => hi, rfl, rfl, rfl⟩
    exact { C with sd := h1, velocity := h2, gradient := h3 }
  | annotate m area hg hf =>
    have hN : m.nNodes = L.mesh.nNodes := by rw [hg.nNodes, C.grid.nNodes]
    have hM : ∀ i, LevelSet.Masked { L with mesh := m, area := area } i ↔ L.Masked i := fun i =>
      flags_iff hf i (fun t => t.1 = true)
    refine ⟨?_, fun i hi => (hM i).2 hi, rfl, rfl, rfl⟩
    refine { grid := hg, sd := ?_, velocity := ?_, gradient := ?_, narrowBand := ?_, mines := C.mines, bandWidth := C.bandWidth,
             small := ?_, band_count := C.band_count, band_sorted := C.band_sorted, band_free := ?_,
             mine_count := C.mine_count, mine_sub := C.mine_sub, active := ?_ }
    · exact C.sd.trans hN.symm
    · exact C.velocity.trans hN.symm
    · exact C.gradient.trans hN.symm
    · exact C.narrowBand.trans hN.symm
    · show m.nNodes < _; rw [hN]; exact C.small
    · intro i hi
      obtain ⟨a, b, c⟩ := C.band_free i hi
      refine ⟨by show i < m.nNodes; rw [hN]; exact a, fun hk => b ((hM i).1 hk), fun hx hk => c hx ?_⟩
      exact (flags_iff hf i (fun t => t.2.1 = true)).1 hk
    · intro i
      exact (flags_iff hf i (fun t => t.2.2.1 = true)).trans (C.active i)

theorem Evolves.trans {L1 L2 L3 : LevelSet D} (a : Evolves w h L1 L2) (b : Evolves w h L2 L3) : Evolves w h L1 L3 :=
  ⟨b.core, fun i hi => b.masked i (a.masked i hi), b.params.1.trans a.params.1, b.params.2.1.trans a.params.2.1,
    b.params.2.2.trans a.params.2.2⟩

theorem Calls.evolves (C : Core w h L) (hc : Calls w h L L') : Evolves w h L L' := by
  induction hc with
  | refl => exact ⟨C, fun _ h => h, rfl, rfl, rfl⟩
  | snoc _ hc ih => exact ih.trans (hc.evolves ih.core)

/-- What the constructors with a target guarantee. -/
structure BuiltTarget (w h : Nat) (s t : Shape D) (moveLimit : D) (bandWidth : Nat) (f : Bool) (L : LevelSet D) : Prop where
  wf : WF w h L
  band : BandOk L
  params : L.moveLimit = moveLimit ∧ L.bandWidth = bandWidth ∧ L.isFixedDomain = f
  value : ∃ m F, Mesh.new w h = .ok m ∧ FMM.marchDistance m ((List.range m.nNodes).map (shapeVal t m)) (FMM.new m false) = .ok F ∧
    L.target = F.sd ∧ ∃ m', IsGrid w h m' ∧ L.signedDistance = (List.range m'.nNodes).map (shapeVal s m')
  unmasked : ∀ i, ¬ L.Masked i
  mine : ∀ i ∈ L.mineList, L.FlagMine i

theorem newTarget_spec (hw : 1 ≤ w) (hh : 1 ≤ h) (hN : (w + 1) * (h + 1) < 2147483648) {s t : Shape D} {moveLimit : D} {bandWidth : Nat}
    (hb : bandWidth < 4294967296) (f : Bool) (hs : ∀ l, s = .points l → l ≠ []) (ht : ∀ l, t = .points l → l ≠ []) :
    wp (newTarget w h s t moveLimit bandWidth f)
      (fun L => GoodParams moveLimit bandWidth ∧ ShapeOk D w h s ∧ ShapeOk D w h t ∧ BuiltTarget w h s t moveLimit bandWidth f L)
      (fun e => e = .exit ∧ ¬ (GoodParams moveLimit bandWidth ∧ ShapeOk D w h s ∧ ShapeOk D w h t ∧
        ∃ m F, Mesh.new w h = .ok m ∧ FMM.marchDistance m ((List.range m.nNodes).map (shapeVal t m)) (FMM.new m false) = .ok F)) := by
  unfold newTarget
  rw [wp_bind]
  refine wp_mono (base_spec ⟨hw, hh, by norm_num; omega⟩ hb f true) ?_ fun e he => ⟨he.1, fun h => he.2 h.1⟩
  rintro L ⟨hg, W, hm, p1, p2, p3, hfl⟩
  by_cases hok : ShapeOk D w h t
  · rw [initialise_eq W hok]
    simp only [bind, Except.bind]
    have W1 : WF w h { L with signedDistance := ((List.range L.mesh.nNodes).map (shapeVal t L.mesh)) } :=
      { W with sd := by simp }
    have hre := reinitialise_spec W1 (by rw [W1.grid.nNodes]; exact hN)
    cases hr : reinitialise { L with signedDistance := ((List.range L.mesh.nNodes).map (shapeVal t L.mesh)) } with
    | error e =>
      rw [hr, wp_error] at hre
      refine ⟨hre.1, ?_⟩
      rintro ⟨-, -, -, m, F, hm', hF⟩
      rw [hm] at hm'; cases hm'
      have := hre.2
      dsimp only at this
      rw [hF] at this; cases this
    | ok L1 =>
      rw [hr, wp_ok] at hre
      obtain ⟨W2, B2, F, hF, hlen, hB⟩ := hre
      dsimp only
      have W3 : WF w h { L1 with target := L1.signedDistance } := { W2 with }
      by_cases hoks : ShapeOk D w h s
      · rw [initialise_eq W3 hoks]
        dsimp only
        have W4 : WF w h { L1 with target := L1.signedDistance, signedDistance := ((List.range L1.mesh.nNodes).map (shapeVal s L1.mesh)) } :=
          { W3 with sd := by simp }
        refine wp_mono (initialiseNarrowBand_spec W4 (by rw [W4.grid.nNodes]; exact hN)) ?_ fun e he => he.elim
        rintro L' ⟨W', B', hB'⟩
        refine ⟨hg, hoks, hok, W', B', ?_, ⟨L.mesh, F, hm, hF, ?_, L1.mesh, W2.grid, by rw [hB'.frame]⟩, ?_,
          fun i hi => (hB'.flagMine W4 i).2 (.inr hi)⟩
        · rw [hB'.params.1, hB'.params.2.1, hB'.params.2.2]
          show L1.moveLimit = _ ∧ L1.bandWidth = _ ∧ L1.isFixedDomain = _
          rw [hB.params.1, hB.params.2.1, hB.params.2.2]
          exact ⟨p1, p2, p3⟩
        · rw [hB'.frame]
          show L1.signedDistance = F.sd
          rw [hB.frame]
        · intro i hi
          rw [hB'.masked] at hi
          have : L1.Masked i := hi
          rw [hB.masked] at this
          obtain ⟨nd, h1, h2⟩ := this
          rw [(hfl i nd h1).1] at h2; cases h2
      · cases s with
        | cheese =>
          rw [initialise_cheese_exit W3 hoks]
          exact ⟨rfl, fun h => hoks h.2.1⟩
        | holes l => exact absurd trivial hoks
        | points l => exact absurd (hs l rfl) hoks
  · cases t with
    | cheese =>
      rw [initialise_cheese_exit W hok]
      exact ⟨rfl, fun h => hok h.2.2.1⟩
    | holes l => exact absurd trivial hok
    | points l => exact absurd (ht l rfl) hok

theorem initialise_points_nil (W : LevelSet D) : initialise (.points []) W = .error .ub := rfl

theorem new_points_nil {moveLimit : D} {bandWidth : Nat} {f : Bool} : new w h (.points []) moveLimit bandWidth f ≠ .ok L := by
  unfold new
  cases base w h moveLimit bandWidth f false <;> simp [bind, Except.bind, initialise_points_nil]

theorem newTarget_points_nil {s t : Shape D} {moveLimit : D} {bandWidth : Nat} {f : Bool} (hst : s = .points [] ∨ t = .points []) :
    newTarget w h s t moveLimit bandWidth f ≠ .ok L := by
  unfold newTarget
  cases base w h moveLimit bandWidth f true with
  | error e => simp [bind, Except.bind]
  | ok L0 =>
    simp only [bind, Except.bind]
    rcases hst with rfl | rfl
    · cases initialise t L0 with
      | error e => simp
      | ok L1 =>
        dsimp only
        cases reinitialise L1 with
        | error e => simp
        | ok L2 => simp [initialise_points_nil]
    · simp [initialise_points_nil]

theorem Reachable.core (hr : Reachable w h L) : Core w h L := by
  induction hr with
  | @new L s moveLimit bandWidth f hw hh hN hb e =>
    norm_num at hN hb
    have hs : ∀ l, s = .points l → l ≠ [] := by
      rintro l rfl rfl; exact new_points_nil e
    obtain ⟨-, -, B⟩ := wp_of_ok (new_spec ⟨hw, hh, by norm_num; omega⟩ hN hb f hs) e
    exact B.band.core B.wf (by rw [B.wf.grid.nNodes]; exact hN)
  | @newTarget L s t moveLimit bandWidth f hw hh hN hb e =>
    norm_num at hN hb
    have hs : ∀ l, s = .points l → l ≠ [] := by
      rintro l rfl rfl; exact newTarget_points_nil (.inl rfl) e
    have ht : ∀ l, t = .points l → l ≠ [] := by
      rintro l rfl rfl; exact newTarget_points_nil (.inr rfl) e
    obtain ⟨-, -, -, B⟩ := wp_of_ok (newTarget_spec hw hh hN hb f hs ht) e
    exact B.band.core B.wf (by rw [B.wf.grid.nNodes]; exact hN)
  | call _ hc ih => exact (hc.evolves ih).core

end LevelSet

end Slsm
