import Verif.Proof.LSOps
import Verif.Proof.FMMSide
import Verif.Spec.Velocity
import Mathlib.Tactic.Positivity
import Mathlib.Tactic.Linarith
import Mathlib.Tactic.FieldSimp
import Mathlib.Tactic.Ring

/-! Velocities. -/

namespace Slsm

set_option linter.unusedSectionVars false

namespace FMM

theorem nb_inj {D : Type} [FP D] {w h : Nat} {m : Mesh D} (G : IsGrid w h m) {i j k : Nat} (hi : i < m.nNodes) (hj : j < 4) (hk : k < 4)
    (hne : nb m i j ≠ m.nNodes) (he : nb m i j = nb m i k) : j = k := by
  obtain ⟨x, y, hx, hy, rfl⟩ := G.node_index hi
  have hne' := hne
  rw [he] at hne'
  rw [nb_value G hx hy, nb_value G hx hy] at he
  rw [nb_value G hx hy, G.nNodes] at hne hne'
  have h4 : ∀ l : Nat, l < 4 → l = 0 ∨ l = 1 ∨ l = 2 ∨ l = 3 := by omega
  rcases h4 j hj with rfl | rfl | rfl | rfl <;> rcases h4 k hk with rfl | rfl | rfl | rfl <;> try rfl
  all_goals
    exfalso
    simp only [neighbourhood, List.getD_cons_zero, List.getD_cons_succ] at he hne hne'
    obtain ⟨a, b, ea, eb, ha, hb, e⟩ := nodeNoOr_ne hne
    obtain ⟨a', b', ea', eb', ha', hb', e'⟩ := nodeNoOr_ne hne'
    rw [e, e'] at he
    obtain ⟨rfl, rfl⟩ := (nodeNo_inj ha ha').1 he
    omega

end FMM

namespace LevelSet

section generic
variable {D : Type} [FP D] {w h : Nat} {m : Mesh D} {L : LevelSet D}

/-- per node accumulation -/
def upd (v r : D) (s : Bool × D × D) : Bool × D × D :=
  if FP.lt r (FP.lit 1 1000000) then (true, FP.nat 1, v)
  else if s.1 then s else (s.1, FP.add s.2.1 (FP.div (FP.nat 1) r), FP.add s.2.2 (FP.div v r))

/-- state of node `n` -/
def vAt (s : List Bool × List D × List D) (n : Nat) : Bool × D × D := (s.1.getD n false, vals s.2.1 n, vals s.2.2 n)

/-- lengths of the three arrays -/
def VLen (N : Nat) (s : List Bool × List D × List D) : Prop := s.1.length = N ∧ s.2.1.length = N ∧ s.2.2.length = N

theorem deposit_spec {N n : Nat} {v r : D} {s : List Bool × List D × List D} (hl : VLen N s) (hn : n < N) :
    wp (deposit n v r s) (fun s' => VLen N s' ∧ ∀ k, vAt s' k = if k = n then upd v r (vAt s k) else vAt s k) noErr := by
  obtain ⟨a, b, c⟩ := s
  obtain ⟨ha, hb, hc⟩ := hl
  dsimp only at ha hb hc
  unfold deposit
  dsimp only
  by_cases h1 : FP.lt r (FP.lit 1 1000000) = true
  · rw [if_pos h1, wr_eq _ (by omega : n < c.length)]
    simp only [bind, Except.bind]
    rw [wr_eq _ (by omega : n < b.length)]
    dsimp only
    rw [wr_eq _ (by omega : n < a.length)]
    dsimp only
    rw [wp_pure]
    refine ⟨⟨by simp [ha], by simp [hb], by simp [hc]⟩, fun k => ?_⟩
    unfold vAt upd
    dsimp only
    rw [if_pos h1, vals_set (by omega), vals_set (by omega)]
    by_cases e : k = n
    · subst e
      rw [if_pos rfl, if_pos rfl, if_pos rfl, List.getD_eq_getElem?_getD, List.getElem?_set_self (by omega)]; rfl
    · rw [if_neg e, if_neg e, if_neg e, List.getD_eq_getElem?_getD, List.getElem?_set_ne (Ne.symm e), ← List.getD_eq_getElem?_getD]
  · rw [if_neg h1, rd_eq (by omega : n < a.length)]
    simp only [bind, Except.bind]
    by_cases h2 : a[n]'(by omega) = true
    · rw [if_pos h2, wp_pure]
      refine ⟨⟨ha, hb, hc⟩, fun k => ?_⟩
      unfold upd vAt
      dsimp only
      by_cases e : k = n
      · subst e
        rw [if_pos rfl, if_neg h1, if_pos (by rw [List.getD_eq_getElem?_getD, List.getElem?_eq_getElem (by omega)]; exact h2)]
      · rw [if_neg e]
    · rw [if_neg h2, rd_vals (by omega : n < c.length)]
      dsimp only
      rw [wr_eq _ (by omega : n < c.length), rd_vals (by omega : n < b.length)]
      dsimp only
      rw [wr_eq _ (by omega : n < b.length)]
      dsimp only
      rw [wp_pure]
      refine ⟨⟨by simp [ha], by simp [hb], by simp [hc]⟩, fun k => ?_⟩
      unfold upd vAt
      dsimp only
      rw [vals_set (by omega), vals_set (by omega)]
      by_cases e : k = n
      · subst e
        rw [if_pos rfl, if_pos rfl, if_pos rfl, if_neg h1,
          if_neg (by rw [List.getD_eq_getElem?_getD, List.getElem?_eq_getElem (by omega)]; exact h2)]
      · rw [if_neg e, if_neg e, if_neg e]

/-- the neighbour `n` is close enough -/
def closeEnough (m : Mesh D) (p : BoundaryPoint D) (n : Nat) : Prop :=
  FP.lt (sqDist (nodeOf m n).coord p.coord) (FP.lit 1 1000000) = true ∨ FP.le (sqDist (nodeOf m n).coord p.coord) (FP.nat 1) = true

/-- node `n` receives a contribution of `p` -/
def Touch (w h : Nat) (m : Mesh D) (p : BoundaryPoint D) (c n : Nat) : Prop := n = c ∨ Adj w h c n ∧ closeEnough m p n

open Classical in
/-- per node effect of a point whose closest node is `c` -/
noncomputable def touchStep (w h : Nat) (m : Mesh D) (p : BoundaryPoint D) (c n : Nat) (s : Bool × D × D) : Bool × D × D :=
  if Touch w h m p c n then upd p.velocity (sqDist (nodeOf m n).coord p.coord) s else s

theorem depositPoint_spec (G : IsGrid w h m) {p : BoundaryPoint D} {c : Nat} (hc : m.getClosestNode p.coord = .ok c) (hcl : c < m.nNodes)
    {s : List Bool × List D × List D} (hl : VLen m.nNodes s) :
    wp (depositPoint m p s) (fun s' => VLen m.nNodes s' ∧ ∀ n, vAt s' n = touchStep w h m p c n (vAt s n)) noErr := by
  have hnl : m.nodes.length = m.nNodes := by rw [G.nodes_length, G.nNodes]
  unfold depositPoint
  rw [hc]
  simp only [bind, Except.bind]
  rw [rd_node (by omega)]
  dsimp only
  change wp ((deposit c p.velocity (sqDist (nodeOf m c).coord p.coord) s) >>= fun s => forN 4 s (depositNbr m c p)) _ _
  rw [wp_bind]
  refine wp_imp (deposit_spec hl hcl) ?_
  rintro s1 ⟨hl1, hv1⟩
  classical
  refine wp_imp (wp_forN (fun k t => VLen m.nNodes t ∧ ∀ n, vAt t n =
    if n = c ∨ n ≠ m.nNodes ∧ (∃ j, j < k ∧ nb m c j = n) ∧ closeEnough m p n then
      upd p.velocity (sqDist (nodeOf m n).coord p.coord) (vAt s n) else vAt s n) ?_ ?_) ?_
  · refine ⟨hl1, fun n => ?_⟩
    rw [hv1]
    by_cases e : n = c
    · subst e; rw [if_pos rfl, if_pos (.inl rfl)]
    · rw [if_neg e, if_neg]
      rintro (h | ⟨-, ⟨j, hj, -⟩, -⟩)
      · exact e h
      · omega
  · rintro k hk t ⟨hlt, hvt⟩
    unfold depositNbr
    rw [G.nbr_eq hcl hk]
    simp only [bind, Except.bind]
    by_cases hne : nb m c k = m.nNodes
    · rw [if_neg (by omega), wp_pure]
      refine ⟨hlt, fun n => ?_⟩
      rw [hvt]
      refine if_congr ?_ rfl rfl
      constructor
      · rintro (h | ⟨h1, ⟨j, hj, h2⟩, h3⟩)
        · exact .inl h
        · exact .inr ⟨h1, ⟨j, by omega, h2⟩, h3⟩
      · rintro (h | ⟨h1, ⟨j, hj, h2⟩, h3⟩)
        · exact .inl h
        · refine .inr ⟨h1, ⟨j, ?_, h2⟩, h3⟩
          by_contra hc'
          have : j = k := by omega
          subst this
          exact h1 (h2 ▸ hne)
    · have hlt' := FMM.nb_lt G hcl hk hne
      rw [if_pos hlt', rd_node (by omega)]
      dsimp only
      have hkc : nb m c k ≠ c := fun h => FMM.adj_ne (FMM.adj_nb G hcl hk hne) h.symm
      have hvk : vAt t (nb m c k) = vAt s (nb m c k) := by
        rw [hvt, if_neg]
        rintro (h | ⟨h1, ⟨j, hj, h2⟩, h3⟩)
        · exact hkc h
        · have := FMM.nb_inj G hcl (by omega : j < 4) hk (h2 ▸ h1) h2
          omega
      by_cases hce : closeEnough m p (nb m c k)
      · rw [if_pos (by rw [Bool.or_eq_true]; exact hce)]
        refine wp_imp (deposit_spec hlt hlt') ?_
        rintro t' ⟨hl', hv'⟩
        refine ⟨hl', fun n => ?_⟩
        rw [hv']
        by_cases e : n = nb m c k
        · subst e
          rw [if_pos rfl, hvk, if_pos (.inr ⟨hne, ⟨k, by omega, rfl⟩, hce⟩)]
        · rw [if_neg e, hvt]
          refine if_congr ?_ rfl rfl
          constructor
          · rintro (h | ⟨h1, ⟨j, hj, h2⟩, h3⟩)
            · exact .inl h
            · exact .inr ⟨h1, ⟨j, by omega, h2⟩, h3⟩
          · rintro (h | ⟨h1, ⟨j, hj, h2⟩, h3⟩)
            · exact .inl h
            · refine .inr ⟨h1, ⟨j, ?_, h2⟩, h3⟩
              by_contra hc'
              have : j = k := by omega
              subst this
              exact e h2.symm
      · rw [if_neg (by rw [Bool.or_eq_true]; exact hce), wp_pure]
        refine ⟨hlt, fun n => ?_⟩
        rw [hvt]
        refine if_congr ?_ rfl rfl
        constructor
        · rintro (h | ⟨h1, ⟨j, hj, h2⟩, h3⟩)
          · exact .inl h
          · exact .inr ⟨h1, ⟨j, by omega, h2⟩, h3⟩
        · rintro (h | ⟨h1, ⟨j, hj, h2⟩, h3⟩)
          · exact .inl h
          · refine .inr ⟨h1, ⟨j, ?_, h2⟩, h3⟩
            by_contra hc'
            have : j = k := by omega
            subst this
            rw [h2] at hce
            exact hce h3
  · rintro t ⟨hlt, hvt⟩
    refine ⟨hlt, fun n => ?_⟩
    rw [hvt]
    unfold touchStep
    have hiff : (n = c ∨ n ≠ m.nNodes ∧ (∃ j, j < 4 ∧ nb m c j = n) ∧ closeEnough m p n) ↔ Touch w h m p c n := by
      unfold Touch
      rw [FMM.adj_iff G hcl]
      tauto
    by_cases ht : Touch w h m p c n
    · rw [if_pos (hiff.2 ht), if_pos ht]
    · rw [if_neg (fun h => ht (hiff.1 h)), if_neg ht]

/-- A closest node is found for every point. -/
def PointsOk (m : Mesh D) (points : List (BoundaryPoint D)) : Prop :=
  ∀ p ∈ points, ∃ c, m.getClosestNode p.coord = .ok c ∧ c < m.nNodes

/-- closest node -/
def closest (m : Mesh D) (p : BoundaryPoint D) : Nat :=
  match m.getClosestNode p.coord with
  | .ok c => c
  | .error _ => 0

theorem closest_eq {p : BoundaryPoint D} {c : Nat} (hc : m.getClosestNode p.coord = .ok c) : closest m p = c := by
  unfold closest; rw [hc]

/-- per node fold over the points -/
noncomputable def nodeSum (w h : Nat) (m : Mesh D) (points : List (BoundaryPoint D)) (n : Nat) : Bool × D × D :=
  points.foldl (fun s p => touchStep w h m p (closest m p) n s) (false, FP.nat 0, FP.nat 0)

theorem depositAll_spec (G : IsGrid w h m) {points : List (BoundaryPoint D)} (hp : PointsOk m points) {vel : List D}
    (hvel : vel.length = m.nNodes) (hz : ∀ n, n < m.nNodes → vals vel n = FP.nat 0) :
    wp (forN points.length (List.replicate m.nNodes false, List.replicate m.nNodes (FP.nat 0), vel) fun i s => do
      let p ← rd points i
      depositPoint m p s) (fun s => VLen m.nNodes s ∧ ∀ n, n < m.nNodes → vAt s n = nodeSum w h m points n) noErr := by
  refine wp_imp (wp_forN (fun k s => VLen m.nNodes s ∧ ∀ n, n < m.nNodes → vAt s n = nodeSum w h m (points.take k) n) ?_ ?_) ?_
  · refine ⟨⟨by simp, by simp, hvel⟩, fun n hn => ?_⟩
    unfold vAt nodeSum
    dsimp only
    rw [hz n hn]
    have : vals (List.replicate m.nNodes (FP.nat 0 : D)) n = FP.nat 0 := by
      unfold vals; rw [List.getD_eq_getElem?_getD, List.getElem?_replicate, if_pos hn]; rfl
    rw [this, List.getD_eq_getElem?_getD, List.getElem?_replicate, if_pos hn]; rfl
  · rintro k hk s ⟨hl, hv⟩
    obtain ⟨c, hc, hcl⟩ := hp _ (List.getElem_mem hk)
    rw [rd_eq hk]
    simp only [bind, Except.bind]
    refine wp_imp (depositPoint_spec G hc hcl hl) ?_
    rintro s' ⟨hl', hv'⟩
    refine ⟨hl', fun n hn => ?_⟩
    rw [hv', hv n hn]
    unfold nodeSum
    rw [List.take_succ_eq_append_getElem hk, List.foldl_append]
    simp only [List.foldl_cons, List.foldl_nil]
    rw [closest_eq hc]
  · rintro s ⟨hl, hv⟩
    rw [List.take_length] at hv
    exact ⟨hl, hv⟩

/-- velocity of node `n` after the normalisation -/
noncomputable def initialVel (w h : Nat) (L : LevelSet D) (points : List (BoundaryPoint D)) (n : Nat) : D :=
  let s := nodeSum w h L.mesh points n
  if n ∈ L.band ∧ ¬ FP.eq s.2.2 (FP.nat 0) = true then FP.div s.2.2 s.2.1 else s.2.2

theorem initialiseVelocities_spec (C : Core w h L) {points : List (BoundaryPoint D)} (hp : PointsOk L.mesh points) :
    wp (initialiseVelocities points L) (fun L' => L' = { L with velocity := L'.velocity } ∧ L'.velocity.length = L.mesh.nNodes ∧
      ∀ n, n < L.mesh.nNodes → vals L'.velocity n = initialVel w h L points n) noErr := by
  have hlen : L.band.length = L.nNarrowBand := by unfold band; simp [C.band_count]
  unfold initialiseVelocities
  dsimp only
  rw [forN_assign C.velocity (fun _ => FP.nat 0) (fun i t hi ht _ => wr_eq _ (by omega))]
  simp only [bind, Except.bind]
  have hz : ∀ n, n < L.mesh.nNodes → vals ((List.range L.mesh.nNodes).map fun _ => (FP.nat 0 : D)) n = FP.nat 0 := by
    intro n hn
    unfold vals
    rw [List.getD_eq_getElem?_getD, List.getElem?_map, List.getElem?_range hn]; rfl
  have hd := depositAll_spec (w := w) (h := h) C.grid hp (vel := (List.range L.mesh.nNodes).map fun _ => (FP.nat 0 : D)) (by simp) hz
  obtain ⟨s, hs, hl, hv⟩ := wp_noErr_iff.1 hd
  simp only [bind, Except.bind] at hs
  rw [hs]
  obtain ⟨a, b, c⟩ := s
  dsimp only
  change wp ((forN L.nNarrowBand c (normaliseNode L.narrowBand b)) >>= fun vel => pure { L with velocity := vel }) _ _
  rw [wp_bind]
  obtain ⟨ha, hb, hc⟩ := hl
  dsimp only at ha hb hc
  have e2 : ∀ n, n < L.mesh.nNodes → vals b n = (nodeSum w h L.mesh points n).2.1 := fun n hn => by rw [← hv n hn]; rfl
  have e3 : ∀ n, n < L.mesh.nNodes → vals c n = (nodeSum w h L.mesh points n).2.2 := fun n hn => by rw [← hv n hn]; rfl
  refine wp_imp (wp_forN (fun k v => v.length = L.mesh.nNodes ∧ ∀ n, n < L.mesh.nNodes → vals v n =
    if n ∈ L.band.take k ∧ ¬ FP.eq (vals c n) (FP.nat 0) = true then FP.div (vals c n) (vals b n) else vals c n) ?_ ?_) ?_
  · exact ⟨hc, fun n hn => by rw [if_neg (by simp)]⟩
  · rintro k hk v ⟨hvl, hvv⟩
    obtain ⟨n, h1, h2, h3⟩ := band_getElem C hk
    have hnot := band_not_mem_take C h2
    have hvn : vals v n = vals c n := by rw [hvv n h3, if_neg (fun h => hnot h.1)]
    unfold normaliseNode
    rw [h1]
    simp only [bind, Except.bind]
    rw [rd_vals (by omega : n < v.length), hvn]
    dsimp only
    by_cases hq : FP.eq (vals c n) (FP.nat 0) = true
    · rw [if_pos hq, wp_pure]
      refine ⟨hvl, fun k' hk' => ?_⟩
      rw [hvv k' hk']
      refine if_congr ?_ rfl rfl
      rw [band_take_succ h2]
      constructor
      · rintro ⟨a, b⟩; exact ⟨.inl a, b⟩
      · rintro ⟨a | a, b⟩
        · exact ⟨a, b⟩
        · subst a; exact absurd hq b
    · rw [if_neg hq, rd_vals (by omega : n < b.length)]
      dsimp only
      rw [wr_eq _ (by omega : n < v.length), wp_ok]
      refine ⟨by simp [hvl], fun k' hk' => ?_⟩
      rw [vals_set (by omega)]
      by_cases e : k' = n
      · subst e
        rw [if_pos rfl, if_pos ⟨(band_take_succ h2 _).2 (.inr rfl), hq⟩]
      · rw [if_neg e, hvv k' hk']
        refine if_congr ?_ rfl rfl
        rw [band_take_succ h2]
        tauto
  · rintro v ⟨hvl, hvv⟩
    rw [wp_pure]
    rw [← hlen, List.take_length] at hvv
    refine ⟨rfl, hvl, fun n hn => ?_⟩
    dsimp only
    rw [hvv n hn]
    unfold initialVel
    rw [e2 n hn, e3 n hn]

/-- Effect of `computeVelocities`. -/
theorem computeVelocities_spec (C : Core w h L) {points : List (BoundaryPoint D)} (hp : PointsOk L.mesh points) :
    wp (computeVelocities points L) (fun L' => L' = { L with velocity := L'.velocity } ∧ L'.velocity.length = L.mesh.nNodes ∧
      ∃ L1 F', initialiseVelocities points L = .ok L1 ∧
        FMM.marchVelocity L.mesh L.signedDistance L1.velocity (FMM.new L.mesh false) = .ok F' ∧ L'.velocity = F'.vel)
      (fun e => e = .exit) := by
  unfold computeVelocities
  obtain ⟨L1, h1, h2, h3, h4⟩ := wp_noErr_iff.1 (initialiseVelocities_spec (w := w) (h := h) C hp)
  rw [h1]
  simp only [bind, Except.bind]
  have em : L1.mesh = L.mesh := by rw [h2]
  have es : L1.signedDistance = L.signedDistance := by rw [h2]
  rw [em, es]
  have hm := FMM.marchVelocity_spec C.grid L.signedDistance L1.velocity C.sd h3 false
  cases hr : FMM.marchVelocity L.mesh L.signedDistance L1.velocity (FMM.new L.mesh false) with
  | error e =>
    rw [hr, wp_error] at hm
    rw [wp_error]
    rcases hm with h | ⟨_, -, _, -, h⟩ <;> exact h.1
  | ok F' =>
    rw [hr, wp_ok] at hm
    dsimp only
    rw [wp_pure]
    obtain ⟨g1, F, g2, g3, -⟩ := hm
    refine ⟨?_, ?_, L1, F', rfl, hr, rfl⟩
    · dsimp only; rw [g1, h2]
    · dsimp only; rw [g3]; exact g2.L.v g2.isV

theorem velocity_core {L' : LevelSet D} (C : Core w h L) (h1 : L' = { L with velocity := L'.velocity })
    (h2 : L'.velocity.length = L.mesh.nNodes) : Core w h L' := by
  have em : L'.mesh = L.mesh := by rw [h1]
  rw [h1]
  exact { C with velocity := h2 }

theorem gradient_core {L' : LevelSet D} (C : Core w h L) (h1 : L' = { L with gradient := L'.gradient })
    (h2 : L'.gradient.length = L.mesh.nNodes) : Core w h L' := by
  rw [h1]
  exact { C with gradient := h2 }

end generic

/-! ### real values -/

variable {w h : Nat} {L : LevelSet ℝ} {m : Mesh ℝ}

theorem sqDist_real (G : IsGrid w h m) {x y : Nat} (hx : x ≤ w) (hy : y ≤ h) (p : BoundaryPoint ℝ) :
    sqDist (nodeOf m (nodeNo w x y)).coord p.coord = sqFrom p x y := by
  have hlt : nodeNo w x y < m.nodes.length := by rw [G.nodes_length]; exact nodeNo_lt hx hy
  unfold sqDist sqFrom
  rw [G.coord x y _ hx hy (get_node hlt)]
  simp only [FP.sub_real, FP.mul_real, FP.add_real, FP.nat_real]
  ring

theorem pointsOk_real (G : IsGrid w h m) (hfit : (w + 1) * (h + 1) < 4294967296) {points : List (BoundaryPoint ℝ)}
    (hp : ∀ p ∈ points, InDomain w h p.coord) : PointsOk m points := by
  intro p hpm
  obtain ⟨a, b, c, d⟩ := hp p hpm
  obtain ⟨nx, ny, h1, h2, h3, -⟩ := getClosestNode_real G hfit a b c d
  exact ⟨_, h3, by rw [G.nNodes]; exact nodeNo_lt h1 h2⟩

theorem touch_iff (G : IsGrid w h m) {x y c : Nat} (hx : x ≤ w) (hy : y ≤ h) {p : BoundaryPoint ℝ}
    (hc : m.getClosestNode p.coord = .ok c) : Touch w h m p c (nodeNo w x y) ↔ Feeds w h m p x y := by
  unfold Touch Feeds closeEnough
  rw [sqDist_real G hx hy]
  simp only [FP.lt_real, FP.le_real, FP.lit_real, FP.nat_real]
  push_cast
  constructor
  · rintro (h | ⟨h1, h2⟩)
    · exact ⟨c, hc, .inl h⟩
    · refine ⟨c, hc, .inr ⟨h1, ?_⟩⟩
      rcases h2 with h2 | h2
      · exact (h2.trans (by norm_num)).le
      · exact h2
  · rintro ⟨c', hc', h⟩
    rw [hc] at hc'
    cases hc'
    rcases h with h | ⟨h1, h2⟩
    · exact .inl h
    · exact .inr ⟨h1, .inr h2⟩

theorem sqFrom_nonneg (p : BoundaryPoint ℝ) (x y : Nat) : 0 ≤ sqFrom p x y := by unfold sqFrom; positivity

/-- the state of a node after a list of points -/
inductive SumState (w h : Nat) (m : Mesh ℝ) (points : List (BoundaryPoint ℝ)) (x y : Nat) : Bool × ℝ × ℝ → Prop
  | free (hn : ∀ p ∈ points, ¬ SitsOn w h m p x y) : SumState w h m points x y
      (false, ((feeders w h m points x y).map fun p => 1 / sqFrom p x y).sum,
        ((feeders w h m points x y).map fun p => p.velocity / sqFrom p x y).sum)
  | set {pre post : List (BoundaryPoint ℝ)} {p : BoundaryPoint ℝ} (he : points = pre ++ p :: post) (hp : SitsOn w h m p x y)
      (hl : ∀ q ∈ post, ¬ SitsOn w h m q x y) : SumState w h m points x y (true, 1, p.velocity)

theorem nodeSum_real (G : IsGrid w h m) {x y : Nat} (hx : x ≤ w) (hy : y ≤ h) {points : List (BoundaryPoint ℝ)} (hp : PointsOk m points) :
    SumState w h m points x y (nodeSum w h m points (nodeNo w x y)) := by
  classical
  induction points using List.reverseRecOn with
  | nil =>
    have := SumState.free (w := w) (h := h) (m := m) (points := []) (x := x) (y := y) (by simp)
    simpa [nodeSum, feeders] using this
  | append_singleton l p ih =>
    have ih := ih fun q hq => hp q (by simp [hq])
    obtain ⟨c, hc, hcl⟩ := hp p (by simp)
    have hstep : nodeSum w h m (l ++ [p]) (nodeNo w x y) = touchStep w h m p c (nodeNo w x y) (nodeSum w h m l (nodeNo w x y)) := by
      unfold nodeSum
      rw [List.foldl_append, List.foldl_cons, List.foldl_nil, closest_eq hc]
    rw [hstep]
    generalize nodeSum w h m l (nodeNo w x y) = s at ih
    unfold touchStep
    rw [sqDist_real G hx hy]
    by_cases ht : Feeds w h m p x y
    · rw [if_pos ((touch_iff G hx hy hc).2 ht)]
      unfold upd
      simp only [FP.lt_real, FP.lit_real, FP.nat_real, FP.add_real, FP.div_real]
      have e1 : ((1:ℕ):ℝ) / ((1000000:ℕ):ℝ) = 1 / 10 ^ 6 := by norm_num
      rw [e1]
      by_cases ho : sqFrom p x y < 1 / 10 ^ 6
      · rw [if_pos ho]
        push_cast
        exact .set (pre := l) (post := []) rfl ⟨ht, ho⟩ (by simp)
      · rw [if_neg ho]
        have hno : ¬ SitsOn w h m p x y := fun h => ho h.2
        cases ih with
        | free hn =>
          rw [if_neg (by simp)]
          have := SumState.free (w := w) (h := h) (m := m) (points := l ++ [p]) (x := x) (y := y) (by
            intro q hq
            rcases List.mem_append.1 hq with hq | hq
            · exact hn q hq
            · rw [List.mem_singleton] at hq; subst hq; exact hno)
          have hf : feeders w h m (l ++ [p]) x y = feeders w h m l x y ++ [p] := by
            unfold feeders; rw [List.filter_append]; simp [ht]
          rw [hf] at this
          simpa using this
        | set he hs hl =>
          rw [if_pos rfl]
          refine .set (by rw [he, List.append_assoc]; rfl) hs ?_
          intro q hq
          rcases List.mem_append.1 hq with hq | hq
          · exact hl q hq
          · rw [List.mem_singleton] at hq; subst hq; exact hno
    · rw [if_neg (fun h => ht ((touch_iff G hx hy hc).1 h))]
      have hno : ¬ SitsOn w h m p x y := fun h => ht h.1
      cases ih with
      | free hn =>
        have := SumState.free (w := w) (h := h) (m := m) (points := l ++ [p]) (x := x) (y := y) (by
          intro q hq
          rcases List.mem_append.1 hq with hq | hq
          · exact hn q hq
          · rw [List.mem_singleton] at hq; subst hq; exact hno)
        have hf : feeders w h m (l ++ [p]) x y = feeders w h m l x y := by
          unfold feeders; rw [List.filter_append]; simp [ht]
        rw [hf] at this
        exact this
      | set he hs hl =>
        refine .set (by rw [he, List.append_assoc]; rfl) hs ?_
        intro q hq
        rcases List.mem_append.1 hq with hq | hq
        · exact hl q hq
        · rw [List.mem_singleton] at hq; subst hq; exact hno

theorem sum_bounds {l : List (BoundaryPoint ℝ)} {f g : BoundaryPoint ℝ → ℝ} (hfg : ∀ p ∈ l, f p ≤ g p) :
    (l.map f).sum ≤ (l.map g).sum := by
  induction l with
  | nil => simp
  | cons a l ih =>
    simp only [List.map_cons, List.sum_cons]
    have := hfg a (by simp)
    have := ih fun p hp => hfg p (by simp [hp])
    linarith

theorem weight_pos {l : List (BoundaryPoint ℝ)} {x y : Nat} (hl : l ≠ []) (hp : ∀ p ∈ l, 0 < sqFrom p x y) :
    0 < (l.map fun p => 1 / sqFrom p x y).sum := by
  induction l with
  | nil => exact absurd rfl hl
  | cons a l ih =>
    simp only [List.map_cons, List.sum_cons]
    have h1 : 0 < 1 / sqFrom a x y := one_div_pos.2 (hp a (by simp))
    have h2 : 0 ≤ (l.map fun p => 1 / sqFrom p x y).sum := by
      apply List.sum_nonneg
      intro z hz
      obtain ⟨q, hq, rfl⟩ := List.mem_map.1 hz
      exact (one_div_pos.2 (hp q (by simp [hq]))).le
    linarith

theorem average_bounds {l : List (BoundaryPoint ℝ)} {x y : Nat} (hl : l ≠ []) (hp : ∀ p ∈ l, 0 < sqFrom p x y) {lo hi : ℝ}
    (hv : ∀ p ∈ l, lo ≤ p.velocity ∧ p.velocity ≤ hi) : lo ≤ inverseSquareAverage l x y ∧ inverseSquareAverage l x y ≤ hi := by
  have hw := weight_pos hl hp
  unfold inverseSquareAverage
  have mulsum : ∀ t : ℝ, t * (l.map fun p => 1 / sqFrom p x y).sum = (l.map fun p => t / sqFrom p x y).sum := by
    intro t
    rw [← List.sum_map_mul_left]
    simp only [mul_one_div]
  rw [le_div_iff₀ hw, div_le_iff₀ hw, mulsum, mulsum]
  constructor
  · exact sum_bounds fun p h => div_le_div_of_nonneg_right (hv p h).1 (hp p h).le
  · exact sum_bounds fun p h => div_le_div_of_nonneg_right (hv p h).2 (hp p h).le

end LevelSet

end Slsm
