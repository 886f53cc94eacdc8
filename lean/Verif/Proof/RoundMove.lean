import Verif.Proof.VelRel
import Verif.Proof.RoundBase
import Verif.Proof.Scaling

/-! # Motion in rounded arithmetic: faster boundary points -/

namespace Slsm

open FP

section
variable {D : Type} [FP D]

theorem wr_eq_ok {α : Type} {v w : List α} {i : Nat} {a : α} : wr v i a = .ok w ↔ i < v.length ∧ w = v.set i a := by
  unfold wr
  split
  · next h => exact ⟨fun e => by cases e; exact ⟨h, rfl⟩, fun e => by rw [e.2]⟩
  · next h => exact ⟨fun e => (by cases e), fun e => absurd e.1 h⟩

/-- What a relation between velocities has to allow for: the averages of the march, and the sums and quotients formed in `initialiseVelocities`.
`W` holds of the weights. -/
structure Averages (W : D → Prop) (rel : D → D → Prop) : Prop extends Mixes rel where
  weight0 : W (FP.nat 0)
  weight1 : W (FP.nat 1)
  weight : ∀ q a b, W q → W (q +. FP.nat 1 /. LevelSet.sqDist a b)
  add : ∀ u u' v v' a b, rel u u' → rel v v' → rel (u +. v /. LevelSet.sqDist a b) (u' +. v' /. LevelSet.sqDist a b)
  norm : ∀ v v' q, W q → rel v v' → rel (if v =. FP.nat 0 then v else v /. q) (if v' =. FP.nat 0 then v' else v' /. q)

namespace LevelSet

variable {W : D → Prop} {rel : D → D → Prop} {m : Mesh D}

/-- The same flags and weights, related velocities. -/
def LikeD (W : D → Prop) (rel : D → D → Prop) (s s' : List Bool × List D × List D) : Prop :=
  s.1 = s'.1 ∧ s.2.1 = s'.2.1 ∧ (∀ q ∈ s.2.1, W q) ∧ List.Forall₂ rel s.2.2 s'.2.2 ∧ s.2.2.length = s.2.1.length

theorem all_set {P : D → Prop} {l : List D} (h : ∀ q ∈ l, P q) (i : Nat) {a : D} (ha : P a) : ∀ q ∈ l.set i a, P q := by
  intro q hq
  rcases List.mem_or_eq_of_mem_set hq with h' | h'
  · exact h q h'
  · rw [h']; exact ha

theorem like_deposit (hA : Averages W rel) (node : Nat) {v v' : D} (hv : rel v v') (a b : Coord D) {s s' : List Bool × List D × List D} (h : LikeD W rel s s') :
    Both (LikeD W rel) (deposit node v (sqDist a b) s) (deposit node v' (sqDist a b) s') := by
  have h0 := h
  obtain ⟨isSet, weight, vel⟩ := s
  obtain ⟨isSet', weight', vel'⟩ := s'
  obtain ⟨h1, h2, h3, h4, h5⟩ := h
  dsimp only at h1 h2 h3 h4 h5
  subst h1 h2
  unfold deposit
  dsimp only
  refine Both.ite Iff.rfl (fun _ => ?_) fun _ => ?_
  · refine Both.bind (Both.wr_all h4 node hv) fun x y hx hxy => ?_
    refine Both.same (wr weight node (FP.nat 1)) fun q hq => Both.same (wr isSet node true) fun b hb => ?_
    obtain ⟨-, rfl⟩ := wr_eq_ok.1 hx
    obtain ⟨-, rfl⟩ := wr_eq_ok.1 hq
    exact ⟨rfl, rfl, all_set h3 node hA.weight1, hxy, by simpa using h5⟩
  · refine Both.same (rd isSet node) fun st _ => Both.ite Iff.rfl (fun _ => h0) fun _ => ?_
    refine Both.bind (Both.rd_all h4 node) fun u u' _ hu => ?_
    refine Both.bind (Both.wr_all h4 node (hA.add u u' v v' a b hu hv)) fun x y hx hxy => ?_
    refine Both.same (rd weight node) fun q hq => Both.same (wr weight node _) fun z hz => ?_
    obtain ⟨-, rfl⟩ := wr_eq_ok.1 hx
    obtain ⟨-, rfl⟩ := wr_eq_ok.1 hz
    exact ⟨rfl, rfl, all_set h3 node (hA.weight q a b (h3 q (List.mem_of_getElem? (rd_eq_ok.1 hq)))), hxy, by simpa using h5⟩

theorem like_depositNbr (hA : Averages W rel) (node j : Nat) {p p' : BoundaryPoint D} (hc : p'.coord = p.coord) (hv : rel p.velocity p'.velocity)
    {s s' : List Bool × List D × List D} (h : LikeD W rel s s') : Both (LikeD W rel) (depositNbr m node p j s) (depositNbr m node p' j s') := by
  unfold depositNbr
  rw [hc]
  exact Both.same (nbr m node j) fun k _ => Both.ite Iff.rfl (fun _ => Both.same (rd m.nodes k) fun nd _ =>
    Both.ite Iff.rfl (fun _ => like_deposit hA k hv _ _ h) fun _ => h) fun _ => h

theorem like_depositPoint (hA : Averages W rel) {p p' : BoundaryPoint D} (hc : p'.coord = p.coord) (hv : rel p.velocity p'.velocity)
    {s s' : List Bool × List D × List D} (h : LikeD W rel s s') : Both (LikeD W rel) (depositPoint m p s) (depositPoint m p' s') := by
  unfold depositPoint
  rw [hc]
  exact Both.same (m.getClosestNode p.coord) fun node _ => Both.same (rd m.nodes node) fun nd _ =>
    Both.bind (like_deposit hA node hv _ _ h) fun a b _ hab => Both.forN hab fun j _ a b hab => like_depositNbr hA node j hc hv hab

theorem like_normaliseNode (hA : Averages W rel) (narrowBand : List Nat) {weight : List D} (hw : ∀ q ∈ weight, W q)
    (i : Nat) {v v' : List D} (hlen : v.length = weight.length) (h : List.Forall₂ rel v v') :
    Both (fun a b => a.length = weight.length ∧ List.Forall₂ rel a b) (normaliseNode narrowBand weight i v) (normaliseNode narrowBand weight i v') := by
  refine Both.same (rd narrowBand i) fun node _ => ?_
  by_cases hn : node < v.length
  · have hn' : node < v'.length := by rw [← h.length_eq]; exact hn
    have hq : node < weight.length := by rw [← hlen]; exact hn
    have hr : rel v[node] v'[node] := h.get hn hn'
    have hf := hA.norm v[node] v'[node] weight[node] (hw _ (List.getElem_mem _)) hr
    have key : ∀ (u : List D) (hu : node < u.length), (rd u node >>= fun x => if x =. FP.nat 0 then pure u else rd weight node >>= fun q => wr u node (x /. q)) =
        .ok (u.set node (if u[node] =. FP.nat 0 then u[node] else u[node] /. weight[node])) := by
      intro u hu
      rw [rd_eq hu, rd_eq hq]
      change (if _ then _ else wr u node _) = _
      by_cases h0 : (u[node] =. FP.nat 0) = true
      · rw [if_pos h0, if_pos h0, List.set_getElem_self]
        rfl
      · rw [if_neg h0, if_neg h0, wr_eq _ hu]
    change Both _ (rd v node >>= _) (rd v' node >>= _)
    rw [key v hn, key v' hn']
    exact ⟨by simpa using hlen, forall₂_set h node hf⟩
  · change Both _ (rd v node >>= _) (rd v' node >>= _)
    rw [rd_ub (v := v) (by omega), rd_ub (v := v') (by rw [← h.length_eq]; omega)]
    rfl

/-- The level sets differ in the velocities only, which are related. -/
def LikeL (rel : D → D → Prop) (L L' : LevelSet D) : Prop := ∃ v, L' = { L with velocity := v } ∧ List.Forall₂ rel L.velocity v

theorem like_initialiseVelocities (hA : Averages W rel) {points points' : List (BoundaryPoint D)} {L : LevelSet D} (hl : L.velocity.length = L.mesh.nNodes)
    (hp : List.Forall₂ (fun p p' : BoundaryPoint D => p'.coord = p.coord ∧ rel p.velocity p'.velocity) points points') :
    Both (LikeL rel) (initialiseVelocities points L) (initialiseVelocities points' L) := by
  have hz : forN L.mesh.nNodes L.velocity (fun i v => wr v i (FP.nat 0)) = .ok (List.replicate L.mesh.nNodes (FP.nat 0)) := by
    rw [forN_assign hl (fun _ => FP.nat 0) (fun i t hi ht _ => wr_eq _ (by omega))]
    congr 1
    refine List.ext_getElem (by simp) fun j h1 h2 => ?_
    simp
  have hrep : ∀ k, List.Forall₂ rel (List.replicate k (FP.nat 0)) (List.replicate k (FP.nat 0)) := by
    intro k
    induction k with
    | zero => exact .nil
    | succ k ih => exact .cons hA.zero ih
  unfold initialiseVelocities
  dsimp only
  rw [hz, ← hp.length_eq]
  change Both _ (forN points.length _ _ >>= _) (forN points.length _ _ >>= _)
  refine Both.bind (R := LikeD W rel) (Both.forN ⟨rfl, rfl, fun q hq => by rw [List.eq_of_mem_replicate hq]; exact hA.weight0, hrep _, by simp⟩
    fun i _ a b hab => Both.bind (Both.rd_all hp i) fun p p' _ hpp => like_depositPoint hA hpp.1 hpp.2 hab) fun s s' _ hs => ?_
  obtain ⟨isSet, weight, vel⟩ := s
  obtain ⟨isSet', weight', vel'⟩ := s'
  obtain ⟨h1, h2, h3, h4, h5⟩ := hs
  dsimp only at h1 h2 h3 h4 h5
  subst h1 h2
  refine Both.bind (Both.forN (R := fun a b => a.length = weight.length ∧ List.Forall₂ rel a b) ⟨h5, h4⟩ fun i _ a b hab =>
    like_normaliseNode hA L.narrowBand h3 i hab.1 hab.2) fun a b _ hab => ⟨b, rfl, hab.2⟩

/-- Related speeds of the boundary points give related velocities of the nodes. -/
theorem like_computeVelocities (hA : Averages W rel) {points points' : List (BoundaryPoint D)} {L : LevelSet D} (hl : L.velocity.length = L.mesh.nNodes)
    (hp : List.Forall₂ (fun p p' : BoundaryPoint D => p'.coord = p.coord ∧ rel p.velocity p'.velocity) points points') :
    Both (LikeL rel) (computeVelocities points L) (computeVelocities points' L) := by
  refine Both.bind (like_initialiseVelocities hA hl hp) fun L1 L1' _ h1 => ?_
  obtain ⟨v, rfl, h⟩ := h1
  refine Both.bind (FMM.like_marchVelocity hA.toMixes L1.signedDistance h (FMM.new L1.mesh false)) fun F F' _ hF => ?_
  obtain ⟨v, rfl, h⟩ := hF
  exact ⟨v, rfl, h⟩

end LevelSet

end

namespace Rounding

variable {R : Rounding}

theorem sqDist_nonneg (a b : Coord R.Num) : 0 ≤ (LevelSet.sqDist a b).val := by
  unfold LevelSet.sqDist
  exact rnd_nonneg (add_nonneg (rnd_nonneg (mul_self_nonneg _)) (rnd_nonneg (mul_self_nonneg _)))

/-- The order of the representable numbers goes through the averages. -/
theorem averages_le : Averages (D := R.Num) (fun q => 0 ≤ q.val) (fun a b => a.val ≤ b.val) where
  zero := le_refl _
  mix d0 d1 v0 v1 v0' v1' h0 h1 e0 e1 := by
    have hw : ∀ d : R.Num, (d = FP.nat 0 ∨ ∃ x, d = FP.abs x) → 0 ≤ d.val := by
      rintro d (rfl | ⟨x, rfl⟩)
      · simp
      · exact abs_nonneg _
    have h0 := hw d0 h0
    have h1 := hw d1 h1
    refine R.mono (div_le_div_of_nonneg_right (R.mono (add_le_add (R.mono (add_le_add (le_refl _) (R.mono ?_))) (R.mono ?_))) ?_)
    · exact mul_le_mul_of_nonneg_left e0 h0
    · exact mul_le_mul_of_nonneg_left e1 h1
    · refine rnd_nonneg (add_nonneg (rnd_nonneg (add_nonneg ?_ h0)) h1)
      simp
  weight0 := by simp
  weight1 := by simp
  weight q a b hq := rnd_nonneg (add_nonneg hq (rnd_nonneg (div_nonneg (by simp) (sqDist_nonneg a b))))
  add u u' v v' a b hu hv := R.mono (add_le_add hu (R.mono (div_le_div_of_nonneg_right hv (sqDist_nonneg a b))))
  norm v v' q hq h := by
    by_cases h1 : v.val = 0
    · rw [if_pos ((eq_iff _ _).2 (by rw [h1]; simp))]
      by_cases h2 : v'.val = 0
      · rw [if_pos ((eq_iff _ _).2 (by rw [h2]; simp))]
        exact h
      · rw [if_neg fun e => h2 (by have := (eq_iff _ _).1 e; simpa using this), h1]
        exact rnd_nonneg (div_nonneg (by rw [h1] at h; exact h) hq)
    · rw [if_neg fun e => h1 (by have := (eq_iff _ _).1 e; simpa using this)]
      by_cases h2 : v'.val = 0
      · rw [if_pos ((eq_iff _ _).2 (by rw [h2]; simp)), h2]
        exact rnd_nonpos (div_nonpos_of_nonpos_of_nonneg (by rw [h2] at h; exact h) hq)
      · rw [if_neg fun e => h2 (by have := (eq_iff _ _).1 e; simpa using this)]
        exact R.mono (div_le_div_of_nonneg_right h hq)

/-- Zero goes through the averages. -/
theorem averages_zero : Averages (D := R.Num) (fun _ => True) (fun a b => a.val = 0 ∧ b.val = 0) where
  zero := by simp
  mix d0 d1 v0 v1 v0' v1' _ _ e0 e1 := by
    have z : R.rnd 0 = 0 := by have := R.nat 0 (by norm_num); simpa using this
    simp [e0.1, e0.2, e1.1, e1.2, z]
  weight0 := trivial
  weight1 := trivial
  weight _ _ _ _ := trivial
  add u u' v v' a b hu hv := by
    have z : R.rnd 0 = 0 := by have := R.nat 0 (by norm_num); simpa using this
    simp [hu.1, hu.2, hv.1, hv.2, z]
  norm v v' q _ h := by
    rw [if_pos ((eq_iff _ _).2 (by rw [h.1]; simp)), if_pos ((eq_iff _ _).2 (by rw [h.2]; simp))]
    exact h

end Rounding

namespace LevelSet

open Rounding

variable {R : Rounding}

/-- Gradients for two velocities of a node: not negative, and the same if both velocities have the same direction. -/
def LikeG (v v' g g' : R.Num) : Prop := 0 ≤ g.val ∧ 0 ≤ g'.val ∧ ((v.val < 0 ↔ v'.val < 0) → g = g')

/-- The same for lists. -/
def LikeGs (V V' : List R.Num) (G G' : List R.Num) : Prop := G.length = G'.length ∧
  ∀ (i : Nat) (v v' g g' : R.Num), V[i]? = some v → V'[i]? = some v' → G[i]? = some g → G'[i]? = some g' → LikeG v v' g g'

theorem upwindNorm_nonneg (a b c d : R.Num) : 0 ≤ (upwindNorm a b c d).val := by
  unfold upwindNorm
  exact rnd_nonneg (Real.sqrt_nonneg _)

theorem cornerCase_nonneg {L : LevelSet R.Num} {lsf : R.Num} {x y : Nat} {g : R.Num} (h : cornerCase L lsf x y = .ok (some g)) : 0 ≤ g.val := by
  have key : ∀ x2 y2, cornerGradient L lsf x y x2 y2 = .ok (some g) → 0 ≤ g.val := by
    intro x2 y2 e
    unfold cornerGradient at e
    cases h1 : sdAt L x2 y with
    | error _ => rw [h1] at e; cases e
    | ok a =>
      rw [h1] at e
      change (if _ then _ else _) = _ at e
      split at e
      · cases h2 : sdAt L x y2 with
        | error _ => rw [h2] at e; cases e
        | ok b =>
          rw [h2] at e
          change (if _ then _ else _) = _ at e
          split at e
          · cases h3 : sdAt L x2 y2 with
            | error _ => rw [h3] at e; cases e
            | ok c =>
              rw [h3] at e
              cases e
              exact rnd_nonneg (mul_nonneg (abs_nonneg _) (rnd_nonneg (Real.sqrt_nonneg _)))
          · cases e
      · cases e
  unfold cornerCase at h
  split at h
  · split at h
    · exact key _ _ h
    · split at h
      · exact key _ _ h
      · cases h
  · split at h
    · split at h
      · exact key _ _ h
      · split at h
        · exact key _ _ h
        · cases h
    · cases h

theorem like_computeGradient {L : LevelSet R.Num} {V' : List R.Num} (hl : L.velocity.length = V'.length) (node : Nat) :
    Both (fun g g' => ∀ v v', L.velocity[node]? = some v → V'[node]? = some v' → LikeG v v' g g')
      (computeGradient L node) (computeGradient { L with velocity := V' } node) := by
  unfold computeGradient
  refine Both.same (rd L.mesh.nodes node) fun nd _ => Both.same (rd L.signedDistance node) fun lsf _ => ?_
  refine Both.same (cornerCase L lsf (floor nd.coord.x) (floor nd.coord.y)) fun corner hc => ?_
  cases corner with
  | some g =>
    have hg := cornerCase_nonneg hc
    exact fun v v' _ _ => ⟨hg, hg, fun _ => rfl⟩
  | none =>
    by_cases hn : node < L.velocity.length
    · have hn' : node < V'.length := by omega
      change Both _ (rd L.velocity node >>= _) (rd V' node >>= _)
      rw [rd_eq hn, rd_eq hn']
      refine Both.same (derivForward (fun k => sdAt L k (floor nd.coord.y)) L.mesh.width (floor nd.coord.x)) fun r _ =>
        Both.same (derivBackward (fun k => sdAt L k (floor nd.coord.y)) L.mesh.width (floor nd.coord.x)) fun l _ =>
        Both.same (derivForward (fun k => sdAt L (floor nd.coord.x) k) L.mesh.height (floor nd.coord.y)) fun u _ =>
        Both.same (derivBackward (fun k => sdAt L (floor nd.coord.x) k) L.mesh.height (floor nd.coord.y)) fun d _ => ?_
      intro v v' hv hv'
      rw [List.getElem?_eq_getElem hn] at hv
      rw [List.getElem?_eq_getElem hn'] at hv'
      cases hv
      cases hv'
      refine ⟨upwindNorm_nonneg _ _ _ _, upwindNorm_nonneg _ _ _ _, fun h => ?_⟩
      have : (L.velocity[node] <. FP.nat 0) = (V'[node] <. FP.nat 0) := by
        rw [Bool.eq_iff_iff, lt_iff, lt_iff, val_zero]
        exact h
      simp only [this]
    · change Both _ (rd L.velocity node >>= _) (rd V' node >>= _)
      rw [rd_ub (v := L.velocity) (by omega), rd_ub (v := V') (by omega)]
      rfl

theorem likeGs_set {V V' G G' : List R.Num} (h : LikeGs V V' G G') (node : Nat) {g g' : R.Num}
    (hg : ∀ v v', V[node]? = some v → V'[node]? = some v' → LikeG v v' g g') : LikeGs V V' (G.set node g) (G'.set node g') := by
  refine ⟨by simp [h.1], fun i v v' a a' h1 h2 h3 h4 => ?_⟩
  by_cases e : node = i
  · subst e
    have hn : node < G.length := by
      have := List.getElem?_eq_some_iff.1 h3
      simpa using this.1
    rw [List.getElem?_set_self hn] at h3
    rw [List.getElem?_set_self (by rw [← h.1]; exact hn)] at h4
    cases h3
    cases h4
    exact hg v v' h1 h2
  · rw [List.getElem?_set_ne e] at h3 h4
    exact h.2 i v v' a a' h1 h2 h3 h4

/-- The level sets differ in velocities and gradients. -/
def LikeV (L L' : LevelSet R.Num) : Prop :=
  ∃ V' G', L' = { L with velocity := V', gradient := G' } ∧ List.Forall₂ (fun a b : R.Num => a.val ≤ b.val) L.velocity V' ∧ LikeGs L.velocity V' L.gradient G'

theorem like_computeGradients {L L' : LevelSet R.Num} (h : LikeL (fun a b => a.val ≤ b.val) L L') : Both LikeV (computeGradients L) (computeGradients L') := by
  obtain ⟨V', rfl, h⟩ := h
  unfold computeGradients
  refine Both.bind (R := LikeGs L.velocity V') (Both.forN ⟨rfl, ?_⟩ fun i _ a b hab => ?_) fun a b _ hab => ⟨V', b, rfl, h, hab⟩
  · intro i v v' g g' _ _ hg hg'
    rw [hg] at hg'
    cases hg'
    have := List.eq_of_mem_replicate (List.mem_of_getElem? hg)
    rw [this]
    exact ⟨by simp, by simp, fun _ => rfl⟩
  · refine Both.same (rd L.narrowBand i) fun node _ => Both.bind (like_computeGradient h.length_eq node) fun g g' _ hg => ?_
    by_cases hn : node < a.length
    · rw [wr_eq _ hn, wr_eq _ (by rw [← hab.1]; exact hn)]
      exact likeGs_set hab node hg
    · rw [wr_ub _ (by omega), wr_ub _ (by rw [← hab.1]; omega)]
      rfl

theorem step_le {t s s' g g' v v' : R.Num} (ht : 0 ≤ t.val) (hs : s'.val ≤ s.val) (hv : v.val ≤ v'.val) (hg : LikeG v v' g g') :
    (s' -. t *. g' *. v').val ≤ (s -. t *. g *. v).val := by
  refine R.mono (sub_le_sub hs ?_)
  obtain ⟨h1, h2, h3⟩ := hg
  have hm : ∀ x : R.Num, 0 ≤ x.val → 0 ≤ (t *. x).val := fun x hx => rnd_nonneg (mul_nonneg ht hx)
  by_cases e : v.val < 0 ↔ v'.val < 0
  · rw [h3 e]
    exact R.mono (mul_le_mul_of_nonneg_left hv (hm g' h2))
  · have a1 : v.val ≤ 0 := by
      by_contra h
      exact e ⟨fun h' => by linarith, fun h' => by linarith⟩
    have a2 : 0 ≤ v'.val := by
      by_contra h
      exact e ⟨fun h' => by linarith, fun h' => by linarith⟩
    exact (rnd_nonpos (mul_nonpos_of_nonneg_of_nonpos (hm g h1) a1)).trans (rnd_nonneg (mul_nonneg (hm g' h2) a2))

theorem clamp_le (c : Bool) {s s' : R.Num} (h : s'.val ≤ s.val) :
    (if c && (FP.nat 0 <. s') then (FP.nat 0 : R.Num) else s').val ≤ (if c && (FP.nat 0 <. s) then (FP.nat 0 : R.Num) else s).val := by
  cases c with
  | false => simpa using h
  | true =>
    simp only [Bool.true_and]
    by_cases h1 : 0 < s'.val
    · have h2 : 0 < s.val := by linarith
      rw [if_pos (by rw [lt_iff, val_zero]; exact h1), if_pos (by rw [lt_iff, val_zero]; exact h2)]
    · rw [if_neg (by rw [lt_iff, val_zero]; exact h1)]
      by_cases h2 : 0 < s.val
      · rw [if_pos (by rw [lt_iff, val_zero]; exact h2), val_zero]
        linarith
      · rw [if_neg (by rw [lt_iff, val_zero]; exact h2)]
        exact h

end LevelSet

end Slsm
