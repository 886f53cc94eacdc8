import Verif.Proof.LinearVel

/-! # Speeds and time step scaled against each other -/

namespace Slsm

namespace LevelSet

/-- The level set with other velocities. -/
def withVel {D : Type} (v : List D) (L : LevelSet D) : LevelSet D := { L with velocity := v }

section
variable {D : Type} [FP D]

theorem map_bind' {α β γ : Type} (x : Res α) (f : α → Res β) (g : β → γ) : (x >>= f).map g = x >>= fun a => (f a).map g := by
  cases x <;> rfl

theorem withVel_addMine (v : List D) (i : Nat) (L : LevelSet D) : addMine i (withVel v L) = (addMine i L).map (withVel v) := by
  unfold addMine withVel
  simp only [map_bind']
  rfl

theorem withVel_addBand (v : List D) (i : Nat) (s : D) (L : LevelSet D) : addBand i s (withVel v L) = (addBand i s L).map (withVel v) := by
  unfold addBand
  simp only [map_bind']
  refine bind_congr fun nodes => bind_congr fun nb => ?_
  by_cases h : FP.lt (FP.nat (u32 (L.bandWidth + 4294967295))) s = true
  · rw [if_pos h, ← withVel_addMine]
    exact if_pos h
  · rw [if_neg h]
    exact if_neg h

theorem withVel_bandNode (v : List D) (i : Nat) (L : LevelSet D) : bandNode i (withVel v L) = (bandNode i L).map (withVel v) := by
  unfold bandNode
  simp only [map_bind']
  refine bind_congr fun nodes => bind_congr fun nd => ?_
  by_cases h : (!nd.isMasked && (!nd.isDomain || !L.isFixedDomain)) = true
  · rw [if_pos h]
    refine (if_pos h).trans ?_
    simp only [map_bind']
    refine bind_congr fun x => ?_
    by_cases h' : FP.lt (FP.abs x) (FP.nat L.bandWidth) = true
    · rw [if_pos h', ← withVel_addBand]
      exact if_pos h'
    · rw [if_neg h']
      exact if_neg h'
  · rw [if_neg h]
    exact if_neg h

theorem forN_map {σ τ : Type} (T : σ → τ) {f : Nat → σ → Res σ} {g : Nat → τ → Res τ} (n : Nat) (h : ∀ i s, i < n → g i (T s) = (f i s).map T) (s : σ) :
    forN n (T s) g = (forN n s f).map T := by
  induction n with
  | zero => rfl
  | succ n ih =>
    change forN n (T s) g >>= g n = (forN n s f >>= f n).map T
    rw [ih fun i s hi => h i s (by omega), map_bind']
    cases forN n s f with
    | error e => rfl
    | ok t => exact h n t (by omega)

theorem withVel_reinitialise (v : List D) (L : LevelSet D) : reinitialise (withVel v L) = (reinitialise L).map (withVel v) := by
  unfold reinitialise initialiseNarrowBand
  simp only [map_bind']
  refine bind_congr fun F => ?_
  exact forN_map (withVel v) L.mesh.nNodes (fun i s _ => withVel_bandNode v i s) { L with signedDistance := F.sd, nNarrowBand := 0, nMines := 0 }

theorem bind_map' {α β γ : Type} (x : Res α) (g : α → β) (f : β → Res γ) : x.map g >>= f = x >>= fun a => f (g a) := by
  cases x <;> rfl

end

/-- All velocities multiplied by `c`. -/
noncomputable def speedUp (c : ℝ) (L : LevelSet ℝ) : LevelSet ℝ := { L with velocity := L.velocity.map (c * ·) }

theorem rd_map' {α β : Type} (g : α → β) (l : List α) (i : Nat) : rd (l.map g) i = (rd l i).map g := by
  by_cases h : i < l.length
  · rw [rd_of_getElem? (List.getElem?_eq_getElem h), rd_of_getElem? (a := g l[i]) (by simp [h])]
    rfl
  · rw [rd_ub (by simpa using h), rd_ub (by simpa using h)]
    rfl

theorem speedUp_computeGradient {c : ℝ} (hc : 0 < c) (L : LevelSet ℝ) (node : Nat) : computeGradient (speedUp c L) node = computeGradient L node := by
  unfold computeGradient
  refine bind_congr fun nd => bind_congr fun lsf => bind_congr fun corner => ?_
  rcases corner with _ | g
  · change rd (L.velocity.map (c * ·)) node >>= _ = rd L.velocity node >>= _
    rw [rd_map', bind_map']
    refine bind_congr fun v => ?_
    have : (FP.lt (c * v) (FP.nat 0)) = FP.lt v (FP.nat 0) := by
      refine Bool.eq_iff_iff.2 ?_
      rw [FP.lt_real, FP.lt_real, FP.nat_real, Nat.cast_zero]
      constructor
      · intro h; exact neg_of_mul_neg_right h hc.le
      · intro h; exact mul_neg_of_pos_of_neg hc h
    dsimp only
    rw [this]
    rfl
  · rfl

theorem speedUp_computeGradients {c : ℝ} (hc : 0 < c) (L : LevelSet ℝ) : computeGradients (speedUp c L) = (computeGradients L).map (speedUp c) := by
  unfold computeGradients
  simp only [speedUp_computeGradient hc, map_bind']
  rfl

theorem speedUp_updateBandNode {c : ℝ} (hc : 0 < c) (dt : ℝ) (i : Nat) (L : LevelSet ℝ) :
    updateBandNode (dt / c) i (speedUp c L) = (updateBandNode dt i L).map (speedUp c) := by
  unfold updateBandNode
  simp only [map_bind']
  refine bind_congr fun node => bind_congr fun s => bind_congr fun g => ?_
  change rd (L.velocity.map (c * ·)) node >>= _ = rd L.velocity node >>= _
  rw [rd_map', bind_map']
  refine bind_congr fun v => ?_
  beta_reduce
  have : s -. (dt / c) *. g *. (c * v) = s -. dt *. g *. v := by
    change s - dt / c * g * (c * v) = s - dt * g * v
    field_simp
  rw [this]
  rfl

theorem speedUp_update {c : ℝ} (hc : 0 < c) (dt : ℝ) (L : LevelSet ℝ) :
    update (dt / c) (speedUp c L) = (update dt L).map fun r => (r.1, speedUp c r.2) := by
  unfold update
  simp only [map_bind']
  change forN L.nNarrowBand (speedUp c L) (updateBandNode (dt / c)) >>= _ = _
  rw [forN_map (speedUp c) _ (fun i s _ => speedUp_updateBandNode hc dt i s), bind_map']
  refine bind_congr fun L1 => ?_
  change mineHit L1 >>= _ = _
  refine bind_congr fun hit => ?_
  cases hit with
  | false => rfl
  | true =>
    have hr := withVel_reinitialise (L1.velocity.map (c * ·)) L1
    change reinitialise (withVel (L1.velocity.map (c * ·)) L1) >>= _ = (reinitialise L1 >>= _).map _
    rw [hr, bind_map', map_bind']
    have hk : ∀ L2, reinitialise L1 = .ok L2 → L2.velocity = L1.velocity := by
      intro L2 e
      have := withVel_reinitialise L1.velocity L1
      change reinitialise L1 = _ at this
      rw [e] at this
      have h2 : L2 = withVel L1.velocity L2 := Except.ok.inj this
      rw [h2]
      rfl
    cases e : reinitialise L1 with
    | error x => rfl
    | ok L2 =>
      change Except.ok _ = Except.ok _
      rw [← hk L2 e]
      rfl

end LevelSet

end Slsm
