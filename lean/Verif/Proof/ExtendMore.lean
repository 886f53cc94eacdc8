import Verif.Proof.ExtendBnd
import Verif.Model.Sensitivity
import Verif.Model.Program

/-! # Calculation in larger number systems: thermal noise, sensitivities and the shape matching program -/

namespace Slsm

open LevelSet (map_bind' bind_map' rd_map' forN_map)

theorem bind_map_inv {α β γ δ : Type} {T : α → β} {S : γ → δ} {P : α → Prop} {r : Res α} {r' : Res β} {f : α → Res γ} {f' : β → Res δ} 
    (e : r' = r.map T ∧ ∀ t, r = .ok t → P t) (h : ∀ t, P t → f' (T t) = (f t).map S) : r' >>= f' = (r >>= f).map S := by
  obtain ⟨rfl, hP⟩ := e
  cases r with
  | error _ => rfl
  | ok t => exact h t (hP t rfl)

variable {E : Type} [FP E] {g : ℝ → E} (H : Extends g)

include H

namespace LevelSet

theorem map_thermalStep {ml dt T : ℝ} (hm : 0 < ml) (hdt : 0 < dt) (hT : 0 ≤ T) :
    thermalStep (g ml) (g dt) (g T) = Prod.map g g (thermalStep ml dt T) ∧ 0 < (thermalStep ml dt T).1 := by
  unfold thermalStep
  dsimp only
  have h2 : (0 : ℝ) ≤ FP.mul (FP.nat 2) T := mul_nonneg (by rw [FP.nat_real]; exact Nat.cast_nonneg _) hT
  rw [H.nat' 2, H.mul', H.sqrt' _ h2, H.sqrt' _ hdt.le, H.lit (by decide), H.mul', H.mul', H.lt_eq]
  by_cases h : FP.lt (FP.mul (FP.lit 1 2) ml) (FP.mul (FP.sqrt (FP.mul (FP.nat 2) T)) (FP.sqrt dt) : ℝ) = true
  · rw [if_pos h, if_pos h]
    have hT0 : 0 < T := by
      rcases hT.lt_or_eq with h0 | h0
      · exact h0
      · exfalso
        rw [← h0] at h
        simp only [FP.lt_real, FP.mul_real, FP.sqrt_real, mul_zero, Real.sqrt_zero, zero_mul] at h
        have : (0 : ℝ) < FP.lit 1 2 := by simp [FP.lit]
        exact absurd h (not_lt.2 (mul_pos this hm).le)
    have hs : (0 : ℝ) < FP.div (FP.mul (FP.mul (FP.nat 8) dt) T) (FP.mul ml ml) := by
      simp only [FP.div_real, FP.mul_real, FP.nat_real]
      positivity
    rw [H.nat', H.mul', H.mul', H.mul', H.div' _ (FP.mul ml ml) (mul_pos hm hm).ne', H.div' _ _ hs.ne']
    exact ⟨rfl, div_pos hdt hs⟩
  · rw [if_neg h, if_neg h, H.nat']
    exact ⟨rfl, hdt⟩

theorem map_addNoise {ρ : Type} (normal : ρ → ℝ × ρ) (noise : ℝ) (pts : List (BoundaryPoint ℝ)) (hp : ∀ p ∈ pts, 0 < p.length) (s : ρ) :
    addNoise (fun s => Prod.map g id (normal s)) (g noise) (pts.map (BoundaryPoint.map g)) s =
      Prod.map (List.map (BoundaryPoint.map g)) id (addNoise normal noise pts s) := by
  unfold addNoise
  suffices ∀ acc : List (BoundaryPoint ℝ) × ρ, (pts.map (BoundaryPoint.map g)).foldl (fun (s : List (BoundaryPoint E) × ρ) p =>
      (s.1 ++ [{ p with velocity := FP.add p.velocity (FP.mul (FP.div (g noise) (FP.sqrt p.length)) (Prod.map g id (normal s.2)).1) }],
        (Prod.map g id (normal s.2)).2)) (Prod.map (List.map (BoundaryPoint.map g)) id acc) =
      Prod.map (List.map (BoundaryPoint.map g)) id (pts.foldl (fun (s : List (BoundaryPoint ℝ) × ρ) p =>
      (s.1 ++ [{ p with velocity := FP.add p.velocity (FP.mul (FP.div noise (FP.sqrt p.length)) (normal s.2).1) }], (normal s.2).2)) acc) from this ([], s)
  induction pts with
  | nil => intro acc; rfl
  | cons p r ih =>
    intro acc
    have h0 : 0 < p.length := hp p List.mem_cons_self
    have hne : (FP.sqrt p.length : ℝ) ≠ 0 := by
      rw [FP.sqrt_real]
      exact (Real.sqrt_pos.2 h0).ne'
    simp only [List.map_cons, List.foldl_cons]
    rw [← ih (fun q hq => hp q (List.mem_cons_of_mem _ hq))]
    refine congrArg (List.foldl _ · _) ?_
    dsimp only [Prod.map, id, BoundaryPoint.map]
    rw [H.sqrt' _ h0.le, H.div' _ _ hne, H.mul', H.add', List.map_append]
    rfl

theorem map_computeVelocitiesNoise {ρ : Type} (normal : ρ → ℝ × ρ) (pts : List (BoundaryPoint ℝ)) {dt T : ℝ} (s : ρ) (L : LevelSet ℝ)
    (hm : 0 < L.moveLimit) (hdt : 0 < dt) (hT : 0 ≤ T) (hp : ∀ p ∈ pts, 0 < p.length) :
    computeVelocitiesNoise (fun s => Prod.map g id (normal s)) (pts.map (BoundaryPoint.map g)) (g dt) (g T) s (L.map g) =
      (computeVelocitiesNoise normal pts dt T s L).map
        (Prod.map (List.map (BoundaryPoint.map g)) (Prod.map g (Prod.map g (Prod.map id (LevelSet.map g))))) := by
  unfold computeVelocitiesNoise
  have e := map_thermalStep H hm hdt hT
  have h2 : (0 : ℝ) ≤ FP.mul (FP.nat 2) T := mul_nonneg (by rw [FP.nat_real]; exact Nat.cast_nonneg _) hT
  rw [show thermalStep (L.map g).moveLimit (g dt) (g T) = _ from e.1]
  obtain ⟨-, e⟩ := e
  generalize thermalStep L.moveLimit dt T = q at e ⊢
  obtain ⟨dt', sc⟩ := q
  dsimp only [Prod.map] at e ⊢
  have hne : (FP.sqrt dt' : ℝ) ≠ 0 := by
    rw [FP.sqrt_real]
    exact (Real.sqrt_pos.2 e).ne'
  rw [H.nat', H.mul', H.sqrt' _ h2, H.sqrt' _ e.le, H.div' _ _ hne]
  have en := map_addNoise H normal (FP.div (FP.sqrt (FP.mul (FP.nat 2) T)) (FP.sqrt dt')) pts hp s
  dsimp only [Prod.map] at en
  rw [en]
  dsimp only [Prod.map, id]
  rw [map_computeVelocities H, bind_map', map_bind']
  rfl

end LevelSet

namespace Sensitivity

theorem map_computeSensitivity {δ : ℝ} (p : BoundaryPoint ℝ) {c : BoundaryPoint ℝ → Res ℝ} {c' : BoundaryPoint E → Res E}
    (hc : ∀ p, c' (p.map g) = (c p).map g) (hδ : δ ≠ 0) (hp : p.length ≠ 0) :
    computeSensitivity (g δ) (p.map g) c' = (computeSensitivity δ p c).map (Prod.map g (BoundaryPoint.map g)) := by
  unfold computeSensitivity
  dsimp only
  have e1 : shift (g δ) (p.map g).coord (p.map g) = (shift δ p.coord p).map g := by
    unfold shift
    dsimp only [BoundaryPoint.map, Coord.map]
    rw [H.mul', H.mul', H.add', H.add']
  have e2 : shiftBack (g δ) (p.map g).coord (shift (g δ) (p.map g).coord (p.map g)) = (shiftBack δ p.coord (shift δ p.coord p)).map g := by
    rw [e1]
    unfold shiftBack
    dsimp only [BoundaryPoint.map, Coord.map]
    rw [H.mul', H.mul', H.sub', H.sub']
  rw [e2, e1, hc, bind_map', map_bind']
  refine bind_congr fun f1 => ?_
  rw [hc, bind_map', map_bind']
  refine bind_congr fun f2 => ?_
  have hd : (FP.mul (FP.nat 2) δ : ℝ) ≠ 0 := mul_ne_zero (by rw [FP.nat_real]; norm_num) hδ
  rw [H.nat', H.mul', H.sub', H.div' _ _ hd]
  rw [show FP.div (g (FP.div (FP.sub f1 f2) (FP.mul (FP.nat 2) δ))) ((shiftBack δ p.coord (shift δ p.coord p)).map g).length =
    g (FP.div (FP.div (FP.sub f1 f2) (FP.mul (FP.nat 2) δ)) p.length) from H.div' _ _ hp]
  rfl

theorem map_itoCorrection {δ T : ℝ} (b : Boundary ℝ) (hδ : δ ≠ 0) (hp : ∀ p ∈ b.points, p.length ≠ 0) :
    itoCorrection (g δ) (b.map g) (g T) = (itoCorrection δ b T).map (Boundary.map g) := by
  unfold itoCorrection
  rw [H.nat', H.eq_eq, map_ite']
  refine if_congr Iff.rfl rfl ?_
  rw [map_bind', show (b.map g).points.length = b.points.length from List.length_map _]
  have key : ∀ p : BoundaryPoint ℝ, p.length ≠ 0 →
      itoPoint (g δ) (g T) (b.map g).computePerimeter (p.map g) = (itoPoint δ T b.computePerimeter p).map (BoundaryPoint.map g) ∧
      ∀ q, itoPoint δ T b.computePerimeter p = .ok q → q.length = p.length := by
    intro p h0
    have hlen : ∀ r, computeSensitivity δ p b.computePerimeter = .ok r → r.2.length = p.length := by
      refine of_wp ?_
      unfold computeSensitivity
      dsimp only
      rw [wp_bind]; refine wp_any _ fun f1 => ?_
      rw [wp_bind]; exact wp_any _ fun f2 => rfl
    unfold itoPoint
    rw [map_computeSensitivity H p (fun p => Boundary.map_computePerimeter H b p) hδ h0, bind_map', map_bind']
    cases e : computeSensitivity δ p b.computePerimeter with
    | error _ => exact ⟨rfl, fun q hq => by cases hq⟩
    | ok r =>
      have hr := hlen r e
      obtain ⟨cv, q⟩ := r
      dsimp only at hr
      rw [ok_bind', ok_bind', ok_bind']
      dsimp only [Prod.map]
      constructor
      · rw [map_bind']
        refine (congrArg (· >>= _) (rd_map' g q.sensitivities 0)).trans ?_
        rw [bind_map']
        refine bind_congr fun s0 => ?_
        have hd : (FP.mul (FP.nat 2) q.length : ℝ) ≠ 0 := mul_ne_zero (by rw [FP.nat_real]; norm_num) (by rw [hr]; exact h0)
        rw [H.nat', H.mul', show FP.mul (g (FP.nat 2)) (q.map g).length = g (FP.mul (FP.nat 2) q.length) from H.mul' _ _, H.div' _ _ hd, H.sub', map_bind']
        refine (congrArg (· >>= _) (wr_map' g q.sensitivities 0 _)).trans ?_
        rw [bind_map']
        rfl
      · refine of_wp ?_
        rw [wp_bind]; refine wp_any _ fun s0 => ?_
        rw [wp_bind]; exact wp_any _ fun l => hr
  refine (congrArg (· >>= _) (forN_map_inv (List.map (BoundaryPoint.map g)) (fun l : List (BoundaryPoint ℝ) => ∀ p ∈ l, p.length ≠ 0)
    (f := fun i l => modAt l i (itoPoint δ T b.computePerimeter)) b.points.length hp (fun i l _ hl => ?_)).1).trans ?_
  · unfold modAt
    rw [rd_map', bind_map', map_bind']
    cases e : rd l i with
    | error _ => exact ⟨rfl, fun q hq => by cases hq⟩
    | ok p =>
      have hm : p ∈ l := List.mem_of_getElem? (rd_eq_ok.1 e)
      obtain ⟨k1, k2⟩ := key p (hl p hm)
      rw [ok_bind', ok_bind', ok_bind', k1, bind_map', map_bind']
      cases e2 : itoPoint δ T b.computePerimeter p with
      | error _ => exact ⟨rfl, fun q hq => by cases hq⟩
      | ok q =>
        rw [ok_bind', ok_bind', ok_bind', wr_map']
        refine ⟨rfl, of_wp (wp_wr' fun r hr => ?_)⟩
        rcases List.mem_or_eq_of_mem_set hr with h | h
        · exact hl r h
        · rw [h, k2 q e2]; exact hl p hm
  · rw [bind_map']
    rfl

end Sensitivity

namespace Program

/-- State of the sum in the shape matching program with other numbers. -/
def mapSum (g : ℝ → E) : (ℝ × ℝ) ⊕ ℝ → (E × E) ⊕ E := Sum.map (Prod.map g g) g

theorem map_clip (m : ℝ) : clip (g m) = g (clip m) := by
  unfold clip
  rw [H.abs', H.nat', H.lt_eq, H.nat', H.lt_eq, H.neg']
  split_ifs <;> rfl

omit H in
/-- The weight is positive once a node has been added. -/
def Heavy : (ℝ × ℝ) ⊕ ℝ → Prop
  | .inl q => 0 < q.2
  | .inr _ => True

theorem map_mismatchStep (L : LevelSet ℝ) (c : Coord ℝ) (n : Nat) (s : (ℝ × ℝ) ⊕ ℝ) :
    mismatchStep (L.map g) (c.map g) n (mapSum g s) = (mismatchStep L c n s).map (mapSum g) := by
  unfold mismatchStep
  cases s with
  | inr v => rfl
  | inl q =>
    obtain ⟨a, w⟩ := q
    dsimp only [mapSum, Sum.map_inl, Prod.map]
    rw [map_bind']
    refine (congrArg (· >>= _) (rd_map' (Node.map g) L.mesh.nodes n)).trans ?_
    rw [bind_map']
    refine bind_congr fun nd => ?_
    dsimp only [Node.map, Coord.map]
    simp only [H.sub', H.mul', H.add']
    rw [map_bind']
    refine (congrArg (· >>= _) (rd_map' g L.target n)).trans ?_
    rw [bind_map']
    refine bind_congr fun t => ?_
    rw [map_bind']
    refine (congrArg (· >>= _) (rd_map' g L.signedDistance n)).trans ?_
    rw [bind_map']
    refine bind_congr fun d => ?_
    rw [H.lit (by decide), H.lt_eq, H.sub', map_clip H]
    split
    · rfl
    · next h =>
      rw [FP.lt_real, not_lt] at h
      have hr := (lt_of_lt_of_le LevelSet.tol_pos h).ne'
      rw [H.div' _ (FP.add _ _) hr, H.nat', H.div' _ (FP.add _ _) hr, H.add', H.add']
      rfl

omit H in
theorem mismatchStep_heavy (L : LevelSet ℝ) (c : Coord ℝ) (n : Nat) (s : (ℝ × ℝ) ⊕ ℝ) (hs : ∀ q, s = .inl q → 0 ≤ q.2) :
    wp (mismatchStep L c n s) Heavy (fun _ => True) := by
  unfold mismatchStep
  cases s with
  | inr v => trivial
  | inl q =>
    have h0 := hs q rfl
    obtain ⟨a, w⟩ := q
    dsimp only at h0 ⊢
    rw [wp_bind]; refine wp_any _ fun nd => ?_
    rw [wp_bind]; refine wp_any _ fun t => ?_
    rw [wp_bind]; refine wp_any _ fun d => ?_
    refine wp_ite (fun _ => trivial) (fun h => ?_)
    rw [FP.lt_real, not_lt] at h
    have hr := lt_of_lt_of_le LevelSet.tol_pos h
    refine add_pos_of_nonneg_of_pos h0 (div_pos (by rw [FP.nat_real]; norm_num) hr)

theorem map_mismatchSensitivity (L : LevelSet ℝ) (c : Coord ℝ) :
    mismatchSensitivity (L.map g) (c.map g) = (mismatchSensitivity L c).map g := by
  unfold mismatchSensitivity
  rw [map_bind']
  refine (congrArg (· >>= _) (Mesh.map_getClosestNode H L.mesh c)).trans (bind_congr fun node => ?_)
  have e0 : (.inl (FP.nat 0, FP.nat 0) : (E × E) ⊕ E) = mapSum g (.inl (FP.nat 0, FP.nat 0)) := by
    simp only [mapSum, Sum.map_inl, Prod.map, H.nat']
  rw [e0, map_mismatchStep H, bind_map', map_bind']
  have h0 := of_wp (mismatchStep_heavy L c node (.inl (FP.nat 0, FP.nat 0)) (fun q hq => by
    cases hq; show (0 : ℝ) ≤ FP.nat 0; rw [FP.nat_real]; exact Nat.cast_nonneg _))
  cases e : mismatchStep L c node (.inl (FP.nat 0, FP.nat 0)) with
  | error _ => rfl
  | ok s =>
    have hs := h0 s e
    rw [ok_bind', ok_bind']
    have key : ∀ (f : Nat → (ℝ × ℝ) ⊕ ℝ → Res ((ℝ × ℝ) ⊕ ℝ)) (f' : Nat → (E × E) ⊕ E → Res ((E × E) ⊕ E)),
        (∀ i v, f i (.inr v) = pure (.inr v)) → (∀ i v, f' i (.inr v) = pure (.inr v)) →
        (∀ i q, f i (.inl q) = rd L.mesh.nodes node >>= fun nd => rd nd.neighbours i >>= fun n => mismatchStep L c n (.inl q)) →
        (∀ i q, f' i (.inl q) = rd (L.map g).mesh.nodes node >>= fun nd => rd nd.neighbours i >>= fun n => mismatchStep (L.map g) (c.map g) n (.inl q)) →
        forN 4 (mapSum g s) f' = (forN 4 s f).map (mapSum g) ∧ ∀ t, forN 4 s f = .ok t → Heavy t := by
      intro f f' f1 f1' f2 f2'
      exact forN_map_inv (mapSum g) Heavy 4 hs (fun i s _ hs => by
        cases s with
        | inr v => exact ⟨by rw [f1]; exact f1' i _, fun t ht => by rw [f1] at ht; cases ht; trivial⟩
        | inl q =>
          refine ⟨?_, of_wp ?_⟩
          · dsimp only [mapSum, Sum.map_inl]
            rw [f2, f2', map_bind']
            refine (congrArg (· >>= _) (rd_map' (Node.map g) L.mesh.nodes node)).trans ?_
            rw [bind_map']
            refine bind_congr fun nd => ?_
            rw [map_bind']
            exact bind_congr fun n => map_mismatchStep H L c n (.inl q)
          · rw [f2, wp_bind]; refine wp_any _ fun nd => ?_
            rw [wp_bind]; refine wp_any _ fun n => ?_
            exact mismatchStep_heavy L c n _ fun q' hq' => by cases hq'; exact le_of_lt hs)
    refine bind_map_inv (T := mapSum g) (P := Heavy) (key _ _ ?_ ?_ ?_ ?_) fun t ht => ?_
    any_goals (intro i q; rfl)
    cases t with
    | inr v => rfl
    | inl q =>
      obtain ⟨a, w⟩ := q
      dsimp only [mapSum, Sum.map_inl, Prod.map]
      rw [H.div' _ _ (ne_of_gt (show 0 < w from ht)), map_clip H]
      rfl

end Program

end Slsm
