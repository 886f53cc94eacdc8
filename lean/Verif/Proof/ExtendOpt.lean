import Verif.Proof.ExtendMore
import Verif.Proof.OptSpec

/-! # Calculation in larger number systems: the optimiser -/

namespace Slsm

open LevelSet (map_bind' bind_map' rd_map' forN_map)

theorem bind_ok_inv {α β : Type} {r : Res α} {f : α → Res β} {b : β} (e : (r >>= f) = .ok b) : ∃ a, r = .ok a ∧ f a = .ok b := by
  cases r with
  | error _ => cases e
  | ok a => exact ⟨a, rfl, e⟩

theorem foldlM_map' {α α' σ τ : Type} (T : σ → τ) (k : α → α') {f : σ → α → Res σ} {f' : τ → α' → Res τ} (h : ∀ s a, f' (T s) (k a) = (f s a).map T)
    (l : List α) (s : σ) : (l.map k).foldlM f' (T s) = (l.foldlM f s).map T := by
  induction l generalizing s with
  | nil => rfl
  | cons a l ih =>
    rw [List.map_cons, List.foldlM_cons, List.foldlM_cons, h, bind_map', map_bind']
    exact bind_congr fun t => ih t

namespace Optimise

theorem map_resize {α β : Type} (k : α → β) (v : List α) (n : Nat) (a : α) : resize (v.map k) n (k a) = (resize v n a).map k := by
  unfold resize
  rw [List.map_append, List.map_take, List.map_replicate, List.length_map]

variable {E : Type} [FP E] {g : ℝ → E} (H : Extends g)

include H

theorem map_displacement (s : Optimise ℝ) (l : List ℝ) (p : BoundaryPoint ℝ) :
    displacement (s.map g) (l.map g) (p.map g) = (displacement s l p).map g := by
  unfold displacement
  dsimp only [Optimise.map, BoundaryPoint.map]
  rw [rd_map', bind_map', map_bind']
  refine bind_congr fun f => ?_
  rw [rd_map', bind_map', map_bind']
  refine bind_congr fun x => ?_
  rw [rd_map', bind_map', map_bind']
  refine bind_congr fun c => ?_
  rw [H.mul', H.mul', forN_map g, bind_map', map_bind']
  · refine bind_congr fun d => ?_
    simp only [H.lt_eq]
    split <;> rfl
  · intro j d _
    rw [map_bind']
    refine bind_congr fun k => ?_
    rw [rd_map', bind_map', map_bind']
    refine bind_congr fun f => ?_
    rw [rd_map', bind_map', map_bind']
    refine bind_congr fun x => ?_
    rw [rd_map', bind_map', map_bind']
    refine bind_congr fun c => ?_
    rw [H.mul', H.mul', H.add']
    rfl

theorem map_computeDisplacements (s : Optimise ℝ) (l : List ℝ) :
    computeDisplacements (s.map g) (l.map g) = (computeDisplacements s l).map (List.map g) := by
  unfold computeDisplacements
  refine forN_map (List.map g) _ (fun i ds _ => ?_) _
  rw [map_bind']
  refine (congrArg (· >>= _) (rd_map' (BoundaryPoint.map g) s.points i)).trans ?_
  rw [bind_map']
  refine bind_congr fun p => ?_
  rw [map_ite']
  refine if_congr Iff.rfl rfl ?_
  rw [map_displacement H, bind_map', map_bind']
  exact bind_congr fun d => wr_map' g ds i d

theorem map_computeFunction (s : Optimise ℝ) (index : Nat) : computeFunction (s.map g) index = (computeFunction s index).map g := by
  unfold computeFunction
  rw [map_bind']
  refine bind_congr fun j => ?_
  rw [H.nat', forN_map g, bind_map', map_bind']
  · refine bind_congr fun v => ?_
    rw [map_ite']
    refine if_congr Iff.rfl rfl ?_
    rw [map_bind']
    refine (congrArg (· >>= _) (rd_map' g s.scaleFactors index)).trans ?_
    rw [bind_map']
    refine bind_congr fun f => ?_
    rw [map_bind']
    refine (congrArg (· >>= _) (rd_map' g s.constraintDistancesScaled (index - 1))).trans ?_
    rw [bind_map']
    refine bind_congr fun t => ?_
    rw [H.mul', H.sub']
    rfl
  · intro i v _
    rw [map_bind']
    refine (congrArg (· >>= _) (rd_map' (BoundaryPoint.map g) s.points i)).trans ?_
    rw [bind_map']
    refine bind_congr fun p => ?_
    rw [map_ite']
    refine if_congr Iff.rfl rfl ?_
    rw [map_bind']
    refine (congrArg (· >>= _) (rd_map' g s.scaleFactors index)).trans ?_
    rw [bind_map']
    refine bind_congr fun f => ?_
    rw [map_bind']
    refine (congrArg (· >>= _) (rd_map' g s.displacements i)).trans ?_
    rw [bind_map']
    refine bind_congr fun d => ?_
    rw [map_bind']
    refine (congrArg (· >>= _) (rd_map' g p.sensitivities j)).trans ?_
    rw [bind_map']
    refine bind_congr fun c => ?_
    dsimp only [BoundaryPoint.map]
    rw [H.mul', H.mul', H.mul', H.add']
    rfl

theorem map_computeGradients (s : Optimise ℝ) (gr : List ℝ) (index : Nat) :
    computeGradients (s.map g) (gr.map g) index = (computeGradients s gr index).map (List.map g) := by
  unfold computeGradients
  rw [H.nat', wr_map', bind_map', map_bind']
  refine bind_congr fun g1 => ?_
  rw [map_bind']
  refine (congrArg (· >>= _) (forN_map (List.map g) _ (fun i l _ => wr_map' g l (i + 1) _) _)).trans ?_
  rw [bind_map']
  refine bind_congr fun g2 => ?_
  refine forN_map (List.map g) _ (fun i l _ => ?_) _
  rw [map_bind']
  refine (congrArg (· >>= _) (rd_map' (BoundaryPoint.map g) s.points i)).trans ?_
  rw [bind_map']
  refine bind_congr fun p => ?_
  rw [map_ite']
  refine if_congr Iff.rfl rfl ?_
  refine forN_map (List.map g) _ (fun j l _ => ?_) _
  rw [map_bind']
  refine bind_congr fun k => ?_
  rw [map_bind']
  refine (congrArg (· >>= _) (rd_map' g s.scaleFactors index)).trans ?_
  rw [bind_map']
  refine bind_congr fun fi => ?_
  rw [map_bind']
  refine (congrArg (· >>= _) (rd_map' g s.scaleFactors j)).trans ?_
  rw [bind_map']
  refine bind_congr fun fj => ?_
  rw [map_bind']
  refine bind_congr fun m => ?_
  rw [map_bind']
  refine (congrArg (· >>= _) (rd_map' g p.sensitivities m)).trans ?_
  rw [bind_map']
  refine bind_congr fun a => ?_
  rw [map_bind']
  refine (congrArg (· >>= _) (rd_map' g p.sensitivities k)).trans ?_
  rw [bind_map']
  refine bind_congr fun c => ?_
  refine modAt_map' g (fun x => ?_) l k
  dsimp only [BoundaryPoint.map]
  rw [H.mul', H.mul', H.mul', H.mul', H.add']
  rfl

theorem map_callback (s : Optimise ℝ) (l : List ℝ) (w : Bool) (index : Nat) :
    callback (s.map g) (l.map g) w index = (callback s l w index).map (Prod.map (Optimise.map g) (Prod.map (Option.map (List.map g)) g)) := by
  unfold callback
  rw [map_computeDisplacements H, bind_map', map_bind']
  refine bind_congr fun d => ?_
  rw [map_bind']
  refine (congrArg (· >>= _) (map_computeFunction H { s with displacements := d } index)).trans ?_
  rw [bind_map']
  refine bind_congr fun v => ?_
  rw [map_ite']
  refine if_congr Iff.rfl ?_ rfl
  rw [map_bind']
  refine (congrArg (· >>= _) (rd_map' (List.map g) s.gradients index)).trans ?_
  rw [bind_map']
  rfl

theorem map_maxSensitivity (pts : List (BoundaryPoint ℝ)) (n k : Nat) (m0 : ℝ) :
    maxSensitivity (pts.map (BoundaryPoint.map g)) n k (g m0) = (maxSensitivity pts n k m0).map g := by
  unfold maxSensitivity
  refine forN_map g _ (fun j m _ => ?_) _
  rw [map_bind']
  refine (congrArg (· >>= _) (rd_map' (BoundaryPoint.map g) pts j)).trans ?_
  rw [bind_map']
  refine bind_congr fun p => ?_
  rw [map_ite']
  refine if_congr Iff.rfl rfl ?_
  rw [map_bind']
  refine (congrArg (· >>= _) (rd_map' g p.sensitivities k)).trans ?_
  rw [bind_map']
  refine bind_congr fun c => ?_
  rw [H.abs', H.lt_eq]
  split <;> rfl

omit H [FP E] in
theorem peak_pos {pts : List (BoundaryPoint ℝ)} {n k : Nat} {m : ℝ} (P : Peak pts n k 0 m) (hn : n = pts.length) (hR : Responds pts k) : 0 < m := by
  obtain ⟨-, p, hpm, hpf, hps, -⟩ := hR
  obtain ⟨b, hb⟩ := List.mem_iff_getElem?.1 hpm
  obtain ⟨c, c1, c2⟩ := P.bound b p (by rw [hn]; exact (List.getElem?_eq_some_iff.1 hb).1) hb hpf
  rw [getD_of c1] at hps
  exact lt_of_lt_of_le (abs_pos.2 hps) c2

omit H [FP E] in
/-- The diagonal entry of the gradient is positive. -/
theorem gradEntry_pos {s : Optimise ℝ} {j : Nat} (hp : s.nPoints = s.points.length) (hR : Responds s.points j) (hf : s.scaleFactors.getD j 0 ≠ 0) :
    0 < gradEntry s j j := by
  obtain ⟨hlen, p, hpm, hpf, hps, hpl⟩ := hR
  obtain ⟨b, hb⟩ := List.mem_iff_getElem?.1 hpm
  have hbl : b < s.nPoints := by rw [hp]; exact (List.getElem?_eq_some_iff.1 hb).1
  unfold gradEntry
  refine Finset.sum_pos' (fun i _ => ?_) ⟨b, Finset.mem_range.2 hbl, ?_⟩
  · cases hq : s.points[i]? with
    | none => simp
    | some q =>
      rw [Option.elim_some]
      split
      · exact le_rfl
      · have := hlen q (List.mem_of_getElem? hq)
        exact mul_nonneg (mul_nonneg (mul_self_nonneg _) this) (mul_self_nonneg _)
  · rw [hb, Option.elim_some, if_neg (by simp [hpf])]
    have h1 := mul_self_pos.2 hps
    have h2 := mul_self_pos.2 hf
    positivity

theorem map_computeScaleFactors (s : Optimise ℝ) (hid : s.indexMap = List.range (s.nConstraints + 1)) (hp : s.nPoints = s.points.length)
    (hR : ∀ k, k ≤ s.nConstraints → Responds s.points k) :
    computeScaleFactors (s.map g) = (computeScaleFactors s).map (List.map g) := by
  unfold computeScaleFactors
  refine bind_map_inv (T := List.map g) (P := fun f => ∀ i, i < s.nConstraints + 1 → f.getD i 0 ≠ 0) ?_ fun f hf => ?_
  · refine ⟨(forN_map_inv (List.map g) (fun _ => True) (f := fun i f => maxSensitivity s.points s.nPoints i (FP.nat 0) >>= fun m => wr f i (FP.div (FP.nat 1) m))
      (s.nConstraints + 1) trivial fun i f hi _ => ⟨?_, fun _ _ => trivial⟩).1, of_wp ?_⟩
    · rw [map_bind', H.nat']
      refine (congrArg (· >>= _) (map_maxSensitivity H s.points s.nPoints i _)).trans ?_
      rw [bind_map']
      cases e : maxSensitivity s.points s.nPoints i (FP.nat 0) with
      | error _ => rfl
      | ok m =>
        have P := any_ok maxSensitivity_val e
        rw [show (FP.nat 0 : ℝ) = 0 by simp] at P
        have hm := peak_pos P hp (hR i (by omega))
        rw [ok_bind', ok_bind', H.nat', H.div' _ _ hm.ne', wr_map']
    · refine wp_forN (fun n (f : List ℝ) => ∀ i, i < n → f.getD i 0 ≠ 0) (fun i hi => absurd hi (Nat.not_lt_zero i)) fun i hi f hf => ?_
      rw [wp_bind]
      refine wp_imp (maxSensitivity_val) fun m P => any_wr fun hlt j hj => ?_
      rw [show (FP.nat 0 : ℝ) = 0 by simp] at P
      have hm := peak_pos P hp (hR i (by omega))
      by_cases hji : j = i
      · subst hji
        rw [List.getD, List.getElem?_set_self hlt]
        simp only [FP.div_real, FP.nat_real, Option.getD_some, Nat.cast_one]
        positivity
      · rw [List.getD, List.getElem?_set_ne (Ne.symm hji)]
        exact hf j (by omega)
  · have e0 : (List.map g f, List.replicate ((s.map g).nConstraints + 1) (FP.nat 0 : E)) =
        Prod.map (List.map g) (List.map g) (f, List.replicate (s.nConstraints + 1) (FP.nat 0)) := by
      dsimp only [Prod.map, Optimise.map]
      rw [List.map_replicate, H.nat']
    rw [e0]
    refine bind_map_inv (T := Prod.map (List.map g) (List.map g)) (P := fun _ => True) ⟨?_, fun _ _ => trivial⟩ fun r _ => rfl
    refine (forN_map_inv (Prod.map (List.map g) (List.map g)) (fun r : List ℝ × List ℝ => ∀ i, i < s.nConstraints + 1 → r.1.getD i 0 ≠ 0)
      (s.nConstraints + 1) hf fun i r hi hr => ?_).1
    obtain ⟨f, gr⟩ := r
    dsimp only [Prod.map] at hr ⊢
    have e1 := map_computeGradients H { s with scaleFactors := f } gr i
    have hpos : ∀ gr' a, computeGradients { s with scaleFactors := f } gr i = .ok gr' → rd gr' i = .ok a → a ≠ 0 := by
      intro gr' a h1 h2
      have h3 := (any_ok (gradients_val (s := { s with scaleFactors := f }) hid (i := i) (by dsimp only; omega)) h1).2 i (by dsimp only; omega)
      rw [rd_eq_ok.1 h2] at h3
      rw [Option.some.inj h3]
      exact (gradEntry_pos (s := { s with scaleFactors := f }) hp (hR i (by omega)) (hr i hi)).ne'
    constructor
    · rw [map_bind']
      refine (congrArg (· >>= _) e1).trans ?_
      rw [bind_map']
      cases h1 : computeGradients { s with scaleFactors := f } gr i with
      | error _ => rfl
      | ok gr' =>
        rw [ok_bind', ok_bind', rd_map', bind_map', map_bind']
        cases h2 : rd gr' i with
        | error _ => rfl
        | ok a =>
          have ha := hpos gr' a h1 h2
          rw [ok_bind', ok_bind', map_bind']
          refine (congrArg (· >>= _) (modAt_map' g (f := fun x => pure (FP.mul x (FP.div (FP.nat 1) (FP.abs a)))) (fun x => ?_) f i)).trans ?_
          · rw [H.abs', H.nat', H.div' _ (FP.abs a) (abs_ne_zero.2 ha), H.mul']
            rfl
          · rw [bind_map']
            rfl
    · refine of_wp ?_
      rw [wp_bind]
      refine any_of fun gr' h1 => ?_
      rw [wp_bind]
      refine any_of fun a h2 => ?_
      have ha := hpos gr' a h1 h2
      rw [wp_bind]
      refine any_modAt fun x hx => ?_
      rw [wp_pure, wp_pure]
      intro j hj
      dsimp only
      by_cases hji : j = i
      · subst hji
        have h3 := hr j hj
        rw [getD_of hx] at h3
        rw [List.getD, List.getElem?_set_self (List.getElem?_eq_some_iff.1 hx).1, Option.getD_some]
        simp only [FP.mul_real, FP.div_real, FP.nat_real, FP.abs_real, Nat.cast_one]
        exact mul_ne_zero h3 (one_div_ne_zero (abs_ne_zero.2 ha))
      · rw [List.getD, List.getElem?_set_ne (Ne.symm hji)]
        exact hr j hj

theorem map_shrink (fuel : Nat) {c : ℝ → Bool} {c' : E → Bool} (hc : ∀ x, c' (g x) = c x) (l : ℝ) : shrink fuel c' (g l) = (shrink fuel c l).map g := by
  unfold shrink
  refine whileN_map g hc (fun x _ => ?_) fuel l
  rw [H.lit (by decide), H.mul']
  rfl

theorem map_computeLambdaLimits (fuel : Nat) (s : Optimise ℝ) (hf : ∀ i, i ≤ s.nConstraints → s.scaleFactors.getD i 0 ≠ 0) :
    computeLambdaLimits fuel (s.map g) = (computeLambdaLimits fuel s).map (Optimise.map g) := by
  unfold computeLambdaLimits
  refine (forN_map_inv (Optimise.map g) (fun t => t.nConstraints = s.nConstraints ∧ t.scaleFactors = s.scaleFactors) (s.nConstraints + 1) ⟨rfl, rfl⟩ ?_).1
  rintro i t hi ⟨ht1, ht2⟩
  constructor
  · rw [map_bind']
    refine bind_congr fun k => ?_
    rw [map_bind', H.lit (Nat.pos_iff_ne_zero.1 (Nat.two_pow_pos _))]
    refine (congrArg (· >>= _) (?_ : _ = (maxSensitivity t.points t.points.length k (FP.lit 1 (2 ^ 1022))).map g)).trans ?_
    · dsimp only [Optimise.map]
      rw [List.length_map]
      exact map_maxSensitivity H _ _ _ _
    rw [bind_map']
    cases e : maxSensitivity t.points t.points.length k (FP.lit 1 (2 ^ 1022)) with
    | error _ => rfl
    | ok m =>
      have P := any_ok maxSensitivity_val e
      have hm : m ≠ 0 := by
        refine (lt_of_lt_of_le ?_ P.ge).ne'
        rw [FP.lit_real]
        push_cast
        positivity
      rw [ok_bind', ok_bind', map_bind']
      refine (congrArg (· >>= _) (rd_map' g t.scaleFactors i)).trans ?_
      rw [bind_map']
      cases e2 : rd t.scaleFactors i with
      | error _ => rfl
      | ok f =>
        have h0 : f ≠ 0 := by
          have := hf i (by omega)
          rw [← ht2, getD_of (rd_eq_ok.1 e2)] at this
          exact this
        rw [ok_bind', ok_bind', map_bind']
        have elo : FP.div (FP.div (FP.neg (t.map g).maxDisplacement) (g m)) (g f) = g (FP.div (FP.div (FP.neg t.maxDisplacement) m) f) := by
          dsimp only [Optimise.map]
          rw [H.neg', H.div' _ _ hm, H.div' _ _ h0]
        have ehi : FP.div (FP.div (t.map g).maxDisplacement (g m)) (g f) = g (FP.div (FP.div t.maxDisplacement m) f) := by
          dsimp only [Optimise.map]
          rw [H.div' _ _ hm, H.div' _ _ h0]
        rw [elo, ehi]
        refine (congrArg (· >>= _) (wr_map' g t.negativeLambdaLimits i _)).trans ?_
        rw [bind_map']
        refine bind_congr fun lo => ?_
        rw [map_bind']
        refine (congrArg (· >>= _) (wr_map' g t.positiveLambdaLimits i _)).trans ?_
        rw [bind_map']
        refine bind_congr fun hi => ?_
        rw [map_bind']
        refine (congrArg (· >>= _) (rd_map' g t.lambdas i)).trans ?_
        rw [bind_map']
        refine bind_congr fun l => ?_
        rw [map_bind']
        refine (congrArg (· >>= _) (map_shrink H fuel (fun x => H.lt_eq x _) l)).trans ?_
        rw [bind_map']
        refine bind_congr fun l => ?_
        rw [map_bind']
        refine (congrArg (· >>= _) (map_shrink H fuel (fun x => H.lt_eq _ x) l)).trans ?_
        rw [bind_map']
        refine bind_congr fun l => ?_
        rw [map_bind']
        refine (congrArg (· >>= _) (wr_map' g t.lambdas i l)).trans ?_
        rw [bind_map']
        rfl
  · refine of_wp ?_
    rw [wp_bind]; refine wp_any _ fun k => ?_
    rw [wp_bind]; refine wp_any _ fun m => ?_
    rw [wp_bind]; refine wp_any _ fun f => ?_
    rw [wp_bind]; refine wp_any _ fun lo => ?_
    rw [wp_bind]; refine wp_any _ fun hi => ?_
    rw [wp_bind]; refine wp_any _ fun l => ?_
    rw [wp_bind]; refine wp_any _ fun l => ?_
    rw [wp_bind]; refine wp_any _ fun l => ?_
    rw [wp_bind]; refine wp_any _ fun ls => ?_
    exact ⟨ht1, ht2⟩

theorem map_corner (s : Optimise ℝ) (n j : Nat) : corner (s.map g) n j = (corner s n j).map (List.map g) := by
  unfold corner
  refine forN_map (List.map g) _ (fun k l _ => ?_) []
  have e : (if j.testBit k then (s.map g).positiveLambdaLimits else (s.map g).negativeLambdaLimits) =
      (if j.testBit k then s.positiveLambdaLimits else s.negativeLambdaLimits).map g := by
    split <;> rfl
  rw [e, rd_map', bind_map', map_bind']
  refine bind_congr fun x => ?_
  rw [map_pure', List.map_append]
  rfl

theorem map_change (s : Optimise ℝ) (k : Nat) : change (s.map g) k = (change s k).map g := by
  unfold change
  rw [H.nat']
  refine forN_map g _ (fun i c _ => ?_) _
  rw [map_bind']
  refine (congrArg (· >>= _) (rd_map' (BoundaryPoint.map g) s.points i)).trans ?_
  rw [bind_map']
  refine bind_congr fun p => ?_
  rw [map_ite']
  refine if_congr Iff.rfl rfl ?_
  rw [map_bind']
  refine (congrArg (· >>= _) (rd_map' g s.displacements i)).trans ?_
  rw [bind_map']
  refine bind_congr fun d => ?_
  rw [map_bind']
  refine (congrArg (· >>= _) (rd_map' g p.sensitivities k)).trans ?_
  rw [bind_map']
  refine bind_congr fun a => ?_
  dsimp only [BoundaryPoint.map]
  rw [H.mul', H.mul', H.add']
  rfl

theorem map_cornerChanges (s : Optimise ℝ) (n i : Nat) :
    cornerChanges (s.map g) n i = (cornerChanges s n i).map (Prod.map (Optimise.map g) (List.map g)) := by
  unfold cornerChanges
  refine forN_map (Prod.map (Optimise.map g) (List.map g)) _ (fun j r _ => ?_) (s, [])
  obtain ⟨t, cs⟩ := r
  dsimp only [Prod.map]
  rw [map_corner H, bind_map', map_bind']
  refine bind_congr fun l => ?_
  rw [map_computeDisplacements H, bind_map', map_bind']
  refine bind_congr fun d => ?_
  rw [map_bind']
  refine bind_congr fun k => ?_
  rw [map_bind']
  refine (congrArg (· >>= _) (map_change H { t with displacements := d } k)).trans ?_
  rw [bind_map']
  refine bind_congr fun c => ?_
  rw [map_pure', Prod.map, List.map_append]
  rfl

theorem map_assess (n i : Nat) (s : Optimise ℝ) : assess n i (s.map g) = (assess n i s).map (Prod.map (Optimise.map g) id) := by
  unfold assess
  rw [map_cornerChanges H, bind_map', map_bind']
  refine bind_congr fun r => ?_
  obtain ⟨t, cs⟩ := r
  dsimp only [Prod.map]
  have es : (cs.map g).mergeSort (fun a b => !(FP.lt b a)) = (cs.mergeSort fun a b => !(FP.lt b a)).map g :=
    (List.map_mergeSort (fun a _ b _ => by rw [H.lt_eq])).symm
  rw [es, rd_map', bind_map', map_bind']
  refine bind_congr fun lo => ?_
  rw [List.length_map, rd_map', bind_map', map_bind']
  refine bind_congr fun hi => ?_
  rw [map_bind']
  refine (congrArg (· >>= _) (rd_map' g t.constraintDistances i)).trans ?_
  rw [bind_map']
  refine bind_congr fun d => ?_
  rw [H.lit (by decide), H.mul', H.mul', H.nat', H.lt_eq, H.lt_eq, H.lt_eq, map_ite', map_ite', map_ite']
  refine if_congr Iff.rfl (if_congr Iff.rfl ?_ rfl) (if_congr Iff.rfl ?_ rfl)
  · rw [map_bind']
    refine (congrArg (· >>= _) (wr_map' g t.constraintDistancesScaled i _)).trans ?_
    rw [bind_map']
    rfl
  · rw [map_bind']
    refine bind_congr fun eq => ?_
    rw [map_ite']
    refine if_congr Iff.rfl ?_ rfl
    rw [map_bind']
    refine (congrArg (· >>= _) (wr_map' g t.constraintDistancesScaled i _)).trans ?_
    rw [bind_map']
    rfl

omit H in
theorem map_move {α β : Type} (k : α → β) (v : List α) (i j : Nat) : (rd (v.map k) i >>= wr (v.map k) j) = (rd v i >>= wr v j).map (List.map k) := by
  rw [rd_map', bind_map', map_bind']
  exact bind_congr fun a => wr_map' k v j a

theorem map_moveDown (n i : Nat) (s : Optimise ℝ) : moveDown n i (s.map g) = (moveDown n i s).map (Optimise.map g) := by
  unfold moveDown
  rw [map_bind']
  refine (congrArg (· >>= _) (map_move g s.lambdas (i + 1) (n + 1))).trans ?_
  rw [bind_map']
  refine bind_congr fun l => ?_
  rw [map_bind']
  refine (congrArg (· >>= _) (map_move g s.scaleFactors (i + 1) (n + 1))).trans ?_
  rw [bind_map']
  refine bind_congr fun f => ?_
  rw [map_bind']
  refine (congrArg (· >>= _) (map_move g s.negativeLambdaLimits (i + 1) (n + 1))).trans ?_
  rw [bind_map']
  refine bind_congr fun lo => ?_
  rw [map_bind']
  refine (congrArg (· >>= _) (map_move g s.positiveLambdaLimits (i + 1) (n + 1))).trans ?_
  rw [bind_map']
  refine bind_congr fun hi => ?_
  rw [map_bind']
  refine bind_congr fun m => ?_
  rw [map_bind']
  refine (congrArg (· >>= _) (map_move g s.constraintDistances i n)).trans ?_
  rw [bind_map']
  refine bind_congr fun d => ?_
  rw [map_bind']
  refine (congrArg (· >>= _) (map_move g s.constraintDistancesScaled i n)).trans ?_
  rw [bind_map']
  refine bind_congr fun t => ?_
  rw [map_bind']
  rfl

theorem map_truncate (n : Nat) (s : Optimise ℝ) : truncate n (s.map g) = (truncate n s).map g := by
  unfold truncate
  dsimp only [Optimise.map]
  simp only [H.nat', map_resize g]

theorem map_pass (n : Nat) (s : Optimise ℝ) : pass n (s.map g) = (pass n s).map (Prod.map (Optimise.map g) id) := by
  unfold pass
  rw [map_ite']
  refine if_congr Iff.rfl rfl ?_
  rw [map_bind']
  refine (congrArg (· >>= _) (forN_map (Prod.map (Optimise.map g) id) n (f := fun i r => assess (n + 1) i r.1 >>= fun q => pure (q.1, r.2 ++ [q.2]))
    (fun i r _ => ?_) (s, []))).trans ?_
  · obtain ⟨t, act⟩ := r
    dsimp only [Prod.map, id]
    rw [map_assess H, bind_map', map_bind']
    rfl
  rw [bind_map']
  refine bind_congr fun r => ?_
  obtain ⟨t, act⟩ := r
  dsimp only [Prod.map, id]
  rw [map_bind']
  refine (congrArg (· >>= _) (forN_map (Prod.map (Optimise.map g) id) n
    (f := fun i r => rd act i >>= fun a => if a then moveDown r.2 i r.1 >>= fun s => pure (s, r.2 + 1) else pure r) (fun i r _ => ?_) (t, 0))).trans ?_
  · obtain ⟨u, k⟩ := r
    dsimp only [Prod.map, id]
    rw [map_bind']
    refine bind_congr fun a => ?_
    rw [map_ite']
    refine if_congr Iff.rfl ?_ rfl
    rw [map_moveDown H, bind_map', map_bind']
    rfl
  rw [bind_map']
  refine bind_congr fun r => ?_
  obtain ⟨u, k⟩ := r
  dsimp only [Prod.map, id]
  rw [map_truncate H]
  show (pure (if k < u.nConstraints then _ else _, k) : Res _) = _
  split <;> rfl

theorem map_computeConstraintDistances (fuel n : Nat) (s : Optimise ℝ) :
    computeConstraintDistances fuel n (s.map g) = (computeConstraintDistances fuel n s).map (Optimise.map g) := by
  induction fuel generalizing n s with
  | zero => rfl
  | succ fuel ih =>
    unfold computeConstraintDistances
    rw [map_pass H, bind_map', map_bind']
    refine bind_congr fun r => ?_
    obtain ⟨t, k⟩ := r
    dsimp only [Prod.map, id]
    rw [map_ite']
    exact if_congr Iff.rfl (ih t.nConstraints t) rfl

theorem map_reduce (fuel : Nat) (s : Optimise ℝ) (hR : ∀ k, k ≤ s.nConstraints → Responds s.points k) :
    reduce fuel (s.map g) = (reduce fuel s).map (Optimise.map g) := by
  unfold reduce
  have e1 : ({ s.map g with
      nPoints := (s.map g).points.length
      displacements := resize (s.map g).displacements (s.map g).points.length (FP.nat 0)
      indexMap := List.range ((s.map g).nConstraints + 1) } : Optimise E) =
      Optimise.map g { s with nPoints := s.points.length, displacements := resize s.displacements s.points.length (FP.nat 0), indexMap := List.range (s.nConstraints + 1) } := by
    dsimp only [Optimise.map]
    rw [List.length_map, H.nat', map_resize g]
  rw [e1]
  generalize hs0 : ({ s with nPoints := s.points.length, displacements := resize s.displacements s.points.length (FP.nat 0), indexMap := List.range (s.nConstraints + 1) } : Optimise ℝ) = s0
  have k1 : s0.nConstraints = s.nConstraints := by rw [← hs0]
  have k2 : s0.points = s.points := by rw [← hs0]
  have k3 : s0.indexMap = List.range (s0.nConstraints + 1) := by rw [← hs0]
  have k4 : s0.nPoints = s0.points.length := by rw [← hs0]
  refine bind_map_inv (T := List.map g) (P := fun f => ∀ i, i ≤ s0.nConstraints → f.getD i 0 ≠ 0)
    ⟨map_computeScaleFactors H s0 k3 k4 (by rw [k1, k2]; exact hR), fun f hf i hi => ?_⟩ fun f hf => ?_
  · obtain ⟨x, h1, -, h2⟩ := (any_ok (scale_val k3 k4) hf).2 i hi
    rw [getD_of h1]
    exact (h2 (by rw [k2]; exact hR i (by omega))).ne'
  · refine bind_map_inv (T := List.map g) (P := fun _ => True) ⟨?_, fun _ _ => trivial⟩ fun l _ => ?_
    · refine forN_map (List.map g) _ (fun i l hi => ?_) s0.lambdas
      rw [map_bind']
      refine (congrArg (· >>= _) (rd_map' g f i)).trans ?_
      rw [bind_map']
      cases e : rd f i with
      | error _ => rfl
      | ok a =>
        rw [ok_bind', ok_bind']
        refine modAt_map' g (fun x => ?_) l i
        have := hf i (by have : i < s0.nConstraints + 1 := hi; omega)
        rw [getD_of (rd_eq_ok.1 e)] at this
        rw [H.div' _ _ this]
        rfl
    · have e2 : computeLambdaLimits fuel (Optimise.map g { s0 with scaleFactors := f, lambdas := l }) =
          (computeLambdaLimits fuel { s0 with scaleFactors := f, lambdas := l }).map (Optimise.map g) := map_computeLambdaLimits H fuel _ hf
      refine bind_map_inv (T := Optimise.map g) (P := fun _ => True) ⟨e2, fun _ _ => trivial⟩ fun t _ => ?_
      rw [map_ite']
      exact if_congr Iff.rfl (map_computeConstraintDistances H _ _ t) rfl

theorem map_prepare (fuel : Nat) (s : Optimise ℝ) (hR : ∀ k, k ≤ s.nConstraints → Responds s.points k) :
    prepare fuel (s.map g) = (prepare fuel s).map (Optimise.map g) := by
  unfold prepare
  rw [map_reduce H fuel s hR, bind_map', map_bind']
  refine bind_congr fun t => ?_
  rw [map_bind']
  refine (congrArg (· >>= _) (?_ : _ = (forN (t.nConstraints + 1) (resize t.gradients (t.nConstraints + 1) []) fun i gs =>
    computeGradients { t with gradients := resize t.gradients (t.nConstraints + 1) [] } (List.replicate (t.nConstraints + 1) (FP.nat 0)) i >>= fun g => wr gs i g).map
      (List.map (List.map g)))).trans ?_
  · have e : resize (t.map g).gradients ((t.map g).nConstraints + 1) [] = (resize t.gradients (t.nConstraints + 1) []).map (List.map g) :=
      map_resize (List.map g) t.gradients (t.nConstraints + 1) []
    rw [e]
    refine forN_map (List.map (List.map g)) _ (fun i gs _ => ?_) _
    have e2 := map_computeGradients H { t with gradients := resize t.gradients (t.nConstraints + 1) [] } (List.replicate (t.nConstraints + 1) (FP.nat 0)) i
    rw [List.map_replicate, ← H.nat'] at e2
    rw [map_bind']
    refine (congrArg (· >>= _) e2).trans ?_
    rw [bind_map']
    exact bind_congr fun q => wr_map' (List.map g) gs i q
  · rw [bind_map']
    refine bind_congr fun gs => ?_
    rw [map_pure']
    unfold Optimise.map
    rfl

/-! ### the solver and what follows -/

theorem map_attempt {nlopt : Optimise ℝ → NLoptRun ℝ} {nlopt' : Optimise E → NLoptRun E} (hn : ∀ t, nlopt' (t.map g) = (nlopt t).map g) (s : Optimise ℝ) (o : Option ℝ) :
    attempt nlopt' (s.map g) (o.map g) = (attempt nlopt s o).map (Prod.map (Optimise.map g) (Option.map g)) := by
  unfold attempt
  rw [map_ite']
  refine if_congr (by show (s.lambdas.map g).length = _ ↔ _; rw [List.length_map]; rfl) ?_ rfl
  rw [hn]
  dsimp only
  have eq : ((nlopt s).map g).queries.filter (fun q => decide (q.2.2 ≤ (s.map g).nConstraints)) =
      ((nlopt s).queries.filter fun q => decide (q.2.2 ≤ s.nConstraints)).map fun q => ((fun i => g (q.1 i)), q.2) := by
    unfold NLoptRun.map
    dsimp only
    rw [List.filter_map]
    rfl
  rw [eq, map_bind']
  refine (congrArg (· >>= _) (foldlM_map' (Optimise.map g) _
    (f := fun t q => callback t ((List.range (t.nConstraints + 1)).map q.1) q.2.1 q.2.2 >>= fun r => pure r.1) (fun t q => ?_) _ s)).trans ?_
  · rw [map_bind']
    have e := map_callback H t ((List.range (t.nConstraints + 1)).map q.1) q.2.1 q.2.2
    rw [List.map_map] at e
    refine (congrArg (· >>= _) e).trans ?_
    rw [bind_map']
    rfl
  rw [bind_map']
  refine bind_congr fun t => ?_
  have el : (List.range ((t.map g).nConstraints + 1)).map ((nlopt s).map g).lambdas = ((List.range (t.nConstraints + 1)).map (nlopt s).lambdas).map g := by
    rw [List.map_map]
    rfl
  rw [el, show ((nlopt s).map g).result = (nlopt s).result from rfl]
  cases (nlopt s).result with
  | code c => rfl
  | invalid => rfl
  | other => rfl
  | roundoff =>
    dsimp only
    rw [map_bind']
    refine (congrArg (· >>= _) (forN_map (List.map g) _ (fun i l _ => modAt_map' g (f := fun x => pure (FP.mul x (FP.lit 7 10))) (fun x => ?_) l i) t.constraintDistancesScaled)).trans ?_
    · rw [H.lit (by decide), H.mul']
      rfl
    · rw [bind_map']
      rfl

theorem map_attempts {nlopt : Optimise ℝ → NLoptRun ℝ} {nlopt' : Optimise E → NLoptRun E} (hn : ∀ t, nlopt' (t.map g) = (nlopt t).map g) (fuel : Nat) (s : Optimise ℝ)
    (o : Option ℝ) : attempts nlopt' fuel (s.map g) (o.map g) = (attempts nlopt fuel s o).map (Prod.map (Optimise.map g) (Option.map g)) := by
  induction fuel generalizing s o with
  | zero => rfl
  | succ fuel ih =>
    unfold attempts
    rw [map_attempt H hn, bind_map', map_bind']
    refine bind_congr fun r => ?_
    obtain ⟨t, o'⟩ := r
    dsimp only [Prod.map]
    rw [show (t.map g).returnCode = t.returnCode from rfl]
    cases t.returnCode with
    | none => rfl
    | some c =>
      dsimp only
      rw [map_ite']
      exact if_congr Iff.rfl (ih t o') rfl

theorem map_rescaleDisplacements (s : Optimise ℝ) : rescaleDisplacements (s.map g) = (rescaleDisplacements s).map (Prod.map (Optimise.map g) g) := by
  unfold rescaleDisplacements
  rw [map_bind', H.nat']
  refine (congrArg (· >>= _) (forN_map g s.nPoints (f := fun i m => rd s.points i >>= fun p => if p.isFixed then pure m else rd s.displacements i >>= fun d =>
    pure (if (FP.lt s.maxDisplacement (FP.abs d)) && (FP.lt m (FP.abs d)) then FP.abs d else m)) (fun i m _ => ?_) _)).trans ?_
  · rw [map_bind']
    refine (congrArg (· >>= _) (rd_map' (BoundaryPoint.map g) s.points i)).trans ?_
    rw [bind_map']
    refine bind_congr fun p => ?_
    rw [map_ite']
    refine if_congr Iff.rfl rfl ?_
    rw [map_bind']
    refine (congrArg (· >>= _) (rd_map' g s.displacements i)).trans ?_
    rw [bind_map']
    refine bind_congr fun d => ?_
    dsimp only [Optimise.map]
    simp only [H.abs', H.lt_eq]
    split <;> rfl
  rw [bind_map']
  refine bind_congr fun m => ?_
  rw [H.eq_eq, map_ite']
  by_cases h0 : FP.eq m (FP.nat 0) = true
  · rw [if_pos h0, if_pos h0, H.nat']
    rfl
  · rw [if_neg h0, if_neg h0]
    have hm : m ≠ 0 := by
      rw [FP.eq_real] at h0
      simpa using h0
    dsimp only
    rw [show FP.div (s.map g).maxDisplacement (g m) = g (FP.div s.maxDisplacement m) from H.div' _ _ hm, map_bind']
    refine (congrArg (· >>= _) (forN_map (List.map g) _ (fun i l _ => modAt_map' g (f := fun x => pure (FP.mul x (FP.div s.maxDisplacement m))) (fun x => ?_) l i) s.lambdas)).trans ?_
    · rw [H.mul']
      rfl
    rw [bind_map']
    refine bind_congr fun l => ?_
    rw [map_bind']
    refine (congrArg (· >>= _) (map_computeDisplacements H { s with lambdas := l } l)).trans ?_
    rw [bind_map']
    rfl

omit H [FP E] in
theorem rescale_keep {s t : Optimise ℝ} {sc : ℝ} (e : rescaleDisplacements s = .ok (t, sc)) : t.scaleFactors = s.scaleFactors := by
  refine of_wp (Q := fun r => r.1.scaleFactors = s.scaleFactors) ?_ _ e
  unfold rescaleDisplacements
  rw [wp_bind]; refine wp_any _ fun m => ?_
  refine wp_ite (fun _ => rfl) fun _ => ?_
  rw [wp_bind]; refine wp_any _ fun l => ?_
  rw [wp_bind]; exact wp_any _ fun d => rfl

theorem map_finish {s : Optimise ℝ} {o : Option ℝ} {r : Optimise ℝ × ℝ} (e : finish s o = .ok r) (ht : r.1.timeStep ≠ 0) (hf : s.scaleFactors.getD 0 0 ≠ 0) :
    finish (s.map g) (o.map g) = .ok (Prod.map (Optimise.map g) g r) := by
  unfold finish at e ⊢
  obtain ⟨d, e1, e⟩ := bind_ok_inv e
  obtain ⟨⟨t, sc⟩, e2, e⟩ := bind_ok_inv e
  obtain ⟨v, e3, e⟩ := bind_ok_inv e
  obtain ⟨l, e4, e⟩ := bind_ok_inv e
  obtain ⟨l0, e5, e⟩ := bind_ok_inv e
  obtain ⟨pts, e6, e⟩ := bind_ok_inv e
  obtain ⟨u, e7, e⟩ := bind_ok_inv e
  obtain ⟨f, e8, e⟩ := bind_ok_inv e
  cases e
  dsimp only at ht e7 e6 e5 e4 e3 e2 e8
  have kt := rescale_keep e2
  dsimp only at kt
  have ku : u.scaleFactors = s.scaleFactors ∧ u.timeStep = FP.abs l0 := by
    refine of_wp (Q := fun u : Optimise ℝ => u.scaleFactors = s.scaleFactors ∧ u.timeStep = FP.abs l0) ?_ _ e7
    refine wp_ite (fun _ => wp_ite (fun _ => ?_) fun _ => ⟨kt, rfl⟩) fun _ => ⟨kt, rfl⟩
    rw [wp_bind]; exact wp_any _ fun _ => ⟨kt, rfl⟩
  rw [ku.2] at ht
  rw [ku.1] at e8
  rw [getD_of (rd_eq_ok.1 e8)] at hf
  have q1 := map_computeDisplacements H s s.lambdas
  rw [e1] at q1
  refine (congrArg (· >>= _) q1).trans ?_
  rw [map_ok', ok_bind']
  have q2 := map_rescaleDisplacements H { s with displacements := d }
  rw [e2] at q2
  refine (congrArg (· >>= _) q2).trans ?_
  rw [map_ok', ok_bind']
  cases o with
  | none => cases e3
  | some x =>
    cases e3
    dsimp only [Option.map, Prod.map]
    rw [pure_ok', ok_bind', H.mul']
    have q4 := forN_map (List.map g) (t.nConstraints + 1) (f := fun i l => rd t.scaleFactors i >>= fun f => modAt l i fun x => pure (FP.mul x f))
      (g := fun i l => rd (t.map g).scaleFactors i >>= fun f => modAt l i fun x => pure (FP.mul x f)) (fun i l _ => by
        rw [map_bind']
        refine (congrArg (· >>= _) (rd_map' g t.scaleFactors i)).trans ?_
        rw [bind_map']
        refine bind_congr fun f => modAt_map' g (fun x => ?_) l i
        rw [H.mul']
        rfl) t.lambdas
    rw [e4] at q4
    refine (congrArg (· >>= _) q4).trans ?_
    rw [map_ok', ok_bind', rd_map', e5, map_ok', ok_bind', H.abs']
    have q6 := forN_map (List.map (BoundaryPoint.map g)) t.nPoints
      (f := fun i pts => rd t.displacements i >>= fun d => modAt pts i fun p => pure { p with velocity := FP.div d (FP.abs l0) })
      (g := fun i pts => rd (t.map g).displacements i >>= fun d => modAt pts i fun p => pure { p with velocity := FP.div d (g (FP.abs l0)) }) (fun i l _ => by
        rw [map_bind']
        refine (congrArg (· >>= _) (rd_map' g t.displacements i)).trans ?_
        rw [bind_map']
        refine bind_congr fun d => modAt_map' (BoundaryPoint.map g) (fun p => ?_) l i
        rw [H.div' _ _ ht]
        rfl) t.points
    rw [e6] at q6
    refine (congrArg (· >>= _) q6).trans ?_
    rw [map_ok', ok_bind']
    refine (congrArg (· >>= _) (?_ : _ = .ok (u.map g))).trans ?_
    · rw [← map_ok', ← e7, map_ite', map_ite']
      refine if_congr Iff.rfl (if_congr Iff.rfl ?_ ?_) rfl
      · rw [map_bind']
        have q7 := forN_map (List.map g) (t.nConstraints + 1)
          (f := fun i l => rd t.indexMap (t.nConstraints + 1 - i) >>= fun k => rd l (t.nConstraints + 1 - i) >>= fun x => wr l k x)
          (g := fun i l => rd t.indexMap (t.nConstraints + 1 - i) >>= fun k => rd l (t.nConstraints + 1 - i) >>= fun x => wr l k x) (fun i l _ => by
            rw [map_bind']
            refine bind_congr fun k => ?_
            rw [rd_map', bind_map', map_bind']
            exact bind_congr fun x => wr_map' g l k x) (resize l (1 + t.nConstraintsInitial) (FP.nat 0))
        rw [← map_resize g, ← H.nat'] at q7
        refine (congrArg (· >>= _) q7).trans ?_
        rw [bind_map']
        refine bind_congr fun l' => ?_
        rfl
      · rw [map_pure', pure_ok']
        dsimp only [Optimise.map]
        rw [← map_resize g, ← H.nat']
    · rw [ok_bind']
      refine (congrArg (· >>= _) (rd_map' g u.scaleFactors 0)).trans ?_
      rw [ku.1, e8, map_ok', ok_bind', H.div' _ _ hf]
      rfl

theorem map_solve {nlopt : Optimise ℝ → NLoptRun ℝ} {nlopt' : Optimise E → NLoptRun E} (hn : ∀ t, nlopt' (t.map g) = (nlopt t).map g) {fuel : Nat} {s : Optimise ℝ}
    (hm : 0 < s.maxDisplacement) (hR : ∀ k, k ≤ s.nConstraints → Responds s.points k) {r : Optimise ℝ × ℝ} (e : solve nlopt fuel s = .ok r)
    (ht : r.1.timeStep ≠ 0) : solve nlopt' fuel (s.map g) = .ok (Prod.map (Optimise.map g) g r) := by
  unfold solve at e ⊢
  obtain ⟨s2, e1, e⟩ := bind_ok_inv e
  obtain ⟨⟨⟩, e2, e⟩ := bind_ok_inv e
  obtain ⟨⟨s3, o⟩, e3, e⟩ := bind_ok_inv e
  obtain ⟨s0, s1, -, P⟩ := any_ok (prepare_val hm) e1
  rw [map_prepare H fuel s hR, e1, map_ok', ok_bind']
  refine (congrArg (· >>= _) e2).trans ?_
  rw [ok_bind']
  have q3 := map_attempts H hn fuel s2 none
  rw [e3] at q3
  refine (congrArg (· >>= _) q3).trans ?_
  rw [map_ok', ok_bind']
  refine map_finish H e ht ?_
  have hp2 : s2.nPoints = s2.points.length := by
    rw [P.eq]
    dsimp only
    rw [P.rel.pts, P.rel.npts, P.lim.eq]
  have hf : s3.scaleFactors = s1.scaleFactors := by
    have h := (any_ok (attempts_val hp2) e3).1.eq
    dsimp only at h
    rw [h]
    dsimp only
    rw [P.eq]
  obtain ⟨x, h1, h2⟩ := (P.rel.full 0 0 P.rel.zero).2.1
  obtain ⟨f, -, -, -, -, h3, -, -, -, -, -, h4, -⟩ := P.lim.fn 0 (Nat.zero_le _)
  rw [h2] at h3
  cases h3
  rw [hf, getD_of h1]
  exact (h4 (hR 0 (Nat.zero_le _))).ne'

end Optimise

end Slsm
