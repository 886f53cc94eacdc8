import Verif.Proof.OptSolve
import Mathlib.Analysis.SpecificLimits.Basic

/-! When the optimiser stays inside its arrays. -/

namespace Slsm

variable {α β σ : Type}

/-- Only undefined behaviour is allowed. -/
abbrev onlyUb : Err → Prop := fun e => e = Err.ub

theorem ok_rd {v : List α} {i : Nat} {Q : α → Prop} {E : Err → Prop} (h : i < v.length) (hQ : ∀ a, v[i]? = some a → Q a) : wp (rd v i) Q E :=
  wp_rd h (hQ _ (List.getElem?_eq_getElem h))

theorem ok_modAt {v : List α} {i : Nat} {f : α → α} {Q : List α → Prop} {E : Err → Prop} (h : i < v.length)
    (hQ : ∀ x, v[i]? = some x → Q (v.set i (f x))) : wp (modAt v i fun x => pure (f x)) Q E := by
  unfold modAt
  rw [wp_bind]
  refine ok_rd h fun x hx => ?_
  rw [wp_bind, wp_pure]
  exact wp_wr h (hQ x hx)

theorem ub_rd {v : List α} {i : Nat} {Q : α → Prop} (h : ∀ a, v[i]? = some a → Q a) : wp (rd v i) Q onlyUb := by
  unfold rd
  cases e : v[i]? with
  | none => exact rfl
  | some a => exact h a e

theorem ub_wr {v : List α} {i : Nat} {a : α} {Q : List α → Prop} (h : i < v.length → Q (v.set i a)) : wp (wr v i a) Q onlyUb := by
  unfold wr
  split
  · exact h ‹_›
  · exact rfl

theorem ub_modAt {v : List α} {i : Nat} {f : α → α} {Q : List α → Prop}
    (h : ∀ x, v[i]? = some x → Q (v.set i (f x))) : wp (modAt v i fun x => pure (f x)) Q onlyUb := by
  unfold modAt
  rw [wp_bind]
  refine ub_rd fun x hx => ?_
  rw [wp_bind, wp_pure]
  exact ub_wr fun _ => h x hx

theorem ub_forN {n : Nat} {s : σ} {f : Nat → σ → Res σ} (I : σ → Prop) (h0 : I s) (h : ∀ i t, I t → wp (f i t) I onlyUb) : wp (forN n s f) I onlyUb :=
  wp_forN (fun _ => I) h0 fun i _ t ht => h i t ht

theorem wp_safe {r : Res α} {P Q : α → Prop} (h : wp r P anyErr) (h' : wp r Q noErr) : wp r (fun a => P a ∧ Q a) noErr :=
  wp_mono (wp_and h h') (fun _ h => h) fun _ h => h.2

theorem wp_ubs {r : Res α} {P Q : α → Prop} (h : wp r P anyErr) (h' : wp r Q onlyUb) : wp r (fun a => P a ∧ Q a) onlyUb :=
  wp_mono (wp_and h h') (fun _ h => h) fun _ h => h.2

namespace Optimise

open FP

section general

variable {D : Type} [FP D] {s : Optimise D}

/-! ### only undefined behaviour -/

theorem displacement_ub {l : List D} {p : BoundaryPoint D} : wp (displacement s l p) (fun _ => True) onlyUb := by
  unfold displacement
  rw [wp_bind]; refine ub_rd fun _ _ => ?_
  rw [wp_bind]; refine ub_rd fun _ _ => ?_
  rw [wp_bind]; refine ub_rd fun _ _ => ?_
  rw [wp_bind]
  refine wp_imp (ub_forN (fun _ => True) trivial fun j d _ => ?_) fun _ _ => trivial
  rw [wp_bind]; refine ub_rd fun _ _ => ?_
  rw [wp_bind]; refine ub_rd fun _ _ => ?_
  rw [wp_bind]; refine ub_rd fun _ _ => ?_
  rw [wp_bind]; refine ub_rd fun _ _ => ?_
  exact trivial

theorem computeDisplacements_ub {l : List D} : wp (computeDisplacements s l) (fun _ => True) onlyUb := by
  unfold computeDisplacements
  refine ub_forN (fun _ => True) trivial fun i ds _ => ?_
  rw [wp_bind]; refine ub_rd fun p _ => wp_ite (fun _ => trivial) fun _ => ?_
  rw [wp_bind]
  exact wp_imp displacement_ub fun d _ => ub_wr fun _ => trivial

theorem computeGradients_ub {g : List D} {i : Nat} : wp (computeGradients s g i) (fun _ => True) onlyUb := by
  unfold computeGradients
  rw [wp_bind]; refine ub_wr fun _ => ?_
  rw [wp_bind]
  refine wp_imp (ub_forN (fun _ => True) trivial fun j g _ => ub_wr fun _ => trivial) fun g _ => ?_
  refine ub_forN (fun _ => True) trivial fun j g _ => ?_
  rw [wp_bind]; refine ub_rd fun p _ => wp_ite (fun _ => trivial) fun _ => ?_
  refine ub_forN (fun _ => True) trivial fun j g _ => ?_
  rw [wp_bind]; refine ub_rd fun _ _ => ?_
  rw [wp_bind]; refine ub_rd fun _ _ => ?_
  rw [wp_bind]; refine ub_rd fun _ _ => ?_
  rw [wp_bind]; refine ub_rd fun _ _ => ?_
  rw [wp_bind]; refine ub_rd fun _ _ => ?_
  rw [wp_bind]; refine ub_rd fun _ _ => ?_
  exact ub_modAt fun _ _ => trivial

theorem computeFunction_ub {i : Nat} : wp (computeFunction s i) (fun _ => True) onlyUb := by
  unfold computeFunction
  rw [wp_bind]; refine ub_rd fun _ _ => ?_
  rw [wp_bind]
  refine wp_imp (ub_forN (fun _ => True) trivial fun j g _ => ?_) fun g _ => ?_
  · rw [wp_bind]; refine ub_rd fun p _ => wp_ite (fun _ => trivial) fun _ => ?_
    rw [wp_bind]; refine ub_rd fun _ _ => ?_
    rw [wp_bind]; refine ub_rd fun _ _ => ?_
    rw [wp_bind]; refine ub_rd fun _ _ => ?_
    exact trivial
  · refine wp_ite (fun _ => trivial) fun _ => ?_
    rw [wp_bind]; refine ub_rd fun _ _ => ?_
    rw [wp_bind]; refine ub_rd fun _ _ => ?_
    exact trivial

theorem callback_ub {l : List D} {w : Bool} {i : Nat} : wp (callback s l w i) (fun _ => True) onlyUb := by
  unfold callback
  rw [wp_bind]
  refine wp_imp computeDisplacements_ub fun d _ => ?_
  dsimp only
  rw [wp_bind]
  refine wp_imp computeFunction_ub fun v _ => wp_ite (fun _ => ?_) fun _ => trivial
  rw [wp_bind]; refine ub_rd fun _ _ => ?_
  exact trivial

theorem change_ub {k : Nat} : wp (change s k) (fun _ => True) onlyUb := by
  unfold change
  refine ub_forN (fun _ => True) trivial fun j g _ => ?_
  rw [wp_bind]; refine ub_rd fun p _ => wp_ite (fun _ => trivial) fun _ => ?_
  rw [wp_bind]; refine ub_rd fun _ _ => ?_
  rw [wp_bind]; refine ub_rd fun _ _ => ?_
  exact trivial

theorem corner_ub {n j : Nat} : wp (corner s n j) (fun _ => True) onlyUb := by
  unfold corner
  refine ub_forN (fun _ => True) trivial fun k l _ => ?_
  rw [wp_bind]; refine ub_rd fun _ _ => ?_
  exact trivial

theorem assess_ub {n i : Nat} : wp (assess n i s) (fun r => r.1.nConstraints = s.nConstraints) onlyUb := by
  unfold assess
  rw [wp_bind]
  have h : wp (cornerChanges s n i) (fun r => r.1.nConstraints = s.nConstraints) onlyUb := by
    unfold cornerChanges
    refine ub_forN (fun (r : Optimise D × List D) => r.1.nConstraints = s.nConstraints) rfl ?_
    rintro j ⟨t, cs⟩ ht
    dsimp only at ht ⊢
    rw [wp_bind]
    refine wp_imp corner_ub fun l _ => ?_
    rw [wp_bind]
    refine wp_imp computeDisplacements_ub fun d _ => ?_
    rw [wp_bind]
    refine ub_rd fun k _ => ?_
    rw [wp_bind]
    exact wp_imp change_ub fun c _ => ht
  refine wp_imp h ?_
  rintro ⟨t, cs⟩ ht
  dsimp only at ht ⊢
  rw [wp_bind]; refine ub_rd fun _ _ => ?_
  rw [wp_bind]; refine ub_rd fun _ _ => ?_
  rw [wp_bind]; refine ub_rd fun _ _ => ?_
  refine wp_ite (fun _ => wp_ite (fun _ => ?_) fun _ => ht) fun _ => wp_ite (fun _ => ?_) fun _ => ht
  · rw [wp_bind]; exact ub_wr fun _ => ht
  · rw [wp_bind]
    refine ub_rd fun _ _ => wp_ite (fun _ => ?_) fun _ => ht
    rw [wp_bind]; exact ub_wr fun _ => ht

theorem move_ub {α : Type} {v : List α} {i j : Nat} {Q : List α → Prop} (h : ∀ w, Q w) : wp (rd v i >>= wr v j) Q onlyUb := by
  rw [wp_bind]
  exact ub_rd fun _ _ => ub_wr fun _ => h _

theorem moveDown_ub {n i : Nat} : wp (moveDown n i s) (fun r => r.nConstraints = s.nConstraints) onlyUb := by
  unfold moveDown
  rw [wp_bind]; refine move_ub fun _ => ?_
  rw [wp_bind]; refine move_ub fun _ => ?_
  rw [wp_bind]; refine move_ub fun _ => ?_
  rw [wp_bind]; refine move_ub fun _ => ?_
  rw [wp_bind]; refine move_ub fun _ => ?_
  rw [wp_bind]; refine move_ub fun _ => ?_
  rw [wp_bind]; refine move_ub fun _ => ?_
  rw [wp_bind]; refine move_ub fun _ => ?_
  exact rfl

theorem pass_ub : wp (pass s.nConstraints s) (fun r => r.1.nConstraints = r.2 ∧ r.2 ≤ s.nConstraints) onlyUb := by
  unfold pass
  refine wp_ite (fun _ => rfl) fun _ => ?_
  rw [wp_bind]
  refine wp_imp (ub_forN (fun r => r.1.nConstraints = s.nConstraints) rfl ?_) ?_
  · rintro i ⟨t, act⟩ ht
    dsimp only at ht ⊢
    rw [wp_bind]
    refine wp_imp assess_ub ?_
    rintro ⟨t', a⟩ h
    exact h.trans ht
  · rintro ⟨t, act⟩ ht
    dsimp only at ht ⊢
    rw [wp_bind]
    refine wp_imp (wp_forN (fun i r => r.1.nConstraints = s.nConstraints ∧ r.2 ≤ i) ⟨ht, le_rfl⟩ ?_) ?_
    · rintro i hi ⟨t', k⟩ ⟨h1, h2⟩
      dsimp only at h1 h2 ⊢
      rw [wp_bind]
      refine ub_rd fun a _ => wp_ite (fun _ => ?_) fun _ => ⟨h1, by dsimp only; omega⟩
      rw [wp_bind]
      refine wp_imp moveDown_ub fun t'' h => ⟨h.trans h1, by dsimp only; omega⟩
    · rintro ⟨t', k⟩ ⟨h1, h2⟩
      dsimp only at h1 h2 ⊢
      rw [wp_pure]
      dsimp only
      split
      · exact ⟨rfl, h2⟩
      · exact ⟨by omega, h2⟩

theorem constraints_ub {fuel n : Nat} (hn : s.nConstraints = n) (hf : n < fuel) : wp (computeConstraintDistances fuel n s) (fun _ => True) onlyUb := by
  induction fuel generalizing n s with
  | zero => omega
  | succ fuel ih =>
    unfold computeConstraintDistances
    rw [wp_bind]
    subst hn
    refine wp_imp pass_ub ?_
    rintro ⟨t, k⟩ ⟨h1, h2⟩
    dsimp only at h1 h2 ⊢
    refine wp_ite (fun h => ?_) fun _ => trivial
    simp only [Bool.and_eq_true, decide_eq_true_eq] at h
    exact ih rfl (by omega)

theorem rescale_ub : wp (rescaleDisplacements s) (fun _ => True) onlyUb := by
  unfold rescaleDisplacements
  rw [wp_bind]
  refine wp_imp (ub_forN (fun _ => True) trivial fun j g _ => ?_) fun m _ => wp_ite (fun _ => trivial) fun _ => ?_
  · rw [wp_bind]; refine ub_rd fun p _ => wp_ite (fun _ => trivial) fun _ => ?_
    rw [wp_bind]; refine ub_rd fun _ _ => ?_
    exact trivial
  · dsimp only
    rw [wp_bind]
    refine wp_imp (ub_forN (fun _ => True) trivial fun j g _ => ub_modAt fun _ _ => trivial) fun l _ => ?_
    rw [wp_bind]
    exact wp_imp computeDisplacements_ub fun _ _ => trivial

theorem finish_ub {o : Option D} : wp (finish s o) (fun _ => True) onlyUb := by
  unfold finish
  rw [wp_bind]
  refine wp_imp computeDisplacements_ub fun d _ => ?_
  dsimp only
  rw [wp_bind]
  refine wp_imp rescale_ub ?_
  rintro ⟨t, c⟩ -
  dsimp only
  rw [wp_bind]
  cases o with
  | none => exact rfl
  | some v =>
    dsimp only
    rw [wp_pure, wp_bind]
    refine wp_imp (ub_forN (fun _ => True) trivial fun j g _ => ?_) fun l _ => ?_
    · rw [wp_bind]; exact ub_rd fun _ _ => ub_modAt fun _ _ => trivial
    · rw [wp_bind]
      refine ub_rd fun l0 _ => ?_
      rw [wp_bind]
      refine wp_imp (ub_forN (fun _ => True) trivial fun j g _ => ?_) fun pts _ => ?_
      · rw [wp_bind]; exact ub_rd fun _ _ => ub_modAt fun _ _ => trivial
      · rw [wp_bind]
        refine wp_imp (Q := fun _ => True) (wp_ite (fun _ => wp_ite (fun _ => ?_) fun _ => trivial) fun _ => trivial) fun t _ => ?_
        · rw [wp_bind]
          refine wp_imp (ub_forN (fun _ => True) trivial fun j g _ => ?_) fun _ _ => trivial
          rw [wp_bind]; refine ub_rd fun _ _ => ?_
          rw [wp_bind]; refine ub_rd fun _ _ => ?_
          exact ub_wr fun _ => trivial
        · rw [wp_bind]
          exact ub_rd fun _ _ => trivial

/-! ### sizes -/

/-- The arrays have the sizes that the code relies on. -/
structure Fit (s : Optimise D) (N : Nat) : Prop where
  pts : s.nPoints = s.points.length
  disp : s.displacements.length = s.points.length
  idx : s.indexMap.length = s.nConstraints + 1
  sf : s.scaleFactors.length = s.nConstraints + 1
  lo : s.negativeLambdaLimits.length = s.nConstraints + 1
  hi : s.positiveLambdaLimits.length = s.nConstraints + 1
  la : s.lambdas.length = s.nConstraints + 1
  cd : s.constraintDistances.length = s.nConstraints
  ts : s.constraintDistancesScaled.length = s.nConstraints
  eqs : s.isEquality.length = s.nConstraints
  bound : ∀ m ∈ s.indexMap, m ≤ N
  zero : s.indexMap[0]? = some 0
  sens : ∀ p ∈ s.points, p.isFixed = false → N < p.sensitivities.length

variable {N : Nat}

theorem Fit.k (F : Fit s N) {j k : Nat} (h : s.indexMap[j]? = some k) {p : BoundaryPoint D} (hp : p ∈ s.points) (hf : p.isFixed = false) :
    k < p.sensitivities.length := lt_of_le_of_lt (F.bound k (List.mem_of_getElem? h)) (F.sens p hp hf)

theorem displacement_safe (F : Fit s N) {l : List D} (hl : l.length = s.nConstraints + 1) {p : BoundaryPoint D} (hp : p ∈ s.points)
    (hf : p.isFixed = false) {E : Err → Prop} : wp (displacement s l p) (fun _ => True) E := by
  have h1 := F.sf; have h2 := F.idx; have h3 := F.sens p hp hf
  unfold displacement
  rw [wp_bind]; refine ok_rd (by omega) fun _ _ => ?_
  rw [wp_bind]; refine ok_rd (by omega) fun _ _ => ?_
  rw [wp_bind]; refine ok_rd (by omega) fun _ _ => ?_
  rw [wp_bind]
  refine wp_imp (wp_forN (fun _ _ => True) trivial fun j hj d _ => ?_) fun _ _ => trivial
  rw [wp_bind]; refine ok_rd (by omega) fun k hk => ?_
  rw [wp_bind]; refine ok_rd (by omega) fun _ _ => ?_
  rw [wp_bind]; refine ok_rd (by omega) fun _ _ => ?_
  rw [wp_bind]; refine ok_rd (F.k hk hp hf) fun _ _ => ?_
  exact trivial

theorem computeDisplacements_safe (F : Fit s N) {l : List D} (hl : l.length = s.nConstraints + 1) {E : Err → Prop} :
    wp (computeDisplacements s l) (fun d => d.length = s.points.length) E := by
  have h1 := F.pts
  unfold computeDisplacements
  refine wp_forN (fun _ (d : List D) => d.length = s.points.length) F.disp fun i hi ds hd => ?_
  rw [wp_bind]
  refine ok_rd (by omega) fun p hp => wp_ite (fun _ => hd) fun hf => ?_
  rw [wp_bind]
  refine wp_imp (displacement_safe F hl (List.mem_of_getElem? hp) (by simpa using hf)) fun d _ => wp_wr (by omega) ?_
  rw [List.length_set, hd]

theorem Fit.displaced (F : Fit s N) {d : List D} (h : d.length = s.points.length) : Fit { s with displacements := d } N :=
  ⟨F.pts, h, F.idx, F.sf, F.lo, F.hi, F.la, F.cd, F.ts, F.eqs, F.bound, F.zero, F.sens⟩

theorem Fit.lambda (F : Fit s N) {l : List D} (h : l.length = s.nConstraints + 1) : Fit { s with lambdas := l } N :=
  ⟨F.pts, F.disp, F.idx, F.sf, F.lo, F.hi, h, F.cd, F.ts, F.eqs, F.bound, F.zero, F.sens⟩

theorem Fit.target (F : Fit s N) {t : List D} (h : t.length = s.nConstraints) : Fit { s with constraintDistancesScaled := t } N :=
  ⟨F.pts, F.disp, F.idx, F.sf, F.lo, F.hi, F.la, F.cd, h, F.eqs, F.bound, F.zero, F.sens⟩

theorem computeFunction_safe (F : Fit s N) {i : Nat} (hi : i ≤ s.nConstraints) {E : Err → Prop} : wp (computeFunction s i) (fun _ => True) E := by
  have h1 := F.idx; have h2 := F.pts; have h3 := F.sf; have h4 := F.disp; have h5 := F.ts
  unfold computeFunction
  rw [wp_bind]; refine ok_rd (by omega) fun k hk => ?_
  rw [wp_bind]
  refine wp_imp (wp_forN (fun _ _ => True) trivial fun j hj g _ => ?_) fun g _ => ?_
  · rw [wp_bind]; refine ok_rd (by omega) fun p hp => wp_ite (fun _ => trivial) fun hf => ?_
    rw [wp_bind]; refine ok_rd (by omega) fun _ _ => ?_
    rw [wp_bind]; refine ok_rd (by omega) fun _ _ => ?_
    rw [wp_bind]; refine ok_rd (F.k hk (List.mem_of_getElem? hp) (by simpa using hf)) fun _ _ => ?_
    exact trivial
  · refine wp_ite (fun _ => trivial) fun h0 => ?_
    rw [wp_bind]; refine ok_rd (by omega) fun _ _ => ?_
    rw [wp_bind]; refine ok_rd (by omega) fun _ _ => ?_
    exact trivial

theorem callback_safe (F : Fit s N) (hg : s.gradients.length = s.nConstraints + 1) {l : List D} (hl : l.length = s.nConstraints + 1) {w : Bool} {i : Nat}
    (hi : i ≤ s.nConstraints) {E : Err → Prop} :
    wp (callback s l w i) (fun r => Fit r.1 N ∧ ∃ d, r.1 = { s with displacements := d }) E := by
  unfold callback
  rw [wp_bind]
  refine wp_imp (computeDisplacements_safe F hl) fun d hd => ?_
  have F' := F.displaced hd
  dsimp only
  rw [wp_bind]
  refine wp_imp (computeFunction_safe F' hi) fun v _ => wp_ite (fun _ => ?_) fun _ => ⟨F', d, rfl⟩
  rw [wp_bind]; exact ok_rd (by omega) fun _ _ => ⟨F', d, rfl⟩

theorem maxSensitivity_safe {pts : List (BoundaryPoint D)} {n k : Nat} {m0 : D} (hn : n ≤ pts.length)
    (h : ∀ p ∈ pts, p.isFixed = false → k < p.sensitivities.length) {E : Err → Prop} : wp (maxSensitivity pts n k m0) (fun _ => True) E := by
  unfold maxSensitivity
  refine wp_forN (fun _ _ => True) trivial fun i hi m _ => ?_
  rw [wp_bind]; refine ok_rd (by omega) fun p hp => wp_ite (fun _ => trivial) fun hf => ?_
  rw [wp_bind]; refine ok_rd (h p (List.mem_of_getElem? hp) (by simpa using hf)) fun _ _ => ?_
  exact trivial

theorem computeGradients_safe {g : List D} {i : Nat} (hp : s.nPoints = s.points.length) (hidx : s.indexMap.length = s.nConstraints + 1)
    (hsf : s.scaleFactors.length = s.nConstraints + 1) (hb : ∀ m ∈ s.indexMap, m ≤ s.nConstraints)
    (hs : ∀ p ∈ s.points, p.isFixed = false → s.nConstraints < p.sensitivities.length) (hg : g.length = s.nConstraints + 1) (hi : i ≤ s.nConstraints)
    {E : Err → Prop} : wp (computeGradients s g i) (fun g' => g'.length = s.nConstraints + 1) E := by
  unfold computeGradients
  rw [wp_bind]; refine wp_wr (by omega) ?_
  rw [wp_bind]
  refine wp_imp (wp_forN (fun _ (g' : List D) => g'.length = s.nConstraints + 1) (by simp [hg]) fun j hj g' h => wp_wr (by omega) (by simp [h])) fun g1 h1 => ?_
  refine wp_forN (fun _ (g' : List D) => g'.length = s.nConstraints + 1) h1 fun j hj g2 h2 => ?_
  rw [wp_bind]; refine ok_rd (by omega) fun p hp => wp_ite (fun _ => h2) fun hf => ?_
  have hpl := hs p (List.mem_of_getElem? hp) (by simpa using hf)
  refine wp_forN (fun _ (g' : List D) => g'.length = s.nConstraints + 1) h2 fun j hj g3 h3 => ?_
  rw [wp_bind]; refine ok_rd (by omega) fun k hk => ?_
  have := hb k (List.mem_of_getElem? hk)
  rw [wp_bind]; refine ok_rd (by omega) fun _ _ => ?_
  rw [wp_bind]; refine ok_rd (by omega) fun _ _ => ?_
  rw [wp_bind]; refine ok_rd (by omega) fun m hm => ?_
  have := hb m (List.mem_of_getElem? hm)
  rw [wp_bind]; refine ok_rd (by omega) fun _ _ => ?_
  rw [wp_bind]; refine ok_rd (by omega) fun _ _ => ?_
  exact ok_modAt (by omega) fun _ _ => by rw [List.length_set]; exact h3

theorem computeScaleFactors_safe (hp : s.nPoints = s.points.length) (hid : s.indexMap = List.range (s.nConstraints + 1))
    (hsf : s.scaleFactors.length = s.nConstraints + 1)
    (hs : ∀ p ∈ s.points, p.isFixed = false → s.nConstraints < p.sensitivities.length) {E : Err → Prop} :
    wp (computeScaleFactors s) (fun f => f.length = s.nConstraints + 1) E := by
  unfold computeScaleFactors
  rw [wp_bind]
  refine wp_imp (wp_forN (fun _ (f : List D) => f.length = s.nConstraints + 1) hsf fun i hi f hf => ?_) fun f1 h1 => ?_
  · rw [wp_bind]
    refine wp_imp (maxSensitivity_safe (by omega) fun p hp hf => by have := hs p hp hf; omega) fun m _ => wp_wr (by omega) ?_
    rw [List.length_set]; exact hf
  · rw [wp_bind]
    refine wp_imp (wp_forN (fun _ (r : List D × List D) => r.1.length = s.nConstraints + 1 ∧ r.2.length = s.nConstraints + 1)
      ⟨h1, List.length_replicate⟩ ?_) ?_
    · rintro i hi ⟨f, g⟩ ⟨a, b⟩
      dsimp only at a b ⊢
      rw [wp_bind]
      refine wp_imp (computeGradients_safe (s := { s with scaleFactors := f }) hp (by dsimp only; rw [hid, List.length_range]) a
        (fun m hm => ?_) hs b (by dsimp only; omega)) fun g' hg' => ?_
      · dsimp only at hm
        rw [hid, List.mem_range] at hm
        dsimp only; omega
      · dsimp only at hg'
        rw [wp_bind]; refine ok_rd (by omega) fun _ _ => ?_
        rw [wp_bind]; refine ok_modAt (by omega) fun _ _ => ?_
        exact ⟨by rw [List.length_set]; exact a, hg'⟩
    · rintro ⟨f, g⟩ ⟨a, b⟩
      exact a

theorem corner_safe (F : Fit s N) {n j : Nat} (hn : n ≤ s.nConstraints + 1) {E : Err → Prop} : wp (corner s n j) (fun l => l.length = n) E := by
  have h1 := F.lo; have h2 := F.hi
  unfold corner
  refine wp_forN (fun i (l : List D) => l.length = i) rfl fun k hk l hl => ?_
  rw [wp_bind]
  refine ok_rd (by split <;> omega) fun x _ => ?_
  rw [wp_pure, List.length_append, hl]; rfl

theorem change_safe (F : Fit s N) {k j : Nat} (hk : s.indexMap[j]? = some k) {E : Err → Prop} : wp (change s k) (fun _ => True) E := by
  have h2 := F.pts; have h4 := F.disp
  unfold change
  refine wp_forN (fun _ _ => True) trivial fun j hj g _ => ?_
  rw [wp_bind]; refine ok_rd (by omega) fun p hp => wp_ite (fun _ => trivial) fun hf => ?_
  rw [wp_bind]; refine ok_rd (by omega) fun _ _ => ?_
  rw [wp_bind]; refine ok_rd (F.k hk (List.mem_of_getElem? hp) (by simpa using hf)) fun _ _ => ?_
  exact trivial

/-- The same object up to displacements and targets. -/
def Near (s r : Optimise D) : Prop := ∃ d t, r = { s with displacements := d, constraintDistancesScaled := t }

theorem cornerChanges_safe (F : Fit s N) {i : Nat} (hi : i < s.nConstraints) {E : Err → Prop} :
    wp (cornerChanges s (s.nConstraints + 1) i) (fun r => Fit r.1 N ∧ Near s r.1 ∧ r.2.length = 2 ^ (s.nConstraints + 1)) E := by
  unfold cornerChanges
  refine wp_forN (fun m (r : Optimise D × List D) => Fit r.1 N ∧ Near s r.1 ∧ r.2.length = m) ⟨F, ⟨_, _, rfl⟩, rfl⟩ ?_
  rintro j hj ⟨t, cs⟩ ⟨h1, ⟨d, u, rfl⟩, h3⟩
  dsimp only at h1 h3 ⊢
  rw [wp_bind]
  refine wp_imp (corner_safe h1 (by dsimp only; omega)) fun l hl => ?_
  rw [wp_bind]
  refine wp_imp (computeDisplacements_safe h1 hl) fun d' hd' => ?_
  have F' := h1.displaced hd'
  dsimp only at F' ⊢
  have := F.idx
  rw [wp_bind]
  refine ok_rd (by omega) fun k hk => ?_
  rw [wp_bind]
  refine wp_imp (change_safe F' hk) fun c _ => ⟨F', ⟨_, _, rfl⟩, ?_⟩
  rw [List.length_append]
  rw [h3]; rfl

theorem assess_safe (F : Fit s N) {i : Nat} (hi : i < s.nConstraints) {E : Err → Prop} :
    wp (assess (s.nConstraints + 1) i s) (fun r => Fit r.1 N ∧ Near s r.1) E := by
  unfold assess
  rw [wp_bind]
  refine wp_imp (cornerChanges_safe F hi) ?_
  rintro ⟨t, cs⟩ ⟨h1, ⟨d, u, rfl⟩, h3⟩
  dsimp only at h1 h3 ⊢
  have hpos : 0 < 2 ^ (s.nConstraints + 1) := by positivity
  have hc := F.cd; have he := F.eqs; have hu := h1.ts
  dsimp only at hu
  rw [wp_bind]; refine ok_rd (by rw [List.length_mergeSort]; omega) fun _ _ => ?_
  rw [wp_bind]; refine ok_rd (by rw [List.length_mergeSort]; omega) fun _ _ => ?_
  rw [wp_bind]; refine ok_rd (by omega) fun _ _ => ?_
  have here : Fit { s with displacements := d, constraintDistancesScaled := u } N ∧ Near s { s with displacements := d, constraintDistancesScaled := u } :=
    ⟨h1, _, _, rfl⟩
  refine wp_ite (fun _ => wp_ite (fun _ => ?_) fun _ => here) fun _ => wp_ite (fun _ => ?_) fun _ => here
  · rw [wp_bind]
    exact wp_wr (by omega) ⟨h1.target (by rw [List.length_set]; exact hu), _, _, rfl⟩
  · rw [wp_bind]
    refine ok_rd (by omega) fun _ _ => wp_ite (fun _ => ?_) fun _ => here
    rw [wp_bind]
    exact wp_wr (by omega) ⟨h1.target (by rw [List.length_set]; exact hu), _, _, rfl⟩

theorem move_safe {α : Type} {v : List α} {i j n : Nat} {Q : List α → Prop} {E : Err → Prop} (hv : v.length = n) (hi : i < n) (hj : j < n)
    (h : ∀ x w, v[i]? = some x → w = v.set j x → w.length = n → Q w) : wp (rd v i >>= wr v j) Q E := by
  rw [wp_bind]
  exact ok_rd (by omega) fun x hx => wp_wr (by omega) (h x _ hx rfl (by rw [List.length_set, hv]))

theorem moveDown_safe (F : Fit s N) {n i : Nat} (hn : n ≤ i) (hi : i < s.nConstraints) {E : Err → Prop} :
    wp (moveDown n i s) (fun r => Fit r N ∧ r.nConstraints = s.nConstraints ∧ r.gradients = s.gradients) E := by
  unfold moveDown
  rw [wp_bind]; refine move_safe F.la (by omega) (by omega) fun _ _ _ _ e1 => ?_
  rw [wp_bind]; refine move_safe F.sf (by omega) (by omega) fun _ _ _ _ e2 => ?_
  rw [wp_bind]; refine move_safe F.lo (by omega) (by omega) fun _ _ _ _ e3 => ?_
  rw [wp_bind]; refine move_safe F.hi (by omega) (by omega) fun _ _ _ _ e4 => ?_
  rw [wp_bind]; refine move_safe F.idx (by omega) (by omega) fun x w hx hw e5 => ?_
  rw [wp_bind]; refine move_safe F.cd (by omega) (by omega) fun _ _ _ _ e6 => ?_
  rw [wp_bind]; refine move_safe F.ts (by omega) (by omega) fun _ _ _ _ e7 => ?_
  rw [wp_bind]; refine move_safe F.eqs (by omega) (by omega) fun _ _ _ _ e8 => ?_
  rw [wp_pure]
  refine ⟨⟨F.pts, F.disp, e5, e2, e3, e4, e1, e6, e7, e8, fun m hm => ?_, ?_, F.sens⟩, rfl, rfl⟩
  · dsimp only at hm
    rw [hw] at hm
    rcases List.mem_or_eq_of_mem_set hm with h | rfl
    · exact F.bound m h
    · exact F.bound m (List.mem_of_getElem? hx)
  · dsimp only
    rw [hw, List.getElem?_set_ne (by omega)]
    exact F.zero

theorem resize_mem {α : Type} {v : List α} {n : Nat} {a x : α} (hn : n ≤ v.length) (h : x ∈ resize v n a) : x ∈ v := by
  unfold resize at h
  rw [Nat.sub_eq_zero_of_le hn, List.replicate_zero, List.append_nil] at h
  exact List.mem_of_mem_take h

theorem truncate_fit (F : Fit s N) {k : Nat} (hk : k ≤ s.nConstraints) : Fit (truncate k s) N := by
  have := F.idx
  refine ⟨F.pts, F.disp, resize_length, resize_length, resize_length, resize_length, resize_length, resize_length, resize_length, resize_length,
    fun m hm => F.bound m (resize_mem (by omega) hm), ?_, F.sens⟩
  show (resize s.indexMap (k + 1) 0)[0]? = some 0
  unfold resize
  rw [List.getElem?_append_left (by rw [List.length_take]; omega), List.getElem?_take_of_lt (by omega)]
  exact F.zero

theorem pass_safe (F : Fit s N) (hn : s.nConstraints < 31) {E : Err → Prop} :
    wp (pass s.nConstraints s) (fun r => Fit r.1 N ∧ r.1.nConstraints = r.2 ∧ r.2 ≤ s.nConstraints) E := by
  unfold pass
  refine wp_ite (fun h => absurd h (by omega)) fun _ => ?_
  rw [wp_bind]
  refine wp_imp (wp_forN (fun i r => Fit r.1 N ∧ Near s r.1 ∧ r.2.length = i) ⟨F, ⟨_, _, rfl⟩, rfl⟩ ?_) ?_
  · rintro i hi ⟨t, act⟩ ⟨h1, ⟨d, u, rfl⟩, h3⟩
    dsimp only at h1 h3 ⊢
    rw [wp_bind]
    refine wp_imp (assess_safe h1 hi) ?_
    rintro ⟨t', a⟩ ⟨g1, d', u', rfl⟩
    refine ⟨g1, ⟨_, _, rfl⟩, ?_⟩
    rw [List.length_append]
    dsimp only
    rw [h3]; rfl
  · rintro ⟨t, act⟩ ⟨h1, ⟨d, u, rfl⟩, h3⟩
    dsimp only at h1 h3 ⊢
    rw [wp_bind]
    refine wp_imp (wp_forN (fun i r => Fit r.1 N ∧ r.1.nConstraints = s.nConstraints ∧ r.2 ≤ i) ⟨h1, rfl, le_rfl⟩ ?_) ?_
    · rintro i hi ⟨t', k⟩ ⟨g1, g2, g3⟩
      dsimp only at g1 g2 g3 ⊢
      rw [wp_bind]
      refine ok_rd (by omega) fun a _ => wp_ite (fun _ => ?_) fun _ => ⟨g1, g2, by dsimp only; omega⟩
      rw [wp_bind]
      refine wp_imp (moveDown_safe g1 g3 (by omega)) fun t'' h => ⟨h.1, h.2.1.trans g2, by dsimp only; omega⟩
    · rintro ⟨t', k⟩ ⟨g1, g2, g3⟩
      dsimp only at g1 g2 g3 ⊢
      rw [wp_pure]
      dsimp only
      split
      · exact ⟨truncate_fit g1 (by omega), rfl, g3⟩
      · exact ⟨g1, by omega, g3⟩

theorem constraints_safe {fuel n : Nat} (F : Fit s N) (hn : s.nConstraints = n) (hf : n < fuel) (h31 : n < 31) {E : Err → Prop} :
    wp (computeConstraintDistances fuel n s) (fun r => Fit r N) E := by
  induction fuel generalizing n s with
  | zero => omega
  | succ fuel ih =>
    unfold computeConstraintDistances
    rw [wp_bind]
    subst hn
    refine wp_imp (pass_safe F h31) ?_
    rintro ⟨t, k⟩ ⟨h0, h1, h2⟩
    dsimp only at h0 h1 h2 ⊢
    refine wp_ite (fun h => ?_) fun _ => h0
    simp only [Bool.and_eq_true, decide_eq_true_eq] at h
    exact ih h0 rfl (by omega) (by omega)

theorem attempt_safe {nlopt : Optimise D → NLoptRun D} {o : Option D} (F : Fit s N) (hg : s.gradients.length = s.nConstraints + 1)
    (hc : ∀ t, ∃ c, (nlopt t).result = .code c) {E : Err → Prop} :
    wp (attempt nlopt s o) (fun r => Fit r.1 N ∧ r.2 ≠ none ∧ (∃ c : Nat, r.1.returnCode = some (c : Int)) ∧ r.1.nConstraints = s.nConstraints) E := by
  unfold attempt
  rw [if_pos F.la]
  dsimp only
  rw [wp_bind]
  refine wp_imp (wp_foldlM (fun _ t => Fit t N ∧ ∃ d, t = { s with displacements := d }) ⟨F, _, rfl⟩ fun q b hb t ht => ?_) fun t ht => ?_
  · obtain ⟨F', d, rfl⟩ := ht
    rw [wp_bind]
    have hb' : b.2.2 ≤ s.nConstraints := by
      have : b ∈ (nlopt s).queries.filter fun q => q.2.2 ≤ s.nConstraints := hb.subset (by simp)
      simpa using (List.mem_filter.1 this).2
    refine wp_imp (callback_safe F' hg (by simp) hb') ?_
    rintro ⟨t, g, v⟩ ⟨g1, d', g2⟩
    exact ⟨g1, d', g2⟩
  · obtain ⟨F', d, rfl⟩ := ht
    obtain ⟨c, hc⟩ := hc s
    rw [hc]
    dsimp only
    rw [wp_pure]
    have F2 := F'.lambda (l := (List.range (s.nConstraints + 1)).map (nlopt s).lambdas) (by simp)
    exact ⟨⟨F2.pts, F2.disp, F2.idx, F2.sf, F2.lo, F2.hi, F2.la, F2.cd, F2.ts, F2.eqs, F2.bound, F2.zero, F2.sens⟩, by simp, ⟨c, rfl⟩, rfl⟩

theorem attempts_safe {nlopt : Optimise D → NLoptRun D} {o : Option D} {fuel : Nat} (F : Fit s N) (hg : s.gradients.length = s.nConstraints + 1)
    (hc : ∀ t, ∃ c, (nlopt t).result = .code c) (hf : 0 < fuel) {E : Err → Prop} :
    wp (attempts nlopt fuel s o) (fun r => Fit r.1 N ∧ r.2 ≠ none ∧ r.1.nConstraints = s.nConstraints) E := by
  cases fuel with
  | zero => omega
  | succ fuel =>
    unfold attempts
    rw [wp_bind]
    refine wp_imp (attempt_safe F hg hc) ?_
    rintro ⟨t, o'⟩ ⟨h1, h2, ⟨c, h3⟩, h4⟩
    dsimp only at h1 h2 h3 h4 ⊢
    rw [h3]
    dsimp only
    exact wp_ite (fun h => by omega) fun _ => ⟨h1, h2, h4⟩

theorem rescale_safe (F : Fit s N) {E : Err → Prop} : wp (rescaleDisplacements s) (fun r => Fit r.1 N ∧ r.1.nConstraints = s.nConstraints ∧
    r.1.nConstraintsInitial = s.nConstraintsInitial) E := by
  have h2 := F.pts; have h4 := F.disp
  unfold rescaleDisplacements
  rw [wp_bind]
  refine wp_imp (wp_forN (fun _ _ => True) trivial fun j hj g _ => ?_) fun m _ => wp_ite (fun _ => ⟨F, rfl, rfl⟩) fun _ => ?_
  · rw [wp_bind]; refine ok_rd (by omega) fun p _ => wp_ite (fun _ => trivial) fun _ => ?_
    rw [wp_bind]; refine ok_rd (by omega) fun _ _ => ?_
    exact trivial
  · dsimp only
    have h5 := F.la
    rw [wp_bind]
    refine wp_imp (wp_forN (fun _ (l : List D) => l.length = s.nConstraints + 1) h5 fun j hj l hl => ok_modAt (by omega) fun _ _ => by
      rw [List.length_set]; exact hl) fun l hl => ?_
    have F' := F.lambda hl
    rw [wp_bind]
    refine wp_imp (computeDisplacements_safe F' hl) fun d hd => ?_
    exact ⟨F'.displaced hd, rfl, rfl⟩

theorem finish_safe (F : Fit s N) {o : Option D} (ho : o ≠ none) (hw : s.nConstraints = 0 ∨ s.nConstraintsInitial ≤ s.nConstraints) {E : Err → Prop} :
    wp (finish s o) (fun _ => True) E := by
  unfold finish
  rw [wp_bind]
  refine wp_imp (computeDisplacements_safe F F.la) fun d hd => ?_
  dsimp only
  rw [wp_bind]
  refine wp_imp (rescale_safe (F.displaced hd)) ?_
  rintro ⟨t, c⟩ ⟨Ft, hn, hni⟩
  dsimp only at Ft hn hni ⊢
  rw [wp_bind]
  cases o with
  | none => exact absurd rfl ho
  | some v =>
    dsimp only
    have h1 := Ft.la; have h2 := Ft.sf; have h3 := Ft.disp; have h4 := Ft.pts
    rw [wp_pure, wp_bind]
    refine wp_imp (wp_forN (fun _ (l : List D) => l.length = t.nConstraints + 1) Ft.la fun j hj l hl => ?_) fun l hl => ?_
    · rw [wp_bind]; exact ok_rd (by omega) fun _ _ => ok_modAt (by omega) fun _ _ => by rw [List.length_set]; exact hl
    · rw [wp_bind]
      refine ok_rd (by omega) fun l0 _ => ?_
      rw [wp_bind]
      refine wp_imp (wp_forN (fun _ (q : List (BoundaryPoint D)) => q.length = t.points.length) rfl fun j hj q hq => ?_) fun pts _ => ?_
      · rw [wp_bind]; exact ok_rd (by omega) fun _ _ => ok_modAt (by omega) fun _ _ => by rw [List.length_set]; exact hq
      · rw [wp_bind]
        refine wp_imp (Q := fun r => r.scaleFactors = t.scaleFactors) (wp_ite (fun h => wp_ite (fun h' => ?_) fun _ => (wp_pure _ _ _).2 rfl) fun _ => (wp_pure _ _ _).2 rfl) fun r hr => ?_
        · exfalso
          omega
        · rw [wp_bind]
          exact ok_rd (by rw [hr]; omega) fun _ _ => trivial

end general

/-! ### the shrinking loops -/

theorem shrink_lo {fuel : Nat} {lo l : ℝ} (h : lo ≤ l * (9 / 10) ^ fuel) {E : Err → Prop} : wp (shrink fuel (fun x => x <. lo) l) (fun _ => True) E := by
  unfold shrink
  induction fuel generalizing l with
  | zero =>
    unfold whileN
    rw [if_neg]
    · trivial
    · simpa using h
  | succ fuel ih =>
    unfold whileN
    refine wp_ite (fun _ => ?_) fun _ => trivial
    rw [wp_bind, wp_pure]
    refine ih ?_
    simp only [FP.mul_real, FP.lit_real, Nat.cast_ofNat]
    rw [pow_succ] at h
    linarith

theorem shrink_hi {fuel : Nat} {hi l : ℝ} (h : l * (9 / 10) ^ fuel ≤ hi) {E : Err → Prop} : wp (shrink fuel (fun x => hi <. x) l) (fun _ => True) E := by
  unfold shrink
  induction fuel generalizing l with
  | zero =>
    unfold whileN
    rw [if_neg]
    · trivial
    · simpa using h
  | succ fuel ih =>
    unfold whileN
    refine wp_ite (fun _ => ?_) fun _ => trivial
    rw [wp_bind, wp_pure]
    refine ih ?_
    simp only [FP.mul_real, FP.lit_real, Nat.cast_ofNat]
    rw [pow_succ] at h
    linarith

theorem shrink_bound {B l : ℝ} (hB : 0 < B) : ∃ N, ∀ fuel, N ≤ fuel → |l| * (9 / 10) ^ fuel ≤ B := by
  obtain ⟨N, hN⟩ := exists_pow_lt_of_lt_one (show (0 : ℝ) < B / (|l| + 1) by positivity) (show (9 / 10 : ℝ) < 1 by norm_num)
  refine ⟨N, fun fuel hf => ?_⟩
  have h1 : (9 / 10 : ℝ) ^ fuel ≤ (9 / 10) ^ N := pow_le_pow_of_le_one (by norm_num) (by norm_num) hf
  have h2 : (9 / 10 : ℝ) ^ fuel < B / (|l| + 1) := lt_of_le_of_lt h1 hN
  rw [lt_div_iff₀ (by positivity)] at h2
  have h3 : (0 : ℝ) < (9 / 10) ^ fuel := by positivity
  nlinarith [abs_nonneg l]

theorem limits_safe {s : Optimise ℝ} (hid : s.indexMap = List.range (s.nConstraints + 1)) (hm : 0 < s.maxDisplacement)
    (hf : ∀ i, i ≤ s.nConstraints → ∃ x, s.scaleFactors[i]? = some x ∧ 0 < x) (hlo : s.negativeLambdaLimits.length = s.nConstraints + 1)
    (hhi : s.positiveLambdaLimits.length = s.nConstraints + 1) (hla : s.lambdas.length = s.nConstraints + 1)
    (hs : ∀ p ∈ s.points, p.isFixed = false → s.nConstraints < p.sensitivities.length) :
    ∃ N, ∀ fuel, N ≤ fuel → wp (computeLambdaLimits fuel s) (fun r => r.negativeLambdaLimits.length = s.nConstraints + 1 ∧
      r.positiveLambdaLimits.length = s.nConstraints + 1 ∧ r.lambdas.length = s.nConstraints + 1) noErr := by
  have hM : ∀ i, ∃ m : ℝ, i ≤ s.nConstraints → maxSensitivity s.points s.points.length i (lit 1 (2 ^ 1022)) = .ok m ∧ 0 < m := by
    intro i
    by_cases hi : i ≤ s.nConstraints
    · have h1 := wp_safe (maxSensitivity_val (pts := s.points) (n := s.points.length) (k := i) (m0 := lit 1 (2 ^ 1022)))
        (maxSensitivity_safe le_rfl fun p hp hf => by have := hs p hp hf; omega)
      obtain ⟨m, e, P, -⟩ := wp_noErr_iff.1 h1
      refine ⟨m, fun _ => ⟨e, lt_of_lt_of_le ?_ P.ge⟩⟩
      rw [FP.lit_real, Nat.cast_one, Nat.cast_pow, Nat.cast_ofNat]
      positivity
    · exact ⟨0, fun h => absurd h hi⟩
  choose M hM using hM
  have hN : ∀ i, ∃ N : Nat, i ≤ s.nConstraints → ∀ f l, s.scaleFactors[i]? = some f → s.lambdas[i]? = some l → ∀ fuel, N ≤ fuel →
      |l| * (9 / 10) ^ fuel ≤ s.maxDisplacement / M i / f := by
    intro i
    by_cases hi : i ≤ s.nConstraints
    · obtain ⟨f, h1, h2⟩ := hf i hi
      have h3 := (hM i hi).2
      obtain ⟨l, hl⟩ : ∃ l, s.lambdas[i]? = some l := ⟨_, List.getElem?_eq_getElem (by omega)⟩
      obtain ⟨N, hN⟩ := shrink_bound (l := l) (show 0 < s.maxDisplacement / M i / f by positivity)
      refine ⟨N, fun _ f' l' hf' hl' fuel hfuel => ?_⟩
      rw [h1] at hf'; rw [hl] at hl'
      cases hf'; cases hl'
      exact hN fuel hfuel
    · exact ⟨0, fun h => absurd h hi⟩
  choose N hN using hN
  refine ⟨(Finset.range (s.nConstraints + 1)).sup N, fun fuel hfuel => ?_⟩
  unfold computeLambdaLimits
  refine wp_imp (wp_forN (fun n r => (∃ lo hi l, r = { s with negativeLambdaLimits := lo, positiveLambdaLimits := hi, lambdas := l } ∧
      lo.length = s.nConstraints + 1 ∧ hi.length = s.nConstraints + 1 ∧ l.length = s.nConstraints + 1 ∧ (∀ i, n ≤ i → l[i]? = s.lambdas[i]?)))
    ⟨_, _, _, rfl, hlo, hhi, hla, fun _ _ => rfl⟩ ?_) ?_
  · rintro i hi r ⟨lo, hi', l, rfl, h1, h2, h3, h4⟩
    dsimp only
    rw [wp_bind]
    refine ok_rd (by rw [hid, List.length_range]; exact hi) fun k hk => ?_
    have hki : k = i := by
      rw [hid] at hk
      obtain ⟨a, b⟩ := List.getElem?_eq_some_iff.1 hk
      rw [List.getElem_range] at b
      exact b.symm
    subst hki
    obtain ⟨e, hmpos⟩ := hM k (by omega)
    obtain ⟨f, hf1, hf2⟩ := hf k (by omega)
    rw [wp_bind]
    refine wp_of_eq_ok e ?_
    rw [wp_bind]
    refine wp_of_eq_ok (rd_of_getElem? hf1) ?_
    rw [wp_bind]
    refine wp_wr (by omega) ?_
    rw [wp_bind]
    refine wp_wr (by omega) ?_
    rw [wp_bind]
    refine ok_rd (by omega) fun l0 hl0 => ?_
    have hl0' : s.lambdas[k]? = some l0 := by rw [← h4 k le_rfl]; exact hl0
    have hb := hN k (by omega) f l0 hf1 hl0' fuel ((Finset.le_sup (Finset.mem_range.2 hi)).trans hfuel)
    rw [wp_bind]
    have hpow : (0 : ℝ) < (9 / 10) ^ fuel := by positivity
    have hlow : neg s.maxDisplacement /. M k /. f = -(s.maxDisplacement / M k / f) := by
      simp only [FP.neg_real, FP.div_real]; ring
    refine wp_imp (wp_safe shrink_val (shrink_lo ?_)) ?_
    · rw [hlow]
      have := neg_abs_le l0
      have : -|l0| * (9 / 10) ^ fuel ≤ l0 * (9 / 10) ^ fuel := mul_le_mul_of_nonneg_right this hpow.le
      linarith
    · rintro l1 ⟨⟨-, e1, rfl, -⟩, -⟩
      rw [wp_bind]
      refine wp_imp (shrink_hi ?_) fun l2 _ => ?_
      · simp only [FP.div_real]
        have h5 : l0 * (9 / 10) ^ e1 ≤ |l0| := by
          have h6 : (9 / 10 : ℝ) ^ e1 ≤ 1 := pow_le_one₀ (by norm_num) (by norm_num)
          have h7 : (0 : ℝ) < (9 / 10) ^ e1 := by positivity
          nlinarith [abs_nonneg l0, le_abs_self l0]
        exact (mul_le_mul_of_nonneg_right h5 hpow.le).trans hb
      · rw [wp_bind]
        refine wp_wr (by omega) ?_
        rw [wp_pure]
        refine ⟨_, _, _, rfl, by rw [List.length_set]; exact h1, by rw [List.length_set]; exact h2, by rw [List.length_set]; exact h3, fun j hj => ?_⟩
        rw [List.getElem?_set_ne (by omega)]
        exact h4 j (by omega)
  · rintro r ⟨lo, hi, l, rfl, h1, h2, h3, h4⟩
    exact ⟨h1, h2, h3⟩

/-! ### the whole -/

/-- A new object with inputs of the right sizes, each function having an effect on some point. -/
structure Fresh (s : Optimise ℝ) : Prop where
  max : 0 < s.maxDisplacement
  init : s.nConstraintsInitial = s.nConstraints
  few : s.nConstraints < 31
  sf : s.scaleFactors.length = s.nConstraints + 1
  lo : s.negativeLambdaLimits.length = s.nConstraints + 1
  hi : s.positiveLambdaLimits.length = s.nConstraints + 1
  la : s.lambdas.length = s.nConstraints + 1
  cd : s.constraintDistances.length = s.nConstraints
  ts : s.constraintDistancesScaled.length = s.nConstraints
  eqs : s.isEquality.length = s.nConstraints
  sens : ∀ p ∈ s.points, p.isFixed = false → s.nConstraints < p.sensitivities.length
  responds : ∀ k, k ≤ s.nConstraints → Responds s.points k

theorem reduce_safe {s : Optimise ℝ} (V : Fresh s) : ∃ N, ∀ fuel, N ≤ fuel → wp (reduce fuel s) (fun r => Fit r s.nConstraints) noErr := by
  obtain ⟨f, hf, hf1, hf2⟩ := wp_noErr_iff.1 (wp_safe (scale_val (s := { s with
    nPoints := s.points.length, displacements := resize s.displacements s.points.length (nat 0), indexMap := List.range (s.nConstraints + 1) }) rfl rfl)
    (computeScaleFactors_safe rfl rfl (by exact V.sf) (by exact V.sens)))
  dsimp only at hf hf1 hf2
  have hfp : ∀ i, i ≤ s.nConstraints → ∃ x, f[i]? = some x ∧ 0 < x := fun i hi => by
    obtain ⟨x, h1, -, h2⟩ := hf1.2 i hi
    exact ⟨x, h1, h2 (V.responds i hi)⟩
  have hl : wp (forN (s.nConstraints + 1) s.lambdas fun i l => do
      let a ← rd f i
      modAt l i fun x => pure (x /. a)) (fun l => l.length = s.nConstraints + 1) noErr := by
    refine wp_forN (fun _ (l : List ℝ) => l.length = s.nConstraints + 1) V.la fun i hi l hl => ?_
    rw [wp_bind]
    exact ok_rd (by omega) fun _ _ => ok_modAt (by omega) fun _ _ => by rw [List.length_set]; exact hl
  obtain ⟨l, hl1, hl2⟩ := wp_noErr_iff.1 hl
  obtain ⟨N, hN⟩ := limits_safe (s := { s with
    nPoints := s.points.length, displacements := resize s.displacements s.points.length (nat 0), indexMap := List.range (s.nConstraints + 1),
    scaleFactors := f, lambdas := l }) rfl V.max hfp V.lo V.hi hl2 V.sens
  refine ⟨N, fun fuel hfuel => ?_⟩
  unfold reduce
  rw [wp_bind]
  refine wp_of_eq_ok hf ?_
  dsimp only
  rw [wp_bind]
  refine wp_of_eq_ok hl1 ?_
  rw [wp_bind]
  refine wp_imp (wp_safe (limits_val rfl V.max fun i hi => ?_) (hN fuel hfuel)) ?_
  · obtain ⟨x, h1, h2⟩ := hfp i hi
    exact ⟨x, h1, h2.le⟩
  · rintro s0 ⟨⟨lo, hi, la, rfl, -⟩, h1, h2, h3⟩
    dsimp only at h1 h2 h3
    have F : Fit { s with
        nPoints := s.points.length, displacements := resize s.displacements s.points.length (nat 0), indexMap := List.range (s.nConstraints + 1),
        scaleFactors := f, lambdas := la, negativeLambdaLimits := lo, positiveLambdaLimits := hi } s.nConstraints :=
      ⟨rfl, resize_length, List.length_range, hf2, h1, h2, h3, V.cd, V.ts, V.eqs, fun m hm => by
        have := List.mem_range.1 hm; omega, by simp, V.sens⟩
    refine wp_ite (fun _ => ?_) fun _ => F
    exact constraints_safe F rfl (Nat.lt_succ_self _) V.few

theorem solve_exact {s : Optimise ℝ} (V : Fresh s) {nlopt : Optimise ℝ → NLoptRun ℝ} (hc : ∀ t, ∃ c, (nlopt t).result = .code c) :
    ∃ N, ∀ fuel, N ≤ fuel → ∃ s1, reduce fuel s = .ok s1 ∧ s1.nConstraints ≤ s.nConstraints ∧
      (s1.nConstraints = 0 ∨ s1.nConstraints = s.nConstraints → ∃ r, solve nlopt fuel s = .ok r) ∧
      (0 < s1.nConstraints → s1.nConstraints < s.nConstraints → solve nlopt fuel s = .error .ub) := by
  obtain ⟨N, hN⟩ := reduce_safe V
  refine ⟨N + 1, fun fuel hfuel => ?_⟩
  obtain ⟨s1, hred, ⟨s0, R⟩, F⟩ := wp_noErr_iff.1 (wp_safe (reduce_val V.max) (hN fuel (by omega)))
  have hni : s1.nConstraintsInitial = s.nConstraints := by
    rw [R.rel.other.2.1, R.lim.eq]; exact V.init
  have hle : s1.nConstraints ≤ s.nConstraints := by
    have h0 : s0.nConstraints = s.nConstraints := by rw [R.lim.eq]
    have h1 := R.rel.sorted.imp (S := fun a b => a ≠ b) fun h => h.ne
    have h2 : s1.indexMap ⊆ List.range (s.nConstraints + 1) := fun m hm => List.mem_range.2 (by have := R.rel.bound m hm; omega)
    have h3 := (List.Nodup.subperm h1 h2).length_le
    rw [List.length_range, R.rel.idx] at h3
    omega
  refine ⟨s1, hred, hle, fun hw => ?_, fun h0 hlt => ?_⟩
  · have hb : ∀ m ∈ s1.indexMap, m ≤ s1.nConstraints := by
      rcases hw with h | h
      · intro m hm
        have h1 := F.idx
        have h2 := F.zero
        rw [h] at h1
        obtain ⟨x, hx⟩ := List.length_eq_one_iff.1 h1
        rw [hx] at h2 hm
        simp at h2 hm
        omega
      · rw [h]; exact F.bound
    have key : wp (solve nlopt fuel s) (fun _ => True) noErr := by
      unfold solve prepare
      rw [wp_bind, wp_bind]
      refine wp_of_eq_ok hred ?_
      dsimp only
      rw [wp_bind]
      refine wp_imp (wp_forN (fun _ (gs : List (List ℝ)) => gs.length = s1.nConstraints + 1) resize_length fun i hi gs hgs => ?_) fun gs hgs => ?_
      · rw [wp_bind]
        refine wp_imp (computeGradients_safe F.pts F.idx F.sf hb (fun p hp hf => ?_) List.length_replicate (by omega)) fun g _ =>
          wp_wr (by omega) (by rw [List.length_set]; exact hgs)
        have := F.sens p hp hf
        omega
      · rw [wp_pure]
        have F' : Fit { s1 with gradients := gs } s.nConstraints :=
          ⟨F.pts, F.disp, F.idx, F.sf, F.lo, F.hi, F.la, F.cd, F.ts, F.eqs, F.bound, F.zero, F.sens⟩
        dsimp only
        have h8 := F.eqs
        rw [wp_bind]
        refine wp_imp (wp_forN (fun _ _ => True) trivial fun i hi _ _ => ?_) fun _ _ => ?_
        · rw [wp_bind]
          exact ok_rd (by omega) fun _ _ => trivial
        · rw [wp_bind]
          refine wp_imp (wp_safe (attempts_val (by exact F.pts)) (attempts_safe F' hgs hc (by omega))) ?_
          rintro ⟨s3, o⟩ ⟨⟨Fr, -⟩, h1, h2, h3⟩
          dsimp only at Fr h1 h2 h3 ⊢
          refine finish_safe h1 h2 ?_
          have : s3.nConstraintsInitial = s1.nConstraintsInitial := by rw [Fr.eq]
          omega
    obtain ⟨r, hr, -⟩ := wp_noErr_iff.1 key
    exact ⟨r, hr⟩
  · have key : wp (solve nlopt fuel s) (fun _ => True) onlyUb := by
      unfold solve prepare
      rw [wp_bind, wp_bind]
      refine wp_of_eq_ok hred ?_
      dsimp only
      rw [wp_bind]
      refine wp_imp (ub_forN (fun (gs : List (List ℝ)) => gs.length = s1.nConstraints + 1) resize_length fun i gs hgs => ?_) fun gs hgs => ?_
      · rw [wp_bind]
        exact wp_imp computeGradients_ub fun g _ => ub_wr fun _ => by rw [List.length_set]; exact hgs
      · rw [wp_pure]
        have F' : Fit { s1 with gradients := gs } s.nConstraints :=
          ⟨F.pts, F.disp, F.idx, F.sf, F.lo, F.hi, F.la, F.cd, F.ts, F.eqs, F.bound, F.zero, F.sens⟩
        dsimp only
        rw [wp_bind]
        refine wp_imp (ub_forN (fun _ => True) trivial fun i _ _ => ?_) fun _ _ => ?_
        · rw [wp_bind]
          exact ub_rd fun _ _ => trivial
        · rw [wp_bind]
          refine wp_imp (attempts_safe F' hgs hc (by omega)) ?_
          rintro ⟨s3, o⟩ -
          exact finish_ub
    rcases wp_iff.1 key with ⟨r, hr, -⟩ | ⟨e, he, rfl⟩
    · exfalso
      obtain ⟨s0', s1', s2, s3, sc, hred', S⟩ := any_ok (solve_val V.max V.init.ge) hr
      rw [hred] at hred'
      cases hred'
      have := S.closed.whole
      have e1 : s3.nConstraints = s1.nConstraints := by rw [S.framed.eq, S.prep.eq]
      have e2 : s3.nConstraintsInitial = s1.nConstraintsInitial := by rw [S.framed.eq, S.prep.eq]
      omega
    · exact he

end Optimise

end Slsm
