import Verif.Proof.Extend

/-! # Calculation in larger number systems: the march -/

namespace Slsm

open LevelSet (map_bind' bind_map' rd_map' forN_map)

variable {E : Type} [FP E] {g : ℝ → E}

theorem map_nbr {D E : Type} [FP D] [FP E] (g : D → E) (m : Mesh D) (i j : Nat) : nbr (m.map g) i j = nbr m i j := by
  unfold nbr
  simp only [Mesh.map, rd_map', bind_map']

theorem wp_any {α : Type} (r : Res α) {Q : α → Prop} (h : ∀ a, Q a) : wp r Q (fun _ => True) := by
  cases r with
  | ok a => exact h a
  | error e => trivial

theorem of_wp {α : Type} {r : Res α} {Q : α → Prop} (h : wp r Q (fun _ => True)) : ∀ t, r = .ok t → Q t := by
  intro t ht
  rw [ht] at h
  exact h

namespace FMM

variable (H : Extends g)

include H

theorem map_new (m : Mesh ℝ) (t : Bool) : (FMM.new (m.map g) t : FMM E) = (FMM.new m t).map g := by
  unfold FMM.new FMM.map
  simp only [List.map_replicate, H.nat', Heap.map_new H, List.map_nil, Mesh.map]

theorem map_frozenZero (i : Nat) (s : FMM ℝ × Nat) : frozenZero i (Prod.map (FMM.map g) id s) = (frozenZero i s).map (Prod.map (FMM.map g) id) := by
  obtain ⟨F, n⟩ := s
  unfold frozenZero
  simp only [Prod.map, id, FMM.map, rd_map', wr_map', bind_map', map_bind', map_ite', H.nat', H.eq_eq]
  rfl

theorem map_crossing (m : Mesh ℝ) (F : FMM ℝ) (i j : Nat) (s : Bool × ℝ × ℝ) :
    crossing (m.map g) (F.map g) i j (Prod.map id (Prod.map g g) s) = (crossing m F i j s).map (Prod.map id (Prod.map g g)) := by
  obtain ⟨b, d0, d1⟩ := s
  unfold crossing
  rw [map_nbr]
  simp only [Prod.map, id, FMM.map, rd_map', bind_map', map_bind', map_ite', H.nat', H.mul', H.sub', H.lt_eq, H.eq_eq]
  refine bind_congr fun n => ?_
  refine if_congr Iff.rfl ?_ rfl
  refine bind_congr fun a => bind_congr fun c => ?_
  by_cases h : FP.lt (FP.mul a c) (FP.nat 0 : ℝ) = true
  · rw [if_pos h, if_pos h]
    have hne : (FP.sub a c : ℝ) ≠ 0 := by
      simp only [FP.lt_real, FP.mul_real, FP.nat_real, Nat.cast_zero] at h
      intro h0
      have : a = c := sub_eq_zero.1 h0
      rw [this] at h
      exact absurd h (not_lt.2 (mul_self_nonneg c))
    rw [H.div' _ _ hne]
    simp only [H.lt_eq]
    split <;> (rw [map_pure', pure_ok']; congr 3; split <;> rfl)
  · rw [if_neg h, if_neg h]; rfl

omit H in
/-- The distances collected so far are not negative, and one of them is positive if the contour was found. -/
def Found (s : Bool × ℝ × ℝ) : Prop := 0 ≤ s.2.1 ∧ 0 ≤ s.2.2 ∧ (s.1 = true → 0 < s.2.1 ∨ 0 < s.2.2)

omit H in
theorem crossing_found (m : Mesh ℝ) (F : FMM ℝ) (i j : Nat) {s : Bool × ℝ × ℝ} (hs : Found s) : ∀ t, crossing m F i j s = .ok t → Found t := by
  obtain ⟨b, d0, d1⟩ := s
  refine of_wp ?_
  unfold crossing
  rw [wp_bind]
  refine wp_any _ fun n => ?_
  refine wp_ite (fun _ => ?_) (fun _ => hs)
  rw [wp_bind]
  refine wp_any _ fun a => ?_
  rw [wp_bind]
  refine wp_any _ fun c => ?_
  refine wp_ite (fun h => ?_) (fun _ => hs)
  have hd : 0 < a / (a - c) := by
    simp only [FP.lt_real, FP.mul_real, FP.nat_real, Nat.cast_zero] at h
    rcases mul_neg_iff.1 h with ⟨h1, h2⟩ | ⟨h1, h2⟩
    · exact div_pos h1 (by linarith)
    · exact div_pos_of_neg_of_neg h1 (by linarith)
  have key : ∀ x : ℝ, 0 ≤ x → 0 < (if (FP.eq x (FP.nat 0) || FP.lt (FP.div a (FP.sub a c)) x) = true then FP.div a (FP.sub a c) else x) := by
    intro x hx
    split
    · exact hd
    · rename_i hn
      simp at hn
      exact lt_of_le_of_ne hx (Ne.symm hn.1)
  refine wp_ite (fun _ => ?_) (fun _ => ?_)
  · exact ⟨(key d0 hs.1).le, hs.2.1, fun _ => .inl (key d0 hs.1)⟩
  · exact ⟨hs.1, (key d1 hs.2.1).le, fun _ => .inr (key d1 hs.2.1)⟩

theorem map_distSum (d0 d1 : ℝ) : distSum (g d0) (g d1) = g (distSum d0 d1) := by
  unfold distSum
  simp only [H.nat', H.lt_eq]
  by_cases h0 : FP.lt (FP.nat 0) d0 = true <;> by_cases h1 : FP.lt (FP.nat 0) d1 = true <;>
    simp only [h0, h1, if_true, if_false, Bool.false_eq_true]
  all_goals
    simp only [FP.lt_real, FP.nat_real, Nat.cast_zero] at h0 h1
    simp only [H.mul']
  · rw [H.div' _ (FP.mul d0 d0) (mul_pos h0 h0).ne', H.div' _ (FP.mul d1 d1) (mul_pos h1 h1).ne', H.add', H.add']
  · rw [H.div' _ (FP.mul d0 d0) (mul_pos h0 h0).ne', H.add']
  · rw [H.div' _ (FP.mul d1 d1) (mul_pos h1 h1).ne', H.add']

omit H in
theorem distSum_pos {d0 d1 : ℝ} (h : 0 < d0 ∨ 0 < d1) : 0 < distSum d0 d1 := by
  unfold distSum
  have key : ∀ {x : ℝ}, 0 < x → 0 < 1 / (x * x) := fun hx => by positivity
  by_cases h0 : 0 < d0 <;> by_cases h1 : 0 < d1 <;> simp only [FP.lt_real, FP.nat_real, Nat.cast_zero, h0, h1, if_true, if_false,
    FP.add_real, FP.div_real, FP.mul_real, Nat.cast_one, zero_add]
  · exact add_pos (key h0) (key h1)
  · exact key h0
  · exact key h1
  · exact absurd h (by simp [h0, h1])

theorem map_frozenBorder (m : Mesh ℝ) (i : Nat) (s : FMM ℝ × Nat) :
    frozenBorder (m.map g) i (Prod.map (FMM.map g) id s) = (frozenBorder m i s).map (Prod.map (FMM.map g) id) := by
  obtain ⟨F, n⟩ := s
  unfold frozenBorder
  simp only [Prod.map, id]
  simp only [map_bind', map_ite']
  refine bind_congr fun st => ?_
  refine if_congr Iff.rfl ?_ rfl
  have h0 : ((false, FP.nat 0, FP.nat 0) : Bool × E × E) = Prod.map id (Prod.map g g) (false, FP.nat 0, FP.nat 0) := by
    simp only [Prod.map, id, H.nat']
  have key := forN_map_inv (Prod.map id (Prod.map g g)) Found (f := crossing m F i) (f' := crossing (m.map g) (F.map g) i) 4
    (s := (false, FP.nat 0, FP.nat 0)) ⟨by simp, by simp, by simp⟩ fun j s _ hs => ⟨map_crossing H m F i j s, crossing_found m F i j hs⟩
  rw [h0, key.1, bind_map']
  cases e : forN 4 (false, FP.nat 0, FP.nat 0) (crossing m F i) with
  | error e => rfl
  | ok t =>
    have ht := key.2 t e
    obtain ⟨b, d0, d1⟩ := t
    rw [ok_bind', ok_bind']
    simp only [Prod.map, id]
    by_cases hb : b = true
    · rw [if_pos hb, if_pos hb]
      have hp : 0 < distSum d0 d1 := distSum_pos (ht.2.2 hb)
      have h1 : (0 : ℝ) ≤ FP.div (FP.nat 1) (distSum d0 d1) := by
        simp only [FP.div_real, FP.nat_real]
        positivity
      rw [map_distSum H, H.nat' 1, H.div' _ _ hp.ne', H.sqrt' _ h1]
      simp only [map_bind', FMM.map, rd_map', bind_map', H.neg', H.nat', H.lt_eq]
      refine bind_congr fun c => ?_
      rw [show (if FP.lt c (FP.nat 0) = true then g (FP.neg (FP.sqrt (FP.div (FP.nat 1) (distSum d0 d1)))) else g (FP.sqrt (FP.div (FP.nat 1) (distSum d0 d1)))) =
        g (if FP.lt c (FP.nat 0) = true then FP.neg (FP.sqrt (FP.div (FP.nat 1) (distSum d0 d1))) else FP.sqrt (FP.div (FP.nat 1) (distSum d0 d1))) by split <;> rfl,
        wr_map', bind_map']
      rfl
    · rw [if_neg hb, if_neg hb]; rfl

theorem map_initialiseFrozen (m : Mesh ℝ) (F : FMM ℝ) : initialiseFrozen (m.map g) (F.map g) = (initialiseFrozen m F).map (FMM.map g) := by
  unfold initialiseFrozen
  have h1 := forN_map (Prod.map (FMM.map g) id) m.nNodes (fun i s _ => map_frozenZero H i s) (F, 0)
  refine (congrArg (· >>= _) h1).trans ?_
  rw [bind_map', map_bind']
  refine bind_congr fun s => ?_
  have h2 := forN_map (Prod.map (FMM.map g) id) m.nNodes (fun i s _ => map_frozenBorder H m i s) s
  refine (congrArg (· >>= _) h2).trans ?_
  rw [bind_map', map_bind']
  refine bind_congr fun s => ?_
  simp only [map_bind']
  rfl

theorem map_initialiseHeap (m : Mesh ℝ) (F : FMM ℝ) : initialiseHeap (m.map g) (F.map g) = (initialiseHeap m F).map (FMM.map g) := by
  unfold initialiseHeap
  rw [map_bind']
  refine bind_congr fun n => ?_
  rw [Heap.map_new H]
  rfl

theorem map_stencilDir (m : Mesh ℝ) (F : FMM ℝ) (node i j : Nat) (s : ℝ × ℝ) :
    stencilDir (m.map g) (F.map g) node i j (Prod.map g g s) = (stencilDir m F node i j s).map (Prod.map g g) := by
  obtain ⟨d1, d2⟩ := s
  unfold stencilDir
  simp only [map_nbr, Prod.map, FMM.map, rd_map', bind_map', map_bind', map_ite', H.abs', H.lt_eq, H.le_eq]
  refine bind_congr fun n1 => if_congr Iff.rfl (bind_congr fun st1 => if_congr Iff.rfl (bind_congr fun v1 => if_congr Iff.rfl
    (bind_congr fun n2 => if_congr Iff.rfl (bind_congr fun st2 => if_congr Iff.rfl (bind_congr fun v2 => ?_) rfl) rfl) rfl) rfl) rfl
  rw [map_pure', pure_ok']
  congr 2
  split <;> rfl

theorem map_accum (d1 d2 : ℝ) (s : ℝ × ℝ × ℝ) : accum (g d1) (g d2) (Prod.map g (Prod.map g g) s) = Prod.map g (Prod.map g g) (accum d1 d2 s) := by
  obtain ⟨a, b, c⟩ := s
  unfold accum
  simp only [Prod.map, H.maxVal, H.lit (n := 9) (d := 4) (by norm_num), H.lit (n := 1) (d := 3) (by norm_num), H.nat', H.mul', H.sub', H.add', H.lt_eq]
  split
  · rfl
  · split <;> rfl

omit H in
/-- The coefficients collected so far: nothing, or a positive first one. -/
def Coeff (s : ℝ × ℝ × ℝ) : Prop := 0 < s.1 ∨ (s.1 = 0 ∧ s.2.1 = 0)

omit H in
theorem accum_coeff (d1 d2 : ℝ) {s : ℝ × ℝ × ℝ} (hs : Coeff s) : Coeff (accum d1 d2 s) := by
  obtain ⟨a, b, c⟩ := s
  have ha : 0 ≤ a := by rcases hs with h | h; exacts [le_of_lt h, le_of_eq h.1.symm]
  unfold accum
  dsimp only
  split
  · left
    simp only [FP.add_real, FP.lit_real]
    norm_num
    linarith
  · split
    · left
      simp only [FP.add_real, FP.nat_real]
      norm_num
      linarith
    · exact hs

theorem map_solveQuadratic (F : FMM ℝ) (node : Nat) {a b : ℝ} (c : ℝ) (h : 0 < a ∨ (a = 0 ∧ b = 0)) :
    solveQuadratic (F.map g) node (g a) (g b) (g c) = (solveQuadratic F node a b c).map g := by
  unfold solveQuadratic doubleEpsilon
  simp only [H.nat', H.mul', H.sub', H.lt_eq, H.lit (n := 1) (d := 4503599627370496) (by norm_num), H.neg']
  by_cases hd : FP.lt (FP.nat 0) (FP.sub (FP.mul b b) (FP.mul (FP.mul (FP.nat 4) a) c) : ℝ) = true
  · rw [if_pos hd, if_pos hd]
    have hd' : (0 : ℝ) < FP.sub (FP.mul b b) (FP.mul (FP.mul (FP.nat 4) a) c) := by simpa using hd
    have ha : (FP.mul (FP.nat 2) a : ℝ) ≠ 0 := by
      rcases h with h | ⟨rfl, rfl⟩
      · simp only [FP.mul_real, FP.nat_real]
        norm_num
        exact h.ne'
      · simp at hd'
    rw [H.sqrt' _ hd'.le, H.add', H.sub', H.div' _ _ ha, H.div' _ _ ha]
    simp only [FMM.map, rd_map', bind_map', map_bind', H.lt_eq]
    refine bind_congr fun cp => ?_
    rw [map_pure', pure_ok']
    split <;> rfl
  · rw [if_neg hd, if_neg hd]
    simp only [FMM.map, rd_map']

theorem map_updateNode (m : Mesh ℝ) (F : FMM ℝ) (node : Nat) : updateNode (m.map g) (F.map g) node = (updateNode m F node).map g := by
  unfold updateNode
  have h0 : ((FP.nat 0, FP.nat 0, FP.nat 0) : E × E × E) = Prod.map g (Prod.map g g) (FP.nat 0, FP.nat 0, FP.nat 0) := by
    simp only [Prod.map, H.nat']
  have key := forN_map_inv (Prod.map g (Prod.map g g)) Coeff (f := fun i s => forN 2 (FP.maxVal, FP.maxVal) (stencilDir m F node i) >>= fun d => pure (accum d.1 d.2 s))
    (f' := fun i s => forN 2 (FP.maxVal, FP.maxVal) (stencilDir (m.map g) (F.map g) node i) >>= fun d => pure (accum d.1 d.2 s)) 2
    (s := (FP.nat 0, FP.nat 0, FP.nat 0)) (.inr ⟨by simp, by simp⟩) fun i s _ hs => by
      constructor
      · have e := forN_map (Prod.map g g) 2 (fun j s _ => map_stencilDir H m F node i j s) (FP.maxVal, FP.maxVal)
        rw [show Prod.map g g ((FP.maxVal : ℝ), (FP.maxVal : ℝ)) = (FP.maxVal, FP.maxVal) by simp only [Prod.map, H.maxVal]] at e
        rw [e, bind_map', map_bind']
        refine bind_congr fun d => ?_
        rw [map_pure', ← map_accum H]; rfl
      · intro t ht
        cases e : forN 2 (FP.maxVal, FP.maxVal) (stencilDir m F node i) with
        | error e' => rw [e] at ht; cases ht
        | ok d => rw [e] at ht; cases ht; exact accum_coeff _ _ hs
  rw [h0]
  refine (congrArg (· >>= _) key.1).trans ?_
  rw [bind_map', map_bind']
  cases e : forN 2 (FP.nat 0, FP.nat 0, FP.nat 0) (fun i s => forN 2 (FP.maxVal, FP.maxVal) (stencilDir m F node i) >>= fun d => pure (accum d.1 d.2 s)) with
  | error e' => rfl
  | ok t =>
    rw [ok_bind', ok_bind']
    obtain ⟨a, b, c⟩ := t
    simp only [Prod.map]
    rw [H.nat', H.sub']
    exact map_solveQuadratic H F node _ (key.2 _ e)

theorem map_makeTrial (i : Nat) (d : ℝ) (F : FMM ℝ) : makeTrial i (g d) (F.map g) = (makeTrial i d F).map (FMM.map g) := by
  unfold makeTrial
  rw [map_bind']
  refine bind_congr fun st => ?_
  show (Heap.push i (FP.abs (g d)) (F.heap.map g) >>= _) = _
  rw [H.abs', Heap.map_push H, bind_map', map_bind']
  refine bind_congr fun r => ?_
  obtain ⟨k, heap⟩ := r
  simp only [Prod.map, map_bind']
  rfl

theorem map_newTrial (m : Mesh ℝ) (i : Nat) (F : FMM ℝ) : newTrial (m.map g) i (F.map g) = (newTrial m i F).map (FMM.map g) := by
  unfold newTrial
  rw [map_bind']
  refine bind_congr fun st => ?_
  refine (congrArg (· >>= _) (map_updateNode H m { F with status := st } i)).trans ?_
  rw [bind_map', map_bind']
  refine bind_congr fun d => ?_
  show (wr (F.sd.map g) i (g d) >>= fun sd => rd sd i >>= fun v => Heap.push i (FP.abs v) (F.heap.map g) >>= _) = _
  rw [wr_map', bind_map', map_bind']
  refine bind_congr fun sd => ?_
  rw [rd_map', bind_map', map_bind']
  refine bind_congr fun v => ?_
  rw [H.abs', Heap.map_push H, bind_map', map_bind']
  refine bind_congr fun r => ?_
  obtain ⟨k, heap⟩ := r
  simp only [Prod.map, map_bind']
  rfl

omit H in
theorem map_admissible (m : Mesh ℝ) (F : FMM ℝ) (i : Nat) : admissible (m.map g) (F.map g) i = admissible m F i := by
  unfold admissible
  simp only [Mesh.map, FMM.map, rd_map', bind_map']

theorem map_trialNbr (m : Mesh ℝ) (i j : Nat) (F : FMM ℝ) : trialNbr (m.map g) i j (F.map g) = (trialNbr m i j F).map (FMM.map g) := by
  unfold trialNbr
  rw [map_nbr, map_admissible, map_newTrial H]
  simp only [map_bind', map_ite']
  rfl

theorem map_initialiseTrial (m : Mesh ℝ) (F : FMM ℝ) : initialiseTrial (m.map g) (F.map g) = (initialiseTrial m F).map (FMM.map g) := by
  unfold initialiseTrial
  refine forN_map (FMM.map g) m.nNodes (fun i F _ => ?_) F
  rw [map_bind']
  refine bind_congr fun si => ?_
  rw [map_ite']
  refine if_congr Iff.rfl ?_ rfl
  exact forN_map (FMM.map g) 4 (fun j F _ => map_trialNbr H m i j F) F

omit H in
/-- The state of the search for the upwind neighbours with other numbers. -/
def mapFront (g : ℝ → E) (s : Bool × ℝ × ℝ × ℝ) : Bool × E × E × E := Prod.map id (Prod.map g (Prod.map g g)) s

theorem map_frontNbr (m : Mesh ℝ) (F : FMM ℝ) (node i : Nat) (s : (Bool × ℝ × ℝ × ℝ) × (Bool × ℝ × ℝ × ℝ)) :
    frontNbr (m.map g) (F.map g) node i (Prod.map (mapFront g) (mapFront g) s) = (frontNbr m F node i s).map (Prod.map (mapFront g) (mapFront g)) := by
  obtain ⟨⟨b0, f0, d0, v0⟩, ⟨b1, f1, d1, v1⟩⟩ := s
  unfold frontNbr
  rw [map_nbr, map_bind']
  refine bind_congr fun n => ?_
  rw [map_ite']
  refine if_congr Iff.rfl ?_ rfl
  rw [map_bind']
  refine bind_congr fun st => ?_
  rw [map_ite']
  refine if_congr Iff.rfl ?_ rfl
  show (rd (F.sd.map g) n >>= _) = _
  rw [rd_map', bind_map', map_bind']
  refine bind_congr fun vn => ?_
  by_cases hi : i < 2
  · simp only [if_pos hi, Prod.map, mapFront, id, H.abs', H.lt_eq, FMM.map, rd_map', bind_map', map_ite', map_bind', H.sub']
    rfl
  · simp only [if_neg hi, Prod.map, mapFront, id, H.abs', H.lt_eq, FMM.map, rd_map', bind_map', map_ite', map_bind', H.sub']
    rfl

theorem map_finaliseVelocity (m : Mesh ℝ) (node : Nat) (F : FMM ℝ) : finaliseVelocity (m.map g) node (F.map g) = (finaliseVelocity m node F).map (FMM.map g) := by
  unfold finaliseVelocity
  have h0 : (((false, FP.nat 0, FP.nat 0, FP.nat 0), (false, FP.nat 0, FP.nat 0, FP.nat 0)) : (Bool × E × E × E) × (Bool × E × E × E)) =
      Prod.map (mapFront g) (mapFront g) ((false, FP.nat 0, FP.nat 0, FP.nat 0), (false, FP.nat 0, FP.nat 0, FP.nat 0)) := by
    simp only [Prod.map, mapFront, id, H.nat']
  dsimp only
  rw [h0, forN_map (Prod.map (mapFront g) (mapFront g)) 4 (fun i s _ => map_frontNbr H m F node i s), bind_map', map_bind']
  refine bind_congr fun s => ?_
  obtain ⟨⟨b0, f0, d0, v0⟩, ⟨b1, f1, d1, v1⟩⟩ := s
  simp only [Prod.map, mapFront, id, H.nat', H.mul', H.add', H.eq_eq, map_bind']
  unfold check
  by_cases h : FP.eq (FP.add (FP.add (FP.nat 0) d0) d1) (FP.nat 0 : ℝ) = true
  · simp only [h]; rfl
  · have hne : (FP.add (FP.add (FP.nat 0) d0) d1 : ℝ) ≠ 0 := by simpa using h
    rw [H.div' _ _ hne]
    rw [Bool.not_eq_true] at h
    simp only [h, Bool.not_false, if_true, ok_bind', FMM.map, wr_map', bind_map']
    rfl

theorem map_finalise (m : Mesh ℝ) (a : Nat) (F : FMM ℝ) : finalise (m.map g) a (F.map g) = (finalise m a F).map (FMM.map g) := by
  unfold finalise
  rw [map_finaliseVelocity H, map_ite']
  rfl

theorem map_popFreeze (m : Mesh ℝ) (s : FMM ℝ × List Nat × Nat) :
    popFreeze (m.map g) (Prod.map (FMM.map g) id s) = (popFreeze m s).map (Prod.map g (Prod.map (FMM.map g) id)) := by
  obtain ⟨F, t, n⟩ := s
  unfold popFreeze
  show (Heap.pop (F.heap.map g) >>= _) = _
  rw [Heap.map_pop H, bind_map', map_bind']
  refine bind_congr fun r => ?_
  obtain ⟨a, v, heap⟩ := r
  simp only [Prod.map, id]
  rw [map_bind']
  refine bind_congr fun status => ?_
  refine (congrArg (· >>= _) (map_finalise H m a { F with heap := heap, status := status })).trans ?_
  rw [bind_map', map_bind']
  refine bind_congr fun F' => ?_
  rw [map_bind']
  rfl

theorem map_peekEqual (v : ℝ) (F : FMM ℝ) : peekEqual (g v) (F.map g) = peekEqual v F := by
  unfold peekEqual
  show (if (!F.heap.empty) = true then Heap.peek (F.heap.map g) >>= _ else _) = _
  rw [Heap.map_peek H, bind_map']
  simp only [H.eq_eq]

theorem map_popEqual (m : Mesh ℝ) (v : ℝ) (s : FMM ℝ × List Nat × Nat) :
    popEqual (m.map g) (g v) (Prod.map (FMM.map g) id s) = (popEqual m v s).map (Prod.map (FMM.map g) id) := by
  unfold popEqual
  have e := whileN_map (Prod.map (Prod.map (FMM.map g) id) id) (c := fun s : (FMM ℝ × List Nat × Nat) × Bool => !s.2) (c' := fun s : (FMM E × List Nat × Nat) × Bool => !s.2)
    (f := fun s => peekEqual v s.1.1 >>= fun more => if more = true then popFreeze m s.1 >>= fun r => pure (r.2, false) else pure (s.1, true))
    (f' := fun s => peekEqual (g v) s.1.1 >>= fun more => if more = true then popFreeze (m.map g) s.1 >>= fun r => pure (r.2, false) else pure (s.1, true))
    (fun s => rfl) (fun s _ => by
      obtain ⟨⟨F, t⟩, b⟩ := s
      have e1 := map_peekEqual H v F
      have e2 := map_popFreeze H m (F, t)
      simp only [Prod.map, id] at e1 e2 ⊢
      rw [e1, e2, map_bind']
      refine bind_congr fun more => ?_
      rw [map_ite', bind_map', map_bind']
      rfl) (s.1.heap.size + 1) (s, false)
  refine (congrArg (· >>= _) e).trans ?_
  rw [bind_map', map_bind']
  rfl

theorem map_refresh (m : Mesh ℝ) (n : Nat) (F : FMM ℝ) : refresh (m.map g) n (F.map g) = (refresh m n F).map (FMM.map g) := by
  unfold refresh
  rw [map_updateNode H, bind_map', map_bind']
  refine bind_congr fun d => ?_
  show (wr (F.sd.map g) n (g d) >>= fun sd => rd F.heapPtr n >>= fun k => Heap.set k (FP.abs (g d)) (F.heap.map g) >>= _) = _
  rw [wr_map', bind_map', map_bind', H.abs']
  refine bind_congr fun sd => ?_
  rw [map_bind']
  refine bind_congr fun k => ?_
  rw [Heap.map_set H, bind_map', map_bind']
  rfl

theorem map_visit (m : Mesh ℝ) (n : Nat) (st : FMMStatus) (d : ℝ) (F : FMM ℝ) : visit (m.map g) n st (g d) (F.map g) = (visit m n st d F).map (FMM.map g) := by
  unfold visit
  rw [map_admissible, map_makeTrial H, map_ite', map_ite', map_bind', map_bind']
  refine if_congr Iff.rfl ?_ (if_congr Iff.rfl ?_ rfl)
  · show (rd F.heapPtr n >>= fun k => Heap.set k (FP.abs (g d)) (F.heap.map g) >>= _) = _
    refine bind_congr fun k => ?_
    rw [H.abs', Heap.map_set H, bind_map', map_bind']
    rfl
  · refine bind_congr fun ok => ?_
    rw [map_ite']
    rfl

theorem map_spreadNbr (m : Mesh ℝ) (a j : Nat) (F : FMM ℝ) : spreadNbr (m.map g) a j (F.map g) = (spreadNbr m a j F).map (FMM.map g) := by
  unfold spreadNbr
  rw [map_nbr, map_bind']
  refine bind_congr fun n => ?_
  rw [map_ite']
  refine if_congr Iff.rfl ?_ rfl
  rw [map_bind']
  refine bind_congr fun st => ?_
  rw [map_ite']
  refine if_congr Iff.rfl ?_ rfl
  rw [map_updateNode H, bind_map', map_bind']
  refine bind_congr fun d => ?_
  show (wr (F.sd.map g) n (g d) >>= _) = _
  rw [wr_map', bind_map', map_bind']
  refine bind_congr fun sd => ?_
  refine (congrArg (· >>= _) (map_visit H m n st d { F with sd := sd })).trans ?_
  rw [bind_map', map_bind', map_nbr]
  refine bind_congr fun F' => ?_
  rw [map_bind']
  refine bind_congr fun n' => ?_
  rw [map_ite']
  refine if_congr Iff.rfl ?_ rfl
  rw [map_bind']
  refine bind_congr fun st => ?_
  rw [map_ite', map_refresh H]
  rfl

theorem map_solveStep (m : Mesh ℝ) (s : FMM ℝ × List Nat) : solveStep (m.map g) (Prod.map (FMM.map g) id s) = (solveStep m s).map (Prod.map (FMM.map g) id) := by
  unfold solveStep
  refine (congrArg (· >>= _) (map_popFreeze H m (s.1, s.2, 0))).trans ?_
  rw [bind_map', map_bind']
  refine bind_congr fun r => ?_
  refine (congrArg (· >>= _) (map_popEqual H m r.1 r.2)).trans ?_
  rw [bind_map', map_bind']
  refine bind_congr fun r => ?_
  obtain ⟨F, t, n⟩ := r
  have e := forN_map (FMM.map g) (f := fun i F => rd t i >>= fun addr => forN 4 F (spreadNbr m addr))
    (g := fun i F => rd t i >>= fun addr => forN 4 F (spreadNbr (m.map g) addr)) n (fun i F _ => by
      rw [map_bind']
      refine bind_congr fun a => ?_
      exact forN_map (FMM.map g) 4 (fun j F _ => map_spreadNbr H m a j F) F) F
  refine (congrArg (· >>= _) e).trans ?_
  rw [bind_map', map_bind']
  rfl

theorem map_solve (m : Mesh ℝ) (F : FMM ℝ) : solve (m.map g) (F.map g) = (solve m F).map (FMM.map g) := by
  unfold solve
  have e := whileN_map (Prod.map (FMM.map g) id) (c := fun s : FMM ℝ × List Nat => !s.1.heap.empty) (c' := fun s : FMM E × List Nat => !s.1.heap.empty)
    (f := solveStep m) (f' := solveStep (m.map g)) (fun s => rfl) (fun s _ => map_solveStep H m s) F.heap.maxLength (F, List.replicate m.nNodes 0)
  refine (congrArg (· >>= _) e).trans ?_
  rw [bind_map', map_bind']
  rfl

theorem map_marchDistance (m : Mesh ℝ) (sd : List ℝ) (F : FMM ℝ) :
    marchDistance (m.map g) (sd.map g) (F.map g) = (marchDistance m sd F).map (FMM.map g) := by
  unfold marchDistance
  refine (congrArg (· >>= _) (map_initialiseFrozen H m { F with sd := sd, isVelocity := false })).trans ?_
  rw [bind_map', map_bind']
  refine bind_congr fun F => ?_
  rw [map_initialiseHeap H, bind_map', map_bind']
  refine bind_congr fun F => ?_
  rw [map_initialiseTrial H, bind_map', map_bind']
  exact bind_congr fun F => map_solve H m F

theorem map_marchVelocity (m : Mesh ℝ) (sd vel : List ℝ) (F : FMM ℝ) :
    marchVelocity (m.map g) (sd.map g) (vel.map g) (F.map g) = (marchVelocity m sd vel F).map (FMM.map g) := by
  unfold marchVelocity
  refine (congrArg (· >>= _) (map_initialiseFrozen H m { F with sd := sd, vel := vel, isVelocity := true })).trans ?_
  rw [bind_map', map_bind']
  refine bind_congr fun F => ?_
  rw [map_initialiseHeap H, bind_map', map_bind']
  refine bind_congr fun F => ?_
  rw [map_initialiseTrial H, bind_map', map_bind']
  refine bind_congr fun F => ?_
  rw [map_solve H, bind_map', map_bind']
  rfl

end FMM

end Slsm
