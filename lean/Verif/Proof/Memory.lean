import Verif.Proof.Mirror
import Verif.Proof.FMMSide
import Verif.Proof.LSHist
import Verif.Spec.Memory
import Mathlib.Algebra.QuadraticDiscriminant

/-! # What the fast marching method remembers of old values away from the boundary -/

namespace Slsm

variable {D : Type} [FP D]

namespace FMM

variable {w h : Nat} {m : Mesh D} {F F' : FMM D} {C : Nat → D} {iv t : Bool}

/-- The node next to a final one whose estimate comes from the equation and not from its previous value. -/
def Rooted (m : Mesh D) (s : AS D) (n : Nat) : Prop :=
  FP.lt (FP.nat 0) (FP.sub (FP.mul (coeffs m s n).2.1 (coeffs m s n).2.1)
    (FP.mul (FP.mul (FP.nat 4) (coeffs m s n).1) (FP.sub (coeffs m s n).2.2 (FP.nat 1)))) = true

/-- Node `n` has a final neighbour. -/
def Touched (m : Mesh D) (s : AS D) (n : Nat) : Prop := ∃ j, j < 4 ∧ nb m n j ≠ m.nNodes ∧ s.st (nb m n j) = .frozen

/-- Equal up to the distances of nodes not visited yet and the exact values of the copy. -/
structure Sm (F F' : FMM D) : Prop where
  eq : F' = { F with sd := F'.sd, copy := F'.copy }
  ld : F'.sd.length = F.sd.length
  lc : F'.copy.length = F.copy.length
  sd : ∀ i, F.st i ≠ .none → F'.dv i = F.dv i
  cp : ∀ i, FP.lt doubleEpsilon (F'.cp i) = FP.lt doubleEpsilon (F.cp i)

theorem Sm.form (S : Sm F F') : ∃ x y, F' = { F with sd := x, copy := y } := ⟨_, _, S.eq⟩

theorem Sm.status (S : Sm F F') : F'.status = F.status := by rw [S.eq]
theorem Sm.heap (S : Sm F F') : F'.heap = F.heap := by rw [S.eq]
theorem Sm.heapPtr (S : Sm F F') : F'.heapPtr = F.heapPtr := by rw [S.eq]
theorem Sm.vel (S : Sm F F') : F'.vel = F.vel := by rw [S.eq]
theorem Sm.isVel (S : Sm F F') : F'.isVelocity = F.isVelocity := by rw [S.eq]
theorem Sm.isTest (S : Sm F F') : F'.isTest = F.isTest := by rw [S.eq]
theorem Sm.st (S : Sm F F') : F'.st = F.st := by unfold FMM.st; rw [S.status]

theorem Sm.lens (S : Sm F F') (L : Lens m F) : Lens m F' :=
  ⟨by rw [S.status]; exact L.s, by rw [S.heapPtr]; exact L.p, by rw [S.lc]; exact L.c, by rw [S.ld]; exact L.d,
    fun hv => by rw [S.vel]; exact L.v (S.isVel ▸ hv)⟩

theorem stencilV_same {s s' : AS D} (hst : s'.st = s.st) (hsd : ∀ i, s.st i = .frozen → s'.sd i = s.sd i) (n i j : Nat) (d : D × D) :
    stencilV m s' n i j d = stencilV m s n i j d := by
  unfold stencilV
  rw [hst]
  by_cases h1 : s.st (nb m n (2 * i + j)) = .frozen
  · rw [hsd _ h1]
    by_cases h2 : s.st (nb m (nb m n (2 * i + j)) (2 * i + j)) = .frozen
    · rw [hsd _ h2]
    · simp [h2]
  · simp [h1]

theorem coeffs_same {s s' : AS D} (hst : s'.st = s.st) (hsd : ∀ i, s.st i = .frozen → s'.sd i = s.sd i) (n : Nat) :
    coeffs m s' n = coeffs m s n := by
  unfold coeffs dists
  simp only [stencilV_same hst hsd]

theorem same_update (G : IsGrid w h m) (L : Lens m F) (L' : Lens m F') (hst : F'.st = F.st) (hsd : ∀ i, F.st i = .frozen → F'.dv i = F.dv i)
    (hcp : ∀ i, FP.lt doubleEpsilon (F'.cp i) = FP.lt doubleEpsilon (F.cp i)) {n : Nat} (hn : n < m.nNodes) (hr : Rooted m F.abs n) :
    updateNode m F' n = updateNode m F n := by
  rw [updateNode_eq G L hn, updateNode_eq G L' hn]
  have hc : coeffs m F'.abs n = coeffs m F.abs n := coeffs_same hst hsd n
  unfold updateV rootV
  rw [hc]
  unfold Rooted at hr
  rw [if_pos hr, if_pos hr, hcp n]

theorem Sm.update (G : IsGrid w h m) (L : Lens m F) (S : Sm F F') {n : Nat} (hn : n < m.nNodes) (hr : Rooted m F.abs n) :
    updateNode m F' n = updateNode m F n :=
  same_update G L (S.lens L) S.st (fun i hi => S.sd i (by rw [hi]; simp)) S.cp hn hr

theorem rooted_congr {s s' : AS D} (hst : ∀ i, s'.st i = .frozen ↔ s.st i = .frozen) (hsd : s'.sd = s.sd) {n : Nat} (hr : Rooted m s n) : Rooted m s' n := by
  have hc : coeffs m s' n = coeffs m s n := by
    unfold coeffs dists stencilV
    simp only [hst, hsd]
  unfold Rooted
  rw [hc]
  exact hr

/-- New estimate `d` of node `n`; the other parts change in the same way. -/
theorem Sm.est (S : Sm F F') (n : Nat) (d : D) (z : List FMMStatus) (hz : ∀ i, i ≠ n → z.getD i .none ≠ .none → F.st i ≠ .none)
    (hl : n < F.sd.length) (H : Heap D) (hp : List Nat) :
    Sm { F with sd := F.sd.set n d, status := z, heap := H, heapPtr := hp }
      { F' with sd := F'.sd.set n d, status := z, heap := H, heapPtr := hp } := by
  refine ⟨?_, by simpa using S.ld, S.lc, fun i hi => ?_, S.cp⟩
  · rw [S.eq]
  · have hl' : n < F'.sd.length := by rw [S.ld]; exact hl
    show (F'.sd.set n d).getD i _ = (F.sd.set n d).getD i _
    by_cases hin : i = n
    · subst hin
      simp [hl, hl']
    · rw [getD_set, getD_set, if_neg (by tauto), if_neg (by tauto)]
      exact S.sd i (hz i hin hi)

/-- Nothing estimated. -/
theorem Sm.keep (S : Sm F F') (z : List FMMStatus) (hz : ∀ i, z.getD i .none ≠ .none → F.st i ≠ .none) (H : Heap D) (v : List D) :
    Sm { F with status := z, heap := H, vel := v } { F' with status := z, heap := H, vel := v } :=
  ⟨by rw [S.eq], S.ld, S.lc, fun i hi => S.sd i (hz i hi), S.cp⟩

theorem both_wr {α : Type} {l x : List α} (hlen : x.length = l.length) (i : Nat) (a : α) :
    Both (fun p q => p = l.set i a ∧ q = x.set i a ∧ i < l.length) (wr l i a) (wr x i a) := by
  by_cases hi : i < l.length
  · rw [wr_eq _ hi, wr_eq _ (by omega)]
    exact ⟨rfl, rfl, hi⟩
  · rw [wr_ub _ (by omega), wr_ub _ (by omega)]
    rfl

/-- `newTrial` in both. -/
theorem sm_newTrial (G : IsGrid w h m) (L : Lens m F) (S : Sm F F') {n : Nat} (hn : n < m.nNodes) (hs : F.st n = .none) (hr : Rooted m F.abs n) :
    Both Sm (newTrial m n F) (newTrial m n F') := by
  have hns : n < F.status.length := by rw [L.s]; exact hn
  have hnd : n < F.sd.length := by rw [L.d]; exact hn
  unfold newTrial
  rw [S.status]
  refine Both.same (wr F.status n .trial) fun z hz => ?_
  obtain rfl := wr_ok hz
  have hzz : ∀ i, i ≠ n → (F.status.set n FMMStatus.trial).getD i .none ≠ .none → F.st i ≠ .none := by
    intro i hi h
    rwa [getD_set, if_neg (by tauto)] at h
  have hst0 := st_upd F hns .trial F.heapPtr F.copy F.sd F.vel F.heap F.isTest F.isVelocity
  have hfr : ∀ i, (FMM.mk F.isTest F.isVelocity F.heapPtr (F.status.set n .trial) F.copy F.sd F.vel F.heap).st i = .frozen ↔ F.st i = .frozen := by
    intro i
    rw [hst0, Function.update_apply]
    split_ifs with hc
    · rw [hc, hs]; simp
    · rfl
  have hu : updateNode m { F' with status := F.status.set n .trial } n = updateNode m { F with status := F.status.set n .trial } n := by
    refine same_update (F := { F with status := F.status.set n .trial }) (F' := { F' with status := F.status.set n .trial }) G (L.st_set n .trial) ?_ rfl (fun i hi => ?_)
      S.cp hn (rooted_congr (s := F.abs) (s' := FMM.abs { F with status := F.status.set n .trial }) hfr rfl hr)
    · have := (S.lens L).st_set n .trial
      rwa [S.status] at this
    · exact S.sd i (by rw [(hfr i).1 hi]; simp)
  dsimp only
  rw [hu]
  refine Both.same _ fun d _ => Both.bind (both_wr S.ld n d) fun x x' _ hx => ?_
  obtain ⟨rfl, rfl, -⟩ := hx
  have e1 : rd (F.sd.set n d) n = .ok d := by rw [rd_eq (by simpa using hnd)]; simp
  have e2 : rd (F'.sd.set n d) n = .ok d := by rw [rd_eq (by simpa [S.ld] using hnd)]; simp
  rw [e1, e2, S.heap, S.heapPtr]
  refine Both.same (.ok d) fun v _ => Both.same (F.heap.push n (FP.abs v)) fun y _ => Both.same (wr F.heapPtr n y.1) fun hp _ => ?_
  exact S.est n d (F.status.set n .trial) hzz hnd y.2 hp

theorem sm_admissible (S : Sm F F') (i : Nat) : admissible m F' i = admissible m F i := by
  unfold admissible
  rw [S.isVel]

/-- Every node next to a final one is estimated from the equation, wherever the run has come to. -/
def AllRooted (m : Mesh D) (C : Nat → D) (iv : Bool) (s0 : AS D) : Prop :=
  ∀ s1, Micros m C iv (adm m iv) s0 s1 → ∀ n, n < m.nNodes → s1.st n ≠ .frozen → Touched m s1 n → Rooted m s1 n

variable {F0 : FMM D}

/-- Trial nodes have a final neighbour. -/
theorem touched_trial {s0 s1 : AS D} (h0 : ∀ i, i < m.nNodes → s0.st i ≠ .trial) (r : Micros m C iv (adm m iv) s0 s1) {n : Nat} (hn : n < m.nNodes)
    (hs : s1.st n = .trial) : Touched m s1 n := by
  obtain ⟨l, r⟩ := r
  induction r with
  | nil => exact absurd hs (h0 n hn)
  | @snoc s1 s2 l e r h ih =>
    have hold : s1.st n = .trial → Touched m s2 n := fun h' => by
      obtain ⟨j, hj, hne, hf⟩ := ih h'
      exact ⟨j, hj, hne, (h.frozen hf).1⟩
    have hh := h
    cases h with
    | discover k hk hs1 ha hf =>
      by_cases hin : n = k
      · subst hin
        obtain ⟨j, hj, hne, hf⟩ := hf
        exact ⟨j, hj, hne, (hh.frozen hf).1⟩
      · simp only [Function.update_apply, hin, if_false] at hs
        exact hold hs
    | estimate k hk hs1 => exact hold hs
    | freeze k hk hs1 hmin hden =>
      by_cases hin : n = k
      · subst hin
        simp at hs
      · simp only [Function.update_apply, hin, if_false] at hs
        exact hold hs

theorem sm_trialNbr (G : IsGrid w h m) (hg : AllRooted m C iv F0.abs) (P : Ph m C iv t F0 F) (S : Sm F F') {i : Nat} (hi : i < m.nNodes) {j : Nat} (hj : j < 4) :
    Both Sm (trialNbr m i j F) (trialNbr m i j F') := by
  unfold trialNbr
  rw [G.nbr_eq hi hj, S.status, sm_admissible S]
  refine Both.same (.ok (nb m i j)) fun k hk => Both.ite Iff.rfl (fun hne => ?_) fun _ => S
  cases hk
  refine Both.same (rd F.status _) fun sk hsk => Both.ite Iff.rfl (fun hf => ?_) fun _ => S
  refine Both.same (rd F.status i) fun si hsi => Both.ite Iff.rfl (fun hnone => ?_) fun _ => S
  refine Both.same (admissible m F i) fun ok _ => Both.ite Iff.rfl (fun _ => ?_) fun _ => S
  rw [rd_st P.I.L (G.nb_lt hi hj hne)] at hsk
  rw [rd_st P.I.L hi] at hsi
  have hsk := (Except.ok.inj hsk).trans hf
  have hsi := (Except.ok.inj hsi).trans hnone
  exact sm_newTrial G P.I.L S hi hsi (hg F.abs P.steps i hi (by show F.st i ≠ _; rw [hsi]; simp) ⟨j, hj, hne, hsk⟩)

/-- The relation kept along the way. -/
def Along (m : Mesh D) (C : Nat → D) (iv t : Bool) (F0 : FMM D) (F F' : FMM D) : Prop := Ph m C iv t F0 F ∧ Sm F F'

theorem along_trialNbr (G : IsGrid w h m) (hg : AllRooted m C iv F0.abs) (A : Along m C iv t F0 F F') {i : Nat} (hi : i < m.nNodes) {j : Nat} (hj : j < 4) :
    Both (Along m C iv t F0) (trialNbr m i j F) (trialNbr m i j F') :=
  (sm_trialNbr G hg A.1 A.2 hi hj).mono fun _ _ ha _ S => ⟨A.1.trans (LevelSet.wp_of_ok (trialNbr_sp G A.1.I hi hj) ha).1.toPh, S⟩

theorem along_initialiseTrial (G : IsGrid w h m) (hg : AllRooted m C iv F0.abs) (A : Along m C iv t F0 F F') :
    Both (Along m C iv t F0) (initialiseTrial m F) (initialiseTrial m F') := by
  refine Both.forN A fun i hi K K' hK => ?_
  rw [hK.2.status]
  refine Both.same (rd K.status i) fun si _ => Both.ite Iff.rfl (fun _ => ?_) fun _ => hK
  exact Both.forN hK fun j hj M M' hM => along_trialNbr G hg hM hi hj

theorem rd_sm (S : Sm F F') {k : Nat} (hk : F.st k ≠ .none) : rd F'.sd k = rd F.sd k := by
  by_cases h1 : k < F.sd.length
  · rw [rd_getD (FP.nat 0) h1, rd_getD (FP.nat 0) (by rw [S.ld]; exact h1)]
    exact congrArg _ (S.sd k hk)
  · rw [rd_ub (v := F.sd) (by omega), rd_ub (v := F'.sd) (by rw [S.ld]; omega)]

theorem st_of_rd {k : Nat} {x : FMMStatus} (h : rd F.status k = .ok x) : F.st k = x := by
  unfold FMM.st
  rw [List.getD_eq_getElem?_getD, rd_ok h]
  rfl

theorem sm_frontNbr (S : Sm F F') {node : Nat} (hnode : F.st node ≠ .none) (i : Nat) (s : (Bool × D × D × D) × (Bool × D × D × D)) :
    Both (fun t t' => t' = t) (frontNbr m F node i s) (frontNbr m F' node i s) := by
  unfold frontNbr
  rw [S.status, S.vel, rd_sm S hnode]
  refine Both.same (nbr m node i) fun k _ => Both.ite Iff.rfl (fun _ => ?_) fun _ => rfl
  refine Both.same (rd F.status k) fun sk hsk => Both.ite Iff.rfl (fun hf => ?_) fun _ => rfl
  rw [rd_sm S (k := k) (by rw [st_of_rd hsk, hf]; simp)]
  refine Both.same (rd F.sd k) fun v _ => Both.ite Iff.rfl (fun _ => ?_) fun _ => rfl
  exact Both.same (rd F.sd node) fun u _ => Both.same (rd F.vel k) fun x _ => rfl

theorem sm_finalise (S : Sm F F') {node : Nat} (hnode : F.st node ≠ .none) : Both Sm (finalise m node F) (finalise m node F') := by
  unfold finalise
  rw [S.isVel]
  refine Both.ite Iff.rfl (fun _ => ?_) fun _ => S
  refine Both.bind (R := fun t t' => t' = t) (Both.forN rfl fun j _ a b hab => ?_) fun s s' _ hs => ?_
  · rw [hab]; exact sm_frontNbr S hnode j a
  rw [hs]
  obtain ⟨⟨_, _, d0, v0⟩, ⟨_, _, d1, v1⟩⟩ := s
  obtain ⟨x, y, rfl⟩ := S.form
  exact Both.same (check _) fun _ _ => Both.same (wr F.vel node _) fun u _ => S.keep F.status (fun i hi => hi) F.heap u

/-- The nodes of a round so far. -/
def SmS (s s' : FMM D × List Nat × Nat) : Prop := Sm s.1 s'.1 ∧ s'.2 = s.2

theorem sm_popFreeze {s s' : FMM D × List Nat × Nat} (I : FInv m C iv t s.1) (h0 : 0 < s.1.heap.heapLength) (S : SmS s s') :
    Both (fun r r' => r'.1 = r.1 ∧ SmS r.2 r'.2) (popFreeze m s) (popFreeze m s') := by
  obtain ⟨F, l, n⟩ := s
  obtain ⟨F', l', n'⟩ := s'
  obtain ⟨hF, hl⟩ := S
  cases hl
  have hF : Sm F F' := hF
  unfold popFreeze
  simp only
  rw [hF.heap, hF.status]
  refine Both.same F.heap.pop fun x hx => Both.same (wr F.status x.1 .frozen) fun z hz => ?_
  obtain ⟨a, ha, hs, hax, -⟩ := LevelSet.wp_of_ok (pop_finv I h0) hx
  have ha' : a < F.status.length := by rw [I.L.s]; exact ha
  obtain rfl := wr_ok hz
  obtain ⟨u, v, rfl⟩ := hF.form
  have hS := hF.keep (F.status.set x.1 .frozen) (fun i hi => by
    by_cases hc : i = a
    · rw [hc, show F.st a = _ from hs]; simp
    · rw [getD_set, if_neg (by rw [hax]; tauto)] at hi
      exact hi) x.2.2 F.vel
  refine Both.bind (sm_finalise hS (node := x.1) ?_) fun K K' _ hK => Both.same (wr l n x.1) fun y _ => ⟨rfl, hK, rfl⟩
  rw [hax]
  show (F.status.set a FMMStatus.frozen).getD a .none ≠ .none
  rw [getD_set, if_pos (by simpa using ha')]
  simp

theorem sm_peek (S : Sm F F') (v : D) : peekEqual v F' = peekEqual v F := by
  unfold peekEqual
  rw [S.heap]

theorem sm_popEqual (G : IsGrid w h m) {s s' : FMM D × List Nat × Nat} {v : D} (P : PopInv m C iv t F v s) (hcl : Closed m iv (fun _ => False) F.st) (S : SmS s s') :
    Both (fun r r' => PopInv m C iv t F v r ∧ SmS r r') (popEqual m v s) (popEqual m v s') := by
  unfold popEqual
  rw [S.1.heap]
  refine Both.bind (R := fun r r' => (PopInv m C iv t F v r.1 ∧ SmS r.1 r'.1) ∧ r'.2 = r.2)
    (Both.whileN (fun a b hab => by rw [hab.2]) (fun a b hab _ => ?_) _ _ _ ⟨⟨P, S⟩, rfl⟩) fun r r' _ hr => ?_
  swap
  · exact hr.1
  obtain ⟨⟨hP, hS⟩, -⟩ := hab
  rw [sm_peek hS.1]
  refine Both.same (peekEqual v a.1.1) fun more hm => Both.ite Iff.rfl (fun ht => ?_) fun _ => ⟨⟨hP, hS⟩, rfl⟩
  obtain ⟨q, hq, hq'⟩ := peek_spec hP.I v
  rw [hm] at hq
  obtain ⟨h0, hv⟩ := hq' (by rw [← ht]; exact (Except.ok.inj hq).symm)
  exact Both.bind (sm_popFreeze hP.I h0 hS) fun u u' hu hS' => ⟨⟨(LevelSet.wp_of_ok (popFreeze_pi G hP hcl h0 fun _ => hv) hu).1, hS'.2⟩, rfl⟩

theorem sm_refresh (G : IsGrid w h m) (h0 : ∀ i, i < m.nNodes → F0.st i ≠ .trial) (hg : AllRooted m C iv F0.abs) (A : Along m C iv t F0 F F') {n : Nat} (hn : n < m.nNodes)
    (hs : F.st n = .trial) : Both Sm (refresh m n F) (refresh m n F') := by
  have L := A.1.I.L
  have hnd : n < F.sd.length := by rw [L.d]; exact hn
  unfold refresh
  rw [A.2.update G L hn (hg F.abs A.1.steps n hn (by show F.st n ≠ _; rw [hs]; simp) (touched_trial h0 A.1.steps hn hs)), A.2.heapPtr, A.2.heap]
  refine Both.same (updateNode m F n) fun d _ => Both.bind (both_wr A.2.ld n d) fun x x' _ hx => ?_
  obtain ⟨rfl, rfl, -⟩ := hx
  refine Both.same (rd F.heapPtr n) fun k _ => Both.same (F.heap.set k (FP.abs d)) fun y _ => ?_
  obtain ⟨S1, S2⟩ := A
  obtain ⟨u, v, rfl⟩ := S2.form
  exact S2.est n d F.status (fun i _ hi => hi) hnd y F.heapPtr

theorem sm_visit (L : Lens m F) (S : Sm F F') {n : Nat} (hn : n < m.nNodes) (st : FMMStatus) (d : D) :
    Both Sm (visit m n st d { F with sd := F.sd.set n d }) (visit m n st d { F' with sd := F'.sd.set n d }) := by
  have hnd : n < F.sd.length := by rw [L.d]; exact hn
  obtain ⟨x, y, rfl⟩ := S.form
  unfold visit
  have S1 := S.est n d F.status (fun i _ hi => hi) hnd
  refine Both.ite Iff.rfl (fun _ => ?_) fun _ => Both.ite Iff.rfl (fun _ => ?_) fun _ => S1 F.heap F.heapPtr
  · exact Both.same (rd F.heapPtr n) fun k _ => Both.same (F.heap.set k (FP.abs d)) fun H _ => S1 H F.heapPtr
  · refine Both.same (admissible m F n) fun ok _ => Both.ite Iff.rfl (fun _ => ?_) fun _ => S1 F.heap F.heapPtr
    refine Both.same (wr F.status n .trial) fun z hz => Both.same (F.heap.push n (FP.abs d)) fun y _ => Both.same (wr F.heapPtr n y.1) fun hp _ => ?_
    obtain rfl := wr_ok hz
    refine S.est n d (F.status.set n .trial) (fun i hi h => ?_) hnd y.2 hp
    rwa [getD_set, if_neg (by tauto)] at h

theorem along_spreadNbr (G : IsGrid w h m) (h0 : ∀ i, i < m.nNodes → F0.st i ≠ .trial) (hg : AllRooted m C iv F0.abs) (A : Along m C iv t F0 F F') {a : Nat}
    (ha : a < m.nNodes) (haf : F.st a = .frozen) {j : Nat} (hj : j < 4) : Both (Along m C iv t F0) (spreadNbr m a j F) (spreadNbr m a j F') := by
  have L := A.1.I.L
  suffices hS : Both Sm (spreadNbr m a j F) (spreadNbr m a j F') from
    hS.mono fun _ _ hK _ S => ⟨A.1.trans (LevelSet.wp_of_ok (spreadNbr_sp G A.1.I ha hj haf) hK).1.toPh, S⟩
  unfold spreadNbr
  rw [G.nbr_eq ha hj, A.2.status]
  refine Both.same (.ok (nb m a j)) fun k hk => Both.ite Iff.rfl (fun hne => ?_) fun _ => A.2
  cases hk
  have hlt := G.nb_lt ha hj hne
  have hback := nb_opp G ha hj hne
  refine Both.same (rd F.status _) fun st hst => Both.ite Iff.rfl (fun hf => ?_) fun _ => A.2
  rw [rd_st L hlt] at hst
  have hst := Except.ok.inj hst
  have hnf : F.st (nb m a j) ≠ .frozen := by rw [hst]; exact hf
  have htouch : Touched m F.abs (nb m a j) := ⟨opp j, opp_lt hj, by rw [hback]; omega, by rw [hback]; exact haf⟩
  rw [A.2.update G L hlt (hg F.abs A.1.steps _ hlt hnf htouch)]
  generalize hnn : nb m a j = n at *
  have hnd : n < F.sd.length := by rw [L.d]; exact hlt
  refine Both.same (updateNode m F n) fun d hd => Both.bind (both_wr A.2.ld n d) fun x x' _ hx => ?_
  obtain ⟨rfl, rfl, -⟩ := hx
  rw [updateNode_eq G L hlt] at hd
  have hd := (Except.ok.inj hd).symm
  have hvis := sm_visit L A.2 hlt st d
  rw [A.2.status] at hvis
  refine Both.bind hvis fun K K' hK S => ?_
  rw [← hst, hd] at hK
  have A1 : Along m C iv t F0 K K' := ⟨A.1.trans (LevelSet.wp_of_ok (visit_sp G A.1.I hlt hnf htouch) hK).1.toPh, S⟩
  rw [G.nbr_eq hlt hj, S.status]
  refine Both.same (.ok (nb m n j)) fun k hk => Both.ite Iff.rfl (fun hne2 => ?_) fun _ => S
  cases hk
  have hlt2 := G.nb_lt hlt hj hne2
  refine Both.same (rd K.status _) fun st2 hst2 => Both.ite Iff.rfl (fun htr => ?_) fun _ => S
  rw [rd_st A1.1.I.L hlt2] at hst2
  exact sm_refresh G h0 hg A1 hlt2 ((Except.ok.inj hst2).trans htr)

theorem along_spread (G : IsGrid w h m) (h0 : ∀ i, i < m.nNodes → F0.st i ≠ .trial) (hg : AllRooted m C iv F0.abs) {tf : List Nat} {c : Nat} (hlen : c ≤ tf.length)
    (hdom : ∀ k, k < c → tf.getD k 0 < m.nNodes) (hbat : ∀ k, k < c → F.st (tf.getD k 0) = .frozen) (A : Along m C iv t F0 F F') :
    Both (Along m C iv t F0) (forN c F fun i F => do
        let addr ← rd tf i
        forN 4 F (spreadNbr m addr)) (forN c F' fun i F => do
        let addr ← rd tf i
        forN 4 F (spreadNbr m addr)) := by
  refine (Both.forN (R := fun K K' => Along m C iv t F0 K K' ∧ ∀ i, F.st i = .frozen → K.st i = .frozen) ⟨A, fun _ h => h⟩ fun k hk K K' hK => ?_).mono fun _ _ _ _ h => h.1
  rw [rd_getD 0 (show k < tf.length by omega)]
  refine Both.same (.ok _) fun a ha => ?_
  cases ha
  refine Both.forN hK fun j hj M M' hM => ?_
  have hf := hM.2 _ (hbat k hk)
  refine (along_spreadNbr G h0 hg hM.1 (hdom k hk) hf hj).mono fun Z Z' hZ _ hA => ⟨hA, fun i hi => ?_⟩
  exact ((LevelSet.wp_of_ok (spreadNbr_sp G hM.1.1.I (hdom k hk) hj hf) hZ).1.frz i).2 (hM.2 i hi)

theorem along_solveStep (G : IsGrid w h m) (h0 : ∀ i, i < m.nNodes → F0.st i ≠ .trial) (hg : AllRooted m C iv F0.abs) {s s' : FMM D × List Nat}
    (A : (LoopInv m C iv t F0 s ∧ Sm s.1 s'.1) ∧ s'.2 = s.2) (hpos : 0 < s.1.heap.heapLength) :
    Both (fun r r' => (LoopInv m C iv t F0 r ∧ Sm r.1 r'.1) ∧ r'.2 = r.2) (solveStep m s) (solveStep m s') := by
  suffices hS : Both (fun r r' => Sm r.1 r'.1 ∧ r'.2 = r.2) (solveStep m s) (solveStep m s') from
    hS.mono fun _ _ hK _ S => ⟨⟨(LevelSet.wp_of_ok (solveStep_li G A.1.1 hpos) hK).1, S.1⟩, S.2⟩
  obtain ⟨⟨P, S⟩, he⟩ := A
  obtain ⟨F, tf⟩ := s
  obtain ⟨F', tf'⟩ := s'
  obtain rfl : tf' = tf := he
  have S : Sm F F' := S
  have hpos : 0 < F.heap.heapLength := hpos
  have hI : FInv m C iv t F := P.I
  have hmx := hI.mx
  have hs1 := hI.I.sh.le1
  have hs2 := hI.I.sh.le2
  have hp0 : PopInv m C iv t F (F.heap.ds (F.heap.hp 0)) (F, tf', 0) :=
    ⟨Ph.refl hI, P.len, show 0 + F.heap.heapLength ≤ _ by omega, fun k hk => by simp at hk, fun k hk => by simp at hk, rfl, fun i hi hf => .inl hf,
      fun i => Iff.rfl, fun i hf => hf, fun _ k hk => by simp at hk⟩
  unfold solveStep
  refine Both.bind (sm_popFreeze (s := (F, tf', 0)) (s' := (F', tf', 0)) hI hpos ⟨S, rfl⟩) fun r r' hr hS => ?_
  obtain ⟨P1, hv, -⟩ := LevelSet.wp_of_ok (popFreeze_pi G hp0 P.closed hpos fun hT => (TotalCmp.eq_iff _ _).2 ⟨TotalCmp.irrefl _, TotalCmp.irrefl _⟩) hr
  obtain ⟨v, r⟩ := r
  obtain ⟨v', r'⟩ := r'
  obtain ⟨rfl, hS⟩ : v' = v ∧ SmS r r' := hS
  have hv : v' = F.heap.ds (F.heap.hp 0) := hv
  subst hv
  refine Both.bind (sm_popEqual G P1 P.closed hS) fun q q' _ hq => ?_
  obtain ⟨P2, hq⟩ := hq
  obtain ⟨K, tf2, c⟩ := q
  obtain ⟨K', tf2', c'⟩ := q'
  obtain ⟨hK, he⟩ := hq
  cases he
  have hc2 : c + K.heap.heapLength ≤ m.nNodes := P2.cnt
  have hlen2 : tf2.length = m.nNodes := P2.len
  exact Both.bind (along_spread G h0 hg (by omega) P2.dom P2.bat ⟨P.toPh.trans P2.toPh, hK⟩) fun Z Z' _ hZ => ⟨hZ.2, rfl⟩

theorem sm_solve (G : IsGrid w h m) (h0 : ∀ i, i < m.nNodes → F0.st i ≠ .trial) (hg : AllRooted m C iv F0.abs) (A : Along m C iv t F0 F F')
    (hcl : Closed m iv (fun _ => False) F.st) : Both Sm (solve m F) (solve m F') := by
  unfold solve
  rw [A.2.heap]
  refine Both.bind (Both.whileN (R := fun r r' => (LoopInv m C iv t F0 r ∧ Sm r.1 r'.1) ∧ r'.2 = r.2) (fun a b hab => ?_) (fun a b hab hc => ?_) _ _ _
    ⟨⟨⟨A.1, by simp, hcl⟩, A.2⟩, rfl⟩) fun r r' _ hr => ?_
  · rw [hab.1.2.heap]
  · exact along_solveStep G h0 hg hab (by simp [Heap.empty] at hc; omega)
  · exact hr.1.2

theorem wp_any {α β : Type} {r : Res α} {f : α → Res β} {Q : β → Prop} (h : ∀ a, r = .ok a → wp (f a) Q fun _ => True) : wp (r >>= f) Q fun _ => True := by
  cases r with
  | ok a => exact h a rfl
  | error e => trivial

/-- The first phase touches the distances, the statuses and the copy. -/
theorem frozen_frame (m : Mesh D) (F : FMM D) : wp (initialiseFrozen m F)
    (fun K => K.isTest = F.isTest ∧ K.isVelocity = F.isVelocity ∧ K.heapPtr = F.heapPtr ∧ K.vel = F.vel ∧ K.heap = F.heap) fun _ => True := by
  unfold initialiseFrozen
  rw [wp_bind]
  let Q : FMM D × Nat → Prop := fun s => s.1.isTest = F.isTest ∧ s.1.isVelocity = F.isVelocity ∧ s.1.heapPtr = F.heapPtr ∧ s.1.vel = F.vel ∧ s.1.heap = F.heap
  refine wp_imp (wp_forN (fun _ s => Q s) ⟨rfl, rfl, rfl, rfl, rfl⟩ fun i _ s hs => ?_) fun s hs => ?_
  · obtain ⟨K, n⟩ := s
    unfold frozenZero
    refine wp_any fun v _ => wp_any fun c _ => wp_any fun st _ => wp_ite (fun _ => ?_) fun _ => hs
    exact wp_any fun x _ => wp_ite (fun _ => wp_any fun z _ => hs) fun _ => hs
  · rw [wp_bind]
    refine wp_imp (wp_forN (fun _ s => Q s) hs fun i _ s hs => ?_) fun s hs => ?_
    · obtain ⟨K, n⟩ := s
      unfold frozenBorder
      refine wp_any fun st _ => wp_ite (fun _ => ?_) fun _ => hs
      refine wp_any fun x _ => ?_
      obtain ⟨b, d0, d1⟩ := x
      refine wp_ite (fun _ => ?_) fun _ => hs
      exact wp_any fun c _ => wp_any fun y _ => wp_any fun z _ => hs
    · obtain ⟨K, n⟩ := s
      exact wp_any fun _ _ => hs

theorem list_eq_of_getD {α : Type} {l l' : List α} (hlen : l'.length = l.length) (d : α) (h : ∀ i, i < l.length → l'.getD i d = l.getD i d) : l' = l := by
  apply List.ext_getElem hlen
  intro i h1 h2
  have := h i h2
  rwa [List.getD_eq_getElem?_getD, List.getD_eq_getElem?_getD, List.getElem?_eq_getElem h1, List.getElem?_eq_getElem h2] at this

/-- After the first phase. -/
theorem sm_init {K K' : FMM D} {f f' g : Nat → D} (I : Init m f g iv t K) (I' : Init m f' g iv t K')
    (hp : K'.heapPtr = K.heapPtr) (hv : K'.vel = K.vel) (hst : ∀ i, i < m.nNodes → initSt m f' i = initSt m f i)
    (hsd : ∀ i, i < m.nNodes → initSt m f i = .frozen → initSd m f' i = initSd m f i)
    (hcp : ∀ i, i < m.nNodes → FP.lt doubleEpsilon (f' i) = FP.lt doubleEpsilon (f i)) (hH : K'.heap = K.heap) : Sm K K' := by
  have es : K'.status = K.status := by
    refine list_eq_of_getD (by rw [I.L.s, I'.L.s]) .none fun i hi => ?_
    rw [I.L.s] at hi
    exact (I'.st i hi).trans ((hst i hi).trans (I.st i hi).symm)
  refine ⟨?_, by rw [I.L.d, I'.L.d], by rw [I.L.c, I'.L.c], fun i hi => ?_, fun i => ?_⟩
  · have e1 := I.iv.trans I'.iv.symm
    have e2 := I.tst.trans I'.tst.symm
    cases K; cases K'
    simp only at es hp hv hH e1 e2
    subst es hp hv hH e1 e2
    rfl
  · by_cases hlt : i < m.nNodes
    · rw [I'.sd i hlt, I.sd i hlt]
      rw [I.st i hlt] at hi
      refine hsd i hlt ?_
      unfold initSt at hi ⊢
      split_ifs at hi ⊢ with hc
      · rfl
      · exact absurd rfl hi
    · unfold dv
      rw [List.getD_eq_getElem?_getD, List.getD_eq_getElem?_getD, List.getElem?_eq_none (by rw [I'.L.d]; omega), List.getElem?_eq_none (by rw [I.L.d]; omega)]
  · by_cases hlt : i < m.nNodes
    · rw [I'.cp i hlt, I.cp i hlt]
      exact hcp i hlt
    · unfold cp
      rw [List.getD_eq_getElem?_getD, List.getD_eq_getElem?_getD, List.getElem?_eq_none (by rw [I'.L.c]; omega), List.getElem?_eq_none (by rw [I.L.c]; omega)]

/-- The whole march from two states that differ away from the boundary. -/
theorem sm_march (G : IsGrid w h m) {f f' g : Nat → D} (I : Fresh m f g iv t F) (I' : Fresh m f' g iv t F')
    (hp : F'.heapPtr = F.heapPtr) (hv : F'.vel = F.vel) (hH : F'.heap = F.heap) (hst : ∀ i, i < m.nNodes → initSt m f' i = initSt m f i)
    (hsd : ∀ i, i < m.nNodes → initSt m f i = .frozen → initSd m f' i = initSd m f i)
    (hcp : ∀ i, i < m.nNodes → FP.lt doubleEpsilon (f' i) = FP.lt doubleEpsilon (f i))
    (hg : ∀ (s0 : AS D) (C : Nat → D), (∀ i, i < m.nNodes → s0.st i = initSt m f i ∧ s0.sd i = initSd m f i) → (∀ i, i < m.nNodes → C i = f i) → AllRooted m C iv s0) :
    Both Sm (initialiseFrozen m F >>= fun F => initialiseHeap m F >>= fun F => initialiseTrial m F >>= fun F => solve m F)
      (initialiseFrozen m F' >>= fun F => initialiseHeap m F >>= fun F => initialiseTrial m F >>= fun F => solve m F) := by
  have w1 := initialiseFrozen_spec G I
  have w2 := initialiseFrozen_spec G I'
  have hex : (∃ i, i < m.nNodes ∧ initSt m f' i = .frozen) ↔ ∃ i, i < m.nNodes ∧ initSt m f i = .frozen :=
    exists_congr fun i => and_congr_right fun hi => by rw [hst i hi]
  have fr1 := frozen_frame m F
  have fr2 := frozen_frame m F'
  cases e1 : initialiseFrozen m F with
  | error x =>
    rw [e1, wp_error] at w1
    cases e2 : initialiseFrozen m F' with
    | error x' =>
      rw [e2, wp_error] at w2
      rw [w1.1, w2.1]
      rfl
    | ok K' =>
      rw [e2, wp_ok] at w2
      exact absurd (hex.1 w2.2) w1.2
  | ok K =>
    rw [e1, wp_ok] at w1 fr1
    cases e2 : initialiseFrozen m F' with
    | error x' =>
      rw [e2, wp_error] at w2
      exact absurd (hex.2 w1.2) w2.2
    | ok K' =>
      rw [e2, wp_ok] at w2 fr2
      obtain ⟨-, -, f1, f2, f3⟩ := fr1
      obtain ⟨-, -, g1, g2, g3⟩ := fr2
      have S := sm_init w1.1 w2.1 (g1.trans (hp.trans f1.symm)) (g2.trans (hv.trans f2.symm)) hst hsd hcp (g3.trans (hH.trans f3.symm))
      change Both Sm (initialiseHeap m K >>= fun F => initialiseTrial m F >>= fun F => solve m F)
        (initialiseHeap m K' >>= fun F => initialiseTrial m F >>= fun F => solve m F)
      rw [initialiseHeap_eq w1.1.L, initialiseHeap_eq w2.1.L]
      have FI := w1.1.finv
      generalize hF0 : ({ K with heap := Heap.new (K.status.count .none) K.isTest } : FMM D) = F0 at FI
      have S0 : Sm F0 { K' with heap := Heap.new (K'.status.count .none) K'.isTest } := by
        rw [S.status, S.isTest, ← hF0]
        obtain ⟨x, y, rfl⟩ := S.form
        exact S.keep K.status (fun i hi => hi) (Heap.new (K.status.count .none) K.isTest) K.vel
      change Both Sm (initialiseTrial m _ >>= fun F => solve m F) (initialiseTrial m _ >>= fun F => solve m F)
      have hstt : ∀ i, i < m.nNodes → F0.st i = initSt m f i := by rw [← hF0]; exact w1.1.st
      have hsdd : ∀ i, i < m.nNodes → F0.dv i = initSd m f i := by rw [← hF0]; exact w1.1.sd
      have hr := hg F0.abs K.cp (fun i hi => ⟨hstt i hi, hsdd i hi⟩) w1.1.cp
      refine Both.bind (along_initialiseTrial G hr ⟨Ph.refl FI, S0⟩) fun M M' hM A => ?_
      exact sm_solve G (fun i hi => by rw [hstt i hi]; exact initSt_ne_trial f i) hr A (LevelSet.wp_of_ok (initialiseTrial_sp G FI) hM).2

/-- A node whose equation is never solved keeps its value. -/
theorem Run.kept {iv : Bool} {ad : Nat → Prop} {s0 s : AS D} {l : List Event} (r : Run m C iv ad s0 l s) {n : Nat}
    (hn : ∀ l1 s1, Run m C iv ad s0 l1 s1 → s1.st n ≠ .frozen → ¬ Rooted m s1 n) : s.sd n = s0.sd n := by
  induction r with
  | nil => rfl
  | @snoc s1 s2 l e r h ih =>
    have hu : s1.st n ≠ .frozen → updateV m C s1 n = s1.sd n := fun hs => by
      have := hn l s1 r hs
      unfold Rooted at this
      unfold updateV rootV
      rw [if_neg this]
    cases h with
    | discover k hk hs ha hf =>
      by_cases hin : n = k
      · subst hin
        simp only [Function.update_self]
        rw [hu (by rw [hs]; simp), ih]
      · simp only [Function.update_apply, hin, if_false]
        exact ih
    | estimate k hk hs =>
      by_cases hin : n = k
      · subst hin
        simp only [Function.update_self]
        rw [hu hs, ih]
      · simp only [Function.update_apply, hin, if_false]
        exact ih
    | freeze k hk hs hmin hden => exact ih

/-! ### Real numbers -/

section
variable {m : Mesh ℝ}

theorem rooted_of_two {s : AS ℝ} {n : Nat} (h2 : ∃ T1 T2, T1 ≠ T2 ∧ eik m s n T1 = 1 ∧ eik m s n T2 = 1) : Rooted m s n := by
  obtain ⟨T1, T2, hne, e1, e2⟩ := h2
  have p1 := eik_poly (m := m) (s := s) n T1
  have p2 := eik_poly (m := m) (s := s) n T2
  rw [e1] at p1
  rw [e2] at p2
  unfold Rooted
  rw [FP.lt_real]
  rcases coeffs_cases (m := m) (s := s) n with ha | ⟨h0, -, -⟩
  · generalize (coeffs m s n).1 = a at *
    generalize (coeffs m s n).2.1 = b at *
    generalize (coeffs m s n).2.2 = c at *
    change ((0 : ℕ) : ℝ) < b * b - ((4 : ℕ) : ℝ) * a * (c - ((1 : ℕ) : ℝ))
    push_cast
    have hb : a * (T1 + T2) + b = 0 := by
      have : (T1 - T2) * (a * (T1 + T2) + b) = 0 := by linear_combination p1 - p2
      rcases mul_eq_zero.1 this with h | h
      · exact absurd (sub_eq_zero.1 h) hne
      · exact h
    have hbb : b = -(a * (T1 + T2)) := by linarith
    have hc : c - 1 = a * (T1 * T2) := by
      have : c = 1 - a * T1 ^ 2 - b * T1 := by linarith
      rw [this, hbb]; ring
    rw [hc, hbb]
    have : 0 < a ^ 2 * (T1 - T2) ^ 2 := by
      have := sub_ne_zero.2 hne
      positivity
    nlinarith
  · rw [h0] at p1
    norm_num at p1

theorem not_rooted {s : AS ℝ} {n : Nat} (h1 : ∀ T, 1 < eik m s n T) : ¬ Rooted m s n := by
  unfold Rooted
  rw [FP.lt_real]
  have poly := eik_poly (m := m) (s := s) n
  rcases coeffs_cases (m := m) (s := s) n with ha | ⟨h0, -, -⟩
  · generalize (coeffs m s n).1 = a at *
    generalize (coeffs m s n).2.1 = b at *
    generalize (coeffs m s n).2.2 = c at *
    change ¬ ((0 : ℕ) : ℝ) < b * b - ((4 : ℕ) : ℝ) * a * (c - ((1 : ℕ) : ℝ))
    push_cast
    have := discrim_lt_zero (a := a) (b := b) (c := c - 1) ha.ne' fun x => by nlinarith [poly x, h1 x]
    unfold discrim at this
    nlinarith
  · have := poly 0
    rw [h0] at this
    have h := h1 0
    simp at this
    linarith

section
variable {f f' : Nat → ℝ}

theorem _root_.Slsm.SameBoundary.mem (B : SameBoundary w h f f') {i : Nat} (hi : i < (w + 1) * (h + 1)) : OnInterface w h f' i ↔ OnInterface w h f i := by
  have heps : (0 : ℝ) < 1 / 2 ^ 52 := by positivity
  have ho : ∀ (g : Nat → ℝ) (a b : Nat), Opposite g a b ↔ g a * g b < 0 := fun g a b => by unfold Opposite; simp
  have hz : ∀ x : ℝ, FP.eq x (FP.nat 0) = true ↔ x = 0 := fun x => by simp
  constructor
  · intro h1
    by_contra hn
    have hi' := (B i hi).2 hn
    have hnz : ∀ k, Adj w h i k → ¬ f i * f k < 0 := fun k ha hk => hn (.inr ⟨k, ha, (ho f i k).2 hk⟩)
    rcases h1 with h0 | ⟨k, ha, hk⟩
    · rw [hz] at h0
      rcases hi' with h | h <;> linarith [h.2]
    · rw [ho] at hk
      have hkn := (B k (adj_lt ha).2)
      apply hnz k ha
      by_cases hint : OnInterface w h f k
      · rw [hkn.1 hint] at hk
        rcases hi' with h | h
        · have : f k < 0 := by
            by_contra hc
            have := mul_nonneg (heps.le.trans h.2.le) (not_lt.1 hc)
            linarith
          exact mul_neg_of_pos_of_neg (heps.trans h.1) this
        · have : 0 < f k := by
            by_contra hc
            have := mul_nonneg_of_nonpos_of_nonpos h.2.le (not_lt.1 hc)
            linarith
          exact mul_neg_of_neg_of_pos h.1 this
      · rcases hkn.2 hint with h2 | h2 <;> rcases hi' with h | h
        · have := mul_pos (heps.trans h.2) (heps.trans h2.2); linarith
        · exact mul_neg_of_neg_of_pos h.1 (heps.trans h2.1)
        · exact mul_neg_of_pos_of_neg (heps.trans h.1) h2.1
        · have := mul_pos_of_neg_of_neg h.2 h2.2; linarith
  · intro h1
    have he := (B i hi).1 h1
    rcases h1 with h0 | ⟨k, ha, hk⟩
    · exact .inl (by rw [he]; exact h0)
    · refine .inr ⟨k, ha, ?_⟩
      have hkk : OnInterface w h f k := .inr ⟨i, adj_symm ha, by rw [ho] at hk ⊢; rw [mul_comm]; exact hk⟩
      unfold Opposite
      rw [he, (B k (adj_lt ha).2).1 hkk]
      exact hk

theorem _root_.Slsm.SameBoundary.crossings (B : SameBoundary w h f f') {adj : Nat → Nat → Prop} (hadj : ∀ a b, adj a b → Adj w h a b) {i : Nat} (hi : i < (w + 1) * (h + 1))
    (h1 : OnInterface w h f i) : crossings adj f' i = crossings adj f i := by
  have he := (B i hi).1 h1
  have ho : ∀ (g : Nat → ℝ) (a b : Nat), Opposite g a b ↔ g a * g b < 0 := fun g a b => by unfold Opposite; simp
  ext d
  constructor
  · rintro ⟨n, ha, hn, hd⟩
    have hnn : OnInterface w h f' n := .inr ⟨i, adj_symm (hadj _ _ ha), by rw [ho, mul_comm]; exact hn⟩
    have hlt := (adj_lt (hadj _ _ ha)).2
    have hen := (B n hlt).1 ((B.mem hlt).1 hnn)
    rw [he, hen] at hn hd
    exact ⟨n, ha, hn, hd⟩
  · rintro ⟨n, ha, hn, hd⟩
    have hnn : OnInterface w h f n := .inr ⟨i, adj_symm (hadj _ _ ha), by rw [ho, mul_comm]; exact hn⟩
    have hen := (B n (adj_lt (hadj _ _ ha)).2).1 hnn
    refine ⟨n, ha, ?_, ?_⟩ <;> rw [he, hen]
    · exact hn
    · exact hd

theorem _root_.Slsm.SameBoundary.distance (B : SameBoundary w h f f') {i : Nat} (hi : i < (w + 1) * (h + 1)) (h1 : OnInterface w h f i) :
    boundaryDistance w h f' i = boundaryDistance w h f i := by
  unfold boundaryDistance
  rw [B.crossings (fun _ _ => .inl) hi h1, B.crossings (fun _ _ => .inr) hi h1, (B i hi).1 h1]

theorem initSd_boundary (G : IsGrid w h m) (f : Nat → ℝ) {i : Nat} (hi : i < m.nNodes) (h1 : OnInterface w h f i) : initSd m f i = boundaryDistance w h f i := by
  classical
  rw [initSd_real G f hi, borderDist_eq G f hi]
  unfold boundaryDistance
  by_cases h0 : f i = 0
  · rw [if_pos h0, if_pos h0]
  · rw [if_neg h0, if_neg h0]
    rcases h1 with h1 | ⟨n, ha, hn⟩
    · exact absurd (by simpa using h1) h0
    · rw [if_pos ⟨n, ha, by simpa [Opposite] using hn⟩]
      split_ifs <;> simp

theorem initSd_far (G : IsGrid w h m) (f : Nat → ℝ) {i : Nat} (hi : i < m.nNodes) (h1 : ¬ OnInterface w h f i) : initSd m f i = f i := by
  classical
  rw [initSd_real G f hi]
  have h0 : f i ≠ 0 := fun h => h1 (.inl (by simpa using h))
  rw [if_neg h0, if_neg]
  rintro ⟨n, ha, hn⟩
  exact h1 (.inr ⟨n, ha, by simpa [Opposite] using hn⟩)

theorem initSt_same (G : IsGrid w h m) (B : SameBoundary w h f f') {i : Nat} (hi : i < m.nNodes) : initSt m f' i = initSt m f i := by
  have hi' : i < (w + 1) * (h + 1) := by rw [← G.nNodes]; exact hi
  have h1 := initSt_iff G f hi
  have h2 := initSt_iff G f' hi
  rw [B.mem hi', ← h1] at h2
  unfold initSt at h1 h2 ⊢
  split_ifs at h1 h2 ⊢ <;> simp_all

theorem eps_same (B : SameBoundary w h f f') {i : Nat} (hi : i < (w + 1) * (h + 1)) : FP.lt doubleEpsilon (f' i) = FP.lt doubleEpsilon (f i) := by
  have heps : (0 : ℝ) < 1 / 2 ^ 52 := by positivity
  by_cases h1 : OnInterface w h f i
  · rw [(B i hi).1 h1]
  · rw [Bool.eq_iff_iff, FP.lt_real, FP.lt_real, eps_real]
    rcases (B i hi).2 h1 with h | h
    · exact ⟨fun _ => h.1, fun _ => h.2⟩
    · constructor <;> intro _ <;> linarith [h.1, h.2]

theorem all_rooted (G : IsGrid w h m) (iv : Bool) (hu : ¬ Unsolvable w h m f iv (adm m iv)) (s0 : AS ℝ) (C : Nat → ℝ)
    (h0 : ∀ i, i < m.nNodes → s0.st i = initSt m f i ∧ s0.sd i = initSd m f i) (hC : ∀ i, i < m.nNodes → C i = f i) : AllRooted m C iv s0 := by
  rintro s1 ⟨l, r⟩ n hn hs ⟨j, hj, hne, hf⟩
  by_contra hr
  refine hu ⟨s0, s1, C, l, n, nb m n j, fun i hi => ?_, fun i hi => hC i (by rw [G.nNodes]; exact hi), r, hs, adj_nb G hn hj hne, hf, fun h2 => hr (rooted_of_two h2)⟩
  have hi : i < m.nNodes := by rw [G.nNodes]; exact hi
  obtain ⟨a, b⟩ := h0 i hi
  refine ⟨fun h1 => ⟨a.trans ((initSt_iff G f hi).2 h1), b.trans (initSd_boundary G f hi h1)⟩, fun h1 => ⟨?_, b.trans (initSd_far G f hi h1)⟩⟩
  have h2 := mt (initSt_iff G f hi).1 h1
  rw [a]
  unfold initSt at h2 ⊢
  split_ifs at h2 ⊢
  · exact absurd rfl h2
  · rfl

theorem sm_marchDistance (G : IsGrid w h m) {sd sd' : List ℝ} (hl : sd.length = m.nNodes) (hl' : sd'.length = m.nNodes) (B : SameBoundary w h (vals sd) (vals sd'))
    (t : Bool) (hu : ¬ Unsolvable w h m (vals sd) false (adm m false)) :
    Both Sm (marchDistance m sd (FMM.new m t)) (marchDistance m sd' (FMM.new m t)) := by
  have hN : ∀ i, i < m.nNodes → i < (w + 1) * (h + 1) := fun i hi => by rw [← G.nNodes]; exact hi
  have key := sm_march (iv := false) (t := t) (F := { FMM.new m t with sd := sd, isVelocity := false }) (F' := { FMM.new m t with sd := sd', isVelocity := false }) G
    (f := vals sd) (f' := vals sd') (g := fun _ => FP.nat 0)
    ⟨⟨by simp [FMM.new], by simp [FMM.new], by simp [FMM.new], hl, fun h => by simp at h⟩, rfl, rfl, fun i _ => getD_replicate _ _ _, fun i _ => rfl, fun i _ => rfl⟩
    ⟨⟨by simp [FMM.new], by simp [FMM.new], by simp [FMM.new], hl', fun h => by simp at h⟩, rfl, rfl, fun i _ => getD_replicate _ _ _, fun i _ => rfl, fun i _ => rfl⟩
    rfl rfl rfl (fun i hi => initSt_same G B hi)
    (fun i hi hf => by
      have h1 := (initSt_iff G _ hi).1 hf
      rw [initSd_boundary G _ hi h1, initSd_boundary G _ hi ((B.mem (hN i hi)).2 h1), B.distance (hN i hi) h1])
    (fun i hi => eps_same B (hN i hi)) (all_rooted G false hu)
  exact key

theorem sm_marchVelocity (G : IsGrid w h m) {sd sd' vel : List ℝ} (hl : sd.length = m.nNodes) (hl' : sd'.length = m.nNodes) (hv : vel.length = m.nNodes)
    (B : SameBoundary w h (vals sd) (vals sd')) (t : Bool) (hu : ¬ Unsolvable w h m (vals sd) true (adm m true)) :
    Both (fun F F' => F'.vel = F.vel) (marchVelocity m sd vel (FMM.new m t)) (marchVelocity m sd' vel (FMM.new m t)) := by
  have hN : ∀ i, i < m.nNodes → i < (w + 1) * (h + 1) := fun i hi => by rw [← G.nNodes]; exact hi
  have key := sm_march (iv := true) (t := t) (F := { FMM.new m t with sd := sd, vel := vel, isVelocity := true }) (F' := { FMM.new m t with sd := sd', vel := vel, isVelocity := true }) G
    (f := vals sd) (f' := vals sd') (g := fun i => vel.getD i (FP.nat 0))
    ⟨⟨by simp [FMM.new], by simp [FMM.new], by simp [FMM.new], hl, fun _ => hv⟩, rfl, rfl, fun i _ => getD_replicate _ _ _, fun i _ => rfl, fun i _ => rfl⟩
    ⟨⟨by simp [FMM.new], by simp [FMM.new], by simp [FMM.new], hl', fun _ => hv⟩, rfl, rfl, fun i _ => getD_replicate _ _ _, fun i _ => rfl, fun i _ => rfl⟩
    rfl rfl rfl (fun i hi => initSt_same G B hi)
    (fun i hi hf => by
      have h1 := (initSt_iff G _ hi).1 hf
      rw [initSd_boundary G _ hi h1, initSd_boundary G _ hi ((B.mem (hN i hi)).2 h1), B.distance (hN i hi) h1])
    (fun i hi => eps_same B (hN i hi)) (all_rooted G true hu)
  have key' := Both.bind (S := fun F F' : FMM ℝ => F'.vel = F.vel) (f := fun F => pure { F with sd := F.copy }) (f' := fun F => pure { F with sd := F.copy })
    key fun F F' _ S => Both.ok S.vel
  unfold marchVelocity
  simp only [bind_assoc] at key'
  exact key'

end

end

end FMM

end Slsm
