import Verif.Proof.FMMStep

/-! Invariant of the fast marching object and its preservation. -/

namespace Slsm

set_option linter.unusedSectionVars false

variable {D : Type} [FP D]

theorem Heap.SInv.congr {L L' : Nat → Prop} {H : Heap D} (I : Heap.SInv L H) (h : ∀ k, L k ↔ L' k) : Heap.SInv L' H := by
  have : L = L' := funext fun k => propext (h k)
  exact this ▸ I

theorem getD_set_fun {α : Type} (l : List α) {n : Nat} (a d : α) (h : n < l.length) :
    (fun i => (l.set n a).getD i d) = Function.update (fun i => l.getD i d) n a := by
  funext i
  rw [getD_set, Function.update_apply]
  by_cases hc : i = n
  · subst hc; rw [if_pos ⟨rfl, h⟩, if_pos rfl]
  · rw [if_neg (by tauto), if_neg hc]

theorem FMM.Run.trans {m : Mesh D} {cp : Nat → D} {iv : Bool} {a : Nat → Prop} {s s' s'' : AS D} {l l' : List FMM.Event}
    (r : FMM.Run m cp iv a s l s') (r' : FMM.Run m cp iv a s' l' s'') : FMM.Run m cp iv a s (l ++ l') s'' := by
  induction r' with
  | nil => simpa using r
  | snoc _ h ih => rw [← List.append_assoc]; exact .snoc ih h

theorem FMM.Micros.refl {m : Mesh D} {cp : Nat → D} {iv : Bool} {a : Nat → Prop} {s : AS D} : FMM.Micros m cp iv a s s :=
  ⟨[], .nil s⟩

theorem FMM.Micros.tail {m : Mesh D} {cp : Nat → D} {iv : Bool} {a : Nat → Prop} {s s' s'' : AS D} {e : FMM.Event}
    (r : FMM.Micros m cp iv a s s') (h : FMM.Micro m cp iv a s' e s'') : FMM.Micros m cp iv a s s'' :=
  let ⟨l, r⟩ := r; ⟨l ++ [e], .snoc r h⟩

theorem FMM.Micros.single {m : Mesh D} {cp : Nat → D} {iv : Bool} {a : Nat → Prop} {s s' : AS D} {e : FMM.Event}
    (h : FMM.Micro m cp iv a s e s') : FMM.Micros m cp iv a s s' := FMM.Micros.refl.tail h

theorem FMM.Micros.trans {m : Mesh D} {cp : Nat → D} {iv : Bool} {a : Nat → Prop} {s s' s'' : AS D}
    (r : FMM.Micros m cp iv a s s') (r' : FMM.Micros m cp iv a s' s'') : FMM.Micros m cp iv a s s'' :=
  let ⟨_, r⟩ := r; let ⟨_, r'⟩ := r'; ⟨_, r.trans r'⟩

/-- the estimate depends on the frozen nodes and the previous value only -/
theorem FMM.updateV_congr {m : Mesh D} {cp : Nat → D} {s s' : AS D} {n : Nat} (hst : ∀ i, s.st i = .frozen ↔ s'.st i = .frozen)
    (hsd : s.sd = s'.sd) : FMM.updateV m cp s n = FMM.updateV m cp s' n := by
  have h1 : ∀ i j d, FMM.stencilV m s n i j d = FMM.stencilV m s' n i j d := by
    intro i j d
    unfold FMM.stencilV
    simp only [hst, hsd]
  unfold FMM.updateV FMM.coeffs FMM.dists
  simp only [h1, hsd]

/-- node `i` may enter the trial band -/
def adm (m : Mesh D) (iv : Bool) (i : Nat) : Prop :=
  iv = true → ∃ nd, m.nodes[i]? = some nd ∧ nd.isActive = true

namespace FMM

/-- handles of trial nodes -/
def live (m : Mesh D) (F : FMM D) (k : Nat) : Prop := ∃ i, i < m.nNodes ∧ F.st i = .trial ∧ F.hpt i = k

/-- invariant of the main phase -/
structure FInv (m : Mesh D) (C : Nat → D) (iv t : Bool) (F : FMM D) : Prop where
  L : Lens m F
  iv : F.isVelocity = iv
  C : F.cp = C
  I : Heap.SInv (live m F) F.heap
  had : ∀ i, i < m.nNodes → F.st i = .trial → F.heap.ad (F.hpt i) = i
  hkey : ∀ i, i < m.nNodes → F.st i = .trial → F.heap.ds (F.hpt i) = FP.abs (F.dv i)
  ord : TotalCmp D → Heap.Ordered F.heap
  cap : F.heap.listLength + F.status.count .none ≤ F.heap.maxLength
  mx : F.heap.maxLength ≤ m.nNodes
  tst : F.heap.isTest = t

/-- permitted abnormal ends -/
def ErrOk (D : Type) [FP D] (t : Bool) (e : Err) : Prop := e = .exit ∧ t = true ∧ ¬ TotalCmp D

/-- permitted abnormal ends of a march that starts in state `s0` -/
def ErrAt (m : Mesh D) (C : Nat → D) (iv t : Bool) (s0 : AS D) (e : Err) : Prop :=
  e = .exit ∧ (Stuck m C iv (adm m iv) s0 ∨ (t = true ∧ ¬ TotalCmp D))

theorem ErrOk.at {m : Mesh D} {C : Nat → D} {iv t : Bool} {s0 : AS D} {e : Err} (h : ErrOk D t e) : ErrAt m C iv t s0 e := ⟨h.1, .inr h.2⟩

theorem Stuck.trans {m : Mesh D} {C : Nat → D} {iv : Bool} {a : Nat → Prop} {s0 s1 : AS D} (r : Micros m C iv a s0 s1) (h : Stuck m C iv a s1) : Stuck m C iv a s0 := by
  obtain ⟨h1, s, n, h2, h3⟩ := h
  exact ⟨h1, s, n, r.trans h2, h3⟩

theorem ErrAt.trans {m : Mesh D} {C : Nat → D} {iv t : Bool} {s0 s1 : AS D} (r : Micros m C iv (adm m iv) s0 s1) {e : Err} (h : ErrAt m C iv t s1 e) : ErrAt m C iv t s0 e :=
  ⟨h.1, h.2.imp (Stuck.trans r) id⟩

theorem heapErr_ok {t : Bool} {H : Heap D} (ht : H.isTest = t) {e : Err} (h : Heap.heapErr H e) : ErrOk D t e :=
  ⟨h.1, ht ▸ h.2.1, h.2.2⟩

section
variable {w h : Nat} {m : Mesh D} {F : FMM D} {C : Nat → D} {iv t : Bool}

theorem st_upd (F : FMM D) {n : Nat} (hn : n < F.status.length) (x : FMMStatus) (hp : List Nat) (cpy sd vel : List D)
    (H : Heap D) (a b : Bool) :
    (FMM.mk a b hp (F.status.set n x) cpy sd vel H).st = Function.update F.st n x := getD_set_fun _ _ _ hn

theorem dv_upd (F : FMM D) {n : Nat} (hn : n < F.sd.length) (x : D) (hp : List Nat) (s : List FMMStatus) (cpy vel : List D)
    (H : Heap D) (a b : Bool) :
    (FMM.mk a b hp s cpy (F.sd.set n x) vel H).dv = Function.update F.dv n x := getD_set_fun _ _ _ hn

theorem hpt_upd (F : FMM D) {n : Nat} (hn : n < F.heapPtr.length) (x : Nat) (s : List FMMStatus) (cpy sd vel : List D)
    (H : Heap D) (a b : Bool) :
    (FMM.mk a b (F.heapPtr.set n x) s cpy sd vel H).hpt = Function.update F.hpt n x := getD_set_fun _ _ _ hn

theorem vl_upd (F : FMM D) {n : Nat} (hn : n < F.vel.length) (x : D) (hp : List Nat) (s : List FMMStatus) (cpy sd : List D)
    (H : Heap D) (a b : Bool) :
    (FMM.mk a b hp s cpy sd (F.vel.set n x) H).vl = Function.update F.vl n x := getD_set_fun _ _ _ hn

theorem Lens.sd_set (L : Lens m F) (n : Nat) (v : D) : Lens m { F with sd := F.sd.set n v } :=
  ⟨L.s, L.p, L.c, by simpa using L.d, L.v⟩

theorem Lens.st_set (L : Lens m F) (n : Nat) (v : FMMStatus) : Lens m { F with status := F.status.set n v } :=
  ⟨by simpa using L.s, L.p, L.c, L.d, L.v⟩

theorem count_pos (L : Lens m F) {n : Nat} (hn : n < m.nNodes) (hs : F.st n = .none) : 0 < F.status.count .none := by
  have hl : n < F.status.length := by rw [L.s]; exact hn
  rw [List.count_pos_iff]
  have : F.status[n] = .none := by
    have := hs
    unfold st at this
    rw [List.getD_eq_getElem?_getD, List.getElem?_eq_getElem hl] at this
    exact this
  rw [← this]; exact List.getElem_mem hl

theorem st_getElem (L : Lens m F) {n : Nat} (hn : n < m.nNodes) :
    F.status[n]'(by rw [L.s]; exact hn) = F.st n := by
  have hl : n < F.status.length := by rw [L.s]; exact hn
  unfold st
  rw [List.getD_eq_getElem?_getD, List.getElem?_eq_getElem hl]; rfl

/-- entering the trial band -/
theorem push_finv (I : FInv m C iv t F) {n : Nat} (hn : n < m.nNodes) (hs : F.st n = .none) :
    wp (F.heap.push n (FP.abs (F.dv n)))
      (fun r => FInv m C iv t { F with status := F.status.set n .trial, heap := r.2, heapPtr := F.heapPtr.set n r.1 })
      (ErrOk D t) := by
  have hns : n < F.status.length := by rw [I.L.s]; exact hn
  have hnp : n < F.heapPtr.length := by rw [I.L.p]; exact hn
  have hcp := count_pos I.L hn hs
  have hcap := I.cap
  refine wp_mono (Heap.push_both I.I I.ord (by omega) n _) ?_ (fun e he => heapErr_ok I.tst he)
  rintro ⟨k, H'⟩ ⟨rfl, I', P, O'⟩
  have hst := st_upd F hns .trial (F.heapPtr.set n F.heap.listLength) F.copy F.sd F.vel H' F.isTest F.isVelocity
  have hpt' := hpt_upd F hnp F.heap.listLength (F.status.set n .trial) F.copy F.sd F.vel H' F.isTest F.isVelocity
  refine ⟨⟨by simpa using I.L.s, by simpa using I.L.p, I.L.c, I.L.d, I.L.v⟩, I.iv, I.C, I'.congr fun k => ?_,
    fun i hi hsi => ?_, fun i hi hsi => ?_, O', ?_, ?_, ?_⟩
  · unfold live
    simp only [hst, hpt', Function.update_apply]
    constructor
    · rintro (⟨i, hi, h1, h2⟩ | rfl)
      · have : i ≠ n := fun h => by rw [h, hs] at h1; cases h1
        exact ⟨i, hi, by simp [this, h1], by simp [this, h2]⟩
      · exact ⟨n, hn, by simp, by simp⟩
    · rintro ⟨i, hi, h1, h2⟩
      by_cases hin : i = n
      · right; rw [if_pos hin] at h2; exact h2.symm
      · rw [if_neg hin] at h1 h2
        exact .inl ⟨i, hi, h1, h2⟩
  · simp only [hst, hpt', Function.update_apply] at hsi ⊢
    rw [P.ad]
    by_cases hin : i = n
    · simp [hin]
    · rw [if_neg hin] at hsi ⊢
      have := (I.I.live _ ⟨i, hi, hsi, rfl⟩).1
      rw [if_neg (by omega)]; exact I.had i hi hsi
  · simp only [hst, hpt', Function.update_apply] at hsi ⊢
    rw [P.ds]
    by_cases hin : i = n
    · simp [hin]; rfl
    · rw [if_neg hin] at hsi ⊢
      have := (I.I.live _ ⟨i, hi, hsi, rfl⟩).1
      rw [if_neg (by omega)]; exact I.hkey i hi hsi
  · show H'.listLength + (F.status.set n .trial).count .none ≤ H'.maxLength
    rw [P.ll, P.ml, List.count_set hns, st_getElem I.L hn, hs]
    simp
    omega
  · show H'.maxLength ≤ _
    rw [P.ml]; exact I.mx
  · exact P.t.trans I.tst

/-- changing the estimate of a node that is not in the heap -/
theorem est_finv (I : FInv m C iv t F) {n : Nat} (hs : F.st n ≠ .trial) (v : D) :
    FInv m C iv t { F with sd := F.sd.set n v } := by
  refine ⟨I.L.sd_set n v, I.iv, I.C, I.I, I.had, fun i hi hsi => ?_, I.ord, I.cap, I.mx, I.tst⟩
  have hsi : F.st i = .trial := hsi
  have hin : i ≠ n := fun h => hs (h ▸ hsi)
  rw [show (FMM.mk F.isTest F.isVelocity F.heapPtr F.status F.copy (F.sd.set n v) F.vel F.heap).dv i = F.dv i from ?_]
  · exact I.hkey i hi hsi
  · unfold dv; simp only; rw [getD_set, if_neg (by tauto)]

/-- changing the estimate of a trial node -/
theorem set_finv (I : FInv m C iv t F) {n : Nat} (hn : n < m.nNodes) (hs : F.st n = .trial) (v : D) :
    wp (F.heap.set (F.hpt n) (FP.abs v)) (fun H' => FInv m C iv t { F with sd := F.sd.set n v, heap := H' })
      (ErrOk D t) := by
  have hnd : n < F.sd.length := by rw [I.L.d]; exact hn
  have hk := (I.I.live _ ⟨n, hn, hs, rfl⟩).1
  refine wp_mono (Heap.set_both I.I I.ord hk _) ?_ (fun e he => heapErr_ok I.tst he)
  rintro H' ⟨I', P, O'⟩
  have hdv := dv_upd F hnd v F.heapPtr F.status F.copy F.vel H' F.isTest F.isVelocity
  have hcap := I.cap
  have hmx := I.mx
  refine ⟨⟨I.L.s, I.L.p, I.L.c, by simpa using I.L.d, I.L.v⟩, I.iv, I.C, I'.congr fun k => Iff.rfl, fun i hi hsi => ?_,
    fun i hi hsi => ?_, O', ?_, ?_, P.t.trans I.tst⟩
  · show H'.ad (F.hpt i) = i
    unfold Heap.ad; rw [P.a]; exact I.had i hi hsi
  · show H'.ds (F.hpt i) = _
    rw [P.ds, hdv, Function.update_apply]
    by_cases hin : i = n
    · subst hin; simp
    · rw [if_neg hin, if_neg fun he => hin ?_]
      · exact I.hkey i hi hsi
      · have h1 := I.had i hi hsi
        have h2 := I.had n hn hs
        rw [he] at h1; omega
  · show H'.listLength + F.status.count .none ≤ H'.maxLength
    rw [P.ll, P.ml]; exact hcap
  · show H'.maxLength ≤ _
    rw [P.ml]; exact hmx

/-- the heap's top belongs to a trial node with least key -/
theorem top_trial (I : FInv m C iv t F) (h0 : 0 < F.heap.heapLength) :
    ∃ n, n < m.nNodes ∧ F.st n = .trial ∧ F.hpt n = F.heap.hp 0 ∧ F.heap.ad (F.heap.hp 0) = n ∧
      F.heap.ds (F.heap.hp 0) = FP.abs (F.dv n) ∧
      (TotalCmp D → ∀ i, i < m.nNodes → F.st i = .trial → FP.lt (FP.abs (F.dv i)) (FP.abs (F.dv n)) = false) := by
  obtain ⟨n, hn, hs, hp⟩ := (I.I.entry 0 h0).1
  refine ⟨n, hn, hs, hp, hp ▸ I.had n hn hs, hp ▸ I.hkey n hn hs, fun hT i hi hsi => ?_⟩
  obtain ⟨l1, l2, l3⟩ := I.I.live _ ⟨i, hi, hsi, rfl⟩
  have := Heap.Ordered.min (I.ord hT) l2
  rw [l3, I.hkey i hi hsi, ← hp, I.hkey n hn hs] at this
  exact this

/-- freezing the top of the heap -/
theorem pop_finv (I : FInv m C iv t F) (h0 : 0 < F.heap.heapLength) :
    wp F.heap.pop
      (fun r => ∃ n, n < m.nNodes ∧ F.st n = .trial ∧ r.1 = n ∧ (r.2.1 = FP.abs (F.dv n) ∧ r.2.1 = F.heap.ds (F.heap.hp 0)) ∧
        (TotalCmp D → ∀ i, i < m.nNodes → F.st i = .trial → FP.lt (FP.abs (F.dv i)) (FP.abs (F.dv n)) = false) ∧
        FInv m C iv t { F with heap := r.2.2, status := F.status.set n .frozen } ∧
        r.2.2.heapLength + 1 = F.heap.heapLength ∧ r.2.2.listLength = F.heap.listLength ∧
        r.2.2.maxLength = F.heap.maxLength)
      (ErrOk D t) := by
  obtain ⟨n, hn, hs, hp, had, hds, hmin⟩ := top_trial I h0
  refine wp_mono (Heap.pop_both I.I I.ord h0) ?_ (fun e he => heapErr_ok I.tst he)
  rintro ⟨a, v, H'⟩ ⟨r1, r2, I', P, O'⟩
  have hns : n < F.status.length := by rw [I.L.s]; exact hn
  have hst := st_upd F hns .frozen F.heapPtr F.copy F.sd F.vel H' F.isTest F.isVelocity
  have hcap := I.cap
  have hmx := I.mx
  refine ⟨n, hn, hs, r1.trans had, ⟨r2.trans hds, r2⟩, hmin, ?_, ?_, P.ll, P.ml⟩
  · refine ⟨⟨by simpa using I.L.s, I.L.p, I.L.c, I.L.d, I.L.v⟩, I.iv, I.C, I'.congr fun k => ?_,
      fun i hi hsi => ?_, fun i hi hsi => ?_, O', ?_, ?_, P.t.trans I.tst⟩
    · unfold live
      simp only [hst, Function.update_apply]
      constructor
      · rintro ⟨⟨i, hi, h1, h2⟩, hne⟩
        have hin : i ≠ n := fun h => hne (by rw [← h2, h, hp])
        exact ⟨i, hi, by simp [hin, h1], h2⟩
      · rintro ⟨i, hi, h1, h2⟩
        by_cases hin : i = n
        · simp [hin] at h1
        · rw [if_neg hin] at h1
          have h2 : F.hpt i = k := h2
          refine ⟨⟨i, hi, h1, h2⟩, fun he => hin ?_⟩
          have e1 := I.had i hi h1
          rw [h2, he, had] at e1
          exact e1.symm
    · rw [hst, Function.update_apply] at hsi
      have hin : i ≠ n := fun h => by simp [h] at hsi
      rw [if_neg hin] at hsi
      show H'.ad (F.hpt i) = i
      unfold Heap.ad; rw [P.a]; exact I.had i hi hsi
    · rw [hst, Function.update_apply] at hsi
      have hin : i ≠ n := fun h => by simp [h] at hsi
      rw [if_neg hin] at hsi
      show H'.ds (F.hpt i) = _
      unfold Heap.ds; rw [P.d]; exact I.hkey i hi hsi
    · show H'.listLength + (F.status.set n .frozen).count .none ≤ H'.maxLength
      rw [P.ll, P.ml, List.count_set hns, st_getElem I.L hn, hs]
      simp
      omega
    · show H'.maxLength ≤ _
      rw [P.ml]; exact hmx
  · show H'.heapLength + 1 = _
    rw [P.hl]; omega

/-- the opposite direction -/
def opp (j : Nat) : Nat := if j % 2 = 0 then j + 1 else j - 1

theorem nb_value (G : IsGrid w h m) {x y : Nat} (hx : x ≤ w) (hy : y ≤ h) {j : Nat} :
    nb m (nodeNo w x y) j = (neighbourhood w h x y).getD j 0 := by
  obtain ⟨nd, hnd⟩ := G.node_exists hx hy
  have hn := G.neighbours _ _ _ hx hy hnd
  unfold nb
  simp only [hnd, hn]

theorem nodeNoOr_ne {x y : Int} (hne : nodeNoOr w h x y ≠ (w + 1) * (h + 1)) :
    ∃ a b : Nat, x = a ∧ y = b ∧ a ≤ w ∧ b ≤ h ∧ nodeNoOr w h x y = nodeNo w a b := by
  unfold nodeNoOr at hne ⊢
  split_ifs at hne ⊢ with hc
  · exact ⟨x.toNat, y.toNat, by omega, by omega, by omega, by omega, rfl⟩
  · exact absurd rfl hne

theorem nodeNoOr_nat {x y : Nat} (hx : x ≤ w) (hy : y ≤ h) : nodeNoOr w h x y = nodeNo w x y := by
  unfold nodeNoOr
  rw [if_pos (by omega)]
  simp

theorem nb_opp (G : IsGrid w h m) {i j : Nat} (hi : i < m.nNodes) (hj : j < 4) (hne : nb m i j ≠ m.nNodes) :
    nb m (nb m i j) (opp j) = i := by
  obtain ⟨x, y, hx, hy, rfl⟩ := G.node_index hi
  rw [nb_value G hx hy, G.nNodes] at hne
  rw [nb_value G hx hy]
  have : j = 0 ∨ j = 1 ∨ j = 2 ∨ j = 3 := by omega
  obtain rfl | rfl | rfl | rfl := this <;>
  · simp only [neighbourhood, List.getD_cons_zero, List.getD_cons_succ] at hne ⊢
    obtain ⟨a, b, ea, eb, ha, hb, e⟩ := nodeNoOr_ne hne
    rw [e, nb_value G ha hb]
    simp only [opp, neighbourhood]
    norm_num
    rw [← nodeNoOr_nat hx hy]
    congr 1 <;> omega

theorem opp_lt {j : Nat} (hj : j < 4) : opp j < 4 := by
  unfold opp; split_ifs <;> omega

/-! ### the functions of the main phase -/

/-- what every function of the main phase guarantees -/
structure Ph (m : Mesh D) (C : Nat → D) (iv t : Bool) (F F' : FMM D) : Prop where
  I : FInv m C iv t F'
  steps : Micros m C iv (adm m iv) F.abs F'.abs
  mx : F'.heap.maxLength = F.heap.maxLength

theorem Ph.refl (I : FInv m C iv t F) : Ph m C iv t F F := ⟨I, .refl, rfl⟩

theorem Ph.trans {F' F'' : FMM D} (a : Ph m C iv t F F') (b : Ph m C iv t F' F'') : Ph m C iv t F F'' :=
  ⟨b.I, a.steps.trans b.steps, b.mx.trans a.mx⟩

/-- phases that freeze nothing and pop nothing -/
structure Sp (m : Mesh D) (C : Nat → D) (iv t : Bool) (F F' : FMM D) : Prop extends Ph m C iv t F F' where
  frz : ∀ i, F'.st i = .frozen ↔ F.st i = .frozen
  non : ∀ i, F'.st i = .none → F.st i = .none
  ll : F.heap.listLength ≤ F'.heap.listLength
  hl : F'.heap.heapLength + F.heap.listLength = F.heap.heapLength + F'.heap.listLength

theorem Sp.refl (I : FInv m C iv t F) : Sp m C iv t F F := ⟨Ph.refl I, fun _ => Iff.rfl, fun _ h => h, Nat.le_refl _, rfl⟩

theorem Sp.trans {F' F'' : FMM D} (a : Sp m C iv t F F') (b : Sp m C iv t F' F'') : Sp m C iv t F F'' :=
  ⟨a.toPh.trans b.toPh, fun i => (b.frz i).trans (a.frz i), fun i h => a.non i (b.non i h), a.ll.trans b.ll, by
    have := a.hl; have := b.hl; omega⟩

/-- the heap length bookkeeping of a push -/
theorem push_lens (I : FInv m C iv t F) {n : Nat} (hn : n < m.nNodes) (hs : F.st n = .none) (a : Nat) (v : D) :
    wp (F.heap.push a v) (fun r => r.2.listLength = F.heap.listLength + 1 ∧ r.2.heapLength = F.heap.heapLength + 1 ∧
      r.2.maxLength = F.heap.maxLength) (ErrOk D t) := by
  have hcp := count_pos I.L hn hs
  have hcap := I.cap
  exact wp_mono (Heap.push_both I.I I.ord (by omega) a _) (fun r hr => ⟨hr.2.2.1.ll, hr.2.2.1.hl, hr.2.2.1.ml⟩)
    (fun e he => heapErr_ok I.tst he)

theorem set_lens (I : FInv m C iv t F) {n : Nat} (hn : n < m.nNodes) (hs : F.st n = .trial) (v : D) :
    wp (F.heap.set (F.hpt n) v) (fun H' => H'.listLength = F.heap.listLength ∧ H'.heapLength = F.heap.heapLength ∧
      H'.maxLength = F.heap.maxLength) (ErrOk D t) := by
  have hk := (I.I.live _ ⟨n, hn, hs, rfl⟩).1
  exact wp_mono (Heap.set_both I.I I.ord hk _) (fun r hr => ⟨hr.2.1.ll, hr.2.1.hl, hr.2.1.ml⟩)
    (fun e he => heapErr_ok I.tst he)

theorem wp_and' {α : Type} {r : Res α} {Q Q' : α → Prop} {E : Err → Prop} (h : wp r Q E) (h' : wp r Q' E) :
    wp r (fun a => Q a ∧ Q' a) E := wp_mono (wp_and h h') (fun _ h => h) fun _ h => h.1

theorem newTrial_sp (G : IsGrid w h m) (I : FInv m C iv t F) {n : Nat} (hn : n < m.nNodes) (hs : F.st n = .none)
    (ha : adm m iv n) (hfr : ∃ j, j < 4 ∧ nb m n j ≠ m.nNodes ∧ F.st (nb m n j) = .frozen) :
    wp (newTrial m n F) (fun F' => Sp m C iv t F F' ∧ F'.st n = .trial) (ErrOk D t) := by
  have hns : n < F.status.length := by rw [I.L.s]; exact hn
  have hnd : n < F.sd.length := by rw [I.L.d]; exact hn
  have hnp : n < F.heapPtr.length := by rw [I.L.p]; exact hn
  unfold newTrial
  rw [wr_eq _ hns]
  simp only [wp_bind, wp_ok]
  have L1 := I.L.st_set n .trial
  rw [updateNode_eq G L1 hn]
  simp only [wp_ok]
  rw [wr_eq _ hnd]
  simp only [wp_ok]
  generalize hd : updateV m (FMM.cp { F with status := F.status.set n .trial }) (FMM.abs { F with status := F.status.set n .trial }) n = d
  have L2 := L1.sd_set n d
  have hrd : rd (F.sd.set n d) n = .ok d := by rw [rd_eq (by simpa using hnd)]; simp
  rw [hrd]
  simp only [wp_ok]
  have I0 := est_finv I (n := n) (by rw [hs]; simp) d
  have h0 : (FMM.mk F.isTest F.isVelocity F.heapPtr F.status F.copy (F.sd.set n d) F.vel F.heap).dv n = d := by
    rw [dv_upd F hnd]; simp
  have hp1 := push_finv I0 hn hs
  have hp2 := push_lens I0 hn hs n (FP.abs d)
  rw [h0] at hp1
  refine wp_imp (wp_and' hp1 hp2) ?_
  rintro ⟨k, H'⟩ ⟨I', l1, l2, l3⟩
  rw [wr_eq _ hnp, wp_ok, wp_pure]
  have hst := st_upd F hns .trial (F.heapPtr.set n k) F.copy (F.sd.set n d) F.vel H' F.isTest F.isVelocity
  have hdv := dv_upd F hnd d (F.heapPtr.set n k) (F.status.set n .trial) F.copy F.vel H' F.isTest F.isVelocity
  have hst0 := st_upd F hns .trial F.heapPtr F.copy F.sd F.vel F.heap F.isTest F.isVelocity
  refine ⟨⟨⟨I', ?_, l3⟩, fun i => ?_, fun i hi => ?_, ?_, ?_⟩, ?_⟩
  · refine .single (e := .discover n) ?_
    have := Micro.discover (cp := C) (isVel := iv) F.abs n hn hs ha hfr
    convert this using 1
    unfold abs
    simp only [hst, hdv, AS.mk.injEq, true_and]
    refine ⟨?_, rfl⟩
    rw [← hd, ← I.C]
    congr 1
    refine updateV_congr (fun i => ?_) rfl
    show FMM.st _ i = _ ↔ F.st i = _
    rw [hst0, Function.update_apply]
    split_ifs with hc
    · rw [hc, hs]; simp
    · rfl
  · rw [hst, Function.update_apply]
    split_ifs with hc
    · rw [hc, hs]; simp
    · rfl
  · rw [hst, Function.update_apply] at hi
    split_ifs at hi with hc
    exact hi
  · show F.heap.listLength ≤ H'.listLength
    rw [l1]; exact Nat.le_succ _
  · show H'.heapLength + F.heap.listLength = F.heap.heapLength + H'.listLength
    rw [l1, l2]
    show F.heap.heapLength + 1 + _ = _ + (F.heap.listLength + 1)
    omega
  · rw [hst]; simp

theorem admissible_eq (G : IsGrid w h m) (hiv : F.isVelocity = iv) {n : Nat} (hn : n < m.nNodes) :
    ∃ b, admissible m F n = .ok b ∧ (b = true ↔ adm m iv n) := by
  unfold admissible adm
  rw [hiv]
  cases iv with
  | false => exact ⟨true, rfl, by simp⟩
  | true =>
    have hl : n < m.nodes.length := by rw [G.nodes_length, ← G.nNodes]; exact hn
    refine ⟨m.nodes[n].isActive, ?_, ?_⟩
    · simp [rd_eq hl, bind, Except.bind]; rfl
    · simp [List.getElem?_eq_getElem hl]

theorem trialNbr_sp (G : IsGrid w h m) (I : FInv m C iv t F) {i j : Nat} (hi : i < m.nNodes) (hj : j < 4) :
    wp (trialNbr m i j F) (fun F' => Sp m C iv t F F' ∧
      (F'.st i = .none → adm m iv i → nb m i j ≠ m.nNodes → F'.st (nb m i j) ≠ .frozen)) (ErrOk D t) := by
  unfold trialNbr
  rw [wp_bind, G.nbr_eq hi hj, wp_ok]
  by_cases h1 : nb m i j = m.nNodes
  · rw [if_neg (by simpa using h1)]
    exact ⟨Sp.refl I, fun _ _ h => absurd h1 h⟩
  · have hlt := G.nb_lt hi hj h1
    rw [if_pos h1, wp_bind, rd_st I.L hlt, wp_ok]
    by_cases h2 : F.st (nb m i j) = .frozen
    · rw [if_pos h2, wp_bind, rd_st I.L hi, wp_ok]
      by_cases h3 : F.st i = .none
      · obtain ⟨b, hb, hb'⟩ := admissible_eq G I.iv hi
        rw [if_pos h3, wp_bind, hb, wp_ok]
        by_cases hbt : b = true
        · rw [if_pos hbt]
          refine wp_imp (newTrial_sp G I hi h3 (hb'.1 hbt) ⟨j, hj, h1, h2⟩) fun F' hF' => ⟨hF'.1, fun h => ?_⟩
          rw [hF'.2] at h; cases h
        · rw [if_neg hbt]
          exact ⟨Sp.refl I, fun _ ha => absurd (hb'.2 ha) hbt⟩
      · rw [if_neg h3]
        exact ⟨Sp.refl I, fun h => absurd h h3⟩
    · rw [if_neg h2]
      exact ⟨Sp.refl I, fun _ _ _ => h2⟩

/-- no unvisited admissible node has a frozen neighbour, except in `B` -/
def Closed (m : Mesh D) (iv : Bool) (B : Nat → Prop) (s : Nat → FMMStatus) : Prop :=
  ∀ i, i < m.nNodes → s i = .none → adm m iv i → ∀ j, j < 4 → nb m i j ≠ m.nNodes → s (nb m i j) = .frozen → B (nb m i j)

theorem initialiseTrial_sp (G : IsGrid w h m) (I : FInv m C iv t F) :
    wp (initialiseTrial m F) (fun F' => Sp m C iv t F F' ∧ Closed m iv (fun _ => False) F'.st) (ErrOk D t) := by
  have key : wp (initialiseTrial m F) (fun F' => Sp m C iv t F F' ∧ ∀ i, i < m.nNodes → F'.st i = .none → adm m iv i →
      ∀ j, j < 4 → nb m i j ≠ m.nNodes → F'.st (nb m i j) ≠ .frozen) (ErrOk D t) := by
    refine wp_forN (fun k F' => Sp m C iv t F F' ∧ ∀ i, i < k → F'.st i = .none → adm m iv i →
      ∀ j, j < 4 → nb m i j ≠ m.nNodes → F'.st (nb m i j) ≠ .frozen) ⟨Sp.refl I, fun i hi => by omega⟩ ?_
    rintro i hi F1 ⟨S1, h1⟩
    rw [wp_bind, rd_st S1.I.L hi, wp_ok]
    by_cases hs : F1.st i = .none
    · rw [if_pos hs]
      have : wp (forN 4 F1 (trialNbr m i)) (fun F' => Sp m C iv t F1 F' ∧ ∀ j, j < 4 → F'.st i = .none → adm m iv i →
          nb m i j ≠ m.nNodes → F'.st (nb m i j) ≠ .frozen) (ErrOk D t) := by
        refine wp_forN (fun k F' => Sp m C iv t F1 F' ∧ ∀ j, j < k → F'.st i = .none → adm m iv i →
          nb m i j ≠ m.nNodes → F'.st (nb m i j) ≠ .frozen) ⟨Sp.refl S1.I, fun j hj => by omega⟩ ?_
        rintro j hj F2 ⟨S2, h2⟩
        refine wp_imp (trialNbr_sp G S2.I hi hj) ?_
        rintro F3 ⟨S3, h3⟩
        refine ⟨S2.trans S3, fun j' hj' hn ha hne => ?_⟩
        by_cases hjj : j' = j
        · subst hjj; exact h3 hn ha hne
        · rw [Ne, S3.frz]
          exact h2 j' (by omega) (S3.non _ hn) ha hne
      refine wp_imp this ?_
      rintro F2 ⟨S2, h2⟩
      refine ⟨S1.trans S2, fun i' hi' hn ha j hj hne => ?_⟩
      by_cases hii : i' = i
      · subst hii; exact h2 j hj hn ha hne
      · rw [Ne, S2.frz]
        exact h1 i' (by omega) (S2.non _ hn) ha j hj hne
    · rw [if_neg hs]
      refine ⟨S1, fun i' hi' hn ha j hj hne => ?_⟩
      by_cases hii : i' = i
      · subst hii; exact absurd hn hs
      · exact h1 i' (by omega) hn ha j hj hne
  refine wp_imp key ?_
  rintro F' ⟨S, hc⟩
  exact ⟨S, fun i hi hs ha j hj hne hf => hc i hi hs ha j hj hne hf⟩

theorem abs_sd (F : FMM D) {n : Nat} (hn : n < F.sd.length) (v : D) (H : Heap D) :
    (FMM.abs { F with sd := F.sd.set n v, heap := H }) = { F.abs with sd := Function.update F.abs.sd n v } := by
  have hdv := dv_upd F hn v F.heapPtr F.status F.copy F.vel H F.isTest F.isVelocity
  unfold abs
  simp only [hdv, AS.mk.injEq, true_and]
  exact ⟨rfl, rfl⟩

theorem refresh_sp (G : IsGrid w h m) (I : FInv m C iv t F) {n : Nat} (hn : n < m.nNodes) (hs : F.st n = .trial) :
    wp (refresh m n F) (fun F' => Sp m C iv t F F' ∧ F'.st = F.st) (ErrOk D t) := by
  have hnd : n < F.sd.length := by rw [I.L.d]; exact hn
  unfold refresh
  rw [wp_bind, updateNode_eq G I.L hn, wp_ok, wp_bind, wr_eq _ hnd, wp_ok, wp_bind, rd_hpt I.L hn, wp_ok, wp_bind]
  refine wp_imp (wp_and' (set_finv I hn hs _) (set_lens I hn hs _)) ?_
  rintro H' ⟨I', l1, l2, l3⟩
  rw [wp_pure]
  refine ⟨⟨⟨I', .single (e := .estimate n) ?_, l3⟩, fun _ => Iff.rfl, fun _ h => h, l1.ge, ?_⟩, rfl⟩
  · rw [abs_sd F hnd, I.C]
    exact .estimate F.abs n hn (by show F.st n ≠ _; rw [hs]; simp)
  · show H'.heapLength + _ = _ + H'.listLength
    rw [l1, l2]

/-- estimating a neighbour of a final node and putting it in the queue -/
theorem visit_sp (G : IsGrid w h m) (I : FInv m C iv t F) {n : Nat} (hlt : n < m.nNodes) (h2 : F.st n ≠ .frozen)
    (hfr : ∃ j, j < 4 ∧ nb m n j ≠ m.nNodes ∧ F.st (nb m n j) = .frozen) :
    wp (visit m n (F.st n) (updateV m F.cp F.abs n) { F with sd := F.sd.set n (updateV m F.cp F.abs n) })
      (fun F' => Sp m C iv t F F' ∧ (adm m iv n → F'.st n ≠ .none)) (ErrOk D t) := by
  have hnd : n < F.sd.length := by rw [I.L.d]; exact hlt
  unfold visit
  have hst1 : Micro m C iv (adm m iv) F.abs (.estimate n)
      { F.abs with sd := Function.update F.abs.sd n (updateV m F.cp F.abs n) } := by
    rw [I.C]; exact .estimate F.abs n hlt h2
  generalize hd : updateV m F.cp F.abs n = d at *
  by_cases h3 : F.st n = .trial
  · rw [if_pos h3, wp_bind, rd_hpt I.L hlt, wp_ok, wp_bind]
    refine wp_imp (wp_and' (set_finv I hlt h3 _) (set_lens I hlt h3 _)) ?_
    rintro H' ⟨I', l1, l2, l3⟩
    rw [wp_pure]
    refine ⟨⟨⟨I', .single (e := .estimate n) ?_, l3⟩, fun _ => Iff.rfl, fun _ h => h, l1.ge, ?_⟩, fun _ => ?_⟩
    · rw [abs_sd F hnd]; exact hst1
    · show H'.heapLength + _ = _ + H'.listLength
      rw [l1, l2]
    · show F.st n ≠ .none
      rw [h3]; simp
  · rw [if_neg h3]
    have I1 := est_finv I (n := n) h3 d
    have S1 : Sp m C iv t F { F with sd := F.sd.set n d } := by
      refine ⟨⟨I1, .single (e := .estimate n) ?_, rfl⟩, fun _ => Iff.rfl, fun _ h => h, Nat.le_refl _, rfl⟩
      have := abs_sd F hnd d F.heap
      show Micro m C iv (adm m iv) F.abs (.estimate n) (FMM.abs { F with sd := F.sd.set n d, heap := F.heap })
      rw [this]; exact hst1
    by_cases h4 : F.st n = .none
    · obtain ⟨b, hb, hb'⟩ := admissible_eq (F := { F with sd := F.sd.set n d }) G I.iv hlt
      rw [if_pos h4, wp_bind, hb, wp_ok]
      by_cases hbt : b = true
      · rw [if_pos hbt]
        have hns : n < F.status.length := by rw [I.L.s]; exact hlt
        have hnp : n < F.heapPtr.length := by rw [I.L.p]; exact hlt
        unfold makeTrial
        rw [wp_bind, wr_eq _ hns, wp_ok, wp_bind]
        have h0 : (FMM.mk F.isTest F.isVelocity F.heapPtr F.status F.copy (F.sd.set n d) F.vel F.heap).dv n = d := by
          rw [dv_upd F hnd]; simp
        have hp1 := push_finv I1 hlt h4
        have hp2 := push_lens I1 hlt h4 n (FP.abs d)
        rw [h0] at hp1
        refine wp_imp (wp_and' hp1 hp2) ?_
        rintro ⟨k, H'⟩ ⟨I', l1, l2, l3⟩
        rw [wp_bind, wr_eq _ hnp, wp_ok, wp_pure]
        have hst := st_upd F hns .trial (F.heapPtr.set n k) F.copy (F.sd.set n d) F.vel H' F.isTest F.isVelocity
        have hdv := dv_upd F hnd d (F.heapPtr.set n k) (F.status.set n .trial) F.copy F.vel H' F.isTest F.isVelocity
        refine ⟨⟨⟨I', ?_, l3⟩, fun i => ?_, fun i hi => ?_, ?_, ?_⟩, ?_⟩
        · refine .single (e := .discover n) ?_
          have := Micro.discover (cp := C) (isVel := iv) F.abs n hlt h4 (hb'.1 hbt)
            hfr
          convert this using 1
          unfold abs
          simp only [hst, hdv, AS.mk.injEq, true_and]
          refine ⟨?_, rfl⟩
          rw [← hd, I.C]; rfl
        · rw [hst, Function.update_apply]
          split_ifs with hc
          · rw [hc, h4]; simp
          · rfl
        · rw [hst, Function.update_apply] at hi
          split_ifs at hi with hc
          exact hi
        · show F.heap.listLength ≤ H'.listLength
          rw [l1]; exact Nat.le_succ _
        · show H'.heapLength + F.heap.listLength = F.heap.heapLength + H'.listLength
          rw [l1, l2]
          show F.heap.heapLength + 1 + _ = _ + (F.heap.listLength + 1)
          omega
        · intro _; rw [hst]; simp
      · rw [if_neg hbt]
        exact ⟨S1, fun ha => absurd (hb'.2 ha) hbt⟩
    · rw [if_neg h4]
      exact ⟨S1, fun _ => h4⟩

theorem spreadNbr_sp (G : IsGrid w h m) (I : FInv m C iv t F) {i j : Nat} (hi : i < m.nNodes) (hj : j < 4)
    (hif : F.st i = .frozen) :
    wp (spreadNbr m i j F) (fun F' => Sp m C iv t F F' ∧
      (nb m i j ≠ m.nNodes → adm m iv (nb m i j) → F'.st (nb m i j) ≠ .none)) (ErrOk D t) := by
  unfold spreadNbr
  rw [wp_bind, G.nbr_eq hi hj, wp_ok]
  by_cases h1 : nb m i j = m.nNodes
  · rw [if_neg (by simpa using h1)]
    exact ⟨Sp.refl I, fun h => absurd h1 h⟩
  have hlt := G.nb_lt hi hj h1
  rw [if_pos h1, wp_bind, rd_st I.L hlt, wp_ok]
  have hback := nb_opp G hi hj h1
  generalize hnn : nb m i j = n at *
  by_cases h2 : F.st n = .frozen
  · rw [if_neg (by simpa using h2)]
    exact ⟨Sp.refl I, fun _ _ => by rw [h2]; simp⟩
  have hnd : n < F.sd.length := by rw [I.L.d]; exact hlt
  rw [if_pos h2, wp_bind, updateNode_eq G I.L hlt, wp_ok, wp_bind, wr_eq _ hnd, wp_ok]
  simp only
  rw [wp_bind]
  refine wp_imp (visit_sp G I hlt h2 ⟨opp j, opp_lt hj, by rw [hback]; omega, by rw [hback]; exact hif⟩) ?_
  rintro F1 ⟨S1, hpost⟩
  rw [wp_bind, G.nbr_eq hlt hj, wp_ok]
  by_cases h5 : nb m n j = m.nNodes
  · rw [if_neg (by simpa using h5)]
    exact ⟨S1, fun _ => hpost⟩
  have hlt2 := G.nb_lt hlt hj h5
  rw [if_pos h5, wp_bind, rd_st S1.I.L hlt2, wp_ok]
  by_cases h6 : F1.st (nb m n j) = .trial
  · rw [if_pos h6]
    refine wp_imp (refresh_sp G S1.I hlt2 h6) ?_
    rintro F2 ⟨S2, he⟩
    exact ⟨S1.trans S2, fun _ => by rw [he]; exact hpost⟩
  · rw [if_neg h6]
    exact ⟨S1, fun _ => hpost⟩

/-- invariant during the popping phase: `c` counts the nodes frozen in this round, all of absolute value `v` -/
structure PopInv (m : Mesh D) (C : Nat → D) (iv t : Bool) (F0 : FMM D) (v : D) (s : FMM D × List Nat × Nat) : Prop
    extends Ph m C iv t F0 s.1 where
  len : s.2.1.length = m.nNodes
  cnt : s.2.2 + s.1.heap.heapLength ≤ m.nNodes
  dom : ∀ k, k < s.2.2 → s.2.1.getD k 0 < m.nNodes
  bat : ∀ k, k < s.2.2 → s.1.st (s.2.1.getD k 0) = .frozen
  ll : s.1.heap.listLength = F0.heap.listLength
  frz : ∀ i, i < m.nNodes → s.1.st i = .frozen → F0.st i = .frozen ∨ ∃ k, k < s.2.2 ∧ s.2.1.getD k 0 = i
  non : ∀ i, s.1.st i = .none ↔ F0.st i = .none
  keep : ∀ i, F0.st i = .frozen → s.1.st i = .frozen
  tie : TotalCmp D → ∀ k, k < s.2.2 → FP.eq v (FP.abs (s.1.dv (s.2.1.getD k 0))) = true

theorem eq_trans_of [TotalCmp D] {a b c : D} (h1 : FP.eq a b = true) (h2 : FP.eq a c = true) : FP.eq b c = true := by
  rw [TotalCmp.eq_iff] at h1 h2 ⊢
  exact ⟨TotalCmp.negTrans _ _ _ h1.2 h2.1, TotalCmp.negTrans _ _ _ h2.2 h1.1⟩

theorem popFreeze_pi (G : IsGrid w h m) {F0 : FMM D} {s : FMM D × List Nat × Nat} {vb : D} (P : PopInv m C iv t F0 vb s)
    (hcl : Closed m iv (fun _ => False) F0.st) (h0 : 0 < s.1.heap.heapLength) (hvb : TotalCmp D → FP.eq vb (s.1.heap.ds (s.1.heap.hp 0)) = true) :
    wp (popFreeze m s) (fun r => PopInv m C iv t F0 vb r.2 ∧ r.1 = s.1.heap.ds (s.1.heap.hp 0) ∧ r.2.1.heap.heapLength + 1 = s.1.heap.heapLength ∧
      r.2.2.2 = s.2.2 + 1) (ErrAt m C iv t F0.abs) := by
  obtain ⟨F, tf, c⟩ := s
  have hc1 := P.cnt
  simp only at h0 hc1
  unfold popFreeze
  simp only
  rw [wp_bind]
  refine wp_mono (pop_finv P.I h0) ?_ fun _ he => he.at
  rintro ⟨a, v, H'⟩ ⟨n, hn, hs, hna, ⟨hva, hvt⟩, hmin, I', hhl, hll, hml⟩
  obtain rfl : a = n := hna
  have hva : v = FP.abs (F.dv a) := hva
  have hvt : v = F.heap.ds (F.heap.hp 0) := hvt
  have hvb : TotalCmp D → FP.eq vb (FP.abs (F.dv a)) = true := fun hT => by rw [← hva, hvt]; exact hvb hT
  have L : Lens m F := P.I.L
  have hhl : H'.heapLength + 1 = F.heap.heapLength := hhl
  have hns : a < F.status.length := by rw [L.s]; exact hn
  have hctf : c < tf.length := by rw [P.len]; omega
  simp only
  rw [wp_bind, wr_eq _ hns, wp_ok]
  rw [wp_bind]
  have hband : TotalCmp D → ∀ i j, i < m.nNodes → j < 4 → F.abs.st i = .none → adm m iv i → nb m i j ≠ m.nNodes → F.abs.st (nb m i j) = .frozen →
      FP.eq (FP.abs (F.abs.sd (nb m i j))) (FP.abs (F.abs.sd a)) = true := by
    intro hT i j hi hj hsi hadm hne hf
    rcases P.frz _ (G.nb_lt hi hj hne) hf with h | ⟨k, hk, he⟩
    · exact (hcl i hi ((P.non i).1 hsi) hadm j hj hne h).elim
    · have := P.tie hT k hk
      rw [he] at this
      exact eq_trans_of this (hvb hT)
  -- common conclusion
  have fin : ∀ F' : FMM D, FInv m C iv t F' → F'.st = Function.update F.st a .frozen → F'.sd = F.sd → F'.heap = H' →
      Micro m C iv (adm m iv) F.abs (.freeze a) F'.abs →
      PopInv m C iv t F0 vb (F', tf.set c a, c + 1) := by
    intro F' hI hst hsd hheap hmic
    have hgd : ∀ k, (tf.set c a).getD k 0 = if k = c then a else tf.getD k 0 := by
      intro k
      rw [getD_set]
      by_cases hk : k = c
      · subst hk; rw [if_pos ⟨rfl, hctf⟩, if_pos rfl]
      · rw [if_neg (by tauto), if_neg hk]
    refine ⟨⟨hI, P.steps.tail hmic, ?_⟩, by simpa using P.len, ?_, fun k hk => ?_, fun k hk => ?_, ?_, fun i hi hf => ?_, fun i => ?_,
      fun i hf => ?_, fun hT k hk => ?_⟩
    rotate_right
    · show FP.eq vb (FP.abs (F'.sd.getD ((tf.set c a).getD k 0) (FP.nat 0))) = true
      rw [hgd, hsd]
      split_ifs with hk'
      · exact hvb hT
      · have hk : k < c + 1 := hk
        exact P.tie hT k (show k < c by omega)
    · show F'.heap.maxLength = _
      rw [hheap]; exact hml.trans P.mx
    · show c + 1 + F'.heap.heapLength ≤ _
      rw [hheap]; omega
    · show (tf.set c a).getD k 0 < _
      rw [hgd]
      split_ifs with hk'
      · exact hn
      · have hk : k < c + 1 := hk
        exact P.dom k (show k < c by omega)
    · show F'.st ((tf.set c a).getD k 0) = _
      rw [hgd, hst, Function.update_apply]
      split_ifs with hk' hk'' hk''
      · rfl
      · exact absurd rfl hk''
      · rfl
      · have hk : k < c + 1 := hk
        exact P.bat k (show k < c by omega)
    · show F'.heap.listLength = _
      rw [hheap]; exact hll.trans P.ll
    · have hf : F'.st i = .frozen := hf
      show _ ∨ ∃ k, k < c + 1 ∧ (tf.set c a).getD k 0 = i
      rw [hst, Function.update_apply] at hf
      split_ifs at hf with hia
      · exact .inr ⟨c, Nat.lt_succ_self c, by rw [hgd, if_pos rfl, hia]⟩
      · rcases P.frz i hi hf with h | ⟨k, hk, he⟩
        · exact .inl h
        · have hk : k < c := hk
          exact .inr ⟨k, by omega, by rw [hgd, if_neg (by omega)]; exact he⟩
    · show F'.st i = .none ↔ _
      rw [hst, Function.update_apply]
      split_ifs with hia
      · rw [hia, ← P.non a]
        show _ ↔ F.st a = .none
        rw [hs]; simp
      · exact P.non i
    · show F'.st i = .frozen
      rw [hst, Function.update_apply]
      split_ifs with hia
      · rfl
      · exact P.keep i hf
  have hst := st_upd F hns .frozen F.heapPtr F.copy F.sd F.vel H' F.isTest F.isVelocity
  unfold finalise
  by_cases hv : F.isVelocity = true
  · have hiv : iv = true := by rw [← P.I.iv]; exact hv
    rw [if_pos hv, finaliseVelocity_eq G I'.L hv hn]
    have habs : FMM.abs { F with heap := H', status := F.status.set a .frozen } =
        { F.abs with st := Function.update F.abs.st a .frozen } := by
      unfold abs; simp only [hst, AS.mk.injEq, true_and]; exact ⟨rfl, rfl⟩
    rw [habs]
    by_cases hden : FP.eq (velDen m { F.abs with st := Function.update F.abs.st a .frozen } a) (FP.nat 0) = true
    · rw [if_pos hden]
      exact ⟨rfl, .inl ⟨hiv, F.abs, a, P.steps, hn, hs, hmin, hband, hden⟩⟩
    · rw [if_neg hden, wp_ok, wp_bind, wr_eq _ hctf, wp_ok, wp_pure]
      have hnv : a < F.vel.length := by rw [L.v hv]; exact hn
      refine ⟨fin _ ?_ ?_ rfl rfl ?_, hvt, hhl, rfl⟩
      · refine ⟨⟨I'.L.s, I'.L.p, I'.L.c, I'.L.d, fun h => by simpa using I'.L.v h⟩, I'.iv, I'.C, I'.I, I'.had, I'.hkey,
          I'.ord, I'.cap, I'.mx, I'.tst⟩
      · exact st_upd F hns .frozen F.heapPtr F.copy F.sd _ H' F.isTest F.isVelocity
      · have := Micro.freeze (cp := C) (isVel := iv) (adm := adm m iv) F.abs a hn hs hmin
          (fun _ => by simpa using hden) hband
        convert this using 1
        rw [if_pos hiv]
        have e1 := st_upd F hns .frozen F.heapPtr F.copy F.sd
          (F.vel.set a (velV m { F.abs with st := Function.update F.abs.st a .frozen } a)) H' F.isTest F.isVelocity
        have e2 := vl_upd F hnv (velV m { F.abs with st := Function.update F.abs.st a .frozen } a) F.heapPtr
          (F.status.set a .frozen) F.copy F.sd H' F.isTest F.isVelocity
        unfold abs at e1 e2 ⊢
        simp only [e1, e2, AS.mk.injEq, true_and]
        exact ⟨rfl, trivial⟩
  · have hiv : iv = false := by rw [← P.I.iv]; simpa using hv
    rw [if_neg hv, wp_pure, wp_bind, wr_eq _ hctf, wp_ok, wp_pure]
    refine ⟨fin _ I' hst rfl rfl ?_, hvt, hhl, rfl⟩
    have := Micro.freeze (cp := C) (isVel := iv) (adm := adm m iv) F.abs a hn hs hmin (fun h => by rw [hiv] at h; cases h) hband
    convert this using 1
    rw [if_neg (by rw [hiv]; simp)]
    unfold abs; simp only [hst, AS.mk.injEq, true_and]; exact ⟨rfl, rfl⟩

theorem peek_spec (I : FInv m C iv t F) (v : D) :
    ∃ q, peekEqual v F = .ok q ∧ (q = true → 0 < F.heap.heapLength ∧ FP.eq v (F.heap.ds (F.heap.hp 0)) = true) := by
  unfold peekEqual
  by_cases he : F.heap.heapLength = 0
  · exact ⟨false, by simp [Heap.empty, he]; rfl, by simp⟩
  · have h0 : 0 < F.heap.heapLength := by omega
    have hI := I.I
    obtain ⟨e1, e2, -⟩ := hI.live _ (hI.entry 0 h0).1
    have hsh := hI.sh
    have l1 := hsh.le1
    have l2 := hsh.le2
    have hrd : F.heap.peek = .ok (F.heap.ds (F.heap.hp 0)) := by
      have e1 : F.heap.hp 0 < F.heap.listLength := e1
      have l1 : F.heap.heapLength ≤ F.heap.listLength := l1
      have l2 : F.heap.listLength ≤ F.heap.maxLength := l2
      unfold Heap.peek
      simp only [bind, Except.bind]
      rw [show (F.heap.heapLength != 0) = true from by simpa using he, check_true]
      simp only
      rw [Heap.rd_hp (show 0 < F.heap.heap.length by rw [hsh.hl]; show 0 < F.heap.maxLength; omega)]
      simp only
      rw [Heap.rd_ds (show _ < F.heap.distance.length by rw [hsh.dl]; show _ < F.heap.maxLength; omega)]
    refine ⟨FP.eq v (F.heap.ds (F.heap.hp 0)), ?_, fun hq => ⟨h0, hq⟩⟩
    have hne : (!F.heap.empty) = true := by simp [Heap.empty, he]
    rw [if_pos hne, hrd]; rfl

theorem popEqual_pi (G : IsGrid w h m) {F0 : FMM D} {s : FMM D × List Nat × Nat} {v : D} (P : PopInv m C iv t F0 v s)
    (hcl : Closed m iv (fun _ => False) F0.st) :
    wp (popEqual m v s) (fun r => PopInv m C iv t F0 v r ∧ r.1.heap.heapLength ≤ s.1.heap.heapLength) (ErrAt m C iv t F0.abs) := by
  unfold popEqual
  rw [wp_bind]
  refine wp_imp (wp_whileN (fun r => PopInv m C iv t F0 v r.1 ∧ r.1.1.heap.heapLength ≤ s.1.heap.heapLength)
    (fun r => r.1.1.heap.heapLength + if r.2 then 0 else 1) ⟨P, Nat.le_refl _⟩ (by simp [Heap.size]) ?_) ?_
  · rintro ⟨⟨F, tf, c⟩, b⟩ ⟨P1, hle⟩ hb
    have hb : b = false := by simpa using hb
    subst hb
    refine ⟨by simp, ?_⟩
    have hle : F.heap.heapLength ≤ s.1.heap.heapLength := hle
    rw [wp_bind]
    obtain ⟨q, hq, hq'⟩ := peek_spec P1.I v
    rw [show peekEqual v ((F, tf, c), false).1.1 = .ok q from hq, wp_ok]
    by_cases hqt : q = true
    · rw [if_pos hqt, wp_bind]
      refine wp_imp (popFreeze_pi G P1 hcl (hq' hqt).1 fun _ => (hq' hqt).2) ?_
      rintro ⟨v', s'⟩ ⟨P2, -, h1, -⟩
      have h1 : s'.1.heap.heapLength + 1 = F.heap.heapLength := h1
      rw [wp_pure]
      refine ⟨⟨P2, show s'.1.heap.heapLength ≤ _ by omega⟩, ?_⟩
      show s'.1.heap.heapLength + (if false = true then 0 else 1) < F.heap.heapLength + (if false = true then 0 else 1)
      simp; omega
    · rw [if_neg hqt, wp_pure]
      refine ⟨⟨P1, hle⟩, ?_⟩
      simp
  · rintro ⟨r, b⟩ ⟨⟨P1, hle⟩, -⟩
    exact ⟨P1, hle⟩

/-- the loop over the nodes frozen in this round -/
theorem spread_sp (G : IsGrid w h m) (I : FInv m C iv t F) {tf : List Nat} {c : Nat} (hlen : c ≤ tf.length)
    (hdom : ∀ k, k < c → tf.getD k 0 < m.nNodes) (hbat : ∀ k, k < c → F.st (tf.getD k 0) = .frozen) (hcl : Closed m iv (fun i => ∃ k, k < c ∧ tf.getD k 0 = i) F.st) :
    wp (forN c F fun i F => do
        let addr ← rd tf i
        forN 4 F (spreadNbr m addr)) (fun F' => Sp m C iv t F F' ∧ Closed m iv (fun _ => False) F'.st) (ErrOk D t) := by
  have key : wp (forN c F fun i F => do
        let addr ← rd tf i
        forN 4 F (spreadNbr m addr)) (fun F' => Sp m C iv t F F' ∧
          ∀ k, k < c → ∀ j, j < 4 → nb m (tf.getD k 0) j ≠ m.nNodes → adm m iv (nb m (tf.getD k 0) j) →
            F'.st (nb m (tf.getD k 0) j) ≠ .none) (ErrOk D t) := by
    refine wp_forN (fun c' F' => Sp m C iv t F F' ∧
          ∀ k, k < c' → ∀ j, j < 4 → nb m (tf.getD k 0) j ≠ m.nNodes → adm m iv (nb m (tf.getD k 0) j) →
            F'.st (nb m (tf.getD k 0) j) ≠ .none) ⟨Sp.refl I, fun k hk => by omega⟩ ?_
    rintro k hk F1 ⟨S1, h1⟩
    rw [wp_bind, rd_getD 0 (show k < tf.length by omega), wp_ok]
    have ha := hdom k hk
    have hin : wp (forN 4 F1 (spreadNbr m (tf.getD k 0))) (fun F' => Sp m C iv t F1 F' ∧ ∀ j, j < 4 →
        nb m (tf.getD k 0) j ≠ m.nNodes → adm m iv (nb m (tf.getD k 0) j) → F'.st (nb m (tf.getD k 0) j) ≠ .none)
        (ErrOk D t) := by
      refine wp_forN (fun j' F' => Sp m C iv t F1 F' ∧ ∀ j, j < j' →
        nb m (tf.getD k 0) j ≠ m.nNodes → adm m iv (nb m (tf.getD k 0) j) → F'.st (nb m (tf.getD k 0) j) ≠ .none)
        ⟨Sp.refl S1.I, fun j hj => by omega⟩ ?_
      rintro j hj F2 ⟨S2, h2⟩
      refine wp_imp (spreadNbr_sp G S2.I ha hj ((S2.frz _).2 ((S1.frz _).2 (hbat k hk)))) ?_
      rintro F3 ⟨S3, h3⟩
      refine ⟨S2.trans S3, fun j' hj' hne had hn => ?_⟩
      by_cases hjj : j' = j
      · subst hjj; exact h3 hne had hn
      · exact h2 j' (by omega) hne had (S3.non _ hn)
    refine wp_imp hin ?_
    rintro F2 ⟨S2, h2⟩
    refine ⟨S1.trans S2, fun k' hk' j hj hne had hn => ?_⟩
    by_cases hkk : k' = k
    · subst hkk; exact h2 j hj hne had hn
    · exact h1 k' (by omega) j hj hne had (S2.non _ hn)
  refine wp_imp key ?_
  rintro F' ⟨S, hp⟩
  refine ⟨S, fun i hi hs ha j hj hne hf => ?_⟩
  obtain ⟨k, hk, he⟩ := hcl i hi (S.non _ hs) ha j hj hne ((S.frz _).1 hf)
  have hb := nb_opp G hi hj hne
  rw [← he] at hb
  refine hp k hk (opp j) (opp_lt hj) ?_ ?_ ?_ <;> rw [hb]
  · omega
  · exact ha
  · exact hs

/-- invariant of the main loop -/
structure LoopInv (m : Mesh D) (C : Nat → D) (iv t : Bool) (F0 : FMM D) (s : FMM D × List Nat) : Prop
    extends Ph m C iv t F0 s.1 where
  len : s.2.length = m.nNodes
  closed : Closed m iv (fun _ => False) s.1.st

theorem solveStep_li (G : IsGrid w h m) {F0 : FMM D} {s : FMM D × List Nat} (P : LoopInv m C iv t F0 s)
    (h0 : 0 < s.1.heap.heapLength) :
    wp (solveStep m s) (fun r => LoopInv m C iv t F0 r ∧
      r.1.heap.maxLength + r.1.heap.heapLength + s.1.heap.listLength + 1 ≤
        s.1.heap.maxLength + s.1.heap.heapLength + r.1.heap.listLength) (ErrAt m C iv t F0.abs) := by
  obtain ⟨F, tf⟩ := s
  have hI : FInv m C iv t F := P.I
  have hmx := hI.mx
  have hs1 := hI.I.sh.le1
  have hs2 := hI.I.sh.le2
  have hp0 : PopInv m C iv t F (F.heap.ds (F.heap.hp 0)) (F, tf, 0) :=
    ⟨Ph.refl hI, P.len, show 0 + F.heap.heapLength ≤ _ by omega, fun k hk => by simp at hk, fun k hk => by simp at hk, rfl, fun i hi hf => .inl hf,
      fun i => Iff.rfl, fun i hf => hf, fun _ k hk => by simp at hk⟩
  unfold solveStep
  rw [wp_bind]
  refine wp_mono (popFreeze_pi G hp0 P.closed h0 fun hT => (TotalCmp.eq_iff _ _).2 ⟨TotalCmp.irrefl _, TotalCmp.irrefl _⟩) ?_ fun _ he => he.trans P.steps
  rintro ⟨v, s1⟩ ⟨P1, hv, hh1, -⟩
  have hv : v = F.heap.ds (F.heap.hp 0) := hv
  subst hv
  have hh1 : s1.1.heap.heapLength + 1 = F.heap.heapLength := hh1
  simp only
  rw [wp_bind]
  refine wp_mono (popEqual_pi G P1 P.closed) ?_ fun _ he => he.trans P.steps
  rintro ⟨F2, tf2, c⟩ ⟨P2, hh2⟩
  have hh2 : F2.heap.heapLength ≤ s1.1.heap.heapLength := hh2
  simp only
  rw [wp_bind]
  have hc2 : c + F2.heap.heapLength ≤ m.nNodes := P2.cnt
  have hlen2 : tf2.length = m.nNodes := P2.len
  refine wp_mono (spread_sp G P2.I (tf := tf2) (c := c) (by omega) P2.dom P2.bat ?_) ?_ fun _ he => he.at
  · intro i hi hs ha j hj hne hf
    rcases P2.frz _ (G.nb_lt hi hj hne) hf with h | h
    · exact (P.closed i hi ((P2.non i).1 hs) ha j hj hne h).elim
    · exact h
  · rintro F3 ⟨S3, hcl⟩
    rw [wp_pure]
    refine ⟨⟨(P.toPh.trans P2.toPh).trans S3.toPh, hlen2, hcl⟩, ?_⟩
    have hll : F2.heap.listLength = F.heap.listLength := P2.ll
    have hm2 : F2.heap.maxLength = F.heap.maxLength := P2.mx
    have hm3 : F3.heap.maxLength = F2.heap.maxLength := S3.mx
    have hs3 : F3.heap.heapLength + F2.heap.listLength = F2.heap.heapLength + F3.heap.listLength := S3.hl
    show F3.heap.maxLength + F3.heap.heapLength + F.heap.listLength + 1 ≤ F.heap.maxLength + F.heap.heapLength + F3.heap.listLength
    omega

theorem solve_ph (G : IsGrid w h m) (I : FInv m C iv t F) (hcl : Closed m iv (fun _ => False) F.st) :
    wp (solve m F) (fun F' => Ph m C iv t F F' ∧ Closed m iv (fun _ => False) F'.st ∧
      ∀ i, i < m.nNodes → F'.st i ≠ .trial) (ErrAt m C iv t F.abs) := by
  unfold solve
  rw [wp_bind]
  refine wp_imp (wp_whileN (fun s => LoopInv m C iv t F s)
    (fun s => s.1.heap.maxLength + s.1.heap.heapLength - s.1.heap.listLength)
    ⟨Ph.refl I, by simp, hcl⟩ ?_ ?_) ?_
  · have := I.I.sh.le1
    show F.heap.maxLength + F.heap.heapLength - F.heap.listLength ≤ F.heap.maxLength
    omega
  · intro s P hc
    have h0 : 0 < s.1.heap.heapLength := by
      simp [Heap.empty] at hc; omega
    have hs2 := P.I.I.sh.le2
    refine ⟨by omega, ?_⟩
    refine wp_imp (solveStep_li G P h0) ?_
    rintro r ⟨P', hlt⟩
    have hr2 := P'.I.I.sh.le2
    exact ⟨P', by omega⟩
  · rintro ⟨F', tf⟩ ⟨P, hc⟩
    rw [wp_pure]
    refine ⟨P.toPh, P.closed, fun i hi hs => ?_⟩
    have h0 : F'.heap.heapLength = 0 := by simpa [Heap.empty] using hc
    obtain ⟨-, l, -⟩ := P.I.I.live _ ⟨i, hi, hs, rfl⟩
    have l : F'.heap.bp _ < F'.heap.heapLength := l
    omega

end

end FMM

end Slsm
