import Verif.Proof.HeapStruct
import Verif.Lib.Order

/-! Heap order, for comparisons that form a total preorder. -/

namespace Slsm

set_option linter.unusedSectionVars false

variable {D : Type} [FP D]

namespace Heap

/-- heap order away from the hole at `pos`, and across it -/
structure HoleOrd (pos : Nat) (H : Heap D) : Prop where
  o1 : ∀ p, 0 < p → p < H.heapLength → p ≠ pos → par p ≠ pos → FP.lt (H.ds (H.hp p)) (H.ds (H.hp (par p))) = false
  o2 : ∀ c, 0 < c → c < H.heapLength → par c = pos → 0 < pos → FP.lt (H.ds (H.hp c)) (H.ds (H.hp (par pos))) = false

/-- the children of `pos` are not smaller than `item` -/
def Kids (item pos : Nat) (H : Heap D) : Prop :=
  ∀ c, 0 < c → c < H.heapLength → par c = pos → FP.lt (H.ds (H.hp c)) (H.ds item) = false

/-- `item` is not smaller than the parent of `pos` -/
def Up (item pos : Nat) (H : Heap D) : Prop := 0 < pos → FP.lt (H.ds item) (H.ds (H.hp (par pos))) = false

/-- heap order -/
def Ordered (H : Heap D) : Prop :=
  ∀ p, 0 < p → p < H.heapLength → FP.lt (H.ds (H.hp p)) (H.ds (H.hp (par p))) = false

/-- `p` is in the subtree rooted at `s` -/
def Desc (s p : Nat) : Prop := ∃ n, par^[n] p = s

theorem par_le (p : Nat) : par p ≤ p := by unfold par; omega

theorem iter_par_le (n p : Nat) : par^[n] p ≤ p := by
  induction n generalizing p with
  | zero => exact Nat.le_refl _
  | succ n ih => exact Nat.le_trans (ih (par p)) (par_le p)

theorem Desc.refl (s : Nat) : Desc s s := ⟨0, rfl⟩

theorem Desc.le {s p : Nat} (h : Desc s p) : s ≤ p := by
  obtain ⟨n, rfl⟩ := h; exact iter_par_le n p

theorem Desc.up {s p : Nat} (h : Desc s p) (hsp : s < p) : Desc s (par p) := by
  obtain ⟨n, hn⟩ := h
  cases n with
  | zero => simp at hn; omega
  | succ n => exact ⟨n, hn⟩

theorem Desc.down {s p c : Nat} (h : Desc s p) (hc : par c = p) : Desc s c := by
  obtain ⟨n, hn⟩ := h
  exact ⟨n + 1, by rw [Function.iterate_succ, Function.comp, hc]; exact hn⟩

theorem Desc.zero (p : Nat) : Desc 0 p := by
  induction p using Nat.strongRecOn with
  | _ p ih =>
    by_cases h : p = 0
    · exact h ▸ Desc.refl 0
    · exact (ih (par p) (par_lt (s := 0) (by omega))).down rfl

section
variable [TotalCmp D] {L : Nat → Prop} {item pos s : Nat} {H : Heap D}

theorem Ordered.min (O : Ordered H) {p : Nat} (hp : p < H.heapLength) :
    FP.lt (H.ds (H.hp p)) (H.ds (H.hp 0)) = false := by
  induction p using Nat.strongRecOn with
  | _ p ih =>
    by_cases h : p = 0
    · rw [h]; exact TotalCmp.irrefl _
    · have hlt := par_lt (show 0 < p by omega)
      exact TotalCmp.negTrans _ _ _ (O p (by omega) hp) (ih (par p) hlt (by omega))

theorem Ordered.holeOrd (O : Ordered H) (pos : Nat) : HoleOrd pos H := by
  refine ⟨fun p h0 hp _ _ => O p h0 hp, fun c h0 hc hcp hpos => ?_⟩
  have h1 := O c h0 hc
  rw [hcp] at h1
  have := par_lt h0
  exact TotalCmp.negTrans _ _ _ h1 (O pos hpos (by omega))

theorem Ordered.kids (O : Ordered H) (pos : Nat) : Kids (H.hp pos) pos H := by
  intro c h0 hc hcp
  have := O c h0 hc
  rwa [hcp] at this

theorem Ordered.up (O : Ordered H) {pos : Nat} (hp : pos < H.heapLength) : Up (H.hp pos) pos H :=
  fun h0 => O pos h0 hp

theorem HoleOrd.congr {H' : Heap D} (O : HoleOrd pos H) (hd : H'.distance = H.distance)
    (hl : H'.heapLength = H.heapLength) (he : ∀ p, p ≠ pos → H'.hp p = H.hp p) : HoleOrd pos H' := by
  have hds : ∀ k, H'.ds k = H.ds k := fun k => by rw [Heap.ds, hd]; rfl
  refine ⟨?_, ?_⟩
  · intro p h0 hp hpp hparp
    rw [hds, hds, he p hpp, he _ hparp]
    exact O.o1 p h0 (hl ▸ hp) hpp hparp
  · intro c h0 hc hcp hpos
    have h1 := par_lt h0
    have h2 := par_lt hpos
    rw [hds, hds, he c (by omega), he _ (by omega)]
    exact O.o2 c h0 (hl ▸ hc) hcp hpos

theorem Kids.congr {H' : Heap D} (O : Kids item pos H) (hd : H'.distance = H.distance)
    (hl : H'.heapLength = H.heapLength) (he : ∀ p, p ≠ pos → H'.hp p = H.hp p) : Kids item pos H' := by
  have hds : ∀ k, H'.ds k = H.ds k := fun k => by rw [Heap.ds, hd]; rfl
  intro c h0 hc hcp
  have h1 := par_lt h0
  rw [hds, hds, he c (by omega)]
  exact O c h0 (hl ▸ hc) hcp

theorem Up.congr {H' : Heap D} (O : Up item s H) (hd : H'.distance = H.distance)
    (he : ∀ p, p < s → H'.hp p = H.hp p) : Up item s H' := by
  have hds : ∀ k, H'.ds k = H.ds k := fun k => by rw [Heap.ds, hd]; rfl
  intro h0
  rw [hds, hds, he _ (par_lt h0)]
  exact O h0

theorem Hole.plug_ordered (I : Hole L item pos H) (O : HoleOrd pos H) (K : Kids item pos H) (U : Up item pos H) :
    Ordered (upd H pos item) := by
  have hb := I.bounds.1
  intro p h0 hp
  have hp : p < H.heapLength := hp
  have h1 := par_lt h0
  show FP.lt (H.ds _) (H.ds _) = false
  rw [hp_upd _ _ _ _ hb, hp_upd _ _ _ _ hb]
  by_cases hpp : p = pos
  · subst hpp
    rw [if_pos rfl, if_neg (by omega)]
    exact U h0
  · rw [if_neg hpp]
    by_cases hq : par p = pos
    · rw [if_pos hq]; exact K p h0 hp hq
    · rw [if_neg hq]; exact O.o1 p h0 hp hpp hq

theorem Hole.move_down (I : Hole L item pos H) (O : HoleOrd pos H) (hs : s < pos)
    (hlt : FP.lt (H.ds item) (H.ds (H.hp (par pos))) = true) :
    HoleOrd (par pos) (upd H pos (H.hp (par pos))) ∧ Kids item (par pos) (upd H pos (H.hp (par pos))) := by
  have hb := I.bounds.1
  have hq := par_lt hs
  have hlen := I.pos_lt
  refine ⟨⟨?_, ?_⟩, ?_⟩
  · intro p h0 hp hpq hparq
    have hp : p < H.heapLength := hp
    have hp1 : p ≠ pos := by rintro rfl; exact hparq rfl
    show FP.lt (H.ds _) (H.ds _) = false
    rw [hp_upd _ _ _ _ hb, hp_upd _ _ _ _ hb, if_neg hp1]
    by_cases hpp : par p = pos
    · rw [if_pos hpp]; exact O.o2 p h0 hp hpp (by omega)
    · rw [if_neg hpp]; exact O.o1 p h0 hp hp1 hpp
  · intro c h0 hc hcq hq0
    have hc : c < H.heapLength := hc
    have hqq := par_lt hq0
    show FP.lt (H.ds _) (H.ds _) = false
    rw [hp_upd _ _ _ _ hb, hp_upd _ _ _ _ hb, if_neg (show par (par pos) ≠ pos by omega)]
    have h2 := O.o1 (par pos) hq0 (by omega) (by omega) (by omega)
    by_cases hcp : c = pos
    · rw [if_pos hcp]; exact h2
    · rw [if_neg hcp]
      have h1 := O.o1 c h0 hc hcp (by omega)
      rw [hcq] at h1
      exact TotalCmp.negTrans _ _ _ h1 h2
  · intro c h0 hc hcq
    have hc : c < H.heapLength := hc
    show FP.lt (H.ds _) (H.ds _) = false
    rw [hp_upd _ _ _ _ hb]
    by_cases hcp : c = pos
    · rw [if_pos hcp]; exact TotalCmp.asymm hlt
    · rw [if_neg hcp]
      have h1 := O.o1 c h0 hc hcp (by omega)
      rw [hcq] at h1
      by_contra hcon
      have := TotalCmp.trans _ _ _ (by simpa using hcon) hlt
      rw [h1] at this; cases this

theorem siftDownLoop_order (I : Hole L item pos H) (O : HoleOrd pos H) (K : Kids item pos H) (hd : Desc s pos)
    (U : Up item s H) :
    wp (siftDownLoop s item pos H) (fun r => HoleOrd r.1 r.2 ∧ Kids item r.1 r.2 ∧ Up item r.1 r.2) noErr := by
  induction pos using Nat.strongRecOn generalizing H with
  | _ pos ih =>
    rw [I.siftDownLoop_eq]
    by_cases hs : s < pos
    · rw [if_pos hs]
      have hpp := par_lt hs
      by_cases hlt : FP.lt (H.ds item) (H.ds (H.hp (par pos))) = true
      · rw [if_pos hlt]
        obtain ⟨O', K'⟩ := I.move_down O hs hlt
        refine ih _ hpp (I.move (by have := I.pos_lt; omega) (by omega)) O' K' (hd.up hs) (U.congr rfl ?_)
        intro p hp
        rw [hp_upd _ _ _ _ I.bounds.1, if_neg (by omega)]
      · rw [if_neg hlt]; exact ⟨O, K, fun _ => by simpa using hlt⟩
    · rw [if_neg hs]
      have := hd.le
      obtain rfl : s = pos := by omega
      exact ⟨O, K, U⟩

theorem siftDown_order (I : Hole L item pos H) (hit : H.hp pos = item) (O : HoleOrd pos H) (K : Kids item pos H)
    (hd : Desc s pos) (U : Up item s H) :
    wp (siftDown s pos H) (fun H' => Ordered H') noErr := by
  unfold siftDown
  rw [wp_bind, rd_hp I.bounds.1, wp_ok, wp_bind, hit]
  refine wp_mono (wp_and (siftDownLoop_struct s I) (siftDownLoop_order I O K hd U)) ?_ fun e he => he.1
  rintro ⟨p, H'⟩ ⟨⟨I', hS⟩, O', K', U'⟩
  simp only [wp_bind]
  refine wp_wr I'.bounds.1 (wp_wr I'.bounds.2.1 ?_)
  rw [wp_pure]
  exact I'.plug_ordered O' K' U'

theorem mc_min (H : Heap D) {pos p : Nat} (hp : p < H.heapLength) (h0 : 0 < p) (hpp : par p = pos) :
    FP.lt (H.ds (H.hp p)) (H.ds (H.hp (mc H (2 * pos + 1)))) = false := by
  have h2 : p = 2 * pos + 1 ∨ p = 2 * pos + 1 + 1 := by unfold par at hpp; omega
  unfold mc
  by_cases hr : 2 * pos + 1 + 1 < H.heapLength
  · rw [if_pos hr]
    by_cases hlt : FP.lt (H.ds (H.hp (2 * pos + 1 + 1))) (H.ds (H.hp (2 * pos + 1))) = true
    · rw [if_pos hlt]
      obtain h | h := h2 <;> rw [h]
      · exact TotalCmp.asymm hlt
      · exact TotalCmp.irrefl _
    · rw [if_neg hlt]
      obtain h | h := h2 <;> rw [h]
      · exact TotalCmp.irrefl _
      · simpa using hlt
  · rw [if_neg hr]
    obtain h | h := h2
    · rw [h]; exact TotalCmp.irrefl _
    · omega

theorem Hole.move_up (I : Hole L item pos H) (O : HoleOrd pos H) (hc : 2 * pos + 1 < H.heapLength) :
    HoleOrd (mc H (2 * pos + 1)) (upd H pos (H.hp (mc H (2 * pos + 1)))) := by
  have hb := I.bounds.1
  have hm := mc_cases H (2 * pos + 1)
  have hpm : par (mc H (2 * pos + 1)) = pos := by unfold par; omega
  refine ⟨?_, ?_⟩
  · intro p h0 hp hpc hparc
    have hp : p < H.heapLength := hp
    show FP.lt (H.ds _) (H.ds _) = false
    rw [hp_upd _ _ _ _ hb, hp_upd _ _ _ _ hb]
    by_cases hpp : p = pos
    · subst hpp
      have := par_lt h0
      rw [if_pos rfl, if_neg (by omega)]
      exact O.o2 _ (by omega) (by omega) hpm h0
    · rw [if_neg hpp]
      by_cases hq : par p = pos
      · rw [if_pos hq]; exact mc_min H hp h0 hq
      · rw [if_neg hq]; exact O.o1 p h0 hp hpp hq
  · intro k h0 hk hkc hc0
    have hk : k < H.heapLength := hk
    have h1 := par_lt h0
    show FP.lt (H.ds _) (H.ds _) = false
    rw [hpm, hp_upd _ _ _ _ hb, hp_upd _ _ _ _ hb, if_pos rfl, if_neg (by omega)]
    have := O.o1 k h0 hk (by omega) (by omega)
    rwa [hkc] at this

theorem siftUpLoop_order {fuel : Nat} (I : Hole L item pos H) (hf : H.heapLength ≤ pos + fuel) (O : HoleOrd pos H)
    (hd : Desc s pos) (U : Up item s H) :
    wp (siftUpLoop fuel pos H) (fun r => HoleOrd r.1 r.2 ∧ Kids item r.1 r.2 ∧ Desc s r.1 ∧ Up item s r.2) noErr := by
  induction fuel generalizing H pos with
  | zero => have := I.pos_lt; omega
  | succ fuel ih =>
    rw [I.siftUpLoop_eq hf]
    by_cases hc : 2 * pos + 1 < H.heapLength
    · rw [if_pos hc]
      have hm := mc_cases H (2 * pos + 1)
      have hpm : par (mc H (2 * pos + 1)) = pos := by unfold par; omega
      refine ih (I.move (by omega) (by omega)) (by show H.heapLength ≤ _; omega) (I.move_up O hc) (hd.down hpm)
        (U.congr rfl ?_)
      intro p hp
      have := hd.le
      rw [hp_upd _ _ _ _ I.bounds.1, if_neg (by omega)]
    · rw [if_neg hc]
      refine ⟨O, ?_, hd, U⟩
      intro c h0 hcl hcp
      have hcl : c < H.heapLength := hcl
      unfold par at hcp; simp only at hcp; omega

theorem siftUp_order (I : Hole L item pos H) (hit : H.hp pos = item) (O : HoleOrd pos H) (U : Up item pos H) :
    wp (siftUp pos H) (fun H' => Ordered H') noErr := by
  unfold siftUp
  rw [wp_bind, rd_hp I.bounds.1, wp_ok, wp_bind, hit]
  refine wp_mono (wp_and (siftUpLoop_struct I (by omega)) (siftUpLoop_order I (by omega) O (Desc.refl pos) U)) ?_
    fun e he => he.1
  rintro ⟨p, H'⟩ ⟨⟨I', hS⟩, O', K', d', U'⟩
  simp only [wp_bind]
  refine wp_wr I'.bounds.1 ?_
  obtain ⟨J, j1, j2⟩ := I'.setHeap
  have hdle : pos ≤ p := d'.le
  exact siftDown_order J j1 (O'.congr rfl rfl j2) (K'.congr rfl rfl j2) d'
    (U'.congr rfl fun q hq => j2 q (by omega))

/-- The self test passes on every well-formed ordered heap. -/
theorem test_ok (I : SInv L H) (O : Ordered H) : wp H.test (fun _ => True) noErr := by
  unfold test
  simp only [wp_bind]
  refine wp_imp (wp_forN (fun _ _ => True) trivial ?_) ?_
  · intro i hi _ _
    refine wp_imp (wp_forN (fun _ _ => True) trivial ?_) fun _ _ => trivial
    intro j hj _ _
    refine wp_ite (fun hc => ?_) fun _ => trivial
    obtain ⟨a1, a2, a3, a4⟩ := I.entry_bounds hi
    obtain ⟨b1, b2, b3, b4⟩ := I.entry_bounds (p := 2 * i + 1 + j) (by omega)
    simp only [wp_bind, rd_hp a1, wp_ok, rd_ds a3, rd_hp b1, rd_ds b3]
    have h1 := O (2 * i + 1 + j) (by omega) (by omega)
    rw [show par (2 * i + 1 + j) = i by unfold par; omega] at h1
    rw [(TotalCmp.le_iff _ _).2 h1]
    trivial
  · intro _ _
    refine wp_imp (wp_forN (fun _ _ => True) trivial ?_) fun _ _ => trivial
    intro i hi _ _
    obtain ⟨a1, a2, a3, a4⟩ := I.entry_bounds hi
    simp only [wp_bind, rd_hp a1, wp_ok, rd_bp a2, (I.entry i hi).2, beq_self_eq_true, check_true]

theorem maybeTest_ok (I : SInv L H) (O : Ordered H) : H.maybeTest = .ok () := by
  have : wp H.maybeTest (fun _ => True) noErr := by
    unfold maybeTest
    exact wp_ite (fun _ => test_ok I O) fun _ => trivial
  obtain ⟨u, h, -⟩ := wp_noErr_iff.1 this
  exact h

theorem new_ordered (n : Nat) (t : Bool) : Ordered (Heap.new n t : Heap D) := by
  intro p h0 hp; simp [new] at hp

theorem push_order (I : SInv L H) (O : Ordered H) (hc : H.listLength < H.maxLength) (a : Nat) (v : D) :
    wp (push a v H) (fun r => r.1 = H.listLength ∧ SInv (fun j => L j ∨ j = H.listLength) r.2 ∧ Pushed a v H r.2 ∧
      Ordered r.2) noErr := by
  rw [push_unfold I hc, wp_bind]
  have J := pushRaw_hole I hc a v
  have hit : (pushRaw a v H).hp H.heapLength = H.listLength := by rw [pushRaw_hp I.sh hc, if_pos rfl]
  have hO : HoleOrd H.heapLength (pushRaw a v H) := by
    refine ⟨?_, ?_⟩
    · intro p h0 hp hpp _
      have hp : p < H.heapLength + 1 := hp
      have h1 := par_lt h0
      have e1 := (I.live _ (I.entry p (by omega)).1).1
      have e2 := (I.live _ (I.entry (par p) (by omega)).1).1
      rw [pushRaw_hp I.sh hc, pushRaw_hp I.sh hc, if_neg hpp, if_neg (by omega), pushRaw_ds I.sh hc,
        pushRaw_ds I.sh hc, if_neg (by omega), if_neg (by omega)]
      exact O p h0 (by omega)
    · intro c h0 hcl hcp
      have hcl : c < H.heapLength + 1 := hcl
      have h1 := par_lt h0
      omega
  have hK : Kids H.listLength H.heapLength (pushRaw a v H) := by
    intro c h0 hcl hcp
    have hcl : c < H.heapLength + 1 := hcl
    have h1 := par_lt h0
    omega
  refine wp_imp (E := noErr) (wp_mono (wp_and (siftDown_struct 0 J hit) (siftDown_order J hit hO hK (Desc.zero _)
    (fun h => absurd h (Nat.lt_irrefl _)))) (fun _ h => h) fun e he => he.1) ?_
  rintro H' ⟨⟨I', S'⟩, O'⟩
  have P := S'.pushed I.sh hc
  rw [maybeTest_ok I' O']
  exact ⟨by simp [P.ll], I', P, O'⟩

theorem pop_order (I : SInv L H) (O : Ordered H) (h0 : 0 < H.heapLength) :
    wp (pop H) (fun r => r.1 = H.ad (H.hp 0) ∧ r.2.1 = H.ds (H.hp 0) ∧ SInv (fun j => L j ∧ j ≠ H.hp 0) r.2.2 ∧
      Popped H r.2.2 ∧ Ordered r.2.2) noErr := by
  rw [pop_unfold I h0, wp_bind]
  have key : wp (siftUp 0 (popRaw H)) (fun H' => (SInv (fun j => L j ∧ j ≠ H.hp 0) H' ∧ Popped H H') ∧ Ordered H')
      noErr := by
    by_cases h1 : H.heapLength = 1
    · refine wp_imp (popRaw_last I h1) fun H' h => ⟨h, ?_⟩
      intro p hp hpl
      rw [h.2.hl] at hpl; omega
    · obtain ⟨J, j1, j2⟩ := popRaw_hole I (by omega)
      refine wp_mono (wp_and (siftUp_struct J j1) (siftUp_order J j1 ?_ fun h => absurd h (Nat.lt_irrefl _))) ?_
        fun e he => he.1
      · refine ⟨?_, fun c _ _ _ h => absurd h (Nat.lt_irrefl _)⟩
        intro p hp0 hp hpp hparp
        have hp : p < H.heapLength - 1 := hp
        rw [j2 p hpp, j2 _ hparp]
        exact O p hp0 (by omega)
      · rintro H' ⟨h, O'⟩
        exact ⟨⟨h.1, ⟨h.2.h, h.2.l, h.2.m, h.2.t, h.2.d, h.2.a⟩⟩, O'⟩
  refine wp_imp key ?_
  rintro H' ⟨⟨I', P⟩, O'⟩
  rw [maybeTest_ok I' O']
  exact ⟨rfl, rfl, I', P, O'⟩

theorem setRaw_hp (k : Nat) (v : D) (p : Nat) : (setRaw k v H).hp p = H.hp p := rfl

/-- Overwriting the value of a live entry leaves a hole at its position. -/
theorem setRaw_holeOrd (I : SInv L H) (O : Ordered H) {k : Nat} (hk : L k) (v : D) :
    HoleOrd (H.bp k) (setRaw k v H) := by
  obtain ⟨k1, k2, k3⟩ := I.live k hk
  have hne : ∀ p, p < H.heapLength → p ≠ H.bp k → H.hp p ≠ k := by
    intro p hp hpp he
    have := (I.entry p hp).2
    rw [he] at this; exact hpp this.symm
  refine ⟨?_, ?_⟩
  · intro p h0 hp hpp hparp
    have hp : p < H.heapLength := hp
    have h1 := par_lt h0
    rw [setRaw_hp, setRaw_hp, setRaw_ds I.sh k1, setRaw_ds I.sh k1, if_neg (hne p hp hpp), if_neg (hne _ (by omega) hparp)]
    exact O p h0 hp
  · intro c h0 hc hcp hpos
    have hc : c < H.heapLength := hc
    have h1 := par_lt h0
    have h2 := par_lt hpos
    rw [setRaw_hp, setRaw_hp, setRaw_ds I.sh k1, setRaw_ds I.sh k1, if_neg (hne c hc (by omega)), if_neg (hne _ (by omega) (by omega))]
    have e1 := O c h0 hc
    rw [hcp] at e1
    exact TotalCmp.negTrans _ _ _ e1 (O _ hpos k2)

theorem setRaw_ordered_dead (I : SInv L H) (O : Ordered H) {k : Nat} (hk : k < H.listLength) (hL : ¬ L k) (v : D) :
    Ordered (setRaw k v H) := by
  have hne : ∀ p, p < H.heapLength → H.hp p ≠ k := by
    intro p hp he
    exact hL (he ▸ (I.entry p hp).1)
  intro p h0 hp
  have hp : p < H.heapLength := hp
  have h1 := par_lt h0
  rw [setRaw_hp, setRaw_hp, setRaw_ds I.sh hk, setRaw_ds I.sh hk, if_neg (hne p hp), if_neg (hne _ (by omega))]
  exact O p h0 hp

theorem ordered_of_empty (h : H.heapLength = 0) : Ordered H := by
  intro p _ hp; omega

theorem set_order (I : SInv L H) (O : Ordered H) {k : Nat} (hk : k < H.listLength) (v : D) :
    wp (set k v H) (fun H' => SInv L H' ∧ SetTo k v H H' ∧ Ordered H') noErr := by
  rw [set_unfold I hk, wp_bind]
  have I0 := setRaw_sinv I k v
  -- after the conditional siftUp: either the heap is ordered, or nothing was done and `k` has become smaller
  have hup : wp (setUp k v H) (fun H' => (SInv L H' ∧ Same (setRaw k v H) H') ∧
      (Ordered H' ∨ (H' = setRaw k v H ∧ L k ∧ FP.lt (H.ds k) v = false))) noErr := by
    unfold setUp
    refine wp_ite (fun hlt => ?_) fun hlt => ?_
    · obtain hb | ⟨h0, hb⟩ := I.bp_cases hk
      · refine wp_mono (wp_and (siftUp_struct (I0.hole hb) rfl) (siftUp_order (I0.hole hb) rfl ?_ ?_))
          (fun H' h => ⟨h.1, Or.inl h.2⟩) fun e he => he.1
        · by_cases hL : L k
          · exact setRaw_holeOrd I O hL v
          · exact (setRaw_ordered_dead I O hk hL v).holeOrd _
        · by_cases hL : L k
          · obtain ⟨k1, k2, k3⟩ := I.live k hL
            intro h0
            have h1 := par_lt h0
            show FP.lt ((setRaw k v H).ds (H.hp (H.bp k))) ((setRaw k v H).ds (H.hp (par (H.bp k)))) = false
            rw [k3, setRaw_ds I.sh hk, setRaw_ds I.sh hk, if_pos rfl, if_neg]
            · have h2 := O _ h0 k2
              rw [k3] at h2
              by_contra hcon
              have h3 := TotalCmp.trans _ _ _ hlt (by simpa using hcon)
              rw [h2] at h3; cases h3
            · intro he
              have := (I.entry (par (H.bp k)) (by omega)).2
              rw [he] at this; omega
          · exact (setRaw_ordered_dead I O hk hL v).up hb
      · rw [hb]
        refine wp_imp (siftUp_empty_struct I0 h0 (by show 0 < H.listLength; omega)) fun H' h => ⟨h, Or.inl ?_⟩
        exact ordered_of_empty (by rw [h.2.h]; exact h0)
    · refine ⟨⟨I0, Same.refl _⟩, ?_⟩
      by_cases hL : L k
      · exact Or.inr ⟨rfl, hL, by simpa using hlt⟩
      · exact Or.inl (setRaw_ordered_dead I O hk hL v)
  refine wp_imp hup ?_
  rintro H' ⟨⟨I', S'⟩, hcase⟩
  have hl : 0 < H'.listLength := by rw [S'.l]; show 0 < H.listLength; omega
  have hpos : H.bp k < H'.heap.length := by
    rw [I'.sh.hl, S'.m]; show H.bp k < H.maxLength
    have := I.sh.le1; have := I.sh.le2
    obtain hb | ⟨h0, hb⟩ := I.bp_cases hk <;> omega
  have hent : H'.hp (H.bp k) < H'.distance.length := by
    rw [I'.sh.dl]
    have h2 := I'.sh.le2
    obtain hb | ⟨h0, hb⟩ := I.bp_cases hk
    · have := (I'.live _ (I'.entry (H.bp k) (by rw [S'.h]; exact hb)).1).1; omega
    · rw [hb]; have := I'.top hl; omega
  simp only [wp_bind, rd_hp hpos, wp_ok, rd_ds hent]
  have hdn : Ordered H' ∨ FP.eq (H'.ds (H'.hp (H.bp k))) v = true := by
    obtain h | ⟨rfl, hL, hlt⟩ := hcase
    · exact Or.inl h
    · right
      obtain ⟨k1, k2, k3⟩ := I.live k hL
      show FP.eq ((setRaw k v H).ds (H.hp (H.bp k))) v = true
      rw [k3, setRaw_ds I.sh hk, if_pos rfl, TotalCmp.eq_iff]
      exact ⟨TotalCmp.irrefl _, TotalCmp.irrefl _⟩
  refine wp_ite (fun hne => ?_) fun _ => ?_
  · have O' : Ordered H' := by
      obtain h | h := hdn
      · exact h
      · rw [h] at hne; simp at hne
    rw [maybeTest_ok I' O']
    exact ⟨I', S'.setTo I.sh hk, O'⟩
  · rw [wp_bind]
    have hdn : wp (siftDown 0 (H.bp k) H') (fun H'' => (SInv L H'' ∧ Same H' H'') ∧ Ordered H'') noErr := by
      obtain hb | ⟨h0, hb⟩ := I.bp_cases hk
      · have hb' : H.bp k < H'.heapLength := by rw [S'.h]; exact hb
        refine wp_mono (wp_and (siftDown_struct 0 (I'.hole hb') rfl) (siftDown_order (I'.hole hb') rfl ?_ ?_
          (Desc.zero _) fun h => absurd h (Nat.lt_irrefl _))) (fun _ h => h) fun e he => he.1
        · obtain h | ⟨rfl, hL, hlt⟩ := hcase
          · exact h.holeOrd _
          · exact setRaw_holeOrd I O hL v
        · obtain h | ⟨rfl, hL, hlt⟩ := hcase
          · exact h.kids _
          · obtain ⟨k1, k2, k3⟩ := I.live k hL
            intro c h0 hc hcp
            have hc : c < H.heapLength := hc
            have h1 := par_lt h0
            show FP.lt ((setRaw k v H).ds (H.hp c)) ((setRaw k v H).ds (H.hp (H.bp k))) = false
            rw [k3, setRaw_ds I.sh hk, setRaw_ds I.sh hk, if_pos rfl, if_neg]
            · have h2 := O c h0 hc
              rw [hcp, k3] at h2
              exact TotalCmp.negTrans _ _ _ h2 hlt
            · intro he
              have := (I.entry c hc).2
              rw [he] at this; omega
      · rw [hb]
        refine wp_imp (siftDown_empty_struct I' (by rw [S'.h]; exact h0) hl) fun H'' h => ⟨h, ?_⟩
        exact ordered_of_empty (by rw [h.2.h, S'.h]; exact h0)
    refine wp_imp hdn ?_
    rintro H'' ⟨⟨I'', S''⟩, O''⟩
    rw [maybeTest_ok I'' O'']
    exact ⟨I'', (S'.trans S'').setTo I.sh hk, O''⟩

end

end Heap

end Slsm
