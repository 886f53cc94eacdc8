import Verif.Model.Heap
import Verif.Lib.WP
import Mathlib.Tactic.Ring
import Mathlib.Tactic.Linarith

/-! Structural invariant of the heap: holds for every comparison behaviour. -/

namespace Slsm

set_option linter.unusedSectionVars false

variable {D : Type} [FP D]

theorem getD_set {α : Type} (l : List α) (i j : Nat) (a d : α) :
    (l.set i a).getD j d = if i = j ∧ j < l.length then a else l.getD j d := by
  simp only [List.getD_eq_getElem?_getD, List.getElem?_set]
  by_cases h : i = j
  · subst h
    by_cases h2 : i < l.length <;> simp [h2]
  · simp [h]

theorem rd_getD {α : Type} {l : List α} {i : Nat} (d : α) (h : i < l.length) : rd l i = .ok (l.getD i d) := by
  rw [rd_eq h, List.getD_eq_getElem?_getD, List.getElem?_eq_getElem h]; rfl

namespace Heap

/-- parent position -/
abbrev par (p : Nat) : Nat := (p - 1) / 2

/-- heap entry at position `p` -/
def hp (H : Heap D) (p : Nat) : Nat := H.heap.getD p 0
/-- back pointer of handle `k` -/
def bp (H : Heap D) (k : Nat) : Nat := H.backPointer.getD k 0
/-- value of handle `k` -/
def ds (H : Heap D) (k : Nat) : D := H.distance.getD k (FP.nat 0)
/-- address of handle `k` -/
def ad (H : Heap D) (k : Nat) : Nat := H.address.getD k 0

theorem rd_hp {H : Heap D} {p : Nat} (h : p < H.heap.length) : rd H.heap p = .ok (H.hp p) := rd_getD 0 h
theorem rd_ds {H : Heap D} {p : Nat} (h : p < H.distance.length) : rd H.distance p = .ok (H.ds p) := rd_getD _ h
theorem rd_bp {H : Heap D} {p : Nat} (h : p < H.backPointer.length) : rd H.backPointer p = .ok (H.bp p) := rd_getD 0 h
theorem rd_ad {H : Heap D} {p : Nat} (h : p < H.address.length) : rd H.address p = .ok (H.ad p) := rd_getD 0 h

/-- array sizes -/
structure Shape (H : Heap D) : Prop where
  dl : H.distance.length = H.maxLength
  hl : H.heap.length = H.maxLength
  al : H.address.length = H.maxLength
  bl : H.backPointer.length = H.maxLength
  le1 : H.heapLength ≤ H.listLength
  le2 : H.listLength ≤ H.maxLength

/-- structural invariant; `L` is the set of live handles -/
structure SInv (L : Nat → Prop) (H : Heap D) : Prop where
  sh : Shape H
  entry : ∀ p, p < H.heapLength → L (H.hp p) ∧ H.bp (H.hp p) = p
  live : ∀ k, L k → k < H.listLength ∧ H.bp k < H.heapLength ∧ H.hp (H.bp k) = k
  dead : ∀ k, k < H.listLength → ¬ L k → H.bp k = 0
  top : 0 < H.listLength → H.hp 0 < H.listLength

/-- structural invariant with a hole at `pos`, to be filled by `item` -/
structure Hole (L : Nat → Prop) (item pos : Nat) (H : Heap D) : Prop where
  sh : Shape H
  pos_lt : pos < H.heapLength
  item_lt : item < H.listLength
  item_live : L item
  entry : ∀ p, p < H.heapLength → p ≠ pos → L (H.hp p) ∧ H.hp p ≠ item ∧ H.bp (H.hp p) = p
  live : ∀ k, L k → k < H.listLength ∧ (k ≠ item → H.bp k < H.heapLength ∧ H.bp k ≠ pos ∧ H.hp (H.bp k) = k)
  dead : ∀ k, k < H.listLength → ¬ L k → H.bp k = 0

/-- everything but `heap` and `backPointer` is the same -/
structure Same (H H' : Heap D) : Prop where
  d : H'.distance = H.distance
  a : H'.address = H.address
  h : H'.heapLength = H.heapLength
  l : H'.listLength = H.listLength
  m : H'.maxLength = H.maxLength
  t : H'.isTest = H.isTest

theorem Same.refl (H : Heap D) : Same H H := ⟨rfl, rfl, rfl, rfl, rfl, rfl⟩

theorem Same.trans {H H' H'' : Heap D} (a : Same H H') (b : Same H' H'') : Same H H'' :=
  ⟨b.d.trans a.d, b.a.trans a.a, b.h.trans a.h, b.l.trans a.l, b.m.trans a.m, b.t.trans a.t⟩

theorem Same.ds {H H' : Heap D} (a : Same H H') (k : Nat) : H'.ds k = H.ds k := by rw [Heap.ds, a.d]; rfl

/-- writing `x` at position `pos` -/
abbrev upd (H : Heap D) (pos x : Nat) : Heap D :=
  { H with heap := H.heap.set pos x, backPointer := H.backPointer.set x pos }

theorem hp_upd (H : Heap D) (pos x p : Nat) (h : pos < H.heap.length) :
    (upd H pos x).hp p = if p = pos then x else H.hp p := by
  simp only [hp, getD_set]
  by_cases hc : p = pos
  · rw [if_pos ⟨hc.symm, hc ▸ h⟩, if_pos hc]
  · rw [if_neg (by tauto), if_neg hc]

theorem bp_upd (H : Heap D) (pos x k : Nat) (h : x < H.backPointer.length) :
    (upd H pos x).bp k = if k = x then pos else H.bp k := by
  simp only [bp, getD_set]
  by_cases hc : k = x
  · rw [if_pos ⟨hc.symm, hc ▸ h⟩, if_pos hc]
  · rw [if_neg (by tauto), if_neg hc]

theorem same_upd (H : Heap D) (pos x : Nat) : Same H (upd H pos x) := ⟨rfl, rfl, rfl, rfl, rfl, rfl⟩

theorem Shape.upd {H : Heap D} (S : Shape H) (pos x : Nat) : Shape (upd H pos x) :=
  ⟨S.dl, by simpa using S.hl, S.al, by simpa using S.bl, S.le1, S.le2⟩

section
variable {L : Nat → Prop} {item pos : Nat} {H : Heap D}

/-- moving the entry at position `q` into the hole moves the hole to `q` -/
theorem Hole.move (I : Hole L item pos H) {q : Nat} (hq : q < H.heapLength) (hqp : q ≠ pos) :
    Hole L item q (upd H pos (H.hp q)) := by
  have S := I.sh
  have hpos : pos < H.heap.length := by rw [S.hl]; have := I.pos_lt; have := S.le1; have := S.le2; omega
  have hx : H.hp q < H.backPointer.length := by
    rw [S.bl]; have := (I.live _ (I.entry q hq hqp).1).1; have := S.le2; omega
  obtain ⟨q1, q2, q3⟩ := I.entry q hq hqp
  refine ⟨S.upd _ _, hq, I.item_lt, I.item_live, ?_, ?_, ?_⟩
  · intro p hp hpq
    rw [hp_upd _ _ _ _ hpos]
    by_cases hpp : p = pos
    · rw [if_pos hpp]
      refine ⟨q1, q2, ?_⟩
      rw [bp_upd _ _ _ _ hx, if_pos rfl, hpp]
    · rw [if_neg hpp]
      obtain ⟨p1, p2, p3⟩ := I.entry p hp hpp
      refine ⟨p1, p2, ?_⟩
      rw [bp_upd _ _ _ _ hx, if_neg, p3]
      intro he; rw [he, q3] at p3; exact hpq p3.symm
  · intro k hk
    refine ⟨(I.live k hk).1, fun hki => ?_⟩
    obtain ⟨k1, k2, k3⟩ := (I.live k hk).2 hki
    rw [bp_upd _ _ _ _ hx]
    by_cases hkq : k = H.hp q
    · rw [if_pos hkq, hp_upd _ _ _ _ hpos, if_pos rfl]
      exact ⟨I.pos_lt, fun h => hqp h.symm, hkq.symm⟩
    · rw [if_neg hkq, hp_upd _ _ _ _ hpos, if_neg k2]
      refine ⟨k1, ?_, k3⟩
      intro he; rw [he] at k3; exact hkq k3.symm
  · intro k hk hL
    rw [bp_upd _ _ _ _ hx, if_neg, I.dead k hk hL]
    rintro rfl; exact hL q1

/-- filling the hole -/
theorem Hole.plug (I : Hole L item pos H) : SInv L (upd H pos item) := by
  have S := I.sh
  have hpos : pos < H.heap.length := by rw [S.hl]; have := I.pos_lt; have := S.le1; have := S.le2; omega
  have hx : item < H.backPointer.length := by rw [S.bl]; have := I.item_lt; have := S.le2; omega
  have hposn : ∀ p, p < H.heapLength → L ((Heap.upd H pos item).hp p) ∧
      (Heap.upd H pos item).bp ((Heap.upd H pos item).hp p) = p := by
    intro p hp
    rw [hp_upd _ _ _ _ hpos]
    by_cases hpp : p = pos
    · rw [if_pos hpp, bp_upd _ _ _ _ hx, if_pos rfl]; exact ⟨I.item_live, hpp.symm⟩
    · rw [if_neg hpp]
      obtain ⟨p1, p2, p3⟩ := I.entry p hp hpp
      rw [bp_upd _ _ _ _ hx, if_neg p2]; exact ⟨p1, p3⟩
  have hlive : ∀ k, L k → k < H.listLength ∧ (Heap.upd H pos item).bp k < H.heapLength ∧
      (Heap.upd H pos item).hp ((Heap.upd H pos item).bp k) = k := by
    intro k hk
    refine ⟨(I.live k hk).1, ?_⟩
    rw [bp_upd _ _ _ _ hx]
    by_cases hki : k = item
    · rw [if_pos hki, hp_upd _ _ _ _ hpos, if_pos rfl]; exact ⟨I.pos_lt, hki.symm⟩
    · rw [if_neg hki]
      obtain ⟨k1, k2, k3⟩ := (I.live k hk).2 hki
      rw [hp_upd _ _ _ _ hpos, if_neg k2]; exact ⟨k1, k3⟩
  refine ⟨S.upd _ _, hposn, hlive, ?_, ?_⟩
  · intro k hk hL
    rw [bp_upd _ _ _ _ hx, if_neg, I.dead k hk hL]
    rintro rfl; exact hL I.item_live
  · intro _
    exact (hlive _ (hposn 0 (Nat.lt_of_le_of_lt (Nat.zero_le _) I.pos_lt)).1).1

/-- regarding the entry at `pos` as a hole -/
theorem SInv.hole (I : SInv L H) {pos : Nat} (hpos : pos < H.heapLength) : Hole L (H.hp pos) pos H := by
  obtain ⟨p1, p2⟩ := I.entry pos hpos
  refine ⟨I.sh, hpos, (I.live _ p1).1, p1, ?_, ?_, I.dead⟩
  · intro p hp hpp
    obtain ⟨q1, q2⟩ := I.entry p hp
    refine ⟨q1, ?_, q2⟩
    intro he; rw [he, p2] at q2; exact hpp q2.symm
  · intro k hk
    obtain ⟨k1, k2, k3⟩ := I.live k hk
    refine ⟨k1, fun hki => ⟨k2, ?_, k3⟩⟩
    intro he; rw [he] at k3; exact hki k3.symm

theorem Hole.bounds (I : Hole L item pos H) : pos < H.heap.length ∧ item < H.backPointer.length ∧
    item < H.distance.length := by
  have S := I.sh
  rw [S.hl, S.bl, S.dl]
  have := I.pos_lt; have := S.le1; have := S.le2; have := I.item_lt
  omega

theorem Hole.entry_bounds (I : Hole L item pos H) {p : Nat} (hp : p < H.heapLength) (hpp : p ≠ pos) :
    p < H.heap.length ∧ H.hp p < H.backPointer.length ∧ H.hp p < H.distance.length := by
  have S := I.sh
  rw [S.hl, S.bl, S.dl]
  have := S.le1; have := S.le2; have := (I.live _ (I.entry p hp hpp).1).1
  omega

theorem par_lt {p s : Nat} (h : s < p) : par p < p := by unfold par; omega

/-- One unfolding of `siftDownLoop` from a state with a hole. -/
theorem Hole.siftDownLoop_eq (I : Hole L item pos H) (s : Nat) :
    siftDownLoop s item pos H =
      if s < pos then
        if FP.lt (H.ds item) (H.ds (H.hp (par pos))) then siftDownLoop s item (par pos) (upd H pos (H.hp (par pos)))
        else .ok (pos, H)
      else .ok (pos, H) := by
  rw [siftDownLoop]
  by_cases hs : s < pos
  · rw [if_pos hs, if_pos hs]
    have hpp : par pos < pos := par_lt hs
    obtain ⟨b1, b2, b3⟩ := I.bounds
    obtain ⟨c1, c2, c3⟩ := I.entry_bounds (p := par pos) (by have := I.pos_lt; omega) (by omega)
    simp only [bind, Except.bind, rd_hp c1, rd_ds b3, rd_ds c3, wr_eq _ b1, wr_eq _ c2]
    by_cases hlt : FP.lt (H.ds item) (H.ds (H.hp (par pos))) = true
    · rw [if_pos hlt, if_pos hlt]
    · rw [if_neg hlt, if_neg hlt]; rfl
  · rw [if_neg hs, if_neg hs]; rfl

theorem siftDownLoop_struct (s : Nat) (I : Hole L item pos H) :
    wp (siftDownLoop s item pos H) (fun r => Hole L item r.1 r.2 ∧ Same H r.2) noErr := by
  induction pos using Nat.strongRecOn generalizing H with
  | _ pos ih =>
    rw [I.siftDownLoop_eq]
    by_cases hs : s < pos
    · rw [if_pos hs]
      have hpp := par_lt hs
      by_cases hlt : FP.lt (H.ds item) (H.ds (H.hp (par pos))) = true
      · rw [if_pos hlt]
        refine wp_imp (ih _ hpp (I.move (by have := I.pos_lt; omega) (by omega))) fun r hr => ⟨hr.1, (same_upd _ _ _).trans hr.2⟩
      · rw [if_neg hlt]; exact ⟨I, Same.refl _⟩
    · rw [if_neg hs]; exact ⟨I, Same.refl _⟩

/-- `siftDown` from a state whose entry at `pos` is `item`. -/
theorem siftDown_struct (s : Nat) (I : Hole L item pos H) (hit : H.hp pos = item) :
    wp (siftDown s pos H) (fun H' => SInv L H' ∧ Same H H') noErr := by
  unfold siftDown
  rw [wp_bind, rd_getD 0 I.bounds.1, wp_ok, wp_bind]
  have : H.heap.getD pos 0 = item := hit
  rw [this]
  refine wp_imp (siftDownLoop_struct s I) ?_
  rintro ⟨p, H'⟩ ⟨I', hS⟩
  simp only [wp_bind]
  refine wp_wr I'.bounds.1 (wp_wr I'.bounds.2.1 ?_)
  rw [wp_pure]
  exact ⟨I'.plug, hS.trans (same_upd _ _ _)⟩

/-- the smaller child, as a position -/
def mc (H : Heap D) (c : Nat) : Nat :=
  if c + 1 < H.heapLength then
    if FP.lt (H.ds (H.hp (c + 1))) (H.ds (H.hp c)) then c + 1 else c
  else c

theorem mc_cases (H : Heap D) (c : Nat) : mc H c = c ∨ (mc H c = c + 1 ∧ c + 1 < H.heapLength) := by
  unfold mc; split_ifs <;> simp [*]

theorem Hole.minChild_eq (I : Hole L item pos H) (hc : 2 * pos + 1 < H.heapLength) :
    minChild (2 * pos + 1) H = .ok (mc H (2 * pos + 1)) := by
  unfold minChild mc
  by_cases h : 2 * pos + 1 + 1 < H.heapLength
  · simp only [if_pos h]
    obtain ⟨b1, b2, b3⟩ := I.entry_bounds h (by omega)
    obtain ⟨c1, c2, c3⟩ := I.entry_bounds hc (by omega)
    simp only [bind, Except.bind, rd_hp b1, rd_ds b3, rd_hp c1, rd_ds c3]
    by_cases hlt : FP.lt (H.ds (H.hp (2 * pos + 1 + 1))) (H.ds (H.hp (2 * pos + 1))) = true
    · rw [if_pos hlt, if_pos hlt]; rfl
    · rw [if_neg hlt, if_neg hlt]; rfl
  · simp only [if_neg h]; rfl

/-- One unfolding of `siftUpLoop` from a state with a hole. -/
theorem Hole.siftUpLoop_eq (I : Hole L item pos H) {fuel : Nat} (hf : H.heapLength ≤ pos + fuel) :
    siftUpLoop fuel pos H =
      if 2 * pos + 1 < H.heapLength then
        siftUpLoop (fuel - 1) (mc H (2 * pos + 1)) (upd H pos (H.hp (mc H (2 * pos + 1))))
      else .ok (pos, H) := by
  rw [siftUpLoop.eq_def]
  by_cases hc : 2 * pos + 1 < H.heapLength
  · simp only [if_pos hc]
    match fuel with
    | 0 => omega
    | fuel + 1 =>
      have hm := mc_cases H (2 * pos + 1)
      obtain ⟨c1, c2, c3⟩ := I.entry_bounds (p := mc H (2 * pos + 1)) (by omega) (by omega)
      simp only [bind, Except.bind]
      rw [I.minChild_eq hc]
      simp only []
      rw [rd_getD 0 c1]
      simp only []
      rw [wr_eq _ I.bounds.1]
      simp only []
      rw [wr_eq _ (show H.heap.getD _ 0 < _ from c2)]
      rfl
  · simp only [if_neg hc]; rfl

theorem siftUpLoop_struct {fuel : Nat} (I : Hole L item pos H) (hf : H.heapLength ≤ pos + fuel) :
    wp (siftUpLoop fuel pos H) (fun r => Hole L item r.1 r.2 ∧ Same H r.2) noErr := by
  induction fuel generalizing H pos with
  | zero => have := I.pos_lt; omega
  | succ fuel ih =>
    rw [I.siftUpLoop_eq hf]
    by_cases hc : 2 * pos + 1 < H.heapLength
    · rw [if_pos hc]
      have hm := mc_cases H (2 * pos + 1)
      refine wp_imp (ih (I.move (by omega) (by omega)) (by show H.heapLength ≤ _; omega)) fun r hr =>
        ⟨hr.1, (same_upd _ _ _).trans hr.2⟩
    · rw [if_neg hc]; exact ⟨I, Same.refl _⟩

/-- writing `item` into the hole of the `heap` array only -/
theorem Hole.setHeap (I : Hole L item pos H) :
    Hole L item pos { H with heap := H.heap.set pos item } ∧
      Heap.hp { H with heap := H.heap.set pos item } pos = item ∧
      ∀ p, p ≠ pos → Heap.hp { H with heap := H.heap.set pos item } p = H.hp p := by
  have hpos := I.bounds.1
  have e1 : ∀ p, p ≠ pos → Heap.hp { H with heap := H.heap.set pos item } p = H.hp p := by
    intro p hp
    simp only [Heap.hp, getD_set]
    rw [if_neg]; rintro ⟨h, -⟩; exact hp h.symm
  have e2 : Heap.hp { H with heap := H.heap.set pos item } pos = item := by
    simp [Heap.hp, getD_set, hpos]
  refine ⟨⟨⟨I.sh.dl, by simpa using I.sh.hl, I.sh.al, I.sh.bl, I.sh.le1, I.sh.le2⟩, I.pos_lt, I.item_lt, I.item_live, ?_, ?_, I.dead⟩, e2, e1⟩
  · intro p hp hpp
    rw [e1 p hpp]; exact I.entry p hp hpp
  · intro k hk
    refine ⟨(I.live k hk).1, fun hki => ?_⟩
    obtain ⟨k1, k2, k3⟩ := (I.live k hk).2 hki
    refine ⟨k1, k2, ?_⟩
    exact (e1 _ k2).trans k3

theorem siftUp_struct (I : Hole L item pos H) (hit : H.hp pos = item) :
    wp (siftUp pos H) (fun H' => SInv L H' ∧ Same H H') noErr := by
  unfold siftUp
  rw [wp_bind, rd_getD 0 I.bounds.1, wp_ok, wp_bind]
  have : H.heap.getD pos 0 = item := hit
  rw [this]
  refine wp_imp (siftUpLoop_struct I (by omega)) ?_
  rintro ⟨p, H'⟩ ⟨I', hS⟩
  simp only [wp_bind]
  refine wp_wr I'.bounds.1 ?_
  obtain ⟨J, j1, -⟩ := I'.setHeap
  refine wp_imp (siftDown_struct _ J j1) fun H'' h => ⟨h.1, ?_⟩
  have hm : Same H' { H' with heap := H'.heap.set p item } := ⟨rfl, rfl, rfl, rfl, rfl, rfl⟩
  exact hS.trans (hm.trans h.2)

/-- `siftUp(0)` on an empty heap only rewrites the back pointer of the stale top entry. -/
theorem siftUp_empty (sh : Shape H) (h0 : H.heapLength = 0) (hl : 0 < H.listLength) (ht : H.hp 0 < H.listLength) :
    siftUp 0 H = .ok { H with heap := H.heap.set 0 (H.hp 0), backPointer := H.backPointer.set (H.hp 0) 0 } := by
  have b1 : 0 < H.heap.length := by rw [sh.hl]; have := sh.le2; omega
  have b2 : H.hp 0 < H.backPointer.length := by rw [sh.bl]; have := sh.le2; omega
  unfold siftUp
  simp only [bind, Except.bind]
  rw [rd_getD 0 b1]
  simp only []
  rw [siftUpLoop.eq_def]
  simp only [h0, Nat.not_lt_zero, if_false, pure, Except.pure]
  rw [wr_eq _ b1]
  simp only [siftDown, bind, Except.bind]
  rw [rd_getD 0 (by simpa using b1)]
  simp only []
  rw [siftDownLoop]
  simp only [Nat.lt_irrefl, if_false, pure, Except.pure]
  rw [wr_eq _ (by simpa using b1)]
  simp only []
  have : (H.heap.set 0 (H.heap.getD 0 0)).getD 0 0 = H.hp 0 := by
    rw [getD_set]; simp [b1, Heap.hp]
  rw [this, wr_eq _ b2]
  simp only [List.set_set]

end

/-! ### Operations, for every comparison behaviour -/

section
variable {L : Nat → Prop} {H : Heap D}

/-- abnormal exit of the self test only -/
abbrev testExit (H : Heap D) : Err → Prop := fun e => e = .exit ∧ H.isTest = true

theorem SInv.entry_bounds (I : SInv L H) {p : Nat} (hp : p < H.heapLength) :
    p < H.heap.length ∧ H.hp p < H.backPointer.length ∧ H.hp p < H.distance.length ∧ H.hp p < H.address.length := by
  have S := I.sh
  rw [S.hl, S.bl, S.dl, S.al]
  have := S.le1; have := S.le2; have := (I.live _ (I.entry p hp).1).1
  omega

theorem test_struct (I : SInv L H) : wp H.test (fun _ => True) onlyExit := by
  unfold test
  simp only [wp_bind]
  refine wp_imp (wp_forN (fun _ _ => True) trivial ?_) ?_
  · intro i hi _ _
    refine wp_imp (wp_forN (fun _ _ => True) trivial ?_) fun _ _ => trivial
    intro j hj _ _
    refine wp_ite (fun hc => ?_) fun _ => trivial
    obtain ⟨a1, a2, a3, a4⟩ := I.entry_bounds hi
    obtain ⟨b1, b2, b3, b4⟩ := I.entry_bounds (p := 2 * i + 1 + j) (by omega)
    simp only [wp_bind, rd_hp a1, wp_ok, rd_ds a3, rd_hp b1, rd_ds b3]
    unfold check
    split_ifs <;> simp
  · intro _ _
    refine wp_imp (wp_forN (fun _ _ => True) trivial ?_) fun _ _ => trivial
    intro i hi _ _
    obtain ⟨a1, a2, a3, a4⟩ := I.entry_bounds hi
    simp only [wp_bind, rd_hp a1, wp_ok, rd_bp a2]
    unfold check
    split_ifs <;> simp

theorem maybeTest_struct (I : SInv L H) : wp H.maybeTest (fun _ => True) (testExit H) := by
  unfold maybeTest
  by_cases h : H.isTest = true
  · rw [if_pos h]; exact wp_mono (test_struct I) (fun _ h => h) fun e he => ⟨he, h⟩
  · rw [if_neg h]; trivial

theorem new_sinv (n : Nat) (t : Bool) : SInv (fun _ => False) (Heap.new n t : Heap D) := by
  refine ⟨⟨by simp [new], by simp [new], by simp [new], by simp [new], by simp [new], by simp [new]⟩, ?_, ?_, ?_, ?_⟩
  · intro p hp; simp [new] at hp
  · intro k hk; exact hk.elim
  · intro k hk; simp [new] at hk
  · intro h; simp [new] at h

/-- the heap after the entry has been written and before sifting in `push` -/
abbrev pushRaw (a : Nat) (v : D) (H : Heap D) : Heap D :=
  { H with heap := H.heap.set H.heapLength H.listLength, address := H.address.set H.listLength a,
           distance := H.distance.set H.listLength v, backPointer := H.backPointer.set H.listLength H.heapLength,
           heapLength := H.heapLength + 1, listLength := H.listLength + 1 }

theorem pushRaw_hp (I : Shape H) (hc : H.listLength < H.maxLength) (a : Nat) (v : D) (p : Nat) :
    (pushRaw a v H).hp p = if p = H.heapLength then H.listLength else H.hp p := by
  simp only [hp, getD_set]
  have : H.heapLength < H.heap.length := by rw [I.hl]; have := I.le1; omega
  by_cases h : p = H.heapLength
  · rw [if_pos ⟨h.symm, h ▸ this⟩, if_pos h]
  · rw [if_neg (by tauto), if_neg h]

theorem pushRaw_bp (I : Shape H) (hc : H.listLength < H.maxLength) (a : Nat) (v : D) (k : Nat) :
    (pushRaw a v H).bp k = if k = H.listLength then H.heapLength else H.bp k := by
  simp only [bp, getD_set]
  have : H.listLength < H.backPointer.length := by rw [I.bl]; omega
  by_cases h : k = H.listLength
  · rw [if_pos ⟨h.symm, h ▸ this⟩, if_pos h]
  · rw [if_neg (by tauto), if_neg h]

theorem pushRaw_ds (I : Shape H) (hc : H.listLength < H.maxLength) (a : Nat) (v : D) (k : Nat) :
    (pushRaw a v H).ds k = if k = H.listLength then v else H.ds k := by
  simp only [ds, getD_set]
  have : H.listLength < H.distance.length := by rw [I.dl]; omega
  by_cases h : k = H.listLength
  · rw [if_pos ⟨h.symm, h ▸ this⟩, if_pos h]
  · rw [if_neg (by tauto), if_neg h]

theorem pushRaw_ad (I : Shape H) (hc : H.listLength < H.maxLength) (a : Nat) (v : D) (k : Nat) :
    (pushRaw a v H).ad k = if k = H.listLength then a else H.ad k := by
  simp only [ad, getD_set]
  have : H.listLength < H.address.length := by rw [I.al]; omega
  by_cases h : k = H.listLength
  · rw [if_pos ⟨h.symm, h ▸ this⟩, if_pos h]
  · rw [if_neg (by tauto), if_neg h]

theorem pushRaw_hole (I : SInv L H) (hc : H.listLength < H.maxLength) (a : Nat) (v : D) :
    Hole (fun j => L j ∨ j = H.listLength) H.listLength H.heapLength (pushRaw a v H) := by
  have S := I.sh
  refine ⟨⟨by simpa using S.dl, by simpa using S.hl, by simpa using S.al, by simpa using S.bl, ?_, ?_⟩, Nat.lt_succ_self _,
    Nat.lt_succ_self _, Or.inr rfl, ?_, ?_, ?_⟩
  · show H.heapLength + 1 ≤ H.listLength + 1
    have := S.le1; omega
  · exact hc
  · intro p hp hpp
    have hp : p < H.heapLength := by
      have : p < H.heapLength + 1 := hp
      omega
    rw [pushRaw_hp S hc, if_neg hpp]
    obtain ⟨p1, p2⟩ := I.entry p hp
    have p3 := (I.live _ p1).1
    refine ⟨Or.inl p1, by omega, ?_⟩
    rw [pushRaw_bp S hc, if_neg (by omega), p2]
  · intro k hk
    obtain hk | hk := hk
    · obtain ⟨k1, k2, k3⟩ := I.live k hk
      refine ⟨Nat.lt_succ_of_lt k1, fun hki => ?_⟩
      rw [pushRaw_bp S hc, if_neg hki, pushRaw_hp S hc, if_neg (by omega)]
      exact ⟨Nat.lt_succ_of_lt k2, by omega, k3⟩
    · subst hk; exact ⟨Nat.lt_succ_self _, fun h => absurd rfl h⟩
  · intro k hk hL
    have hk : k < H.listLength + 1 := hk
    have h1 : k ≠ H.listLength := fun h => hL (Or.inr h)
    rw [pushRaw_bp S hc, if_neg h1]
    exact I.dead k (by omega) fun h => hL (Or.inl h)

/-- what `push` does to the arrays other than `heap`/`backPointer` -/
structure Pushed (a : Nat) (v : D) (H H' : Heap D) : Prop where
  hl : H'.heapLength = H.heapLength + 1
  ll : H'.listLength = H.listLength + 1
  ml : H'.maxLength = H.maxLength
  t : H'.isTest = H.isTest
  ds : ∀ k, H'.ds k = if k = H.listLength then v else H.ds k
  ad : ∀ k, H'.ad k = if k = H.listLength then a else H.ad k

theorem Same.pushed {a : Nat} {v : D} {H' : Heap D} (I : Shape H) (hc : H.listLength < H.maxLength)
    (S : Same (pushRaw a v H) H') : Pushed a v H H' :=
  ⟨S.h, S.l, S.m, S.t, fun k => by rw [← pushRaw_ds I hc a v k]; exact S.ds k, fun k => by
    rw [← pushRaw_ad I hc a v k, Heap.ad, S.a]; rfl⟩

theorem push_unfold (I : SInv L H) (hc : H.listLength < H.maxLength) (a : Nat) (v : D) :
    push a v H = (siftDown 0 H.heapLength (pushRaw a v H) >>= fun H' => H'.maybeTest >>= fun _ =>
      pure (H'.listLength - 1, H')) := by
  have S := I.sh
  have := S.le1
  unfold push
  rw [decide_eq_true (show H.heapLength < H.maxLength by omega), check_true]
  simp only [bind, Except.bind]
  rw [wr_eq _ (by rw [S.hl]; omega)]
  simp only []
  rw [wr_eq _ (by rw [S.al]; omega)]
  simp only []
  rw [wr_eq _ (by rw [S.dl]; omega)]
  simp only []
  rw [wr_eq _ (by rw [S.bl]; omega)]
  simp only [Nat.add_sub_cancel]

theorem push_struct (I : SInv L H) (hc : H.listLength < H.maxLength) (a : Nat) (v : D) :
    wp (push a v H) (fun r => r.1 = H.listLength ∧ SInv (fun j => L j ∨ j = H.listLength) r.2 ∧ Pushed a v H r.2)
      (testExit H) := by
  rw [push_unfold I hc, wp_bind]
  refine wp_mono (siftDown_struct 0 (pushRaw_hole I hc a v) (by rw [pushRaw_hp I.sh hc, if_pos rfl])) ?_ ?_
  · rintro H' ⟨I', S'⟩
    have P := S'.pushed I.sh hc
    rw [wp_bind]
    refine wp_mono (maybeTest_struct I') ?_ ?_
    · intro _ _
      rw [wp_pure]
      exact ⟨by simp [P.ll], I', P⟩
    · rintro e ⟨h1, h2⟩; exact ⟨h1, by rw [← P.t]; exact h2⟩
  · intro e he; exact he.elim

/-- the heap just before sifting in `pop` -/
abbrev popRaw (H : Heap D) : Heap D :=
  { H with heap := H.heap.set 0 (H.hp (H.heapLength - 1)),
           backPointer := H.backPointer.set (H.hp (H.heapLength - 1)) 0,
           heapLength := H.heapLength - 1 }

theorem pop_unfold (I : SInv L H) (h0 : 0 < H.heapLength) :
    pop H = (siftUp 0 (popRaw H) >>= fun H' => H'.maybeTest >>= fun _ => pure (H.ad (H.hp 0), H.ds (H.hp 0), H')) := by
  obtain ⟨a1, a2, a3, a4⟩ := I.entry_bounds h0
  obtain ⟨b1, b2, b3, b4⟩ := I.entry_bounds (p := H.heapLength - 1) (by omega)
  unfold pop
  have : (H.heapLength != 0) = true := by simp; omega
  rw [this, check_true]
  simp only [bind, Except.bind, rd_hp a1, rd_ad a4, rd_ds a3, rd_hp b1, wr_eq _ a1, wr_eq _ b2]

theorem popRaw_hole (I : SInv L H) (h1 : 1 < H.heapLength) :
    Hole (fun j => L j ∧ j ≠ H.hp 0) (H.hp (H.heapLength - 1)) 0 (popRaw H) ∧
      (popRaw H).hp 0 = H.hp (H.heapLength - 1) ∧ (∀ p, p ≠ 0 → (popRaw H).hp p = H.hp p) := by
  have S := I.sh
  obtain ⟨a1, a2, a3, a4⟩ := I.entry_bounds (p := 0) (by omega)
  obtain ⟨b1, b2, b3, b4⟩ := I.entry_bounds (p := H.heapLength - 1) (by omega)
  obtain ⟨c1, c2⟩ := I.entry 0 (by omega)
  obtain ⟨d1, d2⟩ := I.entry (H.heapLength - 1) (by omega)
  have hne : H.hp (H.heapLength - 1) ≠ H.hp 0 := by
    intro h; rw [h, c2] at d2; omega
  have e1 : ∀ p, (popRaw H).hp p = if p = 0 then H.hp (H.heapLength - 1) else H.hp p := by
    intro p
    simp only [hp, getD_set]
    by_cases h : p = 0
    · subst h; simp [a1]
    · rw [if_neg (by omega), if_neg h]
  have e2 : ∀ k, (popRaw H).bp k = if k = H.hp (H.heapLength - 1) then 0 else H.bp k := by
    intro k
    simp only [bp, getD_set]
    by_cases h : k = H.hp (H.heapLength - 1)
    · rw [if_pos ⟨h.symm, h ▸ b2⟩, if_pos h]
    · rw [if_neg (by tauto), if_neg h]
  refine ⟨⟨⟨S.dl, by simpa using S.hl, S.al, by simpa using S.bl, ?_, S.le2⟩, ?_, ?_, ⟨d1, hne⟩, ?_, ?_, ?_⟩, ?_, ?_⟩
  · show H.heapLength - 1 ≤ H.listLength
    have := S.le1; omega
  · show 0 < H.heapLength - 1
    omega
  · exact (I.live _ d1).1
  · intro p hp hpp
    have hp : p < H.heapLength - 1 := hp
    rw [e1, if_neg hpp]
    obtain ⟨p1, p2⟩ := I.entry p (by omega)
    have q1 : H.hp p ≠ H.hp (H.heapLength - 1) := by intro h; rw [h, d2] at p2; omega
    refine ⟨⟨p1, ?_⟩, q1, ?_⟩
    · intro h; rw [h, c2] at p2; omega
    · rw [e2, if_neg q1, p2]
  · rintro k ⟨hk, hk0⟩
    obtain ⟨k1, k2, k3⟩ := I.live k hk
    refine ⟨k1, fun hki => ?_⟩
    have q0 : H.bp k ≠ 0 := by intro h; rw [h] at k3; exact hk0 k3.symm
    have q1 : H.bp k ≠ H.heapLength - 1 := by intro h; rw [h] at k3; exact hki k3.symm
    rw [e2, if_neg hki, e1, if_neg q0]
    refine ⟨?_, q0, k3⟩
    show H.bp k < H.heapLength - 1
    omega
  · intro k hk hL
    rw [e2]
    by_cases h : k = H.hp (H.heapLength - 1)
    · rw [if_pos h]
    · rw [if_neg h]
      by_cases hLk : L k
      · have : k = H.hp 0 := by by_contra hc; exact hL ⟨hLk, hc⟩
        rw [this, c2]
      · exact I.dead k hk hLk
  · rw [e1, if_pos rfl]
  · intro p hp; rw [e1, if_neg hp]

/-- what `pop` leaves unchanged -/
structure Popped (H H' : Heap D) : Prop where
  hl : H'.heapLength = H.heapLength - 1
  ll : H'.listLength = H.listLength
  ml : H'.maxLength = H.maxLength
  t : H'.isTest = H.isTest
  d : H'.distance = H.distance
  a : H'.address = H.address

/-- `pop` of the last entry -/
theorem popRaw_last (I : SInv L H) (h1 : H.heapLength = 1) :
    wp (siftUp 0 (popRaw H)) (fun H' => SInv (fun j => L j ∧ j ≠ H.hp 0) H' ∧ Popped H H') noErr := by
  have S := I.sh
  obtain ⟨a1, a2, a3, a4⟩ := I.entry_bounds (p := 0) (by omega)
  obtain ⟨c1, c2⟩ := I.entry 0 (by omega)
  have c3 := (I.live _ c1).1
  have e1 : (popRaw H).hp 0 = H.hp 0 := by
    simp only [hp, getD_set, h1]; simp [a1]
  rw [siftUp_empty (H := popRaw H) ⟨S.dl, by simpa using S.hl, S.al, by simpa using S.bl, by show H.heapLength - 1 ≤ _; omega, S.le2⟩
    (by show H.heapLength - 1 = 0; omega) (by show 0 < H.listLength; omega) (by rw [e1]; exact c3), wp_ok]
  have hL : ∀ j, ¬ (L j ∧ j ≠ H.hp 0) := by
    rintro j ⟨hj, hj0⟩
    obtain ⟨k1, k2, k3⟩ := I.live j hj
    rw [show H.bp j = 0 by omega] at k3; exact hj0 k3.symm
  refine ⟨⟨⟨S.dl, by simpa using S.hl, S.al, by simpa using S.bl, by show H.heapLength - 1 ≤ _; omega, S.le2⟩, ?_, ?_, ?_, ?_⟩,
    ⟨rfl, rfl, rfl, rfl, rfl, rfl⟩⟩
  · intro p hp
    have : p < H.heapLength - 1 := hp
    omega
  · intro k hk; exact (hL k hk).elim
  · intro k hk _
    have hb : H.bp k = 0 := by
      by_cases hLk : L k
      · obtain ⟨k1, k2, k3⟩ := I.live k hLk
        omega
      · exact I.dead k hk hLk
    simp only [bp, getD_set]
    split_ifs
    · rfl
    · rfl
    · exact hb
  · intro _
    show Heap.hp _ 0 < H.listLength
    rw [e1]
    simp only [hp, getD_set]
    rw [if_pos ⟨trivial, by simpa using a1⟩]; exact c3

theorem pop_struct (I : SInv L H) (h0 : 0 < H.heapLength) :
    wp (pop H) (fun r => r.1 = H.ad (H.hp 0) ∧ r.2.1 = H.ds (H.hp 0) ∧ SInv (fun j => L j ∧ j ≠ H.hp 0) r.2.2 ∧
      Popped H r.2.2) (testExit H) := by
  rw [pop_unfold I h0, wp_bind]
  have key : wp (siftUp 0 (popRaw H)) (fun H' => SInv (fun j => L j ∧ j ≠ H.hp 0) H' ∧ Popped H H') noErr := by
    by_cases h1 : H.heapLength = 1
    · exact popRaw_last I h1
    · obtain ⟨J, j1, -⟩ := popRaw_hole I (by omega)
      exact wp_imp (siftUp_struct J j1) fun H' h => ⟨h.1, ⟨h.2.h, h.2.l, h.2.m, h.2.t, h.2.d, h.2.a⟩⟩
  refine wp_mono key ?_ fun e he => he.elim
  rintro H' ⟨I', P⟩
  rw [wp_bind]
  refine wp_mono (maybeTest_struct I') ?_ ?_
  · intro _ _
    exact ⟨rfl, rfl, I', P⟩
  · rintro e ⟨h1, h2⟩; exact ⟨h1, by rw [← P.t]; exact h2⟩

theorem pop_empty (h0 : H.heapLength = 0) : pop H = .error .exit := by
  unfold pop; rw [h0]; rfl

/-- the heap after the value has been overwritten in `set` -/
abbrev setRaw (k : Nat) (v : D) (H : Heap D) : Heap D := { H with distance := H.distance.set k v }

theorem setRaw_ds (S : Shape H) {k : Nat} (hk : k < H.listLength) (v : D) (j : Nat) :
    (setRaw k v H).ds j = if j = k then v else H.ds j := by
  have : k < H.distance.length := by rw [S.dl]; have := S.le2; omega
  simp only [ds, getD_set]
  by_cases h : j = k
  · rw [if_pos ⟨h.symm, h ▸ this⟩, if_pos h]
  · rw [if_neg (by tauto), if_neg h]

theorem setRaw_sinv (I : SInv L H) (k : Nat) (v : D) : SInv L (setRaw k v H) :=
  ⟨⟨by simpa using I.sh.dl, I.sh.hl, I.sh.al, I.sh.bl, I.sh.le1, I.sh.le2⟩, I.entry, I.live, I.dead, I.top⟩

/-- what `set` does to the arrays other than `heap`/`backPointer` -/
structure SetTo (k : Nat) (v : D) (H H' : Heap D) : Prop where
  hl : H'.heapLength = H.heapLength
  ll : H'.listLength = H.listLength
  ml : H'.maxLength = H.maxLength
  t : H'.isTest = H.isTest
  a : H'.address = H.address
  ds : ∀ j, H'.ds j = if j = k then v else H.ds j

theorem Same.setTo {k : Nat} {v : D} {H' : Heap D} (I : Shape H) (hk : k < H.listLength)
    (S : Same (setRaw k v H) H') : SetTo k v H H' :=
  ⟨S.h, S.l, S.m, S.t, S.a, fun j => by rw [← setRaw_ds I hk v j]; exact S.ds j⟩

/-- the conditional `siftUp` of `set` -/
def setUp (k : Nat) (v : D) (H : Heap D) : Res (Heap D) :=
  if FP.lt (H.ds k) v then siftUp (H.bp k) (setRaw k v H) else .ok (setRaw k v H)

theorem set_unfold (I : SInv L H) {k : Nat} (hk : k < H.listLength) (v : D) :
    set k v H = (setUp k v H >>= fun H' => rd H'.heap (H.bp k) >>= fun hpos => rd H'.distance hpos >>= fun d =>
      if !(FP.eq d v) then H'.maybeTest >>= fun _ => pure H'
      else siftDown 0 (H.bp k) H' >>= fun H'' => H''.maybeTest >>= fun _ => pure H'') := by
  have b1 : k < H.distance.length := by rw [I.sh.dl]; have := I.sh.le2; omega
  have b2 : k < H.backPointer.length := by rw [I.sh.bl]; have := I.sh.le2; omega
  unfold set setUp
  simp only [bind, Except.bind, rd_ds b1, wr_eq _ b1, rd_bp b2, pure, Except.pure]
  by_cases h : FP.lt (H.ds k) v = true
  · simp only [if_pos h]
  · simp only [if_neg h]

/-- a position that `set` looks at is a heap position, or the heap is empty -/
theorem SInv.bp_cases (I : SInv L H) {k : Nat} (hk : k < H.listLength) :
    H.bp k < H.heapLength ∨ (H.heapLength = 0 ∧ H.bp k = 0) := by
  by_cases hL : L k
  · exact Or.inl (I.live k hL).2.1
  · rw [I.dead k hk hL]; omega

/-- `siftUp(0)` on an empty heap preserves the invariant. -/
theorem siftUp_empty_struct (I : SInv L H) (h0 : H.heapLength = 0) (hl : 0 < H.listLength) :
    wp (siftUp 0 H) (fun H' => SInv L H' ∧ Same H H') noErr := by
  have ht := I.top hl
  have S := I.sh
  rw [siftUp_empty S h0 hl ht, wp_ok]
  have a1 : 0 < H.heap.length := by rw [S.hl]; have := S.le2; omega
  have hL : ∀ j, ¬ L j := fun j hj => by have := (I.live j hj).2.1; omega
  refine ⟨⟨⟨S.dl, by simpa using S.hl, S.al, by simpa using S.bl, S.le1, S.le2⟩, ?_, ?_, ?_, ?_⟩, ⟨rfl, rfl, rfl, rfl, rfl, rfl⟩⟩
  · intro p hp
    have : p < H.heapLength := hp
    omega
  · intro k hk; exact (hL k hk).elim
  · intro k hk _
    have hb : H.bp k = 0 := I.dead k hk (hL k)
    simp only [bp, getD_set]
    split_ifs
    · rfl
    · exact hb
  · intro _
    show Heap.hp _ 0 < H.listLength
    simp only [hp, getD_set]
    rw [if_pos ⟨trivial, a1⟩]; exact ht

theorem siftDown_empty_struct (I : SInv L H) (h0 : H.heapLength = 0) (hl : 0 < H.listLength) :
    wp (siftDown 0 0 H) (fun H' => SInv L H' ∧ Same H H') noErr := by
  have h := siftUp_empty_struct I h0 hl
  have ht := I.top hl
  have S := I.sh
  have a1 : 0 < H.heap.length := by rw [S.hl]; have := S.le2; omega
  have b2 : H.hp 0 < H.backPointer.length := by rw [S.bl]; have := S.le2; omega
  rw [siftUp_empty S h0 hl ht, wp_ok] at h
  unfold siftDown
  simp only [bind, Except.bind, rd_hp a1]
  rw [siftDownLoop]
  simp only [Nat.lt_irrefl, if_false, pure, Except.pure, wr_eq _ a1, wr_eq _ b2, wp_ok]
  exact h

theorem set_struct (I : SInv L H) {k : Nat} (hk : k < H.listLength) (v : D) :
    wp (set k v H) (fun H' => SInv L H' ∧ SetTo k v H H') (testExit H) := by
  rw [set_unfold I hk, wp_bind]
  have I0 := setRaw_sinv I k v
  have hup : wp (setUp k v H) (fun H' => SInv L H' ∧ Same (setRaw k v H) H') noErr := by
    unfold setUp
    refine wp_ite (fun _ => ?_) fun _ => ⟨I0, Same.refl _⟩
    obtain hb | ⟨h0, hb⟩ := I.bp_cases hk
    · exact siftUp_struct (I0.hole hb) rfl
    · rw [hb]; exact siftUp_empty_struct I0 h0 (by show 0 < H.listLength; omega)
  refine wp_mono hup ?_ fun e he => he.elim
  rintro H' ⟨I', S'⟩
  have hl : 0 < H'.listLength := by rw [S'.l]; show 0 < H.listLength; omega
  have hpos : H.bp k < H'.heap.length := by
    rw [I'.sh.hl, S'.m]; show H.bp k < H.maxLength
    have := I.sh.le1; have := I.sh.le2
    obtain hb | ⟨h0, hb⟩ := I.bp_cases hk <;> omega
  have hent : H'.hp (H.bp k) < H'.distance.length := by
    rw [I'.sh.dl]
    have h2 := I'.sh.le2
    obtain hb | ⟨h0, hb⟩ := I.bp_cases hk
    · have := (I'.live _ (I'.entry (H.bp k) (by rw [S'.h]; exact hb)).1).1; omega
    · rw [hb]; have := I'.top hl; omega
  simp only [wp_bind, rd_hp hpos, wp_ok, rd_ds hent]
  refine wp_ite (fun _ => ?_) fun _ => ?_
  · rw [wp_bind]
    refine wp_mono (maybeTest_struct I') ?_ ?_
    · intro _ _; exact ⟨I', S'.setTo I.sh hk⟩
    · rintro e ⟨h1, h2⟩; exact ⟨h1, by rw [S'.t] at h2; exact h2⟩
  · rw [wp_bind]
    have hdn : wp (siftDown 0 (H.bp k) H') (fun H'' => SInv L H'' ∧ Same H' H'') noErr := by
      obtain hb | ⟨h0, hb⟩ := I.bp_cases hk
      · exact siftDown_struct 0 (I'.hole (by rw [S'.h]; exact hb)) rfl
      · rw [hb]; exact siftDown_empty_struct I' (by rw [S'.h]; exact h0) hl
    refine wp_mono hdn ?_ fun e he => he.elim
    rintro H'' ⟨I'', S''⟩
    have S2 := S'.trans S''
    rw [wp_bind]
    refine wp_mono (maybeTest_struct I'') ?_ ?_
    · intro _ _; exact ⟨I'', S2.setTo I.sh hk⟩
    · rintro e ⟨h1, h2⟩; exact ⟨h1, by rw [S2.t] at h2; exact h2⟩

end

end Heap

end Slsm
