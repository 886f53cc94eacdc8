import Verif.Spec.Extend
import Verif.Proof.Scaling

/-! # Calculation in larger number systems: meshes, heaps and the march -/

namespace Slsm

open LevelSet (map_bind' bind_map' rd_map' forN_map)

section
variable {α β γ : Type}

theorem map_ok' (f : α → β) (a : α) : (Except.ok a : Res α).map f = .ok (f a) := rfl

theorem map_pure' (f : α → β) (a : α) : (pure a : Res α).map f = .ok (f a) := rfl

theorem map_err' (f : α → β) (e : Err) : (Except.error e : Res α).map f = .error e := rfl

theorem pure_ok' (a : α) : (pure a : Res α) = .ok a := rfl

theorem ok_bind' (a : α) (f : α → Res β) : (Except.ok a : Res α) >>= f = f a := rfl

theorem map_ite' {c : Prop} [Decidable c] (f : α → β) (x y : Res α) : (if c then x else y).map f = if c then x.map f else y.map f := by
  split <;> rfl

theorem map_map' (f : α → β) (h : β → γ) (x : Res α) : (x.map f).map h = x.map fun a => h (f a) := by cases x <;> rfl

theorem map_id' (x : Res α) : (x.map fun a => a) = x := by cases x <;> rfl

theorem wr_map' (g : α → β) (l : List α) (i : Nat) (a : α) : wr (l.map g) i (g a) = (wr l i a).map (List.map g) := by
  unfold wr
  rw [List.length_map]
  split
  · rw [map_ok', List.map_set]
  · rfl

theorem modAt_map' (g : α → β) {f : α → Res α} {f' : β → Res β} (h : ∀ a, f' (g a) = (f a).map g) (l : List α) (i : Nat) :
    modAt (l.map g) i f' = (modAt l i f).map (List.map g) := by
  unfold modAt
  rw [rd_map', bind_map', map_bind']
  refine bind_congr fun a => ?_
  rw [h, bind_map', map_bind']
  refine bind_congr fun b => ?_
  rw [wr_map']

theorem whileN_map (T : α → β) {c : α → Bool} {c' : β → Bool} {f : α → Res α} {f' : β → Res β} (hc : ∀ s, c' (T s) = c s)
    (h : ∀ s, c s = true → f' (T s) = (f s).map T) (n : Nat) (s : α) : whileN n c' f' (T s) = (whileN n c f s).map T := by
  induction n generalizing s with
  | zero =>
    unfold whileN
    rw [hc]
    split <;> rfl
  | succ n ih =>
    unfold whileN
    rw [hc]
    by_cases hs : c s = true
    · rw [if_pos hs, if_pos hs, h s hs, bind_map', map_bind']
      exact bind_congr fun a => ih a
    · rw [if_neg hs, if_neg hs]; rfl

/-- A loop with an invariant. -/
theorem forN_map_inv (T : α → β) (P : α → Prop) {f : Nat → α → Res α} {f' : Nat → β → Res β} (n : Nat) {s : α} (h0 : P s)
    (h : ∀ i s, i < n → P s → f' i (T s) = (f i s).map T ∧ ∀ t, f i s = .ok t → P t) :
    forN n (T s) f' = (forN n s f).map T ∧ ∀ t, forN n s f = .ok t → P t := by
  induction n with
  | zero => exact ⟨rfl, fun t ht => by cases ht; exact h0⟩
  | succ n ih =>
    obtain ⟨h1, h2⟩ := ih fun i s hi => h i s (by omega)
    change (forN n (T s) f' >>= f' n = (forN n s f >>= f n).map T) ∧ ∀ t, (forN n s f >>= f n) = .ok t → P t
    rw [h1]
    cases e : forN n s f with
    | error e => exact ⟨rfl, fun t ht => by cases ht⟩
    | ok t => exact h n t (by omega) (h2 t e)

end

variable {E : Type} [FP E] {g : ℝ → E}

namespace Extends

variable (H : Extends g)

include H

theorem lit {n d : Nat} (hd : d ≠ 0) : (FP.lit n d : E) = g (FP.lit n d) := by
  unfold FP.lit
  rw [H.nat, H.nat, H.div _ _ (by exact_mod_cast hd)]
  rfl

theorem lt_eq (a b : ℝ) : FP.lt (g a) (g b) = FP.lt a b := by
  rw [Bool.eq_iff_iff, H.lt, FP.lt_real]

theorem le_eq (a b : ℝ) : FP.le (g a) (g b) = FP.le a b := by
  rw [Bool.eq_iff_iff, H.le, FP.le_real]

theorem eq_eq (a b : ℝ) : FP.eq (g a) (g b) = FP.eq a b := by
  rw [Bool.eq_iff_iff, H.eq, FP.eq_real]

theorem floor_eq (a : ℝ) : FP.floor (g a) = FP.floor a := H.floor a

theorem trunc_eq (a : ℝ) : FP.trunc (g a) = FP.trunc a := H.trunc a

theorem add' (a b : ℝ) : FP.add (g a) (g b) = g (FP.add a b) := H.add a b
theorem sub' (a b : ℝ) : FP.sub (g a) (g b) = g (FP.sub a b) := H.sub a b
theorem mul' (a b : ℝ) : FP.mul (g a) (g b) = g (FP.mul a b) := H.mul a b
theorem neg' (a : ℝ) : FP.neg (g a) = g (FP.neg a) := H.neg a
theorem abs' (a : ℝ) : FP.abs (g a) = g (FP.abs a) := H.abs a
theorem nat' (n : Nat) : (FP.nat n : E) = g (FP.nat n) := H.nat n
theorem div' (a b : ℝ) (h : b ≠ 0) : FP.div (g a) (g b) = g (FP.div a b) := H.div a b h
theorem sqrt' (a : ℝ) (h : 0 ≤ a) : FP.sqrt (g a) = g (FP.sqrt a) := H.sqrt a h

theorem min' (a b : ℝ) : FP.min (g a) (g b) = g (FP.min a b) := by
  unfold FP.min; rw [H.lt_eq]; split <;> rfl

theorem max' (a b : ℝ) : FP.max (g a) (g b) = g (FP.max a b) := by
  unfold FP.max; rw [H.lt_eq]; split <;> rfl

theorem injective : Function.Injective g := fun a b h => by
  have := H.eq a a
  rw [show g a = g b from h] at this
  have h2 := (H.eq a b).1 (by rw [h]; exact (H.eq b b).2 rfl)
  exact h2

end Extends

/-! ## The heap -/

namespace Heap

variable (H : Extends g)

include H

theorem map_new (n : Nat) (t : Bool) : (Heap.new n t : Heap E) = (Heap.new n t : Heap ℝ).map g := by
  unfold Heap.new Heap.map
  simp only [List.map_replicate, H.nat']

theorem map_siftDownLoop (startPos newItem pos : Nat) (K : Heap ℝ) :
    siftDownLoop startPos newItem pos (K.map g) = (siftDownLoop startPos newItem pos K).map (Prod.map id (Heap.map g)) := by
  induction pos using Nat.strong_induction_on generalizing K with
  | _ pos ih =>
    rw [siftDownLoop, siftDownLoop]
    by_cases h : startPos < pos
    · rw [if_pos h, if_pos h]
      simp only [map_bind', Heap.map, rd_map', bind_map', H.lt_eq]
      refine bind_congr fun parent => bind_congr fun dn => bind_congr fun dp => ?_
      split
      · simp only [map_bind']
        refine bind_congr fun hp => bind_congr fun bp => ?_
        exact ih _ (by omega) { K with heap := hp, backPointer := bp }
      · rfl
    · rw [if_neg h, if_neg h]; rfl

theorem map_siftDown (startPos pos : Nat) (K : Heap ℝ) : siftDown startPos pos (K.map g) = (siftDown startPos pos K).map (Heap.map g) := by
  unfold siftDown
  simp only [map_bind']
  refine bind_congr fun newItem => ?_
  rw [map_siftDownLoop H, bind_map']
  refine bind_congr fun s => ?_
  simp only [Prod.map, map_bind']
  rfl

theorem map_minChild (c : Nat) (K : Heap ℝ) : minChild c (K.map g) = minChild c K := by
  unfold minChild
  simp only [Heap.map, rd_map', bind_map', H.lt_eq]

theorem map_siftUpLoop (fuel pos : Nat) (K : Heap ℝ) :
    siftUpLoop fuel pos (K.map g) = (siftUpLoop fuel pos K).map (Prod.map id (Heap.map g)) := by
  induction fuel generalizing pos K with
  | zero =>
    rw [siftUpLoop, siftUpLoop]
    show (if 2 * pos + 1 < K.heapLength then _ else _) = _
    split <;> rfl
  | succ fuel ih =>
    rw [siftUpLoop, siftUpLoop]
    show (if 2 * pos + 1 < K.heapLength then _ else _) = _
    split
    · rw [map_minChild H]
      simp only [map_bind']
      refine bind_congr fun c => bind_congr fun hc => bind_congr fun hp => bind_congr fun bp => ?_
      exact ih c { K with heap := hp, backPointer := bp }
    · rfl

theorem map_siftUp (pos : Nat) (K : Heap ℝ) : siftUp pos (K.map g) = (siftUp pos K).map (Heap.map g) := by
  unfold siftUp
  simp only [map_bind']
  refine bind_congr fun newItem => ?_
  show (siftUpLoop K.heapLength pos (K.map g) >>= _) = _
  rw [map_siftUpLoop H, bind_map']
  refine bind_congr fun s => ?_
  simp only [Prod.map, map_bind']
  refine bind_congr fun hp => ?_
  exact map_siftDown H pos s.1 { s.2 with heap := hp }

theorem map_test (K : Heap ℝ) : test (K.map g) = test K := by
  unfold test
  simp only [Heap.map, rd_map', bind_map', H.le_eq]

theorem map_maybeTest (K : Heap ℝ) : maybeTest (K.map g) = maybeTest K := by
  unfold maybeTest
  rw [map_test H]; rfl

theorem map_push (a : Nat) (v : ℝ) (K : Heap ℝ) : push a (g v) (K.map g) = (push a v K).map (Prod.map id (Heap.map g)) := by
  unfold push
  simp only [map_bind']
  show (check (decide (K.heapLength < K.maxLength)) >>= fun _ => wr K.heap K.heapLength K.listLength >>= fun hp => wr K.address K.listLength a >>= fun ad =>
    wr (K.distance.map g) K.listLength (g v) >>= fun ds => _) = _
  simp only [wr_map', bind_map']
  refine bind_congr fun _ => bind_congr fun hp => bind_congr fun ad => bind_congr fun ds => bind_congr fun bp => ?_
  have e := map_siftDown H 0 (K.heapLength + 1 - 1) { K with heap := hp, address := ad, distance := ds, backPointer := bp, heapLength := K.heapLength + 1, listLength := K.listLength + 1 }
  refine (congrArg (· >>= _) e).trans ?_
  rw [bind_map']
  refine bind_congr fun K' => ?_
  rw [map_maybeTest H]
  rfl

theorem map_pop (K : Heap ℝ) : pop (K.map g) = (pop K).map (Prod.map id (Prod.map g (Heap.map g))) := by
  unfold pop
  simp only [map_bind']
  show (check (K.heapLength != 0) >>= fun _ => rd K.heap 0 >>= fun h0 => rd K.address h0 >>= fun a =>
    rd (K.distance.map g) h0 >>= fun v => _) = _
  simp only [rd_map', bind_map']
  refine bind_congr fun _ => bind_congr fun h0 => bind_congr fun a => bind_congr fun v => bind_congr fun last => bind_congr fun hp => bind_congr fun bp => ?_
  have e := map_siftUp H 0 { K with heap := hp, backPointer := bp, heapLength := K.heapLength - 1 }
  refine (congrArg (· >>= _) e).trans ?_
  rw [bind_map']
  refine bind_congr fun K' => ?_
  rw [map_maybeTest H]
  rfl

theorem map_set (i : Nat) (v : ℝ) (K : Heap ℝ) : set i (g v) (K.map g) = (set i v K).map (Heap.map g) := by
  unfold set
  simp only [map_bind']
  show (rd (K.distance.map g) i >>= fun old => wr (K.distance.map g) i (g v) >>= fun ds => rd K.backPointer i >>= fun pos => _) = _
  simp only [rd_map', wr_map', bind_map', H.lt_eq]
  refine bind_congr fun old => bind_congr fun ds => bind_congr fun pos => ?_
  have key : ∀ K' : Heap ℝ, (rd (K'.map g).heap pos >>= fun h => rd (K'.map g).distance h >>= fun d => if (!FP.eq d (g v)) = true then
      ((K'.map g).maybeTest >>= fun _ => pure (K'.map g)) else siftDown 0 pos (K'.map g) >>= fun K => K.maybeTest >>= fun _ => pure K) =
      (rd K'.heap pos >>= fun h => rd K'.distance h >>= fun d => if (!FP.eq d v) = true then
      (K'.maybeTest >>= fun _ => pure K') else siftDown 0 pos K' >>= fun K => K.maybeTest >>= fun _ => pure K).map (Heap.map g) := by
    intro K'
    show (rd K'.heap pos >>= fun h => rd (K'.distance.map g) h >>= fun d => _) = _
    simp only [rd_map', bind_map', H.eq_eq, map_ite', map_bind', map_maybeTest H, map_siftDown H]
    rfl
  rw [map_ite']
  split
  · rw [map_bind']
    refine (congrArg (· >>= _) (map_siftUp H pos { K with distance := ds })).trans ?_
    rw [bind_map']
    exact bind_congr fun K' => key K'
  · exact key { K with distance := ds }

theorem map_peek (K : Heap ℝ) : peek (K.map g) = (peek K).map g := by
  unfold peek
  simp only [map_bind', ← rd_map']
  rfl

end Heap

end Slsm
