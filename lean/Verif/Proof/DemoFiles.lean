import Verif.Spec.DemoFiles
import Verif.Proof.IOFile

/-! # The loops that read the files of the demo programs -/

namespace Slsm.Program

open Slsm Slsm.IO

variable {D : Type} [Txt D]

theorem yields_exists (s : Stream) : ∃ ys x, Yields (D := D) s ys x := by
  induction hn : s.rest.length using Nat.strong_induction_on generalizing s with
  | _ n ih =>
    obtain ⟨t, x, e⟩ : ∃ t x, extract (D := D) s = (t, x) := ⟨_, _, rfl⟩
    have hl := extract_length (D := D) s
    rw [e] at hl
    cases hf : t.fail with
    | true => exact ⟨[], x, .done e hf⟩
    | false =>
      cases x with
      | none =>
        exfalso
        unfold extract at e
        split at e
        · simp only [Prod.mk.injEq] at e; rw [← e.1] at hf; simp at hf
        · split at e
          · simp only [Prod.mk.injEq] at e; rw [← e.1] at hf; simp at hf
          · simp at e
      | some y =>
        obtain ⟨ys, x, h⟩ := ih _ (by have := hl.2 hf; dsimp only at this; omega) t rfl
        exact ⟨y :: ys, x, .more e hf h⟩

theorem Yields.unique {s : Stream} {ys zs : List D} {x z : Option D} (h : Yields s ys x) (h' : Yields s zs z) : ys = zs ∧ x = z := by
  induction h generalizing zs z with
  | done h hf =>
    cases h' with
    | done h1 _ => rw [h] at h1; cases h1; exact ⟨rfl, rfl⟩
    | more h1 hf1 _ => rw [h] at h1; cases h1; rw [hf] at hf1; cases hf1
  | more h hf _ ih =>
    cases h' with
    | done h1 hf1 => rw [h] at h1; cases h1; rw [hf] at hf1; cases hf1
    | more h1 _ h2 =>
      rw [h] at h1; cases h1
      obtain ⟨rfl, rfl⟩ := ih h2
      exact ⟨rfl, rfl⟩

theorem Yields.length {s : Stream} {ys : List D} {x : Option D} (h : Yields s ys x) : ys.length ≤ s.rest.length := by
  induction h with
  | done => simp
  | @more s t y ys x h hf _ ih =>
    have := (extract_length (D := D) s).2
    rw [h] at this
    have := this hf
    dsimp only at this
    simp only [List.length_cons]
    omega

theorem Yields.delivers {s : Stream} {ys : List D} {x : Option D} (h : Yields s ys x) : Delivers s ys := by
  induction h with
  | done h hf => exact .done (by rw [h]; exact hf)
  | more h hf _ ih => exact .more h hf ih

theorem Reads.yields {ys : List D} {cs : Text} (h : Reads ys cs) : Yields ⟨cs, false, false⟩ ys none := by
  induction ys generalizing cs with
  | nil => exact .done (extract_nil h) rfl
  | cons y ys ih =>
    obtain ⟨t, e, r, -⟩ := extract_cons h
    exact .more e rfl (ih r)

theorem readValues_succ (a : Bool) (n : Nat) (s : Loader D) :
    readValues a (n + 1) s = (readNode.inRange (a && s.distance.length ≤ s.node) >>= fun _ =>
      readNode.store (extract (D := D) s.stream).2 s.distance s.node >>= fun v =>
        if (extract (D := D) s.stream).1.fail then pure { s with stream := (extract (D := D) s.stream).1, distance := v }
        else readValues a n ⟨(extract (D := D) s.stream).1, v, u32 (s.node + 1)⟩) := rfl

/-- What the loop does for a stream that delivers `ys` and then fails. -/
theorem readValues_eq (a : Bool) {s : Stream} {ys : List D} {x : Option D} (h : Yields s ys x) {v : List D} {k n : Nat} (hk : k ≤ v.length)
    (hv : v.length < 2 ^ 32) (hn : ys.length < n) :
    (k + ys.length + (if a = true ∨ x.isSome = true then 1 else 0) ≤ v.length →
      ∃ r, readValues a n ⟨s, v, k⟩ = .ok r ∧ r.distance = v.take k ++ ys ++ x.toList ++ v.drop (k + ys.length + x.toList.length)) ∧
    (v.length < k + ys.length + (if a = true ∨ x.isSome = true then 1 else 0) → readValues a n ⟨s, v, k⟩ = .error .ub) := by
  induction h generalizing v k n with
  | @done s t x h hf =>
    obtain ⟨n, rfl⟩ : ∃ j, n = j + 1 := ⟨n - 1, by omega⟩
    rw [readValues_succ]
    dsimp only
    rw [h]
    dsimp only
    rw [hf]
    simp only [List.length_nil, Nat.add_zero, List.append_nil, if_true]
    by_cases hkv : k < v.length
    · have hr : (a && decide (v.length ≤ k)) = false := by simp [hkv]
      refine ⟨fun _ => ?_, fun h => ?_⟩
      · rw [hr]
        cases x with
        | none => exact ⟨_, rfl, by simp⟩
        | some y =>
          refine ⟨⟨t, v.set k y, k⟩, ?_, ?_⟩
          · show (wr v k y >>= _) = _
            unfold wr
            rw [if_pos hkv]; rfl
          · show v.set k y = _
            rw [List.set_eq_take_append_cons_drop, if_pos hkv]
            simp
      · split at h <;> omega
    · have hke : k = v.length := by omega
      subst hke
      refine ⟨fun h => ?_, fun h => ?_⟩
      · split at h
        · omega
        · rename_i hax
          simp only [not_or, Bool.not_eq_true] at hax
          obtain ⟨rfl, hx⟩ := hax
          cases x with
          | some y => simp at hx
          | none => exact ⟨_, rfl, by simp⟩
      · split at h
        · rename_i hax
          cases a with
          | true => simp [readNode.inRange, bind, Except.bind]
          | false =>
            cases x with
            | none => simp at hax
            | some y => simp [readNode.inRange, readNode.store, wr, bind, Except.bind]
        · omega
  | @more s t y ys x h hf _ ih =>
    obtain ⟨n, rfl⟩ : ∃ j, n = j + 1 := ⟨n - 1, by omega⟩
    rw [readValues_succ]
    dsimp only
    rw [h]
    dsimp only
    rw [hf]
    simp only [List.length_cons] at hn ⊢
    by_cases hkv : k < v.length
    · have hr : (a && decide (v.length ≤ k)) = false := by simp [hkv]
      have e : ∀ r, (readNode.inRange (a && decide (v.length ≤ k)) >>= fun _ => readNode.store (some y) v k >>= fun v =>
          if false = true then pure (⟨t, v, k⟩ : Loader D) else readValues a n ⟨t, v, u32 (k + 1)⟩) = r ↔
          readValues a n ⟨t, v.set k y, k + 1⟩ = r := by
        intro r
        rw [hr]
        show ((wr v k y >>= _) = _) ↔ _
        unfold wr
        rw [if_pos hkv, show u32 (k + 1) = k + 1 from u32_of_lt (by omega)]
        rfl
      have key := ih (v := v.set k y) (k := k + 1) (n := n) (by simp; omega) (by simpa using hv) (by omega)
      simp only [List.length_set] at key
      refine ⟨fun hle => ?_, fun hlt => ?_⟩
      · obtain ⟨r, h1, h2⟩ := key.1 (by omega)
        refine ⟨r, (e _).2 h1, ?_⟩
        rw [h2, take_set _ hkv, List.drop_set_of_lt (by omega)]
        simp only [List.append_assoc, List.cons_append]
        rw [show k + 1 + ys.length + x.toList.length = k + (ys.length + 1) + x.toList.length by omega]
        simp
      · exact (e _).2 (key.2 (by omega))
    · refine ⟨fun _ => by omega, fun _ => ?_⟩
      cases a with
      | true =>
        have : (true && decide (v.length ≤ k)) = true := by simp; omega
        rw [this]; rfl
      | false =>
        show (wr v k y >>= _) = _
        unfold wr
        rw [if_neg hkv]; rfl

theorem readPoints_eq {s : Stream} {ys : List D} {x : Option D} (h : Yields s ys x) {n : Nat} (hn : ys.length < n) (l : List (Coord D)) :
    readPoints n s l = .ok (l ++ pairs ys) := by
  induction hm : ys.length using Nat.strong_induction_on generalizing s ys n l with
  | _ m ih =>
    obtain ⟨n, rfl⟩ : ∃ j, n = j + 1 := ⟨n - 1, by omega⟩
    unfold readPoints
    cases h with
    | done h hf =>
      rw [h]
      cases x with
      | none => simp [pairs]
      | some x => simp [pairs, hf]
    | @more _ t y ys _ h hf hs =>
      rw [h]
      dsimp only
      rw [hf, if_neg (by simp)]
      cases hs with
      | done h hf =>
        rw [h]
        cases x with
        | none => simp [pairs]
        | some x => simp [pairs, hf]
      | @more _ u z ys _ h hf hs =>
        rw [h]
        dsimp only
        rw [hf, if_neg (by simp)]
        simp only [List.length_cons] at hm hn
        rw [ih ys.length (by omega) hs (by omega) _ rfl]
        simp [pairs]

end Slsm.Program
