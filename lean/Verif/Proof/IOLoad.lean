import Verif.Proof.IOText
import Verif.Proof.Mesh

/-! # Writing and reading tables of numbers -/

namespace Slsm.IO

open Slsm

theorem lines_eq {n : Nat} {f : Nat → Res Text} {g : Nat → Text} (h : ∀ i, i < n → f i = .ok (g i)) :
    lines n f = .ok ((List.range n).flatMap g) := by
  unfold lines
  refine forN_eq (fun i => (List.range i).flatMap g) rfl fun i hi => ?_
  rw [h i hi, List.range_succ, List.flatMap_append]
  simp [bind, Except.bind, pure, Except.pure]

theorem countLines_newline (t : Text) : countLines ('\n' :: t) = countLines t + 1 := by
  rw [countLines.eq_def]; simp

theorem countLines_append {a : Text} (h : '\n' ∉ a) (t : Text) : countLines (a ++ '\n' :: t) = countLines t + 1 := by
  induction a with
  | nil => exact countLines_newline t
  | cons c a ih =>
    rw [List.mem_cons, not_or] at h
    rw [List.cons_append, countLines.eq_def]
    simp only [if_neg (Ne.symm h.1)]
    cases he : a ++ '\n' :: t with
    | nil => simp at he
    | cons d b =>
      dsimp only
      rw [← he]; exact ih h.2

variable {D : Type} [Txt D]

/-- Numbers separated by single spaces and ended by a line feed. -/
def row : List D → Text
  | [] => ['\n']
  | [x] => fmt x ++ ['\n']
  | x :: xs => fmt x ++ ' ' :: row xs

theorem Reads.space {ys : List D} {t : Text} (h : Reads ys t) {c : Char} (hc : isSpace c = true) : Reads ys (c :: t) := by
  cases h with
  | nil h => exact .nil (by rintro d (_ | ⟨_, hd⟩); exacts [hc, h _ hd])
  | @cons x y ys ws d t hw hx hd h =>
    rw [← List.cons_append]
    exact .cons (by rintro d (_ | ⟨_, hd⟩); exacts [hc, hw _ hd]) hx hd h

theorem reads_row {xs ys zs : List D} (h : List.Forall₂ Reread xs ys) {t : Text} (ht : Reads zs t) : Reads (ys ++ zs) (row xs ++ t) := by
  induction h with
  | nil => exact ht.space rfl
  | @cons x y xs ys hx h ih =>
    cases xs with
    | nil =>
      cases h
      show Reads (y :: zs) ((fmt x ++ ['\n']) ++ t)
      rw [List.append_assoc]
      exact Reads.cons (ws := []) (by simp) hx rfl (ht.space rfl)
    | cons x' xs =>
      show Reads (y :: (ys ++ zs)) ((fmt x ++ ' ' :: row (x' :: xs)) ++ t)
      rw [List.append_assoc]
      exact Reads.cons (ws := []) (by simp) hx rfl (ih.space rfl)

theorem count_row {xs : List D} (h : ∀ x ∈ xs, '\n' ∉ fmt x) (t : Text) : countLines (row xs ++ t) = countLines t + 1 := by
  have : ∃ a, row xs = a ++ ['\n'] ∧ '\n' ∉ a := by
    induction xs with
    | nil => exact ⟨[], rfl, by simp⟩
    | cons x xs ih =>
      have hn := h x (by simp)
      cases xs with
      | nil => exact ⟨fmt x, rfl, hn⟩
      | cons x' xs =>
        obtain ⟨a, e, ha⟩ := ih fun z hz => h z (List.mem_cons_of_mem _ hz)
        refine ⟨fmt x ++ ' ' :: a, ?_, ?_⟩
        · show fmt x ++ ' ' :: row (x' :: xs) = _
          rw [e]; simp
        · simp [hn, ha]
  obtain ⟨a, e, ha⟩ := this
  rw [e, List.append_assoc]
  exact countLines_append ha t

theorem reads_table {xss yss : List (List D)} (h : List.Forall₂ (List.Forall₂ Reread) xss yss) :
    Reads yss.flatten (xss.flatMap row) := by
  induction h with
  | nil => exact .nil (by simp)
  | cons h1 h2 ih => exact reads_row h1 ih

theorem count_table {xss : List (List D)} (h : ∀ xs ∈ xss, ∀ x ∈ xs, '\n' ∉ fmt x) : countLines (xss.flatMap row) = xss.length := by
  induction xss with
  | nil => rfl
  | cons xs xss ih =>
    rw [List.flatMap_cons, count_row (h xs (by simp)), ih fun z hz => h z (List.mem_cons_of_mem _ hz)]
    rfl

/-! ## The loops that read a file -/

/-- The numbers read in one turn: those before the signed distance, the signed distance, those after it. -/
structure Group (D : Type) where
  pre : List D
  main : D
  post : List D

def Group.all (g : Group D) : List D := g.pre ++ g.main :: g.post

theorem readNode_bad (lead : Nat) {cs : Text} (h : Reads (D := D) [] cs) (v : List D) (k : Nat) :
    readNode false lead ⟨⟨cs, false, false⟩, v, k⟩ = .ok ⟨⟨[], true, true⟩, v, k⟩ := by
  have h1 : extract (D := D) (skip (D := D) lead ⟨cs, false, false⟩) = (⟨[], true, true⟩, none) := by
    cases lead with
    | zero => exact extract_nil h
    | succ n => rw [skip_short h (by simp)]; rfl
  have e : readNode (D := D) false lead ⟨⟨cs, false, false⟩, v, k⟩ =
      (readNode.store (extract (D := D) (skip (D := D) lead ⟨cs, false, false⟩)).2 v k >>= fun w =>
        .ok ⟨skip (D := D) 2 (extract (D := D) (skip (D := D) lead ⟨cs, false, false⟩)).1, w, k⟩) := rfl
  rw [e, h1]
  show Except.ok (⟨skip (D := D) 2 ⟨[], true, true⟩, v, k⟩ : Loader D) = _
  rw [skip_bad]

theorem readNode_good {lead : Nat} {g : Group D} {zs : List D} (h1 : g.pre.length = lead) (h2 : g.post.length = 2) {cs : Text}
    (h : Reads (g.all ++ zs) cs) (a : Bool) (v : List D) (k : Nat) :
    ∃ t, Reads zs t ∧ t.length < cs.length ∧
      readNode a lead ⟨⟨cs, false, false⟩, v, k⟩ = if k < v.length then .ok ⟨⟨t, false, false⟩, v.set k g.main, k⟩ else .error .ub := by
  unfold Group.all at h
  rw [List.append_assoc] at h
  obtain ⟨t1, e1, r1, l1⟩ := skip_ok h
  rw [List.cons_append] at r1
  obtain ⟨t2, e2, r2, l2⟩ := extract_cons r1
  obtain ⟨t3, e3, r3, l3⟩ := skip_ok r2
  rw [h1] at e1
  rw [h2] at e3
  refine ⟨t3, r3, by omega, ?_⟩
  by_cases hk : k < v.length
  · have e : readNode (D := D) a lead ⟨⟨cs, false, false⟩, v, k⟩ =
        (readNode.inRange (a && decide (v.length ≤ k)) >>= fun _ => readNode.store (extract (D := D) (skip (D := D) lead ⟨cs, false, false⟩)).2 v k >>= fun w =>
          .ok ⟨skip (D := D) 2 (extract (D := D) (skip (D := D) lead ⟨cs, false, false⟩)).1, w, k⟩) := rfl
    have : (a && decide (v.length ≤ k)) = false := by simp [Nat.not_le.2 hk]
    rw [if_pos hk, e, this, e1, e2]
    show (wr v k g.main >>= _) = _
    rw [wr_eq _ hk]
    show Except.ok (⟨skip (D := D) 2 ⟨t2, false, false⟩, _, k⟩ : Loader D) = _
    rw [e3]
  · have e : readNode (D := D) a lead ⟨⟨cs, false, false⟩, v, k⟩ =
        (readNode.inRange (a && decide (v.length ≤ k)) >>= fun _ => readNode.store (extract (D := D) (skip (D := D) lead ⟨cs, false, false⟩)).2 v k >>= fun w =>
          .ok ⟨skip (D := D) 2 (extract (D := D) (skip (D := D) lead ⟨cs, false, false⟩)).1, w, k⟩) := rfl
    rw [if_neg hk, e, e1, e2]
    cases a
    · show (wr v k g.main >>= _) = _
      rw [wr_ub _ (by omega)]; rfl
    · have : (true && decide (v.length ≤ k)) = true := by simp; omega
      rw [this]; rfl

theorem readNodes_succ (a : Bool) (lead n : Nat) (s : Loader D) :
    readNodes a lead (n + 1) s = (readNode a lead s >>= fun s => if s.stream.fail then pure s else readNodes a lead n { s with node := u32 (s.node + 1) }) := rfl

theorem take_set {α : Type} {l : List α} {n : Nat} (a : α) (h : n < l.length) : (l.set n a).take (n + 1) = l.take n ++ [a] := by
  rw [List.take_add_one, List.take_set_of_le (le_refl n)]
  simp [h]

/-- A file with the right number of numbers. -/
theorem readNodes_ok {lead : Nat} {gs : List (Group D)} (h1 : ∀ g ∈ gs, g.pre.length = lead ∧ g.post.length = 2) {cs : Text}
    (h : Reads (gs.flatMap Group.all) cs) {v : List D} {k n : Nat} (hk : k + gs.length ≤ v.length) (hv : v.length < 2 ^ 32)
    (hn : cs.length < n) :
    readNodes false lead n ⟨⟨cs, false, false⟩, v, k⟩ =
      .ok ⟨⟨[], true, true⟩, v.take k ++ gs.map Group.main ++ v.drop (k + gs.length), k + gs.length⟩ := by
  induction gs generalizing cs v k n with
  | nil =>
    obtain ⟨n, rfl⟩ : ∃ j, n = j + 1 := ⟨n - 1, by omega⟩
    rw [readNodes_succ, readNode_bad lead h]
    simp [bind, Except.bind, pure, Except.pure]
  | cons g gs ih =>
    obtain ⟨n, rfl⟩ : ∃ j, n = j + 1 := ⟨n - 1, by omega⟩
    rw [List.length_cons] at hk
    rw [List.flatMap_cons] at h
    obtain ⟨t, r, l, e⟩ := readNode_good (h1 g (by simp)).1 (h1 g (by simp)).2 h false v k
    rw [readNodes_succ, e, if_pos (by omega)]
    show readNodes false lead n ⟨⟨t, false, false⟩, v.set k g.main, u32 (k + 1)⟩ = _
    rw [show u32 (k + 1) = k + 1 from u32_of_lt (by omega),
      ih (fun g hg => h1 g (List.mem_cons_of_mem _ hg)) r (by rw [List.length_set]; omega) (by rw [List.length_set]; exact hv) (by omega)]
    rw [take_set _ (by omega), List.drop_set_of_lt (by omega), List.length_cons]
    simp only [List.map_cons, List.append_assoc, List.singleton_append]
    rw [show k + 1 + gs.length = k + (gs.length + 1) by omega]

/-- A file with too many numbers. -/
theorem readNodes_ub {lead : Nat} {gs : List (Group D)} (h1 : ∀ g ∈ gs, g.pre.length = lead ∧ g.post.length = 2) {zs : List D} {cs : Text}
    (h : Reads (gs.flatMap Group.all ++ zs) cs) {v : List D} {k n : Nat} (hk : v.length < k + gs.length) (hkv : k ≤ v.length) (hv : v.length < 2 ^ 32)
    (hn : cs.length < n) (a : Bool) :
    readNodes a lead n ⟨⟨cs, false, false⟩, v, k⟩ = .error .ub := by
  induction gs generalizing cs v k n with
  | nil => simp at hk; omega
  | cons g gs ih =>
    obtain ⟨n, rfl⟩ : ∃ j, n = j + 1 := ⟨n - 1, by omega⟩
    rw [List.length_cons] at hk
    rw [List.flatMap_cons, List.append_assoc] at h
    obtain ⟨t, r, l, e⟩ := readNode_good (h1 g (by simp)).1 (h1 g (by simp)).2 h a v k
    rw [readNodes_succ, e]
    by_cases hlt : k < v.length
    · rw [if_pos hlt]
      show readNodes a lead n ⟨⟨t, false, false⟩, v.set k g.main, u32 (k + 1)⟩ = _
      rw [show u32 (k + 1) = k + 1 from u32_of_lt (by omega)]
      exact ih (fun g hg => h1 g (List.mem_cons_of_mem _ hg)) r (by rw [List.length_set]; omega) (by rw [List.length_set]; omega)
        (by rw [List.length_set]; exact hv) (by omega)
    · rw [if_neg hlt]; rfl

/-- With index checks even a correct file fails after the last number. -/
theorem readNodes_strict {lead : Nat} {gs : List (Group D)} (h1 : ∀ g ∈ gs, g.pre.length = lead ∧ g.post.length = 2) {cs : Text}
    (h : Reads (gs.flatMap Group.all) cs) {v : List D} {k n : Nat} (hk : v.length = k + gs.length) (hv : v.length < 2 ^ 32)
    (hn : cs.length < n) :
    readNodes true lead n ⟨⟨cs, false, false⟩, v, k⟩ = .error .ub := by
  induction gs generalizing cs v k n with
  | nil =>
    obtain ⟨n, rfl⟩ : ∃ j, n = j + 1 := ⟨n - 1, by omega⟩
    have e : readNode (D := D) true lead ⟨⟨cs, false, false⟩, v, k⟩ =
        (readNode.inRange (true && decide (v.length ≤ k)) >>= fun _ => readNode.store (extract (D := D) (skip (D := D) lead ⟨cs, false, false⟩)).2 v k >>= fun w =>
          .ok ⟨skip (D := D) 2 (extract (D := D) (skip (D := D) lead ⟨cs, false, false⟩)).1, w, k⟩) := rfl
    have : (true && decide (v.length ≤ k)) = true := by simp at hk ⊢; omega
    rw [readNodes_succ, e, this]
    rfl
  | cons g gs ih =>
    obtain ⟨n, rfl⟩ : ∃ j, n = j + 1 := ⟨n - 1, by omega⟩
    rw [List.length_cons] at hk
    rw [List.flatMap_cons] at h
    obtain ⟨t, r, l, e⟩ := readNode_good (h1 g (by simp)).1 (h1 g (by simp)).2 h true v k
    rw [readNodes_succ, e, if_pos (by omega)]
    show readNodes true lead n ⟨⟨t, false, false⟩, v.set k g.main, u32 (k + 1)⟩ = _
    rw [show u32 (k + 1) = k + 1 from u32_of_lt (by omega)]
    exact ih (fun g hg => h1 g (List.mem_cons_of_mem _ hg)) r (by rw [List.length_set]; omega) (by rw [List.length_set]; exact hv) (by omega)

/-! ## Any file -/

theorem takeSign_le (cs : Text) : (takeSign cs).2.length ≤ cs.length := by
  unfold takeSign
  split <;> simp

theorem takeDigits_length (cs : Text) : (takeDigits cs).1.length + (takeDigits cs).2.length = cs.length := by
  unfold takeDigits
  rw [← List.length_append, List.takeWhile_append_dropWhile]

theorem takeFraction_length (cs : Text) : (takeFraction cs).1.length + (takeFraction cs).2.length ≤ cs.length := by
  unfold takeFraction
  split
  · rename_i cs
    have := takeDigits_length cs
    rw [List.length_cons]; omega
  · simp

theorem takeExponent_le (cs : Text) : (takeExponent cs).2.length ≤ cs.length := by
  unfold takeExponent
  split
  · rename_i c cs
    split
    · have h1 := takeSign_le cs
      have h2 := takeDigits_length (takeSign cs).2
      dsimp only
      rw [List.length_cons]; omega
    · simp
  · simp

theorem scan_length (cs : Text) : (scan (D := D) cs).2.2.length ≤ cs.length ∧
    ((scan (D := D) cs).2.1 = true → (scan (D := D) cs).2.2.length < cs.length) := by
  have h1 := takeSign_le cs
  have h2 := takeDigits_length (takeSign cs).2
  have h3 := takeFraction_length (takeDigits (takeSign cs).2).2
  have h4 := takeExponent_le (takeFraction (takeDigits (takeSign cs).2).2).2
  unfold scan
  dsimp only
  split
  · exact ⟨by dsimp only; omega, fun h => by cases h⟩
  · rename_i hne
    have h5 : 0 < (takeDigits (takeSign cs).2).1.length + (takeFraction (takeDigits (takeSign cs).2).2).1.length := by
      by_contra hn
      exact hne ⟨List.length_eq_zero_iff.1 (by omega), List.length_eq_zero_iff.1 (by omega)⟩
    split
    · exact ⟨by dsimp only; omega, fun h => by cases h⟩
    · split
      · exact ⟨by dsimp only; omega, fun _ => by dsimp only; omega⟩
      · exact ⟨by dsimp only; omega, fun h => by cases h⟩

theorem extract_length (s : Stream) : (extract (D := D) s).1.rest.length ≤ s.rest.length ∧
    ((extract (D := D) s).1.fail = false → (extract (D := D) s).1.rest.length < s.rest.length) := by
  unfold extract
  split
  · exact ⟨le_rfl, fun h => by cases h⟩
  · have hd : (s.rest.dropWhile isSpace).length ≤ s.rest.length := (List.dropWhile_suffix _).length_le
    split
    · exact ⟨by simp, fun h => by cases h⟩
    · rename_i c cs heq
      rw [heq] at hd
      have := scan_length (D := D) (c :: cs)
      refine ⟨this.1.trans hd, fun h => lt_of_lt_of_le (this.2 ?_) hd⟩
      simpa using h

theorem skip_length (k : Nat) (s : Stream) : (skip (D := D) k s).rest.length ≤ s.rest.length ∧
    ((skip (D := D) k s).fail = false → s.fail = false) := by
  induction k generalizing s with
  | zero => exact ⟨le_rfl, id⟩
  | succ k ih =>
    have h1 := ih (extract (D := D) s).1
    have h2 := extract_length (D := D) s
    refine ⟨h1.1.trans h2.1, fun h => ?_⟩
    have h3 := h1.2 h
    by_contra hn
    have : s.fail = true := by simpa using hn
    unfold extract at h3
    rw [this] at h3
    simp at h3

/-- Reading a file always ends, and not by `exit`. -/
theorem readNodes_ends (a : Bool) (lead : Nat) {n : Nat} {s : Loader D} (hn : s.stream.rest.length < n) :
    wp (readNodes a lead n s) (fun r => r.distance.length = s.distance.length) (fun e => e = .ub) := by
  induction n generalizing s with
  | zero => omega
  | succ n ih =>
    rw [readNodes_succ, wp_bind]
    have key : wp (readNode a lead s) (fun r => r.distance.length = s.distance.length ∧ (r.stream.fail = false → r.stream.rest.length < s.stream.rest.length))
        (fun e => e = .ub) := by
      unfold readNode
      rw [wp_bind]
      have hr : wp (readNode.inRange (a && decide (s.distance.length ≤ s.node))) (fun _ => True) (fun e => e = .ub) := by
        unfold readNode.inRange
        split <;> simp
      refine wp_imp hr fun _ _ => ?_
      rw [wp_bind]
      have hs : wp (readNode.store (extract (D := D) (skip (D := D) lead s.stream)).2 s.distance s.node) (fun v => v.length = s.distance.length)
          (fun e => e = .ub) := by
        unfold readNode.store
        split
        · unfold wr
          split <;> simp
        · simp
      refine wp_imp hs fun v hv => ⟨hv, fun hf => ?_⟩
      have l1 := skip_length (D := D) lead s.stream
      have l2 := extract_length (D := D) (skip (D := D) lead s.stream)
      have l3 := skip_length (D := D) 2 (extract (D := D) (skip (D := D) lead s.stream)).1
      have := l2.2 (l3.2 hf)
      exact lt_of_le_of_lt l3.1 (lt_of_lt_of_le this l1.1)
    refine wp_imp key fun r hr => ?_
    refine wp_ite (fun _ => hr.1) fun hf => ?_
    have hf' : r.stream.fail = false := by simpa using hf
    have := hr.2 hf'
    refine wp_imp (ih (s := { r with node := u32 (r.node + 1) }) (by show r.stream.rest.length < n; omega)) fun q hq => hq.trans hr.1

end Slsm.IO
