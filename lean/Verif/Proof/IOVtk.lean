import Verif.Proof.IOFile

/-! # Lines of the files for ParaView -/

namespace Slsm.IO

open Slsm

/-- Lines, each with its line feed. -/
def unlines (ls : List Text) : Text := ls.flatMap fun l => l ++ ['\n']

theorem unlines_append (a b : List Text) : unlines (a ++ b) = unlines a ++ unlines b := List.flatMap_append

theorem dropWhile_line {l : Text} (h : '\n' ∉ l) (t : Text) : (l ++ '\n' :: t).dropWhile (fun c => c != '\n') = '\n' :: t := by
  induction l with
  | nil => simp
  | cons c l ih =>
    rw [List.mem_cons, not_or] at h
    rw [List.cons_append, List.dropWhile_cons_of_pos (by simpa using Ne.symm h.1), ih h.2]

theorem takeWhile_line {l : Text} (h : '\n' ∉ l) (t : Text) : (l ++ '\n' :: t).takeWhile (fun c => c != '\n') = l := by
  induction l with
  | nil => simp
  | cons c l ih =>
    rw [List.mem_cons, not_or] at h
    rw [List.cons_append, List.takeWhile_cons_of_pos (by simpa using Ne.symm h.1), ih h.2]

theorem afterLines_unlines {ls : List Text} (h : ∀ l ∈ ls, '\n' ∉ l) (t : Text) {k n : Nat} (hk : ls.length = k) : afterLines (k + n) (unlines ls ++ t) = afterLines n t := by
  subst hk
  induction ls with
  | nil => simp [unlines]
  | cons l ls ih =>
    rw [List.length_cons, Nat.add_right_comm]
    show afterLines (ls.length + n) _ = _
    have e : unlines (l :: ls) ++ t = l ++ '\n' :: (unlines ls ++ t) := by simp [unlines]
    rw [e, dropWhile_line (h l (by simp)), List.drop_one, List.tail_cons]
    exact ih fun q hq => h q (List.mem_cons_of_mem _ hq)

theorem lineAt_unlines {ls : List Text} (h : ∀ l ∈ ls, '\n' ∉ l) (t : Text) {i : Nat} {l : Text} (hi : ls[i]? = some l) :
    lineAt i (unlines ls ++ t) = l := by
  induction ls generalizing i with
  | nil => simp at hi
  | cons a ls ih =>
    have e : unlines (a :: ls) ++ t = a ++ '\n' :: (unlines ls ++ t) := by simp [unlines]
    cases i with
    | zero =>
      cases hi
      rw [e]
      exact takeWhile_line (h _ (by simp)) _
    | succ i =>
      rw [List.getElem?_cons_succ] at hi
      have := ih (fun q hq => h q (List.mem_cons_of_mem _ hq)) hi
      unfold lineAt at *
      show (afterLines i _).takeWhile _ = _
      rw [e, dropWhile_line (h a (by simp)), List.drop_one, List.tail_cons]
      exact this

theorem count_unlines {ls : List Text} (h : ∀ l ∈ ls, '\n' ∉ l) : countLines (unlines ls) = ls.length := by
  induction ls with
  | nil => rfl
  | cons l ls ih =>
    have e : unlines (l :: ls) = l ++ '\n' :: unlines ls := by simp [unlines]
    rw [e, countLines_append (h l (by simp)), ih fun q hq => h q (List.mem_cons_of_mem _ hq), List.length_cons]

/-- The lines of the head. -/
def headLines (w h : Nat) : List Text :=
  ["# vtk DataFile Version 3.0".toList, "Para0".toList, "ASCII".toList, "DATASET RECTILINEAR_GRID".toList,
   "DIMENSIONS ".toList ++ dec (w + 1) ++ ' ' :: dec (h + 1) ++ " 1".toList, "X_COORDINATES ".toList ++ dec (w + 1) ++ " int".toList,
   (List.range (w + 1)).flatMap fun i => dec i ++ [' '], "Y_COORDINATES ".toList ++ dec (h + 1) ++ " int".toList,
   (List.range (h + 1)).flatMap fun i => dec i ++ [' '], "Z_COORDINATES 1 int".toList, "0".toList, []]

theorem fmtInt_small {n : Nat} (h : n < 2 ^ 31) : fmtInt n = dec n := by unfold fmtInt; rw [if_pos (by omega)]

theorem dec_no_newline (n : Nat) : '\n' ∉ dec n := fun h => (digit_not_sign (dec_digits n _ h)).2.2.2.2.2.1 rfl

theorem coords_no_newline (n : Nat) : '\n' ∉ (List.range n).flatMap fun i => dec i ++ [' '] := by
  intro h
  obtain ⟨i, -, hi⟩ := List.mem_flatMap.1 h
  rcases List.mem_append.1 hi with h | h
  · exact dec_no_newline i h
  · simp at h

theorem headLines_good (w h : Nat) : ∀ l ∈ headLines w h, '\n' ∉ l := by
  intro l hl
  have c1 := coords_no_newline (w + 1)
  have c2 := coords_no_newline (h + 1)
  have d1 := dec_no_newline (w + 1)
  have d2 := dec_no_newline (h + 1)
  simp only [headLines, List.mem_cons, List.not_mem_nil, or_false] at hl
  rcases hl with rfl | rfl | rfl | rfl | rfl | rfl | rfl | rfl | rfl | rfl | rfl | rfl
  · decide
  · decide
  · decide
  · decide
  · simp only [List.mem_append, List.mem_cons, not_or]
    exact ⟨⟨⟨by decide, d1⟩, by decide, d2⟩, by decide⟩
  · simp only [List.mem_append, not_or]
    exact ⟨⟨by decide, d1⟩, by decide⟩
  · exact c1
  · simp only [List.mem_append, not_or]
    exact ⟨⟨by decide, d2⟩, by decide⟩
  · exact c2
  · decide
  · decide
  · decide

theorem vtkHeader_eq {w h : Nat} (hw : w < 2147483647) (hh : h < 2147483647) : vtkHeader w h = unlines (headLines w h) := by
  have e1 : fmtInt (u32 (1 + w)) = dec (w + 1) := by
    rw [show u32 (1 + w) = w + 1 by unfold u32; omega, fmtInt_small (by omega)]
  have e2 : fmtInt (u32 (1 + h)) = dec (h + 1) := by
    rw [show u32 (1 + h) = h + 1 by unfold u32; omega, fmtInt_small (by omega)]
  have e3 : ∀ n, n < 2147483647 → ((List.range (n + 1)).flatMap fun i => fmtInt i ++ [' ']) = (List.range (n + 1)).flatMap fun i => dec i ++ [' '] := by
    intro n hn
    rw [List.flatMap_def, List.flatMap_def]
    congr 1
    refine List.map_congr_left fun i hi => ?_
    rw [fmtInt_small (by have := List.mem_range.1 hi; omega)]
  unfold vtkHeader
  rw [e1, e2, e3 w hw, e3 h hh]
  have s1 : "# vtk DataFile Version 3.0\n".toList = "# vtk DataFile Version 3.0".toList ++ ['\n'] := by decide
  have s2 : "Para0\n".toList = "Para0".toList ++ ['\n'] := by decide
  have s3 : "ASCII\n".toList = "ASCII".toList ++ ['\n'] := by decide
  have s4 : "DATASET RECTILINEAR_GRID\n".toList = "DATASET RECTILINEAR_GRID".toList ++ ['\n'] := by decide
  have s5 : " 1\n".toList = " 1".toList ++ ['\n'] := by decide
  have s6 : " int\n".toList = " int".toList ++ ['\n'] := by decide
  have s7 : "\nY_COORDINATES ".toList = ['\n'] ++ "Y_COORDINATES ".toList := by decide
  have s8 : "\nZ_COORDINATES 1 int\n0\n\n".toList = ['\n'] ++ ("Z_COORDINATES 1 int".toList ++ (['\n'] ++ ("0".toList ++ ['\n', '\n']))) := by decide
  rw [s1, s2, s3, s4, s5, s6, s7, s8]
  simp only [unlines, headLines, List.flatMap_cons, List.flatMap_nil, List.append_assoc, List.nil_append, List.cons_append, List.append_nil]

theorem gridHead {w h : Nat} (hw : w < 2147483647) (hh : h < 2147483647) (t : Text) : GridHead w h (vtkHeader w h ++ t) := by
  rw [vtkHeader_eq hw hh]
  have G := headLines_good w h
  exact ⟨lineAt_unlines G t rfl, lineAt_unlines G t rfl, lineAt_unlines G t rfl, lineAt_unlines G t rfl, lineAt_unlines G t rfl,
    lineAt_unlines G t rfl, lineAt_unlines G t rfl, lineAt_unlines G t rfl, lineAt_unlines G t rfl, lineAt_unlines G t rfl,
    lineAt_unlines G t rfl, lineAt_unlines G t rfl⟩

section Blocks

variable {D : Type} [Txt D] {val : D → Option ℝ}

/-- The lines of a block of scalars. -/
def blockLines (name : String) (v : List D) : List Text :=
  ("SCALARS ".toList ++ name.toList ++ " float 1".toList) :: "LOOKUP_TABLE default".toList :: v.map fmt

theorem blockLines_good (V : Faithful val) {name : String} (hn : '\n' ∉ name.toList) (v : List D) : ∀ l ∈ blockLines name v, '\n' ∉ l := by
  intro l hl
  simp only [blockLines, List.mem_cons, List.mem_map] at hl
  rcases hl with rfl | rfl | ⟨x, -, rfl⟩
  · simp only [List.mem_append, not_or]
    exact ⟨⟨by decide, hn⟩, by decide⟩
  · decide
  · exact fmt_line V x

theorem unlines_block (name : String) (v : List D) : unlines (blockLines name v) =
    "SCALARS ".toList ++ name.toList ++ " float 1\n".toList ++ "LOOKUP_TABLE default\n".toList ++ v.flatMap fun x => fmt x ++ ['\n'] := by
  have s1 : " float 1\n".toList = " float 1".toList ++ ['\n'] := by decide
  have s2 : "LOOKUP_TABLE default\n".toList = "LOOKUP_TABLE default".toList ++ ['\n'] := by decide
  rw [s1, s2]
  simp only [unlines, blockLines, List.flatMap_cons, List.flatMap_map, List.append_assoc]

theorem extract_space (t : Text) : extract (D := D) ⟨'\n' :: t, false, false⟩ = extract (D := D) ⟨t, false, false⟩ := by
  unfold extract
  rfl

theorem Delivers.space {t : Text} {ys : List D} (h : Delivers ⟨t, false, false⟩ ys) : Delivers ⟨'\n' :: t, false, false⟩ ys := by
  cases h with
  | done h => exact .done (by rw [extract_space]; exact h)
  | more h hf hs => exact .more (by rw [extract_space]; exact h) hf hs

/-- A column of finite numbers before something that is not a number. -/
theorem column_delivers (V : Faithful val) {v : List D} (h : ∀ x ∈ v, ∃ a, val x = some a) {t : Text}
    (ht : (extract (D := D) ⟨t, false, false⟩).1.fail = true) :
    ∃ ys, Delivers ⟨unlines (v.map fmt) ++ t, false, false⟩ ys ∧ List.Forall₂ (Restored val) v ys := by
  induction v with
  | nil => exact ⟨[], .done ht, .nil⟩
  | cons x v ih =>
    obtain ⟨ys, h1, h2⟩ := ih fun q hq => h q (List.mem_cons_of_mem _ hq)
    obtain ⟨a, ha⟩ := h x (by simp)
    obtain ⟨y, hy, hR⟩ := reread V ha
    refine ⟨y :: ys, .more (t := ⟨'\n' :: (unlines (v.map fmt) ++ t), false, false⟩) ?_ rfl h1.space, .cons hR h2⟩
    have e : unlines ((x :: v).map fmt) ++ t = fmt x ++ '\n' :: (unlines (v.map fmt) ++ t) := by simp [unlines]
    rw [e, extract_num hy rfl]

theorem scalars (V : Faithful val) {name : String} (hn : '\n' ∉ name.toList) {v : List D} (h : ∀ x ∈ v, ∃ a, val x = some a) {t : Text}
    (ht : (extract (D := D) ⟨t, false, false⟩).1.fail = true) {pre : List Text} (hp : ∀ l ∈ pre, '\n' ∉ l) {k : Nat} (hk : pre.length = k) :
    Scalars val name v k (unlines pre ++ (unlines (blockLines name v) ++ t)) := by
  subst hk
  have G := blockLines_good V hn v
  have e0 : ∀ i, lineAt (pre.length + i) (unlines pre ++ (unlines (blockLines name v) ++ t)) = lineAt i (unlines (blockLines name v) ++ t) := by
    intro i
    unfold lineAt
    rw [afterLines_unlines hp _ rfl]
  refine ⟨?_, ?_, ?_⟩
  · rw [← Nat.add_zero pre.length, e0]
    exact lineAt_unlines G t rfl
  · rw [e0]
    exact lineAt_unlines G t rfl
  · rw [afterLines_unlines hp _ rfl]
    have e : unlines (blockLines name v) ++ t =
        unlines ["SCALARS ".toList ++ name.toList ++ " float 1".toList, "LOOKUP_TABLE default".toList] ++ (unlines (v.map fmt) ++ t) := by
      rw [← List.append_assoc, ← unlines_append]; rfl
    have hg : ∀ l ∈ ["SCALARS ".toList ++ name.toList ++ " float 1".toList, "LOOKUP_TABLE default".toList], '\n' ∉ l := by
      intro l hl
      refine G l ?_
      simp only [List.mem_cons, List.not_mem_nil, or_false] at hl
      rcases hl with rfl | rfl <;> simp [blockLines]
    rw [e, ← Nat.add_zero 2, afterLines_unlines hg _ (k := 2) rfl]
    exact column_delivers V h ht

end Blocks

end Slsm.IO
