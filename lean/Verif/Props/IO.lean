import Verif.Proof.IOFile
import Verif.Proof.IOName
import Verif.Proof.IOVtk
import Verif.Proof.LSHist
import Verif.Props.Boundary

/-! # Properties of saving and loading (C56-C60, C67, C68) -/

namespace Slsm.IO

open Slsm

/-- Every level set that a program can have in its hands has an entry for every node in every array. -/
theorem complete_reachable {D : Type} [FP D] {w h : Nat} {L : LevelSet D} (hr : LevelSet.Reachable w h L) : Complete L :=
  have C := hr.core
  ⟨C.grid.nodes_length.trans C.grid.nNodes.symm, C.sd, C.velocity, C.gradient, by have := C.small; omega⟩

/-! ## C56: binary files -/

section Binary

variable {D : Type} [Raw D] [LawfulRaw D] {F : FileSystem} {name : Text} {L L0 : LevelSet D}

/-- **C56**: a file written by `saveLevelSetBIN` restores the signed distances exactly, in any level set with the same number of nodes, as
long as nothing else writes the file; nothing else changes. -/
theorem C56_roundtrip (hw : F.writable name = true) (hL : L.signedDistance.length = L.mesh.nNodes)
    (h0 : L0.signedDistance.length = L0.mesh.nNodes) (hn : L0.mesh.nNodes = L.mesh.nNodes) :
    ∃ F', saveLevelSetBIN F name L = .ok F' ∧ (∀ n, n ≠ name → F'.files n = F.files n) ∧
      ∀ F2 : FileSystem, F2.files name = F'.files name →
        loadLevelSetBIN F2 name L0 = .ok { L0 with signedDistance := L.signedDistance } := by
  have hc : (image L.signedDistance).take (L.mesh.nNodes * 8) = image L.signedDistance :=
    List.take_of_length_le (by rw [image_length, hL]; omega)
  refine ⟨F.put name (image L.signedDistance), ?_, fun n h => put_other F h _, fun F2 h2 => ?_⟩
  · unfold saveLevelSetBIN
    rw [if_neg (by omega), hc]
    exact save_eq hw
  · rw [put_same] at h2
    unfold loadLevelSetBIN
    rw [h2]
    dsimp only
    rw [hn, hc, if_neg (by rw [image_length]; omega), List.drop_of_length_le (by rw [image_length, image_length]; omega), List.append_nil,
      show L0.signedDistance.length = L.signedDistance.length by omega, numbers_image]

/-- The same for the functions that take a data point. -/
theorem C56_roundtrip_at {datapoint : Nat} {directory : Text} (hw : F.writable (fileName .levelSetBIN datapoint directory) = true)
    (hL : L.signedDistance.length = L.mesh.nNodes) (h0 : L0.signedDistance.length = L0.mesh.nNodes) (hn : L0.mesh.nNodes = L.mesh.nNodes) :
    ∃ F', saveLevelSetBINAt F datapoint L directory = .ok F' ∧
      loadLevelSetBINAt F' datapoint L0 directory = .ok { L0 with signedDistance := L.signedDistance } := by
  obtain ⟨F', e, -, h⟩ := C56_roundtrip hw hL h0 hn
  exact ⟨F', e, h F' rfl⟩

omit [LawfulRaw D] in
/-- A file that cannot be opened ends the program. -/
theorem C56_exit (h : F.writable name = false) (h' : F.files name = none) :
    saveLevelSetBIN F name L = .error .exit ∧ loadLevelSetBIN F name L = .error .exit := by
  constructor
  · unfold saveLevelSetBIN FileSystem.save
    rw [h]; rfl
  · unfold loadLevelSetBIN
    rw [h']

end Binary

/-! ## C57: text files -/

section Text

variable {D : Type} [Txt D] {val : D → Option ℝ} {F : FileSystem} {name : Text} {L L0 : LevelSet D}

/-- **C57** (partial: all numbers written, velocities and gradients included, have to be finite, see `C57_nonfinite_fails`; and the library
must not check indices, see `C57_assertions_fails`): a file written by `saveLevelSetTXT` restores every signed distance, up to the rounding
to six decimals and to numbers of the type, in any level set with the same number of nodes, as long as nothing else writes the file; nothing
else changes. -/
theorem C57_roundtrip_partial (V : Faithful val) (hw : F.writable name = true) (C : Complete L) (C0 : Complete L0)
    (hn : L0.mesh.nNodes = L.mesh.nNodes) {isXY : Bool} (fin : AllFinite val L isXY) :
    ∃ F', saveLevelSetTXT F name L isXY = .ok F' ∧ (∀ n, n ≠ name → F'.files n = F.files n) ∧
      ∀ F2 : FileSystem, F2.files name = F'.files name → ∃ L1, loadLevelSetTXT false F2 name L0 isXY = .ok L1 ∧
        L1 = { L0 with signedDistance := L1.signedDistance } ∧ List.Forall₂ (Restored val) L.signedDistance L1.signedDistance := by
  have hfin : ∀ xs ∈ table L isXY, ∀ x ∈ xs, ∃ v, val x = some v := by
    intro xs hxs x hx
    obtain ⟨i, hi, rfl⟩ := List.mem_map.1 hxs
    exact fin i (List.mem_range.1 hi) x hx
  refine ⟨F.put name ((table L isXY).flatMap row), ?_, fun n h => put_other F h _, fun F2 h2 => ?_⟩
  · unfold saveLevelSetTXT
    rw [levelSetTXT_eq C]; exact save_eq hw
  · rw [put_same] at h2
    obtain ⟨yss, hboth, hR⟩ := reread_table V hfin
    obtain ⟨gs, g1, g2, g3, g4⟩ := groups C isXY hboth
    have hreads : Reads (gs.flatMap Group.all) ((table L isXY).flatMap row) := by rw [g1]; exact reads_table hR
    have hcount : countLines ((table L isXY).flatMap row) = L0.mesh.nNodes := by
      rw [count_table fun _ _ x _ => fmt_line V x, hn]
      simp [table]
    have hr := readNodes_ok g3 hreads (v := L0.signedDistance) (k := 0) (n := ((table L isXY).flatMap row).length + 1)
      (by rw [C0.distance, g2]; omega) (by rw [C0.distance]; exact C0.count) (by omega)
    rw [List.take_zero, List.nil_append, Nat.zero_add, List.drop_of_length_le (by rw [C0.distance, g2]; omega), List.append_nil] at hr
    refine ⟨{ L0 with signedDistance := gs.map Group.main }, ?_, rfl, ?_⟩
    · rw [load_eq h2 L0 false isXY hcount C0.count, hr]; rfl
    · rw [List.forall₂_iff_get] at g4 ⊢
      obtain ⟨l1, l2⟩ := g4
      rw [List.length_range] at l1
      refine ⟨by rw [C.distance, l1], fun i hi hi' => ?_⟩
      obtain ⟨x, hx, hxy⟩ := l2 i (by rw [List.length_range]; rw [C.distance] at hi; exact hi) hi'
      simp only [List.get_eq_getElem, List.getElem_range] at hx hxy ⊢
      rw [List.getElem?_eq_getElem hi] at hx
      cases hx
      exact hxy.2

/-- The same for the functions that take a data point. -/
theorem C57_roundtrip_at_partial (V : Faithful val) {datapoint : Nat} {directory : Text}
    (hw : F.writable (fileName .levelSetTXT datapoint directory) = true) (C : Complete L) (C0 : Complete L0)
    (hn : L0.mesh.nNodes = L.mesh.nNodes) {isXY : Bool} (fin : AllFinite val L isXY) :
    ∃ F' L1, saveLevelSetTXTAt F datapoint L directory isXY = .ok F' ∧ loadLevelSetTXTAt false F' datapoint L0 directory isXY = .ok L1 ∧
        L1 = { L0 with signedDistance := L1.signedDistance } ∧ List.Forall₂ (Restored val) L.signedDistance L1.signedDistance := by
  obtain ⟨F', e, -, h⟩ := C57_roundtrip_partial V hw C C0 hn fin
  obtain ⟨L1, h1, h2, h3⟩ := h F' rfl
  exact ⟨F', L1, e, h1, h2, h3⟩

omit [Txt D] in
/-- **C57** (error): the restored number differs from the saved one by at most a millionth. -/
theorem C57_error {x y : D} (h : Restored val x y) : ∃ v u, val x = some v ∧ val y = some u ∧ |u - v| ≤ 1 / 1000000 := by
  obtain ⟨v, u, d, hv, hu, hd, hb⟩ := h
  refine ⟨v, u, hv, hu, ?_⟩
  have h1 := hb x v hv
  have h2 := abs_sub_le u d v
  rw [abs_sub_comm v d] at h1
  linarith

/-- **C57** (error, numbers read exactly): if numbers are not rounded on reading, by at most half a millionth. -/
theorem C57_error_real {x y : ℝ} (h : Restored (D := ℝ) some x y) : |y - x| ≤ 1 / 2000000 := by
  obtain ⟨v, u, d, hv, hu, hd, hb⟩ := h
  cases hv
  cases hu
  have h1 := hb d d rfl
  rw [sub_self, abs_zero] at h1
  have : y = d := by
    have := abs_nonpos_iff.1 h1
    linarith
  rw [this]; exact hd

/-- **C57** for real numbers, for level sets that programs can have in their hands. -/
theorem C57_real_partial {w h : Nat} {L L0 : LevelSet ℝ} (hr : LevelSet.Reachable w h L) (hr0 : LevelSet.Reachable w h L0)
    (hw : F.writable name = true) (isXY : Bool) :
    ∃ F' L1, saveLevelSetTXT F name L isXY = .ok F' ∧ loadLevelSetTXT false F' name L0 isXY = .ok L1 ∧ LevelSet.Reachable w h L1 ∧
      L1 = { L0 with signedDistance := L1.signedDistance } ∧
      ∀ (i : Nat) (x : ℝ), L.signedDistance[i]? = some x → ∃ y, L1.signedDistance[i]? = some y ∧ |y - x| ≤ 1 / 2000000 := by
  have C := complete_reachable hr
  have C0 := complete_reachable hr0
  have hn : L0.mesh.nNodes = L.mesh.nNodes := by rw [hr.core.grid.nNodes, hr0.core.grid.nNodes]
  obtain ⟨F', e, -, h1⟩ := C57_roundtrip_partial faithful_real hw C C0 hn (isXY := isXY) fun i _ x _ => ⟨x, rfl⟩
  obtain ⟨L1, e1, e2, e3⟩ := h1 F' rfl
  refine ⟨F', L1, e, e1, ?_, e2, fun i x hx => ?_⟩
  · rw [e2]
    exact hr0.call (.assign _ L0.velocity L0.gradient L0.target (by rw [← e3.length_eq, C.distance, hn]) C0.velocity C0.gradient)
  · rw [List.forall₂_iff_get] at e3
    obtain ⟨hi, rfl⟩ := List.getElem?_eq_some_iff.1 hx
    exact ⟨_, List.getElem?_eq_getElem (by rw [← e3.1]; exact hi), C57_error_real (e3.2 i hi (by rw [← e3.1]; exact hi))⟩

/-- **C57** (disagreement): with a library that checks indices, loading a file written by `saveLevelSetTXT` always fails: after the last number
the code evaluates `signedDistance[nNodes]`. -/
theorem C57_assertions_fails (V : Faithful val) (hw : F.writable name = true) (C : Complete L) (C0 : Complete L0)
    (hn : L0.mesh.nNodes = L.mesh.nNodes) {isXY : Bool} (fin : AllFinite val L isXY) :
    ∃ F', saveLevelSetTXT F name L isXY = .ok F' ∧ loadLevelSetTXT true F' name L0 isXY = .error .ub := by
  have hfin : ∀ xs ∈ table L isXY, ∀ x ∈ xs, ∃ v, val x = some v := by
    intro xs hxs x hx
    obtain ⟨i, hi, rfl⟩ := List.mem_map.1 hxs
    exact fin i (List.mem_range.1 hi) x hx
  refine ⟨F.put name ((table L isXY).flatMap row), ?_, ?_⟩
  · unfold saveLevelSetTXT
    rw [levelSetTXT_eq C]; exact save_eq hw
  · obtain ⟨yss, -, hR⟩ := reread_table V hfin
    obtain ⟨gs, g1, g2, g3, -⟩ := groups C isXY hR
    have hreads : Reads (gs.flatMap Group.all) ((table L isXY).flatMap row) := by rw [g1]; exact reads_table hR
    have hcount : countLines ((table L isXY).flatMap row) = L0.mesh.nNodes := by
      rw [count_table fun _ _ x _ => fmt_line V x, hn]
      simp [table]
    rw [load_eq (put_same _ _ _) L0 true isXY hcount C0.count,
      readNodes_strict g3 hreads (by rw [C0.distance, g2, hn, Nat.zero_add]) (by rw [C0.distance]; exact C0.count) (by omega)]
    rfl

/-- **C57** (disagreement): if the first velocity is not finite, loading the file silently stops after the first signed distance; all others keep
the values they had. -/
theorem C57_nonfinite_fails (V : Faithful val) (hw : F.writable name = true) (C : Complete L) (C0 : Complete L0)
    (hn : L0.mesh.nNodes = L.mesh.nNodes) {s v : D} (hs : L.signedDistance[0]? = some s) (hv : L.velocity[0]? = some v)
    (fs : ∃ a, val s = some a) (fv : val v = none) :
    ∃ F' y, saveLevelSetTXT F name L false = .ok F' ∧ Restored val s y ∧
      loadLevelSetTXT false F' name L0 false = .ok { L0 with signedDistance := L0.signedDistance.set 0 y } := by
  obtain ⟨a, ha⟩ := fs
  obtain ⟨y, hy, hR⟩ := reread V ha
  have hpos : 0 < L.mesh.nNodes := by
    have := (List.getElem?_eq_some_iff.1 hs).1
    rw [C.distance] at this; exact this
  refine ⟨F.put name ((table L false).flatMap row), y, ?_, hR, ?_⟩
  · unfold saveLevelSetTXT
    rw [levelSetTXT_eq C]; exact save_eq hw
  · have hcount : countLines ((table L false).flatMap row) = L0.mesh.nNodes := by
      rw [count_table fun _ _ x _ => fmt_line V x, hn]
      simp [table]
    obtain ⟨t, ht⟩ : ∃ t, (table L false).flatMap row = fmt s ++ ' ' :: (fmt v ++ t) := by
      obtain ⟨pre, s', v', g, h1, h2, h3, h4, h5, -⟩ := record_eq C false hpos
      rw [hs] at h1
      rw [hv] at h2
      cases h1
      cases h2
      have hp : pre = [] := List.length_eq_zero_iff.1 h4
      subst hp
      unfold table
      obtain ⟨k, hk⟩ : ∃ k, L.mesh.nNodes = k + 1 := ⟨L.mesh.nNodes - 1, by omega⟩
      rw [hk, List.range_succ_eq_map, List.map_cons, List.flatMap_cons, h5]
      refine ⟨' ' :: (fmt g ++ '\n' :: ((List.range k).map Nat.succ |>.map (record L false)).flatMap row), ?_⟩
      simp only [row, List.nil_append, List.append_assoc, List.cons_append]
    rw [load_eq (put_same _ _ _) L0 false false hcount C0.count, readNodes_succ]
    have e1 := extract_num hy (c := ' ') rfl (fmt v ++ t)
    obtain ⟨r, e2⟩ := extract_word' V fv t
    have h0 : 0 < L0.signedDistance.length := by rw [C0.distance, hn]; exact hpos
    have e : readNode (D := D) false 0 ⟨⟨fmt s ++ ' ' :: (fmt v ++ t), false, false⟩, L0.signedDistance, 0⟩ =
        .ok ⟨skip (D := D) 1 ⟨r, false, true⟩, L0.signedDistance.set 0 y, 0⟩ := by
      have e' : readNode (D := D) false 0 ⟨⟨fmt s ++ ' ' :: (fmt v ++ t), false, false⟩, L0.signedDistance, 0⟩ =
        (readNode.store (extract (D := D) ⟨fmt s ++ ' ' :: (fmt v ++ t), false, false⟩).2 L0.signedDistance 0 >>= fun w =>
          .ok ⟨skip (D := D) 1 (extract (D := D) (extract (D := D) ⟨fmt s ++ ' ' :: (fmt v ++ t), false, false⟩).1).1, w, 0⟩) := rfl
      rw [e', e1]
      dsimp only
      rw [e2]
      show (wr _ 0 y >>= _) = _
      rw [wr_eq _ h0]; rfl
    rw [ht, if_neg (by simp), e]
    rfl

/-- **C57** (disagreement): an infinite signed distance is read back as zero, and loading silently stops. -/
theorem C57_infinite_fails (V : Faithful val) (hw : F.writable name = true) (C : Complete L) (C0 : Complete L0)
    (hn : L0.mesh.nNodes = L.mesh.nNodes) {s : D} (hs : L.signedDistance[0]? = some s) (fs : val s = none) :
    ∃ F', saveLevelSetTXT F name L false = .ok F' ∧
      loadLevelSetTXT false F' name L0 false = .ok { L0 with signedDistance := L0.signedDistance.set 0 Txt.zero } := by
  have hpos : 0 < L.mesh.nNodes := by
    have := (List.getElem?_eq_some_iff.1 hs).1
    rw [C.distance] at this; exact this
  refine ⟨F.put name ((table L false).flatMap row), ?_, ?_⟩
  · unfold saveLevelSetTXT
    rw [levelSetTXT_eq C]; exact save_eq hw
  · have hcount : countLines ((table L false).flatMap row) = L0.mesh.nNodes := by
      rw [count_table fun _ _ x _ => fmt_line V x, hn]
      simp [table]
    obtain ⟨t, ht⟩ : ∃ t, (table L false).flatMap row = fmt s ++ t := by
      obtain ⟨pre, s', v', g, h1, h2, h3, h4, h5, -⟩ := record_eq C false hpos
      rw [hs] at h1
      cases h1
      have hp : pre = [] := List.length_eq_zero_iff.1 h4
      subst hp
      unfold table
      obtain ⟨k, hk⟩ : ∃ k, L.mesh.nNodes = k + 1 := ⟨L.mesh.nNodes - 1, by omega⟩
      rw [hk, List.range_succ_eq_map, List.map_cons, List.flatMap_cons, h5]
      refine ⟨' ' :: (fmt v' ++ ' ' :: (fmt g ++ '\n' :: ((List.range k).map Nat.succ |>.map (record L false)).flatMap row)), ?_⟩
      simp only [row, List.nil_append, List.append_assoc, List.cons_append]
    rw [load_eq (put_same _ _ _) L0 false false hcount C0.count, readNodes_succ]
    obtain ⟨r, e2⟩ := extract_word V fs t
    have h0 : 0 < L0.signedDistance.length := by rw [C0.distance, hn]; exact hpos
    have e : readNode (D := D) false 0 ⟨⟨fmt s ++ t, false, false⟩, L0.signedDistance, 0⟩ =
        .ok ⟨skip (D := D) 2 ⟨r, false, true⟩, L0.signedDistance.set 0 Txt.zero, 0⟩ := by
      have e' : readNode (D := D) false 0 ⟨⟨fmt s ++ t, false, false⟩, L0.signedDistance, 0⟩ =
        (readNode.store (extract (D := D) ⟨fmt s ++ t, false, false⟩).2 L0.signedDistance 0 >>= fun w =>
          .ok ⟨skip (D := D) 2 (extract (D := D) ⟨fmt s ++ t, false, false⟩).1, w, 0⟩) := rfl
      rw [e', e2]
      show (wr _ 0 _ >>= _) = _
      rw [wr_eq _ h0]; rfl
    rw [ht, if_neg (by simp), e]
    rfl

end Text

/-! ## C58: file names -/

/-- **C58**: the file name determines what the file contains, the data point and the directory. -/
theorem C58_injective {k l : Kind} {n m : Nat} {d e : Text} : fileName k n d = fileName l m e ↔ k = l ∧ n = m ∧ d = e :=
  ⟨fileName_inj, fun ⟨h1, h2, h3⟩ => by rw [h1, h2, h3]⟩

/-- **C58** (order): below 10000 the names sort like the data points. -/
theorem C58_sorted {k : Kind} {d : Text} {n m : Nat} (hn : n < 10000) (hm : m < 10000) : fileName k n d < fileName k m d ↔ n < m := by
  refine ⟨fun h => ?_, fun h => fileName_lt h hm⟩
  rcases Nat.lt_trichotomy n m with h1 | h1 | h1
  · exact h1
  · subst h1; exact absurd h (List.lt_irrefl _)
  · exact absurd (List.lt_trans h (fileName_lt h1 hn)) (List.lt_irrefl _)

/-- **C58** (limit of the order): data point 10000 sorts before 9999. -/
theorem C58_order_limit (k : Kind) (d : Text) : fileName k 10000 d < fileName k 9999 d := by
  unfold fileName
  refine append_lt (append_lt ?_)
  have e1 : pad 4 10000 = ['1', '0', '0', '0', '0'] := by
    unfold pad
    rw [dec_big (by norm_num), dec_big (by norm_num), dec_big (by norm_num), dec_big (by norm_num), dec_small (by norm_num)]
    rfl
  rw [e1, pad_four (by norm_num)]
  simp only [List.cons_append, List.cons_lt_cons_iff]
  exact .inl (by decide)

section Names

variable {D : Type} [Txt D] {F F' : FileSystem}

theorem save_frame {name : Text} {c : Res Text} (e : F.save name c = .ok F') : ∀ n, n ≠ name → F'.files n = F.files n := by
  unfold FileSystem.save at e
  cases hw : F.writable name
  · rw [hw] at e; cases e
  · rw [hw] at e
    cases c with
    | error x => cases e
    | ok c =>
      have : F.put name c = F' := Except.ok.inj e
      subst this
      exact fun n h => put_other F h c

/-- **C58** (no overwriting): saving under a data point leaves the files of all other data points, kinds and directories alone. -/
theorem C58_no_overwrite [Raw D] {L : LevelSet D} {b : Boundary D} {m : Mesh D} {n : Nat} {d : Text} {k : Kind} {isXY v g : Bool}
    (h : (k = .levelSetVTK ∧ saveLevelSetVTKAt F n L v g d = .ok F') ∨ (k = .levelSetTXT ∧ saveLevelSetTXTAt F n L d isXY = .ok F') ∨
      (k = .levelSetBIN ∧ saveLevelSetBINAt F n L d = .ok F') ∨ (k = .points ∧ savePointsAt F n b d = .ok F') ∨
      (k = .segments ∧ saveSegmentsAt F n b d = .ok F') ∨ (k = .areaVTK ∧ saveAreaVTKAt F n m d = .ok F') ∨
      (k = .areaTXT ∧ saveAreaTXTAt F n m d isXY = .ok F'))
    {k' : Kind} {n' : Nat} {d' : Text} (hne : (k', n', d') ≠ (k, n, d)) : F'.files (fileName k' n' d') = F.files (fileName k' n' d') := by
  have hne' : fileName k' n' d' ≠ fileName k n d := by
    intro h
    obtain ⟨h1, h2, h3⟩ := fileName_inj h
    exact hne (by rw [h1, h2, h3])
  rcases h with ⟨rfl, e⟩ | ⟨rfl, e⟩ | ⟨rfl, e⟩ | ⟨rfl, e⟩ | ⟨rfl, e⟩ | ⟨rfl, e⟩ | ⟨rfl, e⟩ <;> exact save_frame e _ hne'

end Names

/-! ## C59: files of the wrong size -/

theorem countLines_eq (t : Text) : countLines t = lineCount t := by
  induction t with
  | nil => rfl
  | cons c t ih =>
    unfold lineCount at *
    rw [countLines.eq_def]
    dsimp only
    by_cases hc : c = '\n'
    · subst hc
      rw [if_pos rfl, ih, List.count_cons_self]
      cases t with
      | nil => rfl
      | cons d t => rw [List.getLast?_cons_cons]; omega
    · rw [if_neg hc, List.count_cons_of_ne hc]
      cases t with
      | nil => simp [hc]
      | cons d t =>
        dsimp only
        rw [List.getLast?_cons_cons]
        exact ih

section Sizes

variable {D : Type} [Txt D] {val : D → Option ℝ} {F : FileSystem} {name : Text} {L L0 : LevelSet D}

/-- **C59** (partial: text files only; see the disagreements below): `loadLevelSetTXT` exits exactly if the file cannot be opened or its number of lines (reduced to 32 bits) differs from the
number of nodes; otherwise it ends, with or without undefined behaviour, and changes nothing but the values of the signed distance. -/
theorem C59_text_partial (a isXY : Bool) :
    (loadLevelSetTXT a F name L isXY = .error .exit ↔
      F.files name = none ∨ ∃ c, F.files name = some c ∧ lineCount c % 4294967296 ≠ L.mesh.nNodes) ∧
    (loadLevelSetTXT a F name L isXY = .error .exit ∨ loadLevelSetTXT a F name L isXY = .error .ub ∨
      ∃ sd, sd.length = L.signedDistance.length ∧ loadLevelSetTXT a F name L isXY = .ok { L with signedDistance := sd }) := by
  cases hf : F.files name with
  | none =>
    have : loadLevelSetTXT a F name L isXY = .error .exit := by unfold loadLevelSetTXT; rw [hf]
    exact ⟨⟨fun _ => .inl rfl, fun _ => this⟩, .inl this⟩
  | some c =>
    have e : loadLevelSetTXT a F name L isXY = (check (u32 (countLines c) == L.mesh.nNodes) >>= fun _ =>
        readNodes a (if isXY then 2 else 0) (c.length + 1) ⟨⟨c, false, false⟩, L.signedDistance, 0⟩ >>= fun s => .ok { L with signedDistance := s.distance }) := by
      unfold loadLevelSetTXT; rw [hf]; rfl
    rw [countLines_eq] at e
    by_cases hc : lineCount c % 4294967296 = L.mesh.nNodes
    · have hb : (u32 (lineCount c) == L.mesh.nNodes) = true := by unfold u32; simp [hc]
      rw [hb] at e
      have hend := readNodes_ends a (if isXY then 2 else 0) (n := c.length + 1) (s := ⟨⟨c, false, false⟩, L.signedDistance, 0⟩)
        (show c.length < c.length + 1 by omega)
      rcases hr : readNodes a (if isXY then 2 else 0) (c.length + 1) ⟨⟨c, false, false⟩, L.signedDistance, 0⟩ with err | s
      · rw [hr] at e hend
        have : err = .ub := hend
        subst this
        have e' : loadLevelSetTXT a F name L isXY = .error .ub := e
        refine ⟨⟨fun h => (by rw [e'] at h; cases h), ?_⟩, .inr (.inl e')⟩
        rintro (h | ⟨c', h, h'⟩)
        · cases h
        · cases h; exact absurd hc h'
      · rw [hr] at e hend
        have e' : loadLevelSetTXT a F name L isXY = .ok { L with signedDistance := s.distance } := e
        refine ⟨⟨fun h => (by rw [e'] at h; cases h), ?_⟩, .inr (.inr ⟨s.distance, hend, e'⟩)⟩
        rintro (h | ⟨c', h, h'⟩)
        · cases h
        · cases h; exact absurd hc h'
    · have hb : (u32 (lineCount c) == L.mesh.nNodes) = false := by unfold u32; simp [hc]
      rw [hb] at e
      have e' : loadLevelSetTXT a F name L isXY = .error .exit := e
      exact ⟨⟨fun _ => .inr ⟨c, rfl, hc⟩, fun _ => e'⟩, .inl e'⟩

/-- **C59** (disagreement): the right number of lines is not enough.  A file written with coordinates and loaded without, for a level set of
two nodes or more, makes the code store numbers past the end of the vector. -/
theorem C59_format_fails (V : Faithful val) (hw : F.writable name = true) (C : Complete L) (C0 : Complete L0)
    (hn : L0.mesh.nNodes = L.mesh.nNodes) (h2 : 2 ≤ L.mesh.nNodes) (fin : AllFinite val L true) (a : Bool) :
    ∃ F', saveLevelSetTXT F name L true = .ok F' ∧ loadLevelSetTXT a F' name L0 false = .error .ub := by
  have hfin : ∀ xs ∈ table L true, ∀ x ∈ xs, ∃ v, val x = some v := by
    intro xs hxs x hx
    obtain ⟨i, hi, rfl⟩ := List.mem_map.1 hxs
    exact fin i (List.mem_range.1 hi) x hx
  refine ⟨F.put name ((table L true).flatMap row), ?_, ?_⟩
  · unfold saveLevelSetTXT
    rw [levelSetTXT_eq C]; exact save_eq hw
  · obtain ⟨yss, -, hR⟩ := reread_table V hfin
    obtain ⟨gs5, g1, g2, g3, -⟩ := groups C true hR
    have hlen : yss.flatten.length = 5 * L.mesh.nNodes := by
      rw [← g1, ← g2]
      clear g1 g2
      induction gs5 with
      | nil => rfl
      | cons g gs ih =>
        have := g3 g (by simp)
        rw [List.flatMap_cons, List.length_append, ih fun q hq => g3 q (List.mem_cons_of_mem _ hq), List.length_cons]
        unfold Group.all
        rw [List.length_append, List.length_cons, this.1, this.2]
        simp only [if_true]
        omega
    obtain ⟨gs, zs, h3, h4, h5⟩ := threes (L.mesh.nNodes + 1) (ys := yss.flatten) (by omega)
    have hreads : Reads (gs.flatMap Group.all ++ zs) ((table L true).flatMap row) := by rw [← h4]; exact reads_table hR
    have hcount : countLines ((table L true).flatMap row) = L0.mesh.nNodes := by
      rw [count_table fun _ _ x _ => fmt_line V x, hn]
      simp [table]
    have hub := readNodes_ub h5 hreads (v := L0.signedDistance) (k := 0) (n := ((table L true).flatMap row).length + 1)
      (by rw [C0.distance, h3, hn]; omega) (by omega) (by rw [C0.distance]; exact C0.count) (by omega) a
    rw [load_eq (put_same _ _ _) L0 a false hcount C0.count, if_neg (by simp), hub]
    rfl

end Sizes

section BinarySizes

variable {D : Type} [Raw D] [LawfulRaw D] {F : FileSystem} {name : Text} {L : LevelSet D}

/-- **C59** (disagreement, binary): `loadLevelSetBIN` accepts every file.  Signed distances for which the file has eight bytes are read, those for
which it has none are left as they were, and surplus bytes are ignored. -/
theorem C59_binary_fails {c : Text} (hf : F.files name = some c) (hL : L.signedDistance.length = L.mesh.nNodes) :
    ∃ sd, loadLevelSetBIN F name L = .ok { L with signedDistance := sd } ∧ sd.length = L.mesh.nNodes ∧
      ∀ i, i < L.mesh.nNodes → (8 * (i + 1) ≤ c.length → sd[i]? = some (Raw.ofBytes ((c.drop (8 * i)).take 8))) ∧
        (c.length ≤ 8 * i → sd[i]? = L.signedDistance[i]?) := by
  have hlen : (c.take (L.mesh.nNodes * 8)).length = Min.min (L.mesh.nNodes * 8) c.length := List.length_take
  refine ⟨_, ?_, numbers_length L.mesh.nNodes (c.take (L.mesh.nNodes * 8) ++ (image L.signedDistance).drop (c.take (L.mesh.nNodes * 8)).length), fun i hi => ?_⟩
  · unfold loadLevelSetBIN
    rw [hf]
    dsimp only
    rw [hL, if_neg (by rw [hlen]; omega)]
  · rw [numbers_get _ _ hi]
    refine ⟨fun h => ?_, fun h => ?_⟩
    · congr 2
      rw [List.drop_append_of_le_length (by rw [hlen]; omega), List.take_append_of_le_length (by rw [List.length_drop, hlen]; omega),
        List.drop_take, List.take_take]
      congr 1
      omega
    · have hx := List.getElem?_eq_getElem (show i < L.signedDistance.length by omega)
      rw [hx]
      have hk : (c.take (L.mesh.nNodes * 8)).length = c.length := by rw [hlen]; omega
      have : ((c.take (L.mesh.nNodes * 8) ++ (image L.signedDistance).drop (c.take (L.mesh.nNodes * 8)).length).drop (8 * i)) =
          (image L.signedDistance).drop (8 * i) := by
        rw [List.drop_append, List.drop_of_length_le (by rw [hk]; exact h), List.nil_append, List.drop_drop, hk]
        congr 1
        omega
      rw [this, image_get hx, LawfulRaw.back]

end BinarySizes

/-! ## C60: the two functions that write VTK files -/

section VTK

variable {D : Type} [Txt D] {F : FileSystem} {L : LevelSet D} {n : Nat} {d : Text}

/-- **C60** (partial: only if no velocities and no gradients are asked for): the function that takes a data point writes what the one that takes
a file name writes. -/
theorem C60_same_partial : saveLevelSetVTKAt F n L false false d = saveLevelSetVTK F (fileName .levelSetVTK n d) L false false := rfl

theorem vtkScalars_eq {name : Text} {v : List D} {k : Nat} (h : v.length = k) :
    vtkScalars name k v = .ok ("SCALARS ".toList ++ name ++ " float 1\n".toList ++ "LOOKUP_TABLE default\n".toList ++ v.flatMap fun x => fmt x ++ ['\n']) := by
  unfold vtkScalars
  have : v.flatMap (fun x => fmt x ++ ['\n']) = (List.range k).flatMap fun i => (v[i]?.map fun x => fmt x ++ ['\n']).getD [] := by
    subst h
    have hv : v.map (fun x => fmt x ++ ['\n']) = (List.range v.length).map fun i => (v[i]?.map fun x => fmt x ++ ['\n']).getD [] := by
      apply List.ext_getElem (by simp)
      intro i h1 h2
      simp at h1
      simp [List.getElem?_eq_getElem h1]
    rw [List.flatMap_def, hv, ← List.flatMap_def]
  rw [lines_eq (g := fun i => (v[i]?.map fun x => fmt x ++ ['\n']).getD []), this]
  · rfl
  · intro i hi
    have hx := List.getElem?_eq_getElem (show i < v.length by omega)
    rw [rd_of_getElem? hx, hx]; rfl

/-- **C60** (disagreement): the function that takes a data point ignores the flags: as soon as one of them is set, the file differs from what the
other function writes. -/
theorem C60_fails (C : Complete L) (hw : F.writable (fileName .levelSetVTK n d) = true) (isVelocity isGradient : Bool) :
    ∃ F1 F2, saveLevelSetVTKAt F n L isVelocity isGradient d = .ok F1 ∧
      saveLevelSetVTK F (fileName .levelSetVTK n d) L isVelocity isGradient = .ok F2 ∧
      (F1.files (fileName .levelSetVTK n d) = F2.files (fileName .levelSetVTK n d) ↔ isVelocity = false ∧ isGradient = false) := by
  have key : ∀ v g, ∃ c, saveLevelSetVTK F (fileName .levelSetVTK n d) L v g = .ok (F.put (fileName .levelSetVTK n d) c) ∧
      ∃ b t, levelSetVTK L false false = .ok b ∧ c = b ++ t ∧ (t = [] ↔ v = false ∧ g = false) := by
    intro v g
    unfold saveLevelSetVTK levelSetVTK
    rw [vtkScalars_eq C.distance, vtkScalars_eq C.velocity, vtkScalars_eq C.gradient]
    cases v <;> cases g
    · exact ⟨_, save_eq hw, _, [], rfl, (List.append_nil _).symm, by simp⟩
    · exact ⟨_, save_eq hw, _, "SCALARS ".toList ++ "gradient".toList ++ " float 1\n".toList ++ "LOOKUP_TABLE default\n".toList ++ L.gradient.flatMap fun x => fmt x ++ ['\n'], rfl, by simp only [List.append_nil], by simp⟩
    · exact ⟨_, save_eq hw, _, "SCALARS ".toList ++ "velocity".toList ++ " float 1\n".toList ++ "LOOKUP_TABLE default\n".toList ++ L.velocity.flatMap fun x => fmt x ++ ['\n'], rfl, by simp only [List.append_nil], by simp⟩
    · exact ⟨_, save_eq hw, _, ("SCALARS ".toList ++ "velocity".toList ++ " float 1\n".toList ++ "LOOKUP_TABLE default\n".toList ++ L.velocity.flatMap fun x => fmt x ++ ['\n']) ++ ("SCALARS ".toList ++ "gradient".toList ++ " float 1\n".toList ++ "LOOKUP_TABLE default\n".toList ++ L.gradient.flatMap fun x => fmt x ++ ['\n']), rfl, by simp only [List.append_nil, List.append_assoc], by simp⟩
  obtain ⟨c1, e1, b1, t1, h1, rfl, h1'⟩ := key false false
  obtain ⟨c2, e2, b2, t2, h2, rfl, h2'⟩ := key isVelocity isGradient
  rw [h1] at h2
  cases h2
  refine ⟨_, _, e1, e2, ?_⟩
  rw [put_same, put_same, ← h2', h1'.2 ⟨rfl, rfl⟩]
  simp

/-! ## C68: content of VTK files -/

theorem extract_scalars (t : Text) : (extract (D := D) ⟨"SCALARS ".toList ++ t, false, false⟩).1.fail = true := rfl

theorem levelSetVTK_eq {w h : Nat} (C : Complete L) (hw : L.mesh.width = w) (hh : L.mesh.height = h) (hn : L.mesh.nNodes = (w + 1) * (h + 1))
    (hN : (w + 1) * (h + 1) < 2 ^ 31) (isVelocity isGradient : Bool) :
    levelSetVTK L isVelocity isGradient = .ok (unlines (headLines w h ++ ["POINT_DATA ".toList ++ dec ((w + 1) * (h + 1))]) ++
      (unlines (blockLines "distance" L.signedDistance) ++ ((if isVelocity then unlines (blockLines "velocity" L.velocity) else []) ++
        (if isGradient then unlines (blockLines "gradient" L.gradient) else [])))) := by
  have h1 : w < 2147483647 := by nlinarith
  have h2 : h < 2147483647 := by nlinarith
  unfold levelSetVTK
  rw [vtkScalars_eq C.distance, vtkScalars_eq C.velocity, vtkScalars_eq C.gradient, hw, hh, hn, vtkHeader_eq h1 h2, fmtInt_small hN,
    ← unlines_block, ← unlines_block, ← unlines_block, unlines_append]
  cases isVelocity <;> cases isGradient <;>
    simp [bind, Except.bind, pure, Except.pure, unlines]

/-- **C68**: a file written by `saveLevelSetVTK` has a head that fits the grid, announces as many values as the grid has nodes, and then
lists the signed distances, followed, on request, by velocities and gradients; there is nothing else in the file. -/
theorem C68_levelSet {val : D → Option ℝ} (V : Faithful val) {name : Text} {w h : Nat} (hF : F.writable name = true) (C : Complete L)
    (hw : L.mesh.width = w) (hh : L.mesh.height = h) (hn : L.mesh.nNodes = (w + 1) * (h + 1)) (hN : (w + 1) * (h + 1) < 2 ^ 31)
    (isVelocity isGradient : Bool) (f1 : ∀ x ∈ L.signedDistance, ∃ a, val x = some a) (f2 : ∀ x ∈ L.velocity, ∃ a, val x = some a)
    (f3 : ∀ x ∈ L.gradient, ∃ a, val x = some a) :
    ∃ F' t, saveLevelSetVTK F name L isVelocity isGradient = .ok F' ∧ F'.files name = some t ∧ GridHead w h t ∧
      lineAt 12 t = "POINT_DATA ".toList ++ dec ((w + 1) * (h + 1)) ∧ Scalars val "distance" L.signedDistance 13 t ∧
      (isVelocity = true → Scalars val "velocity" L.velocity (13 + ((w + 1) * (h + 1) + 2)) t) ∧
      (isGradient = true → Scalars val "gradient" L.gradient (13 + ((w + 1) * (h + 1) + 2) * (1 + isVelocity.toNat)) t) ∧
      lineCount t = 13 + ((w + 1) * (h + 1) + 2) * (1 + isVelocity.toNat + isGradient.toNat) := by
  have h1 : w < 2147483647 := by nlinarith
  have h2 : h < 2147483647 := by nlinarith
  have e := levelSetVTK_eq C hw hh hn hN isVelocity isGradient
  have n1 : '\n' ∉ "distance".toList := by decide
  have n2 : '\n' ∉ "velocity".toList := by decide
  have n3 : '\n' ∉ "gradient".toList := by decide
  have gp : ∀ l ∈ headLines w h ++ ["POINT_DATA ".toList ++ dec ((w + 1) * (h + 1))], '\n' ∉ l := by
    intro l hl
    rcases List.mem_append.1 hl with hl | hl
    · exact headLines_good w h l hl
    · rw [List.mem_singleton] at hl
      subst hl
      simp only [List.mem_append, not_or]
      exact ⟨by decide, dec_no_newline _⟩
  have gd := blockLines_good V n1 L.signedDistance
  have gv := blockLines_good V n2 L.velocity
  have gg := blockLines_good V n3 L.gradient
  have l0 : (headLines w h ++ ["POINT_DATA ".toList ++ dec ((w + 1) * (h + 1))]).length = 13 := rfl
  have l1 : (blockLines "distance" L.signedDistance).length = (w + 1) * (h + 1) + 2 := by simp [blockLines, C.distance, hn]
  have l2 : (blockLines "velocity" L.velocity).length = (w + 1) * (h + 1) + 2 := by simp [blockLines, C.velocity, hn]
  have l3 : (blockLines "gradient" L.gradient).length = (w + 1) * (h + 1) + 2 := by simp [blockLines, C.gradient, hn]
  generalize hP : headLines w h ++ ["POINT_DATA ".toList ++ dec ((w + 1) * (h + 1))] = P at *
  have gp1 : ∀ l ∈ P ++ blockLines "distance" L.signedDistance, '\n' ∉ l := by
    intro l hl
    rcases List.mem_append.1 hl with hl | hl
    exacts [gp l hl, gd l hl]
  have gp2 : ∀ l ∈ P ++ blockLines "distance" L.signedDistance ++ blockLines "velocity" L.velocity, '\n' ∉ l := by
    intro l hl
    rcases List.mem_append.1 hl with hl | hl
    exacts [gp1 l hl, gv l hl]
  refine ⟨_, _, by unfold saveLevelSetVTK; rw [e]; exact save_eq hF, put_same _ _ _, ?_, lineAt_unlines gp _ (by rw [← hP]; rfl), ?_, ?_, ?_, ?_⟩
  · rw [← hP, unlines_append, ← vtkHeader_eq h1 h2, List.append_assoc]
    exact gridHead h1 h2 _
  · refine scalars V n1 f1 ?_ gp l0
    cases isVelocity <;> cases isGradient
    · rfl
    · rw [if_pos rfl, if_neg (by simp), unlines_block]; exact extract_scalars _
    · rw [if_pos rfl, if_neg (by simp), unlines_block]; exact extract_scalars _
    · rw [if_pos rfl, if_pos rfl, unlines_block]; exact extract_scalars _
  · rintro rfl
    rw [← List.append_assoc, ← unlines_append, if_pos rfl]
    refine scalars V n2 f2 ?_ gp1 (by rw [List.length_append, l0, l1])
    cases isGradient
    · rfl
    · rw [if_pos rfl, unlines_block]; exact extract_scalars _
  · rintro rfl
    cases isVelocity
    · rw [← List.append_assoc, ← unlines_append, if_pos rfl, if_neg (by simp), List.nil_append, ← List.append_nil (unlines (blockLines "gradient" _))]
      exact scalars V n3 f3 rfl gp1 (by rw [List.length_append, l0, l1]; simp)
    · rw [← List.append_assoc, ← unlines_append, if_pos rfl, if_pos rfl, ← List.append_assoc, ← unlines_append,
        ← List.append_nil (unlines (blockLines "gradient" _))]
      exact scalars V n3 f3 rfl gp2 (by simp only [List.length_append, l0, l1, l2, Bool.toNat_true]; ring)
  · rw [← countLines_eq]
    cases isVelocity <;> cases isGradient <;> simp only [if_true, if_false, Bool.false_eq_true, List.append_nil, List.nil_append, ← unlines_append, Bool.toNat_true, Bool.toNat_false] <;>
      rw [count_unlines]
    · simp only [List.length_append, l0, l1]; ring
    · intro l hl
      rcases List.mem_append.1 hl with hl | hl
      exacts [gp l hl, gd l hl]
    · simp only [List.length_append, l0, l1, l3]; ring
    · intro l hl
      rcases List.mem_append.1 hl with hl | hl
      · exact gp l hl
      · rcases List.mem_append.1 hl with hl | hl
        exacts [gd l hl, gg l hl]
    · simp only [List.length_append, l0, l1, l2]; ring
    · intro l hl
      rcases List.mem_append.1 hl with hl | hl
      · exact gp l hl
      · rcases List.mem_append.1 hl with hl | hl
        exacts [gd l hl, gv l hl]
    · simp only [List.length_append, l0, l1, l2, l3]; ring
    · intro l hl
      rcases List.mem_append.1 hl with hl | hl
      · exact gp l hl
      · rcases List.mem_append.1 hl with hl | hl
        · exact gd l hl
        · rcases List.mem_append.1 hl with hl | hl
          exacts [gv l hl, gg l hl]

/-- **C68** (area fractions). -/
theorem C68_area {val : D → Option ℝ} (V : Faithful val) {name : Text} {w h : Nat} {m : Mesh D} (hF : F.writable name = true)
    (hw : m.width = w) (hh : m.height = h) (hn : m.nElements = w * h) (hl : m.elements.length = w * h) (hN : (w + 1) * (h + 1) < 2 ^ 31)
    (fin : ∀ el ∈ m.elements, ∃ a, val el.area = some a) :
    ∃ F' t, saveAreaVTK F name m = .ok F' ∧ F'.files name = some t ∧ GridHead w h t ∧
      lineAt 12 t = "CELL_DATA ".toList ++ dec (w * h) ∧ Scalars val "area" (m.elements.map (·.area)) 13 t ∧ lineCount t = 15 + w * h := by
  have h1 : w < 2147483647 := by nlinarith
  have h2 : h < 2147483647 := by nlinarith
  have n1 : '\n' ∉ "area".toList := by decide
  have gp : ∀ l ∈ headLines w h ++ ["CELL_DATA ".toList ++ dec (w * h)], '\n' ∉ l := by
    intro l hl
    rcases List.mem_append.1 hl with hl | hl
    · exact headLines_good w h l hl
    · rw [List.mem_singleton] at hl
      subst hl
      simp only [List.mem_append, not_or]
      exact ⟨by decide, dec_no_newline _⟩
  have ga := blockLines_good V n1 (m.elements.map (·.area))
  have e : areaVTK m = .ok (unlines (headLines w h ++ ["CELL_DATA ".toList ++ dec (w * h)]) ++ unlines (blockLines "area" (m.elements.map (·.area)))) := by
    have hs := vtkScalars_eq (name := "area".toList) (v := m.elements.map (·.area)) (k := w * h) (by rw [List.length_map, hl])
    rw [← unlines_block] at hs
    unfold vtkScalars at hs
    unfold areaVTK
    have hb : (lines (w * h) fun i => rd (m.elements.map (·.area)) i >>= fun x => pure (fmt x ++ ['\n'])) =
        lines (w * h) (fun i => rd m.elements i >>= fun el => pure (fmt el.area ++ ['\n'])) := by
      congr 1
      funext i
      unfold rd
      rw [List.getElem?_map]
      cases m.elements[i]? <;> rfl
    rw [hb] at hs
    rw [hn]
    cases hc : lines (w * h) (fun i => rd m.elements i >>= fun el => pure (fmt el.area ++ ['\n'])) with
    | error x => rw [hc] at hs; cases hs
    | ok c =>
      rw [hc] at hs
      have hs' := Except.ok.inj hs
      show Except.ok _ = _
      congr 1
      rw [← hs', hw, hh, vtkHeader_eq h1 h2, fmtInt_small (by nlinarith), unlines_append]
      simp [unlines]
  refine ⟨_, _, by unfold saveAreaVTK; rw [e]; exact save_eq hF, put_same _ _ _, ?_, lineAt_unlines gp _ rfl, ?_, ?_⟩
  · rw [unlines_append, ← vtkHeader_eq h1 h2, List.append_assoc]
    exact gridHead h1 h2 _
  · rw [← List.append_nil (unlines (blockLines "area" _))]
    exact scalars V n1 (fun x hx => by obtain ⟨el, hel, rfl⟩ := List.mem_map.1 hx; exact fin el hel) rfl gp rfl
  · rw [← countLines_eq, ← unlines_append, count_unlines]
    · have : (blockLines "area" (m.elements.map (·.area))).length = w * h + 2 := by simp [blockLines, hl]
      rw [List.length_append, this]
      show 13 + _ = _
      omega
    · intro l hl
      rcases List.mem_append.1 hl with hl | hl
      exacts [gp l hl, ga l hl]

end VTK

/-! ## C67: tables of points, segments and areas -/

section Tables

variable {D : Type} [Txt D] {val : D → Option ℝ} {F : FileSystem} {name : Text}

theorem lines_table {α : Type} (l : List α) {n : Nat} (hn : n = l.length) {f : Nat → Res Text} {g : α → List (List D)}
    (h : ∀ (i : Nat) (a : α), l[i]? = some a → f i = .ok ((g a).flatMap row)) : lines n f = .ok ((l.flatMap g).flatMap row) := by
  subst hn
  rw [lines_eq (g := fun i => (l[i]?.map fun a => (g a).flatMap row).getD [])]
  · congr 1
    have hv : l.map (fun a => (g a).flatMap row) = (List.range l.length).map fun i => (l[i]?.map fun a => (g a).flatMap row).getD [] := by
      apply List.ext_getElem (by simp)
      intro i h1 h2
      simp at h1
      simp [List.getElem?_eq_getElem h1]
    rw [List.flatMap_assoc, List.flatMap_def, ← hv, ← List.flatMap_def]
  · intro i hi
    rw [h i _ (List.getElem?_eq_getElem hi), List.getElem?_eq_getElem hi]; rfl

theorem save_table (V : Faithful val) {xss : List (List D)} {c : Res Text} (hc : c = .ok (xss.flatMap row)) (hF : F.writable name = true)
    (fin : ∀ x ∈ xss.flatten, ∃ a, val x = some a) :
    ∃ F' t ys, F.save name c = .ok F' ∧ F'.files name = some t ∧ lineCount t = xss.length ∧ Delivers ⟨t, false, false⟩ ys ∧
      List.Forall₂ (Restored val) xss.flatten ys := by
  obtain ⟨ys, h1, h2⟩ := table_delivers V (xss := xss) fun xs hxs x hx => fin x (List.mem_flatten.2 ⟨xs, hxs, hx⟩)
  refine ⟨_, _, ys, by rw [hc]; exact save_eq hF, put_same _ _ _, ?_, h1, h2⟩
  rw [← countLines_eq, count_table fun _ _ x _ => fmt_line V x]

/-- **C67** (points): the file written by `saveBoundaryPointsTXT` has one line for each point, and reading it gives the coordinates and the
length of each point in turn. -/
theorem C67_points (V : Faithful val) {b : Boundary D} (hn : b.nPoints = b.points.length) (hF : F.writable name = true)
    (fin : ∀ p ∈ b.points, ∀ x ∈ [p.coord.x, p.coord.y, p.length], ∃ a, val x = some a) :
    ∃ F' t ys, savePoints F name b = .ok F' ∧ F'.files name = some t ∧ lineCount t = b.nPoints ∧ Delivers ⟨t, false, false⟩ ys ∧
      List.Forall₂ (Restored val) (b.points.flatMap fun p => [p.coord.x, p.coord.y, p.length]) ys := by
  have hc : pointsTXT b = .ok ((b.points.flatMap fun p => [[p.coord.x, p.coord.y, p.length]]).flatMap row) :=
    lines_table b.points hn fun i p hp => by
      rw [rd_of_getElem? hp]
      simp [bind, Except.bind, pure, Except.pure, row]
  obtain ⟨F', t, ys, h1, h2, h3, h4, h5⟩ := save_table V hc hF (fun x hx => by
    obtain ⟨xs, hxs, hx⟩ := List.mem_flatten.1 hx
    obtain ⟨p, hp, hq⟩ := List.mem_flatMap.1 hxs
    rw [List.mem_singleton] at hq
    subst hq
    exact fin p hp x hx)
  refine ⟨F', t, ys, h1, h2, ?_, h4, ?_⟩
  · rw [h3, hn, List.length_flatMap]; simp
  · have e : (b.points.flatMap fun p => [[p.coord.x, p.coord.y, p.length]]).flatten = b.points.flatMap fun p => [p.coord.x, p.coord.y, p.length] := by
      rw [List.flatten_eq_flatMap, List.flatMap_assoc]; simp
    rw [← e]; exact h5

/-- **C67** (segments): the file written by `saveBoundarySegmentsTXT` has three lines for each segment, and reading it gives the coordinates of
both ends of each segment in turn. -/
theorem C67_segments (V : Faithful val) {b : Boundary D} (hn : b.nSegments = b.segments.length) (hF : F.writable name = true)
    {ends : BoundarySegment D → BoundaryPoint D × BoundaryPoint D}
    (he : ∀ s ∈ b.segments, b.points[s.start]? = some (ends s).1 ∧ b.points[s.stop]? = some (ends s).2)
    (fin : ∀ p ∈ b.points, ∀ x ∈ [p.coord.x, p.coord.y], ∃ a, val x = some a) :
    ∃ F' t ys, saveSegments F name b = .ok F' ∧ F'.files name = some t ∧ lineCount t = 3 * b.nSegments ∧ Delivers ⟨t, false, false⟩ ys ∧
      List.Forall₂ (Restored val)
        (b.segments.flatMap fun s => [(ends s).1.coord.x, (ends s).1.coord.y, (ends s).2.coord.x, (ends s).2.coord.y]) ys := by
  have hc : segmentsTXT b = .ok ((b.segments.flatMap fun s =>
      [[(ends s).1.coord.x, (ends s).1.coord.y], [(ends s).2.coord.x, (ends s).2.coord.y], []]).flatMap row) :=
    lines_table b.segments hn fun i s hs => by
      obtain ⟨h1, h2⟩ := he s (List.mem_of_getElem? hs)
      rw [rd_of_getElem? hs]
      show (rd b.points s.start >>= fun p => rd b.points s.stop >>= fun q => _) = _
      rw [rd_of_getElem? h1, rd_of_getElem? h2]
      simp [bind, Except.bind, pure, Except.pure, row]
  obtain ⟨F', t, ys, h1, h2, h3, h4, h5⟩ := save_table V hc hF (fun x hx => by
    obtain ⟨xs, hxs, hx⟩ := List.mem_flatten.1 hx
    obtain ⟨s, hs, hq⟩ := List.mem_flatMap.1 hxs
    obtain ⟨e1, e2⟩ := he s hs
    simp only [List.mem_cons, List.not_mem_nil, or_false] at hq
    rcases hq with rfl | rfl | rfl
    · exact fin _ (List.mem_of_getElem? e1) x hx
    · exact fin _ (List.mem_of_getElem? e2) x hx
    · simp at hx)
  refine ⟨F', t, ys, h1, h2, ?_, h4, ?_⟩
  · rw [h3, hn, List.length_flatMap]; simp; omega
  · have e : (b.segments.flatMap fun s => [[(ends s).1.coord.x, (ends s).1.coord.y], [(ends s).2.coord.x, (ends s).2.coord.y], []]).flatten =
        b.segments.flatMap fun s => [(ends s).1.coord.x, (ends s).1.coord.y, (ends s).2.coord.x, (ends s).2.coord.y] := by
      rw [List.flatten_eq_flatMap, List.flatMap_assoc]; simp
    rw [← e]; exact h5

/-- **C67** (area fractions): one line for each element, with the coordinates of its centre if asked for. -/
theorem C67_area (V : Faithful val) {m : Mesh D} (hn : m.nElements = m.elements.length) (hF : F.writable name = true) (isXY : Bool)
    (fin : ∀ el ∈ m.elements, ∀ x ∈ [el.coord.x, el.coord.y, el.area], ∃ a, val x = some a) :
    ∃ F' t ys, saveAreaTXT F name m isXY = .ok F' ∧ F'.files name = some t ∧ lineCount t = m.nElements ∧ Delivers ⟨t, false, false⟩ ys ∧
      List.Forall₂ (Restored val) (m.elements.flatMap fun el => if isXY then [el.coord.x, el.coord.y, el.area] else [el.area]) ys := by
  have hc : areaTXT m isXY = .ok ((m.elements.flatMap fun el => [if isXY then [el.coord.x, el.coord.y, el.area] else [el.area]]).flatMap row) :=
    lines_table m.elements hn fun i el hel => by
      rw [rd_of_getElem? hel]
      cases isXY <;> simp [bind, Except.bind, pure, Except.pure, row]
  obtain ⟨F', t, ys, h1, h2, h3, h4, h5⟩ := save_table V hc hF (fun x hx => by
    obtain ⟨xs, hxs, hx⟩ := List.mem_flatten.1 hx
    obtain ⟨el, hel, hq⟩ := List.mem_flatMap.1 hxs
    rw [List.mem_singleton] at hq
    subst hq
    refine fin el hel x ?_
    cases isXY
    · simp at hx ⊢; exact .inr (.inr hx)
    · exact hx)
  refine ⟨F', t, ys, h1, h2, ?_, h4, ?_⟩
  · rw [h3, hn, List.length_flatMap]; simp
  · have e : (m.elements.flatMap fun el => [if isXY then [el.coord.x, el.coord.y, el.area] else [el.area]]).flatten =
        m.elements.flatMap fun el => if isXY then [el.coord.x, el.coord.y, el.area] else [el.area] := by
      rw [List.flatten_eq_flatMap, List.flatMap_assoc]; simp
    rw [← e]; exact h5

end Tables

/-! ## The same for level sets and boundaries of programs -/

section Programs

variable {F : FileSystem} {name : Text} {w h : Nat}

/-- **C68** for level sets that programs can have in their hands. -/
theorem C68_reachable {L : LevelSet ℝ} (hr : LevelSet.Reachable w h L) (hF : F.writable name = true) (isVelocity isGradient : Bool) :
    ∃ F' t, saveLevelSetVTK F name L isVelocity isGradient = .ok F' ∧ F'.files name = some t ∧ GridHead w h t ∧
      lineAt 12 t = "POINT_DATA ".toList ++ dec ((w + 1) * (h + 1)) ∧ Scalars some "distance" L.signedDistance 13 t ∧
      (isVelocity = true → Scalars some "velocity" L.velocity (13 + ((w + 1) * (h + 1) + 2)) t) ∧
      (isGradient = true → Scalars some "gradient" L.gradient (13 + ((w + 1) * (h + 1) + 2) * (1 + isVelocity.toNat)) t) ∧
      lineCount t = 13 + ((w + 1) * (h + 1) + 2) * (1 + isVelocity.toNat + isGradient.toNat) :=
  have C := hr.core
  C68_levelSet faithful_real hF (complete_reachable hr) C.grid.width C.grid.height C.grid.nNodes
    (by rw [← C.grid.nNodes]; exact C.small) isVelocity isGradient (fun x _ => ⟨x, rfl⟩) (fun x _ => ⟨x, rfl⟩) fun x _ => ⟨x, rfl⟩

/-- **C67** for boundaries made by `discretise`. -/
theorem C67_discretise {L L' : LevelSet ℝ} {isTarget : Bool} {b : Boundary ℝ} (T : Boundary.Tame w h L isTarget)
    (e : Boundary.discretise L isTarget = .ok (b, L')) (hF : F.writable name = true) :
    (∃ F' t ys, savePoints F name b = .ok F' ∧ F'.files name = some t ∧ lineCount t = b.points.length ∧ Delivers ⟨t, false, false⟩ ys ∧
      List.Forall₂ (Restored some) (b.points.flatMap fun p => [p.coord.x, p.coord.y, p.length]) ys) ∧
    ∃ ends : BoundarySegment ℝ → BoundaryPoint ℝ × BoundaryPoint ℝ,
      (∀ s ∈ b.segments, b.points[s.start]? = some (ends s).1 ∧ b.points[s.stop]? = some (ends s).2) ∧
      ∃ F' t ys, saveSegments F name b = .ok F' ∧ F'.files name = some t ∧ lineCount t = 3 * b.segments.length ∧ Delivers ⟨t, false, false⟩ ys ∧
        List.Forall₂ (Restored some)
          (b.segments.flatMap fun s => [(ends s).1.coord.x, (ends s).1.coord.y, (ends s).2.coord.x, (ends s).2.coord.y]) ys := by
  obtain ⟨b1, L1, e1, E⟩ := Boundary.tame_exact T
  rw [e] at e1
  cases e1
  have hn : b.nPoints = b.points.length := by
    obtain ⟨W, R, hm, hb, hl, _⟩ := E.rep
    rw [hl.len, R.plen, ← R.nPoints, hb]
  obtain ⟨hs, -, hc⟩ := C38_segments T.toReady e
  refine ⟨?_, ?_⟩
  · rw [← hn]
    exact C67_points faithful_real hn hF fun _ _ x _ => ⟨x, rfl⟩
  · have : ∀ s : BoundarySegment ℝ, ∃ pq : BoundaryPoint ℝ × BoundaryPoint ℝ, s ∈ b.segments →
        b.points[s.start]? = some pq.1 ∧ b.points[s.stop]? = some pq.2 := by
      intro s
      by_cases hm : s ∈ b.segments
      · obtain ⟨p, q, -, -, h1, h2, -⟩ := hs s hm
        exact ⟨(p, q), fun _ => ⟨h1, h2⟩⟩
      · have : BoundaryPoint ℝ := ⟨⟨0, 0⟩, ⟨0, 0⟩, 0, 0, 0, 0, false, false, 0, [], 0, [], []⟩
        exact ⟨(this, this), fun h => absurd h hm⟩
    choose ends he using this
    refine ⟨ends, he, ?_⟩
    rw [← hc]
    exact C67_segments faithful_real hc hF he fun _ _ x _ => ⟨x, rfl⟩

end Programs

/-! ## Examples -/

/-- A file system in which every file can be written. -/
def emptyDisk : FileSystem := { files := fun _ => none, writable := fun _ => true }

/-- A level set with a single row of nodes, for the examples. -/
def strip {D : Type} (zero : D) (sd vel grad : List D) : LevelSet D where
  signedDistance := sd
  velocity := vel
  gradient := grad
  target := sd
  narrowBand := []
  mines := []
  nNarrowBand := 0
  nMines := 0
  moveLimit := zero
  area := zero
  mesh := {
    elements := []
    nodes := sd.map fun x => ⟨⟨x, zero⟩, [], [], 0, [], 0, false, false, false, false, .none⟩
    width := sd.length
    height := 0
    nElements := 0
    nNodes := sd.length
    xyToIndex := [] }
  bandWidth := 3
  isFixedDomain := false

/-- `1.0`, infinity, and the largest finite double. -/
def Double.one : Double := ⟨false, ⟨1023 * 2 ^ 52, by norm_num⟩⟩
def Double.inf : Double := ⟨false, ⟨2047 * 2 ^ 52, by norm_num⟩⟩
def Double.max : Double := ⟨true, ⟨2047 * 2 ^ 52 - 1, by norm_num⟩⟩

theorem Double.one_val : Double.val Double.one = some 1 := by
  have h : Double.one.code.1 = 1023 * 2 ^ 52 := rfl
  unfold Double.val
  rw [h, if_pos (by norm_num [Double.top])]
  have : Double.magnitude (1023 * 2 ^ 52) = 1 := by
    unfold Double.magnitude
    rw [show (1023 * 2 ^ 52 / 2 ^ 52 : Nat) = 1023 by norm_num, if_neg (by norm_num), show (1023 * 2 ^ 52 % 2 ^ 52 : Nat) = 0 by norm_num]
    rw [div_eq_one_iff_eq (by positivity)]
    rw [show (1075 : ℕ) = 52 + 1023 from rfl, pow_add]
    norm_num
  rw [this]
  simp [Double.one]

theorem Double.inf_val : Double.val Double.inf = none := by
  have h : Double.inf.code.1 = 2047 * 2 ^ 52 := rfl
  unfold Double.val
  rw [h, if_neg (by norm_num [Double.top])]

theorem Double.max_val : ∃ a, Double.val Double.max = some a := by
  have h : Double.max.code.1 = 2047 * 2 ^ 52 - 1 := rfl
  unfold Double.val
  rw [h, if_pos (by norm_num [Double.top])]
  exact ⟨_, rfl⟩

theorem strip_complete {D : Type} {zero : D} {sd vel grad : List D} (h1 : vel.length = sd.length) (h2 : grad.length = sd.length)
    (h3 : sd.length < 2 ^ 32) : Complete (strip zero sd vel grad) := ⟨by simp [strip], rfl, h1, h2, h3⟩

/-- The hypotheses of the theorems about text files hold for doubles, of any size. -/
example : ∃ (L L0 : LevelSet Double), Complete L ∧ Complete L0 ∧ L0.mesh.nNodes = L.mesh.nNodes ∧ 2 ≤ L.mesh.nNodes ∧
    AllFinite Double.val L true ∧ L.signedDistance ≠ L0.signedDistance ∧ ∀ n, emptyDisk.writable n = true := by
  refine ⟨strip Double.one [Double.max, Double.one] [Double.one, Double.max] [Double.one, Double.one],
    strip Double.one [Double.one, Double.one] [Double.one, Double.one] [Double.one, Double.one],
    strip_complete rfl rfl (by norm_num), strip_complete rfl rfl (by norm_num), rfl, by simp [strip], ?_, by simp [strip, Double.max, Double.one], fun _ => rfl⟩
  intro i hi x hx
  have hi : i < 2 := hi
  have h1 : ∃ a, Double.val Double.one = some a := ⟨1, Double.one_val⟩
  have h2 := Double.max_val
  have key : x = Double.one ∨ x = Double.max := by
    match i, hi with
    | 0, _ | 1, _ => simp [record, strip] at hx; tauto
  rcases key with rfl | rfl
  exacts [h1, h2]

/-- The hypotheses of the disagreements hold for doubles. -/
example : ∃ L : LevelSet Double, Complete L ∧ L.signedDistance[0]? = some Double.one ∧ (∃ a, Double.val Double.one = some a) ∧
    L.velocity[0]? = some Double.inf ∧ Double.val Double.inf = none :=
  ⟨strip Double.one [Double.one, Double.one] [Double.inf, Double.one] [Double.one, Double.one], strip_complete rfl rfl (by norm_num), rfl,
    ⟨1, Double.one_val⟩, rfl, Double.inf_val⟩

/-- Names of files. -/
example : fileName .levelSetTXT 7 [] = "level-set_0007.txt".toList := by decide +kernel
example : fileName .areaVTK 12345 "out".toList = "out/area_12345.vtk".toList := by decide +kernel

/-- Printed numbers. -/
example : fmt Double.one = "1.000000".toList := by decide +kernel
example : fmt Double.inf = "inf".toList := by decide +kernel

end Slsm.IO
