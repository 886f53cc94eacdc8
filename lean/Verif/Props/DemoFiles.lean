import Verif.Proof.DemoFiles
import Verif.Props.IO

/-! # Properties of the files read by the demo programs (C101) -/

namespace Slsm.Program

open Slsm Slsm.IO

variable {D : Type} [Txt D] {F : FileSystem} {L : LevelSet D} {arguments : List Text} {name c : Text}

/-- **C101** (starting configuration, no file): without a third argument nothing is read; a file that cannot be opened ends the program. -/
theorem C101_start_file (a : Bool) :
    (arguments.length ≤ 2 → startingConfiguration a F arguments L = .ok L) ∧
    (arguments[2]? = some name → F.files name = none → startingConfiguration a F arguments L = .error .exit) := by
  refine ⟨fun h => ?_, fun h h' => ?_⟩
  · unfold startingConfiguration
    rw [List.getElem?_eq_none h]
  · unfold startingConfiguration
    rw [h]
    dsimp only
    rw [h']

/-- **C101** (starting configuration): for every text in the file.  There is exactly one list of numbers `ys` that the text delivers before reading fails,
and exactly one `last` that the failing attempt stores.  The signed distances are then `ys`, `last` and the old values, in this order, and nothing else changes
-- if there is room for that (for one more number, if the library checks indices).  Otherwise the program leaves the array. -/
theorem C101_start (hL : L.signedDistance.length < 2 ^ 32) (h : arguments[2]? = some name) (hc : F.files name = some c) (a : Bool) :
    ∃ ys last, Yields (D := D) ⟨c, false, false⟩ ys last ∧ (∀ zs z, Yields (D := D) ⟨c, false, false⟩ zs z → zs = ys ∧ z = last) ∧
      (ys.length + (if a = true ∨ last.isSome = true then 1 else 0) ≤ L.signedDistance.length →
        startingConfiguration a F arguments L =
          .ok { L with signedDistance := ys ++ last.toList ++ L.signedDistance.drop (ys.length + last.toList.length) }) ∧
      (L.signedDistance.length < ys.length + (if a = true ∨ last.isSome = true then 1 else 0) →
        startingConfiguration a F arguments L = .error .ub) := by
  obtain ⟨ys, x, hy⟩ := yields_exists (D := D) ⟨c, false, false⟩
  refine ⟨ys, x, hy, fun zs z hz => hz.unique hy, ?_⟩
  have key := readValues_eq a hy (v := L.signedDistance) (k := 0) (n := c.length + 1) (Nat.zero_le _) hL (Nat.lt_succ_of_le hy.length)
  simp only [Nat.zero_add, List.take_zero, List.nil_append] at key
  have e : startingConfiguration a F arguments L =
      (readValues a (c.length + 1) ⟨⟨c, false, false⟩, L.signedDistance, 0⟩ >>= fun s => pure { L with signedDistance := s.distance }) := by
    unfold startingConfiguration
    rw [h]
    dsimp only
    rw [hc]
  rw [e]
  refine ⟨fun hle => ?_, fun hlt => ?_⟩
  · obtain ⟨r, h1, h2⟩ := key.1 hle
    rw [h1, ← h2]; rfl
  · rw [key.2 hlt]; rfl

/-- **C101** (starting configuration, numbers only): if the file has one number for every node, printed with six decimals, the program starts from these numbers
up to the error of printing -- unless the library checks indices; then it leaves the array after the last number. -/
theorem C101_start_complete {val : D → Option ℝ} (V : Faithful val) (hL : L.signedDistance.length < 2 ^ 32) (h : arguments[2]? = some name) {v : List D}
    (fin : ∀ x ∈ v, ∃ r, val x = some r) (hc : F.files name = some (v.flatMap fun x => fmt x ++ ['\n'])) (hv : v.length = L.signedDistance.length) :
    (∃ sd, startingConfiguration false F arguments L = .ok { L with signedDistance := sd } ∧ List.Forall₂ (Restored val) v sd) ∧
    startingConfiguration true F arguments L = .error .ub := by
  have hfin : ∀ xs ∈ v.map fun x => [x], ∀ x ∈ xs, ∃ r, val x = some r := by
    intro xs hxs x hx
    obtain ⟨z, hz, rfl⟩ := List.mem_map.1 hxs
    rw [List.mem_singleton.1 hx]
    exact fin z hz
  obtain ⟨yss, hboth, hR⟩ := reread_table V hfin
  have hreads := Reads.yields (reads_table hR)
  have e1 : (v.map fun x => [x]).flatMap row = v.flatMap fun x => fmt x ++ ['\n'] := by rw [List.flatMap_map]; rfl
  have e2 : (v.map fun x => [x]).flatten = v := by
    clear e1 hreads hboth hR hfin hc hv fin
    induction v with
    | nil => rfl
    | cons x v ih => rw [List.map_cons, List.flatten_cons, ih]; rfl
  rw [e1] at hreads
  have hres := Reread.flatten (hboth.imp fun _ _ h => h.imp fun _ _ h => h.2)
  rw [e2] at hres
  have hlen := hres.length_eq
  constructor
  · obtain ⟨ys, last, -, hu, h1, -⟩ := C101_start hL h hc false
    obtain ⟨rfl, rfl⟩ := hu _ _ hreads
    refine ⟨yss.flatten, ?_, hres⟩
    have h0 : (if (false = true ∨ (none : Option D).isSome = true) then 1 else 0) = 0 := by simp
    rw [h1 (by rw [h0]; omega), Option.toList_none, List.append_nil, List.drop_of_length_le (by simp only [List.length_nil]; omega), List.append_nil]
  · obtain ⟨ys, last, -, hu, -, h1⟩ := C101_start hL h hc true
    obtain ⟨rfl, rfl⟩ := hu _ _ hreads
    refine h1 ?_
    rw [if_pos (Or.inl rfl)]
    omega

/-- **C101** (files of the library do not fit): the file written by `saveLevelSetTXT` for a level set with as many nodes is not a starting configuration. It has
three or five numbers for every node, and the program leaves the array. -/
theorem C101_saved_fails {val : D → Option ℝ} (V : Faithful val) {L0 : LevelSet D} (C : Complete L) (C0 : Complete L0) (hn : L0.mesh.nNodes = L.mesh.nNodes)
    (pos : 0 < L.mesh.nNodes) {isXY : Bool} (fin : AllFinite val L isXY) (hw : F.writable name = true) (h : arguments[2]? = some name) (a : Bool) :
    ∃ F', saveLevelSetTXT F name L isXY = .ok F' ∧ startingConfiguration a F' arguments L0 = .error .ub := by
  have hfin : ∀ xs ∈ table L isXY, ∀ x ∈ xs, ∃ v, val x = some v := by
    intro xs hxs x hx
    obtain ⟨i, hi, rfl⟩ := List.mem_map.1 hxs
    exact fin i (List.mem_range.1 hi) x hx
  refine ⟨F.put name ((table L isXY).flatMap row), ?_, ?_⟩
  · unfold saveLevelSetTXT
    rw [levelSetTXT_eq C]; exact save_eq hw
  · obtain ⟨yss, -, hR⟩ := reread_table V hfin
    obtain ⟨gs, g1, g2, g3, -⟩ := groups C isXY hR
    have hreads := Reads.yields (reads_table hR)
    have hl : ∀ l : List (IO.Group D), (∀ g ∈ l, g.post.length = 2) → 3 * l.length ≤ (l.flatMap IO.Group.all).length := by
      intro l hl
      induction l with
      | nil => simp
      | cons g l ih =>
        have h1 := hl g (by simp)
        have h2 := ih fun g hg => hl g (List.mem_cons_of_mem _ hg)
        rw [List.flatMap_cons, List.length_append]
        simp only [IO.Group.all, List.length_append, List.length_cons] at h2 ⊢
        omega
    have hlen := hl gs fun g hg => (g3 g hg).2
    rw [g1] at hlen
    obtain ⟨ys, last, -, hu, -, h1⟩ := C101_start (L := L0) (by rw [C0.distance]; exact C0.count) h (put_same F name ((table L isXY).flatMap row)) a
    obtain ⟨rfl, rfl⟩ := hu _ _ hreads
    refine h1 (Nat.lt_of_lt_of_le ?_ (Nat.le_add_right _ _))
    rw [C0.distance, hn]
    omega

/-- **C101** (target shape): the points of the shape are the numbers in the file, two by two; an odd number at the end is left out.  The file in `demos/shapes`
comes first, then the one in `shapes`; if there is neither, the program ends. -/
theorem C101_shape (F : FileSystem) :
    (∀ c, F.files "demos/shapes/stanford-bunny.txt".toList = some c →
      ∃ ys : List D, Delivers ⟨c, false, false⟩ ys ∧ shapePoints F = .ok (pairs ys)) ∧
    (∀ c, F.files "demos/shapes/stanford-bunny.txt".toList = none → F.files "shapes/stanford-bunny.txt".toList = some c →
      ∃ ys : List D, Delivers ⟨c, false, false⟩ ys ∧ shapePoints F = .ok (pairs ys)) ∧
    (F.files "demos/shapes/stanford-bunny.txt".toList = none → F.files "shapes/stanford-bunny.txt".toList = none →
      shapePoints (D := D) F = .error .exit) := by
  have key : ∀ c, ∃ ys : List D, Delivers ⟨c, false, false⟩ ys ∧ readPoints (c.length + 1) ⟨c, false, false⟩ [] = .ok (pairs ys) := by
    intro c
    obtain ⟨ys, x, h⟩ := yields_exists (D := D) ⟨c, false, false⟩
    exact ⟨ys, h.delivers, readPoints_eq h (Nat.lt_succ_of_le h.length) []⟩
  refine ⟨fun c hc => ?_, fun c h1 hc => ?_, fun h1 h2 => ?_⟩
  · unfold shapePoints
    rw [hc]
    exact key c
  · unfold shapePoints
    rw [h1]
    dsimp only
    rw [hc]
    exact key c
  · unfold shapePoints
    rw [h1]
    dsimp only
    rw [h2]

omit [Txt D] in
/-- **C101** (target shape, points): the `i`-th point has the numbers `2 i` and `2 i + 1`. -/
theorem C101_shape_points (ys : List D) :
    (pairs ys).length = ys.length / 2 ∧
    ∀ i, i < ys.length / 2 → ∃ x y, ys[2 * i]? = some x ∧ ys[2 * i + 1]? = some y ∧ (pairs ys)[i]? = some ⟨x, y⟩ := by
  induction hn : ys.length using Nat.strong_induction_on generalizing ys with
  | _ n ih =>
    match ys, hn with
    | [], hn => simp at hn; subst hn; simp [pairs]
    | [x], hn => simp at hn; subst hn; simp [pairs]
    | x :: y :: r, hn =>
      simp only [List.length_cons] at hn
      obtain ⟨h1, h2⟩ := ih r.length (by omega) r rfl
      refine ⟨by simp only [pairs, List.length_cons]; omega, fun i hi => ?_⟩
      cases i with
      | zero => exact ⟨x, y, rfl, rfl, rfl⟩
      | succ i =>
        obtain ⟨a, b, e1, e2, e3⟩ := h2 i (by omega)
        exact ⟨a, b, e1, e2, e3⟩

/-! ## The hypotheses can be met -/

/-- A disk with one file. -/
def oneFile (name content : String) : FileSystem := emptyDisk.put name.toList content.toList

/-- A starting configuration that is too short, and ends with something that is not a number: two values are replaced, the next one becomes zero. -/
example (L : LevelSet ℝ) (hL : L.signedDistance = [7, 7, 7, 7]) :
    startingConfiguration true (oneFile "start" "1 -2.5\nx 3") ["0".toList, "0.65".toList, "start".toList] L =
      .ok { L with signedDistance := [decimalValue false 1 0, decimalValue true 25 (-1), 0, 7] } := by
  obtain ⟨ys, last, -, hu, h1, -⟩ := C101_start (L := L) (F := oneFile "start" "1 -2.5\nx 3") (arguments := ["0".toList, "0.65".toList, "start".toList])
    (name := "start".toList) (by rw [hL]; norm_num) rfl (put_same _ _ _) true
  have h : Yields (D := ℝ) ⟨"1 -2.5\nx 3".toList, false, false⟩ [decimalValue false 1 0, decimalValue true 25 (-1)] (some 0) :=
    .more (t := ⟨" -2.5\nx 3".toList, false, false⟩) rfl rfl (.more (t := ⟨"\nx 3".toList, false, false⟩) rfl rfl (.done (t := ⟨"x 3".toList, false, true⟩) rfl rfl))
  obtain ⟨rfl, rfl⟩ := hu _ _ h
  rw [h1 (by rw [hL]; simp), hL]
  rfl

/-- The shape is found in the second place; the last number has no partner. -/
example : shapePoints (D := ℝ) (oneFile "shapes/stanford-bunny.txt" "108 44\n96 47\n83") =
    .ok [⟨decimalValue false 108 0, decimalValue false 44 0⟩, ⟨decimalValue false 96 0, decimalValue false 47 0⟩] := by
  have h : Yields (D := ℝ) ⟨"108 44\n96 47\n83".toList, false, false⟩ [decimalValue false 108 0, decimalValue false 44 0, decimalValue false 96 0,
      decimalValue false 47 0, decimalValue false 83 0] none :=
    .more (t := ⟨" 44\n96 47\n83".toList, false, false⟩) rfl rfl (.more (t := ⟨"\n96 47\n83".toList, false, false⟩) rfl rfl
      (.more (t := ⟨" 47\n83".toList, false, false⟩) rfl rfl (.more (t := ⟨"\n83".toList, false, false⟩) rfl rfl
        (.more (t := ⟨[], true, false⟩) rfl rfl (.done (t := ⟨[], true, true⟩) rfl rfl)))))
  have e : shapePoints (D := ℝ) (oneFile "shapes/stanford-bunny.txt" "108 44\n96 47\n83") =
      readPoints 16 ⟨"108 44\n96 47\n83".toList, false, false⟩ [] := rfl
  rw [e, readPoints_eq h (by simp)]
  rfl

end Slsm.Program
