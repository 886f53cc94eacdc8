import Verif.Proof.IOLoad
import Verif.Proof.IONum

/-! # Saving and loading -/

namespace Slsm.IO

open Slsm

/-! ## Text -/

section Text

variable {D : Type} [Txt D]

/-- The text of a finite number is read back as a number nearest to a decimal close to it. -/
theorem reread {val : D → Option ℝ} (V : Faithful val) {x : D} {v : ℝ} (h : val x = some v) : ∃ y, Reread x y ∧ Restored val x y := by
  obtain ⟨n, hn, hr, hs⟩ := V.print x v h
  have e6 : ((10 : ℝ) ^ (-6 : Int)) = 1 / 1000000 := by norm_num
  have hd : |decimalValue (Txt.sign x) n (-6) - v| ≤ 1 / 2000000 := by
    unfold decimalValue
    rw [e6]
    rw [abs_le] at hr ⊢
    cases hsx : Txt.sign x
    · rw [hsx, if_neg (by simp)] at hs
      rw [abs_of_nonneg hs] at hr
      simp only [Bool.false_eq_true, if_false]
      constructor <;> linarith [hr.1, hr.2]
    · rw [hsx, if_pos rfl] at hs
      rw [abs_of_nonpos hs] at hr
      simp only [if_true]
      constructor <;> linarith [hr.1, hr.2]
  have hb : |decimalValue (Txt.sign x) n (-6)| ≤ |v| + 1 := by
    have := abs_sub_abs_le_abs_sub (decimalValue (Txt.sign x) n (-6)) v
    linarith
  obtain ⟨y, hy⟩ := V.range _ _ _ x v h hb
  obtain ⟨u, hu, hbest⟩ := V.read _ _ _ _ hy
  exact ⟨y, ⟨n, hn, hy⟩, v, u, _, h, hu, hd, hbest⟩

theorem reread_all {val : D → Option ℝ} (V : Faithful val) {xs : List D} (h : ∀ x ∈ xs, ∃ v, val x = some v) :
    ∃ ys, List.Forall₂ (fun x y => Reread x y ∧ Restored val x y) xs ys := by
  induction xs with
  | nil => exact ⟨[], .nil⟩
  | cons x xs ih =>
    obtain ⟨v, hv⟩ := h x (by simp)
    obtain ⟨y, h1, h2⟩ := reread V hv
    obtain ⟨ys, h3⟩ := ih fun z hz => h z (List.mem_cons_of_mem _ hz)
    exact ⟨y :: ys, .cons ⟨h1, h2⟩ h3⟩

theorem reread_table {val : D → Option ℝ} (V : Faithful val) {xss : List (List D)} (h : ∀ xs ∈ xss, ∀ x ∈ xs, ∃ v, val x = some v) :
    ∃ yss, List.Forall₂ (List.Forall₂ fun x y => Reread x y ∧ Restored val x y) xss yss ∧ List.Forall₂ (List.Forall₂ Reread) xss yss := by
  induction xss with
  | nil => exact ⟨[], .nil, .nil⟩
  | cons xs xss ih =>
    obtain ⟨ys, h1⟩ := reread_all V (h xs (by simp))
    obtain ⟨yss, h3, h4⟩ := ih fun z hz => h z (List.mem_cons_of_mem _ hz)
    exact ⟨ys :: yss, .cons h1 h3, .cons (h1.imp fun _ _ h => h.1) h4⟩

theorem fmt_line {val : D → Option ℝ} (V : Faithful val) (x : D) : '\n' ∉ fmt x := by
  cases h : val x with
  | some v =>
    obtain ⟨n, hn, -⟩ := V.print x v h
    exact fmt_no_newline hn
  | none =>
    obtain ⟨h1, h2⟩ := V.word x h
    unfold fmt
    rw [h1]
    simp only [List.mem_append, not_or]
    constructor
    · split <;> simp
    · rcases h2 with h2 | h2 <;> (rw [h2]; decide)

theorem extract_num {x y : D} (h : Reread x y) {c : Char} (hc : isSpace c = true) (t : Text) :
    extract (D := D) ⟨fmt x ++ c :: t, false, false⟩ = (⟨c :: t, false, false⟩, some y) := by
  obtain ⟨n, hn, -⟩ := id h
  obtain ⟨a, r, e, ha⟩ := fmt_head hn
  have hd : (fmt x ++ c :: t).dropWhile isSpace = fmt x ++ c :: t := by rw [e]; simp [ha]
  unfold extract
  simp only [Bool.or_self, Bool.false_eq_true, if_false, hd]
  rw [e, List.cons_append]
  dsimp only
  rw [← List.cons_append, ← e, scan_fmt h hc t]
  rfl

/-- An infinity or NaN cannot be read. -/
theorem extract_word {val : D → Option ℝ} (V : Faithful val) {x : D} (h : val x = none) (t : Text) :
    ∃ r, extract (D := D) ⟨fmt x ++ t, false, false⟩ = (⟨r, false, true⟩, some Txt.zero) := by
  obtain ⟨h1, h2⟩ := V.word x h
  have e : fmt x = (if Txt.sign x then ['-'] else []) ++ Txt.word x := by unfold fmt; rw [h1]
  rw [e]
  cases Txt.sign x <;> rcases h2 with h2 | h2 <;> rw [h2] <;> exact ⟨_, rfl⟩

theorem extract_word' {val : D → Option ℝ} (V : Faithful val) {x : D} (h : val x = none) (t : Text) :
    ∃ r, extract (D := D) ⟨' ' :: (fmt x ++ t), false, false⟩ = (⟨r, false, true⟩, some Txt.zero) := by
  obtain ⟨h1, h2⟩ := V.word x h
  have e : fmt x = (if Txt.sign x then ['-'] else []) ++ Txt.word x := by unfold fmt; rw [h1]
  rw [e]
  cases Txt.sign x <;> rcases h2 with h2 | h2 <;> rw [h2] <;> exact ⟨_, rfl⟩

theorem record_eq {L : LevelSet D} (C : Complete L) (isXY : Bool) {i : Nat} (hi : i < L.mesh.nNodes) :
    ∃ pre s v g, L.signedDistance[i]? = some s ∧ L.velocity[i]? = some v ∧ L.gradient[i]? = some g ∧ pre.length = (if isXY then 2 else 0) ∧
      record L isXY i = pre ++ s :: [v, g] ∧ levelSetLine L isXY i = .ok (row (record L isXY i)) := by
  obtain ⟨nd, hnd⟩ : ∃ nd, L.mesh.nodes[i]? = some nd := ⟨_, List.getElem?_eq_getElem (by rw [C.nodes]; exact hi)⟩
  obtain ⟨s, hs⟩ : ∃ s, L.signedDistance[i]? = some s := ⟨_, List.getElem?_eq_getElem (by rw [C.distance]; exact hi)⟩
  obtain ⟨v, hv⟩ : ∃ s, L.velocity[i]? = some s := ⟨_, List.getElem?_eq_getElem (by rw [C.velocity]; exact hi)⟩
  obtain ⟨g, hg⟩ : ∃ s, L.gradient[i]? = some s := ⟨_, List.getElem?_eq_getElem (by rw [C.gradient]; exact hi)⟩
  refine ⟨if isXY then [nd.coord.x, nd.coord.y] else [], s, v, g, hs, hv, hg, by split <;> rfl, ?_, ?_⟩
  · unfold record
    rw [hnd, hs, hv, hg]
    cases isXY <;> rfl
  · unfold levelSetLine record
    rw [hnd, hs, hv, hg, rd_of_getElem? hnd, rd_of_getElem? hs, rd_of_getElem? hv, rd_of_getElem? hg]
    cases isXY
    · rfl
    · simp [row, bind, Except.bind, pure, Except.pure]

/-- The table written for a level set. -/
def table (L : LevelSet D) (isXY : Bool) : List (List D) := (List.range L.mesh.nNodes).map (record L isXY)

theorem levelSetTXT_eq {L : LevelSet D} (C : Complete L) (isXY : Bool) : levelSetTXT L isXY = .ok ((table L isXY).flatMap row) := by
  unfold levelSetTXT table
  rw [lines_eq (g := fun i => row (record L isXY i)), List.flatMap_map]
  intro i hi
  obtain ⟨_, _, _, _, -, -, -, -, -, e⟩ := record_eq C isXY hi
  exact e

theorem save_eq {F : FileSystem} {name : Text} (hw : F.writable name = true) {c : Text} : F.save name (.ok c) = .ok (F.put name c) := by
  unfold FileSystem.save
  rw [hw]; rfl

theorem put_same (F : FileSystem) (name c : Text) : (F.put name c).files name = some c := by
  unfold FileSystem.put; simp

theorem put_other (F : FileSystem) {name n : Text} (h : n ≠ name) (c : Text) : (F.put name c).files n = F.files n := by
  unfold FileSystem.put; simp [h]

theorem load_eq {F : FileSystem} {name c : Text} (hf : F.files name = some c) (L : LevelSet D) (a isXY : Bool)
    (hc : countLines c = L.mesh.nNodes) (hn : L.mesh.nNodes < 2 ^ 32) : loadLevelSetTXT a F name L isXY =
      (readNodes a (if isXY then 2 else 0) (c.length + 1) ⟨⟨c, false, false⟩, L.signedDistance, 0⟩ >>= fun s => .ok { L with signedDistance := s.distance }) := by
  unfold loadLevelSetTXT
  rw [hf]
  have : (u32 (countLines c) == L.mesh.nNodes) = true := by rw [hc, u32_of_lt (by omega)]; simp
  show (check (u32 (countLines c) == L.mesh.nNodes) >>= _) = _
  rw [this]; rfl

/-- The groups into which a table is read. -/
theorem groups {L : LevelSet D} (C : Complete L) (isXY : Bool) {R : D → D → Prop} {yss : List (List D)}
    (h : List.Forall₂ (List.Forall₂ R) (table L isXY) yss) :
    ∃ gs : List (Group D), gs.flatMap Group.all = yss.flatten ∧ gs.length = L.mesh.nNodes ∧
      (∀ g ∈ gs, g.pre.length = (if isXY then 2 else 0) ∧ g.post.length = 2) ∧
      List.Forall₂ (fun i y => ∃ x, L.signedDistance[i]? = some x ∧ R x y) (List.range L.mesh.nNodes) (gs.map Group.main) := by
  have key : ∀ (l : List Nat), (∀ i ∈ l, i < L.mesh.nNodes) → ∀ yss : List (List D),
      List.Forall₂ (List.Forall₂ R) (l.map (record L isXY)) yss →
      ∃ gs : List (Group D), gs.flatMap Group.all = yss.flatten ∧ gs.length = l.length ∧
        (∀ g ∈ gs, g.pre.length = (if isXY then 2 else 0) ∧ g.post.length = 2) ∧
        List.Forall₂ (fun i y => ∃ x, L.signedDistance[i]? = some x ∧ R x y) l (gs.map Group.main) := by
    intro l
    induction l with
    | nil =>
      intro _ yss h
      cases h
      exact ⟨[], rfl, rfl, by simp, .nil⟩
    | cons i l ih =>
      intro hl yss h
      cases h with
      | @cons _ ys _ yss h1 h2 =>
        obtain ⟨gs, e1, e2, e3, e4⟩ := ih (fun j hj => hl j (List.mem_cons_of_mem _ hj)) yss h2
        obtain ⟨pre, s, v, g, hs, hv, hg, hp, hrec, -⟩ := record_eq C isXY (hl i (by simp))
        rw [hrec] at h1
        obtain ⟨ya, yb, ha, hb, rfl⟩ := groups.append_split h1
        cases hb with
        | @cons _ y _ post hy hpost =>
          refine ⟨⟨ya, y, post⟩ :: gs, ?_, ?_, ?_, ?_⟩
          · rw [List.flatMap_cons, e1, List.flatten_cons]; rfl
          · simp [e2]
          · rintro q hq
            rcases List.mem_cons.1 hq with rfl | hq
            · exact ⟨by rw [← ha.length_eq]; exact hp, by rw [← hpost.length_eq]; rfl⟩
            · exact e3 q hq
          · exact .cons ⟨s, hs, hy⟩ e4
  obtain ⟨gs, h1, h2, h3, h4⟩ := key (List.range L.mesh.nNodes) (fun i hi => List.mem_range.1 hi) yss h
  exact ⟨gs, h1, by rw [h2, List.length_range], h3, h4⟩
where
  append_split {R : D → D → Prop} {a b ys : List D} (h : List.Forall₂ R (a ++ b) ys) :
      ∃ ya yb, List.Forall₂ R a ya ∧ List.Forall₂ R b yb ∧ ys = ya ++ yb := by
    induction a generalizing ys with
    | nil => exact ⟨[], ys, .nil, h, rfl⟩
    | cons x a ih =>
      cases h with
      | @cons _ y _ ys h1 h2 =>
        obtain ⟨ya, yb, h3, h4, rfl⟩ := ih h2
        exact ⟨y :: ya, yb, .cons h1 h3, h4, rfl⟩

end Text

/-! ## Binary -/

section Binary

variable {D : Type} [Raw D]

theorem numbers_length (n : Nat) (t : Text) : (numbers (D := D) n t).length = n := by
  induction n generalizing t with
  | zero => rfl
  | succ n ih => unfold numbers; rw [List.length_cons, ih]

theorem numbers_get (n : Nat) (t : Text) {i : Nat} (hi : i < n) : (numbers (D := D) n t)[i]? = some (Raw.ofBytes ((t.drop (8 * i)).take 8)) := by
  induction n generalizing t i with
  | zero => omega
  | succ n ih =>
    unfold numbers
    cases i with
    | zero => simp
    | succ i =>
      rw [List.getElem?_cons_succ, ih _ (by omega), List.drop_drop]
      congr 4
      omega

variable [LawfulRaw D]

theorem image_length (v : List D) : (image v).length = 8 * v.length := by
  induction v with
  | nil => rfl
  | cons x v ih =>
    unfold image at *
    rw [List.flatMap_cons, List.length_append, ih, LawfulRaw.length, List.length_cons]
    omega

theorem image_get {v : List D} {i : Nat} {x : D} (h : v[i]? = some x) : ((image v).drop (8 * i)).take 8 = Raw.bytes x := by
  induction v generalizing i with
  | nil => simp at h
  | cons y v ih =>
    have e : image (y :: v) = Raw.bytes y ++ image v := rfl
    cases i with
    | zero =>
      simp at h
      subst h
      rw [e, Nat.mul_zero, List.drop_zero, ← LawfulRaw.length y, List.take_left]
    | succ i =>
      rw [List.getElem?_cons_succ] at h
      rw [e, show 8 * (i + 1) = (Raw.bytes y).length + 8 * i by rw [LawfulRaw.length]; omega, ← List.drop_drop, List.drop_left]
      exact ih h

theorem numbers_image (v : List D) : numbers v.length (image v) = v := by
  apply List.ext_getElem?
  intro i
  rcases Nat.lt_or_ge i v.length with h | h
  · have hx := List.getElem?_eq_getElem h
    rw [numbers_get _ _ h, image_get hx, LawfulRaw.back, hx]
  · rw [List.getElem?_eq_none h, List.getElem?_eq_none (by rw [numbers_length]; exact h)]

end Binary

end Slsm.IO

namespace Slsm.IO

open Slsm

section More

variable {D : Type} [Txt D]

theorem Reads.delivers {ys : List D} {cs : Text} (h : Reads ys cs) : Delivers ⟨cs, false, false⟩ ys := by
  induction ys generalizing cs with
  | nil => exact .done (by rw [extract_nil h])
  | cons y ys ih =>
    obtain ⟨t, e, r, -⟩ := extract_cons h
    exact .more e rfl (ih r)

theorem Reread.flatten {R : D → D → Prop} {xss yss : List (List D)} (h : List.Forall₂ (List.Forall₂ R) xss yss) :
    List.Forall₂ R xss.flatten yss.flatten := by
  induction h with
  | nil => exact .nil
  | cons h1 h2 ih =>
    rw [List.flatten_cons, List.flatten_cons]
    exact List.rel_append h1 ih

/-- A table of finite numbers can be read back. -/
theorem table_delivers {val : D → Option ℝ} (V : Faithful val) {xss : List (List D)} (h : ∀ xs ∈ xss, ∀ x ∈ xs, ∃ v, val x = some v) :
    ∃ ys, Delivers ⟨xss.flatMap row, false, false⟩ ys ∧ List.Forall₂ (Restored val) xss.flatten ys := by
  obtain ⟨yss, h1, h2⟩ := reread_table V h
  refine ⟨yss.flatten, (reads_table h2).delivers, (Reread.flatten h1).imp fun _ _ h => h.2⟩

/-- Cut a list of numbers into groups of three. -/
theorem threes (m : Nat) {ys : List D} (h : 3 * m ≤ ys.length) :
    ∃ (gs : List (Group D)) (zs : List D), gs.length = m ∧ ys = gs.flatMap Group.all ++ zs ∧ ∀ g ∈ gs, g.pre.length = 0 ∧ g.post.length = 2 := by
  induction m generalizing ys with
  | zero => exact ⟨[], ys, rfl, rfl, by simp⟩
  | succ m ih =>
    match ys, h with
    | a :: b :: c :: ys, h =>
      obtain ⟨gs, zs, h1, h2, h3⟩ := ih (ys := ys) (by simp at h; omega)
      refine ⟨⟨[], a, [b, c]⟩ :: gs, zs, by simp [h1], by rw [h2]; rfl, ?_⟩
      intro g hg
      rcases List.mem_cons.1 hg with rfl | hg
      · exact ⟨rfl, rfl⟩
      · exact h3 g hg
    | [], h => simp at h
    | [a], h => simp at h; omega
    | [a, b], h => simp at h; omega

end More

end Slsm.IO
