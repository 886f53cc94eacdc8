import Verif.Proof.RoundEik
import Verif.Props.FMM
import Verif.Props.LevelSet
import Mathlib.Tactic.IntervalCases

/-! # C108: distances from the fast marching method in rounded arithmetic -/

namespace Slsm

open FP FMM Rounding

section
variable {R : Rounding} {w h : Nat} {m : Mesh R.Num} {S : ℝ}

theorem interface_value_any {D : Type} [FP D] {m : Mesh D} {sd : List D} {t : Bool} {F' : FMM D} (G : IsGrid w h m) (hsd : sd.length = m.nNodes)
    (hok : marchDistance m sd (FMM.new m t) = .ok F') {i : Nat} (hi : i < m.nNodes) (ho : OnInterface w h (vals sd) i) :
    vals F'.sd i = initSd m (vals sd) i := by
  have M := marched G hsd hok
  obtain ⟨s0, h0, C, hC, l, r⟩ := M.steps
  have hf : s0.st i = .frozen := (h0 i hi).1.trans ((initSt_iff G _ hi).2 ho)
  exact (r.frozen hf).2.1.trans (h0 i hi).2.1

/-- **C108** (one update): the value given to a node is its previous one, or solves the discrete Eikonal equation up to `S²·2⁻³⁸`, where `S` bounds the
values that are final; if the equation has two solutions `S·2⁻¹⁹` or more apart, the value is near the right one of them. -/
theorem C108_update (G : IsGrid w h m) {F : FMM R.Num} (L : Lens m F) {n : Nat} (hn : n < m.nNodes) (h1 : 1 ≤ S) (hS : S ≤ 2 ^ 31)
    (hb : ∀ k, k < m.nNodes → F.abs.st k = .frozen → |(vals F.sd k).val| ≤ S) :
    ∃ T, updateNode m F n = .ok T ∧
      (T = vals F.sd n ∨ |eik (m.map Num.val) F.abs.exact n T.val - 1| ≤ S ^ 2 / 2 ^ 38) ∧ Chosen S m F.abs n (vals F.copy n) T :=
  ⟨_, updateNode_eq G L hn, updateV_near h1 hS F.cp fun j hj hne hf => hb _ (G.nb_lt hn hj hne) hf⟩

/-- **C108** (whole march): the final value of a node off the interface is its original value, or solves the discrete Eikonal equation up to `S²·2⁻³⁸` for
a set of neighbours that are already final, with their final values, and is near the right one of two solutions `S·2⁻¹⁹` or more apart; `S`
bounds all final values. -/
theorem C108_march {sd : List R.Num} {t : Bool} {F' : FMM R.Num} (G : IsGrid w h m) (hsd : sd.length = m.nNodes)
    (hok : marchDistance m sd (FMM.new m t) = .ok F') (h1 : 1 ≤ S) (hS : S ≤ 2 ^ 31) (hb : ∀ k, k < m.nNodes → |(vals F'.sd k).val| ≤ S)
    {i : Nat} (hi : i < m.nNodes) (hno : ¬ OnInterface w h (vals sd) i) :
    vals F'.sd i = vals sd i ∨ ∃ s1 : AS R.Num, (∀ k, k < m.nNodes → s1.st k = .frozen → s1.sd k = vals F'.sd k) ∧ s1.st i ≠ .frozen ∧
      |eik (m.map Num.val) s1.exact i (vals F'.sd i).val - 1| ≤ S ^ 2 / 2 ^ 38 ∧ Chosen S m s1 i (vals sd i) (vals F'.sd i) := by
  obtain ⟨s0, s', C, l, r, hall⟩ := C15_every_node_once G hsd hok
  obtain ⟨hC, hv, -, -, -, h3⟩ := hall i hi
  obtain ⟨-, h0, -⟩ := h3 hno
  rcases Run.updated r i with g | ⟨s1, ⟨l1, l2, r1, r2⟩, h4, h5, h6⟩
  · left; rw [hv, g, h0]
  · right
    have hfr : ∀ k, k < m.nNodes → s1.st k = .frozen → s1.sd k = vals F'.sd k := fun k hk hs => by
      rw [(hall k hk).2.1]; exact (r2.frozen hs).2.1.symm
    have := updateV_near (S := S) h1 hS (m := m) (s := s1) (n := i) C fun j hj hne hf => by
      have hk := G.nb_lt hi hj hne
      rw [hfr _ hk hf]
      exact hb _ hk
    rw [← h6, ← hv, hC] at this
    rw [← hv] at h5
    exact ⟨s1, hfr, h4, this.1.resolve_left h5, this.2⟩

/-- **C108** (reinitialisation): the same for the signed distances left by `reinitialise` on a level set with any history. -/
theorem C108_reinitialise {L L' : LevelSet R.Num} (hr : LevelSet.Reachable w h L) (hok : LevelSet.reinitialise L = .ok L') (h1 : 1 ≤ S) (hS : S ≤ 2 ^ 31)
    (hb : ∀ k, k < L.mesh.nNodes → |(vals L'.signedDistance k).val| ≤ S) {i : Nat} (hi : i < L.mesh.nNodes)
    (hno : ¬ OnInterface w h (vals L.signedDistance) i) :
    vals L'.signedDistance i = vals L.signedDistance i ∨ ∃ s1 : AS R.Num,
      (∀ k, k < L.mesh.nNodes → s1.st k = .frozen → s1.sd k = vals L'.signedDistance k) ∧ s1.st i ≠ .frozen ∧
      |eik (L.mesh.map Num.val) s1.exact i (vals L'.signedDistance i).val - 1| ≤ S ^ 2 / 2 ^ 38 ∧
      Chosen S L.mesh s1 i (vals L.signedDistance i) (vals L'.signedDistance i) := by
  rcases C27_reinitialise hr with ⟨L1, F, e1, e2, e3, -⟩ | ⟨e1, -⟩
  · rw [hok] at e1
    cases e1
    rw [e3] at hb ⊢
    exact C108_march hr.core.grid hr.core.sd e2 h1 hS hb hi hno
  · rw [hok] at e1; cases e1

end

/-! ### Concrete cases -/

section
variable (R : Rounding)

/-- Mesh with one element; the lower left node is final with value 0.  The update of the lower right node, which is inside, gives 1 up to rounding. -/
example : ∃ (m : Mesh R.Num) (F : FMM R.Num) (T : R.Num), IsGrid 1 1 m ∧ Lens m F ∧ updateNode m F 1 = .ok T ∧ |T.val - 1| ≤ 1 / 2 ^ 38 := by
  obtain ⟨m, hm⟩ := C01_new_succeeds (D := R.Num) (w := 1) (h := 1) ⟨by norm_num, by norm_num, by norm_num⟩
  have G := new_grid ⟨by norm_num, by norm_num, by norm_num⟩ hm
  have hN : m.nNodes = 4 := G.nNodes
  obtain ⟨F, hF⟩ : ∃ F : FMM R.Num, F = { FMM.new m false with
    status := [.frozen, .none, .none, .none], copy := [nat 0, nat 1, nat 1, nat 1], sd := [nat 0, nat 1, nat 1, nat 1] } := ⟨_, rfl⟩
  have L : Lens m F := ⟨by rw [hN, hF]; rfl, by rw [hF]; simp [FMM.new], by rw [hN, hF]; rfl, by rw [hN, hF]; rfl, by rw [hF]; simp [FMM.new]⟩
  have s0 : F.abs.st 0 = .frozen := by rw [hF]; rfl
  have s1 : F.abs.st 1 = .none := by rw [hF]; rfl
  have s2 : F.abs.st 2 = .none := by rw [hF]; rfl
  have s3 : F.abs.st 3 = .none := by rw [hF]; rfl
  have v0 : (F.abs.sd 0).val = 0 := by rw [hF]; exact val_zero
  have c1 : (vals F.copy 1).val = 1 := by rw [hF]; exact val_one
  have n1 : ∀ j, nb m 1 j = (neighbourhood 1 1 1 0).getD j 0 := fun j => nb_value G (x := 1) (y := 0) (by norm_num) (by norm_num)
  have n0 : ∀ j, nb m 0 j = (neighbourhood 1 1 0 0).getD j 0 := fun j => nb_value G (x := 0) (y := 0) (by norm_num) (by norm_num)
  obtain ⟨T, hT, -, hc⟩ := C108_update (S := 1) G L (n := 1) (by omega) le_rfl (by norm_num) (fun k hk hf => by
    rw [hN] at hk
    interval_cases k
    · rw [show (vals F.sd 0).val = 0 from v0]; norm_num
    · rw [s1] at hf; simp at hf
    · rw [s2] at hf; simp at hf
    · rw [s3] at hf; simp at hf)
  refine ⟨m, F, T, G, L, hT, ?_⟩
  have hmax : (0 : ℝ) < maxVal := maxVal_pos
  have heik : ∀ T, eik (m.map Num.val) F.abs.exact 1 T = T ^ 2 := by
    intro T
    have hst : F.abs.exact.st = F.abs.st := rfl
    have hsd : F.abs.exact.sd 0 = 0 := v0
    unfold eik axisCode sideOf finalValue
    simp [nb_map, n1, n0, neighbourhood, nodeNoOr, nodeNo, nNodes_map, hN, hst, hsd, s0, s1, s2, s3, Side.only, Side.usable, upwindCode, diffSq, hmax]
  have := (hc (-1) 1 (by rw [heik]; norm_num) (by rw [heik]; norm_num) (by norm_num)).2.1 (by
    rw [c1]
    have := R.mono (show (1 : ℝ) / 2 ^ 52 ≤ 1 / 2 by norm_num)
    have h2 := R.half 1 (by norm_num)
    norm_num at this h2 ⊢
    linarith)
  norm_num at this ⊢
  linarith

/-- Mesh with one element; zero at three nodes, 1 at the fourth.  The march succeeds, and the value of the fourth node is 1 or has `2 T² = 1` up to rounding. -/
example : ∃ (m : Mesh R.Num) (F' : FMM R.Num), IsGrid 1 1 m ∧
    marchDistance m [nat 0, nat 0, nat 0, nat 1] (FMM.new m false) = .ok F' ∧ (∀ k, k < m.nNodes → |(vals F'.sd k).val| ≤ 2) ∧
    ((vals F'.sd 3).val = 1 ∨ |2 * (vals F'.sd 3).val ^ 2 - 1| ≤ 1 / 2 ^ 36) := by
  obtain ⟨m, hm⟩ := C01_new_succeeds (D := R.Num) (w := 1) (h := 1) ⟨by norm_num, by norm_num, by norm_num⟩
  have G := new_grid ⟨by norm_num, by norm_num, by norm_num⟩ hm
  have hN : m.nNodes = 4 := G.nNodes
  obtain ⟨sd, hsd⟩ : ∃ sd : List R.Num, sd = [nat 0, nat 0, nat 0, nat 1] := ⟨_, rfl⟩
  rw [← hsd]
  have hl : sd.length = m.nNodes := by rw [hN, hsd]; rfl
  have v0 : (vals sd 0).val = 0 := by rw [hsd]; exact val_zero
  have v1 : (vals sd 1).val = 0 := by rw [hsd]; exact val_zero
  have v2 : (vals sd 2).val = 0 := by rw [hsd]; exact val_zero
  have v3 : (vals sd 3).val = 1 := by rw [hsd]; exact val_one
  have hon : ∀ k, k < 3 → OnInterface 1 1 (vals sd) k := by
    intro k hk
    left
    rw [eq_iff, val_zero]
    interval_cases k <;> assumption
  have hoff : ¬ OnInterface 1 1 (vals sd) 3 := by
    rintro (h | ⟨n, -, h⟩)
    · rw [eq_iff, val_zero, v3] at h; norm_num at h
    · unfold Opposite at h
      rw [lt_iff, val_zero, val_mul, v3, one_mul, (vals sd n).fix] at h
      by_cases hn : n < 4
      · interval_cases n <;> linarith
      · have : vals sd n = nat 0 := by
          unfold vals
          rw [List.getD_eq_getElem?_getD, List.getElem?_eq_none (by rw [hl, hN]; omega)]
          rfl
        rw [this, val_zero] at h
        exact lt_irrefl _ h
  have hI : HasInterface 1 1 (vals sd) := ⟨0, by norm_num, hon 0 (by norm_num)⟩
  rcases C13_distance_safe G _ hl false with ⟨F', hok, -⟩ | hok
  swap
  · exact absurd hI ((C14_exit_iff G _ hl false (.inl rfl)).1 hok)
  refine ⟨m, F', G, hok, ?_⟩
  obtain ⟨s0, s', C, l, r, hall⟩ := C15_every_node_once G hl hok
  have z : ∀ k, k < 3 → (vals F'.sd k).val = 0 ∧ s0.st k = .frozen := by
    intro k hk
    refine ⟨?_, ((hall k (by omega)).2.2.2.2.1 (hon k hk)).1⟩
    rw [interface_value_any G hl hok (by omega) (hon k hk)]
    unfold initSd
    have hk0 : (vals sd k).val = 0 := by interval_cases k <;> assumption
    rw [if_pos (by rw [eq_iff, val_zero]; exact hk0)]
    exact hk0
  obtain ⟨z0, f0⟩ := z 0 (by norm_num)
  obtain ⟨z1, f1⟩ := z 1 (by norm_num)
  obtain ⟨z2, f2⟩ := z 2 (by norm_num)
  have hb0 : ∀ {S : ℝ}, 1 ≤ S → |(vals F'.sd 3).val| ≤ S → ∀ k, k < m.nNodes → |(vals F'.sd k).val| ≤ S := by
    intro S hS h3 k hk
    rw [hN] at hk
    interval_cases k
    · rw [z0, abs_zero]; linarith
    · rw [z1, abs_zero]; linarith
    · rw [z2, abs_zero]; linarith
    · exact h3
  have n3 : ∀ j, nb m 3 j = (neighbourhood 1 1 1 1).getD j 0 := fun j => nb_value G (x := 1) (y := 1) (by norm_num) (by norm_num)
  have n1 : ∀ j, nb m 1 j = (neighbourhood 1 1 1 0).getD j 0 := fun j => nb_value G (x := 1) (y := 0) (by norm_num) (by norm_num)
  have n2 : ∀ j, nb m 2 j = (neighbourhood 1 1 0 1).getD j 0 := fun j => nb_value G (x := 0) (y := 1) (by norm_num) (by norm_num)
  have hmax : (0 : ℝ) < maxVal := maxVal_pos
  have key : (vals F'.sd 3).val = 1 ∨ |2 * (vals F'.sd 3).val ^ 2 - 1| ≤ 1 / 2 ^ 38 := by
    obtain ⟨hC, hv, -, -, -, h3⟩ := hall 3 (by omega)
    obtain ⟨-, h0, -⟩ := h3 hoff
    rcases Run.updated r 3 with g | ⟨s1, ⟨l1, l2, r1, r2⟩, h4, h5, h6⟩
    · left; rw [hv, g, h0, v3]
    · right
      have g0 := r1.frozen f0
      have g1 := r1.frozen f1
      have g2 := r1.frozen f2
      have e1 : (s1.sd 1).val = 0 := by rw [← (r2.frozen g1.1).2.1, ← (hall 1 (by omega)).2.1, z1]
      have e2 : (s1.sd 2).val = 0 := by rw [← (r2.frozen g2.1).2.1, ← (hall 2 (by omega)).2.1, z2]
      have := updateV_near (S := 1) le_rfl (by norm_num) (m := m) (s := s1) (n := 3) C fun j hj hne hf => by
        rw [n3] at hne ⊢
        rw [hN] at hne
        interval_cases j <;> simp [neighbourhood, nodeNoOr, nodeNo] at hne ⊢
        · rw [e2]; norm_num
        · rw [e1]; norm_num
      rw [← h6, ← hv] at this
      rw [← hv] at h5
      have heik : ∀ T, eik (m.map Num.val) s1.exact 3 T = 2 * T ^ 2 := by
        intro T
        have hst : s1.exact.st = s1.st := rfl
        have hsd1 : s1.exact.sd 1 = 0 := e1
        have hsd2 : s1.exact.sd 2 = 0 := e2
        unfold eik axisCode sideOf finalValue
        simp [nb_map, n1, n2, n3, neighbourhood, nodeNoOr, nodeNo, nNodes_map, hN, hst, hsd1, hsd2, g0.1, g1.1, g2.1, Side.only, Side.usable,
          upwindCode, diffSq, hmax]
        ring
      have := this.1.resolve_left h5
      rw [heik] at this
      norm_num at this ⊢
      exact this
  have hb2 : |(vals F'.sd 3).val| ≤ 2 := by
    rcases key with k | k
    · rw [k]; norm_num
    · have := (abs_le.1 k).2
      refine abs_le_of_sq_le_sq (by norm_num at this ⊢; linarith) (by norm_num)
  refine ⟨hb0 (by norm_num) hb2, ?_⟩
  rcases key with k | k
  · exact .inl k
  · exact .inr (k.trans (by norm_num))

end

end Slsm
