import Verif.Proof.RoundInit
import Verif.Props.RoundMove

/-! # Property C100: interface nodes of the reinitialisation in rounded arithmetic

`R.Num` are the numbers of a rounding `R` (`Verif/Spec/Round.lean`), of which binary64 is one; `num f i` is the value of node `i` as a real number,
`Plain w h f i` says that the values of the node and its neighbours are zero or between `2⁻³⁰⁰` and `2¹⁰⁰` in size. -/

namespace Slsm

open FP Rounding LevelSet FMM

section
variable {R : Rounding} {w h : Nat} {L L' : LevelSet R.Num}

theorem reinit_value (hr : Reachable w h L) (e : reinitialise L = .ok L') {i : Nat} (hi : i < L.mesh.nNodes)
    (ho : OnInterface w h (vals L.signedDistance) i) : vals L'.signedDistance i = initSd L.mesh (vals L.signedDistance) i := by
  have C := hr.core
  rcases C27_reinitialise hr with ⟨L1, F, e1, hF, hs, -⟩ | ⟨e1, -⟩
  · rw [e] at e1
    cases e1
    rw [hs]
    have M := marched C.grid C.sd hF
    obtain ⟨s0, h0, _, _, l, r⟩ := M.steps
    have hf : s0.st i = .frozen := (h0 i hi).1.trans ((initSt_iff C.grid _ hi).2 ho)
    exact (r.frozen hf).2.1.trans (h0 i hi).2.1
  · rw [e] at e1
    cases e1

/-- **C100** (zero): a node whose value is zero keeps it. -/
theorem C100_zero (hr : Reachable w h L) (e : reinitialise L = .ok L') {i : Nat} (hi : i < (w + 1) * (h + 1))
    (h0 : num (vals L.signedDistance) i = 0) : num (vals L'.signedDistance) i = 0 := by
  have hi' : i < L.mesh.nNodes := by rw [hr.core.grid.nNodes]; exact hi
  have hz : FP.eq (vals L.signedDistance i) (FP.nat 0) = true := by rw [eq_iff, val_zero]; exact h0
  unfold num
  rw [reinit_value hr e hi' (.inl hz)]
  unfold initSd
  rw [if_pos hz]
  exact h0

theorem border_value (hr : Reachable w h L) (e : reinitialise L = .ok L') {i n : Nat} (P : Plain w h (vals L.signedDistance) i) (ha : Adj w h i n)
    (hs : num (vals L.signedDistance) i * num (vals L.signedDistance) n < 0) :
    num (vals L'.signedDistance) i = (if num (vals L.signedDistance) i < 0 then -1 else 1) * (borderDist L.mesh (vals L.signedDistance) i).val := by
  have hi : i < L.mesh.nNodes := by rw [hr.core.grid.nNodes]; exact (adj_lt ha).1
  have hop : Opposite (vals L.signedDistance) i n := (opposite_rnd P.1 (P.2 n ha)).2 hs
  have hne : num (vals L.signedDistance) i ≠ 0 := fun h0 => by rw [h0] at hs; simp at hs
  have hv := reinit_value hr e hi (.inr ⟨n, ha, hop⟩)
  unfold num at hne ⊢
  rw [hv]
  unfold initSd
  rw [if_neg (by rw [eq_iff, val_zero]; exact hne), if_pos ((borderV_fst hr.core.grid _ hi).2 ⟨n, ha, hop⟩)]
  by_cases hneg : (vals L.signedDistance i).val < 0
  · rw [if_pos (by rw [lt_iff, val_zero]; exact hneg), if_pos hneg, val_neg]
    ring
  · rw [if_neg (by rw [lt_iff, val_zero]; exact hneg), if_neg hneg, one_mul]

/-- **C100** (value): a node next to a sign change gets `± 1/√(1/dx² + 1/dy²)`, where `dx`, `dy` are the least distances to a crossing along the
axes (terms without crossing are left out), with a relative error of at most `2⁻⁴⁸`; the sign is its own. -/
theorem C100_value (hr : Reachable w h L) (e : reinitialise L = .ok L') {i n : Nat} (P : Plain w h (vals L.signedDistance) i) (ha : Adj w h i n)
    (hs : num (vals L.signedDistance) i * num (vals L.signedDistance) n < 0) :
    SameSide (num (vals L.signedDistance) i) (num (vals L'.signedDistance) i) ∧ |num (vals L'.signedDistance) i| ≤ 1 ∧
    |(|num (vals L'.signedDistance) i|) - 1 / Real.sqrt (invSq (crossings (HAdj w h) (num (vals L.signedDistance)) i) +
        invSq (crossings (VAdj w h) (num (vals L.signedDistance)) i))| ≤
      1 / Real.sqrt (invSq (crossings (HAdj w h) (num (vals L.signedDistance)) i) +
        invSq (crossings (VAdj w h) (num (vals L.signedDistance)) i)) / 2 ^ 48 := by
  have hi : i < L.mesh.nNodes := by rw [hr.core.grid.nNodes]; exact (adj_lt ha).1
  have hne : num (vals L.signedDistance) i ≠ 0 := fun h0 => by rw [h0] at hs; simp at hs
  obtain ⟨hd, hd1⟩ := borderDist_rnd hr.core.grid _ hi P ha hs
  rw [border_value hr e P ha hs]
  generalize (borderDist L.mesh (vals L.signedDistance) i).val = d at hd hd1
  have hp := hd.1
  have habs : |(if num (vals L.signedDistance) i < 0 then -1 else 1) * d| = d := by
    split_ifs
    · rw [neg_one_mul, abs_neg, abs_of_pos hp]
    · rw [one_mul, abs_of_pos hp]
  rw [habs]
  refine ⟨?_, hd1, hd.five⟩
  rcases lt_or_gt_of_ne hne with h1 | h1
  · rw [if_pos h1]
    exact .inr (.inl ⟨h1, by linarith⟩)
  · rw [if_neg (not_lt.2 h1.le)]
    exact .inl ⟨h1, by linarith⟩

/-- **C100** (success): if all values are ordinary, the reinitialisation exits exactly if no value is zero and no two neighbours have values of
opposite signs; it succeeds otherwise. -/
theorem C100_exit_iff (hr : Reachable w h L) (P : ∀ i, i < (w + 1) * (h + 1) → Plain w h (vals L.signedDistance) i) :
    (reinitialise L = .error .exit ↔ ¬ ∃ i, i < (w + 1) * (h + 1) ∧ (num (vals L.signedDistance) i = 0 ∨
      ∃ n, Adj w h i n ∧ num (vals L.signedDistance) i * num (vals L.signedDistance) n < 0)) ∧
    ((∃ i, i < (w + 1) * (h + 1) ∧ (num (vals L.signedDistance) i = 0 ∨
      ∃ n, Adj w h i n ∧ num (vals L.signedDistance) i * num (vals L.signedDistance) n < 0)) → ∃ L', reinitialise L = .ok L') := by
  have key : HasInterface w h (vals L.signedDistance) ↔ ∃ i, i < (w + 1) * (h + 1) ∧ (num (vals L.signedDistance) i = 0 ∨
      ∃ n, Adj w h i n ∧ num (vals L.signedDistance) i * num (vals L.signedDistance) n < 0) := by
    unfold HasInterface OnInterface
    refine exists_congr fun i => and_congr_right fun hi => or_congr ?_ (exists_congr fun n => and_congr_right fun ha => ?_)
    · rw [eq_iff, val_zero]; rfl
    · exact opposite_rnd (P i hi).1 ((P i hi).2 n ha)
  rw [← key]
  rcases C27_reinitialise hr with ⟨L1, F, e1, -, -, hI⟩ | ⟨e1, hI⟩
  · rw [e1]
    refine ⟨⟨fun h => ?_, fun h => absurd hI h⟩, fun _ => ⟨L1, rfl⟩⟩
    cases h
  · rw [e1]
    exact ⟨⟨fun _ => hI, fun _ => rfl⟩, fun h => absurd h hI⟩

end

/-! ### values that are not ordinary -/

theorem tiny_fix : Binary64.rnd (1 / 2 ^ 600) = 1 / 2 ^ 600 := by
  have := Binary64.rnd_fix (k := 1) (j := -600) (by norm_num) (by norm_num)
  have e : ((1 : ℤ) : ℝ) * (2 : ℝ) ^ (-600 : ℤ) = 1 / 2 ^ 600 := by
    rw [zpow_neg, Int.cast_one, one_mul, one_div]
    rfl
  rwa [e] at this

/-- Chessboard of `± 2⁻⁶⁰⁰` on the nodes of the 5 × 5 mesh. -/
noncomputable def tinyBoard (i : Nat) : binary64.Num :=
  if (i % 6 + i / 6) % 2 = 0 then ⟨-(1 / 2 ^ 600), Binary64.rnd_neg _ tiny_fix⟩ else ⟨1 / 2 ^ 600, tiny_fix⟩

theorem rnd_lost {x : ℝ} (h : |x| < 1 / 2 ^ 1075) : Binary64.rnd x = 0 := by
  have hu : (1 : ℝ) / 2 ^ 1074 ≤ Binary64.ulp x := by
    unfold Binary64.ulp Binary64.expo
    have : (1 : ℝ) / 2 ^ 1074 = 2 ^ (-1074 : ℤ) := by rw [zpow_neg, one_div]; rfl
    rw [this]
    exact zpow_le_zpow_right₀ (by norm_num) (by omega)
  have hp := Binary64.ulp_pos x
  unfold Binary64.rnd
  generalize Binary64.ulp x = u at *
  have ht : |x / u| < 1 / 2 := by
    rw [abs_div, abs_of_pos hp, div_lt_iff₀ hp]
    have e : (1 : ℝ) / 2 ^ 1075 = 1 / 2 * (1 / 2 ^ 1074) := by rw [pow_succ (2 : ℝ) 1074, one_div_mul_one_div, mul_comm]
    rw [e] at h
    exact h.trans_le (mul_le_mul_of_nonneg_left hu (by norm_num))
  have h1 := Binary64.near_err (x / u)
  have h2 : |(Binary64.near (x / u) : ℝ)| < 1 := by
    have := abs_sub_abs_le_abs_sub (Binary64.near (x / u) : ℝ) (x / u)
    linarith
  have h3 : Binary64.near (x / u) = 0 := by
    rw [← Int.abs_lt_one_iff]
    exact_mod_cast h2
  rw [h3]
  simp

/-- **C100** (negation): if the values are extremely small the sign changes are not seen: with a chessboard of `± 2⁻⁶⁰⁰` in binary64 the
reinitialisation exits for want of an interface. -/
theorem C100_tiny : ∃ L : LevelSet binary64.Num, Reachable 5 5 L ∧ reinitialise L = .error .exit ∧
    ∃ i n, Adj 5 5 i n ∧ num (vals L.signedDistance) i * num (vals L.signedDistance) n < 0 := by
  obtain ⟨L, hL⟩ := (C22_accepts_iff (D := binary64.Num) (w := 5) (h := 5) (by norm_num) (by norm_num) (by norm_num)
    (.holes []) (by simp) (Boundary.halfNum 1 (by norm_num)) 3 (by norm_num) false).2.2
    ⟨by norm_num, by rw [lt_iff, val_zero]; simp [Boundary.halfNum], by rw [lt_iff, val_one]; simp only [Boundary.halfNum]; norm_num, fun h => by cases h⟩
  have hr : Reachable 5 5 L := .new (by norm_num) (by norm_num) (by norm_num) (by norm_num) hL
  have C := hr.core
  have hN : L.mesh.nNodes = 36 := C.grid.nNodes
  have hr' := Reachable.call hr (.assign ((List.range 36).map tinyBoard) L.velocity L.gradient L.target (by simp [hN]) C.velocity C.gradient)
  refine ⟨_, hr', ?_, ?_⟩
  · rcases C27_reinitialise hr' with ⟨L1, F, -, -, -, i, hi, hI⟩ | h
    · exfalso
      have hv : ∀ j, j < 36 → vals ((List.range 36).map tinyBoard) j = tinyBoard j := fun j hj => vals_map_range _ hj
      have habs : ∀ j, |(tinyBoard j).val| = 1 / 2 ^ 600 := by
        intro j
        have hp : (0 : ℝ) < 1 / 2 ^ 600 := by positivity
        unfold tinyBoard
        split_ifs
        · show |-(1 / 2 ^ 600 : ℝ)| = _
          rw [abs_neg, abs_of_pos hp]
        · exact abs_of_pos hp
      rcases hI with h0 | ⟨n, ha, hop⟩
      · change FP.eq (vals ((List.range 36).map tinyBoard) i) (FP.nat 0) = true at h0
        rw [hv i (by simpa using hi), eq_iff, val_zero] at h0
        have := habs i
        rw [h0, abs_zero] at this
        have hp : (0 : ℝ) < 1 / 2 ^ 600 := by positivity
        exact hp.ne this
      · have hn : n < 36 := (adj_lt ha).2
        change FP.lt (FP.mul (vals ((List.range 36).map tinyBoard) i) (vals ((List.range 36).map tinyBoard) n)) (FP.nat 0) = true at hop
        rw [hv i (by simpa using hi), hv n hn, lt_iff, val_zero, val_mul] at hop
        have h1 : |(tinyBoard i).val * (tinyBoard n).val| < 1 / 2 ^ 1075 := by
          rw [abs_mul, habs, habs, one_div_mul_one_div, ← pow_add]
          exact one_div_lt_one_div_of_lt (by positivity) (pow_lt_pow_right₀ (by norm_num) (by norm_num))
        have h2 : binary64.rnd ((tinyBoard i).val * (tinyBoard n).val) = 0 := rnd_lost h1
        rw [h2] at hop
        exact lt_irrefl _ hop
    · exact h.1
  · refine ⟨0, 1, .inl ⟨0, 1, 0, by norm_num, by norm_num, by norm_num, rfl, rfl, .inl rfl⟩, ?_⟩
    have h0 : vals ((List.range 36).map tinyBoard) 0 = tinyBoard 0 := vals_map_range _ (by norm_num)
    have h1 : vals ((List.range 36).map tinyBoard) 1 = tinyBoard 1 := vals_map_range _ (by norm_num)
    change (vals ((List.range 36).map tinyBoard) 0).val * (vals ((List.range 36).map tinyBoard) 1).val < 0
    rw [h0, h1]
    unfold tinyBoard
    rw [if_pos (by norm_num), if_neg (by norm_num)]
    have hp : (0 : ℝ) < 1 / 2 ^ 600 := by positivity
    show -(1 / 2 ^ 600 : ℝ) * (1 / 2 ^ 600) < 0
    exact mul_neg_of_neg_of_pos (neg_neg_of_pos hp) hp

/-- The hypotheses can be met: the chessboard of halves in binary64. -/
example : ∃ L L' : LevelSet binary64.Num, Reachable 5 5 L ∧ reinitialise L = .ok L' ∧
    (∀ i, i < 36 → Plain 5 5 (vals L.signedDistance) i) ∧ Adj 5 5 0 1 ∧ num (vals L.signedDistance) 0 * num (vals L.signedDistance) 1 < 0 := by
  obtain ⟨L, hr, hv, -⟩ := board_level
  have hval : ∀ j, j < 36 → num (vals L.signedDistance) j = if (j % 6 + j / 6) % 2 = 0 then -(1 / 2) else 1 / 2 := by
    intro j hj
    unfold num
    rw [hv j hj]
    unfold boardVal
    split_ifs <;> simp [Boundary.halfNum]
  have hO : ∀ j, j < 36 → Ordinary (vals L.signedDistance j) := by
    intro j hj
    have : |(vals L.signedDistance j).val| = 1 / 2 := by
      have := hval j hj
      unfold num at this
      rw [this]
      split_ifs <;> norm_num
    refine .inr ⟨?_, ?_⟩ <;> rw [this]
    · refine one_div_le_one_div_of_le (by norm_num) ?_
      calc (2 : ℝ) = 2 ^ 1 := (pow_one _).symm
        _ ≤ 2 ^ 300 := pow_le_pow_right₀ (by norm_num) (by norm_num)
    · norm_num
  have hP : ∀ i, i < 36 → Plain 5 5 (vals L.signedDistance) i := fun i hi => ⟨hO i hi, fun n ha => hO n (adj_lt ha).2⟩
  have ha : Adj 5 5 0 1 := .inl ⟨0, 1, 0, by norm_num, by norm_num, by norm_num, rfl, rfl, .inl rfl⟩
  have hs : num (vals L.signedDistance) 0 * num (vals L.signedDistance) 1 < 0 := by
    rw [hval 0 (by norm_num), hval 1 (by norm_num)]
    norm_num
  obtain ⟨L', e⟩ := (C100_exit_iff hr (by simpa using hP)).2 ⟨0, by norm_num, .inr ⟨1, ha, hs⟩⟩
  exact ⟨L, L', hr, e, hP, ha, hs⟩

end Slsm
