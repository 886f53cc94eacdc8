import Verif.Proof.Region

/-! # Cells cut by the contour -/

namespace Slsm.Front

open Set Boundary Area Polygon Region

/-! ### Cutting a convex set in two -/

def Affine (g : ℝ × ℝ → ℝ) : Prop := ∀ (p q : ℝ × ℝ) (s t : ℝ), s + t = 1 → g (s • p + t • q) = s * g p + t * g q

theorem Affine.neg {g : ℝ × ℝ → ℝ} (hg : Affine g) : Affine fun z => -g z := by
  intro p q s t h
  have := hg p q s t h
  dsimp only
  rw [this]
  ring

theorem Affine.convex {g : ℝ × ℝ → ℝ} (hg : Affine g) : Convex ℝ {z | 0 ≤ g z} := by
  intro p hp q hq s t hs ht hst
  simp only [mem_setOf_eq] at *
  rw [hg _ _ _ _ hst]
  positivity

theorem chop_aux {K V V1 V2 : Set (ℝ × ℝ)} {g : ℝ × ℝ → ℝ} {a b : ℝ × ℝ} (hg : Affine g) (hK : K = convexHull ℝ V) (hV : V ⊆ V1 ∪ V2) (k1 : V1 ⊆ K) (k2 : V2 ⊆ K)
    (a1 : a ∈ V1) (a2 : a ∈ V2) (b1 : b ∈ V1) (p1 : ∀ z ∈ V1, 0 ≤ g z) (p2 : ∀ z ∈ V2, g z ≤ 0)
    (hz : ∀ z ∈ K, g z = 0 → z ∈ segment ℝ a b) : convexHull ℝ V1 = K ∩ {z | 0 ≤ g z} := by
  have cK : Convex ℝ K := by rw [hK]; exact convex_convexHull ℝ V
  have c1 : convexHull ℝ V1 ⊆ K := convexHull_min k1 cK
  have c2 : convexHull ℝ V2 ⊆ K := convexHull_min k2 cK
  have hseg : segment ℝ a b ⊆ convexHull ℝ V1 := (convex_convexHull ℝ V1).segment_subset (subset_convexHull ℝ _ a1) (subset_convexHull ℝ _ b1)
  apply Subset.antisymm
  · exact subset_inter c1 (convexHull_min p1 hg.convex)
  · rintro q ⟨hq, gq⟩
    simp only [mem_setOf_eq] at gq
    rw [hK] at hq
    have hq := convexHull_mono hV hq
    rw [convexHull_union ⟨a, a1⟩ ⟨a, a2⟩, mem_convexJoin] at hq
    obtain ⟨r1, h1, r2, h2, s, t, hs, ht, hst, rfl⟩ := hq
    have g1 : 0 ≤ g r1 := convexHull_min p1 hg.convex h1
    have g2 : 0 ≤ -g r2 := convexHull_min (fun z hz => by simpa using p2 z hz) hg.neg.convex h2
    rw [hg _ _ _ _ hst] at gq
    rcases eq_or_lt_of_le g2 with e | g2
    · exact (convex_convexHull ℝ V1) h1 (hseg (hz r2 (c2 h2) (by linarith))) hs ht hst
    · obtain ⟨k, hk0, hk1, hkk⟩ : ∃ k, 0 ≤ k ∧ k ≤ 1 ∧ k * (g r1 - g r2) = g r1 := by
        have hd : 0 < g r1 - g r2 := by linarith
        exact ⟨g r1 / (g r1 - g r2), by positivity, by rw [div_le_one hd]; linarith, div_mul_cancel₀ _ hd.ne'⟩
      have hzz : k • r2 + (1 - k) • r1 ∈ convexHull ℝ V1 := by
        refine hseg (hz _ (cK (c2 h2) (c1 h1) hk0 (by linarith) (by ring)) ?_)
        rw [hg _ _ _ _ (by ring)]
        linear_combination -hkk
      have htk : t ≤ k := by
        have : t * (g r1 - g r2) ≤ k * (g r1 - g r2) := by
          rw [hkk]
          have : s = 1 - t := by linarith
          subst this
          linarith
        exact le_of_mul_le_mul_right this (by linarith)
      rcases eq_or_lt_of_le hk0 with e | hk
      · have : t = 0 := le_antisymm (by rw [e]; exact htk) ht
        subst this
        have : s = 1 := by linarith
        subst this
        simpa using h1
      · have := (convex_convexHull ℝ V1) hzz h1 (a := t / k) (b := 1 - t / k) (by positivity) (by rw [sub_nonneg, div_le_one hk]; exact htk) (by ring)
        convert this using 1
        have hs' : s = 1 - t := by linarith
        subst hs'
        rw [smul_add, smul_smul, smul_smul, div_mul_cancel₀ _ hk.ne', add_assoc, ← add_smul, add_comm (t • r2)]
        congr 2
        field_simp
        ring

/-- A convex set cut by a line. -/
theorem chop {K V V1 V2 : Set (ℝ × ℝ)} {g : ℝ × ℝ → ℝ} {a b : ℝ × ℝ} (hg : Affine g) (hK : K = convexHull ℝ V) (hV : V ⊆ V1 ∪ V2) (k1 : V1 ⊆ K) (k2 : V2 ⊆ K)
    (a1 : a ∈ V1) (a2 : a ∈ V2) (b1 : b ∈ V1) (b2 : b ∈ V2) (p1 : ∀ z ∈ V1, 0 ≤ g z) (p2 : ∀ z ∈ V2, g z ≤ 0)
    (hz : ∀ z ∈ K, g z = 0 → z ∈ segment ℝ a b) : convexHull ℝ V1 = K ∩ {z | 0 ≤ g z} ∧ convexHull ℝ V2 = K ∩ {z | g z ≤ 0} := by
  refine ⟨chop_aux hg hK hV k1 k2 a1 a2 b1 p1 p2 hz, ?_⟩
  rw [chop_aux hg.neg hK (by rw [union_comm]; exact hV) k2 k1 a2 a1 b2 (fun z hz => by simpa using p2 z hz) (fun z hz => by simpa using p1 z hz)
    (fun z hz' h => hz z hz' (by simpa using h))]
  simp

/-! ### Cuts of a cell -/

section
variable {X Y : ℝ} {τ : Nat → ℝ}

abbrev sq (X Y : ℝ) : Set (ℝ × ℝ) := Icc X (X + 1) ×ˢ Icc Y (Y + 1)

/-- The points at some places. -/
def V (X Y : ℝ) (τ : Nat → ℝ) (l : List LP) : Set (ℝ × ℝ) := {z | ∃ p ∈ l, z = pt (cellPoint X Y τ p)}

theorem sq_hull (X Y : ℝ) (τ : Nat → ℝ) : sq X Y = convexHull ℝ (V X Y τ [.c 0, .c 1, .c 2, .c 3]) := by
  have h : ∀ a : ℝ, Icc a (a + 1) = convexHull ℝ {a, a + 1} := fun a => by
    rw [convexHull_pair, segment_eq_Icc (by linarith)]
  unfold sq
  rw [h X, h Y, ← convexHull_prod]
  congr 1
  ext ⟨p, q⟩
  simp [V, pt, cellPoint]
  tauto

/-- Positive away from corner `k`. -/
noncomputable def kap (X Y : ℝ) (τ : Nat → ℝ) : Nat → ℝ × ℝ → ℝ
  | 0, z => (z.1 - X) / τ 0 + (z.2 - Y) / τ 3 - 1
  | 1, z => (X + 1 - z.1) / (1 - τ 0) + (z.2 - Y) / τ 1 - 1
  | 2, z => (X + 1 - z.1) / (1 - τ 2) + (Y + 1 - z.2) / (1 - τ 1) - 1
  | _, z => (z.1 - X) / τ 2 + (Y + 1 - z.2) / (1 - τ 3) - 1

/-- Positive to the right (`0`), above (`1`). -/
noncomputable def spl (X Y : ℝ) (τ : Nat → ℝ) : Nat → ℝ × ℝ → ℝ
  | 0, z => z.1 - X - τ 0 * (Y + 1 - z.2) - τ 2 * (z.2 - Y)
  | _, z => z.2 - Y - τ 3 * (X + 1 - z.1) - τ 1 * (z.1 - X)

theorem kap_affine (k : Nat) : Affine (kap X Y τ k) := by
  intro p q s t h
  have hs : s = 1 - t := by linarith
  subst hs
  rcases k with _ | _ | _ | k <;> simp only [kap, Prod.fst_add, Prod.snd_add, Prod.smul_fst, Prod.smul_snd, smul_eq_mul] <;> ring

theorem spl_affine (k : Nat) : Affine (spl X Y τ k) := by
  intro p q s t h
  have hs : s = 1 - t := by linarith
  subst hs
  rcases k with _ | k <;> simp only [spl, Prod.fst_add, Prod.snd_add, Prod.smul_fst, Prod.smul_snd, smul_eq_mul] <;> ring

theorem kap_cont (k : Nat) : Continuous (kap X Y τ k) := by
  rcases k with _ | _ | _ | k <;> unfold kap <;> fun_prop

theorem spl_cont (k : Nat) : Continuous (spl X Y τ k) := by
  rcases k with _ | k <;> unfold spl <;> fun_prop

/-- Ends of the cut of corner `k`. -/
def kEnds : Nat → LP × LP
  | 0 => (.e 0, .e 3)
  | 1 => (.e 0, .e 1)
  | 2 => (.e 1, .e 2)
  | _ => (.e 2, .e 3)

def sEnds : Nat → LP × LP
  | 0 => (.e 0, .e 2)
  | _ => (.e 1, .e 3)

abbrev chord (X Y : ℝ) (τ : Nat → ℝ) (a : LP × LP) : Set (ℝ × ℝ) := segment ℝ (pt (cellPoint X Y τ a.1)) (pt (cellPoint X Y τ a.2))

theorem kap_zero (hτ : ∀ j, 0 < τ j ∧ τ j < 1) (k : Nat) {z : ℝ × ℝ} : (z ∈ sq X Y ∧ kap X Y τ k z = 0) ↔ z ∈ chord X Y τ (kEnds k) := by
  obtain ⟨a0, b0⟩ := hτ 0
  obtain ⟨a1, b1⟩ := hτ 1
  obtain ⟨a2, b2⟩ := hτ 2
  obtain ⟨a3, b3⟩ := hτ 3
  have p0 := sub_pos.2 b0
  have p1 := sub_pos.2 b1
  have p2 := sub_pos.2 b2
  have p3 := sub_pos.2 b3
  obtain ⟨x, y⟩ := z
  constructor
  · rintro ⟨⟨⟨h1, h2⟩, h3, h4⟩, h5⟩
    dsimp only at h1 h2 h3 h4
    have q1 := sub_nonneg.2 h1
    have q2 := sub_nonneg.2 h2
    have q3 := sub_nonneg.2 h3
    have q4 := sub_nonneg.2 h4
    rcases k with _ | _ | _ | k <;> simp only [kap] at h5
    · refine ⟨(x - X) / τ 0, (y - Y) / τ 3, by positivity, by positivity, by linarith, ?_⟩
      simp only [kEnds, pt, cellPoint, Prod.smul_mk, Prod.mk_add_mk, smul_eq_mul, Prod.mk.injEq]
      refine ⟨?_, ?_⟩
      · have : (x - X) / τ 0 * τ 0 = x - X := div_mul_cancel₀ _ a0.ne'
        linear_combination this + X * h5
      · have : (y - Y) / τ 3 * τ 3 = y - Y := div_mul_cancel₀ _ a3.ne'
        linear_combination this + Y * h5
    · refine ⟨(X + 1 - x) / (1 - τ 0), (y - Y) / τ 1, by positivity, by positivity, by linarith, ?_⟩
      simp only [kEnds, pt, cellPoint, Prod.smul_mk, Prod.mk_add_mk, smul_eq_mul, Prod.mk.injEq]
      refine ⟨?_, ?_⟩
      · have : (X + 1 - x) / (1 - τ 0) * (1 - τ 0) = X + 1 - x := div_mul_cancel₀ _ p0.ne'
        linear_combination -this + (X + 1) * h5
      · have : (y - Y) / τ 1 * τ 1 = y - Y := div_mul_cancel₀ _ a1.ne'
        linear_combination this + Y * h5
    · refine ⟨(Y + 1 - y) / (1 - τ 1), (X + 1 - x) / (1 - τ 2), by positivity, by positivity, by linarith, ?_⟩
      simp only [kEnds, pt, cellPoint, Prod.smul_mk, Prod.mk_add_mk, smul_eq_mul, Prod.mk.injEq]
      refine ⟨?_, ?_⟩
      · have : (X + 1 - x) / (1 - τ 2) * (1 - τ 2) = X + 1 - x := div_mul_cancel₀ _ p2.ne'
        linear_combination -this + (X + 1) * h5
      · have : (Y + 1 - y) / (1 - τ 1) * (1 - τ 1) = Y + 1 - y := div_mul_cancel₀ _ p1.ne'
        linear_combination -this + (Y + 1) * h5
    · refine ⟨(x - X) / τ 2, (Y + 1 - y) / (1 - τ 3), by positivity, by positivity, by linarith, ?_⟩
      simp only [kEnds, pt, cellPoint, Prod.smul_mk, Prod.mk_add_mk, smul_eq_mul, Prod.mk.injEq]
      refine ⟨?_, ?_⟩
      · have : (x - X) / τ 2 * τ 2 = x - X := div_mul_cancel₀ _ a2.ne'
        linear_combination this + X * h5
      · have : (Y + 1 - y) / (1 - τ 3) * (1 - τ 3) = Y + 1 - y := div_mul_cancel₀ _ p3.ne'
        linear_combination -this + (Y + 1) * h5
  · intro h
    have hm : ∀ p ∈ walkLP, pt (cellPoint X Y τ p) ∈ sq X Y := fun p hp => point_square hτ hp
    have cs : Convex ℝ (sq X Y) := (convex_Icc _ _).prod (convex_Icc _ _)
    refine ⟨cs.segment_subset (hm _ ?_) (hm _ ?_) h, ?_⟩
    · rcases k with _ | _ | _ | k <;> simp only [kEnds] <;> decide
    · rcases k with _ | _ | _ | k <;> simp only [kEnds] <;> decide
    · obtain ⟨s, t, hs, ht, hst, e⟩ := h
      rw [← e, kap_affine k _ _ _ _ hst]
      have e1 : kap X Y τ k (pt (cellPoint X Y τ (kEnds k).1)) = 0 := by
        rcases k with _ | _ | _ | k <;> simp only [kEnds, kap, pt, cellPoint] <;> field_simp <;> ring
      have e2 : kap X Y τ k (pt (cellPoint X Y τ (kEnds k).2)) = 0 := by
        rcases k with _ | _ | _ | k <;> simp only [kEnds, kap, pt, cellPoint] <;> field_simp <;> ring
      rw [e1, e2]
      ring

theorem spl_zero (hτ : ∀ j, 0 < τ j ∧ τ j < 1) (k : Nat) {z : ℝ × ℝ} : (z ∈ sq X Y ∧ spl X Y τ k z = 0) ↔ z ∈ chord X Y τ (sEnds k) := by
  obtain ⟨x, y⟩ := z
  constructor
  · rintro ⟨⟨⟨h1, h2⟩, h3, h4⟩, h5⟩
    dsimp only at h1 h2 h3 h4
    have q1 := sub_nonneg.2 h1
    have q2 := sub_nonneg.2 h2
    have q3 := sub_nonneg.2 h3
    have q4 := sub_nonneg.2 h4
    rcases k with _ | k <;> simp only [spl] at h5
    · refine ⟨Y + 1 - y, y - Y, q4, q3, by ring, ?_⟩
      simp only [sEnds, pt, cellPoint, Prod.smul_mk, Prod.mk_add_mk, smul_eq_mul, Prod.mk.injEq]
      refine ⟨?_, ?_⟩
      · linear_combination -h5
      · ring
    · refine ⟨x - X, X + 1 - x, q1, q2, by ring, ?_⟩
      simp only [sEnds, pt, cellPoint, Prod.smul_mk, Prod.mk_add_mk, smul_eq_mul, Prod.mk.injEq]
      refine ⟨?_, ?_⟩
      · ring
      · linear_combination -h5
  · intro h
    have hm : ∀ p ∈ walkLP, pt (cellPoint X Y τ p) ∈ sq X Y := fun p hp => point_square hτ hp
    have cs : Convex ℝ (sq X Y) := (convex_Icc _ _).prod (convex_Icc _ _)
    refine ⟨cs.segment_subset (hm _ ?_) (hm _ ?_) h, ?_⟩
    · rcases k with _ | k <;> simp only [sEnds] <;> decide
    · rcases k with _ | k <;> simp only [sEnds] <;> decide
    · obtain ⟨s, t, hs, ht, hst, e⟩ := h
      rw [← e, spl_affine k _ _ _ _ hst]
      have e1 : spl X Y τ k (pt (cellPoint X Y τ (sEnds k).1)) = 0 := by
        rcases k with _ | k <;> simp only [sEnds, spl, pt, cellPoint] <;> ring
      have e2 : spl X Y τ k (pt (cellPoint X Y τ (sEnds k).2)) = 0 := by
        rcases k with _ | k <;> simp only [sEnds, spl, pt, cellPoint] <;> ring
      rw [e1, e2]
      ring

/-- Opposite corners are not cut off together. -/
theorem kap_sum (hτ : ∀ j, 0 < τ j ∧ τ j < 1) {z : ℝ × ℝ} (hz : z ∈ sq X Y) : 0 < kap X Y τ 0 z + kap X Y τ 2 z ∧ 0 < kap X Y τ 1 z + kap X Y τ 3 z := by
  obtain ⟨a0, b0⟩ := hτ 0
  obtain ⟨a1, b1⟩ := hτ 1
  obtain ⟨a2, b2⟩ := hτ 2
  obtain ⟨a3, b3⟩ := hτ 3
  have big : ∀ u a : ℝ, 0 ≤ u → 0 < a → a < 1 → u ≤ u / a ∧ (0 < u → u < u / a) := by
    intro u a hu ha h1
    refine ⟨?_, fun hu' => ?_⟩
    · rw [le_div_iff₀ ha]; nlinarith
    · rw [lt_div_iff₀ ha]; nlinarith
  obtain ⟨x, y⟩ := z
  obtain ⟨⟨h1, h2⟩, h3, h4⟩ := hz
  dsimp only at h1 h2 h3 h4
  simp only [kap]
  have c1 := fun a ha h => big (x - X) a (by linarith) ha h
  have c2 := fun a ha h => big (X + 1 - x) a (by linarith) ha h
  have c3 := fun a ha h => big (y - Y) a (by linarith) ha h
  have c4 := fun a ha h => big (Y + 1 - y) a (by linarith) ha h
  rcases eq_or_lt_of_le h1 with e | e
  · constructor
    · have k1 := (c2 (1 - τ 2) (by linarith) (by linarith)).2 (by linarith)
      have k2 := (c1 (τ 0) a0 b0).1
      have k3 := (c3 (τ 3) a3 b3).1
      have k4 := (c4 (1 - τ 1) (by linarith) (by linarith)).1
      linarith
    · have k1 := (c2 (1 - τ 0) (by linarith) (by linarith)).2 (by linarith)
      have k2 := (c1 (τ 2) a2 b2).1
      have k3 := (c3 (τ 1) a1 b1).1
      have k4 := (c4 (1 - τ 3) (by linarith) (by linarith)).1
      linarith
  · constructor
    · have k1 := (c2 (1 - τ 2) (by linarith) (by linarith)).1
      have k2 := (c1 (τ 0) a0 b0).2 (by linarith)
      have k3 := (c3 (τ 3) a3 b3).1
      have k4 := (c4 (1 - τ 1) (by linarith) (by linarith)).1
      linarith
    · have k1 := (c2 (1 - τ 0) (by linarith) (by linarith)).1
      have k2 := (c1 (τ 2) a2 b2).2 (by linarith)
      have k3 := (c3 (τ 1) a1 b1).1
      have k4 := (c4 (1 - τ 3) (by linarith) (by linarith)).1
      linarith

theorem div_ge {u v α β : ℝ} (ha : 0 < α) (hb : 0 < β) (hu : 0 ≤ u) (hv : 0 ≤ v) (h : α ≤ u ∨ β ≤ v) : 0 ≤ u / α + v / β - 1 := by
  have h1 : 0 ≤ u / α := by positivity
  have h2 : 0 ≤ v / β := by positivity
  rcases h with h | h
  · have := (one_le_div ha).2 h; linarith
  · have := (one_le_div hb).2 h; linarith

theorem div_gt {u v α β : ℝ} (ha : 0 < α) (hb : 0 < β) (hu : 0 ≤ u) (hv : 0 ≤ v) (h : α < u ∨ β < v) : 0 < u / α + v / β - 1 := by
  have h1 : 0 ≤ u / α := by positivity
  have h2 : 0 ≤ v / β := by positivity
  rcases h with h | h
  · have := (one_lt_div ha).2 h; linarith
  · have := (one_lt_div hb).2 h; linarith

theorem div_le' {u v α β : ℝ} (ha : 0 < α) (hb : 0 < β) (h : (u ≤ α ∧ v = 0) ∨ (u = 0 ∧ v ≤ β)) : u / α + v / β - 1 ≤ 0 := by
  rcases h with ⟨h, rfl⟩ | ⟨rfl, h⟩
  · have := (div_le_one ha).2 h; simp; linarith
  · have := (div_le_one hb).2 h; simp; linarith

/-- All places but corner `k` and the edges not next to it. -/
def farL : Nat → List LP
  | 0 => [.e 0, .c 1, .c 2, .c 3, .e 3]
  | 1 => [.c 0, .e 0, .e 1, .c 2, .c 3]
  | 2 => [.c 0, .c 1, .e 1, .e 2, .c 3]
  | _ => [.c 0, .c 1, .c 2, .e 2, .e 3]

def nearL : Nat → List LP
  | 0 => [.c 0, .e 0, .e 3]
  | 1 => [.e 0, .c 1, .e 1]
  | 2 => [.e 1, .c 2, .e 2]
  | _ => [.e 2, .c 3, .e 3]

/-- The places left over if corner `k` is cut off. -/
def restL : Nat → List LP
  | 0 => [.e 0, .c 1, .e 1, .c 2, .e 2, .c 3, .e 3]
  | 1 => [.c 0, .e 0, .e 1, .c 2, .e 2, .c 3, .e 3]
  | 2 => [.c 0, .e 0, .c 1, .e 1, .e 2, .c 3, .e 3]
  | _ => [.c 0, .e 0, .c 1, .e 1, .c 2, .e 2, .e 3]

theorem kap_ge (hτ : ∀ j, 0 < τ j ∧ τ j < 1) (k : Nat) {p : LP} (hp : p ∈ restL k) : 0 ≤ kap X Y τ k (pt (cellPoint X Y τ p)) := by
  obtain ⟨a0, b0⟩ := hτ 0
  obtain ⟨a1, b1⟩ := hτ 1
  obtain ⟨a2, b2⟩ := hτ 2
  obtain ⟨a3, b3⟩ := hτ 3
  have p0 := sub_pos.2 b0
  have p1 := sub_pos.2 b1
  have p2 := sub_pos.2 b2
  have p3 := sub_pos.2 b3
  rcases k with _ | _ | _ | k <;> simp only [restL, List.mem_cons, List.not_mem_nil, or_false] at hp <;> rcases hp with rfl | rfl | rfl | rfl | rfl | rfl | rfl <;>
    simp only [kap, pt, cellPoint] <;> refine div_ge (by assumption) (by assumption) (by linarith) (by linarith) ?_ <;>
    first
    | (left; linarith)
    | (right; linarith)

theorem kap_le (hτ : ∀ j, 0 < τ j ∧ τ j < 1) (k : Nat) {p : LP} (hp : p ∈ nearL k) : kap X Y τ k (pt (cellPoint X Y τ p)) ≤ 0 := by
  obtain ⟨a0, b0⟩ := hτ 0
  obtain ⟨a1, b1⟩ := hτ 1
  obtain ⟨a2, b2⟩ := hτ 2
  obtain ⟨a3, b3⟩ := hτ 3
  have p0 := sub_pos.2 b0
  have p1 := sub_pos.2 b1
  have p2 := sub_pos.2 b2
  have p3 := sub_pos.2 b3
  rcases k with _ | _ | _ | k <;> simp only [nearL, List.mem_cons, List.not_mem_nil, or_false] at hp <;> rcases hp with rfl | rfl | rfl <;>
    simp only [kap, pt, cellPoint] <;> refine div_le' (by assumption) (by assumption) ?_ <;>
    first
    | (left; constructor <;> linarith)
    | (right; constructor <;> linarith)

theorem far_rest (k : Nat) {p : LP} (hp : p ∈ farL k) : p ∈ restL k := by
  rcases k with _ | _ | _ | k <;> simp only [farL, restL] at * <;> (revert p; decide)

theorem near_walk (k : Nat) {p : LP} (hp : p ∈ nearL k) : p ∈ walkLP := by
  rcases k with _ | _ | _ | k <;> simp only [nearL] at * <;> (revert p; decide)

theorem rest_walk (k : Nat) {p : LP} (hp : p ∈ restL k) : p ∈ walkLP := by
  rcases k with _ | _ | _ | k <;> simp only [restL] at * <;> (revert p; decide)

theorem kap_hull (hτ : ∀ j, 0 < τ j ∧ τ j < 1) (k : Nat) : convexHull ℝ (V X Y τ (farL k)) = sq X Y ∩ {z | 0 ≤ kap X Y τ k z} ∧
    convexHull ℝ (V X Y τ (nearL k)) = sq X Y ∩ {z | kap X Y τ k z ≤ 0} := by
  refine chop (kap_affine k) (sq_hull X Y τ) (a := pt (cellPoint X Y τ (kEnds k).1)) (b := pt (cellPoint X Y τ (kEnds k).2)) ?_ ?_ ?_ ⟨_, ?_, rfl⟩ ⟨_, ?_, rfl⟩ ⟨_, ?_, rfl⟩ ⟨_, ?_, rfl⟩ ?_ ?_
    fun z hz h => (kap_zero hτ k).1 ⟨hz, h⟩
  · rintro z ⟨p, hp, rfl⟩
    have : p ∈ farL k ∨ p ∈ nearL k := by
      rcases k with _ | _ | _ | k <;> simp only [farL, nearL] <;> (revert p; decide)
    exact this.imp (fun h => ⟨p, h, rfl⟩) fun h => ⟨p, h, rfl⟩
  · rintro z ⟨p, hp, rfl⟩
    exact point_square hτ (rest_walk k (far_rest k hp))
  · rintro z ⟨p, hp, rfl⟩
    exact point_square hτ (near_walk k hp)
  iterate 4 (rcases k with _ | _ | _ | k <;> simp only [farL, nearL, kEnds] <;> decide)
  · rintro z ⟨p, hp, rfl⟩
    exact kap_ge hτ k (far_rest k hp)
  · rintro z ⟨p, hp, rfl⟩
    exact kap_le hτ k hp

/-- Places left over if two opposite corners are cut off. -/
def hexL : Nat → List LP
  | 0 => [.e 0, .c 1, .e 1, .e 2, .c 3, .e 3]
  | _ => [.c 0, .e 0, .e 1, .c 2, .e 2, .e 3]

theorem hex_rest (k : Nat) (hk : k < 2) {p : LP} (hp : p ∈ hexL k) : p ∈ restL k ∧ p ∈ restL (k + 2) := by
  match k, hk with
  | 0, _ => simp only [hexL, restL] at *; revert p; decide
  | 1, _ => simp only [hexL, restL] at *; revert p; decide

theorem hex_hull (hτ : ∀ j, 0 < τ j ∧ τ j < 1) (k : Nat) (hk : k < 2) :
    convexHull ℝ (V X Y τ (hexL k)) = sq X Y ∩ {z | 0 ≤ kap X Y τ k z} ∩ {z | 0 ≤ kap X Y τ (k + 2) z} := by
  have h0 := (kap_hull (X := X) (Y := Y) hτ k).1
  refine (chop (kap_affine (k + 2)) h0.symm (a := pt (cellPoint X Y τ (kEnds (k + 2)).1)) (b := pt (cellPoint X Y τ (kEnds (k + 2)).2)) (V1 := V X Y τ (hexL k)) (V2 := V X Y τ (nearL (k + 2)))
    ?_ ?_ ?_ ⟨_, ?_, rfl⟩ ⟨_, ?_, rfl⟩ ⟨_, ?_, rfl⟩ ⟨_, ?_, rfl⟩ ?_ ?_
    fun z hz h => (kap_zero hτ (k + 2)).1 ⟨hz.1, h⟩).1
  · rintro z ⟨p, hp, rfl⟩
    have : p ∈ hexL k ∨ p ∈ nearL (k + 2) := by
      match k, hk with
      | 0, _ => simp only [hexL, farL, nearL] at *; revert p; decide
      | 1, _ => simp only [hexL, farL, nearL] at *; revert p; decide
    exact this.imp (fun h => ⟨p, h, rfl⟩) fun h => ⟨p, h, rfl⟩
  · rintro z ⟨p, hp, rfl⟩
    exact ⟨point_square hτ (rest_walk k (hex_rest k hk hp).1), kap_ge hτ k (hex_rest k hk hp).1⟩
  · rintro z ⟨p, hp, rfl⟩
    refine ⟨point_square hτ (near_walk _ hp), kap_ge hτ k ?_⟩
    match k, hk with
    | 0, _ => simp only [restL, nearL] at *; revert p; decide
    | 1, _ => simp only [restL, nearL] at *; revert p; decide
  iterate 4
    · match k, hk with
      | 0, _ => simp only [hexL, nearL, kEnds]; decide
      | 1, _ => simp only [hexL, nearL, kEnds]; decide
  · rintro z ⟨p, hp, rfl⟩
    exact kap_ge hτ _ (hex_rest k hk hp).2
  · rintro z ⟨p, hp, rfl⟩
    exact kap_le hτ _ hp

def overL : Nat → List LP
  | 0 => [.e 0, .c 1, .c 2, .e 2]
  | _ => [.e 1, .c 2, .c 3, .e 3]

def underL : Nat → List LP
  | 0 => [.c 0, .e 0, .e 2, .c 3]
  | _ => [.c 0, .c 1, .e 1, .e 3]

theorem spl_hull (hτ : ∀ j, 0 < τ j ∧ τ j < 1) (k : Nat) : convexHull ℝ (V X Y τ (overL k)) = sq X Y ∩ {z | 0 ≤ spl X Y τ k z} ∧
    convexHull ℝ (V X Y τ (underL k)) = sq X Y ∩ {z | spl X Y τ k z ≤ 0} := by
  obtain ⟨a0, b0⟩ := hτ 0
  obtain ⟨a1, b1⟩ := hτ 1
  obtain ⟨a2, b2⟩ := hτ 2
  obtain ⟨a3, b3⟩ := hτ 3
  have o : ∀ p ∈ overL k, p ∈ walkLP := by
    rcases k with _ | k <;> simp only [overL] at * <;> decide
  have u : ∀ p ∈ underL k, p ∈ walkLP := by
    rcases k with _ | k <;> simp only [underL] at * <;> decide
  refine chop (spl_affine k) (sq_hull X Y τ) (a := pt (cellPoint X Y τ (sEnds k).1)) (b := pt (cellPoint X Y τ (sEnds k).2)) ?_ ?_ ?_ ⟨_, ?_, rfl⟩ ⟨_, ?_, rfl⟩ ⟨_, ?_, rfl⟩ ⟨_, ?_, rfl⟩ ?_ ?_
    fun z hz h => (spl_zero hτ k).1 ⟨hz, h⟩
  · rintro z ⟨p, hp, rfl⟩
    have : p ∈ overL k ∨ p ∈ underL k := by
      rcases k with _ | k <;> simp only [overL, underL] <;> (revert p; decide)
    exact this.imp (fun h => ⟨p, h, rfl⟩) fun h => ⟨p, h, rfl⟩
  · rintro z ⟨p, hp, rfl⟩
    exact point_square hτ (o p hp)
  · rintro z ⟨p, hp, rfl⟩
    exact point_square hτ (u p hp)
  iterate 4 (rcases k with _ | k <;> simp only [overL, underL, sEnds] <;> decide)
  · rintro z ⟨p, hp, rfl⟩
    rcases k with _ | k <;> simp only [overL, List.mem_cons, List.not_mem_nil, or_false] at hp <;> rcases hp with rfl | rfl | rfl | rfl <;>
      simp only [spl, pt, cellPoint] <;> linarith
  · rintro z ⟨p, hp, rfl⟩
    rcases k with _ | k <;> simp only [underL, List.mem_cons, List.not_mem_nil, or_false] at hp <;> rcases hp with rfl | rfl | rfl | rfl <;>
      simp only [spl, pt, cellPoint] <;> linarith

/-! ### The sign of a cell -/

/-- A function that is positive on the part of the cell that belongs to the structure and negative on the rest. -/
noncomputable def sgv (pos : Bool) (k0 k1 k2 k3 n0 n1 : ℝ) : Bool → Bool → Bool → Bool → ℝ
  | true, true, true, true => 1
  | false, true, true, true => k0
  | true, false, true, true => k1
  | true, true, false, true => k2
  | true, true, true, false => k3
  | true, false, false, false => -k0
  | false, true, false, false => -k1
  | false, false, true, false => -k2
  | false, false, false, true => -k3
  | false, true, true, false => n0
  | true, false, false, true => -n0
  | false, false, true, true => n1
  | true, true, false, false => -n1
  | false, true, false, true => if pos then min k0 k2 else -min k1 k3
  | true, false, true, false => if pos then min k1 k3 else -min k0 k2
  | false, false, false, false => -1

noncomputable def sig (X Y : ℝ) (τ : Nat → ℝ) (pos : Bool) (s0 s1 s2 s3 : Bool) (z : ℝ × ℝ) : ℝ :=
  sgv pos (kap X Y τ 0 z) (kap X Y τ 1 z) (kap X Y τ 2 z) (kap X Y τ 3 z) (spl X Y τ 0 z) (spl X Y τ 1 z) s0 s1 s2 s3

/-- Same sign. -/
def Same (a b : ℝ) : Prop := (0 < a ↔ 0 < b) ∧ (a < 0 ↔ b < 0)

theorem Same.symm {a b : ℝ} (h : Same a b) : Same b a := ⟨h.1.symm, h.2.symm⟩

theorem Same.trans {a b c : ℝ} (h : Same a b) (h' : Same b c) : Same a c := ⟨h.1.trans h'.1, h.2.trans h'.2⟩

theorem Same.mul {a c : ℝ} (hc : 0 < c) : Same (c * a) a := by
  constructor
  · exact mul_pos_iff_of_pos_left hc
  · constructor
    · intro h; by_contra h'; have := mul_nonneg hc.le (not_lt.1 h'); linarith
    · intro h; exact mul_neg_of_pos_of_neg hc h

theorem Same.zero {a b : ℝ} (h : Same a b) : a = 0 ↔ b = 0 := by
  obtain ⟨h1, h2⟩ := h
  constructor
  · intro e; subst e
    have := h1.not.1 (lt_irrefl _)
    have := h2.not.1 (lt_irrefl _)
    linarith
  · intro e; subst e
    have := h1.not.2 (lt_irrefl _)
    have := h2.not.2 (lt_irrefl _)
    linarith

/-- The sign along an edge, in terms of its ends. -/
def Along (v d : ℝ) (a b : Bool) : Prop :=
  (a = true → b = true → 0 < v) ∧ (a = false → b = false → v < 0) ∧ (a = true → b = false → Same v (-d)) ∧ (a = false → b = true → Same v d)

section
variable {pos : Bool} {k0 k1 k2 k3 n0 n1 d : ℝ}

theorem along_bottom (h0 : Same k0 d) (h1 : Same k1 (-d)) (h2 : 0 < k2) (h3 : 0 < k3) (e0 : n0 = d) (e1 : n1 < 0) (s0 s1 s2 s3 : Bool) :
    Along (sgv pos k0 k1 k2 k3 n0 n1 s0 s1 s2 s3) d s0 s1 := by
  unfold Along Same at *
  cases s0 <;> cases s1 <;> cases s2 <;> cases s3 <;> cases pos <;> simp [sgv] <;> grind

theorem along_right (h0 : Same k1 d) (h1 : Same k2 (-d)) (h2 : 0 < k3) (h3 : 0 < k0) (e0 : n1 = d) (e1 : 0 < n0) (s0 s1 s2 s3 : Bool) :
    Along (sgv pos k0 k1 k2 k3 n0 n1 s0 s1 s2 s3) d s1 s2 := by
  unfold Along Same at *
  cases s0 <;> cases s1 <;> cases s2 <;> cases s3 <;> cases pos <;> simp [sgv] <;> grind

theorem along_top (h0 : Same k3 d) (h1 : Same k2 (-d)) (h2 : 0 < k0) (h3 : 0 < k1) (e0 : n0 = d) (e1 : 0 < n1) (s0 s1 s2 s3 : Bool) :
    Along (sgv pos k0 k1 k2 k3 n0 n1 s0 s1 s2 s3) d s3 s2 := by
  unfold Along Same at *
  cases s0 <;> cases s1 <;> cases s2 <;> cases s3 <;> cases pos <;> simp [sgv] <;> grind

theorem along_left (h0 : Same k0 d) (h1 : Same k3 (-d)) (h2 : 0 < k1) (h3 : 0 < k2) (e0 : n1 = d) (e1 : n0 < 0) (s0 s1 s2 s3 : Bool) :
    Along (sgv pos k0 k1 k2 k3 n0 n1 s0 s1 s2 s3) d s0 s3 := by
  unfold Along Same at *
  cases s0 <;> cases s1 <;> cases s2 <;> cases s3 <;> cases pos <;> simp [sgv] <;> grind

end

theorem same_up {u α : ℝ} (ha : 0 < α) : Same (u / α - 1) (u - α) := by
  have : u / α - 1 = 1 / α * (u - α) := by field_simp
  rw [this]
  exact Same.mul (by positivity)

theorem same_dn {u α β : ℝ} (ha : α < 1) (h : u = 1 - β) : Same (u / (1 - α) - 1) (-(β - α)) := by
  have h1 : 0 < 1 - α := by linarith
  have : -(β - α) = u - (1 - α) := by rw [h]; ring
  rw [this]
  exact same_up h1

theorem mix {a b u v : ℝ} (ha : 0 < a ∧ a < 1) (hb : 0 < b ∧ b < 1) (hu : 0 ≤ u) (hv : 0 ≤ v) (h : u + v = 1) : 0 < a * u + b * v ∧ a * u + b * v < 1 := by
  rcases eq_or_lt_of_le hu with e | e
  · subst e
    have : v = 1 := by linarith
    subst this
    constructor <;> linarith
  · have h1 := mul_pos ha.1 e
    have h2 := mul_nonneg hb.1.le hv
    have h3 := mul_pos (sub_pos.2 ha.2) e
    have h4 := mul_nonneg (sub_nonneg.2 hb.2.le) hv
    constructor <;> linarith

theorem sig_bottom (hτ : ∀ j, 0 < τ j ∧ τ j < 1) (pos s0 s1 s2 s3 : Bool) {z : ℝ × ℝ} (hz : z ∈ sq X Y) (he : z.2 = Y) :
    Along (sig X Y τ pos s0 s1 s2 s3 z) (z.1 - X - τ 0) s0 s1 := by
  obtain ⟨a0, b0⟩ := hτ 0
  obtain ⟨a1, b1⟩ := hτ 1
  obtain ⟨a2, b2⟩ := hτ 2
  obtain ⟨a3, b3⟩ := hτ 3
  have p0 := sub_pos.2 b0
  have p1 := sub_pos.2 b1
  have p2 := sub_pos.2 b2
  have p3 := sub_pos.2 b3
  obtain ⟨x, y⟩ := z
  obtain ⟨⟨h1, h2⟩, h3, h4⟩ := hz
  dsimp only at h1 h2 h3 h4 he
  subst he
  refine along_bottom ?_ ?_ ?_ ?_ ?_ ?_ s0 s1 s2 s3 <;> simp only [kap, spl]
  · rw [sub_self, zero_div, add_zero]; exact same_up a0
  · rw [sub_self, zero_div, add_zero]; exact same_dn b0 (by ring)
  · exact div_gt p2 p1 (by linarith) (by linarith) (.inr (by linarith))
  · exact div_gt a2 p3 (by linarith) (by linarith) (.inr (by linarith))
  · ring
  · have := (mix ⟨a3, b3⟩ ⟨a1, b1⟩ (u := X + 1 - x) (v := x - X) (by linarith) (by linarith) (by ring)).1; linarith

theorem sig_top (hτ : ∀ j, 0 < τ j ∧ τ j < 1) (pos s0 s1 s2 s3 : Bool) {z : ℝ × ℝ} (hz : z ∈ sq X Y) (he : z.2 = Y + 1) :
    Along (sig X Y τ pos s0 s1 s2 s3 z) (z.1 - X - τ 2) s3 s2 := by
  obtain ⟨a0, b0⟩ := hτ 0
  obtain ⟨a1, b1⟩ := hτ 1
  obtain ⟨a2, b2⟩ := hτ 2
  obtain ⟨a3, b3⟩ := hτ 3
  have p0 := sub_pos.2 b0
  have p1 := sub_pos.2 b1
  have p2 := sub_pos.2 b2
  have p3 := sub_pos.2 b3
  obtain ⟨x, y⟩ := z
  obtain ⟨⟨h1, h2⟩, h3, h4⟩ := hz
  dsimp only at h1 h2 h3 h4 he
  subst he
  refine along_top ?_ ?_ ?_ ?_ ?_ ?_ s0 s1 s2 s3 <;> simp only [kap, spl]
  · rw [sub_self, zero_div, add_zero]; exact same_up a2
  · rw [sub_self, zero_div, add_zero]; exact same_dn b2 (by ring)
  · exact div_gt a0 a3 (by linarith) (by linarith) (.inr (by linarith))
  · exact div_gt p0 a1 (by linarith) (by linarith) (.inr (by linarith))
  · ring
  · have := (mix ⟨a3, b3⟩ ⟨a1, b1⟩ (u := X + 1 - x) (v := x - X) (by linarith) (by linarith) (by ring)).2; linarith

theorem sig_left (hτ : ∀ j, 0 < τ j ∧ τ j < 1) (pos s0 s1 s2 s3 : Bool) {z : ℝ × ℝ} (hz : z ∈ sq X Y) (he : z.1 = X) :
    Along (sig X Y τ pos s0 s1 s2 s3 z) (z.2 - Y - τ 3) s0 s3 := by
  obtain ⟨a0, b0⟩ := hτ 0
  obtain ⟨a1, b1⟩ := hτ 1
  obtain ⟨a2, b2⟩ := hτ 2
  obtain ⟨a3, b3⟩ := hτ 3
  have p0 := sub_pos.2 b0
  have p1 := sub_pos.2 b1
  have p2 := sub_pos.2 b2
  have p3 := sub_pos.2 b3
  obtain ⟨x, y⟩ := z
  obtain ⟨⟨h1, h2⟩, h3, h4⟩ := hz
  dsimp only at h1 h2 h3 h4 he
  subst he
  refine along_left ?_ ?_ ?_ ?_ ?_ ?_ s0 s1 s2 s3 <;> simp only [kap, spl]
  · rw [sub_self, zero_div, zero_add]; exact same_up a3
  · rw [sub_self, zero_div, zero_add]; exact same_dn b3 (by ring)
  · exact div_gt p0 a1 (by linarith) (by linarith) (.inl (by linarith))
  · exact div_gt p2 p1 (by linarith) (by linarith) (.inl (by linarith))
  · ring
  · have := (mix ⟨a0, b0⟩ ⟨a2, b2⟩ (u := Y + 1 - y) (v := y - Y) (by linarith) (by linarith) (by ring)).1; linarith

theorem sig_right (hτ : ∀ j, 0 < τ j ∧ τ j < 1) (pos s0 s1 s2 s3 : Bool) {z : ℝ × ℝ} (hz : z ∈ sq X Y) (he : z.1 = X + 1) :
    Along (sig X Y τ pos s0 s1 s2 s3 z) (z.2 - Y - τ 1) s1 s2 := by
  obtain ⟨a0, b0⟩ := hτ 0
  obtain ⟨a1, b1⟩ := hτ 1
  obtain ⟨a2, b2⟩ := hτ 2
  obtain ⟨a3, b3⟩ := hτ 3
  have p0 := sub_pos.2 b0
  have p1 := sub_pos.2 b1
  have p2 := sub_pos.2 b2
  have p3 := sub_pos.2 b3
  obtain ⟨x, y⟩ := z
  obtain ⟨⟨h1, h2⟩, h3, h4⟩ := hz
  dsimp only at h1 h2 h3 h4 he
  subst he
  refine along_right ?_ ?_ ?_ ?_ ?_ ?_ s0 s1 s2 s3 <;> simp only [kap, spl]
  · rw [sub_self, zero_div, zero_add]; exact same_up a1
  · rw [sub_self, zero_div, zero_add]; exact same_dn b1 (by ring)
  · exact div_gt a2 p3 (by linarith) (by linarith) (.inl (by linarith))
  · exact div_gt a0 a3 (by linarith) (by linarith) (.inl (by linarith))
  · ring
  · have := (mix ⟨a0, b0⟩ ⟨a2, b2⟩ (u := Y + 1 - y) (v := y - Y) (by linarith) (by linarith) (by ring)).2; linarith

/-! ### Both sides are close to the cut -/

/-- Facts about the sign of a cell. -/
structure Sgn (X Y : ℝ) (τ : Nat → ℝ) (σ : ℝ × ℝ → ℝ) (l : List (LP × LP)) : Prop where
  cont : Continuous σ
  zero : ∀ z ∈ sq X Y, σ z = 0 ↔ ∃ a ∈ l, z ∈ chord X Y τ a
  inside : ∀ a ∈ l, chord X Y τ a ⊆ sq X Y
  up : ∀ z ∈ sq X Y, σ z = 0 → z ∈ closure (interior (sq X Y) ∩ {z | 0 < σ z})
  dn : ∀ z ∈ sq X Y, σ z = 0 → z ∈ closure (interior (sq X Y) ∩ {z | σ z < 0})

theorem Sgn.neg {σ : ℝ × ℝ → ℝ} {l : List (LP × LP)} (S : Sgn X Y τ σ l) : Sgn X Y τ (fun z => -σ z) l := by
  refine ⟨S.cont.neg, fun z hz => ?_, S.inside, fun z hz h => ?_, fun z hz h => ?_⟩
  · rw [neg_eq_zero]; exact S.zero z hz
  · simpa using S.dn z hz (neg_eq_zero.1 h)
  · simpa using S.up z hz (neg_eq_zero.1 h)

theorem near {c z : ℝ × ℝ} {P : ℝ × ℝ → Prop} (hc : c ∈ interior (sq X Y)) (hz : z ∈ sq X Y) (h : ∀ s t : ℝ, 0 < s → 0 < t → s + t = 1 → P (s • z + t • c)) :
    z ∈ closure (interior (sq X Y) ∩ {z | P z}) := by
  have cs : Convex ℝ (sq X Y) := (convex_Icc _ _).prod (convex_Icc _ _)
  have h1 : openSegment ℝ z c ⊆ interior (sq X Y) ∩ {z | P z} := by
    intro q hq
    refine ⟨cs.openSegment_self_interior_subset_interior hz hc hq, ?_⟩
    obtain ⟨s, t, hs, ht, hst, rfl⟩ := hq
    exact h s t hs ht hst
  exact closure_mono h1 (segment_subset_closure_openSegment (left_mem_segment ℝ z c))

theorem sq_interior {x y : ℝ} (h1 : X < x) (h2 : x < X + 1) (h3 : Y < y) (h4 : y < Y + 1) : (x, y) ∈ interior (sq X Y) := by
  unfold sq
  rw [interior_prod_eq, interior_Icc, interior_Icc]
  exact ⟨⟨h1, h2⟩, h3, h4⟩

theorem kap_centre (hτ : ∀ j, 0 < τ j ∧ τ j < 1) (k : Nat) : 0 < kap X Y τ k (X + 1 / 2, Y + 1 / 2) := by
  have half : ∀ a b u v : ℝ, 0 < a → a < 1 → 0 < b → b < 1 → u = 1 / 2 → v = 1 / 2 → 0 < u / a + v / b - 1 := by
    intro a b u v h1 h2 h3 h4 e1 e2
    subst e1 e2
    have : 1 / 2 < 1 / 2 / a := by rw [lt_div_iff₀ h1]; linarith
    have : 1 / 2 < 1 / 2 / b := by rw [lt_div_iff₀ h3]; linarith
    linarith
  obtain ⟨a0, b0⟩ := hτ 0
  obtain ⟨a1, b1⟩ := hτ 1
  obtain ⟨a2, b2⟩ := hτ 2
  obtain ⟨a3, b3⟩ := hτ 3
  rcases k with _ | _ | _ | k <;> simp only [kap] <;> apply half <;> linarith

theorem kap_corner (hτ : ∀ j, 0 < τ j ∧ τ j < 1) (k : Nat) : ∃ c ∈ interior (sq X Y), kap X Y τ k c < 0 := by
  have quarter : ∀ a b u v : ℝ, 0 < a → 0 < b → u = a / 4 → v = b / 4 → u / a + v / b - 1 < 0 := by
    intro a b u v h1 h3 e1 e2
    subst e1 e2
    have : a / 4 / a = 1 / 4 := by field_simp
    have : b / 4 / b = 1 / 4 := by field_simp
    linarith
  obtain ⟨a0, b0⟩ := hτ 0
  obtain ⟨a1, b1⟩ := hτ 1
  obtain ⟨a2, b2⟩ := hτ 2
  obtain ⟨a3, b3⟩ := hτ 3
  rcases k with _ | _ | _ | k
  · refine ⟨(X + τ 0 / 4, Y + τ 3 / 4), sq_interior ?_ ?_ ?_ ?_, ?_⟩
    iterate 4 linarith
    simp only [kap]; apply quarter <;> linarith
  · refine ⟨(X + 1 - (1 - τ 0) / 4, Y + τ 1 / 4), sq_interior ?_ ?_ ?_ ?_, ?_⟩
    iterate 4 linarith
    simp only [kap]; apply quarter <;> linarith
  · refine ⟨(X + 1 - (1 - τ 2) / 4, Y + 1 - (1 - τ 1) / 4), sq_interior ?_ ?_ ?_ ?_, ?_⟩
    iterate 4 linarith
    simp only [kap]; apply quarter <;> linarith
  · refine ⟨(X + τ 2 / 4, Y + 1 - (1 - τ 3) / 4), sq_interior ?_ ?_ ?_ ?_, ?_⟩
    iterate 4 linarith
    simp only [kap]; apply quarter <;> linarith

theorem spl_sides (hτ : ∀ j, 0 < τ j ∧ τ j < 1) (k : Nat) : (∃ c ∈ interior (sq X Y), 0 < spl X Y τ k c) ∧ ∃ c ∈ interior (sq X Y), spl X Y τ k c < 0 := by
  obtain ⟨a0, b0⟩ := hτ 0
  obtain ⟨a1, b1⟩ := hτ 1
  obtain ⟨a2, b2⟩ := hτ 2
  obtain ⟨a3, b3⟩ := hτ 3
  rcases k with _ | k
  · refine ⟨⟨(X + (2 + τ 0 + τ 2) / 4, Y + 1 / 2), sq_interior ?_ ?_ ?_ ?_, ?_⟩, (X + (τ 0 + τ 2) / 4, Y + 1 / 2), sq_interior ?_ ?_ ?_ ?_, ?_⟩ <;> (try simp only [spl]) <;> linarith
  · refine ⟨⟨(X + 1 / 2, Y + (2 + τ 1 + τ 3) / 4), sq_interior ?_ ?_ ?_ ?_, ?_⟩, (X + 1 / 2, Y + (τ 1 + τ 3) / 4), sq_interior ?_ ?_ ?_ ?_, ?_⟩ <;> (try simp only [spl]) <;> linarith

theorem Affine.sgn {g : ℝ × ℝ → ℝ} {a : LP × LP} (hg : Affine g) (hc : Continuous g) (hz : ∀ z, (z ∈ sq X Y ∧ g z = 0) ↔ z ∈ chord X Y τ a)
    (h1 : ∃ c ∈ interior (sq X Y), 0 < g c) (h2 : ∃ c ∈ interior (sq X Y), g c < 0) : Sgn X Y τ g [a] := by
  refine ⟨hc, fun z hs => ?_, fun b hb => ?_, fun z hs h => ?_, fun z hs h => ?_⟩
  · have := hz z
    simp only [List.mem_singleton, exists_eq_left]
    rw [← this]
    exact ⟨fun h => ⟨hs, h⟩, fun h => h.2⟩
  · rw [List.mem_singleton] at hb
    subst hb
    exact fun z h => ((hz z).2 h).1
  · obtain ⟨c, c1, c2⟩ := h1
    refine near c1 hs fun s t h3 h4 h5 => ?_
    rw [hg _ _ _ _ h5, h]
    simp [mul_pos h4 c2]
  · obtain ⟨c, c1, c2⟩ := h2
    refine near c1 hs fun s t h3 h4 h5 => ?_
    rw [hg _ _ _ _ h5, h]
    have := mul_neg_of_pos_of_neg h4 c2
    simpa using this

theorem kap_sgn (hτ : ∀ j, 0 < τ j ∧ τ j < 1) (k : Nat) : Sgn X Y τ (kap X Y τ k) [kEnds k] :=
  (kap_affine k).sgn (kap_cont k) (fun _ => kap_zero hτ k) ⟨_, sq_interior (by linarith) (by linarith) (by linarith) (by linarith), kap_centre hτ k⟩ (kap_corner hτ k)

theorem spl_sgn (hτ : ∀ j, 0 < τ j ∧ τ j < 1) (k : Nat) : Sgn X Y τ (spl X Y τ k) [sEnds k] :=
  (spl_affine k).sgn (spl_cont k) (fun _ => spl_zero hτ k) (spl_sides hτ k).1 (spl_sides hτ k).2

theorem min_sgn (hτ : ∀ j, 0 < τ j ∧ τ j < 1) (k : Nat) (hk : k < 2) :
    Sgn X Y τ (fun z => min (kap X Y τ k z) (kap X Y τ (k + 2) z)) [kEnds k, kEnds (k + 2)] := by
  have hsum : ∀ z ∈ sq X Y, 0 < kap X Y τ k z + kap X Y τ (k + 2) z := by
    intro z hz
    match k, hk with
    | 0, _ => exact (kap_sum hτ hz).1
    | 1, _ => exact (kap_sum hτ hz).2
  have hzero : ∀ z ∈ sq X Y, min (kap X Y τ k z) (kap X Y τ (k + 2) z) = 0 ↔ kap X Y τ k z = 0 ∨ kap X Y τ (k + 2) z = 0 := by
    intro z hz
    have := hsum z hz
    rcases le_total (kap X Y τ k z) (kap X Y τ (k + 2) z) with h | h
    · rw [min_eq_left h]
      exact ⟨.inl, fun h' => h'.elim id fun h' => by linarith⟩
    · rw [min_eq_right h]
      exact ⟨.inr, fun h' => h'.elim (fun h' => by linarith) id⟩
  refine ⟨(kap_cont k).min (kap_cont (k + 2)), fun z hs => ?_, fun b hb => ?_, fun z hs h => ?_, fun z hs h => ?_⟩
  · rw [hzero z hs]
    have h1 := kap_zero (X := X) (Y := Y) hτ k (z := z)
    have h2 := kap_zero (X := X) (Y := Y) hτ (k + 2) (z := z)
    simp only [List.mem_cons, List.not_mem_nil, or_false, exists_eq_or_imp, exists_eq_left]
    rw [← h1, ← h2]
    constructor
    · rintro (h | h)
      · exact .inl ⟨hs, h⟩
      · exact .inr ⟨hs, h⟩
    · rintro (h | h)
      · exact .inl h.2
      · exact .inr h.2
  · simp only [List.mem_cons, List.not_mem_nil, or_false] at hb
    rcases hb with rfl | rfl
    · exact fun z h => ((kap_zero hτ _).2 h).1
    · exact fun z h => ((kap_zero hτ _).2 h).1
  · refine near (sq_interior (x := X + 1 / 2) (y := Y + 1 / 2) (by linarith) (by linarith) (by linarith) (by linarith)) hs fun s t h3 h4 h5 => ?_
    have g1 : 0 ≤ kap X Y τ k z := by rw [← h]; exact min_le_left _ _
    have g2 : 0 ≤ kap X Y τ (k + 2) z := by rw [← h]; exact min_le_right _ _
    have c1 := mul_pos h4 (kap_centre (X := X) (Y := Y) hτ k)
    have c2 := mul_pos h4 (kap_centre (X := X) (Y := Y) hτ (k + 2))
    rw [lt_min_iff, kap_affine k _ _ _ _ h5, kap_affine (k + 2) _ _ _ _ h5]
    constructor <;> positivity
  · rcases (hzero z hs).1 h with h | h
    · obtain ⟨c, c1, c2⟩ := kap_corner (X := X) (Y := Y) hτ k
      refine near c1 hs fun s t h3 h4 h5 => min_lt_iff.2 (.inl ?_)
      rw [kap_affine k _ _ _ _ h5, h]
      have := mul_neg_of_pos_of_neg h4 c2
      simpa using this
    · obtain ⟨c, c1, c2⟩ := kap_corner (X := X) (Y := Y) hτ (k + 2)
      refine near c1 hs fun s t h3 h4 h5 => min_lt_iff.2 (.inr ?_)
      rw [kap_affine (k + 2) _ _ _ _ h5, h]
      have := mul_neg_of_pos_of_neg h4 c2
      simpa using this

theorem const_sgn {c : ℝ} (hc : c ≠ 0) : Sgn X Y τ (fun _ => c) [] :=
  ⟨continuous_const, fun z _ => by simp [hc], fun _ h => (by cases h), fun _ _ h => absurd h hc, fun _ _ h => absurd h hc⟩

/-- The segments of a cell. -/
def cutsOf (pos : Bool) : Bool → Bool → Bool → Bool → List (LP × LP)
  | true, true, true, true => []
  | false, true, true, true => [kEnds 0]
  | true, false, true, true => [kEnds 1]
  | true, true, false, true => [kEnds 2]
  | true, true, true, false => [kEnds 3]
  | true, false, false, false => [kEnds 0]
  | false, true, false, false => [kEnds 1]
  | false, false, true, false => [kEnds 2]
  | false, false, false, true => [kEnds 3]
  | false, true, true, false => [sEnds 0]
  | true, false, false, true => [sEnds 0]
  | false, false, true, true => [sEnds 1]
  | true, true, false, false => [sEnds 1]
  | false, true, false, true => if pos then [kEnds 0, kEnds 2] else [kEnds 1, kEnds 3]
  | true, false, true, false => if pos then [kEnds 1, kEnds 3] else [kEnds 0, kEnds 2]
  | false, false, false, false => []

theorem sig_sgn (hτ : ∀ j, 0 < τ j ∧ τ j < 1) (pos s0 s1 s2 s3 : Bool) : Sgn X Y τ (sig X Y τ pos s0 s1 s2 s3) (cutsOf pos s0 s1 s2 s3) := by
  have k := fun j => kap_sgn (X := X) (Y := Y) hτ j
  have n := fun j => spl_sgn (X := X) (Y := Y) hτ j
  have m0 := min_sgn (X := X) (Y := Y) hτ 0 (by omega)
  have m1 := min_sgn (X := X) (Y := Y) hτ 1 (by omega)
  cases s0 <;> cases s1 <;> cases s2 <;> cases s3 <;>
    first
    | exact const_sgn (one_ne_zero (α := ℝ))
    | exact const_sgn (neg_ne_zero.2 (one_ne_zero (α := ℝ)))
    | exact k 0
    | exact k 1
    | exact k 2
    | exact k 3
    | exact (k 0).neg
    | exact (k 1).neg
    | exact (k 2).neg
    | exact (k 3).neg
    | exact n 0
    | exact n 1
    | exact (n 0).neg
    | exact (n 1).neg
    | (cases pos
       · first
         | exact m0.neg
         | exact m1.neg
       · first
         | exact m0
         | exact m1)

end

end Slsm.Front
