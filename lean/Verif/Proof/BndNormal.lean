import Verif.Proof.BndFlat
import Verif.Spec.Normal

/-! Normal vectors. -/

namespace Slsm

open FP LevelSet

namespace Boundary

abbrev Acc := Coord ℝ × Bool × ℝ

/-- Effect of a node with direction `u` on a point. -/
noncomputable def accStep (c : Coord ℝ) (q : Nat × Nat) (u : Coord ℝ) (a : Acc) : Acc :=
  if sqDist c q < 1 / 10 ^ 6 then (u, true, 1)
  else if a.2.1 then a
  else (⟨a.1.x + u.x / sqDist c q, a.1.y + u.y / sqDist c q⟩, false, a.2.2 + 1 / sqDist c q)

structure Holds (P0 : List (BoundaryPoint ℝ)) (acc : Nat → Acc) (s : List (BoundaryPoint ℝ) × List Bool × List ℝ) : Prop where
  plen : s.1.length = P0.length
  slen : s.2.1.length = P0.length
  wlen : s.2.2.length = P0.length
  pt : ∀ (k : Nat) (p0 : BoundaryPoint ℝ), P0[k]? = some p0 → s.1[k]? = some { p0 with normal := (acc k).1 } ∧
    s.2.1[k]? = some (acc k).2.1 ∧ s.2.2[k]? = some (acc k).2.2

theorem rd_some {α : Type} {l : List α} {i : Nat} {a : α} (h : l[i]? = some a) : rd l i = .ok a := rd_of_getElem? h

theorem wr_some {α : Type} {l : List α} {i : Nat} {a b : α} (h : l[i]? = some a) : wr l i b = .ok (l.set i b) :=
  wr_eq _ (List.getElem?_eq_some_iff.1 h).1

theorem set_at {α : Type} {l : List α} {k j : Nat} {a b : α} (h : l[k]? = some a) : (l.set k b)[j]? = if j = k then some b else l[j]? := by
  by_cases hj : j = k
  · subst hj
    rw [if_pos rfl, List.getElem?_set_self (List.getElem?_eq_some_iff.1 h).1]
  · rw [if_neg hj, List.getElem?_set_ne (Ne.symm hj)]

theorem normalPoint_holds {P0 : List (BoundaryPoint ℝ)} {acc : Nat → Acc} {s : List (BoundaryPoint ℝ) × List Bool × List ℝ}
    (H : Holds P0 acc s) {nd : Node ℝ} {x y : Nat} (hc : nd.coord = ⟨(x : ℝ), (y : ℝ)⟩) {j k : Nat} (hj : nd.boundaryPoints[j]? = some k)
    {p0 : BoundaryPoint ℝ} (hk : P0[k]? = some p0) (u : Coord ℝ) :
    ∃ s', normalPoint nd u.x u.y j s = .ok s' ∧ Holds P0 (Function.update acc k (accStep p0.coord (x, y) u (acc k))) s' := by
  obtain ⟨pts, st, wt⟩ := s
  obtain ⟨h1, h2, h3⟩ := H.pt k p0 hk
  have hr : sub nd.coord.x p0.coord.x * sub nd.coord.x p0.coord.x + sub nd.coord.y p0.coord.y * sub nd.coord.y p0.coord.y = sqDist p0.coord (x, y) := by
    rw [hc]; simp only [FP.sub_real]; unfold sqDist; ring
  dsimp only at h1 h2 h3
  unfold normalPoint
  dsimp only
  simp only [rd_some hj, rd_some h1, rd_some h2, rd_some h3, bind, Except.bind, wr_some h1, wr_some h2, wr_some h3, FP.add_real, FP.mul_real, hr, FP.lt_real, FP.lit_real, FP.nat_real, FP.div_real]
  unfold accStep
  by_cases hlt : sqDist p0.coord (x, y) < 1 / 10 ^ 6
  · rw [if_pos (by norm_num at hlt ⊢; exact hlt), if_pos hlt]
    refine ⟨_, rfl, by simpa using H.plen, by simpa using H.slen, by simpa using H.wlen, fun i q hi => ?_⟩
    obtain ⟨g1, g2, g3⟩ := H.pt i q hi
    dsimp only at g1 g2 g3 ⊢
    rw [set_at h1, set_at h2, set_at h3]
    by_cases hik : i = k
    · subst hik
      rw [hk] at hi
      cases hi
      simp
    · simp [hik, g1, g2, g3]
  · rw [if_neg (by norm_num at hlt ⊢; exact hlt), if_neg hlt]
    cases hset : (acc k).2.1 with
    | true =>
      rw [if_pos rfl, if_pos rfl, Function.update_eq_self]
      exact ⟨_, rfl, H⟩
    | false =>
      rw [if_neg (by simp), if_neg (by simp)]
      refine ⟨_, rfl, by simpa using H.plen, by simpa using H.slen, by simpa using H.wlen, fun i q hi => ?_⟩
      obtain ⟨g1, g2, g3⟩ := H.pt i q hi
      dsimp only at g1 g2 g3 ⊢
      rw [set_at h1, set_at h3]
      by_cases hik : i = k
      · subst hik
        rw [hk] at hi
        cases hi
        simp [g2, hset]
      · simp [hik, g1, g2, g3]

/-- All the points of a node. -/
theorem points_holds {P0 : List (BoundaryPoint ℝ)} {cs : Nat → Coord ℝ} (hcs : ∀ (k : Nat) (p0 : BoundaryPoint ℝ), P0[k]? = some p0 → p0.coord = cs k)
    {acc : Nat → Acc} {s : List (BoundaryPoint ℝ) × List Bool × List ℝ}
    (H : Holds P0 acc s) {nd : Node ℝ} {x y : Nat} (hc : nd.coord = ⟨(x : ℝ), (y : ℝ)⟩) {sl : List Nat}
    (hs : nd.boundaryPoints.take nd.nBoundaryPoints = sl) (hn : nd.nBoundaryPoints = sl.length) (hd : sl.Nodup) (hlt : ∀ k ∈ sl, k < P0.length)
    (u : Coord ℝ) :
    wp (forN nd.nBoundaryPoints s (normalPoint nd u.x u.y)) (Holds P0 fun k => if k ∈ sl then accStep (cs k) (x, y) u (acc k) else acc k) noErr := by
  rw [hn]
  have key := wp_forN (E := noErr) (n := sl.length) (f := normalPoint nd u.x u.y) (s := s)
    (fun i s => Holds P0 (fun k => if k ∈ sl.take i then accStep (cs k) (x, y) u (acc k) else acc k) s)
    (by simpa using H) (fun i hi s' H' => ?_)
  · simpa using key
  · have hi' : i < (nd.boundaryPoints.take nd.nBoundaryPoints).length := by rw [hs]; exact hi
    have hj : nd.boundaryPoints[i]? = some sl[i] := by
      have h1 : (nd.boundaryPoints.take nd.nBoundaryPoints)[i]? = some sl[i] := by rw [hs]; exact List.getElem?_eq_getElem hi
      rw [List.getElem?_take] at h1
      split_ifs at h1 with hh
      exact h1
    have hkl := hlt _ (List.getElem_mem hi)
    have hni : sl[i] ∉ sl.take i := by
      intro hm
      obtain ⟨a, ha, he⟩ := List.getElem_of_mem hm
      rw [List.getElem_take] at he
      have := (List.Nodup.getElem_inj_iff hd).1 he
      simp at ha
      omega
    obtain ⟨s'', e, H''⟩ := normalPoint_holds H' hc hj (List.getElem?_eq_getElem hkl) u
    rw [e, wp_ok]
    convert H'' using 1
    funext k
    have ht : ∀ k, k ∈ sl.take (i + 1) ↔ k ∈ sl.take i ∨ k = sl[i] := by
      intro k
      rw [List.take_add_one, List.getElem?_eq_getElem hi, List.mem_append]
      exact or_congr Iff.rfl List.mem_singleton
    by_cases hk : k = sl[i]
    · subst hk
      rw [Function.update_self, if_neg hni, if_pos ((ht _).2 (.inr rfl)), hcs _ _ (List.getElem?_eq_getElem hkl)]
    · rw [Function.update_of_ne hk]
      exact if_congr (by rw [ht]; simp [hk]) rfl rfl

theorem lineDiff_eq {G : Nat → Res ℝ} {g : Nat → ℝ} {n x : Nat} (hn : 1 ≤ n) (hf : n < 4294967295) (hG : ∀ k, k ≤ n → G k = .ok (g k)) (hx : x ≤ n) :
    lineDiff G n x = .ok (lineSlope g n x) := by
  have e1 : x + 1 ≤ 4294967295 := by omega
  unfold lineDiff lineSlope LevelSet.diff
  by_cases h0 : x = 0
  · subst h0
    rw [if_pos rfl, if_pos rfl, show u32 (0 + 1) = 1 by unfold u32; omega, hG 1 hn, hG 0 (by omega)]
    rfl
  · rw [if_neg h0, if_neg h0]
    have es : LevelSet.sub32 x 1 = x - 1 := sub32_eq (by omega) (by omega)
    by_cases h1 : x = n
    · subst h1
      rw [if_pos rfl, if_pos rfl, es, hG x hx, hG (x - 1) (by omega)]
      rfl
    · rw [if_neg h1, if_neg h1, es, show u32 (x + 1) = x + 1 by unfold u32; omega, hG (x + 1) (by omega), hG (x - 1) (by omega)]
      simp only [bind, Except.bind, pure, Except.pure, FP.mul_real, FP.lit_real, FP.sub_real]
      exact congrArg Except.ok (by push_cast; ring)

/-- Lattice coordinates of a node number. -/
def latticeOf (w n : Nat) : Nat × Nat := (n % (w + 1), n / (w + 1))

theorem latticeOf_nodeNo {w x y : Nat} (hx : x ≤ w) : latticeOf w (nodeNo w x y) = (x, y) := by
  unfold latticeOf nodeNo
  rw [idx_mod (by omega), idx_div (by omega)]

theorem nodeNo_latticeOf (w n : Nat) : nodeNo w (latticeOf w n).1 (latticeOf w n).2 = n := idx_eq _ _

theorem latticeOf_inj {w n n' : Nat} (e : latticeOf w n = latticeOf w n') : n = n' := by
  rw [← nodeNo_latticeOf w n, e, nodeNo_latticeOf]

section
variable {w h : Nat} {L L' : LevelSet ℝ} {isTarget : Bool} {b : Boundary ℝ} {sd : List ℝ}

/-- Direction of the gradient at a lattice point. -/
noncomputable def dir (w h : Nat) (L : LevelSet ℝ) (q : Nat × Nat) : Coord ℝ := unitVec (nodalGradient w h (level w L false) q)

theorem slotsOf_nodup (keys : List Place) (q : Nat × Nat) : (slotsOf keys q).Nodup := List.Nodup.filter _ List.nodup_range

theorem normalNode_holds (C : Core w h L) (E : Exact w h L sd isTarget b L') {P0 : List (BoundaryPoint ℝ)}
    (hP : P0.length = b.points.length) {cs : Nat → Coord ℝ} (hcs : ∀ (k : Nat) (p0 : BoundaryPoint ℝ), P0[k]? = some p0 → p0.coord = cs k)
    {acc : Nat → Acc} {s : List (BoundaryPoint ℝ) × List Bool × List ℝ} (H : Holds P0 acc s) {i n : Nat} (hi : L'.narrowBand[i]? = some n)
    (hn : n < L.mesh.nNodes) :
    wp (normalNode L' i s) (Holds P0 fun k => if k ∈ slotsOf (run w L.mesh sd isTarget (w * h)).keys (latticeOf w n) then
      accStep (cs k) (latticeOf w n) (dir w h L (latticeOf w n)) (acc k) else acc k) noErr := by
  obtain ⟨W, R, hm, hb, hl, _⟩ := E.rep
  have G := C.grid
  have hsml := C.small
  have A : Annot L.mesh L'.mesh := hm ▸ R.annot
  have G' := A.grid G
  obtain ⟨x, y, hx, hy, rfl⟩ := G.node_index hn
  rw [latticeOf_nodeNo hx]
  obtain ⟨nd, hnd⟩ := G'.node_exists hx hy
  obtain ⟨hs, hlen⟩ := R.slots x y nd hx hy (hm ▸ hnd)
  have hc : nd.coord = ⟨(x : ℝ), (y : ℝ)⟩ := by
    have := G'.coord x y nd hx hy hnd
    rw [this]
    simp [FP.nat_real]
  have hw1 := G.w_pos
  have hh1 := G.h_pos
  have hwb : w < 4294967295 := by
    have h1 := G.nNodes
    have : (w + 1) * 1 ≤ (w + 1) * (h + 1) := Nat.mul_le_mul_left _ (by omega)
    omega
  have hhb : h < 4294967295 := by
    have h1 := G.nNodes
    have : 1 * (h + 1) ≤ (w + 1) * (h + 1) := Nat.mul_le_mul_right _ (by omega)
    omega
  have hsd : ∀ a c, a ≤ w → c ≤ h → LevelSet.sdAt L' a c = .ok (level w L false a c) := by
    intro a c ha hc'
    have := sdAt_eq C.toWF ha hc'
    unfold LevelSet.sdAt at this ⊢
    rw [A.xy]
    rw [show L'.signedDistance = L.signedDistance by rw [E.level]]
    exact this
  unfold normalNode
  rw [wp_bind, rd_some hi, wp_ok, wp_bind, rd_some hnd, wp_ok]
  have Q := points_holds hcs H hc hs hlen (slotsOf_nodup _ _) (fun k hk => by
    rw [hP, hl.len, R.plen]
    obtain ⟨p, h1, _⟩ := mem_slotsOf.1 hk
    exact (List.getElem?_eq_some_iff.1 h1).1) (dir w h L (x, y))
  by_cases h0 : 0 < nd.nBoundaryPoints
  · rw [if_pos h0]
    dsimp only
    have f1 : floor nd.coord.x = x := by rw [hc]; exact Nat.floor_natCast x
    have f2 : floor nd.coord.y = y := by rw [hc]; exact Nat.floor_natCast y
    rw [f1, f2, G'.width, G'.height]
    rw [lineDiff_eq (g := fun k => level w L false k y) hw1 hwb (fun k hk => hsd k y hk hy) hx]
    rw [lineDiff_eq (g := fun k => level w L false x k) hh1 hhb (fun k hk => hsd x k hx hk) hy]
    simp only [wp_bind, wp_ok]
    simp only [FP.div_real, FP.sqrt_real, FP.add_real, FP.mul_real]
    have ed : ∀ a c : ℝ, a * a + c * c = a ^ 2 + c ^ 2 := fun a c => by ring
    rw [ed]
    exact Q
  · rw [if_neg h0, wp_pure]
    have : slotsOf (run w L.mesh sd isTarget (w * h)).keys (x, y) = [] := List.eq_nil_of_length_eq_zero (by omega)
    rw [this]
    simpa using H

/-! ### all nodes -/

/-- Effect of a list of nodes on a point. -/
noncomputable def accAll (w h : Nat) (L : LevelSet ℝ) (c : Coord ℝ) (ns : List (Nat × Nat)) : Acc :=
  ns.foldl (fun a q => accStep c q (dir w h L q) a) (⟨0, 0⟩, false, 0)

/-- Lattice points among the nodes `ns` at which the point `k` is listed. -/
def listed (w : Nat) (keys : List Place) (k : Nat) (ns : List Nat) : List (Nat × Nat) :=
  (ns.map (latticeOf w)).filter fun q => decide (k ∈ slotsOf keys q)

theorem listed_snoc (w : Nat) (keys : List Place) (k : Nat) (ns : List Nat) (n : Nat) :
    listed w keys k (ns ++ [n]) = listed w keys k ns ++ if k ∈ slotsOf keys (latticeOf w n) then [latticeOf w n] else [] := by
  unfold listed
  rw [List.map_append, List.filter_append]
  congr 1
  simp only [List.map_cons, List.map_nil, List.filter_cons, List.filter_nil, decide_eq_true_eq]

theorem band_loop (C : Core w h L) (E : Exact w h L sd isTarget b L') {P0 : List (BoundaryPoint ℝ)}
    (hP : P0.length = b.points.length) {cs : Nat → Coord ℝ} (hcs : ∀ (k : Nat) (p0 : BoundaryPoint ℝ), P0[k]? = some p0 → p0.coord = cs k)
    {s : List (BoundaryPoint ℝ) × List Bool × List ℝ} (H : Holds P0 (fun _ => (⟨0, 0⟩, false, 0)) s) :
    wp (forN L'.nNarrowBand s (normalNode L')) (Holds P0 fun k =>
      accAll w h L (cs k) (listed w (run w L.mesh sd isTarget (w * h)).keys k L.band)) noErr := by
  have e1 : L'.nNarrowBand = L.nNarrowBand := by rw [E.level]
  have e2 : L'.narrowBand = L.narrowBand := by rw [E.level]
  have hc := C.band_count
  rw [e1]
  have key := wp_forN (E := noErr) (n := L.nNarrowBand) (f := normalNode L') (s := s)
    (fun i s => Holds P0 (fun k => accAll w h L (cs k) (listed w (run w L.mesh sd isTarget (w * h)).keys k (L.narrowBand.take i))) s)
    (by simpa [listed, accAll] using H) (fun i hi s' H' => ?_)
  · exact key
  · have hl : i < L.narrowBand.length := by omega
    have hg : L.narrowBand[i]? = some L.narrowBand[i] := List.getElem?_eq_getElem hl
    have hm : L.narrowBand[i] ∈ L.band := by
      unfold LevelSet.band
      refine List.mem_of_getElem? (i := i) ?_
      rw [List.getElem?_take, if_pos hi, hg]
    refine wp_imp (normalNode_holds C E hP hcs H' (by rw [e2]; exact hg) (C.band_free _ hm).1) fun s'' H'' => ?_
    convert H'' using 1
    funext k
    rw [List.take_add_one, hg]
    change accAll w h L (cs k) (listed w _ k (L.narrowBand.take i ++ [L.narrowBand[i]])) = _
    rw [listed_snoc]
    split_ifs with hk
    · unfold accAll
      rw [List.foldl_append]
      rfl
    · rw [List.append_nil]

theorem accAll_far (c : Coord ℝ) {ns : List (Nat × Nat)} (hn : ∀ q ∈ ns, ¬ sqDist c q < 1 / 10 ^ 6) :
    accAll w h L c ns = (⟨(ns.map fun q => (dir w h L q).x / sqDist c q).sum, (ns.map fun q => (dir w h L q).y / sqDist c q).sum⟩, false,
      (ns.map fun q => 1 / sqDist c q).sum) := by
  induction ns using List.reverseRecOn with
  | nil => simp [accAll]
  | append_singleton l a ih =>
    have := ih fun q hq => hn q (by simp [hq])
    unfold accAll at this ⊢
    rw [List.foldl_append, this]
    simp only [List.foldl_cons, List.foldl_nil, accStep]
    rw [if_neg (hn a (by simp)), if_neg (by simp)]
    simp

theorem accAll_near (c : Coord ℝ) {ns : List (Nat × Nat)} {q0 : Nat × Nat} (hq : q0 ∈ ns) (h0 : sqDist c q0 < 1 / 10 ^ 6)
    (hn : ∀ q ∈ ns, sqDist c q < 1 / 10 ^ 6 → q = q0) : accAll w h L c ns = (dir w h L q0, true, 1) := by
  induction ns using List.reverseRecOn with
  | nil => cases hq
  | append_singleton l a ih =>
    unfold accAll at ih ⊢
    rw [List.foldl_append]
    simp only [List.foldl_cons, List.foldl_nil]
    by_cases ha : sqDist c a < 1 / 10 ^ 6
    · rw [accStep, if_pos ha, hn a (by simp) ha]
    · have hl : q0 ∈ l := by
        rcases List.mem_append.1 hq with h1 | h1
        · exact h1
        · rw [List.mem_singleton.1 h1] at h0; exact absurd h0 ha
      rw [ih hl fun q h1 h2 => hn q (by simp [h1]) h2, accStep, if_neg ha, if_pos rfl]

/-- The result of all nodes in terms of the blend. -/
theorem accAll_blend (c : Coord ℝ) {ns ms : List (Nat × Nat)} (hp : ns.Perm ms)
    (hu : ∀ q ∈ ns, ∀ q' ∈ ns, sqDist c q < 1 / 10 ^ 6 → sqDist c q' < 1 / 10 ^ 6 → q = q') :
    (accAll w h L c ns).1 = blend (dir w h L) c ms ∧ (ns ≠ [] → 0 < (accAll w h L c ns).2.2) := by
  unfold blend
  cases hf : ms.find? fun q => decide (sqDist c q < 1 / 10 ^ 6) with
  | some q =>
    have h1 := List.find?_some hf
    have h2 := hp.mem_iff.2 (List.mem_of_find?_eq_some hf)
    rw [decide_eq_true_eq] at h1
    rw [accAll_near c h2 h1 fun q' h3 h4 => hu q' h3 q h2 h4 h1]
    exact ⟨rfl, fun _ => by norm_num⟩
  | none =>
    have hn : ∀ q ∈ ns, ¬ sqDist c q < 1 / 10 ^ 6 := by
      intro q hq hc
      have := List.find?_eq_none.1 hf q (hp.mem_iff.1 hq)
      exact this (by simpa using hc)
    rw [accAll_far c hn]
    refine ⟨?_, fun hne => ?_⟩
    · dsimp only
      rw [(hp.map _).sum_eq, (hp.map fun q => (dir w h L q).y / sqDist c q).sum_eq]
    · dsimp only
      refine List.sum_pos _ (fun v hv => ?_) (by simpa using hne)
      obtain ⟨q, hq, rfl⟩ := List.mem_map.1 hv
      have := not_lt.1 (hn q hq)
      have h3 : (0 : ℝ) < sqDist c q := lt_of_lt_of_le (by norm_num) this
      positivity

theorem modAll {α : Type} (l : List α) (f : Nat → List α → Res (List α)) (g : Nat → α → α)
    (hf : ∀ i (v : List α) (a : α), i < l.length → v.length = l.length → v[i]? = some a → f i v = .ok (v.set i (g i a))) :
    ∃ v, forN l.length l f = .ok v ∧ v.length = l.length ∧ ∀ (i : Nat) (a : α), l[i]? = some a → v[i]? = some (g i a) := by
  have key := wp_forN (E := noErr) (n := l.length) (f := f) (s := l)
    (fun i v => v.length = l.length ∧ ∀ (k : Nat) (a : α), l[k]? = some a → v[k]? = some (if k < i then g k a else a))
    ⟨rfl, fun k a hk => by simpa using hk⟩ (fun i hi v ⟨hl, hv⟩ => ?_)
  · obtain ⟨v, e, hl, hv⟩ := wp_noErr_iff.1 key
    refine ⟨v, e, hl, fun i a hi => ?_⟩
    rw [hv i a hi, if_pos (List.getElem?_eq_some_iff.1 hi).1]
  · have h1 := hv i l[i] (List.getElem?_eq_getElem hi)
    rw [if_neg (by omega)] at h1
    rw [hf i v _ hi hl h1, wp_ok]
    refine ⟨by rw [List.length_set, hl], fun k a hk => ?_⟩
    rw [set_at h1]
    by_cases hki : k = i
    · subst hki
      rw [List.getElem?_eq_getElem hi] at hk
      cases hk
      simp
    · rw [if_neg hki, hv k a hk]
      congr 1
      exact if_congr (by omega) rfl rfl

theorem modAt_ok {α : Type} {v : List α} {i : Nat} {a : α} {f : α → Res α} {c : α} (h : v[i]? = some a) (hf : f a = .ok c) :
    modAt v i f = .ok (v.set i c) := by
  unfold modAt
  rw [rd_some h]
  simp only [bind, Except.bind]
  rw [hf]
  dsimp only
  rw [wr_some h]

/-- The result of `computeNormalVectors` before normalisation is `accAll`. -/
theorem computeNormalVectors_spec (C : Core w h L) (E : Exact w h L sd isTarget b L') :
    ∃ b', computeNormalVectors b L' = .ok b' ∧ b' = { b with points := b'.points } ∧ b'.points.length = b.points.length ∧
    ∀ (k : Nat) (pt : BoundaryPoint ℝ), b.points[k]? = some pt → ∃ p, (run w L.mesh sd isTarget (w * h)).keys[k]? = some p ∧
      let a := accAll w h L pt.coord (listed w (run w L.mesh sd isTarget (w * h)).keys k L.band)
      b'.points[k]? = some (unitNormal a.2.2 { pt with normal := a.1 }) := by
  have hn : b.nPoints = b.points.length := by
    obtain ⟨W, R, hm, hb, hl, _⟩ := E.rep
    rw [hl.len, R.plen, ← R.nPoints, hb]
  obtain ⟨v1, e1, l1, h1⟩ := modAll b.points (fun i l => modAt l i fun p => pure { p with normal := (⟨nat 0, nat 0⟩ : Coord ℝ) })
    (fun _ p => { p with normal := ⟨0, 0⟩ }) fun i v a hi hl ha => modAt_ok ha (by simp [FP.nat_real]; rfl)
  have H0 : Holds b.points (fun _ => (⟨0, 0⟩, false, 0)) (v1, List.replicate b.nPoints false, List.replicate b.nPoints (nat 0)) := by
    refine ⟨l1, by simp [hn], by simp [hn], fun k p0 hk => ⟨h1 k p0 hk, ?_, ?_⟩⟩
    · rw [List.getElem?_replicate, if_pos (by rw [hn]; exact (List.getElem?_eq_some_iff.1 hk).1)]
    · rw [List.getElem?_replicate, if_pos (by rw [hn]; exact (List.getElem?_eq_some_iff.1 hk).1)]
      simp [FP.nat_real]
  obtain ⟨⟨v2, st, wt⟩, e2, H⟩ := wp_noErr_iff.1 (band_loop C E rfl (cs := fun k => ((b.points[k]?).map (·.coord)).getD ⟨0, 0⟩)
    (fun k p0 hk => by rw [hk]; rfl) H0)
  have l2 : v2.length = b.points.length := H.plen
  obtain ⟨v3, e3, l3, h3⟩ := modAll v2 (fun i l => do
    let q ← rd wt i
    modAt l i fun p => pure (unitNormal q p)) (fun i p => unitNormal (wt.getD i 0) p) fun i v a hi hl ha => by
      have : i < wt.length := by rw [H.wlen, ← l2]; exact hi
      rw [rd_eq this]
      simp only [bind, Except.bind]
      rw [modAt_ok ha (c := unitNormal (wt.getD i 0) a)]
      rw [show wt.getD i 0 = wt[i] by simp [List.getD, this]]
      rfl
  refine ⟨{ b with points := v3 }, ?_, rfl, by rw [l3, l2], fun k pt hk => ?_⟩
  · unfold computeNormalVectors
    rw [hn] at e2 ⊢
    rw [e1]
    simp only [bind, Except.bind]
    rw [e2]
    dsimp only
    rw [← l2]
    simp only [bind, Except.bind] at e3
    rw [e3]
    rfl
  · obtain ⟨p, hp, -⟩ := E.point hk
    refine ⟨p, hp, ?_⟩
    obtain ⟨g1, g2, g3⟩ := H.pt k pt hk
    have := h3 k _ g1
    dsimp only at g3 this ⊢
    rw [this]
    simp [List.getD, g3, hk]

/-! ### points on edges -/

theorem coord_between {f : Nat → Nat → ℝ} {p : Place} (hc : p.onContour f) {q q' : Nat × Nat} (hq : q ∈ p.ends) (hq' : q' ∈ p.ends)
    (h1 : sqDist (p.coord f) q < 1 / 10 ^ 6) (h2 : sqDist (p.coord f) q' < 1 / 10 ^ 6) : q = q' := by
  have key : ∀ (a t : ℝ), (a - (a + t)) ^ 2 < 1 / 10 ^ 6 → (a + 1 - (a + t)) ^ 2 < 1 / 10 ^ 6 → False := by
    intro a t h3 h4
    have e3 : (a - (a + t)) ^ 2 = t ^ 2 := by ring
    have e4 : (a + 1 - (a + t)) ^ 2 = (1 - t) ^ 2 := by ring
    rw [e3] at h3
    rw [e4] at h4
    norm_num at h3 h4
    nlinarith [sq_nonneg (2 * t - 1)]
  cases p with
  | node x y =>
    simp only [Place.ends, List.mem_singleton] at hq hq'
    rw [hq, hq']
  | hor x y =>
    simp only [Place.ends, List.mem_cons, List.not_mem_nil, or_false] at hq hq'
    unfold sqDist Place.coord at h1 h2
    rcases hq with rfl | rfl <;> rcases hq' with rfl | rfl
    · rfl
    · push_cast at h1 h2
      exact (key _ _ (by nlinarith) (by nlinarith)).elim
    · push_cast at h1 h2
      exact (key _ _ (by nlinarith) (by nlinarith)).elim
    · rfl
  | ver x y =>
    simp only [Place.ends, List.mem_cons, List.not_mem_nil, or_false] at hq hq'
    unfold sqDist Place.coord at h1 h2
    rcases hq with rfl | rfl <;> rcases hq' with rfl | rfl
    · rfl
    · push_cast at h1 h2
      exact (key _ _ (by nlinarith) (by nlinarith)).elim
    · push_cast at h1 h2
      exact (key _ _ (by nlinarith) (by nlinarith)).elim
    · rfl

theorem ends_nodup (p : Place) : p.ends.Nodup := by cases p <;> simp [Place.ends]

open Classical in
theorem listed_perm (C : Core w h L) {keys : List Place} {k : Nat} {p : Place} (hk : keys[k]? = some p) (hp : p.inGrid w h) :
    (listed w keys k L.band).Perm (p.ends.filter fun q => decide (nodeNo w q.1 q.2 ∈ L.band)) := by
  refine (List.perm_ext_iff_of_nodup ?_ ?_).2 fun q => ?_
  · unfold listed
    refine List.Nodup.filter _ (List.Nodup.map (fun a c e => latticeOf_inj e) ?_)
    exact C.band_sorted.imp fun hlt => Nat.ne_of_lt hlt
  · exact List.Nodup.filter _ (ends_nodup p)
  · unfold listed
    simp only [List.mem_filter, List.mem_map, decide_eq_true_eq]
    have hs : k ∈ slotsOf keys q ↔ q ∈ p.ends := by
      rw [mem_slotsOf]
      constructor
      · rintro ⟨p', h1, h2⟩
        rw [hk] at h1
        cases h1
        exact h2
      · exact fun h2 => ⟨p, hk, h2⟩
    rw [hs, and_comm]
    refine and_congr_right fun hq => ?_
    constructor
    · rintro ⟨n, hn, rfl⟩
      rw [nodeNo_latticeOf]
      exact hn
    · intro hn
      exact ⟨_, hn, latticeOf_nodeNo (hp q hq).1⟩

theorem unitNormal_eq {a : ℝ} (ha : 0 < a) {p : BoundaryPoint ℝ} (hd : p.isDomain = false) :
    unitNormal a p = { p with normal := unitVec p.normal } := by
  unfold unitNormal unitVec vnorm
  rw [hd]
  simp only [Bool.false_eq_true, if_false, FP.div_real, FP.mul_real, FP.add_real, FP.sqrt_real]
  have e : p.normal.x / a * (p.normal.x / a) + p.normal.y / a * (p.normal.y / a) = (p.normal.x ^ 2 + p.normal.y ^ 2) / a ^ 2 := by
    field_simp
  rw [e, Real.sqrt_div' _ (by positivity), Real.sqrt_sq ha.le]
  have k : ∀ x : ℝ, x / a / (Real.sqrt (p.normal.x ^ 2 + p.normal.y ^ 2) / a) = x / Real.sqrt (p.normal.x ^ 2 + p.normal.y ^ 2) := by
    intro x
    rw [div_div_div_cancel_right₀ ha.ne']
  rw [k, k]

theorem vnorm_unitVec {v : Coord ℝ} (hv : v ≠ ⟨0, 0⟩) : vnorm (unitVec v) = 1 := by
  have hp : 0 < v.x ^ 2 + v.y ^ 2 := by
    by_contra hn
    have h1 : v.x = 0 := by nlinarith [sq_nonneg v.x, sq_nonneg v.y]
    have h2 : v.y = 0 := by nlinarith [sq_nonneg v.x, sq_nonneg v.y]
    exact hv (by cases v; simp_all)
  unfold vnorm unitVec vnorm
  dsimp only
  rw [div_pow, div_pow, Real.sq_sqrt hp.le, ← add_div, div_self hp.ne', Real.sqrt_one]

theorem unitNormal_frame (a : ℝ) (p : BoundaryPoint ℝ) : unitNormal a p = { p with normal := (unitNormal a p).normal } := by
  unfold unitNormal
  split <;> rfl

theorem ends_le_two (p : Place) : (bandEnds w L p).length ≤ 2 :=
  (List.length_filter_le _ _).trans (by cases p <;> simp [Place.ends])

theorem unitVec_scale {t : ℝ} (ht : 0 < t) (u : Coord ℝ) : unitVec ⟨t * u.x, t * u.y⟩ = unitVec u := by
  unfold unitVec vnorm
  dsimp only
  have : (t * u.x) ^ 2 + (t * u.y) ^ 2 = t ^ 2 * (u.x ^ 2 + u.y ^ 2) := by ring
  rw [this, Real.sqrt_mul (by positivity), Real.sqrt_sq ht.le, mul_div_mul_left _ _ ht.ne', mul_div_mul_left _ _ ht.ne']

theorem unitVec_unitVec {v : Coord ℝ} (hv : v ≠ ⟨0, 0⟩) : unitVec (unitVec v) = unitVec v := by
  have := vnorm_unitVec hv
  rw [unitVec, this]
  simp

theorem unitVec_ne_zero {v : Coord ℝ} (hv : v ≠ ⟨0, 0⟩) : unitVec v ≠ ⟨0, 0⟩ := by
  intro h0
  have := vnorm_unitVec hv
  rw [h0] at this
  unfold vnorm at this
  norm_num at this

/-- If all directions are the same, so is the blend (up to a positive factor). -/
theorem blend_const {u : Nat × Nat → Coord ℝ} {c u0 : Coord ℝ} {ns : List (Nat × Nat)} (hu : ∀ q ∈ ns, u q = u0) (hn : ns ≠ []) :
    ∃ t, 0 < t ∧ blend u c ns = ⟨t * u0.x, t * u0.y⟩ := by
  unfold blend
  cases hf : ns.find? fun q => decide (sqDist c q < 1 / 10 ^ 6) with
  | some q => exact ⟨1, one_pos, by rw [one_mul, one_mul]; exact hu q (List.mem_of_find?_eq_some hf)⟩
  | none =>
    refine ⟨(ns.map fun q => 1 / sqDist c q).sum, ?_, ?_⟩
    · refine List.sum_pos _ (fun v hv => ?_) (by simpa using hn)
      obtain ⟨q, hq, rfl⟩ := List.mem_map.1 hv
      have := List.find?_eq_none.1 hf q hq
      rw [decide_eq_true_eq, not_lt] at this
      have h3 : (0 : ℝ) < sqDist c q := lt_of_lt_of_le (by norm_num) this
      positivity
    · dsimp only
      rw [← List.sum_map_mul_right, ← List.sum_map_mul_right]
      congr 2
      · refine List.map_congr_left fun q hq => ?_
        rw [hu q hq]; ring
      · refine List.map_congr_left fun q hq => ?_
        rw [hu q hq]; ring

theorem lineSlope_linear {g : Nat → ℝ} {a c : ℝ} {n x : Nat} (hn : 1 ≤ n) (hx : x ≤ n) (hg : ∀ k, k ≤ n → g k = a * k + c) : lineSlope g n x = a := by
  unfold lineSlope
  split_ifs with h0 h1
  · rw [hg 1 hn, hg 0 (by omega)]; push_cast; ring
  · rw [hg n (le_refl _), hg (n - 1) (by omega), Nat.cast_sub hn]; push_cast; ring
  · rw [hg (x + 1) (by omega), hg (x - 1) (by omega), Nat.cast_sub (by omega)]; push_cast; ring

end

end Boundary

end Slsm
