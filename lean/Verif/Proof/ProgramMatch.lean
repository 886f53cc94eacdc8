import Verif.Spec.Program
import Verif.Proof.MeshGeom
import Verif.Proof.LSHist

/-! # Sensitivities of the shape matching program -/

namespace Slsm.Program

open LevelSet

variable {w h : Nat} {L : LevelSet ℝ} {c : Coord ℝ}

theorem clip_eq (m : ℝ) : clip m = limited m := by
  unfold clip limited
  simp only [FP.lt_real, FP.abs_real, FP.nat_real, FP.neg_real, Nat.cast_one, Nat.cast_zero]
  by_cases h1 : |m| < 1
  · rw [if_pos (by simpa using h1)]
    obtain ⟨a, b⟩ := abs_lt.1 h1
    rw [min_eq_right b.le, max_eq_right a.le]
  · rw [if_neg (by simpa using h1)]
    by_cases h2 : m < 0
    · rw [if_pos (by simpa using h2)]
      rw [abs_of_neg h2] at h1
      rw [min_eq_right (by linarith), max_eq_left (by linarith)]
    · rw [if_neg (by simpa using h2)]
      rw [abs_of_nonneg (not_lt.1 h2)] at h1
      rw [min_eq_left (by linarith), max_eq_right (by norm_num)]

theorem step_val (G : IsGrid w h L.mesh) (ht : L.target.length = L.mesh.nNodes) (hs : L.signedDistance.length = L.mesh.nNodes) {x y : Nat}
    (hx : x ≤ w) (hy : y ≤ h) (q : ℝ × ℝ) : mismatchStep L c (nodeNo w x y) (.inl q) =
      .ok (if sqDist c x y < 1 / 10 ^ 6 then .inr (limited (gap w L x y)) else .inl (q.1 + gap w L x y / sqDist c x y, q.2 + 1 / sqDist c x y)) := by
  have hlt : nodeNo w x y < (w + 1) * (h + 1) := nodeNo_lt hx hy
  have h1 : nodeNo w x y < L.mesh.nodes.length := by rw [G.nodes_length]; exact hlt
  have h2 : nodeNo w x y < L.target.length := by rw [ht, G.nNodes]; exact hlt
  have h3 : nodeNo w x y < L.signedDistance.length := by rw [hs, G.nNodes]; exact hlt
  have hc := G.coord x y _ hx hy (List.getElem?_eq_getElem h1)
  have hg : gap w L x y = L.target[nodeNo w x y] - L.signedDistance[nodeNo w x y] := by
    unfold gap vals
    rw [List.getD_eq_getElem?_getD, List.getD_eq_getElem?_getD, List.getElem?_eq_getElem h2, List.getElem?_eq_getElem h3]
    rfl
  have hq : sqDist c x y = ((x : ℝ) - c.x) * ((x : ℝ) - c.x) + ((y : ℝ) - c.y) * ((y : ℝ) - c.y) := by unfold sqDist; ring
  unfold mismatchStep
  obtain ⟨a, b⟩ := q
  dsimp only
  rw [rd_eq h1]
  simp only [bind, Except.bind]
  rw [rd_eq h2]
  dsimp only
  rw [rd_eq h3]
  dsimp only
  rw [hc]
  simp only [FP.sub_real, FP.mul_real, FP.add_real, FP.div_real, FP.nat_real, Nat.cast_one, clip_eq, ← hg, ← hq, FP.lt_real, FP.lit_real]
  by_cases hlt : sqDist c x y < 1 / 10 ^ 6
  · rw [if_pos (by norm_num at hlt ⊢; exact hlt), if_pos hlt]; rfl
  · rw [if_neg (by norm_num at hlt ⊢; exact hlt), if_neg hlt]; rfl

theorem step_outside (G : IsGrid w h L.mesh) (q : ℝ × ℝ) : mismatchStep L c ((w + 1) * (h + 1)) (.inl q) = .error .ub := by
  obtain ⟨a, b⟩ := q
  unfold mismatchStep
  dsimp only
  unfold rd
  rw [List.getElem?_eq_none (by rw [G.nodes_length])]
  rfl

/-- The loop over the neighbours, when none of the nodes coincides with the point. -/
theorem match_loop (G : IsGrid w h L.mesh) (ht : L.target.length = L.mesh.nNodes) (hs : L.signedDistance.length = L.mesh.nNodes) {x y : Nat}
    (hx : x ≤ w) (hy : y ≤ h) (hc : L.mesh.getClosestNode c = .ok (nodeNo w x y))
    (hfar : ∀ kx ky, kx ≤ w → ky ≤ h → 1 / 10 ^ 6 ≤ sqDist c kx ky) :
    (¬ onEdge w h x y → mismatchSensitivity L c = .ok (limited (starAverage w L c x y))) ∧
    (onEdge w h x y → mismatchSensitivity L c = .error .ub) := by
  have hlt : nodeNo w x y < (w + 1) * (h + 1) := nodeNo_lt hx hy
  have h1 : nodeNo w x y < L.mesh.nodes.length := by rw [G.nodes_length]; exact hlt
  have hn := G.neighbours x y _ hx hy (List.getElem?_eq_getElem h1)
  have sv : ∀ kx ky, kx ≤ w → ky ≤ h → ∀ q, mismatchStep L c (nodeNo w kx ky) (.inl q) =
      .ok (.inl (q.1 + gap w L kx ky / sqDist c kx ky, q.2 + 1 / sqDist c kx ky)) := by
    intro kx ky h1 h2 q
    rw [step_val G ht hs h1 h2, if_neg (not_lt.2 (hfar kx ky h1 h2))]
  -- the neighbour in each direction
  have nb : ∀ (i : Nat) (n : Nat) (q : ℝ × ℝ), (neighbourhood w h x y)[i]? = some n →
      ((rd L.mesh.nodes (nodeNo w x y)) >>= fun nd => rd nd.neighbours i >>= fun n => mismatchStep L c n (.inl q)) = mismatchStep L c n (.inl q) := by
    intro i n q hi
    rw [rd_eq h1]
    simp only [bind, Except.bind]
    rw [hn, rd_eq_ok.2 hi]
  have e0 : (neighbourhood w h x y)[0]? = some (nodeNoOr w h ((x : Int) - 1) y) := rfl
  have e1 : (neighbourhood w h x y)[1]? = some (nodeNoOr w h ((x : Int) + 1) y) := rfl
  have e2 : (neighbourhood w h x y)[2]? = some (nodeNoOr w h (x : Int) ((y : Int) - 1)) := rfl
  have e3 : (neighbourhood w h x y)[3]? = some (nodeNoOr w h (x : Int) ((y : Int) + 1)) := rfl
  have n0 : nodeNoOr w h ((x : Int) - 1) y = if x = 0 then (w + 1) * (h + 1) else nodeNo w (x - 1) y := by
    unfold nodeNoOr
    by_cases hz : x = 0
    · rw [if_neg (by omega), if_pos hz]
    · rw [if_pos (by omega), if_neg hz]
      congr 1
      omega
  have n1 : nodeNoOr w h ((x : Int) + 1) y = if x = w then (w + 1) * (h + 1) else nodeNo w (x + 1) y := by
    unfold nodeNoOr
    by_cases hz : x = w
    · rw [if_neg (by omega), if_pos hz]
    · rw [if_pos (by omega), if_neg hz]
      congr 1
  have n2 : nodeNoOr w h (x : Int) ((y : Int) - 1) = if y = 0 then (w + 1) * (h + 1) else nodeNo w x (y - 1) := by
    unfold nodeNoOr
    by_cases hz : y = 0
    · rw [if_neg (by omega), if_pos hz]
    · rw [if_pos (by omega), if_neg hz]
      congr 1
      omega
  have n3 : nodeNoOr w h (x : Int) ((y : Int) + 1) = if y = h then (w + 1) * (h + 1) else nodeNo w x (y + 1) := by
    unfold nodeNoOr
    by_cases hz : y = h
    · rw [if_neg (by omega), if_pos hz]
    · rw [if_pos (by omega), if_neg hz]
      congr 1
  -- the loop body
  obtain ⟨f, hf⟩ : ∃ f : Nat → (ℝ × ℝ) ⊕ ℝ → Res ((ℝ × ℝ) ⊕ ℝ), f = (fun i s => match s with
    | .inr v => pure (.inr v)
    | .inl q => do
      let nd ← rd L.mesh.nodes (nodeNo w x y)
      let n ← rd nd.neighbours i
      mismatchStep L c n (.inl q)) := ⟨_, rfl⟩
  have fv : ∀ (i n : Nat) (q : ℝ × ℝ), (neighbourhood w h x y)[i]? = some n → f i (.inl q) = mismatchStep L c n (.inl q) := by
    intro i n q hi
    rw [hf]
    exact nb i n q hi
  have expand : mismatchSensitivity L c = (forN 4 (.inl (0 + gap w L x y / sqDist c x y, 0 + 1 / sqDist c x y)) f >>= fun s => match s with
      | .inr v => pure v
      | .inl (mismatch, weight) => pure (clip (FP.div mismatch weight))) := by
    unfold mismatchSensitivity
    rw [hc, hf]
    change (mismatchStep L c (nodeNo w x y) (.inl (FP.nat 0, FP.nat 0)) >>= _) = _
    rw [sv x y hx hy, FP.nat_real, Nat.cast_zero]
    change (forN 4 _ _ >>= _) = _
    refine congr (congrArg _ (congrArg (forN 4 _) (funext fun i => funext fun s => by rcases s with q | v <;> rfl))) (funext fun s => ?_)
    rcases s with ⟨a, b⟩ | v <;> rfl
  have snoc : ∀ (k : Nat) (s : (ℝ × ℝ) ⊕ ℝ), forN (k + 1) s f = (forN k s f >>= f k) := fun _ _ => rfl
  have snocE : ∀ (k : Nat) (s : (ℝ × ℝ) ⊕ ℝ), forN k s f = .error .ub → forN (k + 1) s f = .error .ub := by
    intro k s e; rw [snoc, e]; rfl
  have snocO : ∀ (k n : Nat) (s : (ℝ × ℝ) ⊕ ℝ) (q : ℝ × ℝ), forN k s f = .ok (.inl q) → (neighbourhood w h x y)[k]? = some n →
      forN (k + 1) s f = mismatchStep L c n (.inl q) := by
    intro k n s q e hk; rw [snoc, e]; exact fv k n q hk
  rw [expand]
  generalize hs0 : (Sum.inl (0 + gap w L x y / sqDist c x y, 0 + 1 / sqDist c x y) : (ℝ × ℝ) ⊕ ℝ) = s0
  have z0 : forN 0 s0 f = .ok (.inl (0 + gap w L x y / sqDist c x y, 0 + 1 / sqDist c x y)) := by rw [hs0]; rfl
  have z1 := snocO 0 _ s0 _ z0 e0
  rw [n0] at z1
  unfold onEdge
  by_cases hx0 : x = 0
  · rw [if_pos hx0, step_outside G] at z1
    rw [snocE 3 _ (snocE 2 _ (snocE 1 _ z1))]
    exact ⟨fun h => absurd (.inl hx0) h, fun _ => rfl⟩
  rw [if_neg hx0, sv (x - 1) y (by omega) hy] at z1
  have z2 := snocO 1 _ s0 _ z1 e1
  rw [n1] at z2
  by_cases hxw : x = w
  · rw [if_pos hxw, step_outside G] at z2
    rw [snocE 3 _ (snocE 2 _ z2)]
    exact ⟨fun h => absurd (.inr (.inl hxw)) h, fun _ => rfl⟩
  rw [if_neg hxw, sv (x + 1) y (by omega) hy] at z2
  have z3 := snocO 2 _ s0 _ z2 e2
  rw [n2] at z3
  by_cases hy0 : y = 0
  · rw [if_pos hy0, step_outside G] at z3
    rw [snocE 3 _ z3]
    exact ⟨fun h => absurd (.inr (.inr (.inl hy0))) h, fun _ => rfl⟩
  rw [if_neg hy0, sv x (y - 1) hx (by omega)] at z3
  have z4 := snocO 3 _ s0 _ z3 e3
  rw [n3] at z4
  by_cases hyh : y = h
  · rw [if_pos hyh, step_outside G] at z4
    rw [z4]
    exact ⟨fun h => absurd (.inr (.inr (.inr hyh))) h, fun _ => rfl⟩
  rw [if_neg hyh, sv x (y + 1) hx (by omega)] at z4
  rw [z4]
  refine ⟨fun _ => ?_, fun h => by omega⟩
  simp only [bind, Except.bind, pure, Except.pure]
  rw [clip_eq]
  unfold starAverage star
  simp only [FP.div_real, List.map_cons, List.map_nil, List.sum_cons, List.sum_nil, add_zero, zero_add, add_assoc]

/-- The point lies on the closest node. -/
theorem match_node (G : IsGrid w h L.mesh) (ht : L.target.length = L.mesh.nNodes) (hs : L.signedDistance.length = L.mesh.nNodes) {x y : Nat}
    (hx : x ≤ w) (hy : y ≤ h) (hc : L.mesh.getClosestNode c = .ok (nodeNo w x y)) (hnear : sqDist c x y < 1 / 10 ^ 6) :
    mismatchSensitivity L c = .ok (limited (gap w L x y)) := by
  unfold mismatchSensitivity
  rw [hc]
  simp only [bind, Except.bind]
  rw [step_val G ht hs hx hy, if_pos hnear]
  rfl

theorem average_bounds {lo hi : ℝ} : ∀ l : List (ℝ × ℝ), l ≠ [] → (∀ q ∈ l, 0 < q.2) → (∀ q ∈ l, lo ≤ q.1 ∧ q.1 ≤ hi) →
    lo ≤ (l.map fun q => q.1 / q.2).sum / (l.map fun q => 1 / q.2).sum ∧ (l.map fun q => q.1 / q.2).sum / (l.map fun q => 1 / q.2).sum ≤ hi := by
  intro l hne hp hb
  have key : 0 ≤ (l.map fun q => 1 / q.2).sum ∧ lo * (l.map fun q => 1 / q.2).sum ≤ (l.map fun q => q.1 / q.2).sum ∧
      (l.map fun q => q.1 / q.2).sum ≤ hi * (l.map fun q => 1 / q.2).sum ∧ (l ≠ [] → 0 < (l.map fun q => 1 / q.2).sum) := by
    clear hne
    induction l with
    | nil => simp
    | cons q l ih =>
      obtain ⟨a, b, c, -⟩ := ih (fun p h => hp p (List.mem_cons_of_mem _ h)) (fun p h => hb p (List.mem_cons_of_mem _ h))
      have h1 : 0 < 1 / q.2 := one_div_pos.2 (hp q List.mem_cons_self)
      obtain ⟨h2, h3⟩ := hb q List.mem_cons_self
      have e : q.1 / q.2 = q.1 * (1 / q.2) := by ring
      simp only [List.map_cons, List.sum_cons]
      refine ⟨by linarith, ?_, ?_, fun _ => by linarith⟩
      · rw [e]; nlinarith [mul_le_mul_of_nonneg_right h2 h1.le]
      · rw [e]; nlinarith [mul_le_mul_of_nonneg_right h3 h1.le]
  obtain ⟨-, k1, k2, k3⟩ := key
  exact ⟨(le_div_iff₀ (k3 hne)).2 k1, (div_le_iff₀ (k3 hne)).2 k2⟩

end Slsm.Program
