import Verif.Proof.LSHist

/-! Gradients on domains narrower than four cells; polynomial exactness; the noise loop. -/

namespace Slsm

set_option linter.unusedSectionVars false

namespace LevelSet

/-- The only abnormal outcome is undefined behaviour. -/
def OnlyUb {α : Type} (x : Res α) : Prop := wp x (fun _ => True) (fun e => e = .ub)

section
variable {α β : Type}

theorem onlyUb_bind {x : Res α} {f : α → Res β} (h1 : OnlyUb x) (h2 : ∀ a, OnlyUb (f a)) : OnlyUb (x >>= f) := by
  unfold OnlyUb at *
  rw [wp_bind]
  exact wp_imp h1 fun a _ => h2 a

theorem onlyUb_pure (a : α) : OnlyUb (pure a : Res α) := trivial

theorem onlyUb_rd (l : List α) (i : Nat) : OnlyUb (rd l i) := by
  unfold OnlyUb rd
  split <;> first | trivial | rfl

theorem onlyUb_wr (l : List α) (i : Nat) (a : α) : OnlyUb (wr l i a) := by
  unfold OnlyUb wr
  split <;> first | trivial | rfl

theorem onlyUb_ite {c : Prop} [Decidable c] {x y : Res α} (h1 : OnlyUb x) (h2 : OnlyUb y) : OnlyUb (if c then x else y) := by
  split <;> assumption

/-- If one pass of the loop cannot complete, the loop ends with undefined behaviour. -/
theorem forN_stuck {n : Nat} {s : α} {f : Nat → α → Res α} (h1 : ∀ i s, OnlyUb (f i s)) {k : Nat} (hk : k < n)
    (h2 : ∀ s s', f k s ≠ .ok s') : forN n s f = .error .ub := by
  induction n with
  | zero => omega
  | succ n ih =>
    have e : forN (n + 1) s f = (forN n s f >>= f n) := rfl
    rw [e]
    by_cases hkn : k < n
    · rw [ih hkn]; rfl
    · have : k = n := by omega
      subst this
      have hp : OnlyUb (forN k s f) := wp_forN (fun _ _ => True) trivial fun i _ s _ => h1 i s
      have := onlyUb_bind hp (fun a => h1 k a)
      cases hr : forN k s f with
      | error er => rw [hr] at hp; have : er = .ub := hp; rw [this]; rfl
      | ok t =>
        show f k t = _
        have h3 := h1 k t
        unfold OnlyUb at h3
        cases hf : f k t with
        | ok t' => exact absurd hf (h2 t t')
        | error er => rw [hf] at h3; have : er = .ub := h3; rw [this]
end

section
variable {D : Type} [FP D] {w h : Nat} {L : LevelSet D}

theorem onlyUb_sdAt (x y : Nat) : OnlyUb (sdAt L x y) := by
  unfold sdAt
  exact onlyUb_bind (onlyUb_rd _ _) fun a => onlyUb_bind (onlyUb_rd _ _) fun b => onlyUb_rd _ _

theorem onlyUb_diff {g : Nat → Res D} (hg : ∀ i, OnlyUb (g i)) (i j : Nat) : OnlyUb (diff g i j) := by
  unfold diff
  exact onlyUb_bind (hg i) fun a => onlyUb_bind (hg j) fun b => onlyUb_pure _

theorem onlyUb_forward {g : Nat → Res D} (hg : ∀ i, OnlyUb (g i)) (n x : Nat) : OnlyUb (derivForward g n x) := by
  unfold derivForward
  repeat' first | exact hg _ | apply onlyUb_ite | apply onlyUb_bind | apply onlyUb_diff hg | intro _ | exact onlyUb_pure _

theorem onlyUb_backward {g : Nat → Res D} (hg : ∀ i, OnlyUb (g i)) (n x : Nat) : OnlyUb (derivBackward g n x) := by
  unfold derivBackward
  repeat' first | exact hg _ | apply onlyUb_ite | apply onlyUb_bind | apply onlyUb_diff hg | intro _ | exact onlyUb_pure _

theorem onlyUb_corner (l : D) (x y : Nat) : OnlyUb (cornerCase L l x y) := by
  unfold cornerCase cornerGradient
  repeat' first | exact onlyUb_rd _ _ | apply onlyUb_ite | apply onlyUb_bind | apply onlyUb_sdAt | intro _ | exact onlyUb_pure _

theorem onlyUb_gradient (n : Nat) : OnlyUb (computeGradient L n) := by
  unfold computeGradient
  refine onlyUb_bind (onlyUb_rd _ _) fun nd => ?_
  refine onlyUb_bind (onlyUb_rd _ _) fun l => ?_
  refine onlyUb_bind (onlyUb_corner _ _ _) fun c => ?_
  cases c with
  | some g => exact onlyUb_pure _
  | none =>
    refine onlyUb_bind (onlyUb_rd _ _) fun v => ?_
    refine onlyUb_bind (onlyUb_forward (fun i => onlyUb_sdAt _ _) _ _) fun r => ?_
    refine onlyUb_bind (onlyUb_backward (fun i => onlyUb_sdAt _ _) _ _) fun r => ?_
    refine onlyUb_bind (onlyUb_forward (fun i => onlyUb_sdAt _ _) _ _) fun r => ?_
    refine onlyUb_bind (onlyUb_backward (fun i => onlyUb_sdAt _ _) _ _) fun r => ?_
    exact onlyUb_pure _

/-- On a domain three cells wide the second column reads past the last column. -/
theorem gradient_width3 [FloorNat D] (W : WF 3 h L) {y : Nat} (hy : y ≤ h) (g : D) : computeGradient L (nodeNo 3 1 y) ≠ .ok g := by
  have hlt : nodeNo 3 1 y < L.mesh.nodes.length := by rw [W.grid.nodes_length]; exact nodeNo_lt (by omega) hy
  have hs : nodeNo 3 1 y < L.signedDistance.length := by rw [W.sd, ← W.nodes_len]; exact hlt
  have hv : nodeNo 3 1 y < L.velocity.length := by rw [W.velocity, ← W.nodes_len]; exact hlt
  have hc := W.grid.coord 1 y _ (by omega) hy (get_node hlt)
  have hu : ∀ y', sdAt L 4 y' = .error .ub := by
    intro y'
    unfold sdAt rd
    rw [List.getElem?_eq_none (by rw [W.grid.xy_length])]
    rfl
  unfold computeGradient
  rw [rd_node hlt]
  simp only [bind, Except.bind]
  rw [rd_vals hs]
  dsimp only
  rw [hc]
  dsimp only
  have hf : FP.floor (FP.nat 1 : D) = 1 := FloorNat.floor_nat 1 (by norm_num)
  rw [hf]
  have hcorner : cornerCase L (vals L.signedDistance (nodeNo 3 1 y)) 1 (FP.floor (FP.nat y : D)) = .ok none := by
    unfold cornerCase
    rw [if_neg (by omega), W.grid.width, if_neg (by omega)]
    rfl
  rw [hcorner]
  dsimp only
  rw [rd_vals hv]
  dsimp only
  have hd : derivForward (fun k => sdAt L k (FP.floor (FP.nat y : D))) L.mesh.width 1 = .error .ub := by
    unfold derivForward diff
    rw [if_neg (by omega), if_pos rfl]
    simp only [hu, bind, Except.bind]
  rw [hd]
  intro hh
  cases hh

theorem gradients_width3 [FloorNat D] (C : Core 3 h L) {y : Nat} (hy : y ≤ h) (hb : nodeNo 3 1 y ∈ L.band) :
    computeGradients L = .error .ub := by
  obtain ⟨k, hk⟩ := List.getElem?_of_mem hb
  unfold band at hk
  rw [List.getElem?_take] at hk
  split at hk
  · rename_i hkn
    unfold computeGradients
    dsimp only
    rw [forN_stuck (k := k) _ hkn]
    · rfl
    · intro s s'
      rw [rd_of_getElem? hk]
      simp only [bind, Except.bind]
      cases hg : computeGradient L (nodeNo 3 1 y) with
      | ok g => exact absurd hg (gradient_width3 C.toWF hy g)
      | error e => intro hh; cases hh
    · intro i s
      exact onlyUb_bind (onlyUb_rd _ _) fun a => onlyUb_bind (onlyUb_gradient a) fun b => onlyUb_wr _ _ _
  · cases hk

/-! ### noise -/

/-- The first `n` numbers drawn from the generator. -/
def draws {ρ : Type} (normal : ρ → D × ρ) : Nat → ρ → List D
  | 0, _ => []
  | n + 1, g => (normal g).1 :: draws normal n (normal g).2

/-- State of the generator after `n` draws. -/
def afterDraws {ρ : Type} (normal : ρ → D × ρ) : Nat → ρ → ρ
  | 0, g => g
  | n + 1, g => afterDraws normal n (normal g).2

theorem addNoise_eq {ρ : Type} (normal : ρ → D × ρ) (noise : D) (points : List (BoundaryPoint D)) (g : ρ) :
    addNoise normal noise points g = (List.zipWith (fun p z =>
      { p with velocity := FP.add p.velocity (FP.mul (FP.div noise (FP.sqrt p.length)) z) }) points (draws normal points.length g),
      afterDraws normal points.length g) := by
  unfold addNoise
  have : ∀ (acc : List (BoundaryPoint D)) (g : ρ), points.foldl (fun (s : List (BoundaryPoint D) × ρ) p =>
      let (z, g') := normal s.2
      (s.1 ++ [{ p with velocity := FP.add p.velocity (FP.mul (FP.div noise (FP.sqrt p.length)) z) }], g')) (acc, g) =
      (acc ++ List.zipWith (fun p z =>
        { p with velocity := FP.add p.velocity (FP.mul (FP.div noise (FP.sqrt p.length)) z) }) points (draws normal points.length g),
      afterDraws normal points.length g) := by
    induction points with
    | nil => intro acc g; simp [afterDraws]
    | cons p l ih =>
      intro acc g
      rw [List.foldl_cons]
      dsimp only
      rw [ih]
      simp [draws, afterDraws]
  rw [this]
  simp

end

/-! ### polynomials -/

section

theorem slope_inner (f : Nat → ℝ) (n : Nat) (k : ℤ) (j : Nat) (hj : k = j) (hn : j + 1 ≤ n) : slope f n k = f (j + 1) - f j := by
  unfold slope
  have : (max 0 (min k (n - 1))).toNat = j := by omega
  rw [this]

theorem weno_cubic {c0 c1 c2 c3 t : ℝ} (q : ℝ → ℝ) (hq : ∀ s, q s = c0 + c1 * s + c2 * s ^ 2 + c3 * s ^ 3) :
    weno (q (t - 2) - q (t - 3)) (q (t - 1) - q (t - 2)) (q t - q (t - 1)) (q (t + 1) - q t) (q (t + 2) - q (t + 1)) =
      c1 + 2 * c2 * t + 3 * c3 * t ^ 2 := by
  refine weno_of_agree ?_ ?_ ?_ <;> (simp only [estimate1, estimate2, estimate3, hq]; ring)

theorem weno_cubic' {c0 c1 c2 c3 t : ℝ} (q : ℝ → ℝ) (hq : ∀ s, q s = c0 + c1 * s + c2 * s ^ 2 + c3 * s ^ 3) :
    weno (q (t + 3) - q (t + 2)) (q (t + 2) - q (t + 1)) (q (t + 1) - q t) (q t - q (t - 1)) (q (t - 1) - q (t - 2)) =
      c1 + 2 * c2 * t + 3 * c3 * t ^ 2 := by
  refine weno_of_agree ?_ ?_ ?_ <;> (simp only [estimate1, estimate2, estimate3, hq]; ring)

theorem leftDeriv_cubic {f : Nat → ℝ} {n x : Nat} {c0 c1 c2 c3 : ℝ} (hf : ∀ k, k ≤ n → f k = c0 + c1 * k + c2 * k ^ 2 + c3 * k ^ 3)
    (h3 : 3 ≤ x) (hx : x + 2 ≤ n) : leftDeriv f n x = c1 + 2 * c2 * x + 3 * c3 * x ^ 2 := by
  obtain ⟨z, rfl⟩ : ∃ z, x = z + 3 := ⟨x - 3, by omega⟩
  unfold leftDeriv
  rw [slope_inner f n _ z (by push_cast; ring) (by omega), slope_inner f n _ (z + 1) (by push_cast; ring) (by omega),
    slope_inner f n _ (z + 2) (by push_cast; ring) (by omega), slope_inner f n _ (z + 3) (by push_cast; ring) (by omega),
    slope_inner f n _ (z + 4) (by push_cast; ring) (by omega)]
  rw [hf _ (by omega), hf _ (by omega), hf _ (by omega), hf _ (by omega), hf _ (by omega), hf _ (by omega)]
  have := weno_cubic (c0 := c0) (c1 := c1) (c2 := c2) (c3 := c3) (t := (z + 3 : ℝ)) (fun s => c0 + c1 * s + c2 * s ^ 2 + c3 * s ^ 3) (fun _ => rfl)
  push_cast
  rw [← this]
  congr 1 <;> ring

theorem rightDeriv_cubic {f : Nat → ℝ} {n x : Nat} {c0 c1 c2 c3 : ℝ} (hf : ∀ k, k ≤ n → f k = c0 + c1 * k + c2 * k ^ 2 + c3 * k ^ 3)
    (h2 : 2 ≤ x) (hx : x + 3 ≤ n) : rightDeriv f n x = c1 + 2 * c2 * x + 3 * c3 * x ^ 2 := by
  obtain ⟨z, rfl⟩ : ∃ z, x = z + 2 := ⟨x - 2, by omega⟩
  unfold rightDeriv
  rw [slope_inner f n _ (z + 4) (by push_cast; ring) (by omega), slope_inner f n _ (z + 3) (by push_cast; ring) (by omega),
    slope_inner f n _ (z + 2) (by push_cast; ring) (by omega), slope_inner f n _ (z + 1) (by push_cast; ring) (by omega),
    slope_inner f n _ z (by push_cast; ring) (by omega)]
  rw [hf _ (by omega), hf _ (by omega), hf _ (by omega), hf _ (by omega), hf _ (by omega), hf _ (by omega)]
  have := weno_cubic' (c0 := c0) (c1 := c1) (c2 := c2) (c3 := c3) (t := (z + 2 : ℝ)) (fun s => c0 + c1 * s + c2 * s ^ 2 + c3 * s ^ 3) (fun _ => rfl)
  push_cast
  rw [← this]
  congr 1 <;> ring

end

end LevelSet

end Slsm
