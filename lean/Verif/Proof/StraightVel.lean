import Verif.Proof.Straight

/-! # A straight boundary: velocities are carried along the normal -/

namespace Slsm.FMM

variable {w h : Nat} {m : Mesh ℝ} {f : Nat → ℝ} {a b d r : ℝ}

/-- The neighbour towards the line is on the normal. -/
theorem toward_normal (hax : (|a| = 1 ∧ b = 0) ∨ (a = 0 ∧ |b| = 1)) {x y u v : Nat} (hx : x ≤ w) (hy : y ≤ h) (hu : u ≤ w) (hv : v ≤ h)
    (ha : Adj w h (nodeNo w x y) (nodeNo w u v)) (hne : a * u + b * v ≠ a * x + b * y) : a * v - b * u = a * y - b * x := by
  rcases ha with ⟨x1, x2, y1, h1, h2, h3, e1, e2, e3⟩ | ⟨x1, y1, y2, h1, h2, h3, e1, e2, e3⟩
  · obtain ⟨rfl, rfl⟩ := (nodeNo_inj hx h1).1 e1
    obtain ⟨rfl, rfl⟩ := (nodeNo_inj hu h2).1 e2
    rcases hax with ⟨h4, rfl⟩ | ⟨rfl, h4⟩
    · ring
    · exact absurd (by ring) hne
  · obtain ⟨rfl, rfl⟩ := (nodeNo_inj hx h1).1 e1
    obtain ⟨rfl, rfl⟩ := (nodeNo_inj hu h1).1 e2
    rcases hax with ⟨h4, rfl⟩ | ⟨rfl, h4⟩
    · exact absurd (by ring) hne
    · ring

/-- Two lattice points on the same normal, less than one apart, are the same. -/
theorem same_of_near (hax : (|a| = 1 ∧ b = 0) ∨ (a = 0 ∧ |b| = 1)) {x y u v : Nat} (h1 : a * v - b * u = a * y - b * x)
    (h2 : |(a * u + b * v) - (a * x + b * y)| < 1) : u = x ∧ v = y := by
  have key : ∀ p q : Nat, |(p : ℝ) - q| < 1 → p = q := by
    intro p q hpq
    rw [abs_lt] at hpq
    have a1 : (p : ℝ) < q + 1 := by linarith
    have a2 : (q : ℝ) < p + 1 := by linarith
    have a1 : p < q + 1 := by exact_mod_cast a1
    have a2 : q < p + 1 := by exact_mod_cast a2
    omega
  rcases hax with ⟨h4, rfl⟩ | ⟨rfl, h4⟩
  · have ha : a ≠ 0 := fun h => by rw [h] at h4; norm_num at h4
    constructor
    · apply key
      rw [show a * u + 0 * v - (a * x + 0 * y) = a * ((u : ℝ) - x) by ring, abs_mul, h4, one_mul] at h2
      exact h2
    · have : (v : ℝ) = y := mul_left_cancel₀ ha (by linarith)
      exact_mod_cast this
  · have ha : b ≠ 0 := fun h => by rw [h] at h4; norm_num at h4
    constructor
    · have : (u : ℝ) = x := mul_left_cancel₀ ha (by linarith)
      exact_mod_cast this
    · apply key
      rw [show 0 * (u : ℝ) + b * v - (0 * x + b * y) = b * ((v : ℝ) - y) by ring, abs_mul, h4, one_mul] at h2
      exact h2

theorem line_velocity (B : StraightBoundary w h (fun x y => f (nodeNo w x y)) a b d) (G : IsGrid w h m) (hbig : (w : ℝ) + h < FP.maxVal) {sd vel : List ℝ} (hf : vals sd = f)
    (hsd : sd.length = m.nNodes) (hvel : vel.length = m.nNodes) (hst : ∀ x y, x ≤ w → y ≤ h → (Active m (nodeNo w x y) ↔ |a * x + b * y - d| < r)) (t : Bool) :
    ∃ F', marchVelocity m sd vel (FMM.new m t) = .ok F' ∧ ∀ x y u v, x ≤ w → y ≤ h → u ≤ w → v ≤ h → Active m (nodeNo w x y) → FirstOnNormal a b d x y u v →
      vals F'.vel (nodeNo w x y) = vals F'.vel (nodeNo w u v) := by
  have had : ∀ i n, i < m.nNodes → n < m.nNodes → adm m true n → ¬ adm m true i → |lineG w a b d n| ≤ |lineG w a b d i| := by
    intro i n hi hn h1 h2
    obtain ⟨x, y, hx, hy, rfl⟩ := G.node_index hi
    obtain ⟨u, v, hu, hv, rfl⟩ := G.node_index hn
    rw [lineG_node hx, lineG_node hu]
    have h1 := (hst u v hu hv).1 (h1 rfl)
    have h2 : ¬ |a * x + b * y - d| < r := fun h => h2 fun _ => (hst x y hx hy).2 h
    linarith
  rcases C13_velocity_safe G sd vel hsd hvel t with ⟨F', hok, -⟩ | he
  · refine ⟨F', hok, ?_⟩
    obtain ⟨-, F, M, hv, -⟩ := marchedV G hsd hvel hok
    obtain ⟨s0, h0, C, hC, l, rr⟩ := M.steps
    rw [hf] at h0 hC
    have S := line_setting B G hC hbig fun i hi => ⟨(h0 i hi).1, (h0 i hi).2.1⟩
    have E := Exactly.run G S had rr
    have K := Carried.run G S had rr
    have hfr : ∀ i, i < m.nNodes → (s0.st i = .frozen ↔ |lineG w a b d i| < 1) := fun i hi => by
      rw [(h0 i hi).1, initSt_iff G f hi, line_interface B G hi]
    have key : ∀ k x y : Nat, x ≤ w → y ≤ h → |a * x + b * y - d| < k → Active m (nodeNo w x y) → F.st (nodeNo w x y) = .frozen ∧
        ∀ u v, u ≤ w → v ≤ h → FirstOnNormal a b d x y u v → F.abs.vel (nodeNo w x y) = F.abs.vel (nodeNo w u v) := by
      intro k
      induction k with
      | zero => intro x y hx hy hk; exact absurd hk (not_lt.2 (by push_cast; exact abs_nonneg _))
      | succ k ih =>
        intro x y hx hy hk hact
        have hn : nodeNo w x y < m.nNodes := by rw [G.nNodes]; exact nodeNo_lt hx hy
        by_cases h1 : |a * x + b * y - d| < 1
        · refine ⟨E.old _ hn ((hfr _ hn).2 (by rw [lineG_node hx]; exact h1)), fun u v hu hv hfn => ?_⟩
          obtain ⟨e1, e2, e3⟩ := hfn
          have : |(a * u + b * v) - (a * x + b * y)| < 1 := by
            rw [abs_lt] at h1 e2 ⊢
            rcases lt_trichotomy (a * x + b * y - d) 0 with g | g | g
            · have : a * u + b * v - d ≤ 0 := by by_contra hc; nlinarith
              constructor <;> linarith
            · constructor <;> linarith
            · have : 0 ≤ a * u + b * v - d := by by_contra hc; nlinarith
              constructor <;> linarith
          obtain ⟨rfl, rfl⟩ := same_of_near B.axis e1 this
          rfl
        · have h1 : 1 ≤ |a * x + b * y - d| := not_lt.1 h1
          obtain ⟨u', v', hu', hv', ha, e⟩ := line_toward B.axis B.meets hx hy (fun h => by rw [h] at h1; norm_num at h1)
          obtain ⟨n1, j, hj, n2⟩ := (adj_iff G hn).1 ha
          have hne : a * u' + b * v' ≠ a * x + b * y := by rcases e with ⟨_, q⟩ | ⟨_, q⟩ <;> intro h <;> linarith
          have hnorm := toward_normal B.axis hx hy hu' hv' ha hne
          have habs : |a * u' + b * v' - d| = |a * x + b * y - d| - 1 := by
            rcases e with ⟨p, q⟩ | ⟨p, q⟩ <;> rw [q]
            · rw [abs_of_pos p] at h1 ⊢; rw [abs_of_nonneg (by linarith)]
            · rw [abs_of_neg p] at h1 ⊢; rw [abs_of_nonpos (by linarith)]; ring
          have hact' : Active m (nodeNo w u' v') := by
            rw [hst u' v' hu' hv', habs]
            have := (hst x y hx hy).1 hact
            linarith
          obtain ⟨f1, f2⟩ := ih u' v' hu' hv' (by rw [habs]; push_cast at hk; linarith) hact'
          have hfin : F.st (nodeNo w x y) = .frozen := by
            have g1 := E.unmasked _ hn
            have g2 := M.noTrial _ hn
            have g3 : F.st (nodeNo w x y) ≠ .none := fun hs => M.closed _ hn hs (fun _ => hact) j hj (by rw [n2]; exact n1) (by rw [n2]; exact f1)
            have g1 : F.st (nodeNo w x y) ≠ .masked := g1
            cases hst' : F.st (nodeNo w x y) <;> simp_all
          refine ⟨hfin, fun u v hu hv hfn => ?_⟩
          have c := (K.carry _ j hn hfin (fun hh => by
              have := (hfr _ hn).1 hh
              rw [lineG_node hx] at this
              linarith) hj (by rw [n2]; exact n1) (by rw [n2, lineG_node hx, lineG_node hu']; exact habs)).2
          rw [n2] at c
          rw [c]
          obtain ⟨e1, e2, e3⟩ := hfn
          refine f2 u v hu hv ⟨e1.trans hnorm.symm, e2, ?_⟩
          rcases e with ⟨p, q⟩ | ⟨p, q⟩ <;> rw [q]
          · rw [abs_of_pos p] at h1
            have : 0 ≤ a * u + b * v - d := by by_contra hc; nlinarith
            exact mul_nonneg (by linarith) this
          · rw [abs_of_neg p] at h1
            have : a * u + b * v - d ≤ 0 := by by_contra hc; nlinarith
            exact mul_nonneg_of_nonpos_of_nonpos (by linarith) this
    intro x y u v hx hy hu hv' hact hfn
    obtain ⟨k, hk⟩ := exists_nat_gt |a * x + b * y - d|
    have := (key k x y hx hy hk hact).2 u v hu hv' hfn
    rw [hv]
    exact this
  · exfalso
    have hI : HasInterface w h (vals sd) := by rw [hf]; exact line_has B G
    obtain ⟨s0, h0, C, hC, hs⟩ := C14_velocity_exit_only G sd vel hsd hvel t (.inr inferInstance) he hI
    rw [hf] at h0 hC
    exact not_stuck G (line_setting B G hC hbig fun i hi => ⟨(h0 i hi).1, (h0 i hi).2.1⟩) had hs

end Slsm.FMM
